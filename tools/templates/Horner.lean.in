import Verif.Model.Ops

/-! # `horner.hpp` and `log.hpp` -/

namespace Polylog

section
variable {F : Type} [FOps F]

/-- numeric literal -/
local notation:max "♯" q:max => (FOps.lit (q : ℚ) : F)

/-- the loop `for (int i = N - 2; i >= 0; --i) { p = p*x + c[i]; }` (horner.hpp 17-19);
the index of the next coefficient is `k - 1`. -/
def hornerLoop {N : Nat} (x : F) (c : Vector ℚ N) : (k : Nat) → k ≤ N → F → F
  | 0, _, p => p
  | k + 1, h, p => hornerLoop x c k (by omega) (p *. x +. ♯(c[k]))

/-- `T horner(T x, const T (&c)[N])` (horner.hpp 13-21), for an array of size `N = n + 1` -/
def horner {n : Nat} (x : F) (c : Vector ℚ (n + 1)) : F :=
  hornerLoop x c n (by omega) ♯(c[n])

/-- the loop `for (int i = N - 3; i >= Nstart; --i)` of the complex version (horner.hpp 35-39) -/
def hornerCLoop {N : Nat} (Nstart : Nat) (r s : F) (c : Vector ℚ N) :
    (k : Nat) → k ≤ N → F → F → F × F
  | 0, _, a, b => (a, b)
  | k + 1, h, a, b =>
    if Nstart ≤ k then
      hornerCLoop Nstart r s c k (by omega) (b +. r *. a) (♯(c[k]) -. s *. a)
    else (a, b)

/-- `template <int Nstart> std::complex<T> horner(z, coeffs)` (horner.hpp 24-42), for an array of size
`N = n + 2`; the `static_assert` is `0 <= Nstart < N`, `N >= 2`. -/
def hornerC {n : Nat} (Nstart : Nat) (z : Cx F) (c : Vector ℚ (n + 2)) : Cx F :=
  let rz := z.re
  let iz := z.im
  let r := rz +. rz
  let s := Cx.norm z
  let ab := hornerCLoop Nstart r s c n (by omega) ♯(c[n + 1]) ♯(c[n])
  ⟨rz *. ab.1 +. ab.2, iz *. ab.1⟩

%src cpp/log.hpp 15 28
/-- `log1p` for complex argument (log.hpp 15-28) -/
def clog1p (z : Cx F) : Cx F :=
  let u : Cx F := ♯1 +. z
  if u.re ==. ♯1 && u.im ==. ♯0 then z
  else if u.re <=. ♯0 then xlog u
  else xlog u *. (z /. (u -. ♯1))

%src cpp/log.hpp 37 48
/-- `pos_log` (log.hpp 38-48) -/
def posLog (z : Cx F) : Cx F :=
  if z.im ==. ♯0 && z.re >. ♯0 then ⟨FOps.log z.re, ♯0⟩
  else if z.im ==. ♯0 then ⟨FOps.log ∸z.re, ♯4 *. FOps.atan ♯1⟩
  else xlog z

end
end Polylog
