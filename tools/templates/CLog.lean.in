import Verif.Model.Ops

/-! # `src/c/log.c`, and the helper `hornerl` and the summation loops of `src/c/Li2.c` ... `src/c/Li6.c`

C complex arithmetic is modelled by the same operations as in C++: `creal`, `cimag`, `CMPLX` are the components, `clog(z) = (log(hypot), atan2)`,
and `a + b*I` with real `a`, `b` is the pair `(a, b)` (the C expression adds `b*0` to the real part, which only turns a real part `-0` into `+0`). -/

namespace Polylog.C

section
variable {F : Type} [FOps F]

/-- numeric literal -/
local notation:max "♯" q:max => (FOps.lit (q : ℚ) : F)

%src c/log.c 11 24
/-- `double _Complex clog1p(double _Complex z)` (log.c 11-24); the long double version (log.c 27-40) is the same -/
def clog1p (z : Cx F) : Cx F :=
  let u : Cx F := ⟪1.0 + z⟫
  let rz := u.re
  let iz := u.im
  if ⟪rz == 1.0 && iz == 0.0⟫ then z
  else if ⟪rz <= 0.0⟫ then ⟪clog(u)⟫
  else ⟪clog(u)*(z/(u - 1.0))⟫

%src c/log.c 50 62
/-- `double _Complex pos_clog(double _Complex z)` (log.c 50-62) -/
def pos_clog (z : Cx F) : Cx F :=
  let rz := z.re
  let iz := z.im
  if ⟪iz == 0.0 && rz > 0.0⟫ then ⟨⟪log(rz)⟫, ♯0⟩
  else if ⟪iz == 0.0⟫ then ⟨⟪log(-rz)⟫, ⟪3.1415926535897932⟫⟩
  else ⟪clog(z)⟫

%src c/log.c 72 84
/-- `long double _Complex pos_clogl(long double _Complex z)` (log.c 72-84) -/
def pos_clogl (z : Cx F) : Cx F :=
  let rz := z.re
  let iz := z.im
  if ⟪iz == 0.0L && rz > 0.0L⟫ then ⟨⟪logl(rz)⟫, ♯0⟩
  else if ⟪iz == 0.0L⟫ then ⟨⟪logl(-rz)⟫, ⟪3.14159265358979323846264338327950288L⟫⟩
  else ⟪clogl(z)⟫

/-- the loop `while (len--) p = p*x + c[len];` of `hornerl` (Li2.c 16-17) -/
def hornerlLoop {N : Nat} (x : F) (c : Vector ℚ N) : (len : Nat) → len ≤ N → F → F
  | 0, _, p => p
  | len + 1, h, p => hornerlLoop x c len (by omega) (p *. x +. ♯(c[len]))

/-- `static long double hornerl(long double x, const long double* c, int len)` (Li2.c 13-19), called with the length of the array -/
def hornerl {N : Nat} (x : F) (c : Vector ℚ N) : F := hornerlLoop x c N (le_refl N) ♯0

/-- the loop `for (int i = len - 1; i >= start; i--) sum = u*(c[i] + sum);` (Li2.c 546-548; Li3.c 307-309, 330-332; Li4.c 368-370, 392-394;
Li5.c 227-229, 250-252; Li6.c 232-234, 264-266); the index of the next coefficient is `len - 1` -/
def sumLoop {N : Nat} (start : Nat) (u : Cx F) (c : Vector ℚ N) : (len : Nat) → len ≤ N → Cx F → Cx F
  | 0, _, sum => sum
  | len + 1, h, sum => if start ≤ len then sumLoop start u c len (by omega) (u *. (♯(c[len]) +. sum)) else sum

/-- the loop over the whole array, starting from `sum = 0` -/
def csum {N : Nat} (start : Nat) (u : Cx F) (c : Vector ℚ N) : Cx F := sumLoop start u c N (le_refl N) (Cx.ofReal ♯0)

end
end Polylog.C
