import Verif.Model.Cl1
import Verif.Model.Cl2
import Verif.Model.Cl3
import Verif.Model.Cl4
import Verif.Model.Cl5
import Verif.Model.Cl6
import Verif.Model.Sl

/-! # `Cl.cpp` -/

namespace Polylog

/-- `B[]` (Cl.cpp 27-79) -/
def clB : Vector ℚ @@ARRN cpp/Cl.cpp 27 79@@ :=
  @@ARR cpp/Cl.cpp 27 79@@

/-- `binomial[8][8]` (Cl.cpp 82-91) -/
def clBinomial : Vector (Vector Int 8) 8 := #v[
    #v[1, 0,  0,  0,   0,   0,  0,  0],
    #v[1, 1,  0,  0,   0,   0,  0,  0],
    #v[1, 2,  1,  0,   0,   0,  0,  0],
    #v[1, 3,  3,  1,   0,   0,  0,  0],
    #v[1, 4,  6,  4,   1,   0,  0,  0],
    #v[1, 5, 10, 10,   5,   1,  0,  0],
    #v[1, 6, 15, 20,  15,   6,  1,  0],
    #v[1, 7, 21, 35,  35,  21,  7,  1]]

/-- `inverse_factorial[]` (Cl.cpp 94-96) -/
def clInvFac : Vector ℚ @@ARRN cpp/Cl.cpp 94 96@@ :=
  @@ARR cpp/Cl.cpp 94 96@@

/-- `zeta[]` (Cl.cpp 99-103) -/
def clZeta : Vector ℚ @@ARRN cpp/Cl.cpp 99 103@@ :=
  @@ARR cpp/Cl.cpp 99 103@@

section
variable {F : Type} [FOps F]

/-- numeric literal -/
local notation:max "♯" q:max => (FOps.lit (q : ℚ) : F)
/-- conversion of an integer -/
local notation:max "♮" k:max => (FOps.ofInt k : F)

/-- `double range_reduce(int64_t n, double& x)` (Cl.cpp 165-176); returns `(x, sgn)` -/
def clReduce (n : Int) (x : F) : F × F :=
  let PI : F := ♯3.14159265358979324
  if isEven n then reduceSgn PI ♯0.0019353071795864769253 x
  else (reduceAbs PI ♯0.0019353071795864769253 x, ♯1)

/-- loop of `pcal` (Cl.cpp 184-187), `fuel` remaining iterations -/
def pcalLoop (n : Int) (x2 : F) : (fuel : Nat) → (i : Int) → F → M F
  | 0, _, sum => pure sum
  | fuel + 1, i, sum => do
    let sign : F := if isEven (i64div (n - 1) 2 + i64div (i - 1) 2) then ♯1 else ∸♯1
    let zi ← arrGet clZeta (i - 2)
    let fi ← arrGet clInvFac (n - i)
    pcalLoop n x2 fuel (i + 2) (x2 *. sum +. sign *. ♯zi *. ♯fi)

/-- `double pcal(int64_t n, double x)` (Cl.cpp 179-194); called with `7 <= n <= 9` only, so the integer
operations (unchecked here) are on small numbers.
Number of iterations of `for (i = 3; i <= n; i += 2)`: `(n - 1)/2`. -/
def pcal (n : Int) (x : F) : M F := do
  let x2 := x *. x
  let sum ← pcalLoop n x2 (i64div (n - 1) 2).toNat 3 ♯0
  pure (if isEven n then sum *. x else sum)

/-- loop of `ncal` (Cl.cpp 204-211), `k` is the loop variable, `fuel` remaining iterations -/
def ncalLoop (n : Int) (x2 : F) : (fuel : Nat) → (k : Int) → (sum xn : F) → M F
  | 0, _, sum, _ => pure sum
  | fuel + 1, k, sum, xn => do
    let b ← arrGet clB (k - 1)
    let oldSum := sum
    let sum := sum +. ♯b *. xn /. ♮(2*k + n + 1)
    if sum ==. oldSum then pure sum
    else ncalLoop n x2 fuel (k + 1) sum (xn *. x2)

/-- `double ncal(int64_t n, double x)` (Cl.cpp 197-214); called with `0 <= n <= 7` -/
def ncal (n : Int) (x : F) : M F := do
  let xn1 := powi x (n + 1)
  let x2 := x *. x
  let xn := xn1 *. x2
  let sum ← ncalLoop n x2 @@ARRN cpp/Cl.cpp 27 79@@ 1 ♯0 xn
  pure ((xn1 /. ♮(n + 1) +. sum) /. ♮(n + 1))

/-- loop of `nsum` (Cl.cpp 222-225); returns `(sum, xn)` -/
def nsumLoop (n : Int) (x : F) : (fuel : Nat) → (i : Int) → (sum xn : F) → M (F × F)
  | 0, _, sum, xn => pure (sum, xn)
  | fuel + 1, i, sum, xn => do
    let row ← arrGet clBinomial (n - 2)
    let b ← arrGet row i
    let nc ← ncal (n - 2 - i) x
    nsumLoop n x fuel (i + 1) (sum +. ♮b *. xn *. nc) (xn *. ∸x)

/-- `double nsum(int64_t n, double x)` (Cl.cpp 217-228); `for (i = 0; i <= n - 3; ++i)` -/
def nsum (n : Int) (x : F) : M F := do
  let r ← nsumLoop n x (n - 2).toNat 0 ♯0 ♯1
  let n0 ← ncal 0 x
  pure (r.1 +. r.2 *. n0)

/-- `double cl_series(int64_t n, double x)` (Cl.cpp 231-262); the loops are textually those of
`sl_series` with the parity of `n` exchanged (`slSinLoop`: Cl.cpp 242-247, `slCosLoop`: Cl.cpp 252-257) -/
def clSeries (n : Int) (x : F) : M F := do
  let kmax ← seriesKmax F n
  let co := FOps.cos x
  if isEven n then
    let si := FOps.sin x
    pure (slSinLoop n co (kmax - 1).toNat 2 ♯0 si si)
  else pure (slCosLoop n co (kmax - 1).toNat 2 ♯1 co co)

/-- the branch `n <= N_THRESH` of `Cl` (Cl.cpp 308-322) -/
def clMid (n : Int) (x sgn : F) : M F := do
  let sign1 : F := if isEven (i64div (n + 1) 2) then ♯1 else ∸♯1
  let f1 ← arrGet clInvFac (n - 1)
  let term1 : F := if x ==. ♯0 then ♯0
    else sign1 *. powi x (n - 1) *. ♯f1 *. FOps.log (♯2 *. FOps.sin (x /. ♯2))
  let sign2 : F := if isEven (i64div n 2) then ♯1 else ∸♯1
  let f2 ← arrGet clInvFac (n - 2)
  let pc ← pcal n x
  let ns ← nsum n x
  let term2 := pc -. sign2 *. ♯f2 *. ns
  pure (sgn *. (term1 +. term2))

/-- `double Cl(int64_t n, double x)` (Cl.cpp 270-326); `N_THRESH = 9` -/
def Cl (n : Int) (x : F) : M F :=
  let PI : F := ♯3.14159265358979324
  if n < 1 then pure FOps.nan
  else if n = 1 then pure (Cl1d x)
  else if n = 2 then pure (Cl2d x)
  else if n = 3 then pure (Cl3d x)
  else if n = 4 then pure (Cl4d x)
  else if n = 5 then pure (Cl5d x)
  else if n = 6 then pure (Cl6d x)
  else
    let xs := clReduce n x
    let x := xs.1
    let sgn := xs.2
    if isEven n && x ==. ♯0 then pure x
    else if isEven n && x ==. PI then pure ♯0
    else if n ≤ 9 then clMid n x sgn
    else do
      let s ← clSeries n x
      pure (sgn *. s)

end
end Polylog
