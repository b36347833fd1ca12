import Verif.Model.Ops
import Mathlib.Analysis.SpecialFunctions.Gamma.Basic
import Mathlib.Analysis.SpecialFunctions.Complex.Arg
import Mathlib.Analysis.SpecialFunctions.Pow.Complex
import Mathlib.Analysis.SpecialFunctions.Pow.Real
import Mathlib.Analysis.SpecialFunctions.Trigonometric.Arctan

/-!
# Exact-real semantics of the floating-point operations

`R S` is the type `ℝ`; elementary operations return the mathematical value wherever it exists.
Wherever C++ would produce NaN, an infinity or an unspecified value (division by zero, logarithm of a
nonpositive number, ...) the result is an arbitrary "junk" function, a field of `S : RealSem`.  Theorems
are stated for all `S`, so none of them can depend on a totalised operation.

Literals are mapped through `S.rho`: the identity gives the decimal constants of the source text, the
rounding to binary32/64/... gives the constants the compiled program uses.

There are no signed zeros, NaNs or infinities in this semantics (`isnan = isinf = false`).
-/

noncomputable section

namespace Polylog
open Classical

/-- Parameters of the exact-real semantics. -/
structure RealSem where
  /-- value of a literal -/
  rho : ℚ → ℚ
  /-- `numeric_limits::infinity()`, `quiet_NaN()` : arbitrary -/
  inf : ℝ
  nan : ℝ
  /-- `numeric_limits::epsilon()` -/
  eps : ℝ
  /-- values of operations outside of their mathematical domain: arbitrary -/
  divJ : ℝ → ℝ
  logJ : ℝ → ℝ
  log1pJ : ℝ → ℝ
  tgammaJ : ℝ → ℝ
  powJ : ℝ → ℝ → ℝ
  fmodJ : ℝ → ℝ
  atan2J : ℝ
  cdivJ : ℂ → ℂ
  cpowJ : ℤ → ℂ

/-- the reals with the operations of `S` -/
def R (_S : RealSem) : Type := ℝ

/-- a pair as a complex number -/
def pairC (p : ℝ × ℝ) : ℂ := ⟨p.1, p.2⟩
/-- a complex number as a pair -/
def cPair (z : ℂ) : ℝ × ℝ := (z.re, z.im)

/-- C `fmod`: `x - y * trunc (x / y)` -/
def realFmod (x y : ℝ) : ℝ := x - y * (if 0 ≤ x / y then (⌊x / y⌋ : ℝ) else (⌈x / y⌉ : ℝ))

/-- C `pow` on reals: positive base, or zero base with positive exponent, or nonzero base with integer exponent -/
def realPow (J : ℝ → ℝ → ℝ) (x y : ℝ) : ℝ :=
  if 0 < x then x ^ y
  else if x = 0 ∧ 0 < y then 0
  else if x ≠ 0 ∧ (∃ n : ℤ, y = n) then x ^ ⌊y⌋
  else if y = 0 then 1
  else J x y

instance instFOpsR (S : RealSem) : FOps (R S) where
  lit q := ((S.rho q : ℚ) : ℝ)
  ofInt n := ((n : ℤ) : ℝ)
  add := fun (a b : ℝ) => a + b
  sub := fun (a b : ℝ) => a - b
  mul := fun (a b : ℝ) => a * b
  div := fun (a b : ℝ) => if b = 0 then S.divJ a else a / b
  neg := fun (a : ℝ) => -a
  lt := fun (a b : ℝ) => decide (a < b)
  le := fun (a b : ℝ) => decide (a ≤ b)
  eq := fun (a b : ℝ) => decide (a = b)
  log := fun (a : ℝ) => if 0 < a then Real.log a else S.logJ a
  log1p := fun (a : ℝ) => if -1 < a then Real.log (1 + a) else S.log1pJ a
  sin := Real.sin
  cos := Real.cos
  atan := Real.arctan
  ceil := fun (a : ℝ) => ((⌈a⌉ : ℤ) : ℝ)
  exp2 := fun (a : ℝ) => (2 : ℝ) ^ a
  tgamma := fun (a : ℝ) => if 0 < a then Real.Gamma a else S.tgammaJ a
  pow := realPow S.powJ
  fmod := fun (a b : ℝ) => if b = 0 then S.fmodJ a else realFmod a b
  hypot := fun (a b : ℝ) => Real.sqrt (a ^ 2 + b ^ 2)
  atan2 := fun (y x : ℝ) => if x = 0 ∧ y = 0 then S.atan2J else Complex.arg ⟨x, y⟩
  inf := S.inf
  nan := S.nan
  eps := S.eps
  isnan := fun _ => false
  isinf := fun _ => false
  isfinite := fun _ => true
  toInt := fun (a : ℝ) => if 0 ≤ a then some ⌊a⌋ else some ⌈a⌉
  cmul := fun (p q : ℝ × ℝ) => (p.1 * q.1 - p.2 * q.2, p.1 * q.2 + p.2 * q.1)
  cdiv := fun p q => if pairC q = 0 then cPair (S.cdivJ (pairC p)) else cPair (pairC p / pairC q)
  csqrt := fun p => cPair (pairC p ^ (1 / 2 : ℂ))
  cpow := fun p n => if pairC p = 0 ∧ n ≤ 0 then cPair (S.cpowJ n) else cPair (pairC p ^ n)

/-- reinterpret a real as an element of `R S` and back -/
def toR (S : RealSem) (x : ℝ) : R S := x
def ofR {S : RealSem} (x : R S) : ℝ := x

/-- `std::complex` over `R S` is `ℂ` -/
def Cx.toC {S : RealSem} (z : Cx (R S)) : ℂ := ⟨z.re, z.im⟩
def ofC (S : RealSem) (z : ℂ) : Cx (R S) := ⟨z.re, z.im⟩

end Polylog
