import Mathlib.Analysis.SpecialFunctions.Complex.Log
import Mathlib.MeasureTheory.Integral.IntervalIntegral.Basic
import Mathlib.Analysis.Calculus.Deriv.Basic

/-! # Specification: polylogarithms, Clausen and Glaisher–Clausen functions

Textbook definitions, independent of the code:
`Li_0(z) = z/(1-z)`, `Li_1(z) = -log(1-z)` (principal branch), `Li_{n+1}(z) = ∫_0^z Li_n(t)/t dt`
(along the straight path), `Li_{-n-1}(z) = z d/dz Li_{-n}(z)`.
On the branch cut `z > 1` this gives the usual convention `Im Li_n(x) = -π log^{n-1}(x)/(n-1)!`.
That for `|z| ≤ 1` these are the sums `∑ z^k/k^n` is proved in `Verif/Proofs/PolylogBasic.lean`.
-/

noncomputable section
namespace Polylog

/-- `Li_n(z)` for `n ≥ 0` -/
def pLi : ℕ → ℂ → ℂ
  | 0, z => z / (1 - z)
  | 1, z => -Complex.log (1 - z)
  | n + 2, z => ∫ t in (0 : ℝ)..1, pLi (n + 1) (t * z) / t

/-- `Li_{-n}(z)` for `n ≥ 0` -/
def pLiNeg : ℕ → ℂ → ℂ
  | 0, z => z / (1 - z)
  | n + 1, z => z * deriv (pLiNeg n) z

/-- `Li_n(z)` for every integer order -/
def polyLog (n : ℤ) (z : ℂ) : ℂ :=
  match n with
  | .ofNat n => pLi n z
  | .negSucc n => pLiNeg (n + 1) z

/-- Clausen function `Cl_n(θ)`: `∑ sin(kθ)/k^n` (n even), `∑ cos(kθ)/k^n` (n odd) -/
def clausen (n : ℕ) (θ : ℝ) : ℝ :=
  if n % 2 = 0 then (pLi n (Complex.exp (θ * Complex.I))).im else (pLi n (Complex.exp (θ * Complex.I))).re

/-- Glaisher–Clausen function `Sl_n(θ)`: `∑ cos(kθ)/k^n` (n even), `∑ sin(kθ)/k^n` (n odd) -/
def glaisher (n : ℕ) (θ : ℝ) : ℝ :=
  if n % 2 = 0 then (pLi n (Complex.exp (θ * Complex.I))).re else (pLi n (Complex.exp (θ * Complex.I))).im

end Polylog
