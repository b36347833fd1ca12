import Verif.Props.ZetaVals
import Verif.Props.LiNegRec
import Verif.Props.LiUB
import Verif.Props.FPSeriesSmall
import Verif.Props.FPSeriesReal
import Verif.Props.Cl2Real
import Verif.Props.Cl3Real
import Verif.Props.Cl4Real
import Verif.Props.Cl5Real
import Verif.Props.Cl6Real
import Verif.Props.FLi2Cx
import Verif.Props.CLi2Cx
import Verif.Props.CCx
import Verif.Props.CClReal
import Verif.Props.FPHang
import Verif.Props.Li4FPMain

/-! # Concrete cases that meet the hypotheses of theorems whose own files show none

Each `example` instantiates a claimed theorem at a concrete, non-trivial argument; what has to be discharged is exactly
its hypotheses. -/

namespace Polylog
open Complex

/-! ## C01: `zeta` -/

example := C01_pos RealSem.dec_lit 3 (by norm_num) (by decide)
example := C01_pos RealSem.dec_lit 400 (by norm_num) (by decide)
example := C01_zero RealSem.dec_lit
example := C01_neg_even RealSem.dec_lit 17 (by norm_num)
example := C01_neg_odd RealSem.dec_lit 130 (by norm_num) (by norm_num)
example := C01_overflow (F := R RealSem.dec) 131 (by norm_num) (by decide)

/-! ## C21: negative orders -/

/-- the power series of `Li_{-3}` at `z = 1/2` stopped after 60 terms -/
example : ‖(seriesTrace (-((3:ℕ):ℤ)) (ofC RealSem.dec (1/2)) 60).1.toC - pLiNeg 3 (1/2)‖ ≤ ((60:ℕ) + 1 : ℝ) ^ 3 * (1/2) ^ (60 + 1) / (1 - 3/4) :=
  C21_series_stop RealSem.dec_lit 3 (r := 1/2) (q := 3/4) (by norm_num) (by norm_num) 60 (by norm_num) (by norm_num)

example := C21_series RealSem.dec_lit 81 (by norm_num) (z := 1/4 + 1/4 * I) (by intro h; have := congrArg Complex.re h; norm_num at this) (by
  refine (norm_add_le _ _).trans ?_
  norm_num)

theorem log_I_norm : ‖Complex.log I‖ = Real.pi / 2 := by
  rw [Complex.log_I, show ((Real.pi : ℂ) / 2 * I) = ((Real.pi / 2 : ℝ) : ℂ) * I by push_cast; ring, norm_mul, Complex.norm_I, mul_one, Complex.norm_real,
    Real.norm_eq_abs, abs_of_pos (by positivity)]

/-- `Li_{-4}(i)`: the expansion in `log z` after 60 steps -/
example : ∃ s, liUnityNegHead (-((4:ℕ):ℤ)) (ofC RealSem.dec I) = .ok s ∧
      ‖(unityNegTrace (-((4:ℕ):ℤ)) (clog (ofC RealSem.dec I) *. clog (ofC RealSem.dec I)) s.2.2 (s.1, s.2.1) 60).1.toC - pLiNeg 4 I‖ ≤
        (4).factorial * negErr 0 4 (negK 4 60) (piErr 0 I) ‖Complex.log I‖ (1/3) := by
  have e : piErr 0 I = 0 := by unfold piErr; simp
  have k : negK 4 60 = 121 := by decide
  refine C21_unity RealSem.dec_lit (by norm_num) 4 (by norm_num) I_ne_zero ?_ ?_ 60 (by rw [k]; norm_num) (by rw [k]; norm_num) (by norm_num) ?_
  · rw [e, log_I_norm]; positivity
  · rw [e, log_I_norm]; linarith [Real.pi_pos]
  · rw [e, log_I_norm, k]; push_cast; nlinarith [Real.pi_pos]

/-! ## C23: `Li` -/

example : Defined (Li 0 5 (ofC RealSem.dec (3 + 4 * I))) := C23_Li_pos 0 5 (by norm_num) (by decide) _ (.inl (by norm_num))

/-- order 10^9 at `z = 3 + 4 i` is in the region of the inversion formula -/
example : Defined (Li 0 1000000000 (ofC RealSem.dec (3 + 4 * I))) := by
  refine C23_Li_pos 0 _ (by norm_num) (by decide) _ (.inr (.inr (.inr ?_)))
  show decide ((((1.4:ℚ)):ℝ) * (((1.4:ℚ)):ℝ) ≤ (3 + 4 * I).re * (3 + 4 * I).re + (3 + 4 * I).im * (3 + 4 * I).im) = true
  rw [decide_eq_true_eq]
  norm_num

example (L : Lib) (z : Cx (FP binary64 L)) := C23_Li_neg 100 (-7) (by decide) (by norm_num) z

/-! ## C22: the power series in IEEE arithmetic -/

example : (liSeriesC 7 (⟨rndQ binary64 (1/4), rndQ binary64 (1/8)⟩ : Cx (FP binary64 { zeroLib with pow := fun _ _ => rndQ binary64 (1/2) }))).cost ≤ 1085 := by
  refine C22_series_small (x := 1/4) (y := 1/8) ?_ ?_ ?_ ?_
  · intro a _ _ _
    exact ⟨1/2, near_dy fmtA64 1 1 (by norm_num) (by norm_num) (by norm_num), by norm_num, by norm_num⟩
  · exact near_dy fmtA64 1 2 (by norm_num) (by norm_num) (by norm_num)
  · exact near_dy fmtA64 1 3 (by norm_num) (by norm_num) (by norm_num)
  · rw [abs_of_pos (by norm_num), abs_of_pos (by norm_num)]; norm_num

/-! ## C34: denominators -/

example := (C34_Cl2 RealSem.dec_lit (by norm_num) (toR RealSem.dec 1)).1 (by show (0:ℝ) < 1; norm_num) (by
  show (1:ℝ) < (((3.14159265358979324:ℚ)):ℝ) / 2; norm_num)

/-! ## C37 - C39: ports -/

example := C37_cl3 RealSem.dec_lit (toR RealSem.dec (-100))
example := C37_cli5 RealSem.dec_lit (2 : ℂ)
example := C37_cli2 RealSem.dec_lit (3 + 4 * I)
example := C38_cdli2 RealSem.dec_lit (by norm_num) (by simp [RealSem.dec]) (ofC RealSem.dec 7) (3 + 4 * I)

/-! ## C41 -/

example : ∃ L : Lib, LogOK binary64 L ∧ ∃ (x : FP binary64 L) (r : ℚ), Val binary64 (ofF x) (-401 / 4) ∧ Val binary64 (ofF (Li4d x)) r ∧
    |(r : ℝ) - (pLi 4 ((-401 / 4 : ℚ) : ℂ)).re| ≤ 1500 * 2 ^ (-53 : ℤ) * (1 + Real.log (1 + |((-401 / 4 : ℚ) : ℝ)|) ^ 4) := by
  have hL := exists_logOK fmtA64 zeroLib
  set L : Lib := { zeroLib with log := approxF binary64 Real.log, log1p := approxF binary64 (fun t => Real.log (1 + t)) }
  have hv : Val binary64 (rndQ binary64 (-401 / 4)) (-401 / 4) := near_dy fmtA64 (-401) 2 (by norm_num) (by norm_num) (by norm_num)
  obtain ⟨r, hr, he, -⟩ := C41_Li4d hL (toF binary64 L (rndQ binary64 (-401 / 4))) hv
  exact ⟨L, hL, _, r, hv, hr, he⟩

end Polylog
