import Verif.Props.Cl2FP
import Verif.Props.Cl3FP
import Verif.Props.Cl4FP
import Verif.Props.Cl5FP
import Verif.Props.Cl6FP
import Verif.Props.CReal

/-! # C40: the hypotheses are met, and the C port -/

namespace Polylog

/-- the hypotheses are met: a library with the contract exists, and e.g. `x = -401/4`, which needs range reduction, is a binary64 number -/
example : ∃ L : Lib, LogOK binary64 L ∧ ∃ (x : FP binary64 L) (r : ℚ), Val binary64 (ofF x) (-401 / 4) ∧ Val binary64 (ofF (Cl2d x)) r ∧
    |(r : ℝ) - clausen 2 ((-401 / 4 : ℚ) : ℝ)| ≤ (506 + 78 * |((-401 / 4 : ℚ) : ℝ)|) * 2 ^ (-53 : ℤ) := by
  have hL := exists_logOK fmtA64 zeroLib
  set L : Lib := { zeroLib with log := approxF binary64 Real.log, log1p := approxF binary64 (fun t => Real.log (1 + t)) }
  have hv : Val binary64 (rndQ binary64 (-401 / 4)) (-401 / 4) := near_dy fmtA64 (-401) 2 (by norm_num) (by norm_num) (by norm_num)
  obtain ⟨r, hr, he, -⟩ := C40_Cl2d hL (toF binary64 L (rndQ binary64 (-401 / 4))) hv
  exact ⟨L, hL, _, r, hv, hr, he⟩

example : ∃ L : Lib, LogOK x87ext L ∧ ∃ (x : FP x87ext L) (r : ℚ), Val x87ext (ofF x) (7 / 4) ∧ Val x87ext (ofF (Cl5l x)) r ∧
    |(r : ℝ) - clausen 5 ((7 / 4 : ℚ) : ℝ)| ≤ 12121 * 2 ^ (-64 : ℤ) := by
  have hL := exists_logOK fmtA80 zeroLib
  set L : Lib := { zeroLib with log := approxF x87ext Real.log, log1p := approxF x87ext (fun t => Real.log (1 + t)) }
  have hv : Val x87ext (rndQ x87ext (7 / 4)) (7 / 4) := near_dy fmtA80 7 2 (by norm_num) (by norm_num) (by norm_num)
  obtain ⟨r, hr, -, he⟩ := C40_Cl5l_x87 hL (toF x87ext L (rndQ x87ext (7 / 4))) hv
  exact ⟨L, hL, _, r, hv, hr, he (by push_cast; rw [abs_of_nonneg (by norm_num)]; norm_num)⟩

example : ∃ L : Lib, LogOK binary128 L ∧ ∃ (x : FP binary128 L) (r : ℚ), Val binary128 (ofF x) (7 / 4) ∧ Val binary128 (ofF (Cl2l x)) r ∧
    |(r : ℝ) - clausen 2 ((7 / 4 : ℚ) : ℝ)| ≤ 203 * 2 ^ (-113 : ℤ) := by
  have hL := exists_logOK fmtA128 zeroLib
  set L : Lib := { zeroLib with log := approxF binary128 Real.log, log1p := approxF binary128 (fun t => Real.log (1 + t)) }
  have hv : Val binary128 (rndQ binary128 (7 / 4)) (7 / 4) := near_dy fmtA128 7 2 (by norm_num) (by norm_num) (by norm_num)
  obtain ⟨r, hr, -, he⟩ := C40_Cl2l_quad hL (toF binary128 L (rndQ binary128 (7 / 4))) hv
  exact ⟨L, hL, _, r, hv, hr, he (by push_cast; rw [abs_of_nonneg (by norm_num)]; norm_num)⟩

variable {L : Lib}

/-- **C40**, C port: `cl2` is within `(506 + 78 |x|) u` of `Cl_2(x)`, within `41 u` for `|x| ≤ 3.14` (`u = 2^-53`) -/
theorem C40_cl2_C (hL : LogOK binary64 L) (x : FP binary64 L) {q : ℚ} (hx : Val binary64 (ofF x) q) :
    ∃ r : ℚ, Val binary64 (ofF (C.cl2 x)) r ∧ |(r : ℝ) - clausen 2 q| ≤ (506 + 78 * |(q : ℝ)|) * 2 ^ (-53 : ℤ) ∧
      (|(q : ℝ)| ≤ 3.14 → |(r : ℝ) - clausen 2 q| ≤ 41 * 2 ^ (-53 : ℤ)) := C40_Cl2d hL x hx

/-- **C40**, C port: `cl5` -/
theorem C40_cl5_C (hL : LogOK binary64 L) (x : FP binary64 L) {q : ℚ} (hx : Val binary64 (ofF x) q) :
    ∃ r : ℚ, Val binary64 (ofF (C.cl5 x)) r ∧ |(r : ℝ) - clausen 5 q| ≤ (38 + 3 * |(q : ℝ)|) * 2 ^ (-53 : ℤ) ∧
      (|(q : ℝ)| ≤ 3.14 → |(r : ℝ) - clausen 5 q| ≤ 22 * 2 ^ (-53 : ℤ)) := C40_Cl5d hL x hx

/-- **C40**, C port: `cl6` -/
theorem C40_cl6_C (hL : LogOK binary64 L) (x : FP binary64 L) {q : ℚ} (hx : Val binary64 (ofF x) q) :
    ∃ r : ℚ, Val binary64 (ofF (C.cl6 x)) r ∧ |(r : ℝ) - clausen 6 q| ≤ (43 + 3 * |(q : ℝ)|) * 2 ^ (-53 : ℤ) ∧
      (|(q : ℝ)| ≤ 3.14 → |(r : ℝ) - clausen 6 q| ≤ 27 * 2 ^ (-53 : ℤ)) := C40_Cl6d hL x hx

end Polylog
