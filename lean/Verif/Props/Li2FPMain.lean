import Verif.Props.Li2FPFin
import Verif.Props.FPNan

/-!
# C35: `Li2` in IEEE arithmetic

For every finite argument the computed `Li2(x)` is finite, and its distance from the real part of the dilogarithm is at most a constant times the unit
roundoff `u = 2^-p` times `1 + log(1+|x|)^2`.  The library contract `LogOK` (relative error of `log` and `log1p` at most `2u + u^2`) is
satisfiable (`exists_logOK`).
-/

namespace Polylog

variable {φ : Fmt} {L : Lib}

theorem li2_re {P Q : ℝ} {y s ε : ℝ} (h0 : 0 ≤ y) (h1 : y ≤ 1 / 2) (hs : s = 1 ∨ s = -1) (hε : 0 ≤ ε)
    (h : 0 < y → |P / Q - reLi 2 y / y| ≤ ε) : |s * y * P / Q - s * reLi 2 y| ≤ ε / 2 := by
  rcases h0.eq_or_lt with h0 | h0
  · subst h0; simp [reLi_zero_right]; positivity
  · have h2 := h h0
    have e : s * y * P / Q - s * reLi 2 y = s * y * (P / Q - reLi 2 y / y) := by field_simp
    have hs1 : |s| = 1 := by rcases hs with h | h <;> rw [h] <;> simp
    rw [e, abs_mul, abs_mul, hs1, one_mul, abs_of_pos h0]
    have := abs_nonneg (P / Q - reLi 2 y / y)
    nlinarith

theorem li2f_re {y s : ℝ} (h0 : 0 ≤ y) (h1 : y ≤ 1 / 2) (hs : s = 1 ∨ s = -1) : |li2fE.re (renv3 y s) - s * reLi 2 y| ≤ 2.4e-7 / 2 := by
  have e : li2fE.re (renv3 y s) = s * y * qv li2fP y / qv li2fQ y := by
    have h : li2fE.re (renv3 y s) = s * y * ((li2fP[0] : ℝ) + y * (li2fP[1] : ℝ) + y * y * (li2fP[2] : ℝ))
      / ((li2fQ[0] : ℝ) + y * (li2fQ[1] : ℝ) + y * y * (li2fQ[2] : ℝ)) := rfl
    rw [h]; simp only [qv, Fin.sum_univ_succ]; simp; ring_nf
  rw [e]
  refine li2_re h0 h1 hs (by norm_num) fun h => ?_
  have := (li2f_ratio (S := RealSem.dec) (lit_id _ rfl) (by norm_num) h h1).2
  rw [rv_id rfl, rv_id rfl] at this
  simpa using this

theorem li2d_re {y s : ℝ} (h0 : 0 ≤ y) (h1 : y ≤ 1 / 2) (hs : s = 1 ∨ s = -1) : |li2dE.re (renv3 y s) - s * reLi 2 y| ≤ 5.87e-17 / 2 := by
  have e : li2dE.re (renv3 y s) = s * y * qv li2dP y / qv li2dQ y := by
    have h : li2dE.re (renv3 y s) = s * y * ((li2dP[0] : ℝ) + y * (li2dP[1] : ℝ) + y * y * ((li2dP[2] : ℝ) + y * (li2dP[3] : ℝ)) + (y * y) * (y * y) * ((li2dP[4] : ℝ) + y * (li2dP[5] : ℝ)))
      / ((li2dQ[0] : ℝ) + y * (li2dQ[1] : ℝ) + y * y * ((li2dQ[2] : ℝ) + y * (li2dQ[3] : ℝ)) + (y * y) * (y * y) * ((li2dQ[4] : ℝ) + y * (li2dQ[5] : ℝ) + y * y * (li2dQ[6] : ℝ))) := rfl
    rw [h]; simp only [qv, Fin.sum_univ_succ]; simp; ring_nf
  rw [e]
  refine li2_re h0 h1 hs (by norm_num) fun h => ?_
  have := (li2d_ratio (S := RealSem.dec) (lit_id _ rfl) (by norm_num) h h1).2
  rw [rv_id rfl, rv_id rfl] at this
  simpa using this

theorem li2l_reE {n m : ℕ} (P : Vector ℚ (n + 1)) (Q : Vector ℚ (m + 1)) (y s : ℝ) :
    ((li2lFin (F := FE) P Q (.var 0) (.var 1) (.var 2)).rhs).re (renv3 y s) = s * y * qv P (y - 1 / 4) / qv Q (y - 1 / 4) := by
  have h : ((li2lFin (F := FE) P Q (.var 0) (.var 1) (.var 2)).rhs).re (renv3 y s) =
      s * y * (horner (F := FE) (.sub (.var 0) (.lit 0.25)) P).re (renv3 y s) / (horner (F := FE) (.sub (.var 0) (.lit 0.25)) Q).re (renv3 y s) := rfl
  rw [h, FE.re_horner, FE.re_horner]
  have e : (FE.sub (.var 0) (.lit 0.25)).re (renv3 y s) = y - 1 / 4 := by
    change y - (((0.25 : ℚ)) : ℝ) = _
    norm_num
  rw [e]

theorem li2l18_re {y s : ℝ} (h0 : 0 ≤ y) (h1 : y ≤ 1 / 2) (hs : s = 1 ∨ s = -1) : |li2l18E.re (renv3 y s) - s * reLi 2 y| ≤ 2.15e-20 / 2 := by
  rw [li2l18E, li2l_reE]
  refine li2_re h0 h1 hs (by norm_num) fun h => ?_
  have := (li2l18_ratio (S := RealSem.dec) (lit_id _ rfl) (by norm_num) h h1).2
  rw [rv_id rfl, rv_id rfl] at this
  simpa using this

theorem li2l36_re {y s : ℝ} (h0 : 0 ≤ y) (h1 : y ≤ 1 / 2) (hs : s = 1 ∨ s = -1) : |li2l36E.re (renv3 y s) - s * reLi 2 y| ≤ 4.31e-36 / 2 := by
  rw [li2l36E, li2l_reE]
  refine li2_re h0 h1 hs (by norm_num) fun h => ?_
  have := (li2l36_ratio (S := RealSem.dec) (lit_id _ rfl) (by norm_num) h h1).2
  rw [rv_id rfl, rv_id rfl] at this
  simpa using this

theorem li2l_fp {n m : ℕ} (P : Vector ℚ (n + 1)) (Q : Vector ℚ (m + 1)) (y r s : FP φ L) :
    ofF (li2lFin P Q y r s) = (ofF r).add φ (((li2lFin (F := FE) P Q (.var 0) (.var 1) (.var 2)).rhs).fp φ (env3 (ofF y) (ofF r) (ofF s))) := by
  have h : ((li2lFin (F := FE) P Q (.var 0) (.var 1) (.var 2)).rhs).fp φ (env3 (ofF y) (ofF r) (ofF s)) =
      (((ofF s).mul φ (ofF y)).mul φ ((horner (F := FE) (.sub (.var 0) (.lit 0.25)) P).fp φ (env3 (ofF y) (ofF r) (ofF s)))).div φ
        ((horner (F := FE) (.sub (.var 0) (.lit 0.25)) Q).fp φ (env3 (ofF y) (ofF r) (ofF s))) := rfl
  rw [h, FE.fp_horner (L := L), FE.fp_horner (L := L)]
  rfl

/-- the expression does not mention the variable `1` -/
def FE.no1 : FE → Bool
  | .var i => i != 1
  | .lit _ => true
  | .add a b => a.no1 && b.no1
  | .sub a b => a.no1 && b.no1
  | .mul a b => a.no1 && b.no1
  | .div a b => a.no1 && b.no1
  | .neg a => a.no1

theorem FE.no1_fp {e : FE} (h : e.no1 = true) (r r' s y : FV) : e.fp φ (env3 y r s) = e.fp φ (env3 y r' s) := by
  induction e with
  | var i =>
    simp only [FE.no1, bne_iff_ne, ne_eq] at h
    match i with
    | 0 => rfl
    | 1 => exact absurd rfl h
    | i + 2 => rfl
  | lit q => rfl
  | add a b i1 i2 => simp only [FE.no1, Bool.and_eq_true] at h; simp only [FE.fp, i1 h.1, i2 h.2]
  | sub a b i1 i2 => simp only [FE.no1, Bool.and_eq_true] at h; simp only [FE.fp, i1 h.1, i2 h.2]
  | mul a b i1 i2 => simp only [FE.no1, Bool.and_eq_true] at h; simp only [FE.fp, i1 h.1, i2 h.2]
  | div a b i1 i2 => simp only [FE.no1, Bool.and_eq_true] at h; simp only [FE.fp, i1 h.1, i2 h.2]
  | neg a i1 => simp only [FE.no1] at h; simp only [FE.fp, i1 h]

theorem finOK_f : FinOK binary32 L li2fFin (11 * uR binary32) := by
  refine finOK_of fmtA32 fmtOK32 (by simp) (by decide +kernel) li2fE (fun y r s => rfl)
    li2fE_box (fun y s h0 h1 hs => li2f_re h0 h1 hs) (FE.no1_fp (by decide +kernel)) ?_ ?_
  · norm_num [uR, binary32]
  · norm_num [uR, binary32]

theorem finOK_d : FinOK binary64 L li2dFin (58 * uR binary64) := by
  refine finOK_of fmtA64 fmtOK64 (by simp) (by decide +kernel) li2dE (fun y r s => rfl)
    li2dE_box (fun y s h0 h1 hs => li2d_re h0 h1 hs) (FE.no1_fp (by decide +kernel)) ?_ ?_
  · norm_num [uR, binary64]
  · norm_num [uR, binary64]

theorem finOK_l18 : FinOK x87ext L (li2lFin li2l18P li2l18Q) (43 * uR x87ext) := by
  refine finOK_of fmtA80 fmtOK80 (by simp) (by decide +kernel) li2l18E (fun y r s => li2l_fp ..)
    li2l18E_box (fun y s h0 h1 hs => li2l18_re h0 h1 hs) (FE.no1_fp (by decide +kernel)) ?_ ?_
  · norm_num [uR, x87ext]
  · norm_num [uR, x87ext]

theorem finOK_l36 : FinOK binary128 L (li2lFin li2l36P li2l36Q) (951 * uR binary128) := by
  refine finOK_of fmtA128 fmtOK128 (by simp) (by decide +kernel) li2l36E (fun y r s => li2l_fp ..)
    li2l36E_box (fun y s h0 h1 hs => li2l36_re h0 h1 hs) (FE.no1_fp (by decide +kernel)) ?_ ?_
  · norm_num [uR, binary128]
  · norm_num [uR, binary128]

theorem near_pi (hφ : FmtA φ) {q : ℚ} (h0 : 0 ≤ q) (h4 : (q : ℝ) ≤ 3.2) (e : ℚ) (h : |q - piQ| + 1 / 10 ^ 49 ≤ e) (he : (e : ℝ) ≤ uR φ / 2) :
    Near φ (rndQ φ q) Real.pi (4 * uR φ) := by
  have hu := hφ.u_le
  have hu0 := uR_pos (φ := φ)
  have h0' : (0:ℝ) ≤ q := by exact_mod_cast h0
  have h1 := pi_lit q e h
  refine ((near_lit hφ (q := q) (by rw [abs_of_nonneg h0']; norm_num at h4 ⊢; linarith)).shift h1).mono ?_
  rw [abs_of_nonneg h0']
  nlinarith

/-- **C35**, `float`: for every finite `x`, `Li2(x)` is finite and within `71 u (1 + log²(1+|x|))` of `Re Li2(x)`, `u = 2^-24`. -/
theorem C35_Li2f (hL : LogOK binary32 L) (x : FP binary32 L) {q : ℚ} (hx : Val binary32 (ofF x) q) :
    ∃ r : ℚ, Val binary32 (ofF (Li2f x)) r ∧ |(r : ℝ) - (pLi 2 (q : ℂ)).re| ≤ 71 * 2 ^ (-24 : ℤ) * (1 + Real.log (1 + |(q : ℝ)|) ^ 2) := by
  have h := li2Gen_fp fmtA32 hL (finOK_f (L := L)) (PI := FOps.lit 3.14159265)
    (near_pi fmtA32 (by norm_num) (by norm_num) 3.6e-9 (by decide +kernel) (by norm_num [uR, binary32])) x hx (by have := uR_pos (φ := binary32); linarith)
  rw [← Li2f_gen] at h
  obtain ⟨r, hr, he⟩ := h
  refine ⟨r, hr, ?_⟩
  have hu : uR binary32 = 2 ^ (-24 : ℤ) := rfl
  rw [← hu]
  have hu0 := uR_pos (φ := binary32)
  have : 0 ≤ uR binary32 * Real.log (1 + |(q:ℝ)|) ^ 2 := by positivity
  have e2 : reLi 2 (q : ℝ) = (pLi 2 (q : ℂ)).re := by simp [reLi]
  rw [← e2]
  linarith

/-- **C35**, `double`: for every finite `x`, `Li2(x)` is finite and within `118 u (1 + log²(1+|x|))` of `Re Li2(x)`, `u = 2^-53`. -/
theorem C35_Li2d (hL : LogOK binary64 L) (x : FP binary64 L) {q : ℚ} (hx : Val binary64 (ofF x) q) :
    ∃ r : ℚ, Val binary64 (ofF (Li2d x)) r ∧ |(r : ℝ) - (pLi 2 (q : ℂ)).re| ≤ 118 * 2 ^ (-53 : ℤ) * (1 + Real.log (1 + |(q : ℝ)|) ^ 2) := by
  have h := li2Gen_fp fmtA64 hL (finOK_d (L := L)) (PI := FOps.lit 3.1415926535897932)
    (near_pi fmtA64 (by norm_num) (by norm_num) 4e-17 (by decide +kernel) (by norm_num [uR, binary64])) x hx (by have := uR_pos (φ := binary64); linarith)
  rw [← Li2d_gen] at h
  obtain ⟨r, hr, he⟩ := h
  refine ⟨r, hr, ?_⟩
  have hu : uR binary64 = 2 ^ (-53 : ℤ) := rfl
  rw [← hu]
  have hu0 := uR_pos (φ := binary64)
  have : 0 ≤ uR binary64 * Real.log (1 + |(q:ℝ)|) ^ 2 := by positivity
  have e2 : reLi 2 (q : ℝ) = (pLi 2 (q : ℂ)).re := by simp [reLi]
  rw [← e2]
  linarith

/-- **C35**, `long double` in the x87 extended format (LDBL_DIG = 18): error at most `103 u (1 + log²(1+|x|))`, `u = 2^-64`. -/
theorem C35_Li2l_x87 (hL : LogOK x87ext L) (x : FP x87ext L) {q : ℚ} (hx : Val x87ext (ofF x) q) :
    ∃ r : ℚ, Val x87ext (ofF (Li2l18 x)) r ∧ |(r : ℝ) - (pLi 2 (q : ℂ)).re| ≤ 103 * 2 ^ (-64 : ℤ) * (1 + Real.log (1 + |(q : ℝ)|) ^ 2) := by
  have h := li2Gen_fp fmtA80 hL (finOK_l18 (L := L)) (PI := FOps.lit 3.14159265358979323846264338327950288)
    (near_pi fmtA80 (by norm_num) (by norm_num) 4.2e-36 (by decide +kernel) (by norm_num [uR, x87ext])) x hx (by have := uR_pos (φ := x87ext); linarith)
  rw [← Li2l_gen] at h
  obtain ⟨r, hr, he⟩ := h
  refine ⟨r, hr, ?_⟩
  have hu : uR x87ext = 2 ^ (-64 : ℤ) := rfl
  rw [← hu]
  have hu0 := uR_pos (φ := x87ext)
  have : 0 ≤ uR x87ext * Real.log (1 + |(q:ℝ)|) ^ 2 := by positivity
  have e2 : reLi 2 (q : ℝ) = (pLi 2 (q : ℂ)).re := by simp [reLi]
  rw [← e2]
  linarith

/-- **C35**, `long double` in the IEEE quadruple format (LDBL_DIG = 33): error at most `1011 u (1 + log²(1+|x|))`, `u = 2^-113`. -/
theorem C35_Li2l_quad (hL : LogOK binary128 L) (x : FP binary128 L) {q : ℚ} (hx : Val binary128 (ofF x) q) :
    ∃ r : ℚ, Val binary128 (ofF (Li2l36 x)) r ∧ |(r : ℝ) - (pLi 2 (q : ℂ)).re| ≤ 1011 * 2 ^ (-113 : ℤ) * (1 + Real.log (1 + |(q : ℝ)|) ^ 2) := by
  have h := li2Gen_fp fmtA128 hL (finOK_l36 (L := L)) (PI := FOps.lit 3.14159265358979323846264338327950288)
    (near_pi fmtA128 (by norm_num) (by norm_num) 4.2e-36 (by decide +kernel) (by norm_num [uR, binary128])) x hx (by have := uR_pos (φ := binary128); linarith)
  rw [← Li2l_gen] at h
  obtain ⟨r, hr, he⟩ := h
  refine ⟨r, hr, ?_⟩
  have hu : uR binary128 = 2 ^ (-113 : ℤ) := rfl
  rw [← hu]
  have hu0 := uR_pos (φ := binary128)
  have : 0 ≤ uR binary128 * Real.log (1 + |(q:ℝ)|) ^ 2 := by positivity
  have e2 : reLi 2 (q : ℝ) = (pLi 2 (q : ℂ)).re := by simp [reLi]
  rw [← e2]
  linarith

/-- the hypotheses are met: a library with the contract exists, and e.g. `x = -7/4` is a binary64 number -/
example : ∃ L : Lib, LogOK binary64 L ∧ ∃ (x : FP binary64 L) (r : ℚ), Val binary64 (ofF x) (-7 / 4) ∧ Val binary64 (ofF (Li2d x)) r ∧
    |(r : ℝ) - (pLi 2 ((-7 / 4 : ℚ) : ℂ)).re| ≤ 118 * 2 ^ (-53 : ℤ) * (1 + Real.log (1 + |((-7 / 4 : ℚ) : ℝ)|) ^ 2) := by
  have hL := exists_logOK fmtA64 zeroLib
  set L : Lib := { zeroLib with log := approxF binary64 Real.log, log1p := approxF binary64 (fun t => Real.log (1 + t)) }
  have hv : Val binary64 (rndQ binary64 (-7 / 4)) (-7 / 4) := near_dy fmtA64 (-7) 2 (by norm_num) (by norm_num) (by norm_num)
  obtain ⟨r, hr, he⟩ := C35_Li2d hL (toF binary64 L (rndQ binary64 (-7 / 4))) hv
  exact ⟨L, hL, _, r, hv, hr, he⟩

end Polylog
