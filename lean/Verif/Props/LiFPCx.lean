import Verif.Props.LiFPGeo

/-!
# Complex polylogarithms in floating point: the three branches
-/

namespace Polylog
set_option linter.style.longLine false
open Complex

/-! ## the branches over the reals -/
section
variable {S : RealSem} {u : ℝ}

theorem cLiShape_R_near (hS : S.Lit u) (PI : R S) (near fin1 : Cx (R S) → Cx (R S)) (finI : Cx (R S) → Cx (R S) → Cx (R S)) {z : ℂ} (h0 : z ≠ 0)
    (h : ‖Complex.log z‖ < 1) : ∃ W : Cx (R S), W.toC = Complex.log z ∧ cLiShape PI near fin1 finI (ofC S z) = near W := by
  have hn : ofR (Cx.abs (ofC S z)) = ‖z‖ := by rw [ofR_abs, toC_ofC]
  have ha : ofR (Cx.arg (ofC S z)) = Complex.arg z := by rw [ofR_arg (by simpa using h0), toC_ofC]
  have hl : ofR (xlog (Cx.abs (ofC S z)) : R S) = Real.log ‖z‖ := by
    rw [xlog_R, ofR_log (by rw [hn]; exact norm_pos_iff.mpr h0), hn]
  have hone : ofR (FOps.lit 1 : R S) = 1 := by rw [ofR_lit, hS.one]; norm_num
  have hlz : (Cx.mk (xlog (Cx.abs (ofC S z)) : R S) (Cx.arg (ofC S z))).toC = Complex.log z := by
    rw [toC_mk, hl, ha]; exact Complex.ext (Complex.log_re z).symm (Complex.log_im z).symm
  have hsq : ofR ((xlog (Cx.abs (ofC S z)) : R S) *. xlog (Cx.abs (ofC S z)) +. Cx.arg (ofC S z) *. Cx.arg (ofC S z)) = ‖Complex.log z‖ ^ 2 := by
    rw [ofR_add, ofR_mul, ofR_mul, hl, ha, norm_log_sq, sq_abs]; ring
  refine ⟨_, hlz, ?_⟩
  unfold cLiShape
  simp only [lt_R, le_R, gt_R, decide_eq_true_eq]
  rw [hsq, hone, if_pos (by nlinarith [norm_nonneg (Complex.log z)])]

theorem cLiShape_R_fin1 (hS : S.Lit u) (PI : R S) (near fin1 : Cx (R S) → Cx (R S)) (finI : Cx (R S) → Cx (R S) → Cx (R S)) {z : ℂ} (h0 : z ≠ 0)
    (h1 : z ≠ 1) (h : 1 ≤ ‖Complex.log z‖) (hz : ‖z‖ ≤ 1) : ∃ W : Cx (R S), W.toC = -Complex.log (1 - z) ∧ cLiShape PI near fin1 finI (ofC S z) = fin1 W := by
  have hn : ofR (Cx.abs (ofC S z)) = ‖z‖ := by rw [ofR_abs, toC_ofC]
  have ha : ofR (Cx.arg (ofC S z)) = Complex.arg z := by rw [ofR_arg (by simpa using h0), toC_ofC]
  have hl : ofR (xlog (Cx.abs (ofC S z)) : R S) = Real.log ‖z‖ := by
    rw [xlog_R, ofR_log (by rw [hn]; exact norm_pos_iff.mpr h0), hn]
  have hone : ofR (FOps.lit 1 : R S) = 1 := by rw [ofR_lit, hS.one]; norm_num
  have hsq : ofR ((xlog (Cx.abs (ofC S z)) : R S) *. xlog (Cx.abs (ofC S z)) +. Cx.arg (ofC S z) *. Cx.arg (ofC S z)) = ‖Complex.log z‖ ^ 2 := by
    rw [ofR_add, ofR_mul, ofR_mul, hl, ha, norm_log_sq, sq_abs]; ring
  have hw : (∸(clog1p (∸(ofC S z)))).toC = -Complex.log (1 - z) := by
    rw [toC_neg, C07_log1p hS _ (by
      rw [toC_neg, toC_ofC]; intro h
      exact h1 (by linear_combination -h)), toC_neg, toC_ofC, ← sub_eq_add_neg]
  refine ⟨_, hw, ?_⟩
  unfold cLiShape
  simp only [lt_R, le_R, gt_R, decide_eq_true_eq]
  rw [hsq, hone, hn, if_neg (by nlinarith), if_pos hz]

theorem cLiShape_R_finI (hS : S.Lit u) (PI : R S) (near fin1 : Cx (R S) → Cx (R S)) (finI : Cx (R S) → Cx (R S) → Cx (R S)) {z : ℂ}
    (h1 : z ≠ 1) (h : 1 ≤ ‖Complex.log z‖) (hz : 1 < ‖z‖) : ∃ W l : Cx (R S), W.toC = -Complex.log (1 - 1 / z) ∧
      l.toC = ⟨Real.log ‖z‖, if 0 < Complex.arg z then Complex.arg z - ofR PI else Complex.arg z + ofR PI⟩ ∧
      cLiShape PI near fin1 finI (ofC S z) = finI W l := by
  have h0 : z ≠ 0 := by rintro rfl; simp at hz; linarith
  have hn : ofR (Cx.abs (ofC S z)) = ‖z‖ := by rw [ofR_abs, toC_ofC]
  have ha : ofR (Cx.arg (ofC S z)) = Complex.arg z := by rw [ofR_arg (by simpa using h0), toC_ofC]
  have hl : ofR (xlog (Cx.abs (ofC S z)) : R S) = Real.log ‖z‖ := by
    rw [xlog_R, ofR_log (by rw [hn]; exact norm_pos_iff.mpr h0), hn]
  have hone : ofR (FOps.lit 1 : R S) = 1 := by rw [ofR_lit, hS.one]; norm_num
  have hzero : ofR (FOps.lit 0 : R S) = 0 := by rw [ofR_lit, hS.zero]; norm_num
  have hsq : ofR ((xlog (Cx.abs (ofC S z)) : R S) *. xlog (Cx.abs (ofC S z)) +. Cx.arg (ofC S z) *. Cx.arg (ofC S z)) = ‖Complex.log z‖ ^ 2 := by
    rw [ofR_add, ofR_mul, ofR_mul, hl, ha, norm_log_sq, sq_abs]; ring
  have hm1 : ofR (∸(FOps.lit 1 : R S)) = -1 := by rw [ofR_neg, hone]
  have e1 : ((∸(FOps.lit 1 : R S)) /. (ofC S z) : Cx (R S)).toC = -1 / z := by
    rw [toC_rdiv hS.zero (by simpa using h0), hm1, toC_ofC]; push_cast; rfl
  have hw : (∸(clog1p ((∸(FOps.lit 1 : R S)) /. (ofC S z)))).toC = -Complex.log (1 - 1 / z) := by
    rw [toC_neg, C07_log1p hS _ (by
      rw [e1]; intro h
      rw [div_eq_iff h0] at h
      exact h1 (by linear_combination h)), e1, neg_div, ← sub_eq_add_neg]
  refine ⟨_, ⟨xlog (Cx.abs (ofC S z)), if ofR (FOps.lit 0 : R S) < ofR (Cx.arg (ofC S z)) then Cx.arg (ofC S z) -. PI else Cx.arg (ofC S z) +. PI⟩, hw, ?_, ?_⟩
  · rw [toC_mk, hl, hzero, ha]
    congr 1
    split
    · rw [ofR_sub, ha]
    · rw [ofR_add, ha]
  · unfold cLiShape
    simp only [lt_R, le_R, gt_R, decide_eq_true_eq]
    rw [hsq, hone, hn, if_neg (by nlinarith), if_neg (not_le.2 hz)]
end

/-! ## the computed logarithm -/

variable {φ : Fmt} {L : Lib}

/-- `y ≠ 0`, neither part of `z` beyond `2^±300` -/
structure InDom (x y : ℚ) : Prop where
  x_le : |(x:ℝ)| ≤ 2 ^ (300:ℤ)
  y_le : |(y:ℝ)| ≤ 2 ^ (300:ℤ)
  y_ge : (2:ℝ) ^ (-300:ℤ) ≤ |(y:ℝ)|

theorem InDom.y_ne {x y : ℚ} (h : InDom x y) : y ≠ 0 := by
  intro h0
  have h1 := h.y_ge
  rw [h0, Rat.cast_zero, abs_zero] at h1
  exact absurd h1 (not_le.2 (by positivity))

theorem InDom.norm_le {x y : ℚ} (h : InDom x y) : ‖cq x y‖ ≤ 2 ^ (301:ℤ) := by
  have : cq x y = ((x:ℝ):ℂ) + ((y:ℝ):ℂ) * I := by apply Complex.ext <;> simp [cq]
  rw [this]
  refine (norm_add_le _ _).trans ?_
  rw [norm_mul, Complex.norm_I, Complex.norm_real, Complex.norm_real, mul_one, Real.norm_eq_abs, Real.norm_eq_abs,
    show (301:ℤ) = 1 + 300 by norm_num, zpow_add₀ (by norm_num), zpow_one]
  have := h.x_le
  have := h.y_le
  generalize (2:ℝ) ^ (300:ℤ) = c at *
  linarith

theorem InDom.norm_ge {x y : ℚ} (h : InDom x y) : (2:ℝ) ^ (-300:ℤ) ≤ ‖cq x y‖ :=
  h.y_ge.trans (Complex.abs_im_le_norm (cq x y))

theorem InDom.ne_zero {x y : ℚ} (h : InDom x y) : cq x y ≠ 0 := by
  intro h'
  have := h.norm_ge
  rw [h', norm_zero] at this
  exact absurd this (not_le.2 (by positivity))

theorem InDom.re_log {x y : ℚ} (h : InDom x y) : |(Complex.log (cq x y)).re| ≤ 209 := by
  rw [Complex.log_re]
  have h0 : 0 < ‖cq x y‖ := norm_pos_iff.2 h.ne_zero
  have l2 := Real.log_two_lt_d9
  have h1 : Real.log ‖cq x y‖ ≤ 301 * Real.log 2 := by
    have := Real.log_le_log h0 h.norm_le
    rw [Real.log_zpow] at this
    push_cast at this; exact this
  have h2 : -300 * Real.log 2 ≤ Real.log ‖cq x y‖ := by
    have := Real.log_le_log (by positivity) h.norm_ge
    rw [Real.log_zpow] at this
    push_cast at this; exact this
  rw [abs_le]; constructor <;> linarith

theorem InDom.arg_ge0 {x y : ℚ} (h : InDom x y) : |(y:ℝ)| / ‖cq x y‖ ≤ |Complex.arg (cq x y)| := by
  have h0 : 0 < ‖cq x y‖ := norm_pos_iff.2 h.ne_zero
  have h1 : |Real.sin (Complex.arg (cq x y))| ≤ |Complex.arg (cq x y)| := by
    rw [Real.abs_sin_eq_sin_abs_of_abs_le_pi (Complex.abs_arg_le_pi _)]
    exact Real.sin_le (abs_nonneg _)
  rwa [Complex.sin_arg, abs_div, abs_of_pos h0, cq_im] at h1

theorem InDom.arg_ge {x y : ℚ} (h : InDom x y) : (2:ℝ) ^ (-601:ℤ) ≤ |Complex.arg (cq x y)| := by
  have h0 : 0 < ‖cq x y‖ := norm_pos_iff.2 h.ne_zero
  refine le_trans ?_ h.arg_ge0
  rw [le_div_iff₀ h0]
  calc (2:ℝ) ^ (-601:ℤ) * ‖cq x y‖ ≤ 2 ^ (-601:ℤ) * 2 ^ (301:ℤ) := by gcongr; exact h.norm_le
    _ = 2 ^ (-300:ℤ) := by rw [← zpow_add₀ (by norm_num)]; norm_num
    _ ≤ _ := h.y_ge

/-- sign of the half plane -/
theorem InDom.strip {x y : ℚ} (h : InDom x y) : ∃ s : ℝ, (s = 1 ∨ s = -1) ∧ Complex.log (cq x y) ∈ hstrip s ∧ (0 < Complex.arg (cq x y) ↔ s = 1) := by
  have hlt : Complex.arg (cq x y) < Real.pi := by
    refine lt_of_le_of_ne (Complex.arg_le_pi _) fun h' => ?_
    have := (Complex.arg_eq_pi_iff.1 h').2
    rw [cq_im] at this
    exact h.y_ne (by exact_mod_cast this)
  rcases lt_or_gt_of_ne h.y_ne with hy | hy
  · have h1 : Complex.arg (cq x y) < 0 := Complex.arg_neg_iff.mpr (by rw [cq_im]; exact_mod_cast hy)
    refine ⟨-1, Or.inr rfl, ⟨?_, ?_⟩, ?_⟩
    · rw [Complex.log_im]; linarith
    · rw [Complex.log_im]; have := Complex.neg_pi_lt_arg (cq x y); linarith
    · exact ⟨fun h => absurd h h1.not_gt, fun h => by norm_num at h⟩
  · have h1 : 0 < Complex.arg (cq x y) := by
      refine lt_of_le_of_ne (Complex.arg_nonneg_iff.2 (by rw [cq_im]; exact_mod_cast hy.le)) fun h' => ?_
      have := (Complex.arg_eq_zero_iff.1 h'.symm).2
      rw [cq_im] at this
      exact h.y_ne (by exact_mod_cast this)
    refine ⟨1, Or.inl rfl, ⟨?_, ?_⟩, ?_⟩
    · rw [Complex.log_im]; linarith
    · rw [Complex.log_im]; linarith
    · exact ⟨fun _ => rfl, fun _ => h1⟩

/-- modulus, logarithm and argument of `z` as computed -/
theorem log_data (hφ : FmtB φ) (hL : CxLib φ L) {z : Cx (FP φ L)} {x y : ℚ} (vx : Val φ (ofF z.re) x) (vy : Val φ (ofF z.im) y) (hd : InDom x y) :
    ∃ n a b : ℚ, Val φ (ofF (Cx.abs z)) n ∧ Val φ (ofF (xlog (Cx.abs z) : FP φ L)) a ∧ Val φ (ofF (Cx.arg z)) b ∧
      |(n:ℝ) - ‖cq x y‖| ≤ 2 * uR φ * ‖cq x y‖ ∧ |(a:ℝ) - (Complex.log (cq x y)).re| ≤ 2 * uR φ * |(Complex.log (cq x y)).re| + 2.02 * uR φ ∧
      |(b:ℝ) - (Complex.log (cq x y)).im| ≤ 2.001 * uR φ * |(Complex.log (cq x y)).im| := by
  have hu0 := uR_pos (φ := φ)
  obtain ⟨⟨n, h1, -, h2⟩, ⟨a, h3, h4⟩, ⟨b, h5, h6⟩⟩ := log_near hφ hL vx vy
    (le_trans (zpow_le_zpow_right₀ (by norm_num) (by norm_num)) hd.norm_ge) (hd.norm_le.trans (zpow_le_zpow_right₀ (by norm_num) (by norm_num))) (Or.inl hd.y_ne)
  refine ⟨n, a, b, h1, h3, h5, h2, ?_, ?_⟩
  · rw [Complex.log_re]; exact h4
  · rw [Complex.log_im]
    refine h6.trans ?_
    have h7 := hd.arg_ge
    have h8 : (2:ℝ) ^ φ.emin ≤ 0.001 * uR φ * |Complex.arg (cq x y)| := by
      have e1 : (2:ℝ) ^ φ.emin ≤ 2 ^ (-10:ℤ) * 2 ^ (-113:ℤ) * 2 ^ (-601:ℤ) := by
        rw [← zpow_add₀ (by norm_num), ← zpow_add₀ (by norm_num)]
        exact zpow_le_zpow_right₀ (by norm_num) (by have := hφ.hmin; omega)
      refine e1.trans ?_
      have := hφ.le_u
      gcongr
      norm_num
    linarith

end Polylog
