import Verif.Proofs.ClLip
import Verif.Props.LiInvAcc
import Verif.Props.LiCxGen

/-!
# `w ↦ Li_n(e^w)` is Lipschitz off the real axis

The half strips `0 < Im w < π` and `-π < Im w < 0` are mapped to the upper and the lower half plane.
-/

namespace Polylog
set_option linter.style.longLine false
open Complex Finset

/-- half strip: `s = 1` the upper, `s = -1` the lower one -/
def hstrip (s : ℝ) : Set ℂ := {w | 0 < s * w.im ∧ s * w.im < Real.pi}

theorem hstrip_convex (s : ℝ) : Convex ℝ (hstrip s) := by
  have h1 : Convex ℝ {w : ℂ | 0 < s * w.im} := by
    intro x hx y hy a b ha hb hab
    simp only [Set.mem_ofPred_eq] at *
    simp only [Complex.add_im, Complex.smul_im, smul_eq_mul]
    rcases eq_or_lt_of_le ha with h | h
    · rw [← h] at hab ⊢
      have : b = 1 := by linarith
      rw [this]; linarith
    · nlinarith [mul_pos h hx, mul_nonneg hb hy.le]
  have h2 : Convex ℝ {w : ℂ | s * w.im < Real.pi} := by
    intro x hx y hy a b ha hb hab
    simp only [Set.mem_ofPred_eq] at *
    simp only [Complex.add_im, Complex.smul_im, smul_eq_mul]
    rcases eq_or_lt_of_le ha with h | h
    · rw [← h] at hab ⊢
      have : b = 1 := by linarith
      rw [this]; linarith
    · have h3 : b = 1 - a := by linarith
      have h4 : 0 ≤ 1 - a := by linarith
      subst h3
      nlinarith [mul_pos h (sub_pos.2 hx), mul_nonneg h4 (sub_pos.2 hy).le]
  exact h1.inter h2

variable {s : ℝ}

theorem log_exp_strip (hs : s = 1 ∨ s = -1) {w : ℂ} (hw : w ∈ hstrip s) : Complex.log (Complex.exp w) = w := by
  obtain ⟨h1, h2⟩ := hw
  have := Real.pi_pos
  rcases hs with rfl | rfl <;> exact Complex.log_exp (by linarith) (by linarith)

theorem log_neg_exp_strip (hs : s = 1 ∨ s = -1) {w : ℂ} (hw : w ∈ hstrip s) : Complex.log (-Complex.exp w) = w - s * Real.pi * I := by
  obtain ⟨h1, h2⟩ := hw
  have := Real.pi_pos
  have e : -Complex.exp w = Complex.exp (w - s * Real.pi * I) := by
    rw [Complex.exp_sub]
    rcases hs with rfl | rfl
    · rw [ofReal_one, one_mul, Complex.exp_pi_mul_I]; ring
    · rw [ofReal_neg, ofReal_one, neg_one_mul, neg_mul, Complex.exp_neg, Complex.exp_pi_mul_I, inv_neg, inv_one, div_neg, div_one]
  have him : (w - s * Real.pi * I).im = w.im - s * Real.pi := by simp
  rw [e]
  rcases hs with rfl | rfl <;> exact Complex.log_exp (by rw [him]; linarith) (by rw [him]; linarith)

theorem exp_im_strip (hs : s = 1 ∨ s = -1) {w : ℂ} (hw : w ∈ hstrip s) : 0 < s * (Complex.exp w).im := by
  obtain ⟨h1, h2⟩ := hw
  rw [Complex.exp_im]
  rcases hs with rfl | rfl
  · have := Real.sin_pos_of_pos_of_lt_pi (x := w.im) (by linarith) (by linarith)
    have := Real.exp_pos w.re
    positivity
  · have h3 := Real.sin_pos_of_pos_of_lt_pi (x := -w.im) (by linarith) (by linarith)
    rw [Real.sin_neg] at h3
    have := Real.exp_pos w.re
    nlinarith

theorem exp_cut_strip (hs : s = 1 ∨ s = -1) {w : ℂ} (hw : w ∈ hstrip s) : Complex.exp w ∈ cutPlane := by
  rw [mem_cutPlane]; right
  have := exp_im_strip hs hw
  intro h; rw [h] at this; simp at this

theorem norm_pLi_le_two (n : ℕ) {z : ℂ} (hz : ‖z‖ ≤ 1) : ‖pLi (n + 2) z‖ ≤ 2 := by
  have h := pLi_hasSum n z hz
  refine le_of_tendsto (h.tendsto_sum_nat.norm) (Filter.Eventually.of_forall fun K => ?_)
  refine (norm_sum_le _ _).trans (le_trans (sum_le_sum fun k _ => ?_) (sum_inv_sq K))
  have hk : (1:ℝ) ≤ (k:ℝ) + 1 := by have : (0:ℝ) ≤ k := Nat.cast_nonneg _; linarith
  have e : ‖((k:ℂ) + 1)‖ = (k:ℝ) + 1 := by
    rw [show ((k:ℂ) + 1) = (((k:ℝ) + 1 : ℝ) : ℂ) by push_cast; rfl, Complex.norm_real, Real.norm_eq_abs, abs_of_pos (by linarith)]
  rw [norm_div, norm_pow, norm_pow, e]
  have h1 : ‖z‖ ^ (k + 1) ≤ 1 := pow_le_one₀ (norm_nonneg _) hz
  have h2 : ((k:ℝ) + 1) ^ 2 ≤ ((k:ℝ) + 1) ^ (n + 2) := pow_le_pow_right₀ hk (by omega)
  gcongr

theorem norm_pLi_le (n : ℕ) {z : ℂ} {r : ℝ} (hr : ‖Complex.log (-z)‖ ≤ r) : ‖pLi (n + 2) z‖ ≤ 2 + 2 * expN (n + 2) r := by
  have hr0 : 0 ≤ r := (norm_nonneg _).trans hr
  have he := expN_nonneg (n + 2) hr0
  rcases le_or_gt ‖z‖ 1 with h | h
  · have := norm_pLi_le_two n h; linarith
  · have h1 := pLi_inversion_out (n + 1) h
    have h2 := norm_pLi_le_two n (z := z⁻¹) (by rw [norm_inv]; exact inv_le_one_of_one_le₀ h.le)
    have h3 := appell_norm_le (n + 2) hr
    have e : pLi (n + 2) z = appell invC (n + 2) (Complex.log (-z)) - (-1) ^ (n + 2) * pLi (n + 2) z⁻¹ := by
      rw [← h1]; ring
    rw [e]
    refine (norm_sub_le _ _).trans ?_
    rw [norm_mul, norm_pow, norm_neg, norm_one, one_pow, one_mul]
    unfold expN
    linarith

/-- Lipschitz continuity in `log z` -/
theorem pLi_lip (hs : s = 1 ∨ s = -1) (n : ℕ) {w w' : ℂ} (hw : w ∈ hstrip s) (hw' : w' ∈ hstrip s) {r : ℝ}
    (h1 : ‖w - s * Real.pi * I‖ ≤ r) (h2 : ‖w' - s * Real.pi * I‖ ≤ r) :
    ‖pLi (n + 3) (Complex.exp w') - pLi (n + 3) (Complex.exp w)‖ ≤ (2 + 2 * expN (n + 2) r) * ‖w' - w‖ := by
  have hc : Convex ℝ (hstrip s ∩ Metric.closedBall ((s * Real.pi : ℂ) * I) r) := (hstrip_convex s).inter (convex_closedBall _ _)
  refine hc.norm_image_sub_le_of_norm_hasDerivWithin_le (𝕜 := ℂ) (f := fun w => pLi (n + 3) (Complex.exp w)) (f' := fun w => pLi (n + 2) (Complex.exp w))
    (fun x hx => ?_) (fun x hx => ?_) ⟨hw, by simpa [dist_eq_norm] using h1⟩ ⟨hw', by simpa [dist_eq_norm] using h2⟩
  · have h := (pLi_hasDerivAt (n + 2) (exp_cut_strip hs hx.1) (Complex.exp_ne_zero x)).comp x (Complex.hasDerivAt_exp x)
    rw [div_mul_cancel₀ _ (Complex.exp_ne_zero x)] at h
    exact h.hasDerivWithinAt
  · refine norm_pLi_le n ?_
    rw [log_neg_exp_strip hs hx.1]
    have := hx.2
    rwa [Metric.mem_closedBall, dist_eq_norm] at this

theorem sum_inv_fact (n : ℕ) : ∑ m ∈ range (n + 1), 1 / (m.factorial : ℝ) ≤ 2.72 := by
  have h := Real.sum_le_exp_of_nonneg (x := 1) zero_le_one (n + 1)
  have h2 := Real.exp_one_lt_d9
  refine le_trans (le_of_eq ?_) (h.trans (by linarith))
  refine sum_congr rfl fun m _ => ?_
  rw [one_pow]

theorem expN_le_pow (n : ℕ) {r : ℝ} (hr : 1 ≤ r) : expN n r ≤ 2.72 * r ^ n := by
  have h0 : 0 < r ^ n := by positivity
  calc expN n r ≤ ∑ m ∈ range (n + 1), r ^ n * (1 / (m.factorial : ℝ)) := by
        refine sum_le_sum fun m hm => ?_
        rw [mem_range] at hm
        rw [mul_one_div]
        have : r ^ m ≤ r ^ n := pow_le_pow_right₀ hr (by omega)
        gcongr
    _ = r ^ n * ∑ m ∈ range (n + 1), 1 / (m.factorial : ℝ) := by rw [mul_sum]
    _ ≤ r ^ n * 2.72 := by gcongr; exact sum_inv_fact n
    _ = _ := by ring

end Polylog
