import Verif.Proofs.UnityCut
import Mathlib.Analysis.Complex.Exponential
import Mathlib.Analysis.SpecialFunctions.Exponential

/-! # Sizes of the terms of the expansion about `z = 1`, and a Lipschitz bound near the negative axis -/

namespace Polylog
open Complex Finset

noncomputable section

/-- terms with non-positive zeta argument -/
theorem zcoef_high (n k : ℕ) : ‖zcoef n (n + k)‖ ≤ 1 / ((2 * Real.pi) ^ k * n.factorial) := by
  have hpi := Real.pi_pos
  have h0 := zcoef_zero_bound k
  have e : zcoef n (n + k) = zcoef 0 k * ((k.factorial : ℂ) / ((n + k).factorial : ℂ)) := by
    have h1 : ((n:ℤ) - ((n + k : ℕ) : ℤ)) = 0 - (k:ℤ) := by push_cast; ring
    rw [zcoef, zcoef, h1, if_neg (by omega), if_neg (by omega)]
    have : (k.factorial : ℂ) ≠ 0 := by exact_mod_cast k.factorial_ne_zero
    field_simp
  rw [e, norm_mul, norm_div, Complex.norm_natCast, Complex.norm_natCast]
  have hf : ((k.factorial : ℕ) : ℝ) * n.factorial ≤ (n + k).factorial := by
    have := Nat.le_of_dvd (Nat.factorial_pos _) (Nat.factorial_mul_factorial_dvd_factorial_add n k)
    rw [mul_comm]
    exact_mod_cast this
  have hk : (0:ℝ) < k.factorial := by exact_mod_cast k.factorial_pos
  have hn : (0:ℝ) < n.factorial := by exact_mod_cast n.factorial_pos
  have hnk : (0:ℝ) < (n + k).factorial := by exact_mod_cast (n + k).factorial_pos
  have h2 : (k.factorial : ℝ) / (n + k).factorial ≤ 1 / n.factorial := by
    rw [div_le_div_iff₀ hnk hn]; linarith
  calc ‖zcoef 0 k‖ * ((k.factorial : ℝ) / (n + k).factorial) ≤ (1 / (2 * Real.pi) ^ k) * (1 / n.factorial) := by
        refine mul_le_mul ?_ h2 (by positivity) (by positivity)
        rw [le_div_iff₀ (by positivity)]; exact h0
    _ = _ := by rw [one_div_mul_one_div]

theorem zeta_le_two (n : ℕ) : ‖riemannZeta ((n:ℂ) + 2)‖ ≤ 1.65 := by
  rw [← reLi_one_eq_zeta, Complex.norm_real, Real.norm_eq_abs]
  have hs := reLi_hasSum n (x := 1) (by simp)
  have hs2 := reLi_hasSum 0 (x := 1) (by simp)
  have hnn : 0 ≤ reLi (n + 2) 1 := hs.nonneg fun k => by positivity
  rw [abs_of_nonneg hnn]
  have : reLi (n + 2) 1 ≤ reLi (0 + 2) 1 := by
    refine hasSum_le (fun k => ?_) hs hs2
    have : (1:ℝ) ≤ (k:ℝ) + 1 := by linarith [(Nat.cast_nonneg k : (0:ℝ) ≤ k)]
    rw [one_pow]
    apply one_div_le_one_div_of_le (by positivity)
    exact pow_le_pow_right₀ this (by omega)
  rw [zero_add, reLi_two_one] at this
  nlinarith [Real.pi_lt_d4, Real.pi_pos]

/-- terms with zeta argument at least 2, and the missing one -/
theorem zcoef_low (n j : ℕ) (h : j < n) : ‖zcoef n j‖ ≤ 1.65 * (1 / j.factorial) := by
  rw [zcoef]
  split
  · rw [norm_zero]; positivity
  · rename_i h1
    obtain ⟨k, rfl⟩ : ∃ k, n = j + k + 2 := ⟨n - j - 2, by omega⟩
    have e : ((((j + k + 2 : ℕ) : ℤ) - (j:ℤ) : ℤ) : ℂ) = (k:ℂ) + 2 := by push_cast; ring
    rw [e, norm_div, Complex.norm_natCast, div_eq_mul_one_div]
    exact mul_le_mul_of_nonneg_right (zeta_le_two k) (by positivity)

/-- sum of the absolute values of the terms -/
theorem zcoef_abs_sum (n K : ℕ) {r : ℝ} (h0 : 0 ≤ r) (hr : r ≤ 3.2) :
    ∑ j ∈ range (n + K), ‖zcoef n j‖ * r ^ j ≤ 1.65 * Real.exp r + 2.1 * (r ^ n / n.factorial) := by
  have hpi := Real.pi_gt_d2
  have hq0 : 0 ≤ r / (2 * Real.pi) := by positivity
  have hq : r / (2 * Real.pi) ≤ 0.52 := by rw [div_le_iff₀ (by positivity)]; nlinarith
  rw [sum_range_add]
  refine add_le_add ?_ ?_
  · calc _ ≤ ∑ j ∈ range n, 1.65 * (r ^ j / j.factorial) := by
          refine sum_le_sum fun j hj => ?_
          have := mul_le_mul_of_nonneg_right (zcoef_low n j (mem_range.mp hj)) (pow_nonneg h0 j)
          refine this.trans_eq ?_
          ring
      _ ≤ _ := by
          rw [← mul_sum]
          exact mul_le_mul_of_nonneg_left (Real.sum_le_exp_of_nonneg h0 n) (by norm_num)
  · calc _ ≤ ∑ k ∈ range K, (r ^ n / n.factorial) * (r / (2 * Real.pi)) ^ k := by
          refine sum_le_sum fun k _ => ?_
          have := mul_le_mul_of_nonneg_right (zcoef_high n k) (pow_nonneg h0 (n + k))
          refine this.trans_eq ?_
          rw [div_pow, pow_add]
          field_simp
      _ ≤ (r ^ n / n.factorial) * 2.1 := by
          rw [← mul_sum]
          refine mul_le_mul_of_nonneg_left ?_ (by positivity)
          have h1 : ∑ k ∈ range K, (r / (2 * Real.pi)) ^ k ≤ (1 - r / (2 * Real.pi))⁻¹ :=
            (hasSum_geometric_of_lt_one hq0 (by linarith)).summable.sum_le_tsum _ (fun _ _ => by positivity) |>.trans_eq
              (tsum_geometric_of_lt_one hq0 (by linarith))
          refine h1.trans ?_
          rw [inv_le_comm₀ (by linarith) (by norm_num)]
          linarith
      _ = _ := by ring

/-- truncation error of the expansion -/
theorem psum_zcoef_tail (n K : ℕ) {L : ℂ} (hr : ‖L‖ ≤ 3.2) :
    ‖∑ j ∈ range (n + K), zcoef n j * L ^ j - psum (zcoef n) L‖ ≤
      2.1 * (‖L‖ ^ n / n.factorial) * (‖L‖ / (2 * Real.pi)) ^ K := by
  have hpi := Real.pi_gt_d2
  set r := ‖L‖ with hrd
  have h0 : 0 ≤ r := norm_nonneg _
  have hq0 : 0 ≤ r / (2 * Real.pi) := by positivity
  have hq : r / (2 * Real.pi) ≤ 0.52 := by rw [div_le_iff₀ (by positivity)]; nlinarith
  have hs := (zcoef_bound n).hasSum (by positivity) (z := L) (by rw [← hrd]; linarith)
  have ht := (hasSum_nat_add_iff' (n + K)).mpr hs
  rw [norm_sub_rev]
  have hb : ∀ k : ℕ, ‖zcoef n (k + (n + K)) * L ^ (k + (n + K))‖ ≤ (r ^ n / n.factorial) * (r / (2 * Real.pi)) ^ K * (r / (2 * Real.pi)) ^ k := by
    intro k
    have := mul_le_mul_of_nonneg_right (zcoef_high n (k + K)) (pow_nonneg h0 (n + (k + K)))
    rw [norm_mul, norm_pow, ← hrd, show k + (n + K) = n + (k + K) by ring]
    refine this.trans_eq ?_
    rw [mul_assoc, ← pow_add, show K + k = k + K by ring, div_pow, pow_add r n (k + K)]
    field_simp
  have hg := (hasSum_geometric_of_lt_one hq0 (by linarith)).mul_left ((r ^ n / n.factorial) * (r / (2 * Real.pi)) ^ K)
  refine (ht.norm_le_of_bounded hg hb).trans ?_
  have : (1 - r / (2 * Real.pi))⁻¹ ≤ 2.1 := by
    rw [inv_le_comm₀ (by linarith) (by norm_num)]
    linarith
  calc _ ≤ (r ^ n / n.factorial) * (r / (2 * Real.pi)) ^ K * 2.1 := by gcongr
    _ = _ := by ring

/-! ### the left half plane -/

theorem pLi_norm_le (n : ℕ) : ∀ w : ℂ, w.re ≤ 0 → ‖pLi n w‖ ≤ ‖w‖ := by
  have hb : ∀ w : ℂ, w.re ≤ 0 → 1 ≤ ‖1 - w‖ := fun w hw => by
    have := Complex.re_le_norm (1 - w)
    simp at this; linarith
  induction n with
  | zero =>
    intro w hw
    rw [pLi, norm_div]
    exact div_le_self (norm_nonneg _) (hb w hw)
  | succ n ih =>
    intro w hw
    cases n with
    | zero =>
      have hc : Convex ℝ {w : ℂ | w.re ≤ 0} := convex_halfSpace_re_le 0
      have := hc.norm_image_sub_le_of_norm_hasDerivWithin_le (f := pLi 1) (f' := fun z => 1 / (1 - z)) (C := 1) (x := 0) (y := w)
        (fun z hz => (pLi_one_hasDerivAt (by rw [mem_cutPlane]; left; exact lt_of_le_of_lt hz one_pos)).hasDerivWithinAt)
        (fun z hz => by
          rw [norm_div, norm_one]
          exact (div_le_one (lt_of_lt_of_le one_pos (hb z hz))).mpr (hb z hz)) (by simp) hw
      rw [pLi_zero_right, sub_zero, sub_zero, one_mul] at this
      exact this
    | succ n =>
      rw [pLi]
      have := intervalIntegral.norm_integral_le_of_norm_le_const (a := (0:ℝ)) (b := 1) (C := ‖w‖)
        (f := fun t : ℝ => pLi (n + 1) (t * w) / t) (fun t ht => by
          rw [Set.uIoc_of_le zero_le_one] at ht
          have h1 := ih ((t:ℂ) * w) (by rw [Complex.re_ofReal_mul]; exact mul_nonpos_of_nonneg_of_nonpos ht.1.le hw)
          rw [norm_div, Complex.norm_real, Real.norm_eq_abs, abs_of_pos ht.1, div_le_iff₀ ht.1]
          rw [norm_mul, Complex.norm_real, Real.norm_eq_abs, abs_of_pos ht.1] at h1
          linarith)
      simpa using this

/-- moving the argument a little away from the negative axis -/
theorem pLi_arg_lip (n : ℕ) {a θ : ℝ} (ha : |a| ≤ 1) (hθ : |θ - Real.pi| ≤ 1) :
    ‖pLi (n + 1) (Complex.exp (a + θ * I)) - pLi (n + 1) (-(Real.exp a : ℂ))‖ ≤ Real.exp a * |θ - Real.pi| := by
  have hpi := Real.pi_gt_d2
  have hpi2 := Real.pi_lt_d2
  have hc : Convex ℝ (Set.Icc (Real.pi - 1) (Real.pi + 1)) := convex_Icc _ _
  have hmem : ∀ t ∈ Set.Icc (Real.pi - 1) (Real.pi + 1), ((a:ℂ) + t * I) ∈ slitDisc := by
    intro t ht
    refine ⟨?_, ?_⟩
    · rw [Metric.mem_ball, dist_zero_right]
      refine lt_of_le_of_lt (norm_add_le _ _) ?_
      rw [norm_mul, Complex.norm_I, Complex.norm_real, Complex.norm_real, mul_one, Real.norm_eq_abs, Real.norm_eq_abs, abs_of_pos (show (0:ℝ) < t by linarith [ht.1])]
      linarith [ht.2]
    · rw [mem_negPlane]; right
      simp
      linarith [ht.1]
  have hd : ∀ t ∈ Set.Icc (Real.pi - 1) (Real.pi + 1), HasDerivWithinAt (fun t : ℝ => pLi (n + 1) (Complex.exp (a + t * I)))
      (pLi n (Complex.exp (a + t * I)) * I) (Set.Icc (Real.pi - 1) (Real.pi + 1)) t := by
    intro t ht
    have h1 : HasDerivAt (fun t : ℝ => (a:ℂ) + t * I) I t := by
      have := ((hasDerivAt_id t).ofReal_comp.mul_const I).const_add (a:ℂ)
      simpa using this
    exact ((pLi_exp_hasDerivAt n (hmem t ht)).comp t h1).hasDerivWithinAt
  have hn : ∀ t ∈ Set.Icc (Real.pi - 1) (Real.pi + 1), ‖pLi n (Complex.exp (a + t * I)) * I‖ ≤ Real.exp a := by
    intro t ht
    rw [norm_mul, Complex.norm_I, mul_one]
    have hre : (Complex.exp (a + t * I)).re = Real.exp a * Real.cos t := by
      rw [Complex.exp_re]; simp
    have hcos : Real.cos t ≤ 0 := by
      apply Real.cos_nonpos_of_pi_div_two_le_of_le <;> linarith [ht.1, ht.2]
    refine (pLi_norm_le n _ ?_).trans_eq ?_
    · rw [hre]; exact mul_nonpos_of_nonneg_of_nonpos (Real.exp_pos a).le hcos
    · rw [Complex.norm_exp]; simp
  have h := hc.norm_image_sub_le_of_norm_hasDerivWithin_le hd hn (x := Real.pi) (y := θ)
    ⟨by linarith, by linarith⟩ ⟨by linarith [(abs_le.mp hθ).1], by linarith [(abs_le.mp hθ).2]⟩
  have e : Complex.exp (a + (Real.pi:ℝ) * I) = -(Real.exp a : ℂ) := by
    rw [Complex.exp_add, Complex.exp_pi_mul_I, Complex.ofReal_exp]; ring
  simp only [e] at h
  rwa [Real.norm_eq_abs] at h

end
end Polylog
