import Mathlib.Analysis.SpecialFunctions.Complex.LogBounds
import Mathlib.Analysis.SpecialFunctions.Trigonometric.Bounds
import Mathlib.Analysis.Real.Pi.Bounds
import Mathlib.Analysis.Complex.ExponentialBounds

/-! # The argument of the Bernoulli-type series is at most 1.1 in modulus -/

noncomputable section
namespace Polylog
open Complex

theorem cos_upper {x : ℝ} (hx : 0 ≤ x) : Real.cos x ≤ 1 - x ^ 2 / 2 + x ^ 4 / 24 := by
  let f (t : ℝ) : ℝ := 1 - t ^ 2 / 2 + t ^ 4 / 24 - Real.cos t
  have hder : ∀ t, HasDerivAt f (-t + t ^ 3 / 6 + Real.sin t) t := fun t => by
    have h := ((((hasDerivAt_pow 2 t).div_const 2).const_sub 1).add ((hasDerivAt_pow 4 t).div_const 24)).sub (Real.hasDerivAt_cos t)
    refine h.congr_deriv ?_
    push_cast; ring
  have hm : MonotoneOn f (Set.Ici 0) := by
    apply monotoneOn_of_deriv_nonneg (convex_Ici 0) (fun t _ => (hder t).continuousAt.continuousWithinAt)
      (fun t _ => (hder t).differentiableAt.differentiableWithinAt)
    intro t ht
    rw [interior_Ici] at ht
    rw [(hder t).deriv]
    linarith [Real.sin_gt_sub_cube (show 0 < t from ht)]
  have := hm (Set.self_mem_Ici) hx hx
  simp [f] at this
  linarith

theorem sin_upper {x : ℝ} (hx : 0 ≤ x) : Real.sin x ≤ x - x ^ 3 / 6 + x ^ 5 / 120 := by
  let f (t : ℝ) : ℝ := t - t ^ 3 / 6 + t ^ 5 / 120 - Real.sin t
  have hder : ∀ t, HasDerivAt f (1 - t ^ 2 / 2 + t ^ 4 / 24 - Real.cos t) t := fun t => by
    have h := (((hasDerivAt_id t).sub ((hasDerivAt_pow 3 t).div_const 6)).add ((hasDerivAt_pow 5 t).div_const 120)).sub (Real.hasDerivAt_sin t)
    refine h.congr_deriv ?_
    push_cast; ring
  have hm : MonotoneOn f (Set.Ici 0) := by
    apply monotoneOn_of_deriv_nonneg (convex_Ici 0) (fun t _ => (hder t).continuousAt.continuousWithinAt)
      (fun t _ => (hder t).differentiableAt.differentiableWithinAt)
    intro t ht
    rw [interior_Ici] at ht
    rw [(hder t).deriv]
    linarith [cos_upper (show 0 ≤ t from le_of_lt ht)]
  have := hm (Set.self_mem_Ici) hx hx
  simp [f] at this
  linarith

theorem norm_log_sq (v : ℂ) : ‖Complex.log v‖ ^ 2 = (Real.log ‖v‖) ^ 2 + (|Complex.arg v|) ^ 2 := by
  rw [← Complex.normSq_eq_norm_sq, Complex.normSq_apply, Complex.log_re, Complex.log_im, sq_abs]; ring

theorem polar_re (v : ℂ) : v.re = ‖v‖ * Real.cos |Complex.arg v| := by
  rw [Real.cos_abs, Complex.norm_mul_cos_arg]

theorem polar_im (v : ℂ) : |v.im| = ‖v‖ * Real.sin |Complex.arg v| := by
  rw [← Complex.norm_mul_sin_arg v, abs_mul, abs_of_nonneg (norm_nonneg v)]
  congr 1
  have h1 := Complex.arg_le_pi v
  have h2 := Complex.neg_pi_lt_arg v
  rcases le_total 0 (Complex.arg v) with h | h
  · rw [abs_of_nonneg h, abs_of_nonneg (Real.sin_nonneg_of_nonneg_of_le_pi h h1)]
  · rw [abs_of_nonpos h, Real.sin_neg, abs_of_nonpos (Real.sin_nonpos_of_nonpos_of_neg_pi_le h (by linarith))]

theorem norm_one_sub_sq (v : ℂ) : ‖1 - v‖ ^ 2 = 1 - 2 * v.re + ‖v‖ ^ 2 := by
  rw [← Complex.normSq_eq_norm_sq, ← Complex.normSq_eq_norm_sq, Complex.normSq_apply, Complex.normSq_apply]
  simp; ring

/-- half-plane part of the disc `|1-v| ≤ 1` -/
theorem norm_log_right {v : ℂ} (h1 : 1 / 2 ≤ v.re) (h2 : ‖1 - v‖ ≤ 1) : ‖Complex.log v‖ ≤ 1.1 := by
  have hv0 : v ≠ 0 := by rintro rfl; simp at h1; linarith
  have hρ : 0 < ‖v‖ := norm_pos_iff.mpr hv0
  set ρ := ‖v‖ with hρd
  set α := |Complex.arg v| with hα
  have hα0 : 0 ≤ α := abs_nonneg _
  have hre : v.re = ρ * Real.cos α := polar_re v
  have hsq := norm_one_sub_sq v
  have h3 : ρ ^ 2 ≤ 2 * v.re := by nlinarith [norm_nonneg (1 - v)]
  have hρ2 : ρ ≤ 2 * Real.cos α := by rw [hre] at h3; nlinarith
  rw [hre] at h1
  have hcos : 1 / 2 ≤ Real.cos α := by
    have : (1:ℝ) ≤ 2 * Real.cos α * (2 * Real.cos α) := by
      have hc : 0 < Real.cos α := by
        by_contra hc; push Not at hc; nlinarith
      nlinarith
    have hc : 0 < Real.cos α := by
        by_contra hc; push Not at hc; nlinarith
    nlinarith
  have hαpi : α ≤ Real.pi / 3 := by
    by_contra hc
    push Not at hc
    have := Real.cos_lt_cos_of_nonneg_of_le_pi (by positivity) (Complex.abs_arg_le_pi v) hc
    rw [Real.cos_pi_div_three] at this
    linarith
  have hlog : |Real.log ρ| ≤ Real.log (2 * Real.cos α) := by
    rw [abs_le]
    constructor
    · rw [← Real.log_inv]
      apply Real.log_le_log (by positivity)
      rw [inv_le_iff_one_le_mul₀ (by linarith)]; linarith
    · exact Real.log_le_log hρ hρ2
  have hpi := Real.pi_lt_d4
  have key : Real.log ρ ^ 2 + α ^ 2 ≤ 1.21 := by
    rcases le_total α 0.82 with h | h
    · have : Real.log (2 * Real.cos α) ≤ 0.6932 := by
        have := Real.log_le_log (by linarith) (show 2 * Real.cos α ≤ 2 by linarith [Real.cos_le_one α])
        linarith [Real.log_two_lt_d9]
      have h5 : Real.log ρ ^ 2 ≤ 0.6932 ^ 2 := by rw [← sq_abs]; exact pow_le_pow_left₀ (abs_nonneg _) (by linarith) 2
      nlinarith
    · have hc : Real.cos α ≤ 0.6874 := by
        have h6 := Real.cos_le_cos_of_nonneg_of_le_pi (by norm_num) (by linarith [Real.pi_gt_three]) h
        have h7 := cos_upper (x := 0.82) (by norm_num)
        norm_num at h7 h6 ⊢; linarith
      have : Real.log (2 * Real.cos α) ≤ 0.32 := by
        rw [Real.log_le_iff_le_exp (by linarith)]
        have := Real.quadratic_le_exp_of_nonneg (x := 0.32) (by norm_num)
        have h8 : (1.3748:ℝ) ≤ Real.exp 0.32 := by
          have := Real.sum_le_exp_of_nonneg (x := 0.32) (by norm_num) 4
          norm_num [Finset.sum_range_succ, Nat.factorial] at this ⊢
          linarith
        linarith
      have h5 : Real.log ρ ^ 2 ≤ 0.32 ^ 2 := by rw [← sq_abs]; exact pow_le_pow_left₀ (abs_nonneg _) (by linarith) 2
      nlinarith
  have hn := norm_log_sq v
  rw [← hρd, ← hα] at hn
  have : ‖Complex.log v‖ ^ 2 ≤ 1.1 ^ 2 := by rw [hn]; norm_num; linarith
  exact le_of_sq_le_sq this (by norm_num)

/-- one box of polar coordinates of `v = 1 - z` in which `|log z| < 1` -/
theorem log_box {v : ℂ} {α0 α1 ρ1 c0 s1 a ta : ℝ} (hv0 : v ≠ 0) (h2 : ‖1 - v‖ ≤ 1)
    (hα0 : α0 ≤ |Complex.arg v|) (hα1 : |Complex.arg v| ≤ α1) (h0 : 0 ≤ α0) (h1 : α1 ≤ 1.5)
    (hρ : ‖v‖ ≤ ρ1) (hc : Real.cos α0 ≤ c0) (hs : Real.sin α1 ≤ s1) (hc1 : ρ1 * c0 < 1) (hc2 : c0 < 1)
    (ha : a < 1.5) (ha0 : 0 ≤ a) (hta : ta ≤ Real.tan a) (hT : ρ1 * s1 ≤ ta * (1 - ρ1 * c0))
    (hfin : a ^ 2 + (c0 ^ 2 / (2 * (1 - c0 ^ 2))) ^ 2 < 1) : ‖Complex.log (1 - v)‖ < 1 := by
  have hpi := Real.pi_gt_d2
  have hρ0 : 0 < ‖v‖ := norm_pos_iff.mpr hv0
  have hre := polar_re v
  have him := polar_im v
  set ρ := ‖v‖ with hρd
  set α := |Complex.arg v| with hα
  have hcα : Real.cos α ≤ c0 := (Real.cos_le_cos_of_nonneg_of_le_pi h0 (by linarith) hα0).trans hc
  have hcα0 : 0 < Real.cos α := Real.cos_pos_of_mem_Ioo ⟨by linarith, by linarith⟩
  have hsα : Real.sin α ≤ s1 := (Real.sin_le_sin_of_le_of_le_pi_div_two (by linarith) (by linarith) hα1).trans hs
  have hsα0 : 0 ≤ Real.sin α := Real.sin_nonneg_of_nonneg_of_le_pi (by linarith) (by linarith)
  have hzre : 1 - ρ1 * c0 ≤ (1 - v).re := by
    simp only [sub_re, one_re]; rw [hre]
    have : ρ * Real.cos α ≤ ρ1 * c0 := mul_le_mul hρ hcα hcα0.le (by linarith)
    linarith
  have hzre0 : 0 < (1 - v).re := by linarith
  have hzim : |(1 - v).im| ≤ ρ1 * s1 := by
    simp only [sub_im, one_im, zero_sub, abs_neg]; rw [him]
    exact mul_le_mul hρ hsα hsα0 (by linarith)
  -- argument
  have harg : |Complex.arg (1 - v)| ≤ a := by
    by_contra hcon
    push Not at hcon
    have hlt : |Complex.arg (1 - v)| < Real.pi / 2 := by
      rw [Complex.abs_arg_lt_pi_div_two_iff]; left; exact hzre0
    have ht := Real.tan_lt_tan_of_nonneg_of_lt_pi_div_two ha0 hlt hcon
    have habs : Real.tan |Complex.arg (1 - v)| = |(1 - v).im| / (1 - v).re := by
      rcases le_total 0 (Complex.arg (1 - v)) with h | h
      · rw [abs_of_nonneg h, Complex.tan_arg, abs_of_nonneg (Complex.arg_nonneg_iff.mp h)]
      · rw [abs_of_nonpos h, Real.tan_neg, Complex.tan_arg]
        rcases h.eq_or_lt with h' | h'
        · have := (Complex.arg_eq_zero_iff.mp h').2
          rw [this]; simp
        · rw [abs_of_neg (Complex.arg_neg_iff.mp h')]; ring
    rw [habs, lt_div_iff₀ hzre0] at ht
    have hta0 : 0 ≤ Real.tan a := Real.tan_nonneg_of_nonneg_of_le_pi_div_two ha0 (by linarith)
    have : ta * (1 - ρ1 * c0) ≤ Real.tan a * (1 - v).re :=
      (mul_le_mul_of_nonneg_right hta (by linarith)).trans (mul_le_mul_of_nonneg_left hzre hta0)
    linarith
  -- modulus
  have hsq := norm_one_sub_sq v
  have hz2 : 1 - c0 ^ 2 ≤ ‖1 - v‖ ^ 2 := by
    rw [hsq, hre, ← hρd]
    nlinarith [sq_nonneg (ρ - Real.cos α)]
  have hc0 : 0 < 1 - c0 ^ 2 := by nlinarith
  have hz0 : 0 < ‖1 - v‖ := by
    by_contra h
    have : ‖1 - v‖ = 0 := le_antisymm (not_lt.mp h) (norm_nonneg _)
    rw [this, zero_pow two_ne_zero] at hz2; linarith
  have hlog : |Real.log ‖1 - v‖| ≤ c0 ^ 2 / (2 * (1 - c0 ^ 2)) := by
    rw [abs_of_nonpos (Real.log_nonpos hz0.le h2)]
    have e : Real.log ‖1 - v‖ = 1 / 2 * Real.log (‖1 - v‖ ^ 2) := by rw [Real.log_pow]; push_cast; ring
    have h3 := Real.one_sub_inv_le_log_of_pos (x := ‖1 - v‖ ^ 2) (by positivity)
    have h4 : (‖1 - v‖ ^ 2)⁻¹ ≤ (1 - c0 ^ 2)⁻¹ := inv_anti₀ hc0 hz2
    have h5 : c0 ^ 2 / (2 * (1 - c0 ^ 2)) = 1 / 2 * ((1 - c0 ^ 2)⁻¹ - 1) := by field_simp; ring
    rw [e, h5]; linarith
  have hn := norm_log_sq (1 - v)
  have h6 : Real.log ‖1 - v‖ ^ 2 ≤ (c0 ^ 2 / (2 * (1 - c0 ^ 2))) ^ 2 := by
    rw [← sq_abs]; exact pow_le_pow_left₀ (abs_nonneg _) hlog 2
  have h7 : |Complex.arg (1 - v)| ^ 2 ≤ a ^ 2 := pow_le_pow_left₀ (abs_nonneg _) harg 2
  nlinarith [norm_nonneg (Complex.log (1 - v))]

theorem tan_lower {a : ℝ} (h0 : 0 < a) (h1 : a < 1.5) {ta : ℝ} (hta : 0 ≤ ta)
    (h : ta * (1 - a ^ 2 / 2 + a ^ 4 / 24) ≤ a - a ^ 3 / 6) : ta ≤ Real.tan a := by
  have hpi := Real.pi_gt_d2
  have hc : 0 < Real.cos a := Real.cos_pos_of_mem_Ioo ⟨by linarith, by linarith⟩
  rw [Real.tan_eq_sin_div_cos, le_div_iff₀ hc]
  exact (mul_le_mul_of_nonneg_left (cos_upper h0.le) hta).trans (h.trans (Real.sin_gt_sub_cube h0).le)

/-- the region in which `Li_n`, `n = 3, ..., 6`, use the expansion in `u = -log(1-z)` -/
theorem norm_log_one_sub {z : ℂ} (h1 : ‖z‖ ≤ 1) (h2 : 1 ≤ ‖Complex.log z‖) (hz1 : z ≠ 1) : ‖Complex.log (1 - z)‖ ≤ 1.1 := by
  set v := 1 - z with hv
  have hz : z = 1 - v := by rw [hv]; ring
  have hv0 : v ≠ 0 := fun h => hz1 (by rw [hz, h, sub_zero])
  have h1' : ‖1 - v‖ ≤ 1 := by rwa [← hz]
  rcases le_or_gt (1 / 2) v.re with hr | hr
  · exact norm_log_right hr h1'
  by_contra hcon
  push Not at hcon
  have hρ0 : 0 < ‖v‖ := norm_pos_iff.mpr hv0
  have hρ1 : 0.58 ≤ ‖v‖ := by
    by_contra hlt
    push Not at hlt
    have hb := Complex.norm_log_one_add_le (z := -v) (by rw [norm_neg]; linarith)
    rw [← sub_eq_add_neg, ← hz, norm_neg] at hb
    have hi : (1 - ‖v‖)⁻¹ ≤ (1 - 0.58)⁻¹ := inv_anti₀ (by norm_num) (by linarith)
    have : ‖v‖ ^ 2 * (1 - ‖v‖)⁻¹ / 2 ≤ 0.58 ^ 2 * (1 - 0.58)⁻¹ / 2 := by
      have h3 : 0 ≤ (1 - ‖v‖)⁻¹ := inv_nonneg.mpr (by linarith)
      gcongr
    norm_num at this
    linarith
  have hre := polar_re v
  have hsq := norm_one_sub_sq v
  have hn := norm_log_sq v
  have hbox := fun (α0 α1 ρ1 c0 s1 a ta : ℝ) => log_box (v := v) (α0 := α0) (α1 := α1) (ρ1 := ρ1) (c0 := c0) (s1 := s1) (a := a) (ta := ta) hv0 h1'
  have hlt1 : ¬ ‖Complex.log (1 - v)‖ < 1 := by rw [← hz]; exact not_lt.mpr h2
  set ρ := ‖v‖ with hρd
  set α := |Complex.arg v| with hα
  have hα0 : 0 ≤ α := abs_nonneg _
  have hpi := Real.pi_gt_d2
  have h3 : ρ ^ 2 ≤ 2 * v.re := by nlinarith [norm_nonneg (1 - v)]
  have hρ2 : ρ ≤ 2 * Real.cos α := by rw [hre] at h3; nlinarith
  have hρlt : ρ < 1 := by nlinarith
  have hs0 : Real.log ρ < 0 := Real.log_neg hρ0 hρlt
  have hs1 : -0.55 ≤ Real.log ρ := by
    have : Real.log 0.58 ≤ Real.log ρ := Real.log_le_log (by norm_num) hρ1
    have h5 : -0.55 ≤ Real.log 0.58 := by
      rw [Real.le_log_iff_exp_le (by norm_num), Real.exp_neg, inv_le_comm₀ (Real.exp_pos _) (by norm_num)]
      have := Real.sum_le_exp_of_nonneg (x := 0.55) (by norm_num) 5
      norm_num [Finset.sum_range_succ, Nat.factorial] at this ⊢
      linarith
    linarith
  have hU : 1.21 < Real.log ρ ^ 2 + α ^ 2 := by
    rw [← hn]; nlinarith
  have hα1 : 0.9526 ≤ α := by
    by_contra h; push Not at h
    nlinarith
  have hα2 : α ≤ 1.3 := by
    by_contra h; push Not at h
    have h6 := Real.cos_lt_cos_of_nonneg_of_le_pi (by norm_num) (Complex.abs_arg_le_pi v) h
    have h7 : Real.cos (1.3:ℝ) ≤ 0.2741 := (cos_upper (by norm_num)).trans (by norm_num)
    linarith
  have cu : ∀ x y : ℝ, 0 ≤ x → 1 - x ^ 2 / 2 + x ^ 4 / 24 ≤ y → Real.cos x ≤ y := fun x y hx h => (cos_upper hx).trans h
  have su : ∀ x y : ℝ, 0 ≤ x → x - x ^ 3 / 6 + x ^ 5 / 120 ≤ y → Real.sin x ≤ y := fun x y hx h => (sin_upper hx).trans h
  have ρexp : ∀ s r : ℝ, 0 ≤ s → Real.log ρ ≤ -s → 1 ≤ r * (1 + s + s ^ 2 / 2 + s ^ 3 / 6) → 0 < r → ρ ≤ r := by
    intro s r hs hl hr hr0
    have h6 : ρ ≤ Real.exp (-s) := by rw [← Real.log_le_iff_le_exp hρ0]; exact hl
    refine h6.trans ?_
    rw [Real.exp_neg, inv_le_comm₀ (Real.exp_pos _) hr0]
    have := Real.sum_le_exp_of_nonneg hs 4
    norm_num [Finset.sum_range_succ, Nat.factorial] at this
    refine le_trans ?_ this
    rw [inv_le_iff_one_le_mul₀ hr0]; linarith
  have hρc : ∀ x y : ℝ, 0 ≤ x → x ≤ α → 2 * (1 - x ^ 2 / 2 + x ^ 4 / 24) ≤ y → ρ ≤ y := by
    intro x y hx hxα h
    have := Real.cos_le_cos_of_nonneg_of_le_pi hx (Complex.abs_arg_le_pi v) hxα
    linarith [cos_upper hx]
  rcases le_total α 1.04 with b | b
  · refine hlt1 (hbox 0.9526 1.04 0.7 0.5807 0.8627 0.85 1.05 hα1 b (by norm_num) (by norm_num) ?_ (cu _ _ (by norm_num) (by norm_num))
      (su _ _ (by norm_num) (by norm_num)) (by norm_num) (by norm_num) (by norm_num) (by norm_num)
      (tan_lower (by norm_num) (by norm_num) (by norm_num) (by norm_num)) (by norm_num) (by norm_num))
    refine ρexp 0.358 _ (by norm_num) ?_ (by norm_num) (by norm_num)
    nlinarith
  rcases le_total α 1.09 with b2 | b2
  · refine hlt1 (hbox 1.04 1.09 0.864 0.508 0.887 0.95 1.38 b b2 (by norm_num) (by norm_num) ?_ (cu _ _ (by norm_num) (by norm_num))
      (su _ _ (by norm_num) (by norm_num)) (by norm_num) (by norm_num) (by norm_num) (by norm_num)
      (tan_lower (by norm_num) (by norm_num) (by norm_num) (by norm_num)) (by norm_num) (by norm_num))
    refine ρexp 0.147 _ (by norm_num) ?_ (by norm_num) (by norm_num)
    nlinarith
  rcases le_total α 1.12 with b3 | b3
  · exact hlt1 (hbox 1.09 1.12 0.9296 0.4648 0.9006 0.985 1.49 b2 b3 (by norm_num) (by norm_num)
      (hρc 1.09 _ (by norm_num) b2 (by norm_num)) (cu _ _ (by norm_num) (by norm_num))
      (su _ _ (by norm_num) (by norm_num)) (by norm_num) (by norm_num) (by norm_num) (by norm_num)
      (tan_lower (by norm_num) (by norm_num) (by norm_num) (by norm_num)) (by norm_num) (by norm_num))
  · exact hlt1 (hbox 1.12 1.3 0.877 0.4385 0.9648 0.95 1.38 b3 hα2 (by norm_num) (by norm_num)
      (hρc 1.12 _ (by norm_num) b3 (by norm_num)) (cu _ _ (by norm_num) (by norm_num))
      (su _ _ (by norm_num) (by norm_num)) (by norm_num) (by norm_num) (by norm_num) (by norm_num)
      (tan_lower (by norm_num) (by norm_num) (by norm_num) (by norm_num)) (by norm_num) (by norm_num))

end Polylog
