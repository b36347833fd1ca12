import Verif.Spec.Polylog
import Mathlib.Analysis.Calculus.ParametricIntervalIntegral
import Mathlib.Analysis.Complex.RemovableSingularity
import Mathlib.Analysis.Complex.CauchyIntegral
import Mathlib.Analysis.SpecialFunctions.Complex.LogDeriv
import Mathlib.Analysis.SpecialFunctions.Complex.LogBounds
import Mathlib.MeasureTheory.Integral.IntervalIntegral.FundThmCalculus
import Mathlib.Analysis.SpecialFunctions.Integrals.Basic
import Mathlib.Analysis.PSeries

/-! # Basic analysis of `pLi` -/

noncomputable section
namespace Polylog
open Complex MeasureTheory Set Filter Topology intervalIntegral

/-- derivative of the straight-line primitive of a holomorphic function on a set star-shaped about 0 -/
theorem hasDerivAt_ray {U : Set ℂ} (hU : IsOpen U) (hstar : ∀ z ∈ U, ∀ t : ℝ, 0 ≤ t → t ≤ 1 → (t : ℂ) * z ∈ U)
    {F : ℂ → ℂ} (hF : DifferentiableOn ℂ F U) {z : ℂ} (hz : z ∈ U) :
    HasDerivAt (fun w : ℂ => ∫ t in (0 : ℝ)..1, w * F (t * w)) (F z) z := by
  have hdF : ContinuousOn (deriv F) U := (hF.deriv hU).continuousOn
  have hcF : ContinuousOn F U := hF.continuousOn
  obtain ⟨r, hr, hball⟩ := Metric.isOpen_iff.mp hU z hz
  set K : Set ℂ := Metric.closedBall z (r / 2) with hK
  have hKU : K ⊆ U := fun w hw => hball (by
    rw [Metric.mem_closedBall] at hw; rw [Metric.mem_ball]; linarith)
  have hKc : IsCompact K := isCompact_closedBall _ _
  set L : Set ℂ := (fun p : ℝ × ℂ => (p.1 : ℂ) * p.2) '' (Icc (0 : ℝ) 1 ×ˢ K) with hL
  have hLc : IsCompact L := (isCompact_Icc.prod hKc).image (by fun_prop)
  have hLU : L ⊆ U := by
    rintro _ ⟨⟨t, w⟩, ⟨ht, hw⟩, rfl⟩
    exact hstar w (hKU hw) t ht.1 ht.2
  obtain ⟨C1, hC1⟩ := hLc.exists_bound_of_continuousOn (hcF.mono hLU)
  obtain ⟨C2, hC2⟩ := hLc.exists_bound_of_continuousOn (hdF.mono hLU)
  have hmem : ∀ t : ℝ, t ∈ Icc (0 : ℝ) 1 → ∀ w ∈ K, (t : ℂ) * w ∈ L := fun t ht w hw =>
    ⟨(t, w), ⟨ht, hw⟩, rfl⟩
  have hcont : ∀ w ∈ K, ContinuousOn (fun t : ℝ => F (t * w)) (Icc 0 1) := by
    intro w hw
    refine hcF.comp (by fun_prop) ?_
    intro t ht; exact hLU (hmem t ht w hw)
  have hcont' : ∀ w ∈ K, ContinuousOn (fun t : ℝ => deriv F (t * w)) (Icc 0 1) := by
    intro w hw
    refine hdF.comp (by fun_prop) ?_
    intro t ht; exact hLU (hmem t ht w hw)
  have hint : ∀ w ∈ K, IntervalIntegrable (fun t : ℝ => w * F (t * w)) volume 0 1 := by
    intro w hw
    apply ContinuousOn.intervalIntegrable
    rw [uIcc_of_le zero_le_one]
    exact continuousOn_const.mul (hcont w hw)
  have hzK : z ∈ K := Metric.mem_closedBall_self (by linarith)
  have hint' : IntervalIntegrable (fun t : ℝ => F (t * z) + z * (t * deriv F (t * z))) volume 0 1 := by
    apply ContinuousOn.intervalIntegrable
    rw [uIcc_of_le zero_le_one]
    exact (hcont z hzK).add (continuousOn_const.mul ((by fun_prop : ContinuousOn (fun t : ℝ => (t : ℂ)) _).mul (hcont' z hzK)))
  have key := hasDerivAt_integral_of_dominated_loc_of_deriv_le (𝕜 := ℂ) (μ := volume) (a := (0 : ℝ)) (b := 1)
    (F := fun (w : ℂ) (t : ℝ) => w * F (t * w))
    (F' := fun (w : ℂ) (t : ℝ) => F (t * w) + w * (t * deriv F (t * w)))
    (x₀ := z) (s := K) (bound := fun _ => C1 + (‖z‖ + r) * C2)
    (Metric.closedBall_mem_nhds z (by linarith))
    (by
      filter_upwards [Metric.closedBall_mem_nhds z (show 0 < r / 2 by linarith)] with w hw
      exact (hint w hw).aestronglyMeasurable_restrict_uIoc)
    (hint z hzK) hint'.aestronglyMeasurable_restrict_uIoc
    (by
      refine Filter.Eventually.of_forall fun t ht w hw => ?_
      rw [uIoc_of_le zero_le_one] at ht
      have ht' : t ∈ Icc (0 : ℝ) 1 := ⟨ht.1.le, ht.2⟩
      have h1 := hC1 _ (hmem t ht' w hw)
      have h2 := hC2 _ (hmem t ht' w hw)
      have hw' : ‖w‖ ≤ ‖z‖ + r := by
        rw [hK, mem_closedBall_iff_norm] at hw
        have := norm_le_insert' w z
        linarith
      have ht1 : ‖(t : ℂ)‖ ≤ 1 := by
        rw [Complex.norm_real, Real.norm_eq_abs, abs_of_nonneg ht'.1]; exact ht'.2
      calc ‖F (t * w) + w * (t * deriv F (t * w))‖ ≤ ‖F (t * w)‖ + ‖w * (t * deriv F (t * w))‖ := norm_add_le _ _
        _ ≤ C1 + (‖z‖ + r) * C2 := by
          rw [norm_mul, norm_mul]
          have : ‖(t : ℂ)‖ * ‖deriv F (t * w)‖ ≤ 1 * C2 := mul_le_mul ht1 h2 (norm_nonneg _) zero_le_one
          have h3 : ‖w‖ * (‖(t : ℂ)‖ * ‖deriv F (t * w)‖) ≤ (‖z‖ + r) * (1 * C2) :=
            mul_le_mul hw' this (by positivity) (by positivity)
          linarith)
    (by simp)
    (by
      refine Filter.Eventually.of_forall fun t ht w hw => ?_
      rw [uIoc_of_le zero_le_one] at ht
      have hm : (t : ℂ) * w ∈ U := hLU (hmem t ⟨ht.1.le, ht.2⟩ w hw)
      have hd : HasDerivAt F (deriv F (t * w)) (t * w) :=
        ((hF _ hm).differentiableAt (hU.mem_nhds hm)).hasDerivAt
      have h1 : HasDerivAt (fun w : ℂ => (t : ℂ) * w) (t : ℂ) w := by
        simpa using (hasDerivAt_id w).const_mul (t : ℂ)
      have h2 := (hasDerivAt_id w).mul (HasDerivAt.comp w hd h1)
      refine h2.congr_deriv ?_
      show 1 * F (t * w) + w * (deriv F (t * w) * t) = _
      ring)
  have := key.2
  have e : (∫ t in (0 : ℝ)..1, F (t * z) + z * (t * deriv F (t * z))) = F z := by
    have hd : ∀ t ∈ uIcc (0 : ℝ) 1, HasDerivAt (fun t : ℝ => (t : ℂ) * F (t * z))
        (F (t * z) + z * (t * deriv F (t * z))) t := by
      intro t ht
      rw [uIcc_of_le zero_le_one] at ht
      have hm : (t : ℂ) * z ∈ U := hLU (hmem t ht z hzK)
      have hdF : HasDerivAt F (deriv F (t * z)) (t * z) :=
        ((hF _ hm).differentiableAt (hU.mem_nhds hm)).hasDerivAt
      have h0 : HasDerivAt (fun s : ℝ => (s : ℂ)) 1 t := Complex.ofRealCLM.hasDerivAt
      have h1 : HasDerivAt (fun s : ℝ => (s : ℂ) * z) z t := by simpa using h0.mul_const z
      have h2 := h0.mul (HasDerivAt.comp t hdF h1)
      refine h2.congr_deriv ?_
      show 1 * F (t * z) + t * (deriv F (t * z) * z) = _
      ring
    rw [integral_eq_sub_of_hasDerivAt hd hint']
    simp
  rw [e] at this
  exact this

/-! ## The cut plane -/

/-- the plane cut along `[1, ∞)` -/
def cutPlane : Set ℂ := {z | 1 - z ∈ slitPlane}

theorem mem_cutPlane {z : ℂ} : z ∈ cutPlane ↔ z.re < 1 ∨ z.im ≠ 0 := by
  simp [cutPlane, mem_slitPlane_iff]

theorem isOpen_cutPlane : IsOpen cutPlane := isOpen_slitPlane.preimage (by fun_prop)

theorem zero_mem_cutPlane : (0 : ℂ) ∈ cutPlane := by rw [mem_cutPlane]; simp

theorem cutPlane_star (z : ℂ) (hz : z ∈ cutPlane) (t : ℝ) (h0 : 0 ≤ t) (h1 : t ≤ 1) : (t : ℂ) * z ∈ cutPlane := by
  rw [mem_cutPlane] at *
  simp only [re_ofReal_mul, im_ofReal_mul]
  rcases h0.eq_or_lt with rfl | h0
  · left; simp
  rcases hz with h | h
  · left
    rcases le_or_gt z.re 0 with h' | h'
    · nlinarith
    · nlinarith
  · right; exact mul_ne_zero h0.ne' h

theorem mem_cutPlane_of_norm_lt {z : ℂ} (hz : ‖z‖ < 1) : z ∈ cutPlane := by
  rw [mem_cutPlane]; left; exact lt_of_le_of_lt (re_le_norm z) hz

theorem pLi_zero_right (n : ℕ) : pLi n 0 = 0 := by
  induction n using Nat.twoStepInduction with
  | zero => simp [pLi]
  | one => simp [pLi]
  | more n _ ih => rw [pLi]; simp [ih]

/-- `Li_{n+1}(z) = ∫_0^1 z (Li_n(tz)/(tz)) dt`, with the removable singularity removed -/
theorem pLi_succ_eq (n : ℕ) (z : ℂ) :
    pLi (n + 2) z = ∫ t in (0 : ℝ)..1, z * dslope (pLi (n + 1)) 0 (t * z) := by
  rw [pLi]
  apply intervalIntegral.integral_congr_ae
  refine Filter.Eventually.of_forall fun t ht => ?_
  rw [uIoc_of_le zero_le_one] at ht
  have ht0 : (t : ℂ) ≠ 0 := by exact_mod_cast ht.1.ne'
  have := sub_smul_dslope (pLi (n + 1)) 0 ((t : ℂ) * z)
  rw [pLi_zero_right, sub_zero, sub_zero, smul_eq_mul] at this
  rw [← this]; field_simp

theorem pLi_differentiableOn (n : ℕ) : DifferentiableOn ℂ (pLi (n + 1)) cutPlane ∧
    ∀ z ∈ cutPlane, HasDerivAt (pLi (n + 2)) (dslope (pLi (n + 1)) 0 z) z := by
  induction n with
  | zero =>
    have h1 : DifferentiableOn ℂ (pLi 1) cutPlane := by
      intro z hz
      have : HasDerivAt (fun z : ℂ => 1 - z) (-1) z := by simpa using (hasDerivAt_id z).const_sub 1
      have h2 := (this.clog hz).neg
      have h3 : HasDerivAt (pLi 1) _ z := h2
      exact h3.differentiableAt.differentiableWithinAt
    refine ⟨h1, fun z hz => ?_⟩
    have h2 : DifferentiableOn ℂ (dslope (pLi 1) 0) cutPlane :=
      (differentiableOn_dslope (isOpen_cutPlane.mem_nhds zero_mem_cutPlane)).mpr h1
    have := hasDerivAt_ray isOpen_cutPlane cutPlane_star h2 hz
    have e : (fun w : ℂ => ∫ t in (0 : ℝ)..1, w * dslope (pLi 1) 0 (t * w)) = pLi 2 := by
      funext w; exact (pLi_succ_eq 0 w).symm
    rw [e] at this; exact this
  | succ n ih =>
    have h1 : DifferentiableOn ℂ (pLi (n + 2)) cutPlane := fun z hz =>
      (ih.2 z hz).differentiableAt.differentiableWithinAt
    refine ⟨h1, fun z hz => ?_⟩
    have h2 : DifferentiableOn ℂ (dslope (pLi (n + 2)) 0) cutPlane :=
      (differentiableOn_dslope (isOpen_cutPlane.mem_nhds zero_mem_cutPlane)).mpr h1
    have := hasDerivAt_ray isOpen_cutPlane cutPlane_star h2 hz
    have e : (fun w : ℂ => ∫ t in (0 : ℝ)..1, w * dslope (pLi (n + 2)) 0 (t * w)) = pLi (n + 3) := by
      funext w; exact (pLi_succ_eq (n + 1) w).symm
    rw [e] at this; exact this

theorem pLi_zero_hasDerivAt {z : ℂ} (hz : z ≠ 1) : HasDerivAt (pLi 0) (1 / (1 - z) ^ 2) z := by
  have hne : 1 - z ≠ 0 := fun h => hz (by linear_combination -h)
  have h1 : HasDerivAt (fun z : ℂ => 1 - z) (-1) z := by simpa using (hasDerivAt_id z).const_sub 1
  have h2 := (hasDerivAt_id z).div h1 hne
  have h3 : HasDerivAt (pLi 0) _ z := h2
  refine h3.congr_deriv ?_
  simp

theorem pLi_one_hasDerivAt {z : ℂ} (hz : z ∈ cutPlane) : HasDerivAt (pLi 1) (1 / (1 - z)) z := by
  have : HasDerivAt (fun z : ℂ => 1 - z) (-1) z := by simpa using (hasDerivAt_id z).const_sub 1
  have h2 := (this.clog hz).neg
  have h3 : HasDerivAt (pLi 1) _ z := h2
  refine h3.congr_deriv ?_
  ring

/-- **T1.** `Li_{n+1}' = Li_n / z` on the cut plane. -/
theorem pLi_hasDerivAt (n : ℕ) {z : ℂ} (hz : z ∈ cutPlane) (h0 : z ≠ 0) :
    HasDerivAt (pLi (n + 1)) (pLi n z / z) z := by
  cases n with
  | zero =>
    have h := pLi_one_hasDerivAt hz
    refine h.congr_deriv ?_
    rw [pLi]; field_simp
  | succ n =>
    have h := (pLi_differentiableOn n).2 z hz
    refine h.congr_deriv ?_
    rw [dslope_of_ne _ h0, slope_def_field, pLi_zero_right, sub_zero, sub_zero]

theorem pLi_differentiableAt (n : ℕ) {z : ℂ} (hz : z ∈ cutPlane) : DifferentiableAt ℂ (pLi n) z := by
  cases n with
  | zero =>
    refine (pLi_zero_hasDerivAt ?_).differentiableAt
    rintro rfl; rw [mem_cutPlane] at hz; simp at hz
  | succ n => exact ((pLi_differentiableOn n).1 z hz).differentiableAt (isOpen_cutPlane.mem_nhds hz)

theorem pLi_continuousOn (n : ℕ) : ContinuousOn (pLi n) cutPlane := fun _ hz =>
  (pLi_differentiableAt n hz).continuousAt.continuousWithinAt

/-! ## Power series -/

theorem pLi_one_hasSum {z : ℂ} (hz : ‖z‖ < 1) : HasSum (fun k : ℕ => z ^ (k + 1) / ((k : ℂ) + 1)) (pLi 1 z) := by
  have := Complex.hasSum_taylorSeries_neg_log hz
  rw [← hasSum_nat_add_iff' 1] at this
  simpa [pLi] using this

theorem summable_inv_succ_pow (n : ℕ) : Summable (fun k : ℕ => 1 / ((k : ℝ) + 1) ^ (n + 2)) := by
  have h := (summable_nat_add_iff 1).mpr (Real.summable_one_div_nat_pow.mpr (show 1 < n + 2 by omega))
  simpa using h

theorem pLi_hasSum_step (n : ℕ)
    (ih : ∀ z : ℂ, ‖z‖ < 1 → HasSum (fun k : ℕ => z ^ (k + 1) / ((k : ℂ) + 1) ^ (n + 1)) (pLi (n + 1) z))
    (z : ℂ) (hz : ‖z‖ ≤ 1) :
    HasSum (fun k : ℕ => z ^ (k + 1) / ((k : ℂ) + 1) ^ (n + 2)) (pLi (n + 2) z) := by
  set F : ℕ → ℝ → ℂ := fun k t => (t : ℂ) ^ k * (z ^ (k + 1) / ((k : ℂ) + 1) ^ (n + 1)) with hF
  have hint : ∀ k, IntervalIntegrable (F k) volume 0 1 := fun k =>
    (Continuous.intervalIntegrable (by rw [hF]; fun_prop) _ _)
  have hk : ∀ k : ℕ, ((k : ℂ) + 1) ≠ 0 := fun k => by exact_mod_cast Nat.succ_ne_zero k
  have hval : ∀ k, (∫ t in (0:ℝ)..1, F k t) = z ^ (k + 1) / ((k : ℂ) + 1) ^ (n + 2) := by
    intro k
    simp only [hF]
    rw [intervalIntegral.integral_mul_const]
    have : (∫ t in (0:ℝ)..1, (t : ℂ) ^ k) = 1 / ((k : ℂ) + 1) := by
      have h := integral_pow (a := 0) (b := 1) k
      have h2 : (∫ t in (0:ℝ)..1, (t : ℂ) ^ k) = ((∫ t in (0:ℝ)..1, t ^ k : ℝ) : ℂ) := by
        rw [← intervalIntegral.integral_ofReal]; simp
      rw [h2, h]; simp
    rw [this, pow_succ ((k : ℂ) + 1) (n + 1)]
    field_simp [hk k]
  have hnorm : ∀ k, (∫ t in (0:ℝ)..1, ‖F k t‖) = ‖z‖ ^ (k + 1) / ((k : ℝ) + 1) ^ (n + 2) := by
    intro k
    have e : ∀ t ∈ uIcc (0:ℝ) 1, ‖F k t‖ = t ^ k * (‖z‖ ^ (k + 1) / ((k : ℝ) + 1) ^ (n + 1)) := by
      intro t ht
      rw [uIcc_of_le zero_le_one] at ht
      have hk' : ‖((k : ℂ) + 1)‖ = (k : ℝ) + 1 := by
        have : ((k : ℂ) + 1) = ((k + 1 : ℕ) : ℂ) := by push_cast; ring
        rw [this, Complex.norm_natCast]; push_cast; ring
      simp only [hF, norm_mul, norm_pow, norm_div, hk', Complex.norm_real, Real.norm_eq_abs, abs_of_nonneg ht.1]
    rw [intervalIntegral.integral_congr e, intervalIntegral.integral_mul_const, integral_pow]
    rw [pow_succ ((k : ℝ) + 1) (n + 1)]
    have : ((k : ℝ) + 1) ≠ 0 := by positivity
    simp only [one_pow, ne_eq, Nat.add_eq_zero_iff, one_ne_zero, and_false, not_false_eq_true, zero_pow, sub_zero]
    field_simp
  have hsum : Summable fun k => ∫ t, ‖F k t‖ ∂(volume.restrict (Ioc (0:ℝ) 1)) := by
    refine Summable.of_nonneg_of_le (fun k => integral_nonneg fun t => norm_nonneg _) (fun k => ?_)
      (summable_inv_succ_pow n)
    rw [← intervalIntegral.integral_of_le zero_le_one, hnorm]
    gcongr
    exact pow_le_one₀ (norm_nonneg _) hz
  have hI : ∀ k, Integrable (F k) (volume.restrict (Ioc (0:ℝ) 1)) := fun k =>
    (intervalIntegrable_iff_integrableOn_Ioc_of_le zero_le_one).mp (hint k)
  have h := hasSum_integral_of_summable_integral_norm hI hsum
  simp only [← intervalIntegral.integral_of_le (zero_le_one' ℝ)] at h
  simp only [hval] at h
  suffices e : pLi (n + 2) z = ∫ t in (0:ℝ)..1, ∑' k, F k t by rw [e]; exact h
  rw [pLi]
  apply intervalIntegral.integral_congr_ae
  have hne : ∀ᵐ t : ℝ, t ≠ 1 := by
    rw [ae_iff]; simp
  filter_upwards [hne] with t ht1 ht
  rw [uIoc_of_le zero_le_one] at ht
  have ht0 : (t : ℂ) ≠ 0 := by exact_mod_cast ht.1.ne'
  have hlt : t < 1 := lt_of_le_of_ne ht.2 ht1
  have hn : ‖(t : ℂ) * z‖ < 1 := by
    rw [norm_mul, Complex.norm_real, Real.norm_eq_abs, abs_of_pos ht.1]
    have := mul_le_mul_of_nonneg_left hz ht.1.le
    linarith
  have h1 := (ih _ hn).div_const (t : ℂ)
  rw [← h1.tsum_eq]
  congr 1; funext k
  simp only [hF]
  rw [mul_pow, pow_succ (t : ℂ) k]
  field_simp

/-- **T2.** power series of `Li_n`, `|z| < 1`, `n ≥ 1` -/
theorem pLi_hasSum_lt (n : ℕ) : ∀ z : ℂ, ‖z‖ < 1 →
    HasSum (fun k : ℕ => z ^ (k + 1) / ((k : ℂ) + 1) ^ (n + 1)) (pLi (n + 1) z) := by
  induction n with
  | zero => intro z hz; simpa using pLi_one_hasSum hz
  | succ n ih => intro z hz; exact pLi_hasSum_step n ih z hz.le

/-- **T2.** power series of `Li_n`, `|z| ≤ 1`, `n ≥ 2` -/
theorem pLi_hasSum (n : ℕ) (z : ℂ) (hz : ‖z‖ ≤ 1) :
    HasSum (fun k : ℕ => z ^ (k + 1) / ((k : ℂ) + 1) ^ (n + 2)) (pLi (n + 2) z) :=
  pLi_hasSum_step n (pLi_hasSum_lt n) z hz

end Polylog
