import Verif.Proofs.PolylogBasic
import Mathlib.Analysis.SpecialFunctions.Integrability.Basic

/-! # `pLi` on the real line, including the branch cut -/

noncomputable section
namespace Polylog
open Complex MeasureTheory Set Filter Topology intervalIntegral

/-- two functions with equal derivatives on an open connected set, whose difference tends to 0 along some
filter on the set, agree -/
theorem eqOn_of_hasDerivAt {𝕜 : Type*} [RCLike 𝕜] {E : Type*} [NormedAddCommGroup E] [NormedSpace 𝕜 E]
    {U : Set 𝕜} (hU : IsOpen U) (hc : IsPreconnected U) {f g f' : 𝕜 → E}
    (hf : ∀ x ∈ U, HasDerivAt f (f' x) x) (hg : ∀ x ∈ U, HasDerivAt g (f' x) x)
    {l : Filter 𝕜} [l.NeBot] (hl : ∀ᶠ x in l, x ∈ U) (hlim : Tendsto (fun x => f x - g x) l (𝓝 0)) :
    ∀ x ∈ U, f x = g x := by
  have hd : ∀ x ∈ U, HasDerivAt (fun x => f x - g x) 0 x := fun x hx => by
    exact ((hf x hx).sub (hg x hx)).congr_deriv (sub_self _)
  obtain ⟨a, ha⟩ := hU.exists_is_const_of_deriv_eq_zero hc
    (f := fun x => f x - g x) (fun x hx => (hd x hx).differentiableAt.differentiableWithinAt)
    (fun x hx => (hd x hx).deriv)
  have h0 : a = 0 := by
    have h1 : Tendsto (fun x => f x - g x) l (𝓝 a) := by
      refine tendsto_const_nhds.congr' ?_
      filter_upwards [hl] with x hx using (ha x hx).symm
    exact tendsto_nhds_unique h1 hlim
  intro x hx
  have := ha x hx
  rw [h0] at this
  exact sub_eq_zero.mp this

theorem eqOn_of_hasDerivAt' {𝕜 : Type*} [RCLike 𝕜] {E : Type*} [NormedAddCommGroup E] [NormedSpace 𝕜 E]
    {U : Set 𝕜} (hU : IsOpen U) (hc : IsPreconnected U) {f g f' : 𝕜 → E}
    (hf : ∀ x ∈ U, HasDerivAt f (f' x) x) (hg : ∀ x ∈ U, HasDerivAt g (f' x) x)
    {x₀ : 𝕜} (hx₀ : x₀ ∈ U) (h : f x₀ = g x₀) : ∀ x ∈ U, f x = g x := by
  refine eqOn_of_hasDerivAt hU hc hf hg (l := pure x₀) (by simpa using hx₀) ?_
  rw [tendsto_pure_left]; intro s hs
  simp only [h, sub_self]; exact mem_of_mem_nhds hs

/-- complex logarithm of a real number -/
theorem clog_ofReal (x : ℝ) : Complex.log (x : ℂ) = (Real.log x : ℂ) + if x < 0 then (Real.pi : ℂ) * I else 0 := by
  apply Complex.ext
  · rw [Complex.log_re, Complex.norm_real, Real.norm_eq_abs, Real.log_abs]
    split <;> simp
  · rw [Complex.log_im]
    split
    · rename_i h; rw [arg_ofReal_of_neg h]; simp
    · rename_i h; rw [arg_ofReal_of_nonneg (not_lt.mp h)]; simp

theorem pLi_one_ofReal (x : ℝ) : pLi 1 (x : ℂ) = -(Real.log (1 - x) : ℂ) - if 1 < x then (Real.pi : ℂ) * I else 0 := by
  have : (1 - (x : ℂ)) = ((1 - x : ℝ) : ℂ) := by push_cast; rfl
  rw [pLi, this, clog_ofReal]
  have h : (1 - x < 0) ↔ (1 < x) := by constructor <;> intro h <;> linarith
  simp only [h]; ring

/-- the integrand on the real line -/
def realInt (n : ℕ) (s : ℝ) : ℂ := pLi n (s : ℂ) / s

theorem real_mem_cutPlane {s : ℝ} (hs : s < 1) : (s : ℂ) ∈ cutPlane := by
  rw [mem_cutPlane]; left; simpa using hs

theorem realInt_left (n : ℕ) {a b : ℝ} (ha : a < 1) (hb : b < 1) :
    IntervalIntegrable (realInt (n + 1)) volume a b := by
  have hd : DifferentiableOn ℂ (dslope (pLi (n + 1)) 0) cutPlane :=
    (differentiableOn_dslope (isOpen_cutPlane.mem_nhds zero_mem_cutPlane)).mpr (pLi_differentiableOn n).1
  have hc : ContinuousOn (fun s : ℝ => dslope (pLi (n + 1)) 0 (s : ℂ)) (uIcc a b) := by
    refine hd.continuousOn.comp (by fun_prop) ?_
    intro s hs
    refine real_mem_cutPlane ?_
    rw [mem_uIcc] at hs
    rcases hs with h | h <;> linarith [h.1, h.2]
  refine hc.intervalIntegrable.congr_ae ?_
  have hne : ∀ᵐ t : ℝ, t ≠ 0 := by rw [ae_iff]; simp
  have := ae_restrict_of_ae (s := uIoc a b) hne
  filter_upwards [this] with s hs
  have hs' : (s : ℂ) ≠ 0 := by exact_mod_cast hs
  rw [realInt, dslope_of_ne _ hs', slope_def_field, pLi_zero_right, sub_zero, sub_zero]

theorem realInt_right_one {a b : ℝ} (ha : 0 < a) (hb : 0 < b) :
    IntervalIntegrable (realInt 1) volume a b := by
  have hpos : ∀ s ∈ uIcc a b, 0 < s := by
    intro s hs; rw [mem_uIcc] at hs; rcases hs with h | h <;> linarith [h.1, h.2]
  have h1 : IntervalIntegrable (fun s : ℝ => Real.log (1 - s)) volume a b := by
    have := (intervalIntegrable_log' (a := 1 - a) (b := 1 - b)).comp_sub_left 1
    simpa using this
  have h1' : IntervalIntegrable (fun s : ℝ => ((Real.log (1 - s) : ℝ) : ℂ)) volume a b := by
    constructor
    · exact h1.1.ofReal
    · exact h1.2.ofReal
  have h2 : IntervalIntegrable (fun s : ℝ => if 1 < s then (Real.pi : ℂ) * I else 0) volume a b := by
    have hm : Measurable (fun s : ℝ => if 1 < s then (Real.pi : ℂ) * I else 0) :=
      Measurable.ite measurableSet_Ioi measurable_const measurable_const
    have hc : IntervalIntegrable (fun _ : ℝ => (Real.pi : ℂ) * I) volume a b := intervalIntegrable_const
    refine hc.mono_fun hm.aestronglyMeasurable ?_
    refine Filter.Eventually.of_forall fun s => ?_
    by_cases h : 1 < s <;> simp [h]
  have h3 : IntervalIntegrable (fun s : ℝ => pLi 1 (s : ℂ)) volume a b := by
    have := h1'.neg.sub h2
    refine this.congr (fun s _ => ?_)
    simp only [Pi.neg_apply]
    exact (pLi_one_ofReal s).symm
  have h4 : ContinuousOn (fun s : ℝ => ((s : ℂ))⁻¹) (uIcc a b) := by
    refine ContinuousOn.inv₀ (by fun_prop) ?_
    intro s hs; exact_mod_cast (hpos s hs).ne'
  have h5 := h3.mul_continuousOn h4
  refine h5.congr (fun s _ => ?_)
  simp [realInt, div_eq_mul_inv]

/-- `Li_{n+1}(x) = ∫_0^x Li_n(s)/s ds` on the real line -/
theorem pLi_real_eq_integral (n : ℕ) (x : ℝ) : pLi (n + 2) (x : ℂ) = ∫ s in (0 : ℝ)..x, realInt (n + 1) s := by
  by_cases hx : x = 0
  · subst hx; simp [pLi_zero_right]
  rw [pLi]
  have h := intervalIntegral.smul_integral_comp_mul_right (a := 0) (b := 1) (realInt (n + 1)) x
  rw [zero_mul, one_mul] at h
  rw [← h, ← intervalIntegral.integral_smul]
  congr 1; funext t
  rw [realInt, Complex.real_smul]
  have hx' : (x : ℂ) ≠ 0 := by exact_mod_cast hx
  push_cast
  by_cases ht : (t : ℂ) = 0
  · simp [ht, pLi_zero_right]
  · field_simp

theorem realInt_integrable_of_cont (n : ℕ) (hc : Continuous (fun x : ℝ => pLi (n + 1) (x : ℂ))) (a b : ℝ) :
    IntervalIntegrable (realInt (n + 1)) volume a b := by
  have key : ∀ b : ℝ, IntervalIntegrable (realInt (n + 1)) volume (1 / 2) b := by
    intro b
    rcases lt_or_ge b 1 with h | h
    · exact realInt_left n (by norm_num) h
    · have : ContinuousOn (realInt (n + 1)) (uIcc (1 / 2) b) := by
        refine ContinuousOn.div hc.continuousOn (by fun_prop) ?_
        intro s hs
        rw [uIcc_of_le (by linarith)] at hs
        have : 0 < s := by linarith [hs.1]
        exact_mod_cast this.ne'
      exact this.intervalIntegrable
  exact (key a).symm.trans (key b)

theorem realInt_integrable_one (a b : ℝ) : IntervalIntegrable (realInt 1) volume a b := by
  have key : ∀ b : ℝ, IntervalIntegrable (realInt 1) volume (1 / 2) b := by
    intro b
    rcases lt_or_ge b 1 with h | h
    · exact realInt_left 0 (by norm_num) h
    · exact realInt_right_one (by norm_num) (by linarith)
  exact (key a).symm.trans (key b)

/-- `Li_n` (`n ≥ 2`) is continuous along the real line -/
theorem pLi_real_continuous (n : ℕ) : Continuous (fun x : ℝ => pLi (n + 2) (x : ℂ)) := by
  have e : ∀ n, (fun x : ℝ => pLi (n + 2) (x : ℂ)) = fun x => ∫ s in (0 : ℝ)..x, realInt (n + 1) s := by
    intro n; funext x; exact pLi_real_eq_integral n x
  induction n with
  | zero => rw [e]; exact intervalIntegral.continuous_primitive (fun a b => realInt_integrable_one a b) 0
  | succ n ih =>
    rw [e]; exact intervalIntegral.continuous_primitive (fun a b => realInt_integrable_of_cont (n + 1) ih a b) 0

theorem realInt_integrable (n : ℕ) (a b : ℝ) : IntervalIntegrable (realInt (n + 1)) volume a b := by
  cases n with
  | zero => exact realInt_integrable_one a b
  | succ n => exact realInt_integrable_of_cont (n + 1) (pLi_real_continuous n) a b

theorem pLi_one_real_continuousAt {x : ℝ} (hx : x ≠ 1) : ContinuousAt (fun x : ℝ => pLi 1 (x : ℂ)) x := by
  have e : (fun x : ℝ => pLi 1 (x : ℂ)) = fun x => -(Real.log (1 - x) : ℂ) - if 1 < x then (Real.pi : ℂ) * I else 0 := by
    funext x; exact pLi_one_ofReal x
  rw [e]
  have h1 : ContinuousAt (fun x : ℝ => (Real.log (1 - x) : ℂ)) x := by
    have : ContinuousAt (fun x : ℝ => Real.log (1 - x)) x :=
      (Real.continuousAt_log (by intro h; apply hx; linarith)).comp (f := fun x : ℝ => 1 - x) (by fun_prop)
    exact Complex.continuous_ofReal.continuousAt.comp this
  refine h1.neg.sub ?_
  rcases lt_or_gt_of_ne hx with h | h
  · refine ContinuousAt.congr (f := fun _ => (0 : ℂ)) continuousAt_const ?_
    filter_upwards [Iio_mem_nhds h] with y hy
    rw [if_neg (not_lt.mpr (le_of_lt hy))]
  · refine ContinuousAt.congr (f := fun _ => (Real.pi : ℂ) * I) continuousAt_const ?_
    filter_upwards [Ioi_mem_nhds h] with y hy
    rw [if_pos (mem_Ioi.mp hy)]

/-- **T3.** derivative along the real line, on both sides of the branch point (`x ≠ 1` only needed for `n = 1`) -/
theorem pLi_real_hasDerivAt (n : ℕ) {x : ℝ} (h0 : x ≠ 0) (h1 : x ≠ 1) :
    HasDerivAt (fun x : ℝ => pLi (n + 2) (x : ℂ)) (pLi (n + 1) (x : ℂ) / x) x := by
  have e : (fun x : ℝ => pLi (n + 2) (x : ℂ)) = fun x => ∫ s in (0 : ℝ)..x, realInt (n + 1) s := by
    funext x; exact pLi_real_eq_integral n x
  rw [e]
  have hc : ∀ y : ℝ, y ≠ 0 → y ≠ 1 → ContinuousAt (realInt (n + 1)) y := by
    intro y hy0 hy1
    refine ContinuousAt.div ?_ (by fun_prop) (by exact_mod_cast hy0)
    cases n with
    | zero => exact pLi_one_real_continuousAt hy1
    | succ n => exact (pLi_real_continuous n).continuousAt
  have ho : IsOpen {y : ℝ | y ≠ 0 ∧ y ≠ 1} := isOpen_ne.inter isOpen_ne
  have hm : StronglyMeasurableAtFilter (realInt (n + 1)) (𝓝 x) volume :=
    ContinuousOn.stronglyMeasurableAtFilter ho
      (fun y hy => (hc y hy.1 hy.2).continuousWithinAt) x ⟨h0, h1⟩
  exact integral_hasDerivAt_right (realInt_integrable n 0 x) hm (hc x h0 h1)

theorem pLi_one_real_hasDerivAt {x : ℝ} (h1 : x ≠ 1) :
    HasDerivAt (fun x : ℝ => pLi 1 (x : ℂ)) (1 / (1 - x : ℝ) : ℂ) x := by
  have e : (fun x : ℝ => pLi 1 (x : ℂ)) = fun x => -(Real.log (1 - x) : ℂ) - if 1 < x then (Real.pi : ℂ) * I else 0 := by
    funext x; exact pLi_one_ofReal x
  rw [e]
  have hne : 1 - x ≠ 0 := by intro h; apply h1; linarith
  have hl : HasDerivAt (fun x : ℝ => Real.log (1 - x)) (-1 / (1 - x)) x := by
    have : HasDerivAt (fun x : ℝ => 1 - x) (-1) x := by simpa using (hasDerivAt_id x).const_sub 1
    exact this.log hne
  have hl' := hl.ofReal_comp.neg
  have h2 : HasDerivAt (fun x : ℝ => if 1 < x then (Real.pi : ℂ) * I else 0) 0 x := by
    rcases lt_or_gt_of_ne h1 with h | h
    · refine (hasDerivAt_const x (0 : ℂ)).congr_of_eventuallyEq ?_
      filter_upwards [Iio_mem_nhds h] with y hy
      rw [if_neg (not_lt.mpr (le_of_lt hy))]
    · refine (hasDerivAt_const x ((Real.pi : ℂ) * I)).congr_of_eventuallyEq ?_
      filter_upwards [Ioi_mem_nhds h] with y hy
      rw [if_pos (mem_Ioi.mp hy)]
  refine (hl'.sub h2).congr_deriv ?_
  push_cast
  ring

end Polylog
