import Verif.Proofs.Unity
import Verif.Proofs.BserVals

/-! # Expansion about `z = 1` on the branch cut, explicit coefficient bounds and tables -/

noncomputable section
namespace Polylog
open Complex Filter Topology Set Metric

theorem pLi_exp_zero' {u : ℂ} (hu : ‖u‖ < 2 * Real.pi) (h0 : u ≠ 0) (h1 : Complex.exp u ≠ 1) :
    pLi 0 (Complex.exp u) = psum (zcoef 0) u - u⁻¹ := by
  have hb := psum_bern hu h1
  have hs := bernC_bound.hasSum (by positivity) hu
  rw [hb] at hs
  have hs1 := (hasSum_nat_add_iff' 1).mpr hs
  have hb0 : bernC 0 = 1 := by simp [bernC]
  simp only [Finset.range_one, Finset.sum_singleton, pow_zero, mul_one, hb0] at hs1
  have hs2 := hs1.mul_left (-u⁻¹)
  have hz := (zcoef_zero_bound.hasSum (by positivity) hu)
  have h3 : HasSum (fun k : ℕ => if k = 0 then (1:ℂ) else 0) 1 := by
    have := hasSum_ite_eq (0:ℕ) (1:ℂ)
    exact this
  have hd := (hz.sub hs2).unique (HasSum.congr_fun' (h3.mul_left (-1)) fun k => ?_)
  · have hne : Complex.exp u - 1 ≠ 0 := sub_ne_zero.mpr h1
    have hne' : 1 - Complex.exp u ≠ 0 := sub_ne_zero.mpr (Ne.symm h1)
    have : psum (zcoef 0) u = -1 - u⁻¹ * (u / (Complex.exp u - 1) - 1) := by linear_combination hd
    rw [this, pLi]
    field_simp
    ring
  · rw [zcoef_zero, pow_succ]
    have : (-u⁻¹) * (bernC (k + 1) * (u ^ k * u)) = -(bernC (k + 1) * u ^ k) := by field_simp
    rw [this]
    split
    · rename_i hk; subst hk
      simp [bernC, bernoulli_one]
    · rename_i hk
      rcases Nat.even_or_odd k with he | ho
      · have : bernoulli (k + 1) = 0 := bernoulli_eq_zero_of_odd he.add_one (by omega)
        simp [bernC, this]
      · rw [ho.neg_one_pow]; ring

theorem clog_neg_pos {x : ℝ} (hx : 0 < x) : Complex.log (-(x : ℂ)) = (Real.log x : ℂ) + Real.pi * I := by
  have : (-(x : ℂ)) = ((-x : ℝ) : ℂ) := by push_cast; rfl
  rw [this, clog_ofReal, if_pos (by linarith), Real.log_neg_eq_log]

theorem singU_real_hasDerivAt (n : ℕ) {x : ℝ} (hx : 0 < x) :
    HasDerivAt (fun x : ℝ => singU n (x : ℂ)) (if n = 0 then -(x:ℂ)⁻¹ else singU (n - 1) x) x := by
  have h0 : (x : ℂ) ≠ 0 := by exact_mod_cast hx.ne'
  have hl : HasDerivAt (fun x : ℝ => Complex.log (-(x:ℂ))) ((x:ℂ)⁻¹) x := by
    have h1 : HasDerivAt (fun x : ℝ => (Real.log x : ℂ) + Real.pi * I) _ x :=
      (Real.hasDerivAt_log hx.ne').ofReal_comp.add_const _
    have h2 := h1.congr_of_eventuallyEq (f₁ := fun x : ℝ => Complex.log (-(x:ℂ))) (by
      filter_upwards [Ioi_mem_nhds hx] with y hy
      exact clog_neg_pos hy)
    refine h2.congr_deriv ?_
    push_cast; rfl
  have hp : HasDerivAt (fun x : ℝ => (x:ℂ) ^ n) (n * (x:ℂ) ^ (n - 1)) x := (hasDerivAt_pow n (x:ℂ)).comp_ofReal
  have h := (hp.div_const (n.factorial : ℂ)).mul (hl.const_sub (((_root_.harmonic n : ℚ) : ℂ)))
  refine h.congr_deriv ?_
  cases n with
  | zero => simp
  | succ n =>
    have hf : (n.factorial : ℂ) ≠ 0 := by exact_mod_cast Nat.factorial_ne_zero n
    have hn : ((n:ℂ) + 1) ≠ 0 := by exact_mod_cast Nat.succ_ne_zero n
    rw [if_neg (by omega), singU, harmonic_succ, Nat.factorial_succ]
    push_cast
    field_simp
    ring

theorem exp_real_ne_one {x : ℝ} (hx : x ≠ 0) : Complex.exp (x : ℂ) ≠ 1 := by
  rw [← Complex.ofReal_exp]
  intro h
  have : Real.exp x = 1 := by exact_mod_cast h
  exact hx (Real.exp_eq_one_iff x |>.mp this)

theorem pLi_exp_real_hasDerivAt (n : ℕ) {x : ℝ} (hx : 0 < x) :
    HasDerivAt (fun x : ℝ => pLi (n + 1) (Complex.exp x)) (pLi n (Complex.exp x)) x := by
  have he : Real.exp x ≠ 1 := by
    rw [ne_eq, Real.exp_eq_one_iff]; exact hx.ne'
  have e : (fun x : ℝ => pLi (n + 1) (Complex.exp x)) = (fun y : ℝ => pLi (n + 1) (y : ℂ)) ∘ Real.exp := by
    ext x; simp
  rw [e]
  have h0 := Real.exp_pos x
  cases n with
  | zero =>
    have h := HasDerivAt.scomp x (pLi_one_real_hasDerivAt he) (Real.hasDerivAt_exp x)
    refine h.congr_deriv ?_
    rw [Complex.real_smul, pLi]
    push_cast; ring
  | succ n =>
    have h := HasDerivAt.scomp x (pLi_real_hasDerivAt n h0.ne' he) (Real.hasDerivAt_exp x)
    refine h.congr_deriv ?_
    rw [Complex.real_smul]
    have : Complex.exp x ≠ 0 := Complex.exp_ne_zero _
    push_cast
    field_simp

theorem psum_zcoef_tendsto' (n : ℕ) : Tendsto (fun x : ℝ => psum (zcoef n) x) (𝓝[>] 0) (𝓝 (zcoef n 0)) := by
  obtain ⟨C, hC⟩ := zcoef_bound_nat n
  have h := hC.continuousAt (by positivity) (z := 0) (by simpa using Real.pi_pos)
  rw [← psum_zero (zcoef n)]
  refine h.tendsto.comp ?_
  exact (Complex.continuous_ofReal.tendsto' 0 0 (by simp)).mono_left nhdsWithin_le_nhds

theorem singU_tendsto' (n : ℕ) : Tendsto (fun x : ℝ => singU (n + 1) x) (𝓝[>] 0) (𝓝 0) := by
  have h1 : Tendsto (fun x : ℝ => x * Real.log x) (𝓝[>] 0) (𝓝 0) := by
    have := Real.continuous_mul_log.tendsto 0
    simp only [zero_mul] at this
    exact this.mono_left nhdsWithin_le_nhds
  have hx : Tendsto (fun x : ℝ => (x:ℂ)) (𝓝[>] 0) (𝓝 0) :=
    (Complex.continuous_ofReal.tendsto' 0 0 (by simp)).mono_left nhdsWithin_le_nhds
  have h1' : Tendsto (fun x : ℝ => ((x * Real.log x : ℝ) : ℂ)) (𝓝[>] 0) (𝓝 0) :=
    (Complex.continuous_ofReal.tendsto' 0 0 (by simp)).comp h1
  have hp : Tendsto (fun x : ℝ => (x:ℂ) ^ n / ((n + 1).factorial : ℂ)) (𝓝[>] 0) (𝓝 ((0:ℂ) ^ n / ((n + 1).factorial : ℂ))) :=
    (hx.pow n).div_const _
  have h2 : Tendsto (fun x : ℝ => (x:ℂ) * ((_root_.harmonic (n + 1) : ℚ) : ℂ) - (((x * Real.log x : ℝ) : ℂ) + x * (Real.pi * I))) (𝓝[>] 0)
      (𝓝 (0 * ((_root_.harmonic (n + 1) : ℚ) : ℂ) - (0 + 0 * (Real.pi * I)))) :=
    (hx.mul_const _).sub (h1'.add (hx.mul_const _))
  have h3 := hp.mul h2
  simp only [zero_mul, add_zero, sub_zero, mul_zero] at h3
  refine h3.congr' ?_
  filter_upwards [self_mem_nhdsWithin] with x hx
  have hx' : 0 < x := hx
  rw [singU, clog_neg_pos hx', pow_succ]
  push_cast; ring

/-- **T5** on the cut -/
theorem pLi_exp_cut (n : ℕ) : ∀ x ∈ Ioo (0:ℝ) (2 * Real.pi),
    pLi (n + 1) (Complex.exp x) = psum (zcoef ((n + 1 : ℕ) : ℤ)) x + singU n x := by
  have hpi := Real.pi_pos
  have hnorm : ∀ x ∈ Ioo (0:ℝ) (2 * Real.pi), ‖(x:ℂ)‖ < 2 * Real.pi := fun x hx => by
    rw [Complex.norm_real, Real.norm_eq_abs, abs_of_pos hx.1]; exact hx.2
  have hev : ∀ᶠ x in 𝓝[>] (0:ℝ), x ∈ Ioo (0:ℝ) (2 * Real.pi) := Ioo_mem_nhdsGT (by positivity)
  have hps : ∀ (n : ℕ), ∀ x ∈ Ioo (0:ℝ) (2 * Real.pi), HasDerivAt (fun x : ℝ => psum (zcoef ((n + 1 : ℕ) : ℤ)) x) (psum (zcoef n) x) x :=
    fun n x hx => (psum_zcoef_hasDerivAt n (hnorm x hx)).comp_ofReal
  induction n with
  | zero =>
    refine eqOn_of_hasDerivAt (𝕜 := ℝ) isOpen_Ioo isPreconnected_Ioo (f' := fun u : ℝ => pLi 0 (Complex.exp u))
      (fun u hu => pLi_exp_real_hasDerivAt 0 hu.1) (fun u hu => ?_) hev ?_
    · refine ((hps 0 u hu).add (singU_real_hasDerivAt 0 hu.1)).congr_deriv ?_
      rw [pLi_exp_zero' (hnorm u hu) (by exact_mod_cast hu.1.ne') (exp_real_ne_one hu.1.ne')]
      simp; ring
    · have hz0 : zcoef 1 0 = 0 := by simp [zcoef]
      have h1 := psum_zcoef_tendsto' 1
      push_cast at h1
      rw [hz0] at h1
      have h2 : Tendsto (fun x : ℝ => ((Real.log x - Real.log (Real.exp x - 1) : ℝ) : ℂ)) (𝓝[>] 0) (𝓝 0) := by
        have hd : HasDerivAt Real.exp 1 0 := by simpa using Real.hasDerivAt_exp 0
        have hs := hd.tendsto_slope_zero_right
        simp only [zero_add, Real.exp_zero, smul_eq_mul] at hs
        have hl : Tendsto (fun x : ℝ => -Real.log (x⁻¹ * (Real.exp x - 1))) (𝓝[>] 0) (𝓝 (-Real.log 1)) :=
          ((Real.continuousAt_log one_ne_zero).tendsto.comp hs).neg
        rw [Real.log_one, neg_zero] at hl
        have h3 := (Complex.continuous_ofReal.tendsto 0).comp hl
        rw [Complex.ofReal_zero] at h3
        refine h3.congr' ?_
        filter_upwards [self_mem_nhdsWithin] with x hx
        have hx' : 0 < x := hx
        have he : 0 < Real.exp x - 1 := by linarith [Real.exp_lt_exp.mpr hx', Real.exp_zero]
        simp only [Function.comp_apply]
        congr 1
        rw [Real.log_mul (inv_ne_zero hx'.ne') he.ne', Real.log_inv]; ring
      have h3 := h2.sub h1
      rw [sub_zero] at h3
      refine h3.congr' ?_
      filter_upwards [self_mem_nhdsWithin] with x hx
      have hx' : 0 < x := hx
      have he : 1 < Real.exp x := by rw [← Real.exp_zero]; exact Real.exp_lt_exp.mpr hx'
      have e1 := pLi_one_ofReal (Real.exp x)
      rw [if_pos he, Complex.ofReal_exp, show Real.log (1 - Real.exp x) = Real.log (Real.exp x - 1) by
        rw [← Real.log_neg_eq_log, neg_sub]] at e1
      simp only [zero_add, e1, singU, clog_neg_pos hx', pow_zero, Nat.factorial_zero, Nat.cast_one, div_one, one_mul, harmonic_zero, Rat.cast_zero]
      push_cast; ring
  | succ n ih =>
    refine eqOn_of_hasDerivAt (𝕜 := ℝ) isOpen_Ioo isPreconnected_Ioo (f' := fun u : ℝ => pLi (n + 1) (Complex.exp u))
      (fun u hu => pLi_exp_real_hasDerivAt (n + 1) hu.1) (fun u hu => ?_) hev ?_
    · refine ((hps (n + 1) u hu).add (singU_real_hasDerivAt (n + 1) hu.1)).congr_deriv ?_
      rw [ih u hu]; simp
    · have h1 := psum_zcoef_tendsto' (n + 2)
      have hz0 : zcoef ((n + 2 : ℕ) : ℤ) 0 = pLi (n + 2) 1 := by
        rw [zcoef, if_neg (by push_cast; omega), pLi_one_eq_zeta]; push_cast; simp
      have h2 := singU_tendsto' n
      have h3 : Tendsto (fun u : ℝ => pLi (n + 2) (Complex.exp u)) (𝓝[>] 0) (𝓝 (pLi (n + 2) 1)) := by
        have := ((pLi_real_continuous n).comp Real.continuous_exp).tendsto 0
        simp only [Function.comp_apply, Real.exp_zero, Complex.ofReal_one] at this
        refine (this.mono_left nhdsWithin_le_nhds).congr fun x => ?_
        simp
      have := h3.sub (h1.add h2)
      rw [hz0, add_zero, sub_self] at this
      exact this

/-- **T5** for every `z ≠ 0, 1` with `|log z| < 2π`, including the cut -/
theorem pLi_unity (n : ℕ) {z : ℂ} (h0 : z ≠ 0) (h1 : z ≠ 1) (hl : ‖Complex.log z‖ < 2 * Real.pi) :
    pLi (n + 1) z = psum (zcoef ((n + 1 : ℕ) : ℤ)) (Complex.log z) + singU n (Complex.log z) := by
  by_cases h : Complex.log z ∈ negPlane
  · have := pLi_exp n (Complex.log z) ⟨by simpa using hl, h⟩
    rwa [Complex.exp_log h0] at this
  · rw [mem_negPlane] at h
    push Not at h
    have e : Complex.log z = (((Complex.log z).re : ℝ) : ℂ) := Complex.ext rfl (by simp [h.2])
    have hne : Complex.log z ≠ 0 := by
      intro h2
      apply h1
      rw [← Complex.exp_log h0, h2, Complex.exp_zero]
    have hpos : 0 < (Complex.log z).re := by
      refine lt_of_le_of_ne h.1 fun h3 => hne ?_
      rw [e, ← h3]; simp
    have := pLi_exp_cut n (Complex.log z).re ⟨hpos, by
      rw [e, Complex.norm_real, Real.norm_eq_abs, abs_of_pos hpos] at hl; exact hl⟩
    rw [← e, Complex.exp_log h0] at this
    exact this

/-- explicit coefficient bound -/
theorem zcoef_bound (n : ℕ) : CoefBound (zcoef n) (2 * Real.pi) ((2 * Real.pi) ^ n) := by
  have hpi := Real.pi_gt_three
  induction n with
  | zero => simpa using zcoef_zero_bound
  | succ n ih =>
    intro k
    cases k with
    | zero =>
      rw [pow_zero, mul_one]
      have h1 : (1:ℝ) ≤ (2 * Real.pi) ^ n := one_le_pow₀ (by linarith)
      have h2 : (2:ℝ) ≤ (2 * Real.pi) ^ (n + 1) := by rw [pow_succ]; nlinarith
      refine le_trans ?_ h2
      cases n with
      | zero => simp [zcoef]
      | succ n =>
        rw [zcoef, if_neg (by push_cast; omega), Nat.factorial_zero, Nat.cast_one, div_one]
        have e : ((((n + 1 + 1 : ℕ) : ℤ) - ((0:ℕ) : ℤ) : ℤ) : ℂ) = (n:ℂ) + 2 := by push_cast; ring
        rw [e, ← reLi_one_eq_zeta, Complex.norm_real, Real.norm_eq_abs]
        have hs := reLi_hasSum n (x := 1) (by simp)
        have hs2 := reLi_hasSum 0 (x := 1) (by simp)
        have hnn : 0 ≤ reLi (n + 2) 1 := hs.nonneg fun k => by positivity
        rw [abs_of_nonneg hnn]
        have : reLi (n + 2) 1 ≤ reLi (0 + 2) 1 := by
          refine hasSum_le (fun k => ?_) hs hs2
          have : (1:ℝ) ≤ (k:ℝ) + 1 := by linarith [(Nat.cast_nonneg k : (0:ℝ) ≤ k)]
          rw [one_pow]
          apply one_div_le_one_div_of_le (by positivity)
          exact pow_le_pow_right₀ this (by omega)
        rw [zero_add, reLi_two_one] at this
        nlinarith [Real.pi_lt_d2]
    | succ k =>
      have h := dcoef_zcoef n k
      rw [dcoef] at h
      have hk : ‖zcoef (((n + 1 : ℕ) : ℤ)) (k + 1)‖ ≤ ‖zcoef n k‖ := by
        rw [← h, norm_mul]
        push_cast
        have e : ‖((k:ℂ) + 1)‖ = ((k + 1 : ℕ) : ℝ) := by
          rw [show ((k:ℂ) + 1) = ((k + 1 : ℕ) : ℂ) by push_cast; rfl, Complex.norm_natCast]
        rw [e]
        have : (1:ℝ) ≤ ((k + 1 : ℕ) : ℝ) := by exact_mod_cast Nat.succ_le_succ (Nat.zero_le k)
        nlinarith [norm_nonneg (zcoef ((n:ℤ) + 1) (k + 1))]
      have := ih k
      rw [pow_succ, ← mul_assoc]
      calc _ ≤ ‖zcoef n k‖ * (2 * Real.pi) ^ k * (2 * Real.pi) := by gcongr
        _ ≤ (2 * Real.pi) ^ n * (2 * Real.pi) := by gcongr
        _ = _ := by ring

/-- inversion formula for every `|z| > 1` -/
theorem pLi_inversion_out (n : ℕ) {z : ℂ} (hz : 1 < ‖z‖) :
    pLi (n + 1) z + (-1) ^ (n + 1) * pLi (n + 1) z⁻¹ = appell invC (n + 1) (Complex.log (-z)) := by
  by_cases h : z ∈ negPlane
  · exact pLi_inversion_neg (n + 1) z h
  · rw [mem_negPlane] at h
    push Not at h
    have e : z = ((z.re : ℝ) : ℂ) := Complex.ext rfl (by simp [h.2])
    have hx : 1 < z.re := by
      rw [e, Complex.norm_real, Real.norm_eq_abs, abs_of_nonneg h.1] at hz; exact hz
    have := pLi_inversion_cut n z.re hx
    push_cast at this
    rwa [← e] at this

end Polylog
