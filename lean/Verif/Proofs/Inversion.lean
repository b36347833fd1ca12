import Verif.Proofs.PolylogCut
import Mathlib.Analysis.Convex.PathConnected
import Mathlib.Analysis.SpecialFunctions.ExpDeriv

/-! # Inversion formula `Li_n(z) + (-1)^n Li_n(1/z)` for every `n`, on the plane and on the cut -/

noncomputable section
namespace Polylog
open Complex MeasureTheory Set Filter Topology Finset

/-- `2 Li_j(-1)` for even `j`, 0 for odd `j` -/
def invC (j : ℕ) : ℂ := if Even j then 2 * pLi j (-1) else 0

/-- `∑_{j ≤ n} a_j l^(n-j)/(n-j)!` -/
def appell (a : ℕ → ℂ) (n : ℕ) (l : ℂ) : ℂ := ∑ j ∈ range (n + 1), a j * (l ^ (n - j) / (n - j).factorial)

theorem appell_zero (a : ℕ → ℂ) (l : ℂ) : appell a 0 l = a 0 := by simp [appell]

theorem appell_at_zero (a : ℕ → ℂ) (n : ℕ) : appell a n 0 = a n := by
  rw [appell, sum_range_succ]
  have : ∑ j ∈ range n, a j * ((0 : ℂ) ^ (n - j) / (n - j).factorial) = 0 := by
    apply sum_eq_zero
    intro j hj
    rw [Finset.mem_range] at hj
    rw [zero_pow (by omega)]; simp
  rw [this]; simp

theorem appell_hasDerivAt (a : ℕ → ℂ) (n : ℕ) (l : ℂ) :
    HasDerivAt (appell a (n + 1)) (appell a n l) l := by
  have h : ∀ j ∈ range (n + 2), HasDerivAt (fun l : ℂ => a j * (l ^ (n + 1 - j) / (n + 1 - j).factorial))
      (if j ≤ n then a j * (l ^ (n - j) / (n - j).factorial) else 0) l := by
    intro j hj
    rw [Finset.mem_range] at hj
    have h1 : HasDerivAt (fun l : ℂ => a j * (l ^ (n + 1 - j) / (n + 1 - j).factorial)) _ l :=
      (((hasDerivAt_id l).pow (n + 1 - j)).div_const ((n + 1 - j).factorial : ℂ)).const_mul (a j)
    refine h1.congr_deriv ?_
    by_cases hjn : j ≤ n
    · rw [if_pos hjn]
      have e : n + 1 - j = (n - j) + 1 := by omega
      rw [e, Nat.factorial_succ]
      have h2 : (((n - j : ℕ) : ℂ) + 1) ≠ 0 := by exact_mod_cast Nat.succ_ne_zero (n - j)
      have h3 : ((n - j).factorial : ℂ) ≠ 0 := by exact_mod_cast Nat.factorial_ne_zero _
      push_cast
      simp only [id, mul_one]
      field_simp
    · have e : n + 1 - j = 0 := by omega
      rw [if_neg hjn, e]; simp
  have hs := HasDerivAt.fun_sum h
  refine hs.congr_deriv ?_
  rw [appell, sum_range_succ, if_neg (by omega), add_zero]
  apply sum_congr rfl
  intro j hj
  rw [Finset.mem_range] at hj
  rw [if_pos (by omega)]

/-- the plane without `[0, ∞)` -/
def negPlane : Set ℂ := {z | -z ∈ slitPlane}

theorem mem_negPlane {z : ℂ} : z ∈ negPlane ↔ z.re < 0 ∨ z.im ≠ 0 := by
  simp [negPlane, mem_slitPlane_iff]

theorem isOpen_negPlane : IsOpen negPlane := isOpen_slitPlane.preimage (by fun_prop)

theorem isPreconnected_slitPlane : IsPreconnected slitPlane :=
  (starConvex_one_slitPlane.isPathConnected one_mem_slitPlane).isConnected.isPreconnected

theorem isPreconnected_negPlane : IsPreconnected negPlane := by
  have : negPlane = (fun z : ℂ => -z) '' slitPlane := by
    ext z; constructor
    · intro h; exact ⟨-z, h, by simp⟩
    · rintro ⟨w, hw, rfl⟩; simpa [negPlane] using hw
  rw [this]
  exact isPreconnected_slitPlane.image _ (by fun_prop)

theorem negPlane_cut {z : ℂ} (hz : z ∈ negPlane) : z ∈ cutPlane := by
  rw [mem_negPlane] at hz; rw [mem_cutPlane]
  rcases hz with h | h
  · left; linarith
  · right; exact h

theorem negPlane_ne {z : ℂ} (hz : z ∈ negPlane) : z ≠ 0 := by
  rintro rfl; rw [mem_negPlane] at hz; simp at hz

theorem negPlane_inv {z : ℂ} (hz : z ∈ negPlane) : z⁻¹ ∈ negPlane := by
  have hn : 0 < normSq z := normSq_pos.mpr (negPlane_ne hz)
  rw [mem_negPlane] at *
  rw [inv_re, inv_im]
  rcases hz with h | h
  · left; exact div_neg_of_neg_of_pos h hn
  · right; rw [ne_eq, div_eq_zero_iff]; push Not; exact ⟨neg_ne_zero.mpr h, hn.ne'⟩

/-- **T4.** inversion for every order off the positive real axis -/
theorem pLi_inversion_neg (n : ℕ) : ∀ z ∈ negPlane,
    pLi n z + (-1) ^ n * pLi n z⁻¹ = appell invC n (Complex.log (-z)) := by
  have hm1 : (-1 : ℂ) ∈ negPlane := by rw [mem_negPlane]; left; simp
  induction n with
  | zero =>
    intro z hz
    have h0 := negPlane_ne hz
    have h1 : 1 - z ≠ 0 := by
      intro h
      have : z = 1 := by linear_combination -h
      rw [this, mem_negPlane] at hz; simp at hz; linarith
    have h2 : 1 - z⁻¹ ≠ 0 := by
      intro h
      apply h1
      have : z⁻¹ = 1 := by linear_combination -h
      rw [inv_eq_one] at this
      rw [this]; ring
    rw [appell_zero, invC, if_pos (by simp)]
    simp only [pLi, pow_zero, one_mul]
    have h3 : z - 1 ≠ 0 := fun h => h1 (by linear_combination -h)
    field_simp
    norm_num
    ring
  | succ n ih =>
    have hd1 : ∀ z ∈ negPlane, HasDerivAt (fun z => pLi (n + 1) z + (-1) ^ (n + 1) * pLi (n + 1) z⁻¹)
        (appell invC n (Complex.log (-z)) / z) z := by
      intro z hz
      have h0 := negPlane_ne hz
      have ha := pLi_hasDerivAt n (negPlane_cut hz) h0
      have hb := pLi_hasDerivAt n (negPlane_cut (negPlane_inv hz)) (inv_ne_zero h0)
      have hi := hasDerivAt_inv h0
      have hc : HasDerivAt (fun z => pLi (n + 1) z⁻¹) _ z := HasDerivAt.comp z hb hi
      refine (ha.add (hc.const_mul ((-1) ^ (n + 1)))).congr_deriv ?_
      rw [← ih z hz, pow_succ]
      field_simp
    have hd2 : ∀ z ∈ negPlane, HasDerivAt (fun z => appell invC (n + 1) (Complex.log (-z)))
        (appell invC n (Complex.log (-z)) / z) z := by
      intro z hz
      have h0 := negPlane_ne hz
      have hl : HasDerivAt (fun z : ℂ => Complex.log (-z)) (-1 / -z) z :=
        HasDerivAt.clog (hasDerivAt_neg z) hz
      have := HasDerivAt.comp z (appell_hasDerivAt invC n (Complex.log (-z))) hl
      refine HasDerivAt.congr_deriv this ?_
      field_simp
    refine eqOn_of_hasDerivAt' isOpen_negPlane isPreconnected_negPlane hd1 hd2 hm1 ?_
    simp only [neg_neg, Complex.log_one, appell_at_zero, inv_neg, inv_one]
    rw [invC]
    split
    · rename_i h; rw [h.neg_one_pow]; ring
    · rename_i h; rw [Nat.not_even_iff_odd] at h; rw [h.neg_one_pow]; ring

/-- `Li_n`, `n ≥ 2`, is continuous on the closed unit disc -/
theorem pLi_continuousOn_disc (n : ℕ) : ContinuousOn (pLi (n + 2)) (Metric.closedBall 0 1) := by
  have h : ContinuousOn (fun z : ℂ => ∑' k : ℕ, z ^ (k + 1) / ((k : ℂ) + 1) ^ (n + 2)) (Metric.closedBall 0 1) := by
    refine continuousOn_tsum (fun k => by fun_prop) (summable_inv_succ_pow n) (fun k z hz => ?_)
    rw [mem_closedBall_zero_iff] at hz
    have hk' : ‖((k : ℂ) + 1)‖ = (k : ℝ) + 1 := by
      have : ((k : ℂ) + 1) = ((k + 1 : ℕ) : ℂ) := by push_cast; ring
      rw [this, Complex.norm_natCast]; push_cast; ring
    rw [norm_div, norm_pow, norm_pow, hk']
    gcongr
    exact pow_le_one₀ (norm_nonneg _) hz
  refine h.congr fun z hz => ?_
  rw [mem_closedBall_zero_iff] at hz
  exact (pLi_hasSum n z hz).tsum_eq.symm

theorem appell_continuous (a : ℕ → ℂ) (n : ℕ) : Continuous (appell a n) := by
  unfold appell; fun_prop

/-- inversion formula on the unit circle, `0 ≤ θ ≤ π` (`n ≥ 2`) -/
theorem pLi_inversion_circle (n : ℕ) {θ : ℝ} (h0 : 0 ≤ θ) (h1 : θ < 2 * Real.pi) :
    pLi (n + 2) (exp (-(θ * I))) + (-1) ^ (n + 2) * pLi (n + 2) (exp (θ * I)) =
      appell invC (n + 2) ((Real.pi - θ : ℝ) * I) := by
  have hpi := Real.pi_pos
  have main : ∀ θ : ℝ, 0 < θ → θ < 2 * Real.pi → pLi (n + 2) (exp (-(θ * I))) + (-1) ^ (n + 2) * pLi (n + 2) (exp (θ * I)) =
      appell invC (n + 2) ((Real.pi - θ : ℝ) * I) := by
    intro θ h0 h1
    have hneg : -exp (-(θ * I)) = exp ((Real.pi - θ : ℝ) * I) := by
      push_cast
      rw [sub_mul, Complex.exp_sub, Complex.exp_pi_mul_I, Complex.exp_neg]; ring
    have hz : exp (-(θ * I)) ∈ negPlane := by
      rw [negPlane, Set.mem_ofPred_eq, hneg, mem_slitPlane_iff]
      rw [Complex.exp_ofReal_mul_I_re, Complex.exp_ofReal_mul_I_im]
      by_cases hs : Real.sin (Real.pi - θ) = 0
      · left
        have : Real.pi - θ = 0 := (Real.sin_eq_zero_iff_of_lt_of_lt (by linarith) (by linarith)).mp hs
        rw [this, Real.cos_zero]; norm_num
      · right; exact hs
    have := pLi_inversion_neg (n + 2) _ hz
    rw [hneg, ← Complex.exp_neg, neg_neg] at this
    rw [this, Complex.log_exp]
    · simp; linarith
    · simp; linarith
  rcases h0.eq_or_lt with rfl | h0
  · have hcirc : ∀ c : ℝ, Tendsto (fun θ : ℝ => pLi (n + 2) (exp ((c * θ : ℝ) * I))) (𝓝[>] 0)
        (𝓝 (pLi (n + 2) (exp ((c * 0 : ℝ) * I)))) := by
      intro c
      have hcont : Continuous (fun θ : ℝ => pLi (n + 2) (exp ((c * θ : ℝ) * I))) := by
        refine (pLi_continuousOn_disc n).comp_continuous (by fun_prop) (fun θ => ?_)
        rw [mem_closedBall_zero_iff, Complex.norm_exp_ofReal_mul_I]
      exact (hcont.tendsto 0).mono_left nhdsWithin_le_nhds
    have hL := (hcirc (-1)).add ((hcirc 1).const_mul ((-1) ^ (n + 2)))
    have hR : Tendsto (fun θ : ℝ => appell invC (n + 2) ((Real.pi - θ : ℝ) * I)) (𝓝[>] 0)
        (𝓝 (appell invC (n + 2) ((Real.pi - 0 : ℝ) * I))) := by
      have : Continuous (fun θ : ℝ => appell invC (n + 2) ((Real.pi - θ : ℝ) * I)) :=
        (appell_continuous invC (n + 2)).comp (by fun_prop)
      exact (this.tendsto 0).mono_left nhdsWithin_le_nhds
    have hL' := hL.congr' (f₂ := fun θ : ℝ => appell invC (n + 2) ((Real.pi - θ : ℝ) * I)) (by
      have : Ioo (0 : ℝ) Real.pi ∈ 𝓝[>] (0 : ℝ) := Ioo_mem_nhdsGT hpi
      filter_upwards [this] with θ hθ
      rw [← main θ hθ.1 (by linarith [hθ.2])]
      push_cast; simp)
    have := tendsto_nhds_unique hL' hR
    rw [← this]
    simp
  · exact main θ h0 h1

theorem pLi_one_sum (n : ℕ) : pLi (n + 2) 1 + (-1) ^ (n + 2) * pLi (n + 2) 1 = appell invC (n + 2) (Real.pi * I) := by
  have := pLi_inversion_circle n le_rfl (by linarith [Real.pi_pos])
  simpa using this

/-- **T4.** inversion for every order on the branch cut -/
theorem pLi_inversion_cut (n : ℕ) : ∀ x : ℝ, 1 < x →
    pLi (n + 1) (x : ℂ) + (-1) ^ (n + 1) * pLi (n + 1) ((x⁻¹ : ℝ) : ℂ) = appell invC (n + 1) (Complex.log (-x)) := by
  have hlog : ∀ x : ℝ, 1 < x → Complex.log (-x) = (Real.log x : ℂ) + Real.pi * I := by
    intro x hx
    have : (-(x : ℂ)) = ((-x : ℝ) : ℂ) := by push_cast; rfl
    rw [this, clog_ofReal, if_pos (by linarith), Real.log_neg_eq_log]
  induction n with
  | zero =>
    intro x hx
    have hx0 : 0 < x := by linarith
    have e1 : appell invC 1 (Complex.log (-x)) = -Complex.log (-x) := by
      have h0 : pLi 0 (-1) = -1/2 := by rw [pLi]; norm_num
      have hev : ¬ Even 1 := by decide
      rw [appell, sum_range_succ, sum_range_succ, range_zero, sum_empty]
      simp [invC, h0, hev]; ring
    rw [zero_add, e1, hlog x hx, pLi_one_ofReal, pLi_one_ofReal, if_pos hx, if_neg (by
      rw [not_lt]; exact inv_le_one_of_one_le₀ hx.le)]
    have e2 : Real.log (1 - x⁻¹) = Real.log (x - 1) - Real.log x := by
      rw [← Real.log_div (by linarith) (by linarith)]
      congr 1; field_simp
    have e3 : Real.log (1 - x) = Real.log (x - 1) := by
      rw [← Real.log_neg_eq_log, neg_sub]
    rw [e2, e3]; push_cast; ring
  | succ n ih =>
    have hd1 : ∀ x ∈ Ioi (1:ℝ), HasDerivAt (fun x : ℝ => pLi (n + 2) (x : ℂ) + (-1) ^ (n + 2) * pLi (n + 2) ((x⁻¹ : ℝ) : ℂ))
        (appell invC (n + 1) (Complex.log (-x)) / x) x := by
      intro x hx
      rw [Set.mem_Ioi] at hx
      have h0 : x ≠ 0 := by linarith
      have hi1 : x⁻¹ < 1 := inv_lt_one_of_one_lt₀ hx
      have ha := pLi_real_hasDerivAt n h0 hx.ne'
      have hb := pLi_real_hasDerivAt n (inv_ne_zero h0) hi1.ne
      have hi := hasDerivAt_inv h0
      have hc : HasDerivAt (fun x : ℝ => pLi (n + 2) ((x⁻¹ : ℝ) : ℂ)) _ x := HasDerivAt.scomp x hb hi
      refine (ha.add (hc.const_mul ((-1) ^ (n + 2)))).congr_deriv ?_
      rw [← ih x hx, pow_succ _ (n + 1), Complex.real_smul]
      have h0' : (x : ℂ) ≠ 0 := by exact_mod_cast h0
      push_cast
      field_simp
    have hd2 : ∀ x ∈ Ioi (1:ℝ), HasDerivAt (fun x : ℝ => appell invC (n + 2) (Complex.log (-x)))
        (appell invC (n + 1) (Complex.log (-x)) / x) x := by
      intro x hx
      rw [Set.mem_Ioi] at hx
      have h0 : x ≠ 0 := by linarith
      have hl : HasDerivAt (fun x : ℝ => Complex.log (-x)) (1 / x) x := by
        have h1 : HasDerivAt (fun x : ℝ => (Real.log x : ℂ) + Real.pi * I) _ x :=
          (Real.hasDerivAt_log h0).ofReal_comp.add_const _
        have h2 := h1.congr_of_eventuallyEq (f₁ := fun x : ℝ => Complex.log (-x)) (by
          filter_upwards [Ioi_mem_nhds hx] with y hy
          exact hlog y hy)
        refine h2.congr_deriv ?_
        push_cast; simp
      have := HasDerivAt.scomp x (appell_hasDerivAt invC (n + 1) (Complex.log (-x))) hl
      refine HasDerivAt.congr_deriv this ?_
      rw [smul_eq_mul]; ring
    refine eqOn_of_hasDerivAt (𝕜 := ℝ) isOpen_Ioi isPreconnected_Ioi hd1 hd2 (l := 𝓝[>] 1) self_mem_nhdsWithin ?_
    have hL : Tendsto (fun x : ℝ => pLi (n + 2) (x : ℂ) + (-1) ^ (n + 2) * pLi (n + 2) ((x⁻¹ : ℝ) : ℂ)) (𝓝[>] 1)
        (𝓝 (pLi (n + 2) ((1 : ℝ) : ℂ) + (-1) ^ (n + 2) * pLi (n + 2) (((1 : ℝ)⁻¹ : ℝ) : ℂ))) := by
      have hc := pLi_real_continuous n
      refine Tendsto.add ((hc.tendsto 1).mono_left nhdsWithin_le_nhds) (Tendsto.const_mul _ ?_)
      have hi : Tendsto (fun x : ℝ => x⁻¹) (𝓝[>] 1) (𝓝 (1 : ℝ)⁻¹) :=
        (continuousAt_inv₀ one_ne_zero).tendsto.mono_left nhdsWithin_le_nhds
      exact (hc.tendsto _).comp hi
    have hR : Tendsto (fun x : ℝ => appell invC (n + 2) (Complex.log (-x))) (𝓝[>] 1)
        (𝓝 (appell invC (n + 2) (Real.pi * I))) := by
      have h1 : Tendsto (fun x : ℝ => (Real.log x : ℂ) + Real.pi * I) (𝓝[>] 1) (𝓝 ((Real.log 1 : ℂ) + Real.pi * I)) := by
        refine Tendsto.add_const _ ?_
        exact (Complex.continuous_ofReal.tendsto _).comp
          ((Real.continuousAt_log one_ne_zero).tendsto.mono_left nhdsWithin_le_nhds)
      simp only [Real.log_one, Complex.ofReal_zero, zero_add] at h1
      refine ((appell_continuous invC (n + 2)).tendsto _).comp (h1.congr' ?_)
      filter_upwards [self_mem_nhdsWithin] with y hy
      exact (hlog y hy).symm
    have := hL.sub hR
    rw [inv_one, Complex.ofReal_one, pLi_one_sum, sub_self] at this
    exact this

end Polylog
