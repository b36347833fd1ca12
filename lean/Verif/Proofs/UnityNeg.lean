import Verif.Proofs.UnityAcc
import Mathlib.Analysis.SpecificLimits.Normed

/-! # Sizes of the terms of the expansion about `z = 1`, orders `-N ≤ 0` -/

namespace Polylog
open Complex Finset Filter Topology

noncomputable section

/-- the terms of the expansion of order `-N` -/
theorem zcoef_neg_le (N k : ℕ) : ‖zcoef (-N) k‖ ≤ ((N + k).choose N : ℝ) * (N.factorial : ℝ) / (2 * Real.pi) ^ (N + k) := by
  have hpi := Real.pi_pos
  have h0 := zcoef_zero_bound (N + k)
  have e : zcoef (-N) k = zcoef 0 (N + k) * (((N + k).factorial : ℂ) / (k.factorial : ℂ)) := by
    have h1 : (-(N:ℤ) - (k : ℤ)) = 0 - ((N + k : ℕ):ℤ) := by push_cast; ring
    rw [zcoef, zcoef, h1, if_neg (by omega), if_neg (by omega)]
    have : (k.factorial : ℂ) ≠ 0 := by exact_mod_cast k.factorial_ne_zero
    have : ((N + k).factorial : ℂ) ≠ 0 := by exact_mod_cast (N + k).factorial_ne_zero
    field_simp
  have hc : ((N + k).factorial : ℝ) = ((N + k).choose N : ℝ) * N.factorial * k.factorial := by
    have := Nat.choose_mul_factorial_mul_factorial (show N ≤ N + k by omega)
    rw [show N + k - N = k by omega] at this
    exact_mod_cast this.symm
  have hk : (0:ℝ) < k.factorial := by exact_mod_cast k.factorial_pos
  rw [e, norm_mul, norm_div, Complex.norm_natCast, Complex.norm_natCast, hc, mul_div_assoc, div_self hk.ne', mul_one, le_div_iff₀ (by positivity)]
  have hcn : (0:ℝ) ≤ ((N + k).choose N : ℝ) * N.factorial := by positivity
  calc ‖zcoef 0 (N + k)‖ * (((N + k).choose N : ℝ) * N.factorial) * (2 * Real.pi) ^ (N + k)
      = (‖zcoef 0 (N + k)‖ * (2 * Real.pi) ^ (N + k)) * (((N + k).choose N : ℝ) * N.factorial) := by ring
    _ ≤ 1 * (((N + k).choose N : ℝ) * N.factorial) := mul_le_mul_of_nonneg_right h0 hcn
    _ = _ := one_mul _

theorem choose_hasSum (N : ℕ) {r : ℝ} (h0 : 0 ≤ r) (hr : r < 2 * Real.pi) :
    HasSum (fun k => ((N + k).choose N : ℝ) * (N.factorial : ℝ) / (2 * Real.pi) ^ (N + k) * r ^ k)
      (2 * Real.pi * (N.factorial : ℝ) / (2 * Real.pi - r) ^ (N + 1)) := by
  have hpi := Real.pi_pos
  have h := hasSum_choose_mul_geometric_of_norm_lt_one (𝕜 := ℝ) N (r := r / (2 * Real.pi)) (by
    rw [Real.norm_of_nonneg (by positivity), div_lt_one (by positivity)]; exact hr)
  have h2 := h.mul_left ((N.factorial : ℝ) / (2 * Real.pi) ^ N)
  have e : (N.factorial : ℝ) / (2 * Real.pi) ^ N * (1 / (1 - r / (2 * Real.pi)) ^ (N + 1)) = 2 * Real.pi * (N.factorial : ℝ) / (2 * Real.pi - r) ^ (N + 1) := by
    have h3 : 2 * Real.pi - r ≠ 0 := by linarith
    have h4 : 1 - r / (2 * Real.pi) = (2 * Real.pi - r) / (2 * Real.pi) := by field_simp
    rw [h4, div_pow, pow_succ (2 * Real.pi) N]
    field_simp
  rw [e] at h2
  refine HasSum.congr_fun' h2 fun k => ?_
  rw [add_comm k N, div_pow, pow_add]
  field_simp

/-- sum of the absolute values of the terms -/
theorem zcoef_neg_abs_sum (N K : ℕ) {r : ℝ} (h0 : 0 ≤ r) (hr : r < 2 * Real.pi) :
    ∑ k ∈ range K, ‖zcoef (-N) k‖ * r ^ k ≤ 2 * Real.pi * (N.factorial : ℝ) / (2 * Real.pi - r) ^ (N + 1) := by
  have hpi := Real.pi_pos
  calc _ ≤ ∑ k ∈ range K, ((N + k).choose N : ℝ) * (N.factorial : ℝ) / (2 * Real.pi) ^ (N + k) * r ^ k :=
        sum_le_sum fun k _ => mul_le_mul_of_nonneg_right (zcoef_neg_le N k) (pow_nonneg h0 k)
    _ ≤ _ := sum_le_hasSum _ (fun k _ => by positivity) (choose_hasSum N h0 hr)

theorem psum_zcoef_neg_hasSum (N : ℕ) {L : ℂ} (hr : ‖L‖ < 2 * Real.pi) : HasSum (fun k => zcoef (-N) k * L ^ k) (psum (zcoef (-N)) L) := by
  obtain ⟨r, hr1, hr2⟩ := exists_between hr
  have hr0 : 0 < r := (norm_nonneg L).trans_lt hr1
  obtain ⟨C, hC⟩ := zcoef_bound_neg N hr0 hr2
  exact hC.hasSum hr0 hr1

theorem psum_zcoef_neg_le (N : ℕ) {L : ℂ} (hr : ‖L‖ < 2 * Real.pi) :
    ‖psum (zcoef (-N)) L‖ ≤ 2 * Real.pi * (N.factorial : ℝ) / (2 * Real.pi - ‖L‖) ^ (N + 1) := by
  refine (psum_zcoef_neg_hasSum N hr).norm_le_of_bounded (choose_hasSum N (norm_nonneg L) hr) fun k => ?_
  rw [norm_mul, norm_pow]
  exact mul_le_mul_of_nonneg_right (zcoef_neg_le N k) (pow_nonneg (norm_nonneg L) k)

/-- truncation error: the first omitted term divided by `1 - q` -/
theorem psum_zcoef_neg_tail (N K : ℕ) {L : ℂ} {r q : ℝ} (hr : ‖L‖ ≤ r) (hr2 : r < 2 * Real.pi) (hq1 : q < 1)
    (hq : ((N + K + 1 : ℕ) : ℝ) * r ≤ q * (2 * Real.pi * (K + 1 : ℕ))) :
    ‖∑ k ∈ range K, zcoef (-N) k * L ^ k - psum (zcoef (-N)) L‖ ≤
      ((N + K).choose N : ℝ) * (N.factorial : ℝ) / (2 * Real.pi) ^ (N + K) * r ^ K / (1 - q) := by
  have hpi := Real.pi_pos
  have h0 : 0 ≤ r := (norm_nonneg L).trans hr
  have hq0 : 0 ≤ q := by
    by_contra hn
    push Not at hn
    have : 0 ≤ ((N + K + 1 : ℕ) : ℝ) * r := by positivity
    have h2 : q * (2 * Real.pi * (K + 1 : ℕ)) < 0 := mul_neg_of_neg_of_pos hn (by positivity)
    linarith
  have ht := (hasSum_nat_add_iff' K).mpr (psum_zcoef_neg_hasSum N (hr.trans_lt hr2))
  rw [norm_sub_rev]
  set T : ℕ → ℝ := fun k => ((N + k).choose N : ℝ) * (N.factorial : ℝ) / (2 * Real.pi) ^ (N + k) * r ^ k with hT
  have hTn : ∀ k, 0 ≤ T k := fun k => by simp only [hT]; positivity
  have hstep : ∀ k, K ≤ k → T (k + 1) ≤ q * T k := by
    intro k hk
    have hch : ((N + (k + 1)).choose N : ℝ) * (k + 1 : ℕ) = ((N + k).choose N : ℝ) * (N + k + 1 : ℕ) := by
      have h1 := Nat.choose_mul_factorial_mul_factorial (show N ≤ N + (k + 1) by omega)
      have h2 := Nat.choose_mul_factorial_mul_factorial (show N ≤ N + k by omega)
      rw [show N + (k + 1) - N = k + 1 by omega, show N + (k + 1) = (N + k) + 1 by ring, Nat.factorial_succ (N + k), Nat.factorial_succ k, ← h2,
        show N + k - N = k by omega] at h1
      have h3 : 0 < N.factorial * k.factorial := Nat.mul_pos N.factorial_pos k.factorial_pos
      have h4 : (N + (k + 1)).choose N * (k + 1) = (N + k).choose N * (N + k + 1) := by
        refine Nat.eq_of_mul_eq_mul_right h3 ?_
        rw [show N + (k + 1) = (N + k) + 1 by ring]
        linarith
      exact_mod_cast h4
    have hk1 : (0:ℝ) < (k + 1 : ℕ) := by positivity
    have hK1 : (0:ℝ) < (K + 1 : ℕ) := by positivity
    have hch' : ((N + (k + 1)).choose N : ℝ) = ((N + k).choose N : ℝ) * (N + k + 1 : ℕ) / (k + 1 : ℕ) := by
      rw [eq_div_iff hk1.ne']; exact hch
    have hrat : ((N + k + 1 : ℕ) : ℝ) * r ≤ q * (2 * Real.pi * (k + 1 : ℕ)) := by
      have hkK : (K:ℝ) ≤ k := by exact_mod_cast hk
      push_cast at hq ⊢
      have : r ≤ q * (2 * Real.pi) ∨ q * (2 * Real.pi) < r := le_or_gt _ _
      rcases this with h | h
      · nlinarith
      · exfalso
        have : (0:ℝ) ≤ N := Nat.cast_nonneg N
        have : (0:ℝ) ≤ K := Nat.cast_nonneg K
        nlinarith
    have hTk : T (k + 1) = T k * (((N + k + 1 : ℕ) : ℝ) * r / (2 * Real.pi * (k + 1 : ℕ))) := by
      simp only [hT]
      rw [hch', show N + (k + 1) = N + k + 1 by ring, pow_succ (2 * Real.pi), pow_succ r]
      field_simp
    rw [hTk, mul_comm q]
    refine mul_le_mul_of_nonneg_left ?_ (hTn k)
    rw [div_le_iff₀ (by positivity)]
    exact hrat
  have hgeo : ∀ k, T (k + K) ≤ T K * q ^ k := by
    intro k
    induction k with
    | zero => simp
    | succ k ih =>
      rw [show k + 1 + K = (k + K) + 1 by ring, pow_succ]
      have := hstep (k + K) (by omega)
      nlinarith [hTn K]
  have hb : ∀ k, ‖zcoef (-N) (k + K) * L ^ (k + K)‖ ≤ T K * q ^ k := by
    intro k
    refine le_trans ?_ (hgeo k)
    rw [norm_mul, norm_pow]
    refine mul_le_mul (zcoef_neg_le N _) (pow_le_pow_left₀ (norm_nonneg _) hr _) (by positivity) (by positivity)
  have hg := (hasSum_geometric_of_lt_one hq0 hq1).mul_left (T K)
  refine (ht.norm_le_of_bounded hg hb).trans_eq ?_
  rw [div_eq_mul_inv]

/-- `exp u = 1` only at `u = 0`, in the disc -/
theorem exp_ne_one_disc {u : ℂ} (h0 : u ≠ 0) (h : ‖u‖ < 2 * Real.pi) : Complex.exp u ≠ 1 := by
  intro he
  obtain ⟨n, hn⟩ := Complex.exp_eq_one_iff.mp he
  have hnorm : ‖u‖ = |(n:ℝ)| * (2 * Real.pi) := by
    rw [hn, norm_mul, norm_mul, norm_mul, Complex.norm_I, mul_one, Complex.norm_real, Real.norm_of_nonneg Real.pi_pos.le, Complex.norm_intCast]
    simp
  have hn0 : n ≠ 0 := by rintro rfl; exact h0 (by rw [hn]; simp)
  have : (1:ℝ) ≤ |(n:ℝ)| := by exact_mod_cast Int.one_le_abs hn0
  have := Real.pi_pos
  nlinarith

/-- **T5** on the punctured disc, orders `-N ≤ 0` -/
theorem pLiNeg_exp_disc (N : ℕ) {u : ℂ} (h0 : u ≠ 0) (h : ‖u‖ < 2 * Real.pi) :
    pLiNeg N (Complex.exp u) = psum (zcoef (-N)) u + N.factorial * (-u)⁻¹ ^ (N + 1) := by
  -- approach `u` along a circle arc
  have hc : Tendsto (fun t : ℝ => u * Complex.exp (t * I)) (𝓝[≠] 0) (𝓝 u) := by
    have : Continuous fun t : ℝ => u * Complex.exp (t * I) := by fun_prop
    have := this.tendsto 0
    simp only [Complex.ofReal_zero, zero_mul, Complex.exp_zero, mul_one] at this
    exact this.mono_left nhdsWithin_le_nhds
  have hnorm : ∀ t : ℝ, ‖u * Complex.exp (t * I)‖ = ‖u‖ := fun t => by rw [norm_mul, Complex.norm_exp_ofReal_mul_I, mul_one]
  have hev : ∀ᶠ t : ℝ in 𝓝[≠] 0, u * Complex.exp (t * I) ∈ slitDisc := by
    by_cases hs : u ∈ slitDisc
    · exact hc.eventually (isOpen_slitDisc.mem_nhds hs)
    · have hsu : ¬ u ∈ negPlane := fun hh => hs ⟨by simpa using h, hh⟩
      rw [mem_negPlane] at hsu
      push Not at hsu
      have hre : 0 < u.re := by
        rcases lt_or_eq_of_le hsu.1 with h1 | h1
        · exact h1
        · exact absurd (Complex.ext h1.symm hsu.2) h0
      have : ∀ᶠ t : ℝ in 𝓝[≠] 0, t ∈ Set.Ioo (-1:ℝ) 1 := nhdsWithin_le_nhds (Ioo_mem_nhds (by norm_num) (by norm_num))
      filter_upwards [this, self_mem_nhdsWithin] with t ht ht0
      refine ⟨by simpa [hnorm] using h, ?_⟩
      rw [mem_negPlane]
      right
      have e : u * Complex.exp (t * I) = ((u.re : ℝ) : ℂ) * (Complex.cos t + Complex.sin t * I) := by
        rw [Complex.exp_mul_I]
        congr 1
        apply Complex.ext
        · simp
        · simpa using hsu.2
      rw [e, ← Complex.ofReal_cos, ← Complex.ofReal_sin]
      simp only [Complex.mul_im, Complex.ofReal_re, Complex.ofReal_im, Complex.add_im, Complex.mul_re, Complex.I_re, Complex.I_im, Complex.add_re]
      have hsin : Real.sin t ≠ 0 := by
        have hpi := Real.pi_gt_three
        rcases lt_or_gt_of_ne (show t ≠ 0 from ht0) with h1 | h1
        · exact (Real.sin_neg_of_neg_of_neg_pi_lt h1 (by linarith [ht.1])).ne
        · exact (Real.sin_pos_of_pos_of_lt_pi h1 (by linarith [ht.2])).ne'
      have := mul_ne_zero hre.ne' hsin
      simpa using this
  have hl : Tendsto (fun t : ℝ => pLiNeg N (Complex.exp (u * Complex.exp (t * I)))) (𝓝[≠] 0) (𝓝 (pLiNeg N (Complex.exp u))) :=
    ((pLiNeg_analyticAt N _ (exp_ne_one_disc h0 h)).continuousAt.tendsto).comp ((Complex.continuous_exp.tendsto u).comp hc)
  have hr : Tendsto (fun t : ℝ => psum (zcoef (-N)) (u * Complex.exp (t * I)) + N.factorial * (-(u * Complex.exp (t * I)))⁻¹ ^ (N + 1)) (𝓝[≠] 0)
      (𝓝 (psum (zcoef (-N)) u + N.factorial * (-u)⁻¹ ^ (N + 1))) := by
    obtain ⟨r, hr1, hr2⟩ := exists_between h
    have hr0 : 0 < r := (norm_nonneg u).trans_lt hr1
    obtain ⟨C, hC⟩ := zcoef_bound_neg N hr0 hr2
    refine Tendsto.add ((hC.continuousAt hr0 hr1).tendsto.comp hc) ?_
    refine Tendsto.const_mul _ ((Tendsto.inv₀ hc.neg (neg_ne_zero.mpr h0)).pow _)
  refine tendsto_nhds_unique hl (hr.congr' ?_)
  filter_upwards [hev] with t ht using (pLiNeg_exp N _ ht).symm

/-- bound for `Li_{-N}(exp u)` -/
theorem pLiNeg_exp_le (N : ℕ) {u : ℂ} (h0 : u ≠ 0) (h : ‖u‖ < 2 * Real.pi) :
    ‖pLiNeg N (Complex.exp u)‖ ≤ (N.factorial : ℝ) * (1 / ‖u‖ ^ (N + 1) + 2 * Real.pi / (2 * Real.pi - ‖u‖) ^ (N + 1)) := by
  rw [pLiNeg_exp_disc N h0 h]
  refine (norm_add_le _ _).trans ?_
  have := psum_zcoef_neg_le N h
  rw [norm_mul, norm_pow, norm_inv, norm_neg, Complex.norm_natCast, inv_pow]
  have e : 2 * Real.pi * (N.factorial : ℝ) / (2 * Real.pi - ‖u‖) ^ (N + 1) = N.factorial * (2 * Real.pi / (2 * Real.pi - ‖u‖) ^ (N + 1)) := by ring
  rw [e] at this
  rw [mul_add, one_div]
  linarith

end
end Polylog
