import Verif.Proofs.Unity

/-! # Duplication formula for nonpositive orders, and `Li_{-m}(-1)` -/

noncomputable section
namespace Polylog
open Complex Filter Topology Set Metric

/-- `Li_{-m}(z) + Li_{-m}(-z) = 2^{m+1} Li_{-m}(z²)` -/
theorem pLiNeg_dup (m : ℕ) : ∀ z : ℂ, z ≠ 1 → z ≠ -1 →
    pLiNeg m z + pLiNeg m (-z) = 2 ^ (m + 1) * pLiNeg m (z ^ 2) := by
  induction m with
  | zero =>
    intro z h1 h2
    have a1 : 1 - z ≠ 0 := sub_ne_zero.mpr (Ne.symm h1)
    have a2 : 1 + z ≠ 0 := fun h => h2 (by linear_combination h)
    have a3 : 1 - z ^ 2 ≠ 0 := by
      rw [show 1 - z ^ 2 = (1 - z) * (1 + z) by ring]; exact mul_ne_zero a1 a2
    simp only [pLiNeg, sub_neg_eq_add]
    rw [div_add_div _ _ a1 a2, mul_div_assoc', div_eq_div_iff (mul_ne_zero a1 a2) a3]
    ring
  | succ m ih =>
    intro z h1 h2
    have hs : z ^ 2 ≠ 1 := by
      intro h
      have h' : (z - 1) * (z + 1) = 0 := by linear_combination h
      rcases mul_eq_zero.mp h' with h | h
      · exact h1 (by linear_combination h)
      · exact h2 (by linear_combination h)
    have d1 := (pLiNeg_analyticAt m z h1).differentiableAt.hasDerivAt
    have d2 := HasDerivAt.comp z ((pLiNeg_analyticAt m (-z) (fun h => h2 (by rw [← h, neg_neg]))).differentiableAt.hasDerivAt) (hasDerivAt_neg z)
    have d3 := (HasDerivAt.comp z ((pLiNeg_analyticAt m (z ^ 2) hs).differentiableAt.hasDerivAt) (hasDerivAt_pow 2 z)).const_mul ((2:ℂ) ^ (m + 1))
    have ev : (fun z => pLiNeg m z + pLiNeg m (-z)) =ᶠ[𝓝 z] fun z => 2 ^ (m + 1) * pLiNeg m (z ^ 2) := by
      filter_upwards [isOpen_ne.mem_nhds h1, isOpen_ne.mem_nhds h2] with w w1 w2 using ih w w1 w2
    have := (d1.add d2).unique (d3.congr_of_eventuallyEq ev)
    simp only [pLiNeg]
    push_cast at this
    rw [pow_succ]
    linear_combination z * this

/-- value at `-1` : `Li_{-m}(-1) = (2^{m+1} - 1) zeta(-m)` -/
theorem pLiNeg_neg_one (m : ℕ) : pLiNeg m (-1) = (2 ^ (m + 1) - 1) * riemannZeta (-(m:ℂ)) := by
  obtain ⟨C, hC⟩ := zcoef_bound_neg m (r := 1) one_pos (by linarith [Real.pi_gt_three])
  have hc := hC.continuousAt one_pos (z := 0) (by simp)
  have hz0 : zcoef (-(m:ℤ)) 0 = riemannZeta (-(m:ℂ)) := by
    rw [zcoef, if_neg (by push_cast; omega)]; simp
  have t1 : Tendsto (psum (zcoef (-(m:ℤ)))) negReal (𝓝 (riemannZeta (-(m:ℂ)))) := by
    rw [← hz0, ← psum_zero (zcoef (-(m:ℤ)))]
    exact hc.tendsto.mono_left negReal_le
  have h2 : Tendsto (fun u : ℂ => 2 * u) negReal (𝓝 0) := by
    have : Tendsto (fun u : ℂ => 2 * u) (𝓝 0) (𝓝 (2 * 0)) := (continuous_const.mul continuous_id).tendsto 0
    rw [mul_zero] at this
    exact this.mono_left negReal_le
  have t2 : Tendsto (fun u => psum (zcoef (-(m:ℤ))) (2 * u)) negReal (𝓝 (riemannZeta (-(m:ℂ)))) := by
    rw [← hz0, ← psum_zero (zcoef (-(m:ℤ)))]
    exact hc.tendsto.comp h2
  have t3 := (t2.const_mul ((2:ℂ) ^ (m + 1))).sub t1
  have t4 : Tendsto (fun u => pLiNeg m (-Complex.exp u)) negReal (𝓝 (pLiNeg m (-1))) := by
    have c1 := (pLiNeg_analyticAt m (-1) (by norm_num)).continuousAt
    have c2 : Tendsto (fun u => -Complex.exp u) negReal (𝓝 (-1)) := by
      have : Tendsto (fun u => -Complex.exp u) (𝓝 0) (𝓝 (-1)) := by
        have h := (Complex.continuous_exp.tendsto (0:ℂ)).neg
        rwa [Complex.exp_zero] at h
      exact this.mono_left negReal_le
    exact c1.tendsto.comp c2
  have := tendsto_nhds_unique t4 (t3.congr' ?_)
  · rw [this]; ring
  · have e1 := eventually_slitDisc
    have e2 : ∀ᶠ u in negReal, 2 * u ∈ slitDisc := by
      rw [negReal, Filter.eventually_map]
      filter_upwards [Ioo_mem_nhdsLT (show (-1:ℝ) < 0 by norm_num)] with x hx
      refine ⟨?_, ?_⟩
      · have : (2 * (x:ℂ)) = ((2 * x : ℝ) : ℂ) := by push_cast; rfl
        simp only [mem_ball, dist_zero_right, this, Complex.norm_real, Real.norm_eq_abs]
        rw [abs_of_neg (by linarith [hx.2])]; linarith [hx.1, Real.pi_gt_three]
      · rw [mem_negPlane]; left; simp; linarith [hx.2]
    filter_upwards [e1, e2] with u hu hu2
    have hd := pLiNeg_dup m (Complex.exp u) (exp_ne_one hu) (by
      intro h
      have := exp_ne_one hu2
      rw [two_mul, Complex.exp_add, h] at this
      norm_num at this)
    rw [← Complex.exp_nat_mul] at hd
    push_cast at hd
    rw [pLiNeg_exp m u hu, pLiNeg_exp m _ hu2] at hd
    have hu0 := slitDisc_ne hu
    have : (2:ℂ) ^ (m + 1) * ((m.factorial : ℂ) * (-(2 * u))⁻¹ ^ (m + 1)) = (m.factorial : ℂ) * (-u)⁻¹ ^ (m + 1) := by
      rw [show (-(2 * u))⁻¹ = 2⁻¹ * (-u)⁻¹ by rw [← mul_inv]; ring_nf, mul_pow, inv_pow]
      field_simp
    generalize (-(2 * u))⁻¹ ^ (m + 1) = A at *
    generalize (-u)⁻¹ ^ (m + 1) = B at *
    linear_combination -hd - this

/-- `polyLog (-m) (-1)` in the form used for `neg_eta` -/
theorem polyLog_neg_one_neg (m : ℕ) : polyLog (-((m + 1 : ℕ) : ℤ)) (-1) = (2 ^ (m + 2) - 1) * riemannZeta (-((m + 1 : ℕ) : ℂ)) := by
  rw [← pLiNeg_neg_one (m + 1)]
  rfl

/-- **C02 (link).** The quantity `(2^(1-n) - 1) zeta(n)` of the theorems on odd negative `n` is `Li_n(-1)`. -/
theorem C02_polylog_odd (m : ℕ) (h0 : 0 < m) :
    polyLog (1 - 2 * (m:ℤ)) (-1) = ((2:ℂ) ^ (2 * m) - 1) * riemannZeta (1 - 2 * (m : ℂ)) := by
  obtain ⟨i, rfl⟩ := Nat.exists_eq_succ_of_ne_zero h0.ne'
  have := polyLog_neg_one_neg (2 * i)
  push_cast at this ⊢
  rw [show (1 - 2 * ((i:ℤ) + 1)) = -(2 * i + 1) by ring, this, show (1 - 2 * ((i:ℂ) + 1)) = -(2 * i + 1) by ring]
  congr 1

/-- **C02 (link).** `Li_n(-1) = 0` at negative even `n` -/
theorem C02_polylog_even (m : ℕ) : polyLog (-2 * ((m:ℤ) + 1)) (-1) = 0 := by
  have := polyLog_neg_one_neg (2 * m + 1)
  have hz := riemannZeta_neg_two_mul_nat_add_one m
  push_cast at this ⊢
  rw [show (-2 * ((m:ℤ) + 1)) = -(2 * m + 1 + 1) by ring, this, show (-(2 * (m:ℂ) + 1 + 1)) = -2 * (m + 1) by ring, hz, mul_zero]

end Polylog
