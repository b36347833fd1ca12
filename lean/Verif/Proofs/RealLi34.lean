import Verif.Props.LiCxGen

/-! # Functional equations of `Re Li_3`, `Re Li_4` on the real axis -/

open Filter Set Topology
noncomputable section
namespace Polylog

theorem clog_neg_neg {x : ℝ} (hx : x < 0) : Complex.log (-(x : ℂ)) = (Real.log (-x) : ℂ) := by
  have : (-(x : ℂ)) = ((-x : ℝ) : ℂ) := by push_cast; rfl
  rw [this, Complex.ofReal_log (by linarith)]

theorem negPlane_of_neg {x : ℝ} (hx : x < 0) : (x : ℂ) ∈ negPlane := by
  rw [mem_negPlane]; left; simpa using hx

theorem appell_three (l : ℂ) : appell invC 3 l = -(l ^ 3 / 6) - (Real.pi ^ 2 / 6 : ℝ) * l := by
  simp only [appell, Finset.sum_range_succ, Finset.range_zero, Finset.sum_empty, invC_zero, invC_one, invC_two, invC_three]
  simp [Nat.factorial]; ring

theorem appell_four (l : ℂ) : appell invC 4 l = -(l ^ 4 / 24) - (Real.pi ^ 2 / 6 : ℝ) * (l ^ 2 / 2) - (7 * Real.pi ^ 4 / 360 : ℝ) := by
  simp only [appell, Finset.sum_range_succ, Finset.range_zero, Finset.sum_empty, invC_zero, invC_one, invC_two, invC_three, invC_four]
  simp [Nat.factorial]; ring

theorem reLi_three_inv_neg {x : ℝ} (hx : x < 0) :
    reLi 3 x = reLi 3 x⁻¹ - Real.log (-x) * (Real.pi ^ 2 / 6 + Real.log (-x) ^ 2 / 6) := by
  have h := pLi_inversion_neg 3 x (negPlane_of_neg hx)
  rw [appell_three, clog_neg_neg hx] at h
  have hre := congrArg Complex.re h
  have e : (-((Real.log (-x) : ℂ) ^ 3 / 6) - (Real.pi ^ 2 / 6 : ℝ) * (Real.log (-x) : ℂ) : ℂ)
     = ((-(Real.log (-x) ^ 3 / 6) - (Real.pi ^ 2 / 6) * Real.log (-x) : ℝ) : ℂ) := by push_cast; ring
  rw [e, Complex.ofReal_re] at hre
  rw [reLi, reLi]
  push_cast
  simp only [Complex.add_re, Complex.mul_re] at hre
  generalize Real.log (-x) = l at hre ⊢
  norm_num at hre
  linarith

theorem reLi_four_inv_neg {x : ℝ} (hx : x < 0) :
    reLi 4 x = -reLi 4 x⁻¹ - 7 * Real.pi ^ 4 / 360 + Real.log (-x) ^ 2 * (-(Real.pi ^ 2 / 12) - Real.log (-x) ^ 2 / 24) := by
  have h := pLi_inversion_neg 4 x (negPlane_of_neg hx)
  rw [appell_four, clog_neg_neg hx] at h
  have hre := congrArg Complex.re h
  have e : (-((Real.log (-x) : ℂ) ^ 4 / 24) - (Real.pi ^ 2 / 6 : ℝ) * ((Real.log (-x) : ℂ) ^ 2 / 2) - (7 * Real.pi ^ 4 / 360 : ℝ) : ℂ)
     = ((-(Real.log (-x) ^ 4 / 24) - (Real.pi ^ 2 / 6) * (Real.log (-x) ^ 2 / 2) - 7 * Real.pi ^ 4 / 360 : ℝ) : ℂ) := by push_cast; ring
  rw [e, Complex.ofReal_re] at hre
  rw [reLi, reLi]
  push_cast
  simp only [Complex.add_re, Complex.mul_re] at hre
  generalize Real.log (-x) = l at hre ⊢
  norm_num at hre
  linarith

theorem reLi_three_inv {x : ℝ} (hx : 1 < x) :
    reLi 3 x = reLi 3 x⁻¹ + Real.log x * (Real.pi ^ 2 / 3 - Real.log x ^ 2 / 6) := by
  have h := pLi_inversion_cut 2 x hx
  rw [appell_three, clog_neg_pos (by linarith)] at h
  have hre := congrArg Complex.re h
  have e : (-(((Real.log x : ℂ) + Real.pi * Complex.I) ^ 3 / 6) - (Real.pi ^ 2 / 6 : ℝ) * ((Real.log x : ℂ) + Real.pi * Complex.I) : ℂ)
     = ((Real.pi ^ 2 / 3 * Real.log x - Real.log x ^ 3 / 6 : ℝ) : ℂ)
       + ((-(Real.log x ^ 2 * Real.pi / 2) : ℝ) : ℂ) * Complex.I := by
    push_cast
    linear_combination (-(3 * Real.log x * Real.pi ^ 2 + Real.pi ^ 3 * Complex.I) / 6 : ℂ) * Complex.I_sq
  rw [e] at hre
  rw [reLi, reLi]
  simp only [Complex.add_re, Complex.ofReal_re, Complex.re_ofReal_mul, Complex.I_re, mul_zero, add_zero] at hre
  norm_num at hre
  push_cast at hre ⊢
  linarith

theorem reLi_four_inv {x : ℝ} (hx : 1 < x) :
    reLi 4 x = -reLi 4 x⁻¹ + Real.pi ^ 4 / 45 + Real.log x ^ 2 * (Real.pi ^ 2 / 6 - Real.log x ^ 2 / 24) := by
  have h := pLi_inversion_cut 3 x hx
  rw [appell_four, clog_neg_pos (by linarith)] at h
  have hre := congrArg Complex.re h
  have e : (-(((Real.log x : ℂ) + Real.pi * Complex.I) ^ 4 / 24) - (Real.pi ^ 2 / 6 : ℝ) * (((Real.log x : ℂ) + Real.pi * Complex.I) ^ 2 / 2)
       - (7 * Real.pi ^ 4 / 360 : ℝ) : ℂ)
     = ((Real.pi ^ 4 / 45 + Real.pi ^ 2 / 6 * Real.log x ^ 2 - Real.log x ^ 4 / 24 : ℝ) : ℂ)
       + ((-(Real.log x ^ 3 * Real.pi / 6) : ℝ) : ℂ) * Complex.I := by
    push_cast
    linear_combination (-(6 * Real.log x ^ 2 * Real.pi ^ 2 + 4 * Real.log x * Real.pi ^ 3 * Complex.I + Real.pi ^ 4 * (Complex.I ^ 2 - 1)) / 24
      - Real.pi ^ 4 / 12 : ℂ) * Complex.I_sq
  rw [e] at hre
  rw [reLi, reLi]
  simp only [Complex.add_re, Complex.ofReal_re, Complex.re_ofReal_mul, Complex.I_re, mul_zero, add_zero] at hre
  norm_num at hre
  push_cast at hre ⊢
  linarith

theorem reLi_four_one : reLi 4 1 = Real.pi ^ 4 / 90 := by
  have h := reLi_one_eq_zeta 2
  have : riemannZeta (((2 : ℕ) : ℂ) + 2) = Real.pi ^ 4 / 90 := by
    rw [← riemannZeta_four]; norm_num
  rw [this] at h
  exact_mod_cast h

/-- the three-term equation of the trilogarithm on `(0,1)` -/
theorem reLi_three_landen {x : ℝ} (h0 : 0 < x) (h1 : x < 1) :
    reLi 3 x + reLi 3 (1 - x) + reLi 3 (1 - 1 / x) =
      reLi 3 1 + Real.log x ^ 3 / 6 + Real.pi ^ 2 / 6 * Real.log x - Real.log x ^ 2 * Real.log (1 - x) / 2 := by
  have key : ∀ x ∈ Ioo (0:ℝ) 1, reLi 3 x + reLi 3 (1 - x) + reLi 3 (1 - 1 / x) =
      reLi 3 1 + Real.log x ^ 3 / 6 + Real.pi ^ 2 / 6 * Real.log x - Real.log x ^ 2 * Real.log (1 - x) / 2 := by
    refine eqOn_of_hasDerivAt (𝕜 := ℝ) isOpen_Ioo isPreconnected_Ioo
      (f' := fun x => Real.log x ^ 2 / (2 * x) + Real.pi ^ 2 / 6 / x - Real.log x / x * Real.log (1 - x) + Real.log x ^ 2 / (2 * (1 - x))) ?_ ?_
      (l := 𝓝[<] 1) (Ioo_mem_nhdsLT one_pos) ?_
    · intro x hx
      have hx0 := hx.1.ne'
      have hx1 : 1 - x ≠ 0 := by linarith [hx.2]
      have ha := reLi_hasDerivAt 1 hx0 hx.2.ne
      have hs : HasDerivAt (fun x : ℝ => 1 - x) (-1) x := by simpa using (hasDerivAt_id x).const_sub 1
      have hb := HasDerivAt.comp x (reLi_hasDerivAt 1 (x := 1 - x) hx1 (by linarith [hx.1])) hs
      have hs2 : HasDerivAt (fun x : ℝ => 1 - 1 / x) (1 / x ^ 2) x := by
        have := ((hasDerivAt_inv hx0)).const_sub 1
        simp only [one_div]
        refine this.congr_deriv ?_
        ring
      have hy : 1 - 1 / x < 0 := by
        have : 1 < 1 / x := by rw [lt_div_iff₀ hx.1]; linarith [hx.2]
        linarith
      have hc := HasDerivAt.comp x (reLi_hasDerivAt 1 (x := 1 - 1 / x) hy.ne (by linarith)) hs2
      refine ((ha.add hb).add hc).congr_deriv ?_
      have hR := reLi_two_refl hx.1 hx.2
      have hL := reLi_two_landen hy
      have e1 : 1 - (1 - 1 / x) = x⁻¹ := by rw [one_div]; ring
      have e2 : (1 - 1 / x) / (1 - 1 / x - 1) = 1 - x := by field_simp; ring
      rw [e1, e2, Real.log_inv] at hL
      norm_num only [Nat.reduceAdd]
      rw [hL]
      have hx1' : x - 1 ≠ 0 := by intro h; apply hx1; linarith
      have e3 : 1 - 1 / x = (x - 1) / x := by field_simp
      rw [e3, hR]
      field_simp
      ring
    · intro x hx
      have hx0 := hx.1.ne'
      have hx1 : 1 - x ≠ 0 := by linarith [hx.2]
      have hs : HasDerivAt (fun x : ℝ => 1 - x) (-1) x := by simpa using (hasDerivAt_id x).const_sub 1
      have hl1 := Real.hasDerivAt_log hx0
      have hl2 := hs.log hx1
      have := ((((hl1.pow 3).div_const 6).const_add (reLi 3 1)).add (hl1.const_mul (Real.pi ^ 2 / 6))).sub (((hl1.pow 2).mul hl2).div_const 2)
      refine this.congr_deriv ?_
      simp only [Pi.pow_apply]
      field_simp
      ring
    · have hL : Tendsto (fun x : ℝ => reLi 3 x + reLi 3 (1 - x) + reLi 3 (1 - 1 / x)) (𝓝[<] 1) (𝓝 (reLi 3 1)) := by
        have h3 : ContinuousAt (fun x : ℝ => 1 - 1 / x) 1 := by
          refine continuousAt_const.sub (continuousAt_const.div continuousAt_id one_ne_zero)
        have hc : ContinuousAt (fun x : ℝ => reLi 3 x + reLi 3 (1 - x) + reLi 3 (1 - 1 / x)) 1 :=
          ((reLi_continuous 1).continuousAt.add ((reLi_continuous 1).comp (by fun_prop : Continuous fun x : ℝ => 1 - x)).continuousAt).add
            (ContinuousAt.comp (g := reLi 3) (reLi_continuous 1).continuousAt h3)
        have := hc.tendsto.mono_left (nhdsWithin_le_nhds (s := Iio 1))
        simpa [reLi_zero_right] using this
      have hlog : Tendsto (fun x : ℝ => Real.log x ^ 2 * Real.log (1 - x)) (𝓝[<] 1) (𝓝 0) := by
        have hs1 : Tendsto (fun x : ℝ => 1 - x) (𝓝[<] 1) (𝓝 0) := by
          have : ContinuousAt (fun x : ℝ => 1 - x) 1 := by fun_prop
          have := this.tendsto.mono_left (nhdsWithin_le_nhds (s := Iio 1))
          simpa using this
        have h1 : Tendsto (fun x : ℝ => (1 - x) * Real.log (1 - x)) (𝓝[<] 1) (𝓝 0) := by
          have := (Real.continuous_mul_log.tendsto 0).comp hs1
          rw [zero_mul] at this
          exact this
        have h2 : Tendsto (fun x : ℝ => (1 - x) * ((x - 1)⁻¹ * Real.log x) ^ 2) (𝓝[<] 1) (𝓝 0) := by
          have hd := (Real.hasDerivAt_log (one_ne_zero)).tendsto_slope.mono_left (nhdsLT_le_nhdsNE (1:ℝ))
          have hd' : Tendsto (fun x : ℝ => (x - 1)⁻¹ * Real.log x) (𝓝[<] 1) (𝓝 1) := by
            rw [inv_one] at hd
            refine hd.congr fun x => ?_
            rw [slope_def_field, Real.log_one, sub_zero, div_eq_inv_mul]
          simpa using hs1.mul (hd'.pow 2)
        have := h1.mul h2
        rw [zero_mul] at this
        refine this.congr' ?_
        filter_upwards [self_mem_nhdsWithin] with x hx
        have : x - 1 ≠ 0 := sub_ne_zero.mpr (mem_Iio.mp hx).ne
        field_simp
        ring
      have hl : Tendsto (fun x : ℝ => Real.log x) (𝓝[<] 1) (𝓝 0) := by
        have := (Real.continuousAt_log one_ne_zero).tendsto.mono_left (nhdsWithin_le_nhds (s := Iio 1))
        simpa using this
      have := hL.sub ((((((hl.pow 3).div_const 6).const_add (reLi 3 1)).add (hl.const_mul (Real.pi ^ 2 / 6)))).sub (hlog.div_const 2))
      simpa using this
  exact key x ⟨h0, h1⟩

end Polylog
