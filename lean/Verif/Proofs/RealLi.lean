import Verif.Proofs.Inversion
import Mathlib.NumberTheory.ZetaValues
import Mathlib.Analysis.SpecialFunctions.Log.NegMulLog

/-! # Real parts on the real line: functional equations of Li2, Li3 -/

noncomputable section
namespace Polylog
open MeasureTheory Set Filter Topology

theorem HasSum.congr_fun' {ι E : Type*} [AddCommMonoid E] [TopologicalSpace E] {f g : ι → E} {a : E}
    (h : HasSum f a) (e : ∀ i, g i = f i) : HasSum g a := by
  rw [funext e]; exact h

/-- `Re Li_n(x)`, `x` real -/
def reLi (n : ℕ) (x : ℝ) : ℝ := (pLi n (x : ℂ)).re

theorem reLi_one (x : ℝ) : reLi 1 x = -Real.log (1 - x) := by
  rw [reLi, pLi_one_ofReal]
  split <;> simp

theorem reLi_zero_right (n : ℕ) : reLi n 0 = 0 := by
  rw [reLi, Complex.ofReal_zero, pLi_zero_right]; rfl

theorem reLi_continuous (n : ℕ) : Continuous (reLi (n + 2)) :=
  Complex.continuous_re.comp (pLi_real_continuous n)

theorem reLi_hasDerivAt (n : ℕ) {x : ℝ} (h0 : x ≠ 0) (h1 : x ≠ 1) :
    HasDerivAt (reLi (n + 2)) (reLi (n + 1) x / x) x := by
  have h := pLi_real_hasDerivAt n h0 h1
  have h2 := Complex.reCLM.hasFDerivAt.comp_hasDerivAt x h
  refine HasDerivAt.congr_deriv h2 ?_
  simp [reLi, Complex.div_ofReal_re]

theorem reLi_hasSum (n : ℕ) {x : ℝ} (hx : |x| ≤ 1) :
    HasSum (fun k : ℕ => x ^ (k + 1) / ((k : ℝ) + 1) ^ (n + 2)) (reLi (n + 2) x) := by
  have h := pLi_hasSum n (x : ℂ) (by rwa [Complex.norm_real, Real.norm_eq_abs])
  have h2 := Complex.hasSum_re h
  refine HasSum.congr_fun' h2 fun k => ?_
  rw [← Complex.ofReal_pow]
  have : ((k : ℂ) + 1) ^ (n + 2) = (((k : ℝ) + 1) ^ (n + 2) : ℝ) := by push_cast; rfl
  rw [this, ← Complex.ofReal_div, Complex.ofReal_re]

theorem reLi_hasSum_lt (n : ℕ) {x : ℝ} (hx : |x| < 1) :
    HasSum (fun k : ℕ => x ^ (k + 1) / ((k : ℝ) + 1) ^ (n + 1)) (reLi (n + 1) x) := by
  have h := pLi_hasSum_lt n (x : ℂ) (by rwa [Complex.norm_real, Real.norm_eq_abs])
  have h2 := Complex.hasSum_re h
  refine HasSum.congr_fun' h2 fun k => ?_
  rw [← Complex.ofReal_pow]
  have : ((k : ℂ) + 1) ^ (n + 1) = (((k : ℝ) + 1) ^ (n + 1) : ℝ) := by push_cast; rfl
  rw [this, ← Complex.ofReal_div, Complex.ofReal_re]

/-- `Li_n` is real on `[-1, 1]` -/
theorem pLi_real_of_abs_le (n : ℕ) {x : ℝ} (hx : |x| ≤ 1) : pLi (n + 2) (x : ℂ) = (reLi (n + 2) x : ℂ) := by
  have h := pLi_hasSum n (x : ℂ) (by rwa [Complex.norm_real, Real.norm_eq_abs])
  have h2 := (reLi_hasSum n hx).mapL Complex.ofRealCLM
  refine h.unique (HasSum.congr_fun' h2 fun k => ?_)
  simp

theorem reLi_two_one : reLi 2 1 = Real.pi ^ 2 / 6 := by
  have h := reLi_hasSum 0 (x := 1) (by simp)
  have h2 := (hasSum_nat_add_iff' 1).mpr hasSum_zeta_two
  simp only [Finset.range_one, Finset.sum_singleton, Nat.cast_zero, ne_eq, OfNat.ofNat_ne_zero,
    not_false_eq_true, zero_pow, div_zero, sub_zero] at h2
  refine h.unique (HasSum.congr_fun' h2 fun k => ?_)
  simp

theorem pLi_two_neg_one : pLi 2 (-1) = -(Real.pi : ℂ) ^ 2 / 12 := by
  have h1 : pLi 2 1 = (Real.pi : ℂ) ^ 2 / 6 := by
    have := pLi_real_of_abs_le 0 (x := 1) (by simp)
    rw [reLi_two_one] at this
    simpa using this
  have h2 := pLi_one_sum 0
  have h0 : pLi 0 (-1) = -1/2 := by rw [pLi]; norm_num
  have hev : ¬ Even 1 := by decide
  have he2 : Even 2 := by decide
  simp only [zero_add, appell, Finset.sum_range_succ, Finset.range_zero, Finset.sum_empty, invC, h0, h1] at h2
  simp [hev] at h2
  have hI : (Real.pi * Complex.I : ℂ) ^ 2 = -(Real.pi : ℂ) ^ 2 := by rw [mul_pow, Complex.I_sq]; ring
  rw [hI] at h2
  linear_combination (-1/2) * h2

theorem reLi_two_neg_one : reLi 2 (-1) = -Real.pi ^ 2 / 12 := by
  rw [reLi]; push_cast; rw [pLi_two_neg_one]
  have : (-(Real.pi : ℂ) ^ 2 / 12) = ((-Real.pi ^ 2 / 12 : ℝ) : ℂ) := by push_cast; ring
  rw [this, Complex.ofReal_re]

/-- inversion, real part, `x > 1` -/
theorem reLi_two_inv {x : ℝ} (hx : 1 < x) :
    reLi 2 x = Real.pi ^ 2 / 3 - Real.log x ^ 2 / 2 - reLi 2 x⁻¹ := by
  have h := pLi_inversion_cut 1 x hx
  have hlog : Complex.log (-x) = (Real.log x : ℂ) + Real.pi * Complex.I := by
    have : (-(x : ℂ)) = ((-x : ℝ) : ℂ) := by push_cast; rfl
    rw [this, clog_ofReal, if_pos (by linarith), Real.log_neg_eq_log]
  have h0 : pLi 0 (-1) = -1/2 := by rw [pLi]; norm_num
  have hev : ¬ Even 1 := by decide
  simp only [appell, Finset.sum_range_succ, Finset.range_zero, Finset.sum_empty, invC, h0, hlog] at h
  simp [hev, pLi_two_neg_one] at h
  have hre := congrArg Complex.re h
  have e : (2 * (-1 / 2) * ((↑(Real.log x) + ↑Real.pi * Complex.I) ^ 2 / 2) + 2 * (-↑Real.pi ^ 2 / 12) : ℂ)
     = ((-(Real.log x ^ 2 - Real.pi ^ 2) / 2 - Real.pi ^ 2 / 6 : ℝ) : ℂ) + ((-Real.log x * Real.pi : ℝ) : ℂ) * Complex.I := by
    push_cast
    linear_combination (-(Real.pi : ℂ) ^ 2 / 2) * Complex.I_sq
  rw [e] at hre
  simp only [Complex.add_re, Complex.ofReal_re, Complex.re_ofReal_mul, Complex.I_re, mul_zero, add_zero] at hre
  rw [reLi, reLi]
  push_cast
  linarith

/-- reflection on `(0,1)` -/
theorem reLi_two_refl {x : ℝ} (h0 : 0 < x) (h1 : x < 1) :
    reLi 2 x = Real.pi ^ 2 / 6 - Real.log x * Real.log (1 - x) - reLi 2 (1 - x) := by
  have key : ∀ x ∈ Ioo (0:ℝ) 1, reLi 2 x + reLi 2 (1 - x) = Real.pi ^ 2 / 6 - Real.log x * Real.log (1 - x) := by
    refine eqOn_of_hasDerivAt (𝕜 := ℝ) isOpen_Ioo isPreconnected_Ioo
      (f' := fun x => Real.log x / (1 - x) - Real.log (1 - x) / x) ?_ ?_ (l := 𝓝[>] 0)
      (Ioo_mem_nhdsGT one_pos) ?_
    · intro x hx
      have ha := reLi_hasDerivAt 0 hx.1.ne' hx.2.ne
      have hs : HasDerivAt (fun x : ℝ => 1 - x) (-1) x := by simpa using (hasDerivAt_id x).const_sub 1
      have hb := HasDerivAt.comp x (reLi_hasDerivAt 0 (x := 1 - x) (by linarith [hx.2]) (by linarith [hx.1])) hs
      refine (ha.add hb).congr_deriv ?_
      rw [zero_add, reLi_one, reLi_one, sub_sub_cancel]; ring
    · intro x hx
      have hs : HasDerivAt (fun x : ℝ => 1 - x) (-1) x := by simpa using (hasDerivAt_id x).const_sub 1
      have hl1 := Real.hasDerivAt_log hx.1.ne'
      have hl2 := hs.log (by linarith [hx.2])
      refine ((hl1.mul hl2).const_sub (Real.pi ^ 2 / 6)).congr_deriv ?_
      have := hx.1.ne'
      have h1x : 1 - x ≠ 0 := by linarith [hx.2]
      field_simp; ring
    · have hL : Tendsto (fun x : ℝ => reLi 2 x + reLi 2 (1 - x)) (𝓝[>] 0) (𝓝 (reLi 2 0 + reLi 2 (1 - 0))) := by
        have : Continuous (fun x : ℝ => reLi 2 x + reLi 2 (1 - x)) :=
          (reLi_continuous 0).add ((reLi_continuous 0).comp (by fun_prop))
        exact (this.tendsto 0).mono_left nhdsWithin_le_nhds
      have hlog : Tendsto (fun x : ℝ => Real.log x * Real.log (1 - x)) (𝓝[>] 0) (𝓝 0) := by
        -- |log x * log (1-x)| ≤ |x log x| * |log(1-x)/x|
        have h1 : Tendsto (fun x : ℝ => x * Real.log x) (𝓝[>] 0) (𝓝 0) := by
          have := Real.continuous_mul_log.tendsto 0
          simp only [zero_mul] at this
          exact this.mono_left nhdsWithin_le_nhds
        have h2 : Tendsto (fun x : ℝ => x⁻¹ * Real.log (1 - x)) (𝓝[>] 0) (𝓝 (-1)) := by
          have hs : HasDerivAt (fun x : ℝ => 1 - x) (-1) 0 := by simpa using (hasDerivAt_id (0:ℝ)).const_sub 1
          have hd : HasDerivAt (fun x : ℝ => Real.log (1 - x)) (-1) 0 := by
            refine (hs.log (by norm_num)).congr_deriv (by norm_num)
          have := hd.tendsto_slope_zero_right
          simpa using this
        have := h1.mul h2
        rw [zero_mul] at this
        refine this.congr' ?_
        filter_upwards [self_mem_nhdsWithin] with x hx
        have : x ≠ 0 := (mem_Ioi.mp hx).ne'
        field_simp
      have := hL.sub (hlog.const_sub (Real.pi ^ 2 / 6))
      rw [sub_zero, sub_zero, reLi_zero_right, reLi_two_one, zero_add, sub_self] at this
      exact this
  linarith [key x ⟨h0, h1⟩]

/-- Landen on `(-∞, 0)` -/
theorem reLi_two_landen {x : ℝ} (h0 : x < 0) :
    reLi 2 x = -(Real.log (1 - x)) ^ 2 / 2 - reLi 2 (x / (x - 1)) := by
  have key : ∀ x ∈ Iio (0:ℝ), reLi 2 x + reLi 2 (x / (x - 1)) = -(Real.log (1 - x)) ^ 2 / 2 := by
    refine eqOn_of_hasDerivAt (𝕜 := ℝ) isOpen_Iio isPreconnected_Iio
      (f' := fun x => Real.log (1 - x) / (1 - x)) ?_ ?_ (l := 𝓝[<] 0) self_mem_nhdsWithin ?_
    · intro x hx
      rw [mem_Iio] at hx
      have hx1 : x - 1 < 0 := by linarith
      have ha := reLi_hasDerivAt 0 hx.ne (show x ≠ 1 by linarith)
      have hs : HasDerivAt (fun x : ℝ => x / (x - 1)) (-1 / (x - 1) ^ 2) x := by
        have := (hasDerivAt_id x).div ((hasDerivAt_id x).sub_const 1) hx1.ne
        refine this.congr_deriv ?_
        simp
      have hy0 : 0 < x / (x - 1) := div_pos_of_neg_of_neg hx hx1
      have hy1 : x / (x - 1) < 1 := by rw [div_lt_one_of_neg hx1]; linarith
      have hb := HasDerivAt.comp x (reLi_hasDerivAt 0 hy0.ne' hy1.ne) hs
      refine (ha.add hb).congr_deriv ?_
      have e : 1 - x / (x - 1) = (1 - x)⁻¹ := by
        have : 1 - x ≠ 0 := by linarith
        have := hx1.ne
        field_simp; ring
      rw [zero_add, reLi_one, reLi_one, e, Real.log_inv]
      have h1 : 1 - x ≠ 0 := by linarith
      have h2 := hx1.ne
      have h3 := hx.ne
      field_simp
      have h4 : (1 - x) = -(x - 1) := by ring
      ring_nf
    · intro x hx
      rw [mem_Iio] at hx
      have hs : HasDerivAt (fun x : ℝ => 1 - x) (-1) x := by simpa using (hasDerivAt_id x).const_sub 1
      have h1 : 1 - x ≠ 0 := by linarith
      have hl := ((hs.log h1).pow 2).neg.div_const 2
      refine hl.congr_deriv ?_
      field_simp; simp
    · have hc : ContinuousAt (fun x : ℝ => reLi 2 x + reLi 2 (x / (x - 1)) - (-(Real.log (1 - x)) ^ 2 / 2)) 0 := by
        have h1 : ContinuousAt (fun x : ℝ => x / (x - 1)) 0 :=
          continuousAt_id.div (by fun_prop) (by norm_num)
        have h2 : ContinuousAt (fun x : ℝ => Real.log (1 - x)) 0 :=
          (Real.continuousAt_log (by norm_num)).comp (f := fun x : ℝ => 1 - x) (by fun_prop)
        exact ((reLi_continuous 0).continuousAt.add
          (ContinuousAt.comp (reLi_continuous 0).continuousAt h1)).sub (((h2.pow 2).neg).div_const 2)
      have := hc.tendsto.mono_left (nhdsWithin_le_nhds (s := Iio 0))
      simpa [reLi_zero_right] using this
  linarith [key x h0]

end Polylog
