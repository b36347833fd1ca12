import Verif.Props.Horner
import Verif.Props.TablesUB
import Verif.Model.Li

/-! # C19, C30: dispatch of `Li(n, z)` -/

noncomputable section
namespace Polylog

section
variable {F : Type} [FOps F]

/-- `z` is none of the special arguments `NaN, ±inf, 0, 1, -1` as seen by the C++ comparisons -/
structure Regular (z : Cx F) : Prop where
  nan : (FOps.isnan z.re || FOps.isnan z.im) = false
  inf : (FOps.isinf z.re || FOps.isinf z.im) = false
  zero : Cx.beqr z (FOps.lit 0) = false
  one : Cx.beqr z (FOps.lit 1) = false
  mone : Cx.beqr z ∸(FOps.lit 1) = false

/-- **C30 (NaN).** A NaN component gives `(NaN, NaN)` for every order. -/
theorem C30_nan (fuel : ℕ) (n : Int) (z : Cx F) (h : FOps.isnan z.re = true ∨ FOps.isnan z.im = true) :
    Li fuel n z = .ok ⟨FOps.nan, FOps.nan⟩ := by
  have : (FOps.isnan z.re || FOps.isnan z.im) = true := by simpa using h
  rw [Li.eq_def]; simp only [this, if_true]; rfl

/-- **C30 (infinity).** An infinite component (and no NaN) gives `(-inf, 0)` for every order, also for `n ≤ 0`
where the limit of `Li_n` is finite. -/
theorem C30_inf (fuel : ℕ) (n : Int) (z : Cx F) (h1 : FOps.isnan z.re = false) (h2 : FOps.isnan z.im = false)
    (h : FOps.isinf z.re = true ∨ FOps.isinf z.im = true) :
    Li fuel n z = .ok ⟨∸(FOps.inf : F), FOps.lit 0⟩ := by
  have : (FOps.isinf z.re || FOps.isinf z.im) = true := by simpa using h
  rw [Li.eq_def]; simp only [this, h1, h2, Bool.or_self, Bool.false_eq_true, if_false, if_true]; rfl

/-- **C19 (n = 2,...,6).** On every regular argument the dedicated complex function is called. -/
theorem C19_dedicated (fuel : ℕ) (z : Cx F) (h : Regular z) :
    Li fuel 2 z = .ok (cLi2d z) ∧ Li fuel 3 z = .ok (cLi3d z) ∧ Li fuel 4 z = .ok (cLi4d z) ∧
    Li fuel 5 z = .ok (cLi5d z) ∧ Li fuel 6 z = .ok (cLi6d z) := by
  refine ⟨?_, ?_, ?_, ?_, ?_⟩ <;>
  · rw [Li.eq_def]
    simp only [h.nan, h.inf, h.zero, h.one, h.mone, Bool.false_eq_true, if_false]
    rfl

/-- **C19 (z = 0).** -/
theorem C19_zero (fuel : ℕ) (n : Int) (z : Cx F) (h1 : (FOps.isnan z.re || FOps.isnan z.im) = false)
    (h2 : (FOps.isinf z.re || FOps.isinf z.im) = false) (h : Cx.beqr z (FOps.lit 0) = true) :
    Li fuel n z = .ok z := by
  rw [Li.eq_def]; simp only [h1, h2, h, Bool.false_eq_true, if_false, if_true]; rfl

/-- **C19 (z = 1).** `zeta(n)` with the imaginary part (a signed zero) of `z`; complex infinity for `n ≤ 0`. -/
theorem C19_one (fuel : ℕ) (n : Int) (z : Cx F) (h1 : (FOps.isnan z.re || FOps.isnan z.im) = false)
    (h2 : (FOps.isinf z.re || FOps.isinf z.im) = false) (h0 : Cx.beqr z (FOps.lit 0) = false)
    (h : Cx.beqr z (FOps.lit 1) = true) :
    Li fuel n z = if n ≤ 0 then .ok ⟨FOps.inf, FOps.inf⟩ else (zeta n : M F).map (fun v => ⟨v, z.im⟩) := by
  rw [Li.eq_def]; simp only [h1, h2, h0, h, Bool.false_eq_true, if_false, if_true]
  split
  · rfl
  · cases (zeta n : M F) <;> rfl

/-- **C19 (z = -1).** `neg_eta(n)` with the imaginary part of `z`. -/
theorem C19_mone (fuel : ℕ) (n : Int) (z : Cx F) (h1 : (FOps.isnan z.re || FOps.isnan z.im) = false)
    (h2 : (FOps.isinf z.re || FOps.isinf z.im) = false) (h0 : Cx.beqr z (FOps.lit 0) = false)
    (h1' : Cx.beqr z (FOps.lit 1) = false) (h : Cx.beqr z ∸(FOps.lit 1) = true) :
    Li fuel n z = (negEta n : M F).map (fun v => ⟨v, z.im⟩) := by
  rw [Li.eq_def]; simp only [h1, h2, h0, h1', h, Bool.false_eq_true, if_false, if_true]
  cases (negEta n : M F) <;> rfl

end

section
variable {S : RealSem} {u : ℝ} (hS : S.Lit u)
include hS

theorem beqr_lit0 (z : Cx (R S)) : Cx.beqr z (FOps.lit 0) = decide (z.toC = 0) := by
  rw [beqr_R hS.zero]; simp [rsem, hS.zero]
theorem beqr_lit1 (z : Cx (R S)) : Cx.beqr z (FOps.lit 1) = decide (z.toC = 1) := by
  rw [beqr_R hS.zero]; simp [rsem, hS.one]
theorem beqr_litm1 (z : Cx (R S)) : Cx.beqr z ∸(FOps.lit 1) = decide (z.toC = -1) := by
  rw [beqr_R hS.zero]; simp [rsem, hS.one]

theorem regular_R (z : Cx (R S)) (h0 : z.toC ≠ 0) (h1 : z.toC ≠ 1) (h2 : z.toC ≠ -1) : Regular z where
  nan := rfl
  inf := rfl
  zero := by rw [beqr_lit0 hS]; simpa using h0
  one := by rw [beqr_lit1 hS]; simpa using h1
  mone := by rw [beqr_litm1 hS]; simpa using h2

/-- **C19 (n = -1).** `Li_{-1}(z) = z/(1-z)^2` for every `z ≠ 1`. -/
theorem C19_order_m1 (fuel : ℕ) (z : Cx (R S)) (hz : z.toC ≠ 1) :
    ∃ w : Cx (R S), Li fuel (-1) z = .ok w ∧ w.toC = z.toC / (1 - z.toC) ^ 2 := by
  by_cases h0 : z.toC = 0
  · exact ⟨z, C19_zero fuel _ z rfl rfl (by rw [beqr_lit0 hS]; simpa using h0), by simp [h0]⟩
  by_cases h2 : z.toC = -1
  · refine ⟨⟨FOps.lit (-0.25), z.im⟩, ?_, ?_⟩
    · rw [C19_mone fuel _ z rfl rfl (by rw [beqr_lit0 hS]; simpa using h0)
        (by rw [beqr_lit1 hS]; simpa using hz) (by rw [beqr_litm1 hS]; simpa using h2)]
      rfl
    · rw [toC_mk, ofR_lit, ofR_im, h2, hS.dy (-0.25) (-1) 2 (by norm_num) (by norm_num) (by norm_num)]
      apply Complex.ext <;> norm_num
  · refine ⟨z /. (((FOps.lit 1 : R S) -. z) *. ((FOps.lit 1 : R S) -. z)), ?_, ?_⟩
    · have h := regular_R hS z h0 hz h2
      rw [Li.eq_def]
      simp only [h.nan, h.inf, h.zero, h.one, h.mone, Bool.false_eq_true, if_false]
      rfl
    · have e : ((FOps.lit 1 : R S) -. z : Cx (R S)).toC = 1 - z.toC := by simp [rsem, hS.one]
      have hne : (1 - z.toC) ≠ 0 := fun h => hz (by linear_combination -h)
      rw [toC_div (by rw [toC_mul, e]; exact mul_ne_zero hne hne), toC_mul, e, pow_two]

/-- **C19 (n = 0).** `Li_0(z) = z/(1-z)` for every `z ≠ 1`. -/
theorem C19_order_0 (fuel : ℕ) (z : Cx (R S)) (hz : z.toC ≠ 1) :
    ∃ w : Cx (R S), Li fuel 0 z = .ok w ∧ w.toC = z.toC / (1 - z.toC) := by
  by_cases h0 : z.toC = 0
  · exact ⟨z, C19_zero fuel _ z rfl rfl (by rw [beqr_lit0 hS]; simpa using h0), by simp [h0]⟩
  by_cases h2 : z.toC = -1
  · refine ⟨⟨∸(FOps.lit 0.5), z.im⟩, ?_, ?_⟩
    · rw [C19_mone fuel _ z rfl rfl (by rw [beqr_lit0 hS]; simpa using h0)
        (by rw [beqr_lit1 hS]; simpa using hz) (by rw [beqr_litm1 hS]; simpa using h2)]
      rfl
    · rw [toC_mk, ofR_neg, ofR_lit, ofR_im, h2, hS.half]
      apply Complex.ext <;> norm_num
  · refine ⟨z /. ((FOps.lit 1 : R S) -. z), ?_, ?_⟩
    · have h := regular_R hS z h0 hz h2
      rw [Li.eq_def]
      simp only [h.nan, h.inf, h.zero, h.one, h.mone, Bool.false_eq_true, if_false]
      rfl
    · have e : ((FOps.lit 1 : R S) -. z : Cx (R S)).toC = 1 - z.toC := by simp [rsem, hS.one]
      have hne : (1 - z.toC) ≠ 0 := fun h => hz (by linear_combination -h)
      rw [toC_div (by rw [e]; exact hne), e]

/-- **C19 (n = 1).** `Li_1(z) = -log(1-z)`: equality off the cut and off `z = -1` (where a tabulated constant is
returned, see C02); on the cut `z > 1` the imaginary part is the literal `-PI`. -/
theorem C19_order_1 (fuel : ℕ) (z : Cx (R S)) (hz : z.toC ≠ 1) (hz2 : z.toC ≠ -1) :
    ∃ w : Cx (R S), Li fuel 1 z = .ok w ∧
      (¬ (z.toC.im = 0 ∧ 1 < z.toC.re) → w.toC = -Complex.log (1 - z.toC)) ∧
      ((z.toC.im = 0 ∧ 1 < z.toC.re) →
        w.toC = ⟨-Real.log (z.toC.re - 1), -((S.rho 3.1415926535897932 : ℚ) : ℝ)⟩) := by
  by_cases h0 : z.toC = 0
  · refine ⟨z, C19_zero fuel _ z rfl rfl (by rw [beqr_lit0 hS]; simpa using h0), by simp [h0], ?_⟩
    rintro ⟨_, h⟩; rw [h0] at h; norm_num at h
  · refine ⟨∸(clog ((FOps.lit 1 : R S) -. z)), ?_, ?_⟩
    · have h := regular_R hS z h0 hz hz2
      rw [Li.eq_def]
      simp only [h.nan, h.inf, h.zero, h.one, h.mone, Bool.false_eq_true, if_false]
      rfl
    · have e : ((FOps.lit 1 : R S) -. z : Cx (R S)).toC = 1 - z.toC := by simp [rsem, hS.one]
      have hne : (1 - z.toC) ≠ 0 := fun h => hz (by linear_combination -h)
      rw [toC_neg, C07_clog hS _ (by rw [e]; exact hne), e]
      constructor
      · intro hc
        rw [if_neg]
        rintro ⟨h1, h2⟩
        apply hc
        simp only [Complex.sub_im, Complex.one_im, zero_sub, neg_eq_zero, Complex.sub_re, Complex.one_re] at h1 h2
        exact ⟨h1, by linarith⟩
      · rintro ⟨h1, h2⟩
        rw [if_pos (by simp only [Complex.sub_im, Complex.one_im, zero_sub, neg_eq_zero, Complex.sub_re, Complex.one_re]; exact ⟨h1, by linarith⟩)]
        apply Complex.ext
        · simp only [Complex.neg_re, Complex.sub_re, Complex.one_re]
          rw [abs_of_neg (by linarith)]; congr 2; ring
        · simp

end

/-- non-vacuity -/
example : RealSem.dec.Lit 0 ∧ (ofC RealSem.dec 2).toC ≠ 1 ∧ (ofC RealSem.dec 2).toC ≠ -1 ∧
    Regular (ofC RealSem.dec 2) := by
  refine ⟨RealSem.dec_lit, by rw [toC_ofC]; norm_num, by rw [toC_ofC]; norm_num, ?_⟩
  exact regular_R RealSem.dec_lit _ (by rw [toC_ofC]; norm_num) (by rw [toC_ofC]; norm_num) (by rw [toC_ofC]; norm_num)

end Polylog
