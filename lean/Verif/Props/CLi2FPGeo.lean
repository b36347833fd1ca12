import Verif.Props.LiFPLong
import Verif.Props.Li2Cx

/-!
# Complex dilogarithm in floating point: geometry of the regions
-/

namespace Polylog
set_option linter.style.longLine false
open Complex

/-- `norm_log_right` on a slightly larger region -/
theorem norm_log_right' {v : ℂ} (h1 : 0.4999 ≤ v.re) (h2 : ‖1 - v‖ ^ 2 ≤ 1.0001) : ‖Complex.log v‖ ≤ 1.1 := by
  have hv0 : v ≠ 0 := by rintro rfl; norm_num at h1
  have hρ : 0 < ‖v‖ := norm_pos_iff.mpr hv0
  set ρ := ‖v‖ with hρd
  set α := |Complex.arg v| with hα
  have hα0 : 0 ≤ α := abs_nonneg _
  have hre : v.re = ρ * Real.cos α := polar_re v
  have hsq := norm_one_sub_sq v
  have h3 : ρ ^ 2 ≤ 2 * v.re + 0.0001 := by linarith
  have hρ5 : 0.4999 ≤ ρ := h1.trans (Complex.re_le_norm v)
  rw [hre] at h1 h3
  have hc0 : 0 < Real.cos α := by
    by_contra hc; push Not at hc; nlinarith
  set c := Real.cos α with hcd
  have hρ2 : ρ ≤ 2 * c + 0.0003 := by
    by_contra hc; push Not at hc; nlinarith
  have hcos : 0.4996 ≤ c := by
    by_contra hc; push Not at hc; nlinarith
  have hαpi : α ≤ 1.05 := by
    by_contra hc
    push Not at hc
    have h6 := Real.cos_le_cos_of_nonneg_of_le_pi (by norm_num) (Complex.abs_arg_le_pi v) hc.le
    have h7 := cos_upper (x := 1.05) (by norm_num)
    have h8 : c ≤ _ := h6.trans h7
    have h9 : (1:ℝ) - 1.05 ^ 2 / 2 + 1.05 ^ 4 / 24 < 0.4996 := by norm_num
    linarith
  have hlog : |Real.log ρ| ≤ Real.log (2 * c + 0.001) := by
    rw [abs_le]
    constructor
    · rw [← Real.log_inv]
      apply Real.log_le_log (by positivity)
      rw [inv_le_iff_one_le_mul₀ (by linarith)]
      nlinarith
    · exact Real.log_le_log hρ (by linarith)
  have hc1 : c ≤ 1 := Real.cos_le_one α
  have key : Real.log ρ ^ 2 + α ^ 2 ≤ 1.21 := by
    rcases le_total α 0.82 with h | h
    · have : Real.log (2 * c + 0.001) ≤ 0.6937 := by
        have h4 := Real.log_le_log (by linarith) (show 2 * c + 0.001 ≤ 2 * 1.0005 by linarith)
        rw [Real.log_mul (by norm_num) (by norm_num)] at h4
        have h5 := Real.log_le_sub_one_of_pos (x := 1.0005) (by norm_num)
        linarith [Real.log_two_lt_d9]
      have h5 : Real.log ρ ^ 2 ≤ 0.6937 ^ 2 := by rw [← sq_abs]; exact pow_le_pow_left₀ (abs_nonneg _) (by linarith) 2
      nlinarith
    · have hc : c ≤ 0.6874 := by
        have h6 := Real.cos_le_cos_of_nonneg_of_le_pi (by norm_num) (by linarith [Real.pi_gt_three]) h
        have h7 := cos_upper (x := 0.82) (by norm_num)
        norm_num at h7 h6 ⊢; linarith
      have : Real.log (2 * c + 0.001) ≤ 0.32 := by
        rw [Real.log_le_iff_le_exp (by linarith)]
        have h8 : (1.3758:ℝ) ≤ Real.exp 0.32 := by
          have := Real.sum_le_exp_of_nonneg (x := 0.32) (by norm_num) 4
          norm_num [Finset.sum_range_succ, Nat.factorial] at this ⊢
          linarith
        linarith
      have h5 : Real.log ρ ^ 2 ≤ 0.32 ^ 2 := by rw [← sq_abs]; exact pow_le_pow_left₀ (abs_nonneg _) (by linarith) 2
      nlinarith
  have hn := norm_log_sq v
  rw [← hρd, ← hα] at hn
  have : ‖Complex.log v‖ ^ 2 ≤ 1.1 ^ 2 := by rw [hn]; norm_num; linarith
  exact le_of_sq_le_sq this (by norm_num)

/-- `1 - 1/z` is in the region when `|z|² ≥ max(1, 2 Re z)` up to rounding -/
theorem region_inv {z : ℂ} (h1 : 0.99999 ≤ ‖z‖ ^ 2) (h2 : 2 * z.re ≤ 1.00001 * ‖z‖ ^ 2) :
    0.4999 ≤ (1 - 1 / z).re ∧ ‖Complex.log (1 - 1 / z)‖ ≤ 1.1 := by
  have hn0 : 0 < ‖z‖ ^ 2 := by linarith
  have hinv : (1 - 1 / z).re = 1 - z.re / ‖z‖ ^ 2 := by simp [Complex.inv_re, normSq_eq_norm_sq]
  have hinvn : ‖1 - (1 - 1 / z)‖ ^ 2 = 1 / ‖z‖ ^ 2 := by rw [sub_sub_cancel, norm_div, norm_one, div_pow, one_pow]
  have h3 : 0.4999 ≤ (1 - 1 / z).re := by
    rw [hinv]
    have : z.re / ‖z‖ ^ 2 ≤ 0.5001 := by rw [div_le_iff₀ hn0]; linarith
    linarith
  refine ⟨h3, norm_log_right' h3 ?_⟩
  rw [hinvn, div_le_iff₀ hn0]; linarith

theorem region_one_sub {z : ℂ} (h1 : z.re ≤ 1 / 2) (h2 : ‖z‖ ^ 2 ≤ 1.00001) : ‖Complex.log (1 - z)‖ ≤ 1.1 := by
  refine norm_log_right' (by simp; linarith) ?_
  rw [sub_sub_cancel]; linarith

theorem region_log {z : ℂ} (h1 : 1 / 2 ≤ z.re) (h2 : ‖z‖ ^ 2 ≤ 1.00001 * (2 * z.re)) : z.re ≤ 2.001 ∧ ‖1 - z‖ ^ 2 ≤ 1.0001 ∧ ‖Complex.log z‖ ≤ 1.1 := by
  have hx : z.re ≤ 2.001 := by
    have := Complex.re_le_norm z
    nlinarith
  have h3 : ‖1 - z‖ ^ 2 ≤ 1.0001 := by rw [norm_one_sub_sq]; linarith
  exact ⟨hx, h3, norm_log_right' (by linarith) h3⟩

/-- `|log z| |log(1-z)|` is bounded for `z` close to 1 -/
theorem log_prod {z : ℂ} (h0 : 1 - z ≠ 0) (h1 : 1 / 2 ≤ z.re) (h2 : ‖1 - z‖ ^ 2 ≤ 1.0001) :
    ‖Complex.log z‖ ≤ 2 * ‖1 - z‖ ∧ ‖1 - z‖ * ‖Complex.log (1 - z)‖ ≤ 3.6 := by
  have ht : 0 < ‖1 - z‖ := norm_pos_iff.2 h0
  set t := ‖1 - z‖ with htd
  have ht1 : t ≤ 1.0001 := by nlinarith
  constructor
  · have := log_lip (A := z) (B := 1) (m := 1 / 2) (by norm_num) h1 (by norm_num)
    rw [Complex.log_one, sub_zero, norm_sub_rev] at this
    refine this.trans (le_of_eq ?_); rw [← htd]; ring
  have e : Complex.log (1 - z) = ((Real.log t : ℝ) : ℂ) + ((Complex.arg (1 - z) : ℝ) : ℂ) * I := rfl
  have h3 : ‖Complex.log (1 - z)‖ ≤ |Real.log t| + 3.15 := by
    rw [e]
    refine (norm_add_le _ _).trans ?_
    rw [norm_mul, Complex.norm_I, Complex.norm_real, Complex.norm_real, mul_one, Real.norm_eq_abs, Real.norm_eq_abs]
    have h4 := Complex.abs_arg_le_pi (1 - z)
    have h5 := Real.pi_lt_d2
    linarith
  have h4 : t * |Real.log t| ≤ 0.4 := by
    rcases le_total t 1 with h | h
    · rw [abs_of_nonpos (Real.log_nonpos ht.le h)]
      -- t log(1/t) ≤ 1/e: log(1/(e t)) ≤ 1/(e t) - 1
      have h6 := Real.log_le_sub_one_of_pos (x := (t * Real.exp 1)⁻¹) (by positivity)
      rw [Real.log_inv, Real.log_mul ht.ne' (Real.exp_pos 1).ne', Real.log_exp] at h6
      have h7 : -Real.log t ≤ (t * Real.exp 1)⁻¹ := by linarith
      have h8 : t * -Real.log t ≤ t * (t * Real.exp 1)⁻¹ := by gcongr
      refine h8.trans ?_
      rw [mul_inv, ← mul_assoc, mul_inv_cancel₀ ht.ne', one_mul, inv_le_comm₀ (Real.exp_pos 1) (by norm_num)]
      have := Real.exp_one_gt_d9
      norm_num at this ⊢; linarith
    · rw [abs_of_nonneg (Real.log_nonneg h)]
      have := Real.log_le_sub_one_of_pos ht
      nlinarith
  have h5 : t * ‖Complex.log (1 - z)‖ ≤ t * (|Real.log t| + 3.15) := by gcongr
  nlinarith

section
variable {φ : Fmt} {L : Lib}

/-- `1 - x` is a floating-point number for `x` between `1/2` and `4` -/
theorem repr_one_sub {x : ℚ} (hp : 2 ≤ φ.p) (hm : φ.emin ≤ -(φ.p:ℤ)) (h : Repr φ |x|) (h1 : 1 / 2 ≤ x) (h2 : x < 4) : Repr φ |1 - x| := by
  rw [abs_of_pos (by linarith)] at h
  obtain ⟨m, e, he, hmp, rfl⟩ := h
  have hpe : -(φ.p : ℤ) ≤ e := by
    by_contra hc
    have h2 : (m:ℚ) * 2 ^ e < 2 ^ φ.p * 2 ^ (-(φ.p:ℤ) - 1) := by
      have : (m:ℚ) < 2 ^ φ.p := by exact_mod_cast hmp
      have h3 : (2:ℚ) ^ e ≤ 2 ^ (-(φ.p:ℤ) - 1) := zpow_le_zpow_right₀ (by norm_num) (by omega)
      calc (m:ℚ) * 2 ^ e < 2 ^ φ.p * 2 ^ e := by gcongr
        _ ≤ _ := by gcongr
    have h4 : (2:ℚ) ^ φ.p * 2 ^ (-(φ.p:ℤ) - 1) = 1 / 2 := by
      rw [← zpow_natCast, ← zpow_add₀ (by norm_num), show ((φ.p:ℕ):ℤ) + (-(φ.p:ℤ) - 1) = -1 by ring]; norm_num
    rw [h4] at h2; linarith
  have hm0 : 0 < m := by
    rcases Nat.eq_zero_or_pos m with rfl | h
    · norm_num at h1
    · exact h
  rcases le_or_gt e 0 with he0 | he0
  · obtain ⟨k, rfl⟩ : ∃ k : ℕ, e = -(k:ℤ) := ⟨(-e).toNat, by omega⟩
    have hk : k ≤ φ.p := by omega
    have e1 : 1 - (m:ℚ) * 2 ^ (-(k:ℤ)) = (((2 ^ k - m : ℤ)) : ℚ) * 2 ^ (-(k:ℤ)) := by
      push_cast
      rw [sub_mul, ← zpow_natCast, ← zpow_add₀ (by norm_num)]; norm_num
    rw [e1, abs_mul, abs_of_pos (show (0:ℚ) < 2 ^ (-(k:ℤ)) by positivity), ← Int.cast_abs, ← Int.natCast_natAbs]
    have h2k : 2 ^ k ≤ 2 ^ φ.p := Nat.pow_le_pow_right (by norm_num) hk
    refine ⟨((2:ℤ) ^ k - m).natAbs, _, he, ?_, by rw [Int.cast_natCast]⟩
    have : ((2:ℤ) ^ k) = ((2 ^ k : ℕ) : ℤ) := by push_cast; rfl
    have h0 : 0 < 2 ^ k := Nat.pow_pos (by norm_num)
    rw [this]
    generalize 2 ^ k = A at *
    generalize 2 ^ φ.p = B at *
    clear e1 h1 h2
    omega
  · have he1 : (2:ℚ) ≤ 2 ^ e := by
      calc (2:ℚ) = 2 ^ (1:ℤ) := by norm_num
        _ ≤ _ := zpow_le_zpow_right₀ (by norm_num) (by omega)
    have hm1 : m = 1 := by
      by_contra hc
      have : (2:ℚ) ≤ m := by exact_mod_cast (show 2 ≤ m by omega)
      nlinarith
    subst hm1
    have he2 : e = 1 := by
      by_contra hc
      have : (2:ℚ) ^ (2:ℤ) ≤ 2 ^ e := zpow_le_zpow_right₀ (by norm_num) (by omega)
      norm_num at this h2; linarith
    subst he2
    refine ⟨1, 0, by omega, ?_, by norm_num⟩
    exact Nat.one_lt_two_pow (by omega)

end

/-- the coefficients used by `horner<1>` -/
def tailV {m : ℕ} (c : Vector ℚ (m + 1)) : Vector ℚ m := Vector.ofFn fun i => c[i.1 + 1]

section
variable {F : Type} [FOps F]

theorem hornerCLoop_tail {N : ℕ} (r s : F) (c : Vector ℚ (N + 1)) : ∀ (k : ℕ) (h : k + 1 ≤ N + 1) (h' : k ≤ N) (a b : F),
    hornerCLoop 1 r s c (k + 1) h a b = hornerCLoop 0 r s (tailV c) k h' a b
  | 0, _, _, a, b => by unfold hornerCLoop; rw [if_neg (by norm_num)]
  | k + 1, h, h', a, b => by
    rw [hornerCLoop, if_pos (by omega), hornerCLoop_tail r s c k (by omega) (by omega)]
    conv_rhs => rw [hornerCLoop, if_pos (by omega)]
    simp [tailV]

theorem hornerC_tail {m : ℕ} (z : Cx F) (c : Vector ℚ (m + 3)) : hornerC 1 z c = hornerC 0 z (tailV c) := by
  unfold hornerC
  dsimp only
  rw [hornerCLoop_tail (z.re +. z.re) (Cx.norm z) c m (by omega) (by omega)]
  simp [tailV]
end

end Polylog
