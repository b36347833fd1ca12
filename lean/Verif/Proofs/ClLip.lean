import Verif.Proofs.Clausen
import Mathlib.Analysis.SpecialFunctions.Trigonometric.Bounds
import Mathlib.NumberTheory.Harmonic.Bounds
import Mathlib.Analysis.SpecialFunctions.Log.Deriv
import Mathlib.Analysis.Complex.ExponentialBounds

/-! # Moduli of continuity of the Clausen functions, extension of `clausen_hi` -/

noncomputable section
namespace Polylog
open Complex Finset

theorem exp_pow_sub (a b : ℝ) (k : ℕ) : ‖exp ((a:ℂ) * I) ^ k - exp ((b:ℂ) * I) ^ k‖ ≤ k * |a - b| := by
  rw [← Complex.exp_nat_mul, ← Complex.exp_nat_mul]
  have e : exp ((k:ℂ) * ((a:ℂ) * I)) - exp ((k:ℂ) * ((b:ℂ) * I)) =
      exp (((k * b : ℝ) : ℂ) * I) * (exp (I * ((k * (a - b) : ℝ) : ℂ)) - 1) := by
    rw [mul_sub, ← Complex.exp_add, mul_one]
    congr 2 <;> (push_cast; ring)
  rw [e, norm_mul, norm_exp_I, one_mul]
  refine (Real.norm_exp_I_mul_ofReal_sub_one_le).trans ?_
  rw [Real.norm_eq_abs, abs_mul, Nat.abs_cast]

theorem exp_pow_sub' (a b : ℝ) (k : ℕ) : ‖exp ((a:ℂ) * I) ^ k - exp ((b:ℂ) * I) ^ k‖ ≤ 2 := by
  refine (norm_sub_le _ _).trans ?_
  rw [norm_pow, norm_pow, norm_exp_I, norm_exp_I]; norm_num

/-- partial sums control the distance of two values on the unit circle -/
theorem pLi_circle_sub (n : ℕ) (a b C : ℝ)
    (h : ∀ K, ∑ k ∈ range K, ‖exp ((a:ℂ) * I) ^ (k + 1) - exp ((b:ℂ) * I) ^ (k + 1)‖ / ((k:ℝ) + 1) ^ (n + 2) ≤ C) :
    ‖pLi (n + 2) (exp (a * I)) - pLi (n + 2) (exp (b * I))‖ ≤ C := by
  have h1 := (pLi_hasSum n _ (norm_exp_I a).le).sub (pLi_hasSum n _ (norm_exp_I b).le)
  refine le_of_tendsto h1.tendsto_sum_nat.norm (Filter.Eventually.of_forall fun K => ?_)
  refine (norm_sum_le _ _).trans (le_trans (Finset.sum_le_sum fun k _ => ?_) (h K))
  rw [← sub_div, norm_div, norm_pow]
  have : ‖(k:ℂ) + 1‖ = (k:ℝ) + 1 := by
    rw [← Nat.cast_one, ← Nat.cast_add, Complex.norm_natCast]; push_cast; rfl
  rw [this]

theorem sum_inv_sq_tail (N j : ℕ) (hN : 0 < N) : ∑ i ∈ range j, 1 / (((N + i : ℕ) : ℝ) + 1) ^ 2 ≤ 1 / (N:ℝ) - 1 / ((N:ℝ) + j) := by
  have hN' : (0:ℝ) < N := by exact_mod_cast hN
  induction j with
  | zero => simp
  | succ j ih =>
    rw [Finset.sum_range_succ]
    have h0 : (0:ℝ) ≤ j := Nat.cast_nonneg _
    have e : 1 / ((N:ℝ) + j) - 1 / ((N:ℝ) + ((j + 1 : ℕ) : ℝ)) = 1 / (((N:ℝ) + j) * ((N:ℝ) + j + 1)) := by
      push_cast; field_simp; ring
    have : 1 / (((N + j : ℕ) : ℝ) + 1) ^ 2 ≤ 1 / (((N:ℝ) + j) * ((N:ℝ) + j + 1)) := by
      push_cast
      apply one_div_le_one_div_of_le (by positivity)
      nlinarith
    linarith

theorem sum_inv_sq (K : ℕ) : ∑ k ∈ range K, 1 / ((k:ℝ) + 1) ^ 2 ≤ 2 := by
  rcases K with _ | j
  · simp
  · rw [add_comm, Finset.sum_range_add]
    have := sum_inv_sq_tail 1 j one_pos
    have h2 : (0:ℝ) ≤ (1 + (j:ℝ))⁻¹ := by positivity
    simp only [Finset.sum_range_one, Nat.cast_zero, zero_add, one_pow, div_one, Nat.cast_one] at this ⊢
    norm_num at this ⊢
    linarith

/-- orders at least 3 are Lipschitz -/
theorem pLi_circle_lip (n : ℕ) (a b : ℝ) : ‖pLi (n + 3) (exp (a * I)) - pLi (n + 3) (exp (b * I))‖ ≤ 2 * |a - b| := by
  refine pLi_circle_sub (n + 1) a b _ fun K => ?_
  calc _ ≤ ∑ k ∈ range K, 1 / ((k:ℝ) + 1) ^ 2 * |a - b| := by
        refine Finset.sum_le_sum fun k _ => ?_
        have hk : (1:ℝ) ≤ (k:ℝ) + 1 := by have : (0:ℝ) ≤ k := Nat.cast_nonneg _; linarith
        have h1 := exp_pow_sub a b (k + 1)
        rw [div_le_iff₀ (by positivity)]
        refine h1.trans ?_
        have e : 1 / ((k:ℝ) + 1) ^ 2 * |a - b| * ((k:ℝ) + 1) ^ (n + 1 + 2) = ((k:ℝ) + 1) ^ (n + 1) * |a - b| := by
          rw [pow_add]; field_simp
        rw [e]
        push_cast
        apply mul_le_mul_of_nonneg_right _ (abs_nonneg _)
        exact le_self_pow₀ hk (by omega)
    _ ≤ _ := by rw [← Finset.sum_mul]; exact mul_le_mul_of_nonneg_right (sum_inv_sq K) (abs_nonneg _)

/-- order 2 -/
theorem pLi_circle_two (N : ℕ) (hN : 0 < N) (a b : ℝ) :
    ‖pLi 2 (exp (a * I)) - pLi 2 (exp (b * I))‖ ≤ (1 + Real.log N) * |a - b| + 2 / N := by
  have hN' : (0:ℝ) < N := by exact_mod_cast hN
  refine pLi_circle_sub 0 a b _ fun K => ?_
  have hmono : ∑ k ∈ range K, ‖exp ((a:ℂ) * I) ^ (k + 1) - exp ((b:ℂ) * I) ^ (k + 1)‖ / ((k:ℝ) + 1) ^ (0 + 2)
      ≤ ∑ k ∈ range (N + K), ‖exp ((a:ℂ) * I) ^ (k + 1) - exp ((b:ℂ) * I) ^ (k + 1)‖ / ((k:ℝ) + 1) ^ (0 + 2) := by
    apply Finset.sum_le_sum_of_subset_of_nonneg (Finset.range_mono (by omega))
    intro i _ _; positivity
  refine hmono.trans ?_
  rw [Finset.sum_range_add]
  refine add_le_add ?_ ?_
  · calc _ ≤ ∑ k ∈ range N, 1 / ((k:ℝ) + 1) * |a - b| := by
          refine Finset.sum_le_sum fun k _ => ?_
          have h1 := exp_pow_sub a b (k + 1)
          rw [div_le_iff₀ (by positivity)]
          refine h1.trans (le_of_eq ?_)
          push_cast; field_simp
      _ ≤ _ := by
          rw [← Finset.sum_mul]
          apply mul_le_mul_of_nonneg_right _ (abs_nonneg _)
          have := harmonic_le_one_add_log N
          rw [_root_.harmonic] at this
          push_cast at this
          simpa using this
  · calc _ ≤ ∑ i ∈ range K, 2 * (1 / (((N + i : ℕ) : ℝ) + 1) ^ 2) := by
          refine Finset.sum_le_sum fun k _ => ?_
          rw [mul_one_div]
          exact div_le_div_of_nonneg_right (exp_pow_sub' a b _) (by positivity)
      _ ≤ _ := by
          rw [← Finset.mul_sum]
          have := sum_inv_sq_tail N K hN
          have h2 : (0:ℝ) ≤ 1 / ((N:ℝ) + K) := by positivity
          have e : (2:ℝ) / N = 2 * (1 / N) := by ring
          rw [e]; linarith

theorem clausen_lip (m p : ℕ) (hp : p < 2) (hn : 3 ≤ 2 * m + 1 + p) (a b : ℝ) :
    |clausen (2 * m + 1 + p) a - clausen (2 * m + 1 + p) b| ≤ 2 * |a - b| := by
  rw [clausen_part m p hp, clausen_part m p hp, ← part_sub]
  refine (abs_part_le _ _).trans ?_
  obtain ⟨n, hn⟩ : ∃ n, 2 * m + 1 + p = n + 3 := ⟨2 * m + p - 2, by omega⟩
  rw [hn]; exact pLi_circle_lip n a b

theorem clausen_two_mod (N : ℕ) (hN : 0 < N) (a b : ℝ) :
    |clausen 2 a - clausen 2 b| ≤ (1 + Real.log N) * |a - b| + 2 / N := by
  have h1 := clausen_part 0 1 (by norm_num) a
  have h2 := clausen_part 0 1 (by norm_num) b
  norm_num at h1 h2
  rw [h1, h2, ← part_sub]
  exact (abs_part_le _ _).trans (pLi_circle_two N hN a b)

theorem clausen_two_d (a b : ℝ) : |clausen 2 a - clausen 2 b| ≤ 58 * |a - b| + 1e-24 := by
  have h := clausen_two_mod (2 ^ 81) (by positivity) a b
  have hl : Real.log ((2 ^ 81 : ℕ) : ℝ) ≤ 57 := by
    rw [Nat.cast_pow, Real.log_pow]; push_cast
    have := Real.log_two_lt_d9; linarith
  have h3 : (2:ℝ) / ((2 ^ 81 : ℕ) : ℝ) ≤ 1e-24 := by norm_num
  generalize Real.log ((2 ^ 81 : ℕ) : ℝ) = l at *
  generalize (2:ℝ) / ((2 ^ 81 : ℕ) : ℝ) = e at *
  have := mul_le_mul_of_nonneg_right hl (abs_nonneg (a - b))
  linarith

theorem clausen_two_l (a b : ℝ) : |clausen 2 a - clausen 2 b| ≤ 99 * |a - b| + 1e-42 := by
  have h := clausen_two_mod (2 ^ 141) (by positivity) a b
  have hl : Real.log ((2 ^ 141 : ℕ) : ℝ) ≤ 98 := by
    rw [Nat.cast_pow, Real.log_pow]; push_cast
    have := Real.log_two_lt_d9; linarith
  have h3 : (2:ℝ) / ((2 ^ 141 : ℕ) : ℝ) ≤ 1e-42 := by norm_num
  generalize Real.log ((2 ^ 141 : ℕ) : ℝ) = l at *
  generalize (2:ℝ) / ((2 ^ 141 : ℕ) : ℝ) = e at *
  have := mul_le_mul_of_nonneg_right hl (abs_nonneg (a - b))
  linarith

/-- expansion about `π`, both sides -/
theorem clausen_hi' (m p : ℕ) (hp : p < 2) (hn : 2 ≤ 2 * m + 1 + p) {y : ℝ} (h1 : |y| < Real.pi) :
    ∃ s, HasSum (fun j => hiC m p j * (y ^ 2) ^ j) s ∧ clausen (2 * m + 1 + p) (Real.pi - y) = y ^ p * s := by
  rcases le_or_gt 0 y with h0 | h0
  · exact clausen_hi m p hp hn h0 (by rwa [abs_of_nonneg h0] at h1)
  · obtain ⟨s, hs, hc⟩ := clausen_hi m p hp hn (y := -y) (by linarith) (by rwa [abs_of_neg h0] at h1)
    refine ⟨s, by simpa using hs, ?_⟩
    have h2 := clausen_two_pi_sub m p hp hn (Real.pi - -y)
    rw [show 2 * Real.pi - (Real.pi - -y) = Real.pi - y by ring] at h2
    rw [h2, hc, ← mul_assoc, ← mul_pow]; congr 2; ring

end Polylog
