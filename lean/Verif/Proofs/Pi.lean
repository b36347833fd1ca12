import Mathlib.Analysis.SpecialFunctions.Trigonometric.Arctan
import Mathlib.Analysis.SpecialFunctions.Complex.Arctan
import Mathlib.Analysis.SpecificLimits.Basic

/-! # π to 50 digits (Machin's formula) -/

namespace Polylog
open Finset

/-- partial sums of the arctangent series -/
def atanQ (x : ℚ) (K : ℕ) : ℚ := ((List.range K).map fun n => (-1) ^ n * x ^ (2 * n + 1) / (2 * n + 1 : ℕ)).sum

theorem arctan_approx (x : ℚ) (h0 : 0 ≤ x) (h1 : x < 1) (K : ℕ) :
    |Real.arctan x - atanQ x K| ≤ (x : ℝ) ^ (2 * K + 1) / (1 - x ^ 2) := by
  have hx0 : (0:ℝ) ≤ x := by exact_mod_cast h0
  have hx1 : (x:ℝ) < 1 := by exact_mod_cast h1
  have hs := Real.hasSum_arctan (x := x) (by rw [Real.norm_eq_abs, abs_of_nonneg hx0]; exact hx1)
  have hs2 := (hasSum_nat_add_iff' K).mpr hs
  have e : ((atanQ x K : ℚ) : ℝ) = ∑ i ∈ range K, (-1) ^ i * (x:ℝ) ^ (2 * i + 1) / ((2 * i + 1 : ℕ) : ℝ) := by
    rw [atanQ]
    induction K with
    | zero => simp
    | succ K ih =>
      rw [List.range_succ, List.map_append, List.sum_append, Finset.sum_range_succ, Rat.cast_add, ih]
      · simp
      · exact (hasSum_nat_add_iff' K).mpr hs
  have hx2 : (x:ℝ) ^ 2 < 1 := by nlinarith
  have hgeo := (hasSum_geometric_of_lt_one (sq_nonneg (x:ℝ)) hx2).mul_left ((x:ℝ) ^ (2 * K + 1))
  rw [e, ← hs2.tsum_eq]
  have := tsum_of_norm_bounded hgeo (f := fun n => (-1) ^ (n + K) * (x:ℝ) ^ (2 * (n + K) + 1) / ((2 * (n + K) + 1 : ℕ) : ℝ)) ?_
  · rw [Real.norm_eq_abs] at this; exact this
  · intro n
    rw [norm_div, norm_mul, norm_pow, norm_neg, norm_one, one_pow, one_mul, Real.norm_eq_abs, Real.norm_eq_abs,
      abs_of_nonneg (by positivity), abs_of_nonneg (by positivity : (0:ℝ) ≤ ((2 * (n + K) + 1 : ℕ) : ℝ))]
    have : (x:ℝ) ^ (2 * (n + K) + 1) = (x:ℝ) ^ (2 * K + 1) * (x ^ 2) ^ n := by rw [← pow_mul, ← pow_add]; ring_nf
    rw [this]
    apply div_le_self (by positivity)
    exact_mod_cast Nat.le_add_left 1 _

/-- the first 50 decimals of π -/
def piQ : ℚ := 3.14159265358979323846264338327950288419716939937511

theorem atan_cert : |16 * atanQ (1/5) 40 - 4 * atanQ (1/239) 12 - piQ| ≤ 1 / 10 ^ 50 := by
  decide +kernel

theorem pi_approx : |Real.pi - piQ| ≤ 1 / 10 ^ 49 := by
  have h1 := arctan_approx (1/5) (by norm_num) (by norm_num) 40
  have h2 := arctan_approx (1/239) (by norm_num) (by norm_num) 12
  have h3 := Real.four_mul_arctan_inv_5_sub_arctan_inv_239
  have h4 : |((16 * atanQ (1/5) 40 - 4 * atanQ (1/239) 12 - piQ : ℚ) : ℝ)| ≤ 1 / 10 ^ 50 := by
    have := (Rat.cast_le (K := ℝ)).mpr atan_cert
    rw [Rat.cast_abs] at this
    simpa using this
  push_cast at h1 h2 h4
  have e1 : (5⁻¹ : ℝ) = 1 / 5 := by norm_num
  have e2 : (239⁻¹ : ℝ) = 1 / 239 := by norm_num
  rw [e1, e2] at h3
  have b1 : (1 / 5 : ℝ) ^ (2 * 40 + 1) / (1 - (1 / 5) ^ 2) ≤ 1 / 10 ^ 55 := by norm_num
  have b2 : (1 / 239 : ℝ) ^ (2 * 12 + 1) / (1 - (1 / 239) ^ 2) ≤ 1 / 10 ^ 55 := by norm_num
  have h1' := abs_le.mp (h1.trans b1)
  have h2' := abs_le.mp (h2.trans b2)
  have h4' := abs_le.mp h4
  have hpi : Real.pi = 16 * Real.arctan (1/5) - 4 * Real.arctan (1/239) := by linarith
  rw [hpi, abs_le]
  have : (1:ℝ) / 10 ^ 50 + 20 * (1 / 10 ^ 55) ≤ 1 / 10 ^ 49 := by norm_num
  constructor <;> linarith [h1'.1, h1'.2, h2'.1, h2'.2, h4'.1, h4'.2]

end Polylog
