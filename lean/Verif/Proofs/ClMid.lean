import Verif.Proofs.ClCoef
import Verif.Props.Cl1Real
import Verif.Model.Cl

/-! # The expansion used by `Cl(n, x)` for `n = 7, 8, 9` -/

noncomputable section
namespace Polylog
open Finset

/-- `L_k = |B_{2k}| / (2k (2k)!)`: coefficients of `log x - log (2 sin (x/2))` -/
abbrev lC (k : ℕ) : ℝ := loC 0 0 k

theorem lC_hasSum {x : ℝ} (h0 : 0 < x) (h1 : x < 2 * Real.pi) :
    HasSum (fun k => lC k * (x ^ 2) ^ k) (Real.log x - Real.log (2 * Real.sin (x / 2))) := by
  obtain ⟨s, hs, hc⟩ := clausen_lo 0 0 (by norm_num) h0 h1
  have h2 : 0 < Real.sin (x / 2) := Real.sin_pos_of_pos_of_lt_pi (by linarith) (by linarith)
  rw [mul_zero, zero_add, add_zero, clausen_one, norm_one_sub_exp, abs_of_pos h2] at hc
  have : s = Real.log x - Real.log (2 * Real.sin (x / 2)) := by
    simp at hc; linarith
  rw [← this]; exact hs

theorem lC_zero : lC 0 = 0 := by simp [lC, loC]

theorem lC_abs (k : ℕ) (hk : k ≠ 0) : |lC k| ≤ 2 * Real.pi * (1 / (4 * Real.pi ^ 2)) ^ k := by
  have := loC_abs 0 0 k hk
  simpa using this

/-- `D_k = (2k)! N! / (2k+N)! - 1` -/
def dC (N k : ℕ) : ℝ := ((2 * k).factorial : ℝ) * N.factorial / (2 * k + N).factorial - 1

theorem dC_abs (N k : ℕ) : |dC N k| ≤ 1 := by
  have h1 : ((2 * k).factorial : ℝ) * N.factorial ≤ (2 * k + N).factorial := by
    exact_mod_cast Nat.le_of_dvd (Nat.factorial_pos _) (Nat.factorial_mul_factorial_dvd_factorial_add (2 * k) N)
  have h2 : (0:ℝ) < (2 * k + N).factorial := by exact_mod_cast Nat.factorial_pos _
  have h3 : ((2 * k).factorial : ℝ) * N.factorial / (2 * k + N).factorial ≤ 1 := by rw [div_le_one h2]; exact h1
  have h4 : 0 ≤ ((2 * k).factorial : ℝ) * N.factorial / (2 * k + N).factorial := by positivity
  rw [dC, abs_le]; constructor <;> linarith

theorem loC_lC (m p k : ℕ) (hk : 0 < k) : loC m p (m + k) = (-1) ^ m / ((2 * m + p).factorial : ℝ) * (lC k * (1 + dC (2 * m + p) k)) := by
  rw [lC, loC_gt m p (m + k) (by omega), loC_gt 0 0 k hk, dC]
  have h1 : ((2 * m + p).factorial : ℝ) ≠ 0 := by exact_mod_cast Nat.factorial_ne_zero _
  have h2 : ((2 * k).factorial : ℝ) ≠ 0 := by exact_mod_cast Nat.factorial_ne_zero _
  have h3 : ((2 * (m + k) + p).factorial : ℝ) ≠ 0 := by exact_mod_cast Nat.factorial_ne_zero _
  have h4 : ((2 * k : ℕ) : ℝ) ≠ 0 := by exact_mod_cast (by omega : 2 * k ≠ 0)
  rw [show m + k - m = k by omega, show k - 0 = k by omega, show 2 * k + (2 * m + p) = 2 * (m + k) + p by ring, show 2 * k + 0 = 2 * k by ring, pow_add]
  field_simp
  ring

/-- the closed expansion -/
theorem clausen_mid (m p : ℕ) (hp : p < 2) {x : ℝ} (h0 : 0 < x) (h1 : x < 2 * Real.pi) :
    ∃ Q, HasSum (fun k => lC (k + 1) * dC (2 * m + p) (k + 1) * (x ^ 2) ^ (k + 1)) Q ∧
      clausen (2 * m + 1 + p) x = x ^ p * ∑ j ∈ range m, loC m p j * (x ^ 2) ^ j +
        (-1) ^ m / ((2 * m + p).factorial : ℝ) * x ^ (2 * m + p) * (((_root_.harmonic (2 * m + p) : ℚ) : ℝ) + Q - Real.log (2 * Real.sin (x / 2))) := by
  obtain ⟨s, hs, hc⟩ := clausen_lo m p hp h0 h1
  have hl := (hasSum_nat_add_iff' 1).mpr (lC_hasSum h0 h1)
  rw [Finset.sum_range_one, lC_zero, zero_mul, sub_zero] at hl
  have h2 := (hasSum_nat_add_iff' (m + 1)).mpr hs
  rw [Finset.sum_range_succ] at h2
  have hx : (x ^ 2) ^ m ≠ 0 := by positivity
  have hN : ((2 * m + p).factorial : ℝ) ≠ 0 := by exact_mod_cast Nat.factorial_ne_zero _
  have hm : ((-1:ℝ) ^ m) * (-1) ^ m = 1 := by rw [← mul_pow]; norm_num
  have hm0 : (-1:ℝ) ^ m ≠ 0 := pow_ne_zero _ (by norm_num)
  have h3 := (h2.mul_left ((-1) ^ m * ((2 * m + p).factorial : ℝ) / (x ^ 2) ^ m)).sub hl
  refine ⟨_, HasSum.congr_fun' h3 fun k => ?_, ?_⟩
  · rw [show k + (m + 1) = m + (k + 1) by ring, loC_lC m p (k + 1) (by omega), pow_add _ m (k + 1)]
    field_simp
    linear_combination (-(lC (k + 1) * (1 + dC (2 * m + p) (k + 1)))) * hm
  · rw [hc, loC, if_pos rfl]
    have e : x ^ (2 * m + p) = x ^ p * (x ^ 2) ^ m := by rw [← pow_mul]; ring
    rw [e]
    generalize ((_root_.harmonic (2 * m + p) : ℚ) : ℝ) = H
    generalize ∑ j ∈ range m, loC m p j * (x ^ 2) ^ j = A
    generalize Real.log (2 * Real.sin (x / 2)) = l
    rcases neg_one_pow_eq_or ℝ m with h | h <;> rw [h] <;> field_simp <;> ring

end Polylog
