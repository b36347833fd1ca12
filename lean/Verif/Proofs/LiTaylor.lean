import Verif.Proofs.RealLi
import Verif.Proofs.CertLi2
import Verif.Proofs.Pi

/-! # Taylor polynomials of `Li_n(x)/x` -/

noncomputable section
namespace Polylog

theorem liL_length (n M K : ℕ) : (liL n M K).length = K := by simp [liL]

/-- `Li_n(y)/y` and its integer Taylor polynomial -/
theorem reLi_taylor (n : ℕ) {M K : ℕ} (hM : 0 < M) {y X : ℝ} (hy0 : y ≠ 0) (hy : |y| ≤ X) (hX : X < 1) :
    |reLi (n + 2) y / y - pev (liL (n + 2) M K) y / M| ≤ (1 / M + X ^ K) / (1 - X) := by
  have hs := (reLi_hasSum n (x := y) (by linarith)).div_const y
  have hs' : HasSum (fun k : ℕ => (1 / ((k : ℝ) + 1) ^ (n + 2)) * y ^ k) (reLi (n + 2) y / y) := by
    refine HasSum.congr_fun' hs fun k => ?_
    field_simp; ring
  have := taylor_floor (a := fun k : ℕ => 1 / ((k : ℝ) + 1) ^ (n + 2)) (T := liT (n + 2) M) (K := K) (A := 1)
    (M := M) (by exact_mod_cast hM) hs' hy hX (fun k _ => liT_abs _ _ _) (fun k _ => ?_)
  · rw [one_mul] at this; exact this
  · rw [abs_of_nonneg (by positivity), div_le_one (by positivity)]
    exact one_le_pow₀ (by linarith [Nat.cast_nonneg (α := ℝ) k])

/-- crude bound used for the size of the quotient -/
theorem reLi_div_abs_le (n : ℕ) {y X : ℝ} (hy0 : y ≠ 0) (hy : |y| ≤ X) (hX : X < 1) :
    |reLi (n + 2) y / y| ≤ 1 / (1 - X) := by
  have hX0 : 0 ≤ X := le_trans (abs_nonneg _) hy
  have hs := (reLi_hasSum n (x := y) (by linarith)).div_const y
  rw [← hs.tsum_eq]
  have := tsum_of_norm_bounded (hasSum_geometric_of_lt_one hX0 hX)
    (f := fun k : ℕ => y ^ (k + 1) / ((k : ℝ) + 1) ^ (n + 2) / y) ?_
  · rw [Real.norm_eq_abs] at this; rw [one_div]; exact this
  · intro k
    have e : y ^ (k + 1) / ((k : ℝ) + 1) ^ (n + 2) / y = y ^ k / ((k : ℝ) + 1) ^ (n + 2) := by
      rw [pow_succ]; field_simp
    rw [e, norm_div, Real.norm_eq_abs, Real.norm_eq_abs, abs_pow, abs_of_nonneg (a := ((k : ℝ) + 1) ^ (n + 2)) (by positivity)]
    refine (div_le_self (by positivity) (one_le_pow₀ (by linarith [Nat.cast_nonneg (α := ℝ) k]))).trans ?_
    exact pow_le_pow_left₀ (abs_nonneg _) hy _

end Polylog
