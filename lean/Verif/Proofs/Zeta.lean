import Verif.Proofs.Euler
import Verif.Proofs.Approx
import Mathlib.NumberTheory.LSeries.RiemannZeta
import Mathlib.NumberTheory.LSeries.HurwitzZetaValues

/-! # Zeta and eta values: duplication, enclosures from the Euler transform -/

noncomputable section
namespace Polylog
open Filter Topology Set Finset

theorem taylor_floorD {a : ℕ → ℝ} {T : ℕ → ℤ} {K : ℕ} {M A D x X f : ℝ} (hM : 0 < M) (hD : 0 ≤ D)
    (hs : HasSum (fun k => a k * x ^ k) f) (hx : |x| ≤ X) (hX : X < 1)
    (hT : ∀ k < K, |(T k : ℝ) - M * a k| ≤ D) (hA : ∀ k, K ≤ k → |a k| ≤ A) :
    |f - pev ((List.range K).map T) x / M| ≤ (D / M + A * X ^ K) / (1 - X) := by
  have hX0 : 0 ≤ X := le_trans (abs_nonneg _) hx
  have h1X : 0 < 1 - X := by linarith
  have hgeo := hasSum_geometric_of_lt_one hX0 hX
  have hA0 : 0 ≤ A := le_trans (abs_nonneg _) (hA K le_rfl)
  have hs2 := (hasSum_nat_add_iff' K).mpr hs
  have htail : |f - ∑ k ∈ range K, a k * x ^ k| ≤ A * X ^ K * (1 - X)⁻¹ := by
    rw [← hs2.tsum_eq]
    have hb : ∀ k, ‖a (k + K) * x ^ (k + K)‖ ≤ A * X ^ K * X ^ k := by
      intro k
      rw [norm_mul, norm_pow, Real.norm_eq_abs, Real.norm_eq_abs, mul_assoc, ← pow_add, add_comm K k]
      exact mul_le_mul (hA _ (by omega)) (pow_le_pow_left₀ (abs_nonneg _) hx _) (by positivity) hA0
    have := tsum_of_norm_bounded (hgeo.mul_left (A * X ^ K)) hb
    rwa [Real.norm_eq_abs] at this
  have hhead : |∑ k ∈ range K, a k * x ^ k - pev ((List.range K).map T) x / M| ≤ D / M * (1 - X)⁻¹ := by
    rw [pev_range_map, Finset.sum_div, ← Finset.sum_sub_distrib]
    refine (Finset.abs_sum_le_sum_abs _ _).trans ?_
    have : ∀ k ∈ range K, |a k * x ^ k - (T k : ℝ) * x ^ k / M| ≤ D / M * X ^ k := by
      intro k hk
      have e : a k * x ^ k - (T k : ℝ) * x ^ k / M = -((T k : ℝ) - M * a k) * x ^ k / M := by
        field_simp; ring
      rw [e, abs_div, abs_mul, abs_neg, abs_of_pos hM, abs_pow, div_mul_eq_mul_div]
      apply div_le_div_of_nonneg_right _ hM.le
      exact mul_le_mul (hT k (by simpa using hk)) (pow_le_pow_left₀ (abs_nonneg _) hx _) (by positivity) hD
    refine (Finset.sum_le_sum this).trans ?_
    rw [← Finset.mul_sum]
    apply mul_le_mul_of_nonneg_left _ (by positivity)
    exact sum_le_hasSum _ (fun i _ => by positivity) hgeo
  calc |f - pev ((List.range K).map T) x / M|
      ≤ |f - ∑ k ∈ range K, a k * x ^ k| + |∑ k ∈ range K, a k * x ^ k - pev ((List.range K).map T) x / M| := abs_sub_le _ _ _
    _ ≤ A * X ^ K * (1 - X)⁻¹ + D / M * (1 - X)⁻¹ := add_le_add htail hhead
    _ = _ := by rw [div_eq_mul_inv]; ring

/-! ## Duplication -/

theorem reLi_neg_one_eq (n : ℕ) : reLi (n + 2) (-1) = -((1 - (1 / 2) ^ (n + 1)) * reLi (n + 2) 1) := by
  have h1 := reLi_hasSum n (x := 1) (by simp)
  have h2 := reLi_hasSum n (x := -1) (by simp)
  have h3 := h1.add h2
  -- only even k+1 survive
  have h4 : HasSum (fun k : ℕ => 2 * (1 / 2) ^ (n + 2) * (1 ^ (k + 1) / ((k:ℝ) + 1) ^ (n + 2))) (2 * (1 / 2) ^ (n + 2) * reLi (n + 2) 1) :=
    h1.mul_left _
  have h5 : HasSum (fun k : ℕ => (1:ℝ) ^ (k + 1) / ((k:ℝ) + 1) ^ (n + 2) + (-1) ^ (k + 1) / ((k:ℝ) + 1) ^ (n + 2))
      (0 + 2 * (1 / 2) ^ (n + 2) * reLi (n + 2) 1) := by
    refine HasSum.even_add_odd (f := fun k : ℕ => (1:ℝ) ^ (k + 1) / ((k:ℝ) + 1) ^ (n + 2) + (-1) ^ (k + 1) / ((k:ℝ) + 1) ^ (n + 2)) ?_ ?_
    · have : (fun k : ℕ => (1:ℝ) ^ (2 * k + 1) / (((2 * k : ℕ):ℝ) + 1) ^ (n + 2) + (-1) ^ (2 * k + 1) / (((2 * k : ℕ):ℝ) + 1) ^ (n + 2)) = fun _ => 0 := by
        ext k
        have e : (-1:ℝ) ^ (2 * k + 1) = -1 := by rw [pow_succ, pow_mul]; norm_num
        rw [one_pow, e]; ring
      rw [this]; exact hasSum_zero
    · refine HasSum.congr_fun' h4 fun k => ?_
      have e : (-1:ℝ) ^ (2 * k + 1 + 1) = 1 := by rw [show 2 * k + 1 + 1 = 2 * (k + 1) by ring, pow_mul]; norm_num
      have e2 : (((2 * k + 1 : ℕ) : ℝ) + 1) = 2 * (k + 1) := by push_cast; ring
      rw [e, one_pow, one_pow, e2, mul_pow, div_pow, one_pow]
      field_simp; norm_num
  have := h3.unique h5
  have e : 2 * (1 / 2 : ℝ) ^ (n + 2) = (1 / 2) ^ (n + 1) := by rw [pow_succ (1/2 : ℝ) (n+1)]; ring
  rw [e] at this
  linarith

theorem pLi_one_eq_zeta (n : ℕ) : pLi (n + 2) 1 = riemannZeta ((n : ℂ) + 2) := by
  have h := pLi_hasSum n 1 (by simp)
  rw [zeta_eq_tsum_one_div_nat_add_one_cpow (by simp; linarith [Nat.cast_nonneg (α := ℝ) n]), ← h.tsum_eq]
  congr 1; ext k
  rw [one_pow]
  congr 1
  rw [show ((n : ℂ) + 2) = ((n + 2 : ℕ) : ℂ) by push_cast; rfl, Complex.cpow_natCast]

theorem reLi_one_eq_zeta (n : ℕ) : ((reLi (n + 2) 1 : ℝ) : ℂ) = riemannZeta ((n : ℂ) + 2) := by
  rw [← pLi_one_eq_zeta]
  have := pLi_real_of_abs_le n (x := 1) (by simp)
  rw [← this]; norm_num

/-! ## Enclosures -/

/-- approximation of `eta(n+1)` -/
def etaQ (n M K : ℕ) : ℚ := pevQ ((eulL n M K).map (fun m : ℕ => (m : ℤ))) (1 / 2) / (2 * M)

theorem etaQ_approx (n M K : ℕ) (hM : 0 < M) :
    |-reLi (n + 1) (-1) - ((etaQ n M K : ℚ) : ℝ)| ≤ (n + 1) / M + (1 / 2) ^ K := by
  have h := reLi_euler_hasSum n (w := 1/2) (by norm_num) (by norm_num)
  have e : (1 / 2 : ℝ) / (1 / 2 - 1) = -1 := by norm_num
  rw [e] at h
  have hM' : (0:ℝ) < M := by exact_mod_cast hM
  have h2 := taylor_floorD (T := fun k => (((eulL n M K).getD k 0 : ℕ) : ℤ)) (K := K) (M := M) (A := 1) (D := n + 1) (X := 1/2) hM'
    (by positivity) h (by norm_num) (by norm_num)
    (fun k hk => by have := eulL_approx n M K k hk; push_cast at this ⊢; exact this)
    (fun k _ => by rw [abs_of_nonneg (eul_nonneg n k)]; exact eul_le_one n k)
  have el : (List.range K).map (fun k => (((eulL n M K).getD k 0 : ℕ) : ℤ)) = (eulL n M K).map (fun m : ℕ => (m : ℤ)) := by
    apply List.ext_getElem
    · simp [eulL_length]
    · intro i h1 h2
      simp only [List.length_map, List.length_range] at h1
      have h3 : i < (eulL n M K).length := by rw [eulL_length]; exact h1
      simp only [List.getElem_map, List.getElem_range, List.getD_eq_getElem _ _ h3]
  rw [el] at h2
  have e3 : (1/2 : ℝ) = ((1/2 : ℚ) : ℝ) := by norm_num
  rw [etaQ, Rat.cast_div, ← pev_rat]
  push_cast
  rw [abs_le] at h2 ⊢
  have e4 : pev ((eulL n M K).map fun m : ℕ => (m:ℤ)) (1/2) / (2 * M) = (pev ((eulL n M K).map fun m : ℕ => (m:ℤ)) (1/2) / M) / 2 := by ring
  rw [e4]
  norm_num at h2 ⊢
  constructor <;> linarith [h2.1, h2.2]

/-- approximation of `zeta(n+2)` -/
def zetaQ (n M K : ℕ) : ℚ := etaQ (n + 1) M K / (1 - (1 / 2) ^ (n + 1))

theorem zetaQ_approx (n M K : ℕ) (hM : 0 < M) :
    |reLi (n + 2) 1 - ((zetaQ n M K : ℚ) : ℝ)| ≤ 2 * ((n + 2) / M + (1 / 2) ^ K) := by
  have h := etaQ_approx (n + 1) M K hM
  rw [reLi_neg_one_eq] at h
  have hp : (1 / 2 : ℝ) ^ (n + 1) ≤ 1 / 2 := by
    calc (1 / 2 : ℝ) ^ (n + 1) ≤ (1/2) ^ 1 := pow_le_pow_of_le_one (by norm_num) (by norm_num) (by omega)
      _ = _ := by norm_num
  have hd : (1:ℝ)/2 ≤ 1 - (1 / 2) ^ (n + 1) := by linarith
  have hd0 : (0:ℝ) < 1 - (1 / 2) ^ (n + 1) := by linarith
  rw [zetaQ]
  push_cast
  set E := ((etaQ (n + 1) M K : ℚ) : ℝ)
  set d := 1 - (1 / 2 : ℝ) ^ (n + 1)
  have e : reLi (n + 2) 1 - E / d = (-(-(d * reLi (n + 2) 1)) - E) / d := by field_simp
  have hb : 0 ≤ ((n:ℝ) + 2) / M + (1 / 2) ^ K := by positivity
  push_cast at h
  rw [e, abs_div, abs_of_pos hd0, div_le_iff₀ hd0]
  refine h.trans ?_
  rw [show (n:ℝ) + 1 + 1 = n + 2 by ring]
  nlinarith

end Polylog
