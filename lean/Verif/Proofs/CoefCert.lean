import Verif.Proofs.PowSer
import Verif.Proofs.Pi

/-! # Certified distance between a table polynomial and a power series -/

noncomputable section
namespace Polylog
open Complex Finset

/-- `∑_{k<K} |t_k - q_k| R^k` in units of `10^-60`, rounded up -/
def perr (R : ℚ) : ℕ → List ℚ → List ℚ → ℤ
  | 0, _, _ => 0
  | K + 1, t, q => ⌈|t.headD 0 - q.headD 0| * 10 ^ 60⌉ + ⌈R * perr R K t.tail q.tail⌉

theorem perr_bound (R : ℚ) (hR : 0 ≤ R) (K : ℕ) : ∀ t q : List ℚ,
    ∑ k ∈ range K, |((t.getD k 0 : ℚ) : ℝ) - ((q.getD k 0 : ℚ) : ℝ)| * (R : ℝ) ^ k ≤ (perr R K t q : ℝ) / 10 ^ 60 := by
  induction K with
  | zero => intro t q; simp [perr]
  | succ K ih =>
    intro t q
    have h1 := ih t.tail q.tail
    rw [Finset.sum_range_succ', perr]
    have e : ∀ (l : List ℚ) k, l.tail.getD k 0 = l.getD (k + 1) 0 := by
      intro l k; cases l <;> simp
    have e0 : ∀ (l : List ℚ), l.headD 0 = l.getD 0 0 := by
      intro l; cases l <;> simp
    simp only [e] at h1
    have hR' : (0:ℝ) ≤ R := by exact_mod_cast hR
    have e2 : ∑ k ∈ range K, |((t.getD (k + 1) 0 : ℚ) : ℝ) - ((q.getD (k + 1) 0 : ℚ) : ℝ)| * (R : ℝ) ^ (k + 1)
        = R * ∑ k ∈ range K, |((t.getD (k + 1) 0 : ℚ) : ℝ) - ((q.getD (k + 1) 0 : ℚ) : ℝ)| * (R : ℝ) ^ k := by
      rw [Finset.mul_sum]; exact Finset.sum_congr rfl fun k _ => by rw [pow_succ]; ring
    rw [e2, pow_zero, mul_one, e0, e0]
    have h2 : |((t.getD 0 0 : ℚ) : ℝ) - ((q.getD 0 0 : ℚ) : ℝ)| * 10 ^ 60 ≤ (⌈|t.getD 0 0 - q.getD 0 0| * 10 ^ 60⌉ : ℤ) := by
      have := (Rat.cast_le (K := ℝ)).mpr (Int.le_ceil (|t.getD 0 0 - q.getD 0 0| * 10 ^ 60))
      push_cast at this ⊢; exact this
    have h3 : (R:ℝ) * (perr R K t.tail q.tail : ℝ) ≤ (⌈R * perr R K t.tail q.tail⌉ : ℤ) := by
      have := (Rat.cast_le (K := ℝ)).mpr (Int.le_ceil (R * perr R K t.tail q.tail))
      push_cast at this ⊢; exact this
    have h4 : (R:ℝ) * ∑ k ∈ range K, |((t.getD (k + 1) 0 : ℚ) : ℝ) - ((q.getD (k + 1) 0 : ℚ) : ℝ)| * (R : ℝ) ^ k
        ≤ R * ((perr R K t.tail q.tail : ℝ) / 10 ^ 60) := mul_le_mul_of_nonneg_left h1 hR'
    rw [Int.cast_add]
    rw [← mul_div_assoc, le_div_iff₀ (by positivity)] at h4
    rw [le_div_iff₀ (by positivity), add_mul]
    linarith

/-- `∑ |t_k| R^k`, rounded up -/
abbrev psize (R : ℚ) (K : ℕ) (t : List ℚ) : ℤ := perr R K t []

/-- Distance of a polynomial with coefficients `T` (within relative `u` of the list `t`) to the power series `a`,
whose first `K` coefficients are `q`. -/
theorem coef_cert {a : ℕ → ℂ} {C u e : ℝ} (hu : 0 ≤ u) {R : ℚ} {t q : List ℚ} {T : ℕ → ℝ} {K : ℕ}
    (ha : CoefBound a (2 * Real.pi) C) (hR : 0 ≤ R) (hR2 : R < 157 / 25)
    (ht : t.length ≤ K)
    (hqa : ∀ k < K, ‖a k - ((q.getD k 0 : ℚ) : ℂ)‖ ≤ e)
    (hT : ∀ k, |T k - ((t.getD k 0 : ℚ) : ℝ)| ≤ u * |((t.getD k 0 : ℚ) : ℝ)|)
    {z : ℂ} (hz : ‖z‖ ≤ R) {N : ℕ} (hN : t.length ≤ N) :
    ‖psum a z - ∑ k ∈ range N, (T k : ℂ) * z ^ k‖ ≤
      (perr R K t q : ℝ) / 10 ^ 60 + u * ((psize R K t : ℝ) / 10 ^ 60) + e * ∑ k ∈ range K, (R:ℝ) ^ k
        + C * ((R : ℝ) / 6.28) ^ K / (1 - (R : ℝ) / 6.28) := by
  have hpi := Real.pi_gt_d2
  have hR' : (0:ℝ) ≤ R := by exact_mod_cast hR
  have hR2' : (R:ℝ) < 6.28 := by
    have := (Rat.cast_lt (K := ℝ)).mpr hR2
    push_cast at this; linarith
  have hC := ha.nonneg
  have h1 := ha.tail (by positivity) hz (by linarith) K
  have h2 : C * ((R:ℝ) / (2 * Real.pi)) ^ K / (1 - R / (2 * Real.pi)) ≤ C * ((R : ℝ) / 6.28) ^ K / (1 - (R : ℝ) / 6.28) := by
    have hle : (R:ℝ) / (2 * Real.pi) ≤ R / 6.28 := by
      apply div_le_div_of_nonneg_left hR' (by norm_num); linarith
    have hlt : (R:ℝ) / 6.28 < 1 := by rw [div_lt_one (by norm_num)]; exact hR2'
    have : (0:ℝ) ≤ R / (2 * Real.pi) := by positivity
    apply div_le_div₀ (by positivity) _ (by linarith) (by linarith)
    gcongr
  -- make both sums range over a common K
  have hTz : ∀ k, t.length ≤ k → T k = 0 := by
    intro k hk
    have := hT k
    rw [List.getD_eq_default _ _ hk] at this
    simpa using this
  have hsum : ∑ k ∈ range N, (T k : ℂ) * z ^ k = ∑ k ∈ range K, (T k : ℂ) * z ^ k := by
    have key : ∀ M, t.length ≤ M → ∑ k ∈ range M, (T k : ℂ) * z ^ k = ∑ k ∈ range t.length, (T k : ℂ) * z ^ k := by
      intro M hM
      symm
      apply Finset.sum_subset (Finset.range_subset_range.mpr hM)
      intro k _ hk
      rw [hTz k (by simpa using hk)]; simp
    rw [key N hN, key K ht]
  rw [hsum]
  have h3 : ‖∑ k ∈ range K, a k * z ^ k - ∑ k ∈ range K, (T k : ℂ) * z ^ k‖ ≤
      ∑ k ∈ range K, (|((t.getD k 0 : ℚ) : ℝ) - ((q.getD k 0 : ℚ) : ℝ)| * (R:ℝ) ^ k
        + u * (|((t.getD k 0 : ℚ) : ℝ)| * (R:ℝ) ^ k) + e * (R:ℝ) ^ k) := by
    rw [← Finset.sum_sub_distrib]
    refine (norm_sum_le _ _).trans (Finset.sum_le_sum fun k hk => ?_)
    rw [Finset.mem_range] at hk
    rw [← sub_mul, norm_mul, norm_pow]
    have hzk : ‖z‖ ^ k ≤ (R:ℝ) ^ k := pow_le_pow_left₀ (norm_nonneg _) hz k
    have hd : ‖a k - (T k : ℂ)‖ ≤ e + |((t.getD k 0 : ℚ) : ℝ) - ((q.getD k 0 : ℚ) : ℝ)| + u * |((t.getD k 0 : ℚ) : ℝ)| := by
      have e1 : a k - (T k : ℂ) = (a k - ((q.getD k 0 : ℚ) : ℂ)) + (((((q.getD k 0 : ℚ) : ℝ) - ((t.getD k 0 : ℚ) : ℝ)) : ℝ) : ℂ)
          + (((((t.getD k 0 : ℚ) : ℝ) - T k) : ℝ) : ℂ) := by push_cast; ring
      rw [e1]
      refine (norm_add_le _ _).trans (add_le_add ((norm_add_le _ _).trans (add_le_add (hqa k hk) ?_)) ?_)
      · rw [Complex.norm_real, Real.norm_eq_abs, abs_sub_comm]
      · rw [Complex.norm_real, Real.norm_eq_abs, abs_sub_comm]; exact hT k
    have hRk : (0:ℝ) ≤ (R:ℝ) ^ k := by positivity
    calc _ ≤ ‖a k - (T k : ℂ)‖ * (R:ℝ) ^ k := mul_le_mul_of_nonneg_left hzk (norm_nonneg _)
      _ ≤ (e + |((t.getD k 0 : ℚ) : ℝ) - ((q.getD k 0 : ℚ) : ℝ)| + u * |((t.getD k 0 : ℚ) : ℝ)|) * (R:ℝ) ^ k :=
        mul_le_mul_of_nonneg_right hd hRk
      _ = _ := by ring
  rw [Finset.sum_add_distrib, Finset.sum_add_distrib, ← Finset.mul_sum, ← Finset.mul_sum] at h3
  have b1 := perr_bound R hR K t q
  have b2 := perr_bound R hR K t []
  simp only [List.getD_nil, Rat.cast_zero, sub_zero] at b2
  have b3 : u * ∑ k ∈ range K, |((t.getD k 0 : ℚ) : ℝ)| * (R:ℝ) ^ k ≤ u * ((psize R K t : ℝ) / 10 ^ 60) :=
    mul_le_mul_of_nonneg_left b2 hu
  calc _ = ‖(psum a z - ∑ k ∈ range K, a k * z ^ k) + (∑ k ∈ range K, a k * z ^ k - ∑ k ∈ range K, (T k : ℂ) * z ^ k)‖ := by
        congr 1; ring
    _ ≤ _ := norm_add_le _ _
    _ ≤ _ := by linarith

end Polylog
