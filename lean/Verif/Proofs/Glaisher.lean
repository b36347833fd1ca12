import Verif.Proofs.ClLip

/-! # Glaisher–Clausen functions: polynomial on `[0, 2π)`, parity, periodicity, moduli of continuity

The order is written `2m+p` with `p = 0` (cosine series) or `p = 1` (sine series). -/

noncomputable section
namespace Polylog
open Complex Finset

theorem glaisher_part (m p : ℕ) (hp : p < 2) (x : ℝ) : glaisher (2 * m + p) x = part p (pLi (2 * m + p) (exp (x * I))) := by
  rw [glaisher, part]
  rcases (by omega : p = 0 ∨ p = 1) with rfl | rfl
  · rw [if_pos (by omega), if_pos rfl]
  · rw [if_neg (by omega), if_neg (by omega)]

/-- coefficients of the polynomial of order `ν + 1 = 2m+p` -/
def glC (m p : ℕ) (ν : ℕ) (k : ℕ) : ℝ :=
  if k % 2 = p ∧ k < ν then (-1) ^ (k / 2) * reLi (ν + 1 - k) 1 / k.factorial
  else if k = ν then (-1) ^ m * (Real.pi / 2) / ν.factorial
  else if k = ν + 1 then -((-1) ^ m / 2) / (ν + 1).factorial
  else 0

/-- `Sl_{ν+1}` as a polynomial -/
theorem glaisher_poly_pos (m p ν : ℕ) (hp : p < 2) (hν : 2 * m + p = ν + 1) {x : ℝ} (h0 : 0 < x) (h1 : x < 2 * Real.pi) :
    glaisher (ν + 1) x = ∑ k ∈ range (ν + 2), glC m p ν k * x ^ k := by
  have hu : (x : ℂ) * I ∈ slitDisc := by
    refine ⟨?_, ?_⟩
    · simpa [abs_of_pos h0] using h1
    · rw [mem_negPlane]; right; simpa using h0.ne'
  have hL := pLi_exp ν _ hu
  obtain ⟨C, hC⟩ := zcoef_bound_nat (ν + 1)
  have hs := hC.hasSum (by positivity) (slitDisc_norm hu)
  have hs2 := part_hasSum p hs
  -- the terms
  have hterm : ∀ k : ℕ, part p (zcoef ((ν + 1 : ℕ) : ℤ) k * ((x : ℂ) * I) ^ k) =
      if k % 2 = p ∧ k < ν then (-1) ^ (k / 2) * reLi (ν + 1 - k) 1 / k.factorial * x ^ k
      else if k = ν + 1 then -((-1) ^ m / 2) / (ν + 1).factorial * x ^ k else 0 := by
    intro k
    by_cases hk : k % 2 = p
    · obtain ⟨j, rfl⟩ : ∃ j, k = 2 * j + p := ⟨k / 2, by omega⟩
      rw [zcoef_real, xI_pow, ← mul_assoc, ← Complex.ofReal_mul, part_I p hp]
      have hxk : x ^ (2 * j + p) = (x ^ 2) ^ j * x ^ p := by rw [pow_add, pow_mul]
      have hdiv : (2 * j + p) / 2 = j := by omega
      rw [hxk, hdiv]
      by_cases hlt : 2 * j + p < ν
      · rw [if_pos ⟨hk, hlt⟩, zcoef, if_neg (by push_cast; omega)]
        obtain ⟨i, hi⟩ : ∃ i, ν + 1 - (2 * j + p) = i + 2 := ⟨ν - 1 - (2 * j + p), by omega⟩
        have e1 : ((((ν + 1 : ℕ) : ℤ) - ((2 * j + p : ℕ):ℤ) : ℤ) : ℂ) = (i : ℂ) + 2 := by
          have : ((ν + 1 : ℕ) : ℤ) - ((2 * j + p : ℕ):ℤ) = (i:ℤ) + 2 := by omega
          rw [this]; push_cast; rfl
        rw [e1, ← reLi_one_eq_zeta, hi, ← Complex.ofReal_natCast, ← Complex.ofReal_div, Complex.ofReal_re]
        ring
      · rw [if_neg (by tauto), zcoef]
        have h2 : ¬ (((ν + 1 : ℕ) : ℤ) - ((2 * j + p : ℕ) : ℤ) = 1) := by omega
        rw [if_neg h2]
        by_cases he : 2 * j + p = ν + 1
        · rw [if_pos he, he, sub_self]
          have hj : j = m := by omega
          subst hj
          rw [Int.cast_zero, riemannZeta_zero, show (-1 / 2 : ℂ) / ((ν + 1).factorial : ℂ) = (((-1 / 2) / (ν + 1).factorial : ℝ) : ℂ) by push_cast; rfl,
            Complex.ofReal_re]
          ring
        · rw [if_neg he]
          obtain ⟨i, hi⟩ : ∃ i, 2 * j + p = ν + 1 + 2 * (i + 1) := ⟨j - m - 1, by omega⟩
          have e1 : ((((ν + 1 : ℕ) : ℤ) - ((2 * j + p : ℕ):ℤ) : ℤ) : ℂ) = -2 * ((i:ℂ) + 1) := by
            rw [hi]; push_cast; ring
          rw [e1, riemannZeta_neg_two_mul_nat_add_one]
          simp
    · rw [if_neg (by tauto), if_neg (by omega), zcoef_real]
      exact part_I' p k hp (fun j h => hk (by omega)) _ _
  have hs3 : HasSum (fun k : ℕ => if k % 2 = p ∧ k < ν then (-1) ^ (k / 2) * reLi (ν + 1 - k) 1 / k.factorial * x ^ k
      else if k = ν + 1 then -((-1) ^ m / 2) / (ν + 1).factorial * x ^ k else 0)
      (part p (psum (zcoef ((ν + 1 : ℕ) : ℤ)) ((x : ℂ) * I))) := by
    refine HasSum.congr_fun' hs2 fun k => ?_
    exact (hterm k).symm
  have hfin := hasSum_sum_of_ne_finset_zero (L := SummationFilter.unconditional ℕ) (s := range (ν + 2)) (f := fun k : ℕ => if k % 2 = p ∧ k < ν then (-1) ^ (k / 2) * reLi (ν + 1 - k) 1 / k.factorial * x ^ k
      else if k = ν + 1 then -((-1) ^ m / 2) / (ν + 1).factorial * x ^ k else (0:ℝ)) (by
    intro k hk
    rw [Finset.mem_range] at hk
    rw [if_neg (by omega), if_neg (by omega)])
  have hval := hs3.unique hfin
  have hg : glaisher (ν + 1) x = part p (pLi (ν + 1) (exp (x * I))) := by rw [← hν]; exact glaisher_part m p hp x
  rw [hg, hL, part_add, hval]
  have e : singU ν ((x : ℂ) * I) = ((x ^ ν / ν.factorial * (((_root_.harmonic ν : ℚ) : ℝ) - Real.log x) : ℝ) : ℂ) * I ^ ν +
      ((x ^ ν / ν.factorial * (Real.pi / 2) : ℝ) : ℂ) * I ^ (ν + 1) := by
    rw [singU, log_neg_xI h0, mul_pow]
    push_cast; ring
  have hI : I ^ (ν + 1) = (((-1) ^ m : ℝ) : ℂ) * I ^ p := by
    rw [← hν, pow_add, pow_mul, I_sq]; push_cast; ring
  have e1 : ∀ r : ℝ, part p ((r : ℂ) * I ^ (ν + 1)) = r * (-1) ^ m := by
    intro r
    rw [hI, ← mul_assoc, ← Complex.ofReal_mul, part_I p hp]
  have e2 : ∀ r : ℝ, part p ((r : ℂ) * I ^ ν) = 0 := by
    intro r
    have := part_I' p ν hp (fun j h => by omega) r 1
    simpa using this
  rw [e, part_add, e1, e2, zero_add]
  have hsplit : ∀ k ∈ range (ν + 2), glC m p ν k * x ^ k = (if k % 2 = p ∧ k < ν then (-1) ^ (k / 2) * reLi (ν + 1 - k) 1 / k.factorial * x ^ k
      else if k = ν + 1 then -((-1) ^ m / 2) / (ν + 1).factorial * x ^ k else (0:ℝ)) + (if k = ν then (-1) ^ m * (Real.pi / 2) / ν.factorial * x ^ ν else 0) := by
    intro k _
    rw [glC]
    by_cases h1 : k % 2 = p ∧ k < ν
    · rw [if_pos h1, if_pos h1, if_neg (by omega), add_zero]
    · rw [if_neg h1, if_neg h1]
      by_cases h2 : k = ν
      · rw [if_pos h2, if_neg (by omega), if_pos h2, zero_add, h2]
      · rw [if_neg h2, if_neg h2, add_zero]
        split_ifs
        · rfl
        · rw [zero_mul]
  rw [Finset.sum_congr rfl hsplit, Finset.sum_add_distrib, Finset.sum_ite_eq' (range (ν + 2)) ν, if_pos (Finset.mem_range.mpr (by omega))]
  ring

theorem glaisher_zero_even (m : ℕ) : glaisher (2 * (m + 1)) 0 = reLi (2 * m + 2) 1 := by
  rw [glaisher, if_pos (by omega), reLi]
  simp [mul_add]

theorem pLi_real_conj (n : ℕ) (x : ℝ) : part 1 (pLi (n + 2) (exp ((-x : ℝ) * I))) = -part 1 (pLi (n + 2) (exp (x * I))) := by
  rw [exp_neg_I, pLi_conj_unit n (norm_exp_I x).le, part_conj 1 (by norm_num)]; ring

theorem glaisher_neg (m p : ℕ) (hp : p < 2) (hn : 2 ≤ 2 * m + p) (x : ℝ) :
    glaisher (2 * m + p) (-x) = (-1) ^ p * glaisher (2 * m + p) x := by
  obtain ⟨n, hn⟩ : ∃ n, 2 * m + p = n + 2 := ⟨2 * m + p - 2, by omega⟩
  rw [glaisher_part m p hp, glaisher_part m p hp, hn, exp_neg_I, pLi_conj_unit n (norm_exp_I x).le, part_conj p hp]

theorem glaisher_sub_two_pi (n : ℕ) (x : ℝ) : glaisher n (x - 2 * Real.pi) = glaisher n x := by
  have : exp (((x - 2 * Real.pi : ℝ) : ℂ) * I) = exp (x * I) := by
    have h := Complex.exp_periodic.sub_eq ((x : ℂ) * I)
    rw [← h]; congr 1; push_cast; ring
  rw [glaisher, glaisher, this]

theorem glaisher_sub_nat (n k : ℕ) (x : ℝ) : glaisher n (x - 2 * Real.pi * k) = glaisher n x := by
  induction k with
  | zero => simp
  | succ k ih =>
    rw [← ih, ← glaisher_sub_two_pi n (x - 2 * Real.pi * k)]
    congr 1; push_cast; ring

theorem glaisher_poly (m p ν : ℕ) (hp : p < 2) (hν : 2 * m + p = ν + 1) (hn : 1 ≤ ν) {x : ℝ} (h0 : 0 ≤ x) (h1 : x < 2 * Real.pi) :
    glaisher (ν + 1) x = ∑ k ∈ range (ν + 2), glC m p ν k * x ^ k := by
  rcases h0.lt_or_eq with h | rfl
  · exact glaisher_poly_pos m p ν hp hν h h1
  · rw [Finset.sum_eq_single 0 (fun k _ hk => by rw [zero_pow hk, mul_zero]) (by simp), pow_zero, mul_one]
    rcases (by omega : p = 0 ∨ p = 1) with rfl | rfl
    · obtain ⟨m, rfl⟩ : ∃ m', m = m' + 1 := ⟨m - 1, by omega⟩
      have hz := glaisher_zero_even m
      rw [show 2 * (m + 1) = ν + 1 by omega] at hz
      rw [hz, glC, if_pos ⟨rfl, by omega⟩]
      simp [show 2 * m + 2 = ν + 1 by omega]
    · have h := glaisher_neg m 1 (by norm_num) (by omega) 0
      rw [neg_zero, pow_one, hν] at h
      rw [glC, if_neg (by omega), if_neg (by omega), if_neg (by omega)]
      linarith

theorem glaisher_lip (m p : ℕ) (hp : p < 2) (hn : 3 ≤ 2 * m + p) (a b : ℝ) :
    |glaisher (2 * m + p) a - glaisher (2 * m + p) b| ≤ 2 * |a - b| := by
  rw [glaisher_part m p hp, glaisher_part m p hp, ← part_sub]
  refine (abs_part_le _ _).trans ?_
  obtain ⟨n, hn⟩ : ∃ n, 2 * m + p = n + 3 := ⟨2 * m + p - 3, by omega⟩
  rw [hn]; exact pLi_circle_lip n a b

theorem glaisher_two_d (a b : ℝ) : |glaisher 2 a - glaisher 2 b| ≤ 58 * |a - b| + 1e-24 := by
  have h1 := glaisher_part 1 0 (by norm_num) a
  have h2 := glaisher_part 1 0 (by norm_num) b
  norm_num at h1 h2
  rw [h1, h2, ← part_sub]
  refine (abs_part_le _ _).trans ((pLi_circle_two (2 * 10 ^ 24) (by norm_num) a b).trans ?_)
  have hl : Real.log ((2 * 10 ^ 24 : ℕ) : ℝ) ≤ 57 := by
    rw [Real.log_le_iff_le_exp (by norm_num)]
    have h := Real.exp_one_gt_d9
    have h2 : Real.exp 57 = Real.exp 1 ^ 57 := by rw [← Real.exp_nat_mul]; norm_num
    rw [h2]
    refine le_trans ?_ (pow_le_pow_left₀ (by norm_num) h.le 57)
    norm_num
  have h3 : (2:ℝ) / ((2 * 10 ^ 24 : ℕ) : ℝ) = 1e-24 := by norm_num
  rw [h3]
  have := mul_le_mul_of_nonneg_right hl (abs_nonneg (a - b))
  generalize Real.log ((2 * 10 ^ 24 : ℕ) : ℝ) = l at *
  linarith

end Polylog
