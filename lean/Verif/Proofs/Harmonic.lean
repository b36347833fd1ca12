import Verif.Proofs.ClCoef
import Mathlib.NumberTheory.Harmonic.EulerMascheroni
import Mathlib.Analysis.SpecialFunctions.Log.Deriv

/-! # Harmonic numbers: the asymptotic expansion used by `harmonic.cpp` and Euler's constant
(polynomials generated by tools/gendg.py) -/

noncomputable section
namespace Polylog
open Finset

/-- `∑ B_{2k}/(2k) t^{2k}`, k = 1..8 -/
def bsum (t : ℝ) : ℝ := (1/12) * t ^ 2 + (-1/120) * t ^ 4 + (1/252) * t ^ 6 + (-1/240) * t ^ 8 + (1/132) * t ^ 10 + (-691/32760) * t ^ 12 + (1/12) * t ^ 14 + (-3617/8160) * t ^ 16

/-- the rational part of one step -/
theorem dg_poly {t : ℝ} (h : 0 < t) :
    (t - ((1) * t ^ 1 + (-1/2) * t ^ 2 + (1/3) * t ^ 3 + (-1/4) * t ^ 4 + (1/5) * t ^ 5 + (-1/6) * t ^ 6 + (1/7) * t ^ 7 + (-1/8) * t ^ 8 + (1/9) * t ^ 9 + (-1/10) * t ^ 10 + (1/11) * t ^ 11 + (-1/12) * t ^ 12 + (1/13) * t ^ 13 + (-1/14) * t ^ 14 + (1/15) * t ^ 15 + (-1/16) * t ^ 16 + (1/17) * t ^ 17 + (-1/18) * t ^ 18 + (1/19) * t ^ 19 + (-1/20) * t ^ 20 + (1/21) * t ^ 21 + (-1/22) * t ^ 22 + (1/23) * t ^ 23 + (-1/24) * t ^ 24) + (1 / 2) * (t / (1 + t) - t) + (bsum (t / (1 + t)) - bsum t)) * (1 + t) ^ 18 = t ^ 19 * ((43867/798) * t ^ 0 + (745739/1596) * t ^ 1 + (258455371/131670) * t ^ 2 + (94392791/17556) * t ^ 3 + (768950069/72105) * t ^ 4 + (27893699639/1730520) * t ^ 5 + (500619033511/26246220) * t ^ 6 + (85482664741/4772040) * t ^ 7 + (88022211049/6561555) * t ^ 8 + (210082118993/26246220) * t ^ 9 + (16737666573/4374370) * t ^ 10 + (11410084201/7158060) * t ^ 11 + (171419657/198835) * t ^ 12 + (1260303637/1468320) * t ^ 13 + (6528202467/6537520) * t ^ 14 + (38966845169/39225120) * t ^ 15 + (2277544727/2860165) * t ^ 16 + (3076684153/6056820) * t ^ 17 + (85673411/336490) * t ^ 18 + (3477151/35420) * t ^ 19 + (149393/5313) * t ^ 20 + (11411/2024) * t ^ 21 + (65/92) * t ^ 22 + (1/24) * t ^ 23) := by
  have h1 : 1 + t ≠ 0 := by positivity
  rw [bsum, bsum]
  field_simp
  ring

theorem log_ser {t : ℝ} (h0 : 0 < t) (h1 : t ≤ 1 / 7) : |Real.log (1 + t) - ((1) * t ^ 1 + (-1/2) * t ^ 2 + (1/3) * t ^ 3 + (-1/4) * t ^ 4 + (1/5) * t ^ 5 + (-1/6) * t ^ 6 + (1/7) * t ^ 7 + (-1/8) * t ^ 8 + (1/9) * t ^ 9 + (-1/10) * t ^ 10 + (1/11) * t ^ 11 + (-1/12) * t ^ 12 + (1/13) * t ^ 13 + (-1/14) * t ^ 14 + (1/15) * t ^ 15 + (-1/16) * t ^ 16 + (1/17) * t ^ 17 + (-1/18) * t ^ 18 + (1/19) * t ^ 19 + (-1/20) * t ^ 20 + (1/21) * t ^ 21 + (-1/22) * t ^ 22 + (1/23) * t ^ 23 + (-1/24) * t ^ 24)| ≤ 7 / 6 * t ^ 25 := by
  have h := Real.abs_log_sub_add_sum_range_le (x := -t) (by rw [abs_neg, abs_of_pos h0]; linarith) 24
  rw [abs_neg, abs_of_pos h0, sub_neg_eq_add] at h
  have e : (∑ i ∈ range 24, (-t) ^ (i + 1) / ((i:ℝ) + 1)) = -((1) * t ^ 1 + (-1/2) * t ^ 2 + (1/3) * t ^ 3 + (-1/4) * t ^ 4 + (1/5) * t ^ 5 + (-1/6) * t ^ 6 + (1/7) * t ^ 7 + (-1/8) * t ^ 8 + (1/9) * t ^ 9 + (-1/10) * t ^ 10 + (1/11) * t ^ 11 + (-1/12) * t ^ 12 + (1/13) * t ^ 13 + (-1/14) * t ^ 14 + (1/15) * t ^ 15 + (-1/16) * t ^ 16 + (1/17) * t ^ 17 + (-1/18) * t ^ 18 + (1/19) * t ^ 19 + (-1/20) * t ^ 20 + (1/21) * t ^ 21 + (-1/22) * t ^ 22 + (1/23) * t ^ 23 + (-1/24) * t ^ 24) := by
    simp only [Finset.sum_range_succ, Finset.sum_range_zero]
    push_cast
    ring
  rw [e, neg_add_eq_sub] at h
  refine h.trans ?_
  rw [div_le_iff₀ (by linarith)]
  have : 0 < t ^ 25 := by positivity
  nlinarith

theorem dg_ineq {t : ℝ} (h0 : 0 < t) (h1 : t ≤ 1 / 7) : t ^ 19 * ((43867/798) * t ^ 0 + (745739/1596) * t ^ 1 + (258455371/131670) * t ^ 2 + (94392791/17556) * t ^ 3 + (768950069/72105) * t ^ 4 + (27893699639/1730520) * t ^ 5 + (500619033511/26246220) * t ^ 6 + (85482664741/4772040) * t ^ 7 + (88022211049/6561555) * t ^ 8 + (210082118993/26246220) * t ^ 9 + (16737666573/4374370) * t ^ 10 + (11410084201/7158060) * t ^ 11 + (171419657/198835) * t ^ 12 + (1260303637/1468320) * t ^ 13 + (6528202467/6537520) * t ^ 14 + (38966845169/39225120) * t ^ 15 + (2277544727/2860165) * t ^ 16 + (3076684153/6056820) * t ^ 17 + (85673411/336490) * t ^ 18 + (3477151/35420) * t ^ 19 + (149393/5313) * t ^ 20 + (11411/2024) * t ^ 21 + (65/92) * t ^ 22 + (1/24) * t ^ 23) + 14 * t ^ 25 ≤ 3.06 * t ^ 19 * (18 * t ^ 0 + 153 * t ^ 1 + 816 * t ^ 2 + 3060 * t ^ 3 + 8568 * t ^ 4 + 18564 * t ^ 5 + 31824 * t ^ 6 + 43758 * t ^ 7 + 48620 * t ^ 8 + 43758 * t ^ 9 + 31824 * t ^ 10 + 18564 * t ^ 11 + 8568 * t ^ 12 + 3060 * t ^ 13 + 816 * t ^ 14 + 153 * t ^ 15 + 18 * t ^ 16 + 1 * t ^ 17) := by
  have e2 : t ^ 19 * ((43867/798) * t ^ 0 + (745739/1596) * t ^ 1 + (258455371/131670) * t ^ 2 + (94392791/17556) * t ^ 3 + (768950069/72105) * t ^ 4 + (27893699639/1730520) * t ^ 5 + (500619033511/26246220) * t ^ 6 + (85482664741/4772040) * t ^ 7 + (88022211049/6561555) * t ^ 8 + (210082118993/26246220) * t ^ 9 + (16737666573/4374370) * t ^ 10 + (11410084201/7158060) * t ^ 11 + (171419657/198835) * t ^ 12 + (1260303637/1468320) * t ^ 13 + (6528202467/6537520) * t ^ 14 + (38966845169/39225120) * t ^ 15 + (2277544727/2860165) * t ^ 16 + (3076684153/6056820) * t ^ 17 + (85673411/336490) * t ^ 18 + (3477151/35420) * t ^ 19 + (149393/5313) * t ^ 20 + (11411/2024) * t ^ 21 + (65/92) * t ^ 22 + (1/24) * t ^ 23) + 14 * t ^ 25 = t ^ 19 * ((43867/798) * t ^ 0 + (745739/1596) * t ^ 1 + (258455371/131670) * t ^ 2 + (94392791/17556) * t ^ 3 + (768950069/72105) * t ^ 4 + (27893699639/1730520) * t ^ 5 + (500619033511/26246220) * t ^ 6 + (85482664741/4772040) * t ^ 7 + (88022211049/6561555) * t ^ 8 + (210082118993/26246220) * t ^ 9 + (16737666573/4374370) * t ^ 10 + (11410084201/7158060) * t ^ 11 + (171419657/198835) * t ^ 12 + (1260303637/1468320) * t ^ 13 + (6528202467/6537520) * t ^ 14 + (38966845169/39225120) * t ^ 15 + (2277544727/2860165) * t ^ 16 + (3076684153/6056820) * t ^ 17 + (85673411/336490) * t ^ 18 + (3477151/35420) * t ^ 19 + (149393/5313) * t ^ 20 + (11411/2024) * t ^ 21 + (65/92) * t ^ 22 + (1/24) * t ^ 23 + 14 * t ^ 6) := by ring
  rw [e2, mul_comm (3.06:ℝ), mul_assoc]
  refine mul_le_mul_of_nonneg_left ?_ (by positivity)
  have hj : ∀ j : ℕ, 0 ≤ t ^ j := fun j => by positivity
  have hs : ∀ j : ℕ, 6 ≤ j → t ^ j ≤ 1 / 117649 := fun j hj => by
    calc t ^ j ≤ (1 / 7) ^ j := pow_le_pow_left₀ h0.le h1 j
      _ ≤ (1 / 7) ^ 6 := pow_le_pow_of_le_one (by norm_num) (by norm_num) hj
      _ = 1 / 117649 := by norm_num
  have hs2 : ∀ j : ℕ, 15 ≤ j → t ^ j ≤ 1 / 1000000000 := fun j hj => by
    calc t ^ j ≤ (1 / 7) ^ j := pow_le_pow_left₀ h0.le h1 j
      _ ≤ (1 / 7) ^ 15 := pow_le_pow_of_le_one (by norm_num) (by norm_num) hj
      _ ≤ _ := by norm_num
  linarith [hj 0, hj 1, hj 2, hj 3, hj 4, hj 5, hj 6, hj 7, hj 8, hj 9, hj 10, hj 11, hj 12, hj 13, hj 14, hj 15, hj 16, hj 17, hj 18, hj 19, hj 20, hj 21, hj 22, hj 23, hs 6 (by norm_num), hs2 15 (by norm_num), hs2 16 (by norm_num), hs2 17 (by norm_num), hs2 18 (by norm_num), hs2 19 (by norm_num), hs2 20 (by norm_num), hs2 21 (by norm_num), hs2 22 (by norm_num), hs2 23 (by norm_num)]


theorem dg_rhs {t : ℝ} (h0 : 0 < t) : 3.06 * (t ^ 18 - (t / (1 + t)) ^ 18) * (1 + t) ^ 18 = 3.06 * t ^ 19 * (18 * t ^ 0 + 153 * t ^ 1 + 816 * t ^ 2 + 3060 * t ^ 3 + 8568 * t ^ 4 + 18564 * t ^ 5 + 31824 * t ^ 6 + 43758 * t ^ 7 + 48620 * t ^ 8 + 43758 * t ^ 9 + 31824 * t ^ 10 + 18564 * t ^ 11 + 8568 * t ^ 12 + 3060 * t ^ 13 + 816 * t ^ 14 + 153 * t ^ 15 + 18 * t ^ 16 + 1 * t ^ 17) := by
  have : 1 + t ≠ 0 := by positivity
  field_simp
  ring

theorem dg_S0 {t : ℝ} (h0 : 0 < t) : 0 ≤ (43867/798) * t ^ 0 + (745739/1596) * t ^ 1 + (258455371/131670) * t ^ 2 + (94392791/17556) * t ^ 3 + (768950069/72105) * t ^ 4 + (27893699639/1730520) * t ^ 5 + (500619033511/26246220) * t ^ 6 + (85482664741/4772040) * t ^ 7 + (88022211049/6561555) * t ^ 8 + (210082118993/26246220) * t ^ 9 + (16737666573/4374370) * t ^ 10 + (11410084201/7158060) * t ^ 11 + (171419657/198835) * t ^ 12 + (1260303637/1468320) * t ^ 13 + (6528202467/6537520) * t ^ 14 + (38966845169/39225120) * t ^ 15 + (2277544727/2860165) * t ^ 16 + (3076684153/6056820) * t ^ 17 + (85673411/336490) * t ^ 18 + (3477151/35420) * t ^ 19 + (149393/5313) * t ^ 20 + (11411/2024) * t ^ 21 + (65/92) * t ^ 22 + (1/24) * t ^ 23 := by positivity

theorem dg_fin {t lg L B SS BN : ℝ} (h0 : 0 < t) (h1 : t ≤ 1 / 7) (hl : |lg - L| ≤ 7 / 6 * t ^ 25)
    (hp : (t - L + (1 / 2) * (t / (1 + t) - t) + B) * (1 + t) ^ 18 = t ^ 19 * SS) (hS0 : 0 ≤ SS)
    (hr : 3.06 * (t ^ 18 - (t / (1 + t)) ^ 18) * (1 + t) ^ 18 = BN) (hI : t ^ 19 * SS + 14 * t ^ 25 ≤ BN) :
    |t - lg + (1 / 2) * (t / (1 + t) - t) + B| ≤ 3.06 * (t ^ 18 - (t / (1 + t)) ^ 18) := by
  have hq : 0 < (1 + t) ^ 18 := by positivity
  have hq2 : (1 + t) ^ 18 ≤ 12 := (pow_le_pow_left₀ (by positivity) (by linarith : 1 + t ≤ 8 / 7) 18).trans (by norm_num)
  refine le_of_mul_le_mul_right ?_ hq
  rw [hr]
  generalize hA : t - L + (1 / 2) * (t / (1 + t) - t) + B = A at *
  have e : t - lg + (1 / 2) * (t / (1 + t) - t) + B = A - (lg - L) := by rw [← hA]; ring
  rw [e]
  generalize lg - L = ρ at *
  refine le_trans ?_ hI
  calc |A - ρ| * (1 + t) ^ 18 ≤ (|A| + |ρ|) * (1 + t) ^ 18 := mul_le_mul_of_nonneg_right (abs_sub _ _) hq.le
    _ = |A * (1 + t) ^ 18| + |ρ| * (1 + t) ^ 18 := by rw [abs_mul, abs_of_pos hq]; ring
    _ ≤ _ := by
      rw [hp, abs_of_nonneg (mul_nonneg (by positivity) hS0)]
      have : |ρ| * (1 + t) ^ 18 ≤ 7 / 6 * t ^ 25 * 12 := mul_le_mul hl hq2 hq.le (by positivity)
      linarith

theorem dg_step {t : ℝ} (h0 : 0 < t) (h1 : t ≤ 1 / 7) :
    |t - Real.log (1 + t) + (1 / 2) * (t / (1 + t) - t) + (bsum (t / (1 + t)) - bsum t)| ≤ 3.06 * (t ^ 18 - (t / (1 + t)) ^ 18) :=
  dg_fin h0 h1 (log_ser h0 h1) (dg_poly h0) (dg_S0 h0) (dg_rhs h0) (dg_ineq h0 h1)

/-- `H_{N-1} - log N + 1/(2N) + ∑ B_{2k}/(2k N^{2k})` -/
def dgG (N : ℕ) : ℝ := ((_root_.harmonic (N - 1) : ℚ) : ℝ) - Real.log N + 1 / 2 * (1 / N) + bsum (1 / N)

theorem dgG_step (N : ℕ) (hN : 7 ≤ N) : |dgG (N + 1) - dgG N| ≤ 3.06 * (1 / (N:ℝ) ^ 18 - 1 / ((N:ℝ) + 1) ^ 18) := by
  have hN' : (7:ℝ) ≤ N := by exact_mod_cast hN
  have h := dg_step (t := 1 / (N:ℝ)) (by positivity) (by rw [div_le_div_iff₀ (by positivity) (by norm_num)]; linarith)
  have e1 : 1 / (N:ℝ) / (1 + 1 / N) = 1 / (N + 1) := by field_simp
  have e2 : Real.log (1 + 1 / (N:ℝ)) = Real.log (N + 1) - Real.log N := by
    rw [← Real.log_div (by positivity) (by positivity)]
    congr 1; field_simp
  have e3 : ((_root_.harmonic (N + 1 - 1) : ℚ) : ℝ) = ((_root_.harmonic (N - 1) : ℚ) : ℝ) + 1 / N := by
    obtain ⟨M, rfl⟩ : ∃ M, N = M + 1 := ⟨N - 1, by omega⟩
    rw [Nat.add_sub_cancel, Nat.add_sub_cancel, harmonic_succ]
    push_cast; rw [one_div]
  rw [e1, e2, one_div_pow, one_div_pow] at h
  refine le_trans (le_of_eq ?_) h
  rw [dgG, dgG, e3]
  push_cast
  congr 1
  ring

theorem dgG_diff (N : ℕ) (hN : 7 ≤ N) (j : ℕ) : |dgG (N + j) - dgG N| ≤ 3.06 * (1 / (N:ℝ) ^ 18 - 1 / ((N + j : ℕ):ℝ) ^ 18) := by
  induction j with
  | zero => simp
  | succ j ih =>
    have h := dgG_step (N + j) (by omega)
    have := abs_sub_le (dgG (N + j + 1)) (dgG (N + j)) (dgG N)
    rw [← add_assoc]
    push_cast at *
    linarith

theorem dgG_lim : Filter.Tendsto dgG Filter.atTop (nhds Real.eulerMascheroniConstant) := by
  have h := Real.tendsto_harmonic_sub_log_add_one
  have ht : Filter.Tendsto (fun n : ℕ => 1 / ((n:ℝ) + 1)) Filter.atTop (nhds 0) := tendsto_one_div_add_atTop_nhds_zero_nat
  have hc : Continuous (fun t : ℝ => 1 / 2 * t + bsum t) := by unfold bsum; fun_prop
  have h2 := (hc.tendsto 0).comp ht
  have e0 : 1 / 2 * (0:ℝ) + bsum 0 = 0 := by simp [bsum]
  rw [e0] at h2
  have h3 := h.add h2
  rw [add_zero] at h3
  refine (Filter.tendsto_add_atTop_iff_nat 1).mp (h3.congr fun n => ?_)
  simp only [dgG, Function.comp, Nat.add_sub_cancel]
  push_cast
  ring

/-- the asymptotic expansion of the digamma function at the integers, with a bound for the remainder -/
theorem harmonic_asymp (N : ℕ) (hN : 7 ≤ N) :
    |((_root_.harmonic (N - 1) : ℚ) : ℝ) - (Real.eulerMascheroniConstant + Real.log N - 1 / 2 * (1 / N) - bsum (1 / N))| ≤ 3.06 / (N:ℝ) ^ 18 := by
  have h := (dgG_lim.comp (Filter.tendsto_add_atTop_nat N)).sub_const (dgG N)
  have h2 := le_of_tendsto h.abs (Filter.Eventually.of_forall fun j => by
    show |dgG (j + N) - dgG N| ≤ 3.06 / (N:ℝ) ^ 18
    rw [add_comm]
    refine (dgG_diff N hN j).trans ?_
    have : 0 ≤ 1 / ((N + j : ℕ):ℝ) ^ 18 := by positivity
    rw [div_eq_mul_one_div (3.06:ℝ)]
    linarith)
  rw [abs_sub_comm] at h2
  refine le_trans (le_of_eq ?_) h2
  rw [dgG]; congr 1; ring

/-- Euler's constant to 26 digits -/
theorem euler_approx : |Real.eulerMascheroniConstant - 0.57721566490153286060651209| ≤ 1e-26 := by
  have h := harmonic_asymp 32 (by norm_num)
  have hH : ((_root_.harmonic (32 - 1) : ℚ) : ℝ) = 290774257297357/72201776446800 := by
    simp only [_root_.harmonic, Finset.sum_range_succ, Finset.sum_range_zero]; norm_num
  have hl : Real.log ((32 : ℕ) : ℝ) = 5 * Real.log 2 := by
    rw [show ((32:ℕ):ℝ) = 2 ^ 5 by norm_num, Real.log_pow]; norm_num
  have h2 := abs_le.mp l2Q_approx
  rw [hH, hl, bsum] at h
  push_cast at h
  unfold l2Q at h2
  push_cast at h2
  rw [abs_le] at h ⊢
  norm_num at h h2 ⊢
  constructor <;> linarith

end Polylog
