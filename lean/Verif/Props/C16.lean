import Verif.Props.SlPoly
import Verif.Props.SlSeries
import Verif.Props.C13

/-! # C16: `Sl(n, x)`, every order

`glaisher n x` is the textbook function of Spec/Polylog.lean. -/

noncomputable section
namespace Polylog
open Finset
variable {S : RealSem}

/-- the literal `PI` of `Sl.cpp` -/
local notation "PIs" => (FOps.lit 3.14159265358979324 : R S)
local notation "P1s" => (FOps.lit 0.0019353071795864769253 : R S)

/-! ## n = 2, 3 -/

/-- expression for `n = 2` -/
def slCore2 {F : Type} [FOps F] (x : F) : F :=
  let PI : F := FOps.lit 3.14159265358979324
  let PI2 := PI *. PI
  PI2 /. (FOps.lit 6 : F) +. (∸(FOps.lit 1 : F) /. (FOps.lit 2 : F) *. PI +. (FOps.lit 1 : F) /. (FOps.lit 4 : F) *. x) *. x
/-- expression for `n = 3` -/
def slCore3 {F : Type} [FOps F] (x : F) : F :=
  let PI : F := FOps.lit 3.14159265358979324
  let PI2 := PI *. PI
  x *. (PI2 /. (FOps.lit 6 : F) +. (∸(FOps.lit 1 : F) /. (FOps.lit 4 : F) *. PI +. (FOps.lit 1 : F) /. (FOps.lit 12 : F) *. x) *. x)
theorem Sl_2 {F : Type} [FOps F] (x : F) : Sl 2 x = pure ((FOps.lit 1 : F) *. slCore2 (reduceAbs (FOps.lit 3.14159265358979324 : F) (FOps.lit 0.0019353071795864769253 : F) x)) := rfl
theorem Sl_3 {F : Type} [FOps F] (x : F) : Sl 3 x = pure (
    let xs := reduceSgn (FOps.lit 3.14159265358979324 : F) (FOps.lit 0.0019353071795864769253 : F) x
    if xs.1 ==. (FOps.lit 0 : F) then xs.1 else xs.2 *. slCore3 xs.1) := by
  exact (apply_ite (pure : F → M F) _ _ _).symm

theorem glaisher_two_eq {x : ℝ} (h0 : 0 ≤ x) (h1 : x < 2 * Real.pi) : glaisher 2 x = Real.pi ^ 2 / 6 - Real.pi / 2 * x + x ^ 2 / 4 := by
  rw [glaisher_poly 1 0 1 (by norm_num) (by norm_num) le_rfl h0 h1]
  simp [Finset.sum_range_succ, glC, reLi_two_one]; ring

theorem glaisher_three_eq {x : ℝ} (h0 : 0 ≤ x) (h1 : x < 2 * Real.pi) : glaisher 3 x = Real.pi ^ 2 / 6 * x - Real.pi / 4 * x ^ 2 + x ^ 3 / 12 := by
  rw [glaisher_poly 1 1 2 (by norm_num) (by norm_num) (by norm_num) h0 h1]
  simp [Finset.sum_range_succ, glC, reLi_two_one, Nat.factorial]; ring

section
variable {u : ℝ} (hS : S.Lit u) (hu : u ≤ 1e-6)
include hS hu

theorem slAcc2 (r : R S) (h0 : 0 ≤ ofR r) (h1 : ofR r ≤ 3.1417) : |ofR (slCore2 r) - glaisher 2 (ofR r)| ≤ 1.05 * (1.6e-18 + 3.15 * u) := by
  have h6 := litnat hS 6 (by norm_num)
  have h4 := litnat hS 4 (by norm_num)
  have h2 := litnat hS 2 (by norm_num)
  push_cast at h6 h4 h2
  have hd := PId hS
  have hd' := abs_le.mp hd
  have hp1 := pi_gt; have hp2 := pi_lt
  rw [glaisher_two_eq h0 (by linarith)]
  have e : ofR (slCore2 r) = ofR PIs * ofR PIs / 6 + (-1 / 2 * ofR PIs + 1 / 4 * ofR r) * ofR r := by
    rw [slCore2]
    simp only [ofR_add, ofR_mul]
    rw [ofR_div (by rw [h6]; norm_num), ofR_div (by rw [h2]; norm_num), ofR_div (by rw [h4]; norm_num), ofR_neg, lit1 hS, h6, h4, h2, ofR_mul]
  rw [e]
  generalize ofR PIs = P at *
  generalize ofR r = r at *
  have e2 : P * P / 6 + (-1 / 2 * P + 1 / 4 * r) * r - (Real.pi ^ 2 / 6 - Real.pi / 2 * r + r ^ 2 / 4) = ((P + Real.pi) / 6 - r / 2) * (P - Real.pi) := by ring
  rw [e2, abs_mul]
  refine mul_le_mul ?_ hd (abs_nonneg _) (by norm_num)
  rw [abs_le]; constructor <;> linarith

theorem slAcc3 (r : R S) (h0 : 0 ≤ ofR r) (h1 : ofR r ≤ 3.1417) : |ofR (slCore3 r) - glaisher 3 (ofR r)| ≤ 3.3 * (1.6e-18 + 3.15 * u) := by
  have h6 := litnat hS 6 (by norm_num)
  have h4 := litnat hS 4 (by norm_num)
  have h2 := litnat hS 12 (by norm_num)
  push_cast at h6 h4 h2
  have hd := PId hS
  have hd' := abs_le.mp hd
  have hp1 := pi_gt; have hp2 := pi_lt
  rw [glaisher_three_eq h0 (by linarith)]
  have e : ofR (slCore3 r) = ofR r * (ofR PIs * ofR PIs / 6 + (-1 / 4 * ofR PIs + 1 / 12 * ofR r) * ofR r) := by
    rw [slCore3]
    simp only [ofR_add, ofR_mul]
    rw [ofR_div (by rw [h6]; norm_num), ofR_div (by rw [h4]; norm_num), ofR_div (by rw [h2]; norm_num), ofR_neg, lit1 hS, h6, h4, h2, ofR_mul]
  rw [e]
  generalize ofR PIs = P at *
  generalize ofR r = r at *
  have e2 : r * (P * P / 6 + (-1 / 4 * P + 1 / 12 * r) * r) - (Real.pi ^ 2 / 6 * r - Real.pi / 4 * r ^ 2 + r ^ 3 / 12) = (r * ((P + Real.pi) / 6 - r / 4)) * (P - Real.pi) := by ring
  rw [e2, abs_mul]
  refine mul_le_mul ?_ hd (abs_nonneg _) (by norm_num)
  have h3 : |(P + Real.pi) / 6 - r / 4| ≤ 1.05 := by rw [abs_le]; constructor <;> linarith
  rw [abs_mul, abs_of_nonneg h0]
  calc r * |(P + Real.pi) / 6 - r / 4| ≤ 3.1417 * 1.05 := mul_le_mul h1 h3 (abs_nonneg _) (by norm_num)
    _ ≤ _ := by norm_num

/-! ## n ≥ 26 -/

omit hu in
/-- the truncated series -/
theorem Sl_series_eq (he : S.eps = 1 / 2 ^ 52) (n : ℕ) (hn : 26 ≤ n) (x : R S) :
    ∃ K : ℕ, 2 ≤ K ∧ K ≤ 4 ∧ (2:ℝ) ^ 52 ≤ (K:ℝ) ^ n ∧ Sl (n:ℤ) x = pure (
      if n % 2 = 0 then (FOps.lit 1 : R S) *. slCosLoop (n:ℤ) (FOps.cos (reduceAbs PIs P1s x)) ((K:ℤ) - 1).toNat 2 (FOps.lit 1 : R S) (FOps.cos (reduceAbs PIs P1s x)) (FOps.cos (reduceAbs PIs P1s x))
      else let xs := reduceSgn PIs P1s x
        if xs.1 ==. (FOps.lit 0 : R S) then xs.1 else xs.2 *. slSinLoop (n:ℤ) (FOps.cos xs.1) ((K:ℤ) - 1).toNat 2 (FOps.lit 0 : R S) (FOps.sin xs.1) (FOps.sin xs.1)) := by
  obtain ⟨K, h1, h2, h3, h4⟩ := seriesKmax_R hS he n (by omega)
  refine ⟨K, h2, ?_, h3, ?_⟩
  · refine h4 4 ?_
    calc 2 ^ 52 = 4 ^ 26 := by norm_num
      _ ≤ 4 ^ n := Nat.pow_le_pow_right (by norm_num) hn
  · have hev : isEven (n:ℤ) = decide (n % 2 = 0) := by
      rw [isEven, Int.tmod_eq_emod_of_nonneg (by omega)]
      by_cases h : n % 2 = 0
      · rw [decide_eq_true h]; simpa using by omega
      · rw [decide_eq_false h]; simp; omega
    rw [Sl]
    have hne : ∀ k : ℕ, k < 26 → ¬ ((n:ℤ) = (k:ℤ)) := fun k hk => by omega
    rw [if_neg (by omega)]
    simp only [slReduce, hev]
    by_cases h : n % 2 = 0
    · simp only [h, decide_true, if_true, Bool.not_true, Bool.false_and, Bool.false_eq_true, if_false]
      iterate 25 rw [if_neg (by omega)]
      rw [slSeries, h1]
      simp only [hev, h, decide_true, if_true]
      rfl
    · simp only [h, decide_false, if_false, Bool.not_false, Bool.true_and, Bool.false_eq_true]
      iterate 25 rw [if_neg (by omega : ¬ ((n:ℤ) = _))]
      rw [slSeries, h1]
      simp only [hev, h, decide_false, Bool.false_eq_true, if_false]
      exact (apply_ite (pure : R S → M (R S)) _ _ _).symm

omit hS hu in
theorem glaisher_lip0 (m p : ℕ) (hp : p < 2) (hn : 3 ≤ 2 * m + p) (a b : ℝ) :
    |glaisher (2 * m + p) a - glaisher (2 * m + p) b| ≤ 2 * |a - b| + 0 := by
  rw [add_zero]; exact glaisher_lip m p hp hn a b

/-- n ≥ 26 -/
theorem slAcc_series (he : S.eps = 1 / 2 ^ 52) (n : ℕ) (hn : 26 ≤ n) (x : ℝ)
    (hw : wrap (ofR PIs) x ≤ 6.28125 + ofR P1s) :
    ∃ v, Sl (n:ℤ) (toR S x) = .ok v ∧ |ofR v - glaisher n x| ≤
      4e-17 + 20.5 * u + (2 * (1.4e-23 + 0.002 * u + 2 * (1.6e-18 + 3.15 * u) * ⌊|x| / (2 * ofR PIs)⌋₊) + 0) := by
  obtain ⟨K, h2, h4, hK, hv⟩ := Sl_series_eq hS he n hn (toR S x)
  have hu0 := hS.u_nonneg
  refine ⟨_, hv, ?_⟩
  obtain ⟨ν, rfl⟩ : ∃ ν, n = ν + 2 := ⟨n - 2, by omega⟩
  have hrem : 1 / (((ν:ℝ) + 1) * (K:ℝ) ^ (ν + 1)) ≤ 4e-17 + 20.5 * u := by
    refine (rem_le ν K 4 h4 h2 hK).trans ?_
    have h24 : (24:ℝ) ≤ ν := by exact_mod_cast (by omega : 24 ≤ ν)
    have : ((4:ℕ):ℝ) / ((ν:ℝ) + 1) / 2 ^ 52 ≤ 4 / 25 / 2 ^ 52 := by
      refine div_le_div_of_nonneg_right ?_ (by norm_num)
      push_cast
      exact div_le_div_of_nonneg_left (by norm_num) (by norm_num) (by linarith)
    refine this.trans ?_
    have : (4:ℝ) / 25 / 2 ^ 52 ≤ 4e-17 := by norm_num
    linarith
  rcases Nat.even_or_odd' (ν + 2) with ⟨m, hm | hm⟩
  · rw [hm]
    rw [if_pos (by omega)]
    refine sl_even hS hu m (by omega) (fun r => slCosLoop _ (FOps.cos r) ((K:ℤ) - 1).toNat 2 (FOps.lit 1 : R S) (FOps.cos r) (FOps.cos r)) (by norm_num)
      (glaisher_lip0 m 0 (by norm_num) (by omega)) (fun r _ _ => ?_) x hw
    rw [cosSeries_R hS.two hS.one _ K h2]
    have h := glaisher_part m 0 (by norm_num) (ofR r)
    rw [add_zero, ← hm] at h
    rw [← hm, h, abs_sub_comm]
    exact (part_series 0 ν K (by omega) _).trans hrem
  · rw [hm]
    rw [if_neg (by omega)]
    refine sl_odd hS hu m (by omega) (fun r => slSinLoop _ (FOps.cos r) ((K:ℤ) - 1).toNat 2 (FOps.lit 0 : R S) (FOps.sin r) (FOps.sin r)) (by norm_num)
      (glaisher_lip0 m 1 (by norm_num) (by omega)) (fun r _ _ => ?_) x hw
    rw [sinSeries_R hS.two hS.zero _ K h2]
    have h := glaisher_part m 1 (by norm_num) (ofR r)
    rw [← hm] at h
    rw [← hm, h, abs_sub_comm]
    exact (part_series 1 ν K (by omega) _).trans hrem

/-- n ≥ 3, any literals within relative `u`; `⌊|x| / (2 PI)⌋₊` is the number of periods removed by the code -/
theorem Sl_acc (he : S.eps = 1 / 2 ^ 52) (n : ℕ) (hn : 3 ≤ n) (x : ℝ) (hw : wrap (ofR PIs) x ≤ 6.28125 + ofR P1s) :
    ∃ v, Sl (n:ℤ) (toR S x) = .ok v ∧ |ofR v - glaisher n x| ≤
      4e-17 + 20.5 * u + (2 * (1.4e-23 + 0.002 * u + 2 * (1.6e-18 + 3.15 * u) * ⌊|x| / (2 * ofR PIs)⌋₊) + 0) := by
  have hu0 := hS.u_nonneg
  rcases lt_or_ge n 26 with h | h
  swap
  · exact slAcc_series hS hu he n h x hw
  interval_cases n
  · refine ⟨_, Sl_3 _, le_trans (sl_odd hS hu 1 (by norm_num) slCore3 (C := 4e-17 + 20.5 * u) (by norm_num) (glaisher_lip0 1 1 (by norm_num) (by norm_num)) (fun r a b => (slAcc3 hS hu r a b).trans (by linarith)) x hw) (by linarith)⟩
  · refine ⟨_, Sl_4 _, le_trans (sl_even hS hu 2 (by norm_num) slCore4 (C := 4e-17 + 20.5 * u) (by norm_num) (glaisher_lip0 2 0 (by norm_num) (by norm_num)) (fun r a b => (slAcc4 hS r a b).trans (by linarith)) x hw) (by linarith)⟩
  · refine ⟨_, Sl_5 _, le_trans (sl_odd hS hu 2 (by norm_num) slCore5 (C := 4e-17 + 20.5 * u) (by norm_num) (glaisher_lip0 2 1 (by norm_num) (by norm_num)) (fun r a b => (slAcc5 hS r a b).trans (by linarith)) x hw) (by linarith)⟩
  · refine ⟨_, Sl_6 _, le_trans (sl_even hS hu 3 (by norm_num) slCore6 (C := 4e-17 + 20.5 * u) (by norm_num) (glaisher_lip0 3 0 (by norm_num) (by norm_num)) (fun r a b => (slAcc6 hS r a b).trans (by linarith)) x hw) (by linarith)⟩
  · refine ⟨_, Sl_7 _, le_trans (sl_odd hS hu 3 (by norm_num) slCore7 (C := 4e-17 + 20.5 * u) (by norm_num) (glaisher_lip0 3 1 (by norm_num) (by norm_num)) (fun r a b => (slAcc7 hS r a b).trans (by linarith)) x hw) (by linarith)⟩
  · refine ⟨_, Sl_8 _, le_trans (sl_even hS hu 4 (by norm_num) slCore8 (C := 4e-17 + 20.5 * u) (by norm_num) (glaisher_lip0 4 0 (by norm_num) (by norm_num)) (fun r a b => (slAcc8 hS r a b).trans (by linarith)) x hw) (by linarith)⟩
  · refine ⟨_, Sl_9 _, le_trans (sl_odd hS hu 4 (by norm_num) slCore9 (C := 4e-17 + 20.5 * u) (by norm_num) (glaisher_lip0 4 1 (by norm_num) (by norm_num)) (fun r a b => (slAcc9 hS r a b).trans (by linarith)) x hw) (by linarith)⟩
  · refine ⟨_, Sl_10 _, le_trans (sl_even hS hu 5 (by norm_num) slCore10 (C := 4e-17 + 20.5 * u) (by norm_num) (glaisher_lip0 5 0 (by norm_num) (by norm_num)) (fun r a b => (slAcc10 hS r a b).trans (by linarith)) x hw) (by linarith)⟩
  · refine ⟨_, Sl_11 _, le_trans (sl_odd hS hu 5 (by norm_num) slCore11 (C := 4e-17 + 20.5 * u) (by norm_num) (glaisher_lip0 5 1 (by norm_num) (by norm_num)) (fun r a b => (slAcc11 hS r a b).trans (by linarith)) x hw) (by linarith)⟩
  · refine ⟨_, Sl_12 _, le_trans (sl_even hS hu 6 (by norm_num) slCore12 (C := 4e-17 + 20.5 * u) (by norm_num) (glaisher_lip0 6 0 (by norm_num) (by norm_num)) (fun r a b => (slAcc12 hS r a b).trans (by linarith)) x hw) (by linarith)⟩
  · refine ⟨_, Sl_13 _, le_trans (sl_odd hS hu 6 (by norm_num) slCore13 (C := 4e-17 + 20.5 * u) (by norm_num) (glaisher_lip0 6 1 (by norm_num) (by norm_num)) (fun r a b => (slAcc13 hS r a b).trans (by linarith)) x hw) (by linarith)⟩
  · refine ⟨_, Sl_14 _, le_trans (sl_even hS hu 7 (by norm_num) slCore14 (C := 4e-17 + 20.5 * u) (by norm_num) (glaisher_lip0 7 0 (by norm_num) (by norm_num)) (fun r a b => (slAcc14 hS r a b).trans (by linarith)) x hw) (by linarith)⟩
  · refine ⟨_, Sl_15 _, le_trans (sl_odd hS hu 7 (by norm_num) slCore15 (C := 4e-17 + 20.5 * u) (by norm_num) (glaisher_lip0 7 1 (by norm_num) (by norm_num)) (fun r a b => (slAcc15 hS r a b).trans (by linarith)) x hw) (by linarith)⟩
  · refine ⟨_, Sl_16 _, le_trans (sl_even hS hu 8 (by norm_num) slCore16 (C := 4e-17 + 20.5 * u) (by norm_num) (glaisher_lip0 8 0 (by norm_num) (by norm_num)) (fun r a b => (slAcc16 hS r a b).trans (by linarith)) x hw) (by linarith)⟩
  · refine ⟨_, Sl_17 _, le_trans (sl_odd hS hu 8 (by norm_num) slCore17 (C := 4e-17 + 20.5 * u) (by norm_num) (glaisher_lip0 8 1 (by norm_num) (by norm_num)) (fun r a b => (slAcc17 hS r a b).trans (by linarith)) x hw) (by linarith)⟩
  · refine ⟨_, Sl_18 _, le_trans (sl_even hS hu 9 (by norm_num) slCore18 (C := 4e-17 + 20.5 * u) (by norm_num) (glaisher_lip0 9 0 (by norm_num) (by norm_num)) (fun r a b => (slAcc18 hS r a b).trans (by linarith)) x hw) (by linarith)⟩
  · refine ⟨_, Sl_19 _, le_trans (sl_odd hS hu 9 (by norm_num) slCore19 (C := 4e-17 + 20.5 * u) (by norm_num) (glaisher_lip0 9 1 (by norm_num) (by norm_num)) (fun r a b => (slAcc19 hS r a b).trans (by linarith)) x hw) (by linarith)⟩
  · refine ⟨_, Sl_20 _, le_trans (sl_even hS hu 10 (by norm_num) slCore20 (C := 4e-17 + 20.5 * u) (by norm_num) (glaisher_lip0 10 0 (by norm_num) (by norm_num)) (fun r a b => (slAcc20 hS r a b).trans (by linarith)) x hw) (by linarith)⟩
  · refine ⟨_, Sl_21 _, le_trans (sl_odd hS hu 10 (by norm_num) slCore21 (C := 4e-17 + 20.5 * u) (by norm_num) (glaisher_lip0 10 1 (by norm_num) (by norm_num)) (fun r a b => (slAcc21 hS r a b).trans (by linarith)) x hw) (by linarith)⟩
  · refine ⟨_, Sl_22 _, le_trans (sl_even hS hu 11 (by norm_num) slCore22 (C := 4e-17 + 20.5 * u) (by norm_num) (glaisher_lip0 11 0 (by norm_num) (by norm_num)) (fun r a b => (slAcc22 hS r a b).trans (by linarith)) x hw) (by linarith)⟩
  · refine ⟨_, Sl_23 _, le_trans (sl_odd hS hu 11 (by norm_num) slCore23 (C := 4e-17 + 20.5 * u) (by norm_num) (glaisher_lip0 11 1 (by norm_num) (by norm_num)) (fun r a b => (slAcc23 hS r a b).trans (by linarith)) x hw) (by linarith)⟩
  · refine ⟨_, Sl_24 _, le_trans (sl_even hS hu 12 (by norm_num) slCore24 (C := 4e-17 + 20.5 * u) (by norm_num) (glaisher_lip0 12 0 (by norm_num) (by norm_num)) (fun r a b => (slAcc24 hS r a b).trans (by linarith)) x hw) (by linarith)⟩
  · refine ⟨_, Sl_25 _, le_trans (sl_odd hS hu 12 (by norm_num) slCore25 (C := 4e-17 + 20.5 * u) (by norm_num) (glaisher_lip0 12 1 (by norm_num) (by norm_num)) (fun r a b => (slAcc25 hS r a b).trans (by linarith)) x hw) (by linarith)⟩

/-- n = 2 -/
theorem Sl2_acc (x : ℝ) (hw : wrap (ofR PIs) x ≤ 6.28125 + ofR P1s) :
    ∃ v, Sl 2 (toR S x) = .ok v ∧ |ofR v - glaisher 2 x| ≤
      1.05 * (1.6e-18 + 3.15 * u) + (58 * (1.4e-23 + 0.002 * u + 2 * (1.6e-18 + 3.15 * u) * ⌊|x| / (2 * ofR PIs)⌋₊) + 1e-24) :=
  ⟨_, Sl_2 _, sl_even hS hu 1 le_rfl slCore2 (by norm_num) glaisher_two_d (slAcc2 hS hu) x hw⟩

/-! ## n = 1: `Sl_1` jumps at the multiples of `2π` -/

omit hS hu in
theorem glaisher_one_eq {x : ℝ} (h0 : 0 < x) (h1 : x < 2 * Real.pi) : glaisher 1 x = Real.pi / 2 - x / 2 := by
  rw [glaisher_poly_pos 0 1 0 (by norm_num) (by norm_num) h0 h1]
  simp [Finset.sum_range_succ, glC]; ring

omit hS hu in
theorem glaisher_one_abs {x : ℝ} (k : ℕ) (h0 : 2 * Real.pi * k < |x|) (h1 : |x| < 2 * Real.pi * (k + 1)) :
    glaisher 1 x = (if x < 0 then -1 else 1) * (Real.pi / 2 - (|x| - 2 * Real.pi * k) / 2) := by
  split_ifs with h
  · have e : glaisher 1 x = glaisher 1 (2 * Real.pi - (|x| - 2 * Real.pi * k)) := by
      have := glaisher_sub_nat 1 (k + 1) (2 * Real.pi - (|x| - 2 * Real.pi * k))
      rw [← this, abs_of_neg h]; congr 1; push_cast; ring
    rw [e, glaisher_one_eq (by linarith) (by linarith)]; ring
  · rw [← glaisher_sub_nat 1 k x, abs_of_nonneg (not_lt.mp h), glaisher_one_eq]
    · ring
    · rw [abs_of_nonneg (not_lt.mp h)] at h0; linarith
    · rw [abs_of_nonneg (not_lt.mp h)] at h1; linarith

omit hS hu in
theorem Sl_1 {F : Type} [FOps F] (x : F) : Sl 1 x = pure (
    let xs := reduceSgn (FOps.lit 3.14159265358979324 : F) (FOps.lit 0.0019353071795864769253 : F) x
    if xs.1 ==. (FOps.lit 0 : F) then xs.1 else xs.2 *. ((FOps.lit 3.14159265358979324 : F) /. (FOps.lit 2 : F) -. (FOps.lit 1 : F) /. (FOps.lit 2 : F) *. xs.1)) := by
  exact (apply_ite (pure : F → M F) _ _ _).symm

/-- n = 1: whenever the code removes the right number `k` of periods and the reduced argument is not zero -/
theorem Sl1_acc (x : ℝ) (k : ℕ) (hk : ⌊|x| / (2 * ofR PIs)⌋₊ = k) (h0 : 2 * Real.pi * k < |x|) (h1 : |x| < 2 * Real.pi * (k + 1))
    (hw0 : 0 < wrap (ofR PIs) x) (hw : wrap (ofR PIs) x < 6.28125 + ofR P1s) :
    ∃ v, Sl 1 (toR S x) = .ok v ∧ |ofR v - glaisher 1 x| ≤ (1.6e-18 + 3.15 * u) * (k + 1 / 2) + 7e-24 + 0.001 * u := by
  have hd := abs_le.mp (PId hS)
  have he := abs_le.mp (P1d hS)
  have h2 := litnat hS 2 (by norm_num)
  push_cast at h2
  obtain ⟨hP, hP2⟩ := sl_PI hS hu
  have hr := reduceAbs_R (S := S) hS (PI := PIs) (p1 := P1s) (x := toR S x) (by linarith)
  have hs := reduceSgn_R_snd (S := S) hS (PI := PIs) (p1 := P1s) (x := toR S x) (by linarith)
  rw [← reduceSgn_R_fst] at hr
  rw [ofR_toR] at hr hs
  refine ⟨_, Sl_1 _, ?_⟩
  generalize reduceSgn PIs P1s (toR S x) = rs at *
  obtain ⟨r, s⟩ := rs
  simp only at *
  have hr0 : ofR r ≠ 0 := by
    rw [hr]; split_ifs <;> linarith
  rw [eq_R, lit0 hS, if_neg (by simpa using hr0), ofR_mul, ofR_sub, ofR_mul, ofR_div (by rw [h2]; norm_num), ofR_div (by rw [h2]; norm_num), lit1 hS, h2, hs, hr,
    glaisher_one_abs k h0 h1, mul_assoc, ← mul_sub, abs_mul]
  have hsx : |(if x < 0 then -1 else 1 : ℝ)| = 1 := by split_ifs <;> norm_num
  rw [hsx, one_mul]
  have hwx : wrap (ofR PIs) x = |x| - 2 * ofR PIs * k := by rw [wrap, hk]
  rw [hwx] at *
  have hu0 := hS.u_nonneg
  have hk0 : (0:ℝ) ≤ k := Nat.cast_nonneg k
  have hpk1 : (ofR PIs - Real.pi) * k ≤ (1.6e-18 + 3.15 * u) * k := mul_le_mul_of_nonneg_right hd.2 hk0
  have hpk2 : -(1.6e-18 + 3.15 * u) * k ≤ (ofR PIs - Real.pi) * k := mul_le_mul_of_nonneg_right hd.1 hk0
  generalize ofR PIs = P at *
  generalize ofR P1s = q at *
  split_ifs with h
  · have e : -1 * (P / 2 - 1 / 2 * (6.28125 - (|x| - 2 * P * k) + q)) - (Real.pi / 2 - (|x| - 2 * Real.pi * k) / 2)
      = (6.28125 + q - 2 * Real.pi) / 2 - (P - Real.pi) / 2 + (P - Real.pi) * k := by ring
    rw [e, abs_le]; constructor <;> linarith
  · have e : 1 * (P / 2 - 1 / 2 * (|x| - 2 * P * k)) - (Real.pi / 2 - (|x| - 2 * Real.pi * k) / 2)
      = (P - Real.pi) / 2 + (P - Real.pi) * k := by ring
    rw [e, abs_le]; constructor <;> linarith

end
/-! ## the claims -/

/-- **C16 (n < 1).** NaN, in every arithmetic. -/
theorem C16_nan {F : Type} [FOps F] (n : ℤ) (hn : n < 1) (x : F) : Sl n x = pure FOps.nan := by
  rw [Sl, if_pos hn]

/-- **C16 (n ≥ 3).** literals within relative `u` of the source text, every argument (as in C13 the condition on `wrap` only excludes
arguments whose reduction is negative in exact arithmetic) -/
theorem C16_Sl {u : ℝ} (hS : S.Lit u) (hu : u ≤ 1e-6) (he : S.eps = 1 / 2 ^ 52) (n : ℕ) (hn : 3 ≤ n) (x : ℝ) (hw : wrap (ofR PIs) x ≤ 6.28125 + ofR P1s) :
    ∃ v, Sl (n:ℤ) (toR S x) = .ok v ∧ |ofR v - glaisher n x| ≤ 4.1e-17 + 21 * u + (1.1e-18 + 2.1 * u) * |x| := by
  obtain ⟨v, hv, h⟩ := Sl_acc hS hu he n hn x hw
  refine ⟨v, hv, h.trans ?_⟩
  have hu0 := hS.u_nonneg
  have h := periods (x := x) (P := ofR PIs) (d := 1.6e-18 + 3.15 * u) (sl_PI hS hu).1 (by linarith)
  have hx := abs_nonneg x
  have hux := mul_nonneg hu0 hx
  generalize 2 * (1.6e-18 + 3.15 * u) * (⌊|x| / (2 * ofR PIs)⌋₊ : ℝ) = K at *
  nlinarith

/-- **C16 (n = 2).** -/
theorem C16_Sl2 {u : ℝ} (hS : S.Lit u) (hu : u ≤ 1e-6) (x : ℝ) (hw : wrap (ofR PIs) x ≤ 6.28125 + ofR P1s) :
    ∃ v, Sl 2 (toR S x) = .ok v ∧ |ofR v - glaisher 2 x| ≤ 1.7e-18 + 3.5 * u + (3.1e-17 + 61 * u) * |x| := by
  obtain ⟨v, hv, h⟩ := Sl2_acc hS hu x hw
  refine ⟨v, hv, h.trans ?_⟩
  have hu0 := hS.u_nonneg
  have h := periods (x := x) (P := ofR PIs) (d := 1.6e-18 + 3.15 * u) (sl_PI hS hu).1 (by linarith)
  have hx := abs_nonneg x
  have hux := mul_nonneg hu0 hx
  generalize 2 * (1.6e-18 + 3.15 * u) * (⌊|x| / (2 * ofR PIs)⌋₊ : ℝ) = K at *
  nlinarith

theorem C16_dec_aux (h : S.rho = id) {x : ℝ} (hx : |x| < 2 * Real.pi) : |x| < 6.28125 + ofR P1s ∧ |x| < 2 * ofR PIs := by
  have e1 : ofR PIs = ((3.14159265358979324 : ℚ) : ℝ) := by show ((S.rho _ : ℚ) : ℝ) = _; rw [h]; rfl
  have e2 : ofR P1s = ((0.0019353071795864769253 : ℚ) : ℝ) := by show ((S.rho _ : ℚ) : ℝ) = _; rw [h]; rfl
  rw [e1, e2]
  have hp := abs_le.mp pi_approx
  have h1 : 2 * (piQ + 1 / 10 ^ 49) < 2 * (3.14159265358979324 : ℚ) := by decide +kernel
  have h2 : 2 * (piQ + 1 / 10 ^ 49) ≤ 6.28125 + (0.0019353071795864769253 : ℚ) := by decide +kernel
  have h1' := (Rat.cast_lt (K := ℝ)).mpr h1
  have h2' := (Rat.cast_le (K := ℝ)).mpr h2
  push_cast at h1' h2' ⊢
  constructor <;> linarith

/-- **C16, every order, the literals of the source text, `-2π < x < 2π`.**  (`2π` itself is not a floating-point number; `Sl_1` jumps there.) -/
theorem C16_dec (h : S.rho = id) (he : S.eps = 1 / 2 ^ 52) (n : ℕ) (hn : 1 ≤ n) {x : ℝ} (hx : |x| < 2 * Real.pi) :
    ∃ v, Sl (n:ℤ) (toR S x) = .ok v ∧ |ofR v - glaisher n x| ≤ 4.1e-17 := by
  have hS := lit_id S h
  obtain ⟨h1, h2⟩ := dec_wrapd h hx.le
  obtain ⟨h3, h4⟩ := C16_dec_aux h hx
  rcases (by omega : n = 1 ∨ n = 2 ∨ 3 ≤ n) with rfl | rfl | hn
  · rcases eq_or_ne x 0 with rfl | hx0
    · refine ⟨toR S 0, ?_, ?_⟩
      · have hr := reduceAbs_R (S := S) hS (PI := PIs) (p1 := P1s) (x := toR S 0) (by linarith [(sl_PI hS (by norm_num)).1])
        rw [ofR_toR, wrap_of_lt (by simpa using h4), abs_zero, if_neg (by linarith [(sl_PI hS (by norm_num)).1])] at hr
        have e := Sl_1 (toR S 0)
        rw [← reduceSgn_R_fst] at hr
        simp only [eq_R, lit0 hS, hr, decide_true, if_true] at e
        exact e.trans (congrArg _ hr)
      · rw [ofR_toR, glaisher]; simp [pLi]; norm_num
    · obtain ⟨v, hv, hh⟩ := Sl1_acc hS (by norm_num) x 0 h2 (by simpa using hx0) (by simpa using hx)
        (by rw [wrap_of_lt h4]; simpa using hx0) (by rw [wrap_of_lt h4]; exact h3)
      refine ⟨v, hv, hh.trans ?_⟩
      norm_num
  · obtain ⟨v, hv, hh⟩ := Sl2_acc hS (by norm_num) x h1
    refine ⟨v, hv, hh.trans ?_⟩
    rw [h2]; norm_num
  · obtain ⟨v, hv, hh⟩ := Sl_acc hS (by norm_num) he n hn x h1
    refine ⟨v, hv, hh.trans ?_⟩
    rw [h2]; norm_num

/-- **C16 (n ≥ 3), the literals stored in binary64, every real argument.** -/
theorem C16_binary64 (h : S.rho = rhoBits 53) (he : S.eps = 1 / 2 ^ 52) (n : ℕ) (hn : 3 ≤ n) (x : ℝ) :
    ∃ v, Sl (n:ℤ) (toR S x) = .ok v ∧ |ofR v - glaisher n x| ≤ 2.4e-15 + 2.4e-16 * |x| := by
  obtain ⟨v, hv, hh⟩ := C16_Sl (RealSem.lit_of_bits (by norm_num) h) (by norm_num) he n hn x (wrap_le_b64d x h)
  refine ⟨v, hv, hh.trans ?_⟩
  have hx := abs_nonneg x
  generalize |x| = y at hx ⊢
  norm_num; linarith

/-- **C16 (n = 2), the literals stored in binary64, every real argument.** -/
theorem C16_Sl2_binary64 (h : S.rho = rhoBits 53) (x : ℝ) :
    ∃ v, Sl 2 (toR S x) = .ok v ∧ |ofR v - glaisher 2 x| ≤ 4e-16 + 7e-15 * |x| := by
  obtain ⟨v, hv, hh⟩ := C16_Sl2 (RealSem.lit_of_bits (by norm_num) h) (by norm_num) x (wrap_le_b64d x h)
  refine ⟨v, hv, hh.trans ?_⟩
  have hx := abs_nonneg x
  generalize |x| = y at hx ⊢
  norm_num; linarith

/-- **C16 (n = 1), the literals stored in binary64**, up to twice the stored `PI` -/
theorem C16_Sl1_binary64 (h : S.rho = rhoBits 53) {x : ℝ} (h0 : x ≠ 0) (hx : |x| < 2 * ofR PIs) :
    ∃ v, Sl 1 (toR S x) = .ok v ∧ |ofR v - glaisher 1 x| ≤ 2e-16 := by
  have e1 : ofR PIs = ((7074237752028440 * 2 ^ (-51 : ℤ) : ℚ) : ℝ) := by show ((S.rho _ : ℚ) : ℝ) = _; rw [h, b64d_PI]
  have e2 : ofR P1s = ((8925029061461098 * 2 ^ (-62 : ℤ) : ℚ) : ℝ) := by show ((S.rho _ : ℚ) : ℝ) = _; rw [h, b64d_P1]
  have hpi := Real.pi_gt_d20
  have hlt : 2 * ofR PIs < 2 * Real.pi := by rw [e1]; norm_num; norm_num at hpi; linarith
  have hle : 2 * ofR PIs ≤ 6.28125 + ofR P1s := by rw [e1, e2]; norm_num
  have hk : ⌊|x| / (2 * ofR PIs)⌋₊ = 0 := by
    rw [Nat.floor_eq_zero, div_lt_one (lt_of_le_of_lt (abs_nonneg x) hx)]; exact hx
  obtain ⟨v, hv, hh⟩ := Sl1_acc (RealSem.lit_of_bits (by norm_num) h) (by norm_num) x 0 hk (by simpa using h0) (by norm_num; linarith)
    (by rw [wrap_of_lt hx]; simpa using h0) (by rw [wrap_of_lt hx]; linarith)
  refine ⟨v, hv, hh.trans ?_⟩
  norm_num

/-- a semantics meeting the hypotheses of C15 and C16: decimal literals and the epsilon of binary64 -/
def RealSem.decEps : RealSem := { RealSem.dec with eps := 1 / 2 ^ 52 }

/-- a concrete case: `Sl(7, 3)`, `Sl(40, -6)` -/
example : (∃ v, Sl 7 (toR RealSem.decEps 3) = .ok v ∧ |ofR v - glaisher 7 3| ≤ 4.1e-17) ∧
    (∃ v, Sl 40 (toR RealSem.decEps (-6)) = .ok v ∧ |ofR v - glaisher 40 (-6)| ≤ 4.1e-17) :=
  ⟨C16_dec rfl rfl 7 (by norm_num) (by rw [abs_of_pos (by norm_num)]; linarith [pi_gt]),
   C16_dec rfl rfl 40 (by norm_num) (by rw [abs_of_neg (by norm_num)]; linarith [pi_gt])⟩

end Polylog
