import Mathlib.NumberTheory.Bernoulli
import Mathlib.Data.Nat.Choose.Basic

/-! # Exact Bernoulli numbers `B_0, B_2, ..., B_404`, computed and checked by the kernel -/

namespace Polylog
open Finset

/-- `∑_j C(n, 2(k+j)) l_j`, the binomial `c = C(n, 2k)` updated along the way -/
def rowSum (n : ℕ) : (k c : ℕ) → List ℤ → ℤ
  | _, _, [] => 0
  | k, c, a :: l => c * a + rowSum n (k + 1) (c * (n - 2 * k) / (2 * k + 1) * (n - (2 * k + 1)) / (2 * k + 2)) l

theorem choose_step (n k : ℕ) : n.choose k * (n - k) / (k + 1) = n.choose (k + 1) := by
  rw [← Nat.choose_succ_right_eq, Nat.mul_div_cancel _ (Nat.succ_pos k)]

theorem rowSum_eq (n k : ℕ) (l : List ℤ) :
    rowSum n k (n.choose (2 * k)) l = ∑ j ∈ range l.length, (n.choose (2 * (k + j)) : ℤ) * l.getD j 0 := by
  induction l generalizing k with
  | nil => simp [rowSum]
  | cons a l ih =>
    rw [rowSum, choose_step, choose_step, show 2 * k + 1 + 1 = 2 * (k + 1) by ring, ih, List.length_cons, Finset.sum_range_succ']
    simp only [List.getD_cons_zero, List.getD_cons_succ, add_zero]
    rw [add_comm]
    congr 1
    exact Finset.sum_congr rfl fun j _ => by rw [show k + 1 + j = k + (j + 1) by ring]

/-- product of the primes up to 401 (von Staudt–Clausen) -/
def bernDen : ℤ := 40786437068665554814618971683922828694582892964708884701862361274616519644579867220074319283900539893834048687270253154873138028145776983601098265140488742774844290

/-- `bernDen * B_{2k}`, `k < m` (`m` at least 1) -/
def bernL : ℕ → List ℤ
  | 0 => [bernDen]
  | m + 1 =>
    let l := bernL m
    l ++ [((2 * (m + 1) + 1 : ℤ) * bernDen / 2 - rowSum (2 * (m + 1) + 1) 0 1 l) / (2 * (m + 1) + 1)]

/-- the recurrence holds in every row -/
def bernCheck (l : List ℤ) : Bool :=
  (List.range 203).all fun m => m == 0 || 2 * rowSum (2 * m + 1) 0 1 (l.take (m + 1)) == (2 * m + 1) * bernDen

theorem bern_rec (m : ℕ) (hm : 0 < m) :
    ∑ j ∈ range (m + 1), ((2 * m + 1).choose (2 * j) : ℚ) * bernoulli (2 * j) = (2 * m + 1) / 2 := by
  have h := sum_bernoulli (2 * m + 1)
  rw [if_neg (by omega)] at h
  have hs : ∀ f : ℕ → ℚ, (∀ k, 1 < k → f (2 * (k - 1) + 1) = 0) → ∀ m, 0 < m →
      ∑ k ∈ range (2 * m + 1), f k = ∑ j ∈ range (m + 1), f (2 * j) + f 1 := by
    intro f hf m hm
    induction m, hm using Nat.le_induction with
    | base => simp [Finset.sum_range_succ]; ring
    | succ m hm ih =>
      rw [show 2 * (m + 1) + 1 = 2 * m + 1 + 1 + 1 by ring, Finset.sum_range_succ, Finset.sum_range_succ, ih, Finset.sum_range_succ _ (m + 1)]
      have := hf (m + 1) (by omega)
      rw [show m + 1 - 1 = m by omega] at this
      rw [this, show 2 * m + 1 + 1 = 2 * (m + 1) by ring]; ring
  rw [hs _ _ m hm] at h
  · rw [bernoulli_one, Nat.choose_one_right] at h
    push_cast at h
    linarith
  · intro k hk
    rw [bernoulli_eq_zero_of_odd ⟨k - 1, rfl⟩ (by omega), mul_zero]

set_option maxRecDepth 100000 in
theorem bernL_certs : bernCheck (bernL 202) = true ∧ (bernL 202).length = 203 ∧ (bernL 202).getD 0 0 = bernDen := by
  decide +kernel

theorem bernDen_pos : 0 < bernDen := by decide +kernel

/-- `B_{2m}` for `m ≤ 202` -/
theorem bernoulli_even (m : ℕ) (hm : m ≤ 202) : bernoulli (2 * m) = ((bernL 202).getD m 0 : ℚ) / bernDen := by
  obtain ⟨hc, hl, h0⟩ := bernL_certs
  obtain ⟨L, hL⟩ : ∃ L, L = bernL 202 := ⟨_, rfl⟩
  rw [← hL] at hc hl h0 ⊢
  have hD : (bernDen : ℚ) ≠ 0 := by exact_mod_cast bernDen_pos.ne'
  induction m using Nat.strong_induction_on with
  | _ m ih =>
    rcases Nat.eq_zero_or_pos m with hz | hz
    · subst hz; rw [h0]; simp [hD]
    · have hr := List.all_eq_true.mp hc m (by simp; omega)
      simp only [Bool.or_eq_true, beq_iff_eq, hz.ne', false_or] at hr
      have e := rowSum_eq (2 * m + 1) 0 (L.take (m + 1))
      rw [Nat.choose_zero_right] at e
      rw [e, List.length_take, hl, show min (m + 1) 203 = m + 1 by omega] at hr
      have e2 : ∀ j ∈ range (m + 1), (((2 * m + 1).choose (2 * (0 + j)) : ℤ) * (L.take (m + 1)).getD j 0) =
          (((2 * m + 1).choose (2 * j) : ℤ) * L.getD j 0) := by
        intro j hj
        rw [Finset.mem_range] at hj
        rw [zero_add, List.getD_eq_getElem _ _ (by simp; omega), List.getD_eq_getElem _ _ (by omega), List.getElem_take]
      rw [Finset.sum_congr rfl e2] at hr
      have hb := bern_rec m hz
      have hr' : 2 * ∑ j ∈ range (m + 1), ((2 * m + 1).choose (2 * j) : ℚ) * (L.getD j 0 : ℚ) = (2 * m + 1) * bernDen := by
        have := congrArg (fun z : ℤ => (z : ℚ)) hr
        push_cast at this; exact this
      rw [Finset.sum_range_succ] at hb hr'
      have e3 : ∑ j ∈ range m, ((2 * m + 1).choose (2 * j) : ℚ) * bernoulli (2 * j)
          = (∑ j ∈ range m, ((2 * m + 1).choose (2 * j) : ℚ) * (L.getD j 0 : ℚ)) / bernDen := by
        rw [Finset.sum_div]
        refine Finset.sum_congr rfl fun j hj => ?_
        rw [Finset.mem_range] at hj
        rw [ih j hj (by omega), mul_div_assoc]
      rw [e3] at hb
      have hch : ((2 * m + 1).choose (2 * m) : ℚ) ≠ 0 := by
        exact_mod_cast (Nat.choose_pos (by omega)).ne'
      rw [eq_div_iff hD]
      apply mul_left_cancel₀ hch
      field_simp at hb
      linear_combination hb / 2 - hr' / 2

end Polylog
