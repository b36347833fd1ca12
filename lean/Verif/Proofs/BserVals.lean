import Verif.Proofs.BserTab
import Verif.Proofs.BernSer

/-! # Certification of the exact coefficient tables -/

namespace Polylog
open Finset

/-- scalar product of two lists -/
def dotQ : List ℚ → List ℚ → ℚ
  | [], _ => 0
  | a :: as, l => a * l.headD 0 + dotQ as l.tail

theorem dotQ_eq (a b : List ℚ) : dotQ a b = ∑ k ∈ range a.length, a.getD k 0 * b.getD k 0 := by
  induction a generalizing b with
  | nil => simp [dotQ]
  | cons x xs ih =>
    rw [dotQ, ih, List.length_cons, Finset.sum_range_succ']
    have e : ∀ k, b.tail.getD k 0 = b.getD (k + 1) 0 := by intro k; cases b <;> simp
    have e0 : b.headD 0 = b.getD 0 0 := by cases b <;> simp
    simp only [e, e0, List.getD_cons_succ, List.getD_cons_zero]
    ring

/-- the `n`-th coefficient of the product of two power series -/
def convQ (a b : List ℚ) (n : ℕ) : ℚ := dotQ (a.take (n + 1)) (b.take (n + 1)).reverse

theorem convQ_eq (a b : List ℚ) (n : ℕ) (ha : n < a.length) (hb : n < b.length) :
    convQ a b n = ∑ ij ∈ Finset.antidiagonal n, a.getD ij.1 0 * b.getD ij.2 0 := by
  rw [convQ, dotQ_eq, List.length_take, min_eq_left (by omega), Finset.Nat.sum_antidiagonal_eq_sum_range_succ (fun i j => a.getD i 0 * b.getD j 0)]
  refine Finset.sum_congr rfl fun k hk => ?_
  rw [Finset.mem_range] at hk
  have h1 : (a.take (n + 1)).getD k 0 = a.getD k 0 := by
    rw [List.getD_eq_getElem _ _ (by simp; omega), List.getD_eq_getElem _ _ (by omega), List.getElem_take]
  have h2 : (b.take (n + 1)).reverse.getD k 0 = b.getD (n - k) 0 := by
    rw [List.getD_eq_getElem _ _ (by simp; omega), List.getD_eq_getElem _ _ (by omega), List.getElem_reverse, List.getElem_take]
    congr 1
    simp; omega
  rw [h1, h2]

/-- `1/(k+1)!` -/
def expT : List ℚ := (List.range 64).map fun k => 1 / ((k + 1).factorial : ℚ)

theorem expT_get (k : ℕ) (hk : k < 64) : expT.getD k 0 = 1 / ((k + 1).factorial : ℚ) := by
  rw [List.getD_eq_getElem _ _ (by simp [expT]; omega)]; simp [expT]

theorem bernT_check : bernT.length = 64 ∧ ((List.range 64).all fun n => convQ bernT expT n == if n = 0 then 1 else 0) = true := by
  decide +kernel

theorem bernT_eq (k : ℕ) (hk : k < 64) : bernT.getD k 0 = bernoulli k / k.factorial := by
  obtain ⟨hl, hc⟩ := bernT_check
  induction k using Nat.strong_induction_on with
  | _ k ih =>
    have h := List.all_eq_true.mp hc k (by simpa using hk)
    rw [beq_iff_eq, convQ_eq _ _ _ (by omega) (by simp [expT]; omega),
      Finset.Nat.sum_antidiagonal_eq_sum_range_succ (fun i j => bernT.getD i 0 * expT.getD j 0), Finset.sum_range_succ] at h
    have hs := sum_bernoulli (k + 1)
    rw [Finset.sum_range_succ] at hs
    have hfac : ((k + 1).factorial : ℚ) ≠ 0 := by exact_mod_cast Nat.factorial_ne_zero _
    have key : ∀ j, j ≤ k → ((k + 1).choose j : ℚ) * bernoulli j = ((k + 1).factorial : ℚ) * (bernoulli j / j.factorial * (1 / ((k - j + 1).factorial : ℚ))) := by
      intro j hj
      rw [Nat.cast_choose ℚ (show j ≤ k + 1 by omega), show k + 1 - j = k - j + 1 by omega]
      field_simp
    rw [Finset.sum_congr rfl (fun j hj => key j (by rw [Finset.mem_range] at hj; omega)), key k le_rfl, ← Finset.mul_sum, ← mul_add] at hs
    have e1 : ∀ j ∈ range k, bernT.getD j 0 * expT.getD (k - j) 0 = bernoulli j / j.factorial * (1 / ((k - j + 1).factorial : ℚ)) := by
      intro j hj
      rw [Finset.mem_range] at hj
      rw [ih j hj (by omega), expT_get _ (by omega)]
    rw [Finset.sum_congr rfl e1, expT_get _ (by omega)] at h
    simp only [Nat.sub_self, zero_add, Nat.factorial_one, Nat.cast_one, div_one, mul_one] at h hs
    by_cases h0 : k = 0
    · subst h0; simp at h hs ⊢; exact h
    · rw [if_neg h0] at h
      rw [if_neg (by omega)] at hs
      have := (mul_eq_zero.mp hs).resolve_left hfac
      linarith

/-- `(k+1) t_k = (s * b)_k` -/
def bserCheck (s t : List ℚ) : Bool := t.length == 64 && (List.range 64).all fun k => t.getD k 0 * (k + 1) == convQ s bernT k

theorem bserT_step {n : ℕ} {s t : List ℚ} (hs : s.length = 64) (h : ∀ k < 64, s.getD k 0 = bserQ n k) (hc : bserCheck s t = true) :
    t.length = 64 ∧ ∀ k < 64, t.getD k 0 = bserQ (n + 1) k := by
  rw [bserCheck, Bool.and_eq_true, beq_iff_eq] at hc
  refine ⟨hc.1, fun k hk => ?_⟩
  have h1 := List.all_eq_true.mp hc.2 k (by simpa using hk)
  rw [beq_iff_eq, convQ_eq _ _ _ (by omega) (by rw [bernT_check.1]; omega)] at h1
  rw [bserQ, eq_div_iff (by positivity), h1]
  refine Finset.sum_congr rfl fun ij hij => ?_
  have hk' : ij.1 + ij.2 = k := Finset.mem_antidiagonal.mp hij
  rw [h _ (by omega), bernT_eq _ (by omega)]

def bserT0 : List ℚ := 1 :: List.replicate 63 0

theorem bserT0_eq : bserT0.length = 64 ∧ ∀ k < 64, bserT0.getD k 0 = bserQ 0 k := by
  refine ⟨by simp [bserT0], fun k hk => ?_⟩
  rw [bserT0, bserQ]
  cases k with
  | zero => simp
  | succ k =>
    rw [List.getD_cons_succ, List.getD_eq_getElem _ _ (by simp; omega), List.getElem_replicate, if_neg (by omega)]

theorem bserT1_check : bserCheck bserT0 bserT1 = true := by decide +kernel
theorem bserT2_check : bserCheck bserT1 bserT2 = true := by decide +kernel
theorem bserT3_check : bserCheck bserT2 bserT3 = true := by decide +kernel
theorem bserT4_check : bserCheck bserT3 bserT4 = true := by decide +kernel
theorem bserT5_check : bserCheck bserT4 bserT5 = true := by decide +kernel

theorem bserT1_eq : bserT1.length = 64 ∧ ∀ k < 64, bserT1.getD k 0 = bserQ 1 k :=
  bserT_step bserT0_eq.1 bserT0_eq.2 bserT1_check
theorem bserT2_eq : bserT2.length = 64 ∧ ∀ k < 64, bserT2.getD k 0 = bserQ 2 k :=
  bserT_step bserT1_eq.1 bserT1_eq.2 bserT2_check
theorem bserT3_eq : bserT3.length = 64 ∧ ∀ k < 64, bserT3.getD k 0 = bserQ 3 k :=
  bserT_step bserT2_eq.1 bserT2_eq.2 bserT3_check
theorem bserT4_eq : bserT4.length = 64 ∧ ∀ k < 64, bserT4.getD k 0 = bserQ 4 k :=
  bserT_step bserT3_eq.1 bserT3_eq.2 bserT4_check
theorem bserT5_eq : bserT5.length = 64 ∧ ∀ k < 64, bserT5.getD k 0 = bserQ 5 k :=
  bserT_step bserT4_eq.1 bserT4_eq.2 bserT5_check

end Polylog
