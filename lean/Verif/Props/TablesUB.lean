import Verif.Model.Tables

/-! # C05: definedness of the table look-ups, for every `int64_t` argument and every arithmetic `F` -/

namespace Polylog

variable {F : Type} [FOps F]

/-- the computation has defined behaviour: it returns a value -/
def Defined {α : Type} (m : M α) : Prop := ∃ v, m = .ok v
/-- the range of `int64_t` -/
def InI64 (n : Int) : Prop := i64min ≤ n ∧ n ≤ i64max

theorem i64_ok {v : Int} (h : i64min ≤ v ∧ v ≤ i64max) : i64 v = .ok v := by
  unfold i64; rw [if_pos h]; rfl
theorem i64_err {v : Int} (h : ¬ (i64min ≤ v ∧ v ≤ i64max)) : i64 v = .error .overflow := by
  unfold i64; rw [if_neg h]; rfl
theorem arrGet_ok {α : Type} {N : Nat} (a : Vector α N) (i : Int) (h : 0 ≤ i ∧ i.toNat < N) :
    arrGet a i = .ok (a[i.toNat]'h.2) := by
  unfold arrGet; rw [dif_pos h]; rfl

theorem isEven_iff (n : Int) : isEven n = true ↔ n % 2 = 0 := by
  unfold isEven; simp only [beq_iff_eq]
  rw [← Int.dvd_iff_tmod_eq_zero, Int.dvd_iff_emod_eq_zero]

/-- **C05 (zeta).** `zeta(n)` has defined behaviour exactly for `n ≠ INT64_MIN + 1`. -/
theorem C05_zeta (n : Int) (hn : InI64 n) :
    Defined (zeta n : M F) ↔ n ≠ i64min + 1 := by
  unfold InI64 at hn
  unfold zeta
  by_cases h0 : n < 0
  · rw [if_pos h0]
    cases he : isEven n
    · have ho : n % 2 = 1 := by
        have := isEven_iff n; rw [he] at this; simp at this; omega
      simp only [Bool.false_eq_true, if_false]
      simp only [i64min, i64max] at hn
      have h1 : i64add 1 n = .ok (1 + n) := i64_ok (by simp only [i64min, i64max]; omega)
      have h2 : i64neg (1 + n) = .ok (-(1 + n)) := i64_ok (by simp only [i64min, i64max]; omega)
      rw [h1]; simp only [bind, Except.bind]; rw [h2]; simp only []
      have hd : i64div (-(1 + n)) 2 = (-(1 + n)) / 2 := by
        unfold i64div; rw [Int.tdiv_eq_ediv_of_nonneg (by omega)]
      rw [hd]
      split
      · rename_i hlt
        rw [arrGet_ok _ _ ⟨by omega, by omega⟩]
        simp only [i64min]
        constructor
        · intro _; omega
        · intro _; exact ⟨_, rfl⟩
      · by_cases hm : n = i64min + 1
        · have h3 : i64sub 1 n = .error .overflow := i64_err (by subst hm; decide)
          rw [h3]
          simp [hm, Defined]
        · have h3 : i64sub 1 n = .ok (1 - n) := i64_ok (by simp only [i64min, i64max] at *; omega)
          rw [h3]
          simp only [hm, ne_eq, not_false_eq_true, iff_true]
          split <;> exact ⟨_, rfl⟩
    · have := (isEven_iff n).mp he
      simp only [if_true, i64min]
      constructor
      · intro _; omega
      · intro _; exact ⟨_, rfl⟩
  · have hm : n ≠ i64min + 1 := by simp only [i64min]; omega
    simp only [h0, if_false, hm, ne_eq, not_false_eq_true, iff_true]
    split
    · exact ⟨_, rfl⟩
    split
    · exact ⟨_, rfl⟩
    have h1 : i64sub n 2 = .ok (n - 2) := i64_ok (by simp only [i64min, i64max] at *; omega)
    rw [h1]; simp only [bind, Except.bind]
    split
    · rw [arrGet_ok _ _ ⟨by omega, by omega⟩]; exact ⟨_, rfl⟩
    · exact ⟨_, rfl⟩

/-- **C05 (neg_eta).** `neg_eta(n)` has defined behaviour exactly for `n ≠ INT64_MIN + 1`. -/
theorem C05_neg_eta (n : Int) (hn : InI64 n) :
    Defined (negEta n : M F) ↔ n ≠ i64min + 1 := by
  unfold InI64 at hn
  unfold negEta
  by_cases h0 : n < 0
  · rw [if_pos h0]
    cases he : isEven n
    · have ho : n % 2 = 1 := by
        have := isEven_iff n; rw [he] at this; simp at this; omega
      simp only [Bool.false_eq_true, if_false]
      simp only [i64min, i64max] at hn
      have h1 : i64add 1 n = .ok (1 + n) := i64_ok (by simp only [i64min, i64max]; omega)
      have h2 : i64neg (1 + n) = .ok (-(1 + n)) := i64_ok (by simp only [i64min, i64max]; omega)
      rw [h1]; simp only [bind, Except.bind]; rw [h2]; simp only []
      have hd : i64div (-(1 + n)) 2 = (-(1 + n)) / 2 := by
        unfold i64div; rw [Int.tdiv_eq_ediv_of_nonneg (by omega)]
      rw [hd]
      split
      · rename_i hlt
        rw [arrGet_ok _ _ ⟨by omega, by omega⟩]
        simp only [i64min]
        constructor
        · intro _; omega
        · intro _; exact ⟨_, rfl⟩
      · by_cases hm : n = i64min + 1
        · have h3 : i64sub 1 n = .error .overflow := i64_err (by subst hm; decide)
          rw [h3]
          simp [hm, Defined]
        · have h3 : i64sub 1 n = .ok (1 - n) := i64_ok (by simp only [i64min, i64max] at *; omega)
          rw [h3]
          simp only [hm, ne_eq, not_false_eq_true, iff_true]
          split <;> exact ⟨_, rfl⟩
    · have := (isEven_iff n).mp he
      simp only [if_true, i64min]
      constructor
      · intro _; omega
      · intro _; exact ⟨_, rfl⟩
  · have hm : n ≠ i64min + 1 := by simp only [i64min]; omega
    simp only [h0, if_false, hm, ne_eq, not_false_eq_true, iff_true]
    split
    · exact ⟨_, rfl⟩
    split
    · have h1 : i64sub n 1 = .ok (n - 1) := i64_ok (by simp only [i64min, i64max] at *; omega)
      rw [h1]; simp only [bind, Except.bind]
      rw [arrGet_ok _ _ ⟨by omega, by omega⟩]; exact ⟨_, rfl⟩
    · exact ⟨_, rfl⟩

/-- The fault at the exceptional point is a signed overflow (of `1 - n`). -/
theorem C05_zeta_fault : (zeta (i64min + 1) : M F) = .error .overflow ∧
    (negEta (i64min + 1) : M F) = .error .overflow := ⟨rfl, rfl⟩

/-- **C05 (inv_fac).** `inv_fac(n)` has defined behaviour for every `n`. -/
theorem C05_inv_fac (n : Int) : Defined (invFac n : M F) := by
  unfold invFac
  split
  · exact ⟨_, rfl⟩
  split
  · rw [arrGet_ok _ _ ⟨by omega, by omega⟩]; exact ⟨_, rfl⟩
  · exact ⟨_, rfl⟩

/-- **C05 (harmonic).** `harmonic(n)` has defined behaviour exactly for `n ≠ INT64_MAX`. -/
theorem C05_harmonic (n : Int) (hn : InI64 n) :
    Defined (harmonic n : M F) ↔ n ≠ i64max := by
  unfold harmonic
  unfold InI64 at hn
  split
  · simp only [i64max]; exact ⟨fun _ => by omega, fun _ => ⟨_, rfl⟩⟩
  split
  · simp only [i64max]; exact ⟨fun _ => by omega, fun _ => ⟨_, rfl⟩⟩
  by_cases hm : n = i64max
  · have h3 : i64add n 1 = .error .overflow := i64_err (by subst hm; decide)
    rw [h3]; simp [hm, Defined, bind, Except.bind]
  · have h3 : i64add n 1 = .ok (n + 1) := i64_ok (by simp only [i64min, i64max] at *; omega)
    rw [h3]; simp only [hm, ne_eq, not_false_eq_true, iff_true]
    exact ⟨_, rfl⟩

/-- The fault at the exceptional point is a signed overflow (of `n + 1`). -/
theorem C05_harmonic_fault : (harmonic i64max : M F) = .error .overflow := rfl

/-- non-vacuity: the exceptional points and regular points are all in range -/
example : InI64 (i64min + 1) ∧ InI64 i64max ∧ InI64 (-259) ∧ (-259 : Int) ≠ i64min + 1 := by
  unfold InI64; decide

end Polylog
