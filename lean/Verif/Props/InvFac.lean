import Verif.Props.TablesUB
import Verif.Sem.Lit
import Mathlib.Data.Nat.Factorial.Basic
import Mathlib.Algebra.Order.Ring.Rat

/-! # C03: `inv_fac(n)` is `1/n!` -/

namespace Polylog

set_option maxRecDepth 100000 in
/-- the whole table, entry by entry -/
theorem inverseFactorials_table :
    ∀ i : Fin 178, |inverseFactorials[i.1] * (i.1.factorial : ℚ) - 1| ≤ 5 / 10 ^ 17 := by
  decide +kernel

/-- **C03 (n < 0).** `inv_fac(n)` is NaN. -/
theorem C03_neg {F : Type} [FOps F] (n : Int) (h : n < 0) : (invFac n : M F) = .ok FOps.nan := by
  unfold invFac; rw [if_pos h]; rfl

/-- **C03 (0 ≤ n < 178).** `inv_fac(n)` is the literal of a decimal number that agrees with `1/n!` to relative
accuracy 5e-17 (in every arithmetic `F`). -/
theorem C03_table {F : Type} [FOps F] (n : ℕ) (h : n < 178) :
    ∃ c : ℚ, (invFac n : M F) = .ok (FOps.lit c) ∧
      |c - 1 / (n.factorial : ℚ)| ≤ 5 / 10 ^ 17 * (1 / (n.factorial : ℚ)) := by
  refine ⟨inverseFactorials[n], ?_, ?_⟩
  · unfold invFac
    rw [if_neg (by omega), if_pos (by omega), arrGet_ok _ _ ⟨by omega, by omega⟩]
    rfl
  · have := inverseFactorials_table ⟨n, h⟩
    have hp : (0 : ℚ) < n.factorial := by exact_mod_cast Nat.factorial_pos n
    have e : inverseFactorials[n] - 1 / (n.factorial : ℚ)
        = (inverseFactorials[n] * (n.factorial : ℚ) - 1) * (1 / (n.factorial : ℚ)) := by field_simp
    rw [e, abs_mul, abs_of_pos (show (0 : ℚ) < 1 / (n.factorial : ℚ) by positivity)]
    gcongr

/-- **C03 (real value).** with compiled literals of relative error `u` -/
theorem C03_real {S : RealSem} {u : ℝ} (hS : S.Lit u) (n : ℕ) (h : n < 178) :
    ∃ v : R S, invFac n = .ok v ∧
      |ofR v - 1 / (n.factorial : ℝ)| ≤ (5 / 10 ^ 17 + u * (1 + 5 / 10 ^ 17)) * (1 / (n.factorial : ℝ)) := by
  obtain ⟨c, hc, hb⟩ := C03_table (F := R S) n h
  refine ⟨_, hc, ?_⟩
  have hb' : |(c : ℝ) - 1 / (n.factorial : ℝ)| ≤ 5 / 10 ^ 17 * (1 / (n.factorial : ℝ)) := by
    have := (Rat.cast_le (K := ℝ)).mpr hb
    push_cast at this; exact this
  have hr := hS.rel c
  rw [ofR_lit]
  have hp : (0 : ℝ) < 1 / (n.factorial : ℝ) := by
    have : (0 : ℝ) < n.factorial := by exact_mod_cast Nat.factorial_pos n
    positivity
  have hcabs : |(c : ℝ)| ≤ (1 + 5 / 10 ^ 17) * (1 / (n.factorial : ℝ)) := by
    have := abs_sub_abs_le_abs_sub (c : ℝ) (1 / (n.factorial : ℝ))
    rw [abs_of_pos hp] at this
    linarith
  calc |((S.rho c : ℚ) : ℝ) - 1 / (n.factorial : ℝ)|
      ≤ |((S.rho c : ℚ) : ℝ) - c| + |(c : ℝ) - 1 / (n.factorial : ℝ)| := abs_sub_le _ _ _
    _ ≤ u * |(c : ℝ)| + 5 / 10 ^ 17 * (1 / (n.factorial : ℝ)) := add_le_add hr hb'
    _ ≤ u * ((1 + 5 / 10 ^ 17) * (1 / (n.factorial : ℝ))) + 5 / 10 ^ 17 * (1 / (n.factorial : ℝ)) := by
        gcongr; exact hS.u_nonneg
    _ = _ := by ring

/-- **C03 (n ≥ 178).** `inv_fac(n)` is 0, and `1/n!` is less than half the smallest positive double. -/
theorem C03_tail {F : Type} [FOps F] (n : ℕ) (h : 178 ≤ n) :
    (invFac n : M F) = .ok (FOps.lit 0) ∧ 1 / (n.factorial : ℚ) < 1 / 2 ^ 1075 := by
  constructor
  · unfold invFac; rw [if_neg (by omega), if_neg (by omega)]; rfl
  · have h1 : 2 ^ 1075 < (178).factorial := by decide +kernel
    have h2 : (178).factorial ≤ n.factorial := Nat.factorial_le h
    apply one_div_lt_one_div_of_lt (by positivity)
    exact_mod_cast lt_of_lt_of_le h1 h2

/-- The table is not longer than needed: `1/177!` is still at least half the smallest positive double. -/
theorem C03_tail_sharp : 1 / 2 ^ 1075 ≤ 1 / ((177).factorial : ℚ) := by
  have h1 : (177).factorial ≤ 2 ^ 1075 := by decide +kernel
  apply one_div_le_one_div_of_le (by exact_mod_cast Nat.factorial_pos _)
  exact_mod_cast h1

/-- non-vacuity: an entry in the middle of the table -/
example : (100 : ℕ) < 178 ∧ RealSem.dec.Lit 0 := ⟨by decide, RealSem.dec_lit⟩

end Polylog
