import Verif.Sem.RealLemmas

/-! # Hypotheses on the values of literals -/

namespace Polylog

/-- The compiled literals: decimal literals are converted with relative error at most `u`
(`u = 0`: the decimal constants of the source text; `u = 2^-53`: binary64, round to nearest), and
dyadic rationals with a short numerator (`0`, `1`, `0.5`, `6.28125`, ...) are exact. -/
structure RealSem.Lit (S : RealSem) (u : ℝ) : Prop where
  rel : ∀ q : ℚ, |((S.rho q : ℚ) : ℝ) - (q : ℝ)| ≤ u * |(q : ℝ)|
  dyadic : ∀ (m : ℤ) (k : ℕ), |m| < 2 ^ 24 → k ≤ 24 → S.rho (m / 2 ^ k) = m / 2 ^ k

/-- The reals with the decimal literals of the source text. -/
theorem lit_id (S : RealSem) (h : S.rho = id) : S.Lit 0 where
  rel q := by simp [h]
  dyadic m k _ _ := by simp [h]

/-- a concrete instance used in non-vacuity examples: decimal literals, junk values 0 -/
noncomputable def RealSem.dec : RealSem :=
  ⟨id, 0, 0, 0, fun _ => 0, fun _ => 0, fun _ => 0, fun _ => 0, fun _ _ => 0, fun _ => 0, 0, fun _ => 0, fun _ => 0⟩
theorem RealSem.dec_lit : RealSem.dec.Lit 0 := lit_id _ rfl

namespace RealSem.Lit
variable {S : RealSem} {u : ℝ} (h : S.Lit u)
include h

theorem int (m : ℤ) (hm : |m| < 2 ^ 24) : S.rho m = m := by
  have := h.dyadic m 0 hm (by norm_num); simpa using this

theorem zero : S.rho 0 = 0 := by simpa using h.int 0 (by norm_num)
theorem one : S.rho 1 = 1 := by simpa using h.int 1 (by norm_num)
theorem nat (n : ℕ) (hn : n < 2 ^ 24) : S.rho (n : ℚ) = n := by
  have := h.int (n : ℤ) (by rw [abs_of_nonneg (by positivity)]; exact_mod_cast hn)
  simpa using this
theorem two : S.rho 2 = 2 := by simpa using h.nat 2 (by norm_num)
theorem three : S.rho 3 = 3 := by simpa using h.nat 3 (by norm_num)
theorem four : S.rho 4 = 4 := by simpa using h.nat 4 (by norm_num)
theorem six : S.rho 6 = 6 := by simpa using h.nat 6 (by norm_num)
theorem eight : S.rho 8 = 8 := by simpa using h.nat 8 (by norm_num)
theorem twelve : S.rho 12 = 12 := by simpa using h.nat 12 (by norm_num)
theorem dy (q : ℚ) (m : ℤ) (k : ℕ) (hq : q = m / 2 ^ k) (hm : |m| < 2 ^ 24) (hk : k ≤ 24) :
    S.rho q = q := by rw [hq]; exact h.dyadic m k hm hk
theorem half : S.rho 0.5 = 0.5 := h.dy _ 1 1 (by norm_num) (by norm_num) (by norm_num)
theorem u_nonneg : 0 ≤ u := by
  have := h.rel 1
  simp only [Rat.cast_one, abs_one, mul_one] at this
  exact le_trans (abs_nonneg _) this

end RealSem.Lit
end Polylog
