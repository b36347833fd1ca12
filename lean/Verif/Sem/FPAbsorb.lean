import Verif.Sem.FPVal

/-! # Absorption: adding a small number to a large one does not change it -/

namespace Polylog
variable {φ : Fmt}

/-- a number within `2^-(p+2)` relative of a representable one is rounded to it -/
theorem rndMag_absorb {S q : ℚ} (hS : Repr φ S) (hS0 : 0 < S) (h : |q - S| ≤ S * 2 ^ (-(φ.p : ℤ) - 2)) : rndMag φ q = S := by
  obtain ⟨m, e, he, hm, hSe⟩ := hS
  have h2 : (2:ℚ) ≠ 0 := by norm_num
  have hp := φ.hp
  have hd : (2:ℚ) ^ (-(φ.p : ℤ) - 2) ≤ 1 / 8 := by
    have : (2:ℚ) ^ (-(φ.p : ℤ) - 2) ≤ 2 ^ (-3 : ℤ) := zpow_le_zpow_right₀ (by norm_num) (by omega)
    norm_num at this ⊢; exact this
  set δ : ℚ := 2 ^ (-(φ.p : ℤ) - 2) with hδ
  have hδ0 : 0 < δ := by positivity
  obtain ⟨a1, a2⟩ := abs_le.1 h
  have hq : 0 < q := by nlinarith
  have e4 : (2:ℚ) ^ (-(φ.p : ℤ)) = 4 * δ := by
    rw [hδ, zpow_sub₀ h2]; norm_num; ring
  have hme : S * (4 * δ) < 2 ^ e := by
    rw [hSe, ← e4]
    have hm' : (m:ℚ) < 2 ^ (φ.p : ℤ) := by rw [zpow_natCast]; exact_mod_cast hm
    have : (m:ℚ) * 2 ^ (-(φ.p:ℤ)) < 1 := by
      rw [zpow_neg, ← div_eq_mul_inv, div_lt_one (by positivity)]; exact hm'
    have h3 : (0:ℚ) < 2 ^ e := by positivity
    nlinarith
  -- the unit in the last place of `q` divides `S`
  have hdiv : ∃ M : ℤ, S = M * 2 ^ ulpExp φ q := by
    have mk : ∀ u : ℤ, u ≤ e → ∃ M : ℤ, S = M * 2 ^ u := by
      intro u hu
      refine ⟨m * 2 ^ (e - u).toNat, ?_⟩
      have : (2:ℚ) ^ e = 2 ^ ((e - u).toNat : ℤ) * 2 ^ u := by rw [← zpow_add₀ h2]; congr 1; omega
      rw [hSe, this, zpow_natCast]; push_cast; ring
    rcases le_total (Int.log 2 q - (φ.p - 1)) φ.emin with h5 | h5
    · rw [ulpExp, max_eq_right h5]; exact mk _ he
    · rw [ulpExp, max_eq_left h5]
      obtain ⟨l1, l2⟩ := log_spec hq
      set l := Int.log 2 q with hl
      by_cases hc : l - (φ.p - 1) ≤ e
      · exact mk _ hc
      · exfalso
        push Not at hc
        -- `S < 2^(p+e) ≤ 2^l ≤ q`
        have h6 : S + 2 ^ e ≤ 2 ^ l := by
          have h7 : (2:ℚ) ^ (φ.p + e : ℤ) ≤ 2 ^ l := zpow_le_zpow_right₀ (by norm_num) (by omega)
          refine le_trans ?_ h7
          rw [zpow_add₀ h2, zpow_natCast, hSe]
          have : (m:ℚ) + 1 ≤ 2 ^ φ.p := by exact_mod_cast hm
          have h3 : (0:ℚ) < 2 ^ e := by positivity
          nlinarith
        nlinarith
  obtain ⟨M, hM⟩ := hdiv
  set u := ulpExp φ q with hu
  have hu0 : (0:ℚ) < 2 ^ u := by positivity
  -- the distance is less than half a unit
  have hlt : |q - S| < 2 ^ u / 2 := by
    have h7 : q * (4 * δ) < 2 ^ u := by
      have h8 : (2:ℚ) ^ (Int.log 2 q + 1 - φ.p) ≤ 2 ^ u := zpow_le_zpow_right₀ (by norm_num) (by rw [hu, ulpExp]; have := le_max_left (Int.log 2 q - (φ.p - 1)) φ.emin; omega)
      refine lt_of_lt_of_le ?_ h8
      rw [zpow_sub₀ h2, ← e4, zpow_neg, ← div_eq_mul_inv]
      exact div_lt_div_of_pos_right (log_spec hq).2 (by positivity)
    nlinarith
  unfold rndMag
  rw [← hu]
  have hr : rne (q / 2 ^ u) = M := by
    have h8 : |(q / 2 ^ u) - M| < 1 / 2 := by
      have : q / 2 ^ u - M = (q - S) / 2 ^ u := by rw [hM]; field_simp
      rw [this, abs_div, abs_of_pos hu0, div_lt_iff₀ hu0]; linarith
    have h9 := rne_err (q / 2 ^ u)
    have h10 : |((rne (q / 2 ^ u) - M : ℤ) : ℚ)| < 1 := by
      push_cast
      calc |(rne (q / 2 ^ u) : ℚ) - M| ≤ |(rne (q / 2 ^ u) : ℚ) - q / 2 ^ u| + |q / 2 ^ u - M| := abs_sub_le _ _ _
        _ < 1 := by linarith
    have h11 : |rne (q / 2 ^ u) - M| < 1 := by exact_mod_cast h10
    rw [Int.abs_lt_one_iff] at h11
    omega
  rw [hr, ← hM]

/-- adding less than `2^-(p+2)` relative does not change a floating-point number -/
theorem rq_absorb {S a : ℚ} (hS : Repr φ |S|) (h : |a| ≤ |S| * 2 ^ (-(φ.p : ℤ) - 2)) : rq φ (S + a) = S := by
  have key : ∀ S a : ℚ, Repr φ |S| → 0 < S → |a| ≤ |S| * 2 ^ (-(φ.p : ℤ) - 2) → rq φ (S + a) = S := by
    intro S a hS h0 h
    rw [abs_of_pos h0] at hS h
    have hle : (2:ℚ) ^ (-(φ.p : ℤ) - 2) ≤ 1 := zpow_le_one_of_nonpos₀ (by norm_num) (by have := φ.hp; omega)
    have := (abs_le.1 h).1
    rw [rq_nonneg_eq (by nlinarith)]
    exact rndMag_absorb hS h0 (by rw [add_sub_cancel_left]; exact h)
  rcases lt_trichotomy S 0 with h0 | h0 | h0
  · have := key (-S) (-a) (by rwa [abs_neg]) (by linarith) (by rwa [abs_neg, abs_neg])
    rw [← neg_add, rq_neg] at this
    linarith
  · rw [h0, abs_zero, zero_mul] at h
    have := abs_nonpos_iff.1 h
    rw [h0, this, add_zero, rq_zero]
  · exact key S a hS h0 h

end Polylog
