import Verif.Proofs.ClMid

/-! # The table `B[]` of `Cl.cpp` -/

noncomputable section
namespace Polylog
open Finset

/-- check of the entries `k, k+1, ...` of the table; `s = (-1)^k`, `f = (2k)!` -/
def clBchk : (k : ℕ) → (s : ℚ) → (f : ℚ) → List ℚ → List ℤ → Bool
  | _, _, _, [], _ => true
  | _, _, _, _ :: _, [] => false
  | k, s, f, b :: bs, z :: zs =>
    decide (|b * (f * bernDen) - s * z| * (10 ^ 17 : ℕ) ≤ 6 * |s * z|) && clBchk (k + 1) (-s) (f * (2 * k + 1 : ℕ) * (2 * k + 2 : ℕ)) bs zs

theorem clBchk_sound (bs : List ℚ) : ∀ (k : ℕ) (zs : List ℤ), clBchk k ((-1) ^ k) ((2 * k).factorial) bs zs = true → ∀ i < bs.length,
    |bs.getD i 0 * ((2 * (k + i)).factorial * bernDen) - (-1) ^ (k + i) * zs.getD i 0| * (10 ^ 17 : ℕ) ≤ 6 * |(-1) ^ (k + i) * (zs.getD i 0 : ℚ)| := by
  induction bs with
  | nil => intro k zs h i hi; simp at hi
  | cons b bs ih =>
    intro k zs h i hi
    match zs with
    | [] => simp [clBchk] at h
    | z :: zs =>
      rw [clBchk, Bool.and_eq_true, decide_eq_true_eq] at h
      obtain ⟨h1, h2⟩ := h
      cases i with
      | zero => simpa using h1
      | succ i =>
        have e1 : -(-1:ℚ) ^ k = (-1) ^ (k + 1) := by rw [pow_succ]; ring
        have e2 : ((2 * k).factorial : ℚ) * (2 * k + 1 : ℕ) * (2 * k + 2 : ℕ) = ((2 * (k + 1)).factorial : ℚ) := by
          rw [show 2 * (k + 1) = 2 * k + 1 + 1 by ring, Nat.factorial_succ, Nat.factorial_succ]; push_cast; ring
        rw [e1, e2] at h2
        have := ih (k + 1) zs h2 i (by simpa using hi)
        rw [show k + 1 + i = k + (i + 1) by ring] at this
        simpa using this

set_option maxRecDepth 100000 in
theorem clB_check : clBchk 1 (-1) 2 clB.toList (bernL 202).tail = true := by decide +kernel

/-- every entry of `B[]` is `-|B_{2k}|/(2k)!` to 16 significant digits (`L_k = |B_{2k}|/(2k (2k)!)`) -/
theorem clB_close (k : ℕ) (hk : k < 202) : |((clB[k] : ℚ) : ℝ) + 2 * (k + 1) * lC (k + 1)| ≤ 6e-17 * |2 * (k + 1) * lC (k + 1)| := by
  have h := clBchk_sound clB.toList 1 (bernL 202).tail (by simpa using clB_check) k (by simpa using hk)
  have et : (bernL 202).tail.getD k 0 = (bernL 202).getD (k + 1) 0 := by
    generalize bernL 202 = l
    cases l <;> simp
  rw [et] at h
  have e : clB.toList.getD k 0 = clB[k] := by
    rw [List.getD_eq_getElem _ _ (by simpa using hk)]; simp
  rw [e] at h
  have hl : 2 * (k + 1) * lC (k + 1) = -((((-1) ^ (1 + k) * ((bernL 202).getD (k + 1) 0 : ℚ) / ((2 * (1 + k)).factorial * bernDen) : ℚ)) : ℝ) := by
    rw [lC, loC_gt 0 0 (k + 1) (by omega), show k + 1 - 0 = k + 1 by omega, bernoulli_even (k + 1) (by omega), add_comm 1 k]
    have : (bernDen : ℝ) ≠ 0 := by exact_mod_cast bernDen_pos.ne'
    have h4 : ((2 * (k + 1) + 0).factorial : ℝ) ≠ 0 := by exact_mod_cast (Nat.factorial_ne_zero _)
    have h5 : (k:ℝ) + 1 ≠ 0 := by positivity
    push_cast
    rw [add_zero] at *
    field_simp
  rw [hl, ← sub_eq_add_neg, abs_neg]
  have hd : (0:ℚ) < (2 * (1 + k)).factorial * bernDen := mul_pos (by exact_mod_cast Nat.factorial_pos _) (by exact_mod_cast bernDen_pos)
  have : |clB[k] - (-1) ^ (1 + k) * ((bernL 202).getD (k + 1) 0 : ℚ) / ((2 * (1 + k)).factorial * bernDen)| ≤
      6e-17 * |(-1) ^ (1 + k) * ((bernL 202).getD (k + 1) 0 : ℚ) / ((2 * (1 + k)).factorial * bernDen)| := by
    generalize ((2 * (1 + k)).factorial : ℚ) * bernDen = D at *
    generalize (-1) ^ (1 + k) * ((bernL 202).getD (k + 1) 0 : ℚ) = z at *
    rw [show clB[k] - z / D = (clB[k] * D - z) / D by field_simp, abs_div, abs_div, ← mul_div_assoc]
    refine div_le_div_of_nonneg_right ?_ (abs_nonneg _)
    push_cast at h
    have h10 : (10:ℚ) ^ 17 > 0 := by norm_num
    norm_num at h ⊢
    linarith
  have h' := (Rat.cast_le (K := ℝ)).mpr this
  push_cast at h' ⊢
  exact h'

end Polylog
