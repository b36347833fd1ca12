import Verif.Sem.Lit
import Verif.Sem.IEEE

/-! # Literals as the compiler stores them

`rhoBits p` rounds a decimal literal to the nearest number with a `p`-bit significand (ties to even), the
conversion a compiler performs (`p = 24, 53, 64, 113`), ignoring the exponent range: the only literals of the
source outside of the normal range of their format are the last entries of `B[]` in Cl.cpp. -/

noncomputable section
namespace Polylog

/-- exponent of the last significand bit -/
def bitsExp (p : ℕ) (a : ℚ) : ℤ := Int.log 2 |a| - (p - 1)
/-- round to nearest, ties to even, `p` bits -/
def rhoBits (p : ℕ) (q : ℚ) : ℚ := if q < 0 then -(rne (|q| / 2 ^ bitsExp p q) * 2 ^ bitsExp p q) else rne (|q| / 2 ^ bitsExp p q) * 2 ^ bitsExp p q

theorem rhoBits_neg (p : ℕ) (q : ℚ) : rhoBits p (-q) = -rhoBits p q := by
  rcases lt_trichotomy q 0 with h | h | h
  · rw [rhoBits, rhoBits, if_neg (by linarith), if_pos h, bitsExp, bitsExp, abs_neg]; ring
  · subst h; simp [rhoBits, show rne 0 = 0 from rne_int 0]
  · rw [rhoBits, rhoBits, if_pos (by linarith), if_neg (by linarith), bitsExp, bitsExp, abs_neg]

theorem rhoBits_pos {p : ℕ} {q : ℚ} (h : 0 < q) : rhoBits p q = rne (q / 2 ^ bitsExp p q) * 2 ^ bitsExp p q := by
  rw [rhoBits, if_neg (not_lt.mpr h.le), abs_of_pos h]

theorem rhoBits_zero (p : ℕ) : rhoBits p 0 = 0 := by simp [rhoBits, show rne 0 = 0 from rne_int 0]

theorem rhoBits_rel_pos {p : ℕ} {q : ℚ} (h : 0 < q) : |rhoBits p q - q| ≤ 1 / 2 ^ p * q := by
  rw [rhoBits_pos h]
  have he := two_zpow_pos (bitsExp p q)
  have h1 := rne_err (q / 2 ^ bitsExp p q)
  have h2 : (rne (q / 2 ^ bitsExp p q) : ℚ) * 2 ^ bitsExp p q - q = ((rne (q / 2 ^ bitsExp p q) : ℚ) - q / 2 ^ bitsExp p q) * 2 ^ bitsExp p q := by
    field_simp
  rw [h2, abs_mul, abs_of_pos he]
  have h3 := (log_spec h).1
  have h4 : (2:ℚ) ^ bitsExp p q * 2 ^ p = 2 * 2 ^ Int.log 2 q := by
    rw [bitsExp, abs_of_pos h, ← zpow_natCast, ← zpow_add₀ (by norm_num), ← zpow_one_add₀ (by norm_num)]
    congr 1; ring
  have h5 : (2:ℚ) ^ bitsExp p q / 2 ≤ 1 / 2 ^ p * q := by
    rw [div_mul_eq_mul_div, one_mul, le_div_iff₀ (by positivity)]
    linarith
  nlinarith

theorem rhoBits_rel (p : ℕ) (q : ℚ) : |rhoBits p q - q| ≤ 1 / 2 ^ p * |q| := by
  rcases lt_trichotomy q 0 with h | h | h
  · have := rhoBits_rel_pos (p := p) (neg_pos.mpr h)
    rw [rhoBits_neg] at this
    rw [abs_of_neg h, abs_sub_comm]
    convert this using 2; ring
  · subst h; simp [rhoBits_zero]
  · rw [abs_of_pos h]; exact rhoBits_rel_pos h

theorem rhoBits_dyadic_pos {p : ℕ} (hp : 24 ≤ p) {m : ℤ} {k : ℕ} (hm : 0 < m) (hm2 : m < 2 ^ 24) : rhoBits p (m / 2 ^ k) = m / 2 ^ k := by
  have hq : (0:ℚ) < m / 2 ^ k := by have : (0:ℚ) < m := by exact_mod_cast hm
                                    positivity
  rw [rhoBits_pos hq]
  set e := bitsExp p (m / 2 ^ k : ℚ) with he
  have h1 := (log_spec hq).1
  have h2 : (m:ℚ) / 2 ^ k < 2 ^ (24 - (k:ℤ)) := by
    rw [zpow_sub₀ (by norm_num), zpow_natCast]
    refine div_lt_div_of_pos_right ?_ (by positivity)
    exact_mod_cast hm2
  have h3 : Int.log 2 (m / 2 ^ k : ℚ) < 24 - (k:ℤ) := by
    by_contra hc
    have := zpow_le_zpow_right₀ (by norm_num : (1:ℚ) ≤ 2) (not_lt.mp hc)
    linarith
  have h4 : e ≤ -(k:ℤ) := by rw [he, bitsExp, abs_of_pos hq]; omega
  obtain ⟨n, hn⟩ := Int.eq_ofNat_of_zero_le (by omega : 0 ≤ -(k:ℤ) - e)
  have h5 : (m:ℚ) / 2 ^ k / 2 ^ e = ((m * 2 ^ n : ℤ) : ℚ) := by
    push_cast
    rw [← zpow_natCast, ← zpow_natCast (2:ℚ) n, ← hn, zpow_sub₀ (by norm_num), zpow_neg]
    field_simp
  rw [h5, rne_int, ← h5]
  field_simp

theorem rhoBits_dyadic {p : ℕ} (hp : 24 ≤ p) (m : ℤ) (k : ℕ) (hm : |m| < 2 ^ 24) : rhoBits p (m / 2 ^ k) = m / 2 ^ k := by
  have hm' := abs_lt.mp hm
  rcases lt_trichotomy m 0 with h | h | h
  · have := rhoBits_dyadic_pos hp (m := -m) (k := k) (by omega) (by omega)
    rw [Int.cast_neg, neg_div, rhoBits_neg] at this
    linarith
  · subst h; simp [rhoBits_zero]
  · exact rhoBits_dyadic_pos hp h hm'.2

/-- exact arithmetic with the literals as stored in a format with a `p`-bit significand; junk values 0 -/
def RealSem.bits (p : ℕ) : RealSem :=
  ⟨rhoBits p, 0, 0, 0, fun _ => 0, fun _ => 0, fun _ => 0, fun _ => 0, fun _ _ => 0, fun _ => 0, 0, fun _ => 0, fun _ => 0⟩

/-- the literals of a format with `p ≥ 24` significand bits meet the hypothesis of the accuracy theorems -/
theorem RealSem.lit_of_bits {S : RealSem} {p : ℕ} (hp : 24 ≤ p) (h : S.rho = rhoBits p) : S.Lit (1 / 2 ^ p) where
  rel q := by
    have := (Rat.cast_le (K := ℝ)).mpr (rhoBits_rel p q)
    rw [h]; push_cast at this ⊢; exact this
  dyadic m k hm _ := by rw [h]; exact rhoBits_dyadic hp m k hm

theorem RealSem.bits_lit {p : ℕ} (hp : 24 ≤ p) : (RealSem.bits p).Lit (1 / 2 ^ p) := RealSem.lit_of_bits hp rfl

/-- evaluating a literal: value `n * 2^e` with the nearest `p`-bit significand `n` -/
theorem rhoBits_eval {p : ℕ} {q : ℚ} (e : ℤ) (n : ℤ) (h1 : (2:ℚ) ^ (e + (p - 1)) ≤ q) (h2 : q < 2 ^ (e + (p - 1) + 1))
    (h3 : |q / 2 ^ e - n| < 1 / 2) : rhoBits p q = n * 2 ^ e := by
  have hq : 0 < q := lt_of_lt_of_le (by positivity) h1
  have hb : bitsExp p q = e := by rw [bitsExp, abs_of_pos hq, log_eq h1 h2]; ring
  rw [rhoBits_pos hq, hb]
  have h4 := rne_err (q / 2 ^ e)
  have : |((rne (q / 2 ^ e) - n : ℤ) : ℚ)| < 1 := by
    push_cast
    calc _ ≤ _ := abs_sub_le _ (q / 2 ^ e) _
      _ < 1 := by linarith
  have h6 : rne (q / 2 ^ e) = n := by
    have : |rne (q / 2 ^ e) - n| < 1 := by exact_mod_cast this
    rw [abs_lt] at this; omega
  rw [h6]

end Polylog
