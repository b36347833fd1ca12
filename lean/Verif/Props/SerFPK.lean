import Verif.Props.SerFP

/-! # Number of terms of the truncated series of `Sl` and `Cl` in IEEE double precision -/

namespace Polylog
set_option linter.style.longLine false
open Finset

variable {L : Lib}

/-- `u = 2^-53` -/
local notation "υ" => uR binary64

theorem val_ceil {x : FV} {t : ℚ} (hx : Val binary64 x t) (h0 : 0 < t) (h1 : t ≤ 1000) : FV.toInt (FV.ceil x) = some ((⌈t⌉₊ : ℕ) : ℤ) := by
  obtain ⟨s, a, rfl, rfl, hr, _⟩ := hx
  have ha := repr_nonneg hr
  cases s with
  | true => simp only [sval, if_true] at h0; linarith
  | false =>
    simp only [sval, Bool.false_eq_true, if_false] at h0 h1 ⊢
    have hc : ((⌈a⌉₊ : ℕ) : ℤ) = ⌈a⌉ := Int.natCast_ceil_eq_ceil h0.le
    have h2 : ⌈a⌉ ≤ 1000 := Int.ceil_le.2 (by exact_mod_cast h1)
    have h3 : 0 < ⌈a⌉ := Int.ceil_pos.2 h0
    simp only [FV.ceil, Bool.false_eq_true, if_false, FV.toInt, Int.floor_intCast]
    rw [if_pos ⟨by simp only [i64min]; omega, by simp only [i64max]; omega⟩, hc]

theorem two_rpow_le {e B : ℝ} {a b : ℕ} (hb : 0 < b) (he : e ≤ a / b) (hB : 0 ≤ B) (h : (2:ℝ) ^ a ≤ B ^ b) : (2:ℝ) ^ e ≤ B := by
  refine (Real.rpow_le_rpow_of_exponent_le (by norm_num) he).trans ?_
  refine le_of_pow_le_pow_left₀ (n := b) (by omega) hB ?_
  rw [← Real.rpow_natCast, ← Real.rpow_mul (by norm_num), div_mul_cancel₀ _ (by exact_mod_cast hb.ne'), Real.rpow_natCast]
  exact h

/-- number of terms used by the code -/
theorem kmax_fp (hL : TrigOK binary64 L) (n : ℕ) (hn : n < 2 ^ 63) {N B : ℕ} (hNB : (N = 10 ∧ B = 37) ∨ (N = 26 ∧ B = 5)) (hN : N ≤ n) :
    ∃ K : ℕ, seriesKmax (FP binary64 L) (n:ℤ) = .ok (K:ℤ) ∧ 1 ≤ K ∧ K ≤ B ∧ (n < 200 → (2:ℝ) ^ 51 ≤ (K:ℝ) ^ n) := by
  have hu0 := uR_pos (φ := binary64)
  have hu := u53
  have hul : υ ≤ 2e-16 := by rw [hu]; norm_num
  have hN10 : 10 ≤ N := by omega
  -- the exponent
  have vn : Val binary64 (ofF (FOps.ofInt (n:ℤ) : FP binary64 L)) (rq binary64 (n:ℚ)) := by
    have := val_ofInt (L := L) (n:ℤ) (by rw [abs_of_nonneg (by positivity)]; exact_mod_cast hn.le)
    rwa [show (((n:ℤ)) : ℚ) = (n:ℚ) by push_cast; rfl] at this
  have hge : (N:ℚ) ≤ rq binary64 (n:ℚ) := rq_nat_ge N n (by omega) hN
  have hN0 : (0:ℚ) < N := by exact_mod_cast (by omega : 0 < N)
  have v1 : Val binary64 (rndQ binary64 1) 1 := vl_one fmtA64
  have hquo : |-1 / rq binary64 (n:ℚ)| ≤ 1 := by
    rw [abs_div, abs_neg, abs_one, div_le_one (by rw [abs_of_pos (by linarith)]; linarith), abs_of_pos (by linarith)]
    have : (1:ℚ) ≤ N := by exact_mod_cast (by omega : 1 ≤ N)
    linarith
  have vb : Val binary64 (ofF (∸(FOps.lit 1 : FP binary64 L) /. (FOps.ofInt (n:ℤ) : FP binary64 L))) (rq binary64 (-1 / rq binary64 (n:ℚ))) := by
    rw [ofF_div, ofF_neg, ofF_lit]
    refine v1.neg.div vn (by linarith) (rq_lt_max fmtA64 ?_)
    have : ((|-1 / rq binary64 (n:ℚ)| : ℚ) : ℝ) ≤ ((1:ℚ):ℝ) := by exact_mod_cast hquo
    rw [Rat.cast_abs] at this
    refine this.trans (by norm_num)
  set b := rq binary64 (-1 / rq binary64 (n:ℚ)) with hb
  have b0 : b ≤ 0 := by
    have := rq_mono (φ := binary64) (show -1 / rq binary64 (n:ℚ) ≤ 0 from div_nonpos_of_nonpos_of_nonneg (by norm_num) (by linarith))
    rwa [rq_zero] at this
  have b1 : -(1.0001 / (N:ℝ)) ≤ (b:ℝ) := by
    have h1 : -1 / (N:ℚ) ≤ -1 / rq binary64 (n:ℚ) := by
      rw [neg_div, neg_div, neg_le_neg_iff]; exact one_div_le_one_div_of_le hN0 hge
    have h2 := (Rat.cast_le (K := ℝ)).2 (rq_mono (φ := binary64) h1)
    have h3 := (abs_le.1 (rq_errR fmtA64 (-1 / (N:ℚ)))).1
    have hN0' : (0:ℝ) < N := by exact_mod_cast hN0
    have h4 : |((-1 / (N:ℚ) : ℚ) : ℝ)| = 1 / N := by push_cast; rw [abs_div, abs_neg, abs_one, Nat.abs_cast]
    rw [h4] at h3
    push_cast at h3
    have h5 : 1 / (N:ℝ) * υ + υ ^ 2 ≤ 0.0001 / N := by
      have : υ ^ 2 ≤ 2e-16 * υ := by nlinarith
      have hN26 : (N:ℝ) ≤ 26 := by exact_mod_cast (by omega : N ≤ 26)
      rw [le_div_iff₀ hN0', add_mul, mul_assoc, mul_comm υ, ← mul_assoc, one_div_mul_cancel hN0'.ne']
      nlinarith
    have e : -(1.0001 / (N:ℝ)) = -1 / N - 0.0001 / N := by ring
    rw [e]; linarith
  have veps : Val binary64 (ofF (FOps.eps : FP binary64 L)) (1 / 2 ^ 52) :=
    ⟨false, 2 ^ (1 - (53:ℤ)), rfl, by norm_num [sval], ⟨1, -52, by decide, by decide, by norm_num⟩, lt_two_pow_emax (by norm_num)⟩
  have ey : (((1 / 2 ^ 52 : ℚ)) : ℝ) ^ (b : ℝ) = (2:ℝ) ^ (-52 * (b:ℝ)) := by
    rw [show (((1 / 2 ^ 52 : ℚ)) : ℝ) = (2:ℝ) ^ (-52:ℝ) by rw [Real.rpow_neg (by norm_num)]; norm_num [← Real.rpow_natCast], ← Real.rpow_mul (by norm_num)]
  have b0' : (b:ℝ) ≤ 0 := by exact_mod_cast b0
  have y1 : (1:ℝ) ≤ (2:ℝ) ^ (-52 * (b:ℝ)) := Real.one_le_rpow (by norm_num) (by linarith)
  have yB : (2:ℝ) ^ (-52 * (b:ℝ)) ≤ B - 0.1 := by
    rcases hNB with ⟨rfl, rfl⟩ | ⟨rfl, rfl⟩
    · refine two_rpow_le (a := 229) (b := 44) (by norm_num) ?_ (by norm_num) (by norm_num)
      push_cast at b1 ⊢; linarith
    · refine two_rpow_le (a := 21) (b := 10) (by norm_num) ?_ (by norm_num) (by norm_num)
      push_cast at b1 ⊢; linarith
  have hB37 : (B:ℝ) ≤ 37 := by exact_mod_cast (by omega : B ≤ 37)
  obtain ⟨t, vt, ht⟩ := hL.pow _ _ _ _ veps vb (by norm_num) (by rw [ey]; linarith)
  rw [ey] at ht
  set y := (2:ℝ) ^ (-52 * (b:ℝ)) with hy
  have ht' := abs_le.1 ht
  have tiny : 2 * υ * y + υ ^ 2 ≤ 3 * υ * y := by nlinarith
  have t0 : y * (1 - 3 * υ) ≤ t := by nlinarith
  have t1 : (t:ℝ) < B := by nlinarith
  have tpos : (0:ℝ) < t := lt_of_lt_of_le (by nlinarith) t0
  have tpos' : 0 < t := by exact_mod_cast tpos
  have tB : t < B := by exact_mod_cast t1
  refine ⟨⌈t⌉₊, ?_, Nat.ceil_pos.2 tpos', Nat.ceil_le.2 tB.le, fun h200 => ?_⟩
  · have hB : (B:ℚ) ≤ 37 := by exact_mod_cast hB37
    have h1 := val_ceil vt tpos' (by linarith)
    have h2 : FOps.toInt (FOps.ceil (FOps.pow (FOps.eps : FP binary64 L) (∸(FOps.lit 1 : FP binary64 L) /. (FOps.ofInt (n:ℤ) : FP binary64 L)))) = some ((⌈t⌉₊ : ℕ) : ℤ) := h1
    rw [seriesKmax, h2]
    have : ⌈t⌉₊ ≤ B := Nat.ceil_le.2 tB.le
    change i64 _ = _
    rw [i64, if_pos ⟨by simp only [i64min]; omega, by simp only [i64max]; omega⟩]; rfl
  · have hn0 : (0:ℝ) < n := by exact_mod_cast (by omega : 0 < n)
    have hn200 : (n:ℝ) ≤ 200 := by exact_mod_cast h200.le
    have hK : y * (1 - 3 * υ) ≤ (⌈t⌉₊ : ℕ) := by
      have : (t:ℝ) ≤ ((⌈t⌉₊ : ℕ) : ℝ) := by exact_mod_cast Nat.le_ceil t
      linarith
    refine le_trans ?_ (pow_le_pow_left₀ (by nlinarith) hK n)
    rw [mul_pow]
    have h1 : (0.99:ℝ) ≤ (1 - 3 * υ) ^ n := by
      have := one_add_mul_le_pow (a := -(3 * υ)) (by linarith) n
      rw [← sub_eq_add_neg] at this
      refine le_trans ?_ this
      nlinarith
    have h2 : (2:ℝ) ^ (51.5:ℝ) ≤ y ^ n := by
      rw [hy, ← Real.rpow_natCast, ← Real.rpow_mul (by norm_num)]
      refine Real.rpow_le_rpow_of_exponent_le (by norm_num) ?_
      have h3 := (abs_le.1 (rq_errR fmtA64 (-1 / rq binary64 (n:ℚ)))).2
      rw [← hb, rq_nat n (by omega)] at h3
      have h4 : |((-1 / (n:ℚ) : ℚ) : ℝ)| = 1 / n := by push_cast; rw [abs_div, abs_neg, abs_one, Nat.abs_cast]
      rw [h4] at h3
      push_cast at h3
      have h5 := mul_le_mul_of_nonneg_right h3 hn0.le
      have e5 : ((b:ℝ) - -1 / n) * n = b * n + 1 := by field_simp; ring
      have e6 : (1 / (n:ℝ) * υ + υ ^ 2) * n = υ + υ ^ 2 * n := by field_simp
      rw [e5, e6] at h5
      have : υ ^ 2 * n ≤ 1e-20 := by nlinarith
      linarith
    have h3 : (2:ℝ) ^ (51.5:ℝ) = 2 ^ 51 * √2 := by
      rw [show (51.5:ℝ) = (51:ℕ) + (1 / 2 : ℝ) by norm_num, Real.rpow_add (by norm_num), Real.rpow_natCast, Real.sqrt_eq_rpow]
    have h4 : (1.4:ℝ) ≤ √2 := Real.le_sqrt_of_sq_le (by norm_num)
    calc (2:ℝ) ^ 51 ≤ (2 ^ 51 * 1.4) * 0.99 := by norm_num
      _ ≤ (2 ^ 51 * √2) * 0.99 := by gcongr
      _ ≤ _ := by rw [← h3]; exact mul_le_mul h2 h1 (by norm_num) (by positivity)

end Polylog
