import Verif.Props.ClMidFP3
import Verif.Props.ClMidAcc

/-! # `nsum`, `pcal` (Cl.cpp) in IEEE double precision, in step with the run over the reals -/

namespace Polylog
set_option linter.style.longLine false
open Finset

variable {L : Lib}

/-- `u = 2^-53` -/
local notation "υ" => uR binary64
/-- the reals with exact literals -/
local notation "RR" => R RealSem.dec

theorem ww_bd : ∀ m : Fin 10, ((1:ℚ)) ≤ 3.1417 ^ m.1 ∧ (3.1417:ℚ) ^ m.1 ≤ 1e5 := by decide +kernel
theorem ww_ge (m : ℕ) (h : m ≤ 9) : 1 ≤ ww ^ m := by
  have := (Rat.cast_le (K := ℝ)).2 (ww_bd ⟨m, by omega⟩).1; push_cast at this; norm_num at this ⊢; exact this
theorem ww_le (m : ℕ) (h : m ≤ 9) : ww ^ m ≤ 1e5 := by
  have := (Rat.cast_le (K := ℝ)).2 (ww_bd ⟨m, by omega⟩).2; push_cast at this; norm_num at this ⊢; exact this

/-- the two runs of `ncal` -/
theorem ncal_lock (hL : MidOK L) (n : ℕ) (hn : n ≤ 7) (x : FP binary64 L) {q : ℚ} (hx : Val binary64 (ofF x) q) (h0 : 0 ≤ q) (h1 : q ≤ 3.1417)
    (xR : RR) (hR : ofR xR = q) :
    ∃ (v : FP binary64 L) (vR : RR), ncal (n:ℤ) x = .ok v ∧ ncal (n:ℤ) xR = .ok vR ∧ SN binary64 (ofF v) (ofR vR) (ww ^ (n + 1) / ((n:ℝ) + 1) ^ 2) 58 := by
  obtain ⟨v, hv, h⟩ := ncal_fp hL n hn x hx h0 h1
  obtain ⟨vR, hvR, h2⟩ := ncal_R RealSem.dec_lit (by norm_num) n (x := xR) (by rw [hR]; exact_mod_cast h0)
  refine ⟨v, vR, hv, hvR, ?_⟩
  rw [h2, hR]; exact h

/-- bound of the i-th term of `nsum` -/
noncomputable def cB (n i : ℕ) : ℝ := ((n - 2).choose i : ℝ) * ww ^ i * (ww ^ (n - 1 - i) / (((n - 2 - i : ℕ) : ℝ) + 1) ^ 2)

theorem binom_get (n i : ℕ) (h7 : 7 ≤ n) (h9 : n ≤ 9) (hi : i + 2 ≤ n) : ∃ row : Vector ℤ 8, arrGet clBinomial ((n:ℤ) - 2) = .ok row ∧ arrGet row (i:ℤ) = .ok (((n - 2).choose i : ℕ) : ℤ) := by
  have hn : n = 7 ∨ n = 8 ∨ n = 9 := by omega
  have hi : i ≤ n - 2 := by omega
  rcases hn with rfl | rfl | rfl <;> norm_num at hi <;> interval_cases i <;> exact ⟨_, rfl, rfl⟩

theorem choose_le (n i : ℕ) (h7 : 7 ≤ n) (h9 : n ≤ 9) : (n - 2).choose i ≤ 35 := by
  have hn : n = 7 ∨ n = 8 ∨ n = 9 := by omega
  rcases le_or_gt i 8 with h | h
  · rcases hn with rfl | rfl | rfl <;> interval_cases i <;> decide
  · rw [Nat.choose_eq_zero_of_lt (by omega)]; norm_num

theorem choose_ge (n i : ℕ) (hi : i + 2 ≤ n) : 1 ≤ (n - 2).choose i := Nat.choose_pos (by omega)

theorem cB_le (n i : ℕ) (h7 : 7 ≤ n) (h9 : n ≤ 9) (hi : i + 2 ≤ n) : 1 / 64 ≤ cB n i ∧ cB n i ≤ 3.5e11 ∧ (1 / 64 : ℝ) ≤ ww ^ (n - 1 - i) / (((n - 2 - i : ℕ) : ℝ) + 1) ^ 2 := by
  have a1 := ww_ge i (by omega)
  have a2 := ww_le i (by omega)
  have b2 := ww_le (n - 1 - i) (by omega)
  have hm : (((n - 2 - i : ℕ) : ℝ)) ≤ 7 := by exact_mod_cast (by omega : n - 2 - i ≤ 7)
  have hm0 : (0:ℝ) ≤ ((n - 2 - i : ℕ) : ℝ) := Nat.cast_nonneg _
  have c1 : (1:ℝ) ≤ ((n - 2).choose i : ℝ) := by exact_mod_cast choose_ge n i hi
  have c2 : ((n - 2).choose i : ℝ) ≤ 35 := by exact_mod_cast choose_le n i h7 h9
  have b3 : (1 / 64 : ℝ) ≤ ww ^ (n - 1 - i) / (((n - 2 - i : ℕ) : ℝ) + 1) ^ 2 := by
    obtain ⟨-, -, -, c4⟩ := W_cert ⟨n - 2 - i + 1, by omega⟩ (by simp)
    have := (Rat.cast_le (K := ℝ)).2 c4
    rw [show n - 1 - i = n - 2 - i + 1 by omega]
    push_cast at this ⊢; norm_num at this ⊢; exact this
  have b4 : ww ^ (n - 1 - i) / (((n - 2 - i : ℕ) : ℝ) + 1) ^ 2 ≤ 1e5 := (div_le_self (by positivity) (one_le_pow₀ (by linarith))).trans b2
  set w := ww ^ (n - 1 - i) / (((n - 2 - i : ℕ) : ℝ) + 1) ^ 2
  have d1 : 1 ≤ ((n - 2).choose i : ℝ) * ww ^ i := one_le_mul_of_one_le_of_one_le c1 a1
  have d2 : ((n - 2).choose i : ℝ) * ww ^ i ≤ 35 * 1e5 := mul_le_mul c2 a2 (by positivity) (by norm_num)
  refine ⟨?_, ?_, b3⟩
  · have := mul_le_mul d1 b3 (by norm_num) (by linarith)
    rw [one_mul] at this; exact this
  · have := mul_le_mul d2 b4 (by linarith) (by norm_num)
    exact this.trans (by norm_num)

theorem nsumLoop_stepG {F : Type} [FOps F] (n i : ℤ) (x s xn v : F) (b : ℤ) (row : Vector ℤ 8) (f : ℕ) (h1 : arrGet clBinomial (n - 2) = .ok row) (h2 : arrGet row i = .ok b)
    (h3 : ncal (n - 2 - i) x = .ok v) : nsumLoop n x (f + 1) i s xn = nsumLoop n x f (i + 1) (s +. (FOps.ofInt b : F) *. xn *. v) (xn *. ∸x) := by
  rw [nsumLoop, h1]; simp only [bind_ok, h2, h3]

theorem nsumLoop_lock (hL : MidOK L) (n : ℕ) (h7 : 7 ≤ n) (h9 : n ≤ 9) (x : FP binary64 L) {q : ℚ} (hx : Val binary64 (ofF x) q) (h0 : 0 ≤ q) (h1 : q ≤ 3.1417)
    (xR : RR) (hR : ofR xR = q) : ∀ (f i : ℕ) (s xn : FP binary64 L) (sR xnR : RR) (B : ℝ), i + f + 2 = n → SN binary64 (ofF s) (ofR sR) B (78 + 1.001 * i) →
      SN binary64 (ofF xn) (ofR xnR) (ww ^ i) (1.1 * i) → B + ∑ j ∈ range f, cB n (i + j) ≤ 2 ^ 40 → 
      ∃ (r : FP binary64 L × FP binary64 L) (rR : RR × RR), nsumLoop (n:ℤ) x f i s xn = .ok r ∧ nsumLoop (n:ℤ) xR f i sR xnR = .ok rR ∧
        SN binary64 (ofF r.1) (ofR rR.1) (B + ∑ j ∈ range f, cB n (i + j)) (78 + 1.001 * (i + f : ℕ)) ∧ SN binary64 (ofF r.2) (ofR rR.2) (ww ^ (i + f)) (1.1 * (i + f : ℕ)) := by
  have h1r : |((-q : ℚ) : ℝ)| ≤ ww := by
    have e : |((-q : ℚ) : ℝ)| = ((q:ℚ):ℝ) := by push_cast; rw [abs_neg, abs_of_nonneg (by exact_mod_cast h0)]
    rw [e]
    have : ((q : ℚ) : ℝ) ≤ ((3.1417 : ℚ) : ℝ) := by exact_mod_cast h1
    norm_num at this ⊢; exact this
  intro f
  induction f with
  | zero =>
    intro i s xn sR xnR B _ hs hxn hB
    refine ⟨(s, xn), (sR, xnR), rfl, rfl, ?_, ?_⟩
    · simpa using hs
    · simpa using hxn
  | succ f ih =>
    intro i s xn sR xnR B hif hs hxn hB
    have hi7 : (i:ℝ) ≤ 7 := by exact_mod_cast (by omega : i ≤ 7)
    have hi0 : (0:ℝ) ≤ i := Nat.cast_nonneg i
    obtain ⟨row, hr1, hr2⟩ := binom_get n i h7 h9 (by omega)
    obtain ⟨v, vR, hv, hvR, hV⟩ := ncal_lock hL (n - 2 - i) (by omega) x hx h0 h1 xR hR
    rw [show n - 2 - i + 1 = n - 1 - i by omega] at hV
    have ei : ((n - 2 - i : ℕ) : ℤ) = (n:ℤ) - 2 - i := by omega
    rw [ei] at hv hvR
    obtain ⟨g1, g2, g3⟩ := cB_le n i h7 h9 (by omega)
    have a1 := ww_ge i (by omega)
    have a2 := ww_le i (by omega)
    have c1 : (1:ℝ) ≤ ((n - 2).choose i : ℝ) := by exact_mod_cast choose_ge n i (by omega)
    have c2 : ((n - 2).choose i : ℝ) ≤ 35 := by exact_mod_cast choose_le n i h7 h9
    have hb : SN binary64 (ofF (FOps.ofInt (((n - 2).choose i : ℕ) : ℤ) : FP binary64 L)) (((n - 2).choose i : ℕ):ℝ) ((n - 2).choose i : ℝ) 0 := by
      rw [ofF_ofInt, Int.cast_natCast]
      have := (vl_nat fmtA64 ((n - 2).choose i) (lt_of_le_of_lt (choose_le n i h7 h9) (by norm_num))).sn (A := ((n - 2).choose i : ℝ)) (by rw [Rat.cast_natCast, abs_of_nonneg (by positivity)]) (by linarith) (by linarith)
      simpa using this
    have hbR : ofR (FOps.ofInt (((n - 2).choose i : ℕ) : ℤ) : RR) = ((n - 2).choose i : ℝ) := by rw [ofR_ofInt]; push_cast; rfl
    have d1 : 1 ≤ ((n - 2).choose i : ℝ) * ww ^ i := one_le_mul_of_one_le_of_one_le c1 a1
    have d2 : ((n - 2).choose i : ℝ) * ww ^ i ≤ 35 * 1e5 := mul_le_mul c2 a2 (by positivity) (by norm_num)
    have t1 := (hb.mul fmtA64 hxn (le_trans (by norm_num) d1) (d2.trans (by norm_num)) (by linarith))
    have t1 := t1.mono (a' := 1.002 + 1.1012 * i) le_rfl (by linarith) (d2.trans (by norm_num)) (by linarith)
    have t2 := t1.mul fmtA64 hV g1 (le_trans g2 (by norm_num)) (by linarith)
    have t2 := t2.mono (A' := cB n i) (a' := 77 + 1.001 * i) le_rfl (by linarith) (g2.trans (by norm_num)) (by linarith)
    have hsum : B + ∑ j ∈ range (f + 1), cB n (i + j) = (B + cB n i) + ∑ j ∈ range f, cB n (i + 1 + j) := by
      rw [Finset.sum_range_succ', add_zero]
      have : ∀ j, cB n (i + (j + 1)) = cB n (i + 1 + j) := fun j => by rw [show i + (j + 1) = i + 1 + j by ring]
      simp only [this]; ring
    have hpos : 0 ≤ ∑ j ∈ range f, cB n (i + 1 + j) := Finset.sum_nonneg fun j _ => by unfold cB; positivity
    rw [hsum] at hB ⊢
    have t3 := hs.add fmtA64 t2 (by linarith) (m := 78 + 1.001 * i) le_rfl (by linarith) (by linarith)
    have t3 := t3.mono (a' := 78 + 1.001 * ((i + 1 : ℕ) : ℝ)) le_rfl (by push_cast; linarith) (by linarith) (by push_cast; linarith)
    have hxs := hx.neg.sn h1r (by norm_num) (by norm_num)
    have hw2 : ww ^ i * ww ≤ 1e5 := (pow_succ ww i) ▸ ww_le (i + 1) (by omega)
    have hw0 : 1 / 64 ≤ ww ^ i * ww := (pow_succ ww i) ▸ (le_trans (by norm_num) (ww_ge (i + 1) (by omega)))
    have t4 := hxn.mul fmtA64 hxs hw0 (hw2.trans (by norm_num)) (by linarith)
    have t4 := t4.mono (A' := ww ^ (i + 1)) (a' := 1.1 * ((i + 1 : ℕ) : ℝ)) (le_of_eq (pow_succ _ _).symm) (by push_cast; linarith) ((ww_le (i + 1) (by omega)).trans (by norm_num)) (by push_cast; linarith)
    obtain ⟨r, rR, e1, e2, e3, e4⟩ := ih (i + 1) (s +. (FOps.ofInt (((n - 2).choose i : ℕ) : ℤ) : FP binary64 L) *. xn *. v) (xn *. ∸x)
      (sR +. (FOps.ofInt (((n - 2).choose i : ℕ) : ℤ) : RR) *. xnR *. vR) (xnR *. ∸xR) (B + cB n i) (by omega) (by
        simp only [ofR_add, ofR_mul, hbR]; exact t3) (by
        simp only [ofR_mul, ofR_neg, hR]; push_cast at t4 ⊢; exact t4) hB
    refine ⟨r, rR, ?_, ?_, ?_, ?_⟩
    · rw [nsumLoop_stepG (n:ℤ) i x s xn v _ row f hr1 hr2 hv]; exact_mod_cast e1
    · rw [nsumLoop_stepG (n:ℤ) i xR sR xnR vR _ row f hr1 hr2 hvR]; exact_mod_cast e2
    · rw [show i + (f + 1) = i + 1 + f by ring]; exact e3
    · rw [show i + (f + 1) = i + 1 + f by ring]; exact e4

/-- total bound of `nsum` -/
noncomputable def nB (n : ℕ) : ℝ := 1 / 64 + ∑ j ∈ range (n - 2), cB n j + ww ^ (n - 1)

theorem nB_le : nB 7 ≤ 4600 ∧ nB 8 ≤ 19000 ∧ nB 9 ≤ 90000 := by
  unfold nB cB
  refine ⟨?_, ?_, ?_⟩ <;> norm_num [Finset.sum_range_succ, Nat.choose]

theorem nsum_lock (hL : MidOK L) (n : ℕ) (h7 : 7 ≤ n) (h9 : n ≤ 9) (x : FP binary64 L) {q : ℚ} (hx : Val binary64 (ofF x) q) (h0 : 0 ≤ q) (h1 : q ≤ 3.1417)
    (xR : RR) (hR : ofR xR = q) : ∃ (v : FP binary64 L) (vR : RR), nsum (n:ℤ) x = .ok v ∧ nsum (n:ℤ) xR = .ok vR ∧ SN binary64 (ofF v) (ofR vR) (nB n) 90 := by
  have hB : nB n ≤ 90000 := by
    obtain ⟨a, b, c⟩ := nB_le
    have hn : n = 7 ∨ n = 8 ∨ n = 9 := by omega
    rcases hn with rfl | rfl | rfl <;> linarith
  have hz : SN binary64 (ofF (FOps.lit 0 : FP binary64 L)) (ofR (FOps.lit 0 : RR)) (1 / 64) (78 + 1.001 * ((0:ℕ):ℝ)) := by
    have := (vl_zero fmtA64).sn (A := 1 / 64) (by simp) le_rfl (by norm_num)
    rw [lit0 RealSem.dec_lit, show (78:ℝ) + 1.001 * ((0:ℕ):ℝ) = 78 by norm_num]
    rw [Rat.cast_zero] at this
    exact this.mono (a' := 78) le_rfl (by norm_num)
  have ho : SN binary64 (ofF (FOps.lit 1 : FP binary64 L)) (ofR (FOps.lit 1 : RR)) (ww ^ 0) (1.1 * ((0:ℕ):ℝ)) := by
    have := (vl_one fmtA64).sn (A := 1) (by simp) (by norm_num) (by norm_num)
    rw [lit1 RealSem.dec_lit, pow_zero, show (1.1:ℝ) * ((0:ℕ):ℝ) = 0 by norm_num]
    rw [Rat.cast_one] at this
    exact this
  have hw1 := ww_le (n - 2) (by omega)
  have hw2 := ww_ge (n - 2) (by omega)
  have hw3 := ww_ge (n - 1) (by omega)
  have hS : 1 / 64 + ∑ j ∈ range (n - 2), cB n (0 + j) = nB n - ww ^ (n - 1) := by unfold nB; simp
  have hn7 : ((n - 2 : ℕ) : ℝ) ≤ 7 := by exact_mod_cast (by omega : n - 2 ≤ 7)
  obtain ⟨r, rR, e1, e2, e3, e4⟩ := nsumLoop_lock hL n h7 h9 x hx h0 h1 xR hR (n - 2) 0 _ _ _ _ _ (by omega) hz ho (by rw [hS]; exact le_trans (by linarith : nB n - ww ^ (n - 1) ≤ 90000) (by norm_num))
  rw [hS, zero_add] at e3
  rw [zero_add] at e4
  obtain ⟨v, vR, hv, hvR, hV⟩ := ncal_lock hL 0 (by norm_num) x hx h0 h1 xR hR
  have hV : SN binary64 (ofF v) (ofR vR) ww 58 := by simpa using hV
  have hv : ncal 0 x = .ok v := hv
  have hvR : ncal 0 xR = .ok vR := hvR
  have hw4 : ww ^ (n - 1) = ww ^ (n - 2) * ww := by rw [← pow_succ]; congr 1; omega
  have t := e4.mul fmtA64 hV (hw4 ▸ le_trans (by norm_num) hw3) (hw4 ▸ (ww_le (n - 1) (by omega)).trans (by norm_num)) (by linarith)
  have t := t.mono (A' := ww ^ (n - 1)) (a' := 78) (le_of_eq hw4.symm) (by linarith) ((ww_le (n - 1) (by omega)).trans (by norm_num))
  have t2 := e3.add fmtA64 t (m := 86) (by norm_num; linarith) (by linarith) (by norm_num)
  have t2 := t2.mono (A' := nB n) (a' := 90) (by linarith) (by norm_num) (by norm_num; linarith)
  refine ⟨r.1 +. r.2 *. v, rR.1 +. rR.2 *. vR, ?_, ?_, ?_⟩
  · rw [nsum, show ((n:ℤ) - 2).toNat = n - 2 by omega]
    have e1 : nsumLoop (n:ℤ) x (n - 2) 0 (FOps.lit 0 : FP binary64 L) (FOps.lit 1) = .ok r := e1
    rw [e1, bind_ok, hv, bind_ok]; rfl
  · rw [nsum, show ((n:ℤ) - 2).toNat = n - 2 by omega]
    have e2 : nsumLoop (n:ℤ) xR (n - 2) 0 (FOps.lit 0 : RR) (FOps.lit 1) = .ok rR := e2
    rw [e2, bind_ok, hvR, bind_ok]; rfl
  · simp only [ofR_add, ofR_mul]; exact t2

end Polylog
