import Verif.Props.FPParity

/-!
# C26: the range reduction lands in `[0, PI]` in floating point

For every finite value `x` of the format.  The formats are binary64 for the `double` functions and
binary64, x87 extended and binary128 for the `long double` functions.
-/

namespace Polylog
variable {φ : Fmt} {L : Lib}

theorem rne_of {x : ℚ} {n : ℤ} (h : |x - n| < 1 / 2) : rne x = n := by
  have h1 := abs_lt.1 h
  have h2 := Int.floor_le x
  have h3 := Int.lt_floor_add_one x
  have a1 : (n : ℚ) - 1 < ⌊x⌋ + 1 / 2 := by linarith
  have a2 : (⌊x⌋ : ℚ) < n + 1 / 2 := by linarith
  have b1 : n - 1 ≤ ⌊x⌋ := by
    by_contra hc
    have : (⌊x⌋ : ℚ) + 1 ≤ n - 1 := by exact_mod_cast not_le.1 hc
    linarith
  have b2 : ⌊x⌋ ≤ n := by
    by_contra hc
    have : (n : ℚ) + 1 ≤ ⌊x⌋ := by exact_mod_cast not_le.1 hc
    linarith
  rcases (show ⌊x⌋ = n - 1 ∨ ⌊x⌋ = n by omega) with hf | hf
  · have : (⌊x⌋ : ℚ) = n - 1 := by rw [hf]; push_cast; ring
    unfold rne
    rw [if_neg (by rw [this]; linarith), if_pos (by rw [this]; linarith)]; omega
  · have : (⌊x⌋ : ℚ) = n := by rw [hf]
    unfold rne
    rw [if_pos (by rw [this]; linarith)]; exact hf

/-- evaluation of the rounding of a concrete magnitude -/
theorem rndMag_of {a : ℚ} (k e n : ℤ) (h1 : (2 : ℚ) ^ k ≤ a) (h2 : a < 2 ^ (k + 1))
    (he : max (k - (φ.p - 1)) φ.emin = e) (hn : |a / 2 ^ e - n| < 1 / 2) : rndMag φ a = n * 2 ^ e := by
  unfold rndMag ulpExp
  rw [log_eq h1 h2, he, rne_of hn]

/-- a representable number that is at least `2^k` is a multiple of `2^(k+1-p)` -/
theorem repr_mult {a : ℚ} (h : Repr φ a) (k : ℤ) (hk : (2 : ℚ) ^ k ≤ a) : ∃ n : ℤ, a = n * 2 ^ (k + 1 - φ.p) := by
  obtain ⟨m, e, -, hm, rfl⟩ := h
  have : k + 1 - φ.p ≤ e := by
    have h1 : (m : ℚ) * 2 ^ e < 2 ^ ((φ.p : ℤ) + e) := by
      rw [zpow_add₀ (by norm_num), zpow_natCast]
      exact mul_lt_mul_of_pos_right (by exact_mod_cast hm) (two_zpow_pos e)
    have := (zpow_lt_zpow_iff_right₀ (by norm_num : (1 : ℚ) < 2)).1 (lt_of_le_of_lt hk h1)
    omega
  refine ⟨m * 2 ^ (e - (k + 1 - φ.p)).toNat, ?_⟩
  have : (2 : ℚ) ^ e = 2 ^ ((e - (k + 1 - φ.p)).toNat : ℤ) * 2 ^ (k + 1 - (φ.p : ℤ)) := by
    rw [← zpow_add₀ (by norm_num)]; congr 1; omega
  rw [this, zpow_natCast]; push_cast; ring

/-- a multiple of `2^(k+1-p)` below `2^(k+1)` is representable -/
theorem repr_of_mult {n k : ℤ} (h0 : 0 ≤ n) (hk : φ.emin ≤ k + 1 - φ.p)
    (hn : (n : ℚ) * 2 ^ (k + 1 - (φ.p : ℤ)) < 2 ^ (k + 1)) : Repr φ (n * 2 ^ (k + 1 - (φ.p : ℤ))) := by
  refine ⟨n.toNat, _, hk, ?_, ?_⟩
  · have : (n : ℚ) < 2 ^ φ.p := by
      have h1 : (2 : ℚ) ^ (k + 1) = 2 ^ φ.p * 2 ^ (k + 1 - (φ.p : ℤ)) := by
        rw [← zpow_natCast, ← zpow_add₀ (by norm_num)]; congr 1; ring
      rw [h1] at hn
      exact lt_of_mul_lt_mul_right hn (two_zpow_pos _).le
    zify; rw [Int.toNat_of_nonneg h0]; exact_mod_cast this
  · congr 1
    exact_mod_cast (Int.toNat_of_nonneg h0).symm

theorem lt_two_pow_emax {a : ℚ} (h : a < 8) : a < 2 ^ φ.emax := by
  have h3 : (2 : ℚ) ^ (3 : ℤ) ≤ 2 ^ φ.emax := zpow_le_zpow_right₀ (by norm_num) φ.hmax
  norm_num at h3; linarith

/-- rounded sum of two finite values whose exact sum lies in `[0, u]`, `u` representable -/
theorem add_mem {s t : Bool} {a b u : ℚ} (h0 : 0 ≤ sval s a + sval t b) (hu : sval s a + sval t b ≤ u)
    (hr : Repr φ u) (h8 : u < 8) : ∃ s' r, FV.add φ (.fin s a) (.fin t b) = .fin s' r ∧ 0 ≤ sval s' r ∧ sval s' r ≤ u := by
  have hu0 := h0.trans hu
  simp only [FV.add]
  split_ifs
  · exact ⟨_, _, rfl, by simp [sval], by simpa [sval] using hu0⟩
  · exact ⟨_, _, rfl, by simp [sval], by simpa [sval] using hu0⟩
  · rw [rndQ_nonneg h0]
    have h1 := rndMag_le (φ := φ) h0 hr hu
    have h2 := rndMag_nonneg (φ := φ) h0
    unfold rnd
    rw [if_neg (not_le.2 (lt_two_pow_emax (by linarith)))]
    exact ⟨_, _, rfl, by simpa [sval] using h2, by simpa [sval] using h1⟩

/-- the range reduction for finite magnitudes: constants `P`, `p1` of the format -/
theorem reduceAbs_range {P p1 : ℚ} {nP : ℤ} (hP : P = nP * 2 ^ (2 - (φ.p : ℤ))) (hP1 : 3 < P) (hP2 : P < 4)
    (hp : 7 ≤ φ.p) (hm : φ.emin ≤ 2 - φ.p)
    (hp0 : rndQ φ 6.28125 = .fin false 6.28125)
    (hlo : 0 ≤ 6.28125 + p1 - 2 * P + 2 ^ (3 - (φ.p : ℤ)))
    (hhi : 6.28125 + p1 - P - 2 ^ (2 - (φ.p : ℤ)) ≤ P)
    (s : Bool) (a : ℚ) (ha : Repr φ a) :
    ∃ t r, ofF (reduceAbs (toF φ L (.fin false P)) (toF φ L (.fin false p1)) (toF φ L (.fin s a))) = .fin t r ∧
      0 ≤ sval t r ∧ sval t r ≤ P := by
  have ha0 : 0 ≤ a := by obtain ⟨m, e, _, _, rfl⟩ := ha; positivity
  have e2 : (2 : ℚ) ^ (2 : ℤ) = 4 := by norm_num
  have hnP : 0 ≤ nP := by
    by_contra hc
    have : (nP : ℚ) * 2 ^ (2 - (φ.p : ℤ)) ≤ 0 :=
      mul_nonpos_of_nonpos_of_nonneg (by exact_mod_cast (not_le.1 hc).le) (two_zpow_pos _).le
    linarith
  have rP : Repr φ P := by
    have := repr_of_mult (φ := φ) (n := nP) (k := 1) hnP (by omega)
      (by rw [show (1 : ℤ) + 1 = 2 by norm_num, ← hP, e2]; exact hP2)
    rwa [show (1 : ℤ) + 1 = 2 by norm_num, ← hP] at this
  have h23 : (2 : ℚ) ^ (3 - (φ.p : ℤ)) = 2 * 2 ^ (2 - (φ.p : ℤ)) := by
    rw [show (3 : ℤ) - φ.p = (2 - φ.p) + 1 by ring, zpow_add_one₀ (by norm_num)]; ring
  have r2P : Repr φ (2 * P) := by
    have h := repr_of_mult (φ := φ) (n := nP) (k := 2) hnP (by omega)
      (by rw [show (2 : ℤ) + 1 = 3 by norm_num, h23]; norm_num; linarith)
    rw [show (2 : ℤ) + 1 = 3 by norm_num, h23] at h
    rwa [hP, show (2 : ℚ) * (nP * 2 ^ (2 - (φ.p : ℤ))) = nP * (2 * 2 ^ (2 - (φ.p : ℤ))) by ring]
  have m2 : FV.mul φ (rndQ φ 2) (.fin false P) = .fin false (2 * P) := by
    rw [lit_two]; exact rnd_repr _ r2P (lt_two_pow_emax (by linarith))
  -- multiples above 3
  have hmul : ∀ b : ℚ, Repr φ b → 2 ≤ b → ∃ n : ℤ, b = n * 2 ^ (2 - (φ.p : ℤ)) := by
    intro b hb h2
    have := repr_mult hb 1 (by simpa using h2)
    rwa [show (1 : ℤ) + 1 = 2 by norm_num] at this
  -- after the sign and the `fmod`
  have key : ∀ (t : Bool) (b : ℚ), Repr φ b → 0 ≤ sval t b → sval t b < 2 * P →
      ∃ t' r, ofF (if toF φ L (.fin t b) >. toF φ L (.fin false P) then
        ((FOps.lit 6.28125 : FP φ L) -. toF φ L (.fin t b)) +. toF φ L (.fin false p1) else toF φ L (.fin t b)) = .fin t' r ∧
        0 ≤ sval t' r ∧ sval t' r ≤ P := by
    intro t b hb h0 h1
    split_ifs with hgt
    · have hgt' : P < sval t b := by
        have := hgt
        change decide (sval false P < sval t b) = true at this
        simpa [sval] using this
      have hb0 : 0 ≤ b := by obtain ⟨m, e, _, _, rfl⟩ := hb; positivity
      have ht : t = false := by
        cases t with
        | false => rfl
        | true => simp [sval] at hgt'; linarith
      subst ht
      simp only [sval, Bool.false_eq_true, if_false] at h0 h1 hgt'
      obtain ⟨n, hn⟩ := hmul b hb (by linarith)
      have hbl : P + 2 ^ (2 - (φ.p : ℤ)) ≤ b := by
        have : nP < n := by
          have : (nP : ℚ) * 2 ^ (2 - (φ.p : ℤ)) < n * 2 ^ (2 - (φ.p : ℤ)) := by rw [← hP, ← hn]; exact hgt'
          exact_mod_cast lt_of_mul_lt_mul_right this (two_zpow_pos _).le
        have h2 : ((nP : ℚ) + 1) * 2 ^ (2 - (φ.p : ℤ)) ≤ n * 2 ^ (2 - (φ.p : ℤ)) :=
          mul_le_mul_of_nonneg_right (by exact_mod_cast this) (two_zpow_pos _).le
        rw [← hn, add_mul, ← hP, one_mul] at h2; exact h2
      have hbu : b ≤ 2 * P - 2 ^ (3 - (φ.p : ℤ)) := by
        have hsm : (2 : ℚ) ^ (3 - (φ.p : ℤ)) ≤ 2 ^ (-4 : ℤ) := zpow_le_zpow_right₀ (by norm_num) (by omega)
        norm_num at hsm
        rcases lt_or_ge b 4 with h4 | h4
        · linarith
        · obtain ⟨n, hn⟩ := repr_mult hb 2 (by norm_num; exact h4)
          rw [show (2 : ℤ) + 1 = 3 by norm_num] at hn
          have h2P : 2 * P = nP * 2 ^ (3 - (φ.p : ℤ)) := by rw [h23, hP]; ring
          have : n < nP := by
            have : (n : ℚ) * 2 ^ (3 - (φ.p : ℤ)) < nP * 2 ^ (3 - (φ.p : ℤ)) := by rw [← hn, ← h2P]; exact h1
            exact_mod_cast lt_of_mul_lt_mul_right this (two_zpow_pos _).le
          have h2 : ((n : ℚ) + 1) * 2 ^ (3 - (φ.p : ℤ)) ≤ nP * 2 ^ (3 - (φ.p : ℤ)) :=
            mul_le_mul_of_nonneg_right (by exact_mod_cast this) (two_zpow_pos _).le
          rw [← h2P, add_mul, ← hn] at h2; linarith
      -- the subtraction is exact
      have hd : ∃ t' d, FV.add φ (rndQ φ 6.28125) (FV.neg (.fin false b)) = .fin t' d ∧ sval t' d = 6.28125 - b := by
        rw [hp0]
        simp only [FV.neg, FV.add, Bool.not_false, sval, if_true, Bool.false_eq_true, if_false]
        split_ifs with hz
        · exact ⟨_, 0, rfl, by simp; linarith⟩
        · have e625 : (6.28125 : ℚ) = ((201 * 2 ^ (φ.p - 7) : ℕ) : ℚ) * 2 ^ (2 - (φ.p : ℤ)) := by
            push_cast
            rw [mul_assoc, ← zpow_natCast, ← zpow_add₀ (by norm_num),
              show ((φ.p - 7 : ℕ) : ℤ) + (2 - φ.p) = -5 by omega]
            norm_num
          have hval : (6.28125 : ℚ) + -b = ((201 * 2 ^ (φ.p - 7) : ℕ) - n : ℤ) * 2 ^ (2 - (φ.p : ℤ)) := by
            rw [hn]; conv_lhs => rw [e625]
            push_cast; ring
          have hlt : |(6.28125 : ℚ) + -b| < 4 := by rw [abs_lt]; constructor <;> linarith
          have hrep : Repr φ |(6.28125 : ℚ) + -b| := by
            rw [hval, abs_mul, abs_of_pos (two_zpow_pos _), ← Int.cast_abs]
            have := repr_of_mult (φ := φ) (n := |((201 * 2 ^ (φ.p - 7) : ℕ) - n : ℤ)|) (k := 1) (abs_nonneg _) (by omega) (by
              rw [show (1 : ℤ) + 1 = 2 by norm_num, Int.cast_abs, ← abs_of_pos (two_zpow_pos (2 - (φ.p : ℤ))), ← abs_mul,
                ← hval, e2]; exact hlt)
            rwa [show (1 : ℤ) + 1 = 2 by norm_num] at this
          rw [rndQ, rnd_repr _ hrep (lt_two_pow_emax (by linarith))]
          refine ⟨_, _, rfl, ?_⟩
          by_cases hneg : (6.28125 : ℚ) + -b < 0
          · simp [hneg, abs_of_neg hneg]; ring
          · simp [hneg, abs_of_nonneg (not_lt.1 hneg)]; ring
      obtain ⟨t', d, hd1, hd2⟩ := hd
      have : ofF (((FOps.lit 6.28125 : FP φ L) -. toF φ L (.fin false b)) +. toF φ L (.fin false p1))
          = FV.add φ (.fin t' d) (.fin false p1) := by
        rw [ofF_add, ofF_sub, ofF_lit]; simp only [ofF_toF]; rw [hd1]
      rw [this]
      have hs : sval false p1 = p1 := rfl
      refine add_mem ?_ ?_ rP (by linarith)
      · rw [hd2, hs]; linarith
      · rw [hd2, hs]; linarith
    · refine ⟨t, b, rfl, h0, ?_⟩
      have := hgt
      change ¬ (decide (sval false P < sval t b) = true) at this
      simpa [sval] using this
  -- sign
  have hx : ∃ t, (if toF φ L (.fin s a) <. (FOps.lit 0 : FP φ L) then ∸(toF φ L (.fin s a)) else toF φ L (.fin s a))
      = toF φ L (.fin t a) ∧ sval t a = a := by
    have h0 : (FOps.lit 0 : FP φ L) = toF φ L (.fin false 0) := rndQ_zero
    rw [h0]
    split_ifs with hlt
    · refine ⟨!s, rfl, ?_⟩
      change decide (sval s a < sval false 0) = true at hlt
      cases s <;> simp [sval] at hlt ⊢; linarith
    · refine ⟨s, rfl, ?_⟩
      change ¬ decide (sval s a < sval false 0) = true at hlt
      cases s <;> simp [sval] at hlt ⊢; linarith
  obtain ⟨t, hx1, hx2⟩ := hx
  simp only [reduceAbs, hx1]
  have h2P : (FOps.lit 2 : FP φ L) *. toF φ L (.fin false P) = toF φ L (.fin false (2 * P)) := m2
  rw [h2P]
  by_cases hge : 2 * P ≤ a
  · have hc : (toF φ L (.fin t a) >=. toF φ L (.fin false (2 * P))) = true := by
      change decide (sval false (2 * P) ≤ sval t a) = true
      rw [hx2]; simpa [sval] using hge
    rw [if_pos hc]
    have hfm : FOps.fmod (toF φ L (.fin t a)) (toF φ L (.fin false (2 * P)))
        = toF φ L (.fin t (a - 2 * P * ⌊a / (2 * P)⌋)) := by
      change (if 2 * P = 0 then FV.nan else _) = _
      rw [if_neg (by linarith)]; rfl
    rw [hfm]
    have hpos : 0 < 2 * P := by linarith
    have hb0 : 0 ≤ a - 2 * P * ⌊a / (2 * P)⌋ := by
      have := Int.floor_le (a / (2 * P))
      rw [le_div_iff₀ hpos] at this; linarith
    have hb1 : a - 2 * P * ⌊a / (2 * P)⌋ < 2 * P := by
      have := Int.lt_floor_add_one (a / (2 * P))
      rw [div_lt_iff₀ hpos] at this; linarith
    have ht : t = false := by
      cases t with
      | false => rfl
      | true => simp [sval] at hx2; linarith
    subst ht
    refine key _ _ ?_ hb0 hb1
    obtain ⟨n, hn⟩ := repr_mult ha 2 (by norm_num; linarith)
    rw [show (2 : ℤ) + 1 = 3 by norm_num] at hn
    have h2P' : 2 * P = nP * 2 ^ (3 - (φ.p : ℤ)) := by rw [h23, hP]; ring
    have hv : a - 2 * P * ⌊a / (2 * P)⌋ = ((n - nP * ⌊a / (2 * P)⌋ : ℤ) : ℚ) * 2 ^ (3 - (φ.p : ℤ)) := by
      push_cast
      rw [sub_mul, ← hn, h2P']; ring
    rw [hv]
    have := repr_of_mult (φ := φ) (n := n - nP * ⌊a / (2 * P)⌋) (k := 2) ?_ (by omega) ?_
    · rwa [show (2 : ℤ) + 1 = 3 by norm_num] at this
    · have : (0 : ℚ) ≤ ((n - nP * ⌊a / (2 * P)⌋ : ℤ) : ℚ) := by
        rw [hv] at hb0
        exact nonneg_of_mul_nonneg_left hb0 (two_zpow_pos _)
      exact_mod_cast this
    · rw [show (2 : ℤ) + 1 = 3 by norm_num, ← hv]; norm_num; linarith
  · have hc : ¬ (toF φ L (.fin t a) >=. toF φ L (.fin false (2 * P))) = true := by
      change ¬ decide (sval false (2 * P) ≤ sval t a) = true
      rw [hx2]; simpa [sval] using hge
    rw [if_neg hc]
    exact key t a ha (by rw [hx2]; exact ha0) (by rw [hx2]; exact not_le.1 hge)

theorem reduceSgn_fst (P p x : FP φ L) : (reduceSgn P p x).1 = reduceAbs P p x := by
  simp only [reduceSgn, reduceAbs]
  split_ifs <;> simp_all

theorem lit_625 (hp : 8 ≤ φ.p) (hm : φ.emin ≤ 2 - φ.p) : rndQ φ 6.28125 = .fin false 6.28125 := by
  rw [rndQ_nonneg (by norm_num)]
  refine rnd_repr _ ⟨201, -5, by omega, lt_of_lt_of_le (by norm_num : 201 < 2 ^ 8) ?_, by norm_num⟩ (lt_two_pow_emax (by norm_num))
  exact Nat.pow_le_pow_right (by norm_num) (by omega)

/-- `d` overloads in binary64: for every finite `x` the reduced argument is in `[0, PI]` -/
theorem C26_double_binary64 (L : Lib) (s : Bool) (a : ℚ) (hx : (FV.fin s a).Valid binary64) :
    let PI : FP binary64 L := FOps.lit 3.14159265358979324
    let r := reduceAbs PI (FOps.lit 0.0019353071795864769253) (toF binary64 L (.fin s a))
    ((FOps.lit 0 : FP binary64 L) <=. r) = true ∧ (r <=. PI) = true ∧
      (reduceSgn PI (FOps.lit 0.0019353071795864769253) (toF binary64 L (.fin s a))).1 = r := by
  intro PI r
  have hP : PI = toF binary64 L (.fin false (7074237752028440 * 2 ^ (-51 : ℤ))) := by
    change rndQ binary64 _ = _
    rw [rndQ_nonneg (by norm_num), rnd, rndMag_of 1 (-51) 7074237752028440 (by norm_num) (by norm_num) (by decide) (by norm_num [abs_lt]),
      if_neg (not_le.2 (lt_two_pow_emax (by norm_num)))]
    rfl
  have hp : (FOps.lit 0.0019353071795864769253 : FP binary64 L) = toF binary64 L (.fin false (8925029061461098 * 2 ^ (-62 : ℤ))) := by
    change rndQ binary64 _ = _
    rw [rndQ_nonneg (by norm_num), rnd, rndMag_of (-10) (-62) 8925029061461098 (by norm_num) (by norm_num) (by decide) (by norm_num [abs_lt]),
      if_neg (not_le.2 (lt_two_pow_emax (by norm_num)))]
    rfl
  refine ⟨?_, ?_, reduceSgn_fst _ _ _⟩
  all_goals
    obtain ⟨t, w, h1, h2, h3⟩ := reduceAbs_range (φ := binary64) (L := L) (P := 7074237752028440 * 2 ^ (-51 : ℤ)) (p1 := 8925029061461098 * 2 ^ (-62 : ℤ)) (nP := 7074237752028440)
      (by norm_num [binary64]) (by norm_num) (by norm_num) (by decide) (by decide) (lit_625 (by decide) (by decide))
      (by norm_num [binary64]) (by norm_num [binary64]) s a hx.1
    have hr : ofF r = .fin t w := by simp only [r, hP, hp]; exact h1
  · rw [le_F, hr, ofF_lit, rndQ_zero]; simpa [FV.le, sval] using h2
  · rw [le_F, hr, hP]; simpa [FV.le, sval] using h3

/-- `l` overloads in binary64: for every finite `x` the reduced argument is in `[0, PI]` -/
theorem C26_longdouble_binary64 (L : Lib) (s : Bool) (a : ℚ) (hx : (FV.fin s a).Valid binary64) :
    let PI : FP binary64 L := FOps.lit 3.14159265358979323846264338327950288
    let r := reduceAbs PI (FOps.lit 0.0019353071795864769252867665590057683943) (toF binary64 L (.fin s a))
    ((FOps.lit 0 : FP binary64 L) <=. r) = true ∧ (r <=. PI) = true ∧
      (reduceSgn PI (FOps.lit 0.0019353071795864769252867665590057683943) (toF binary64 L (.fin s a))).1 = r := by
  intro PI r
  have hP : PI = toF binary64 L (.fin false (7074237752028440 * 2 ^ (-51 : ℤ))) := by
    change rndQ binary64 _ = _
    rw [rndQ_nonneg (by norm_num), rnd, rndMag_of 1 (-51) 7074237752028440 (by norm_num) (by norm_num) (by decide) (by norm_num [abs_lt]),
      if_neg (not_le.2 (lt_two_pow_emax (by norm_num)))]
    rfl
  have hp : (FOps.lit 0.0019353071795864769252867665590057683943 : FP binary64 L) = toF binary64 L (.fin false (8925029061461098 * 2 ^ (-62 : ℤ))) := by
    change rndQ binary64 _ = _
    rw [rndQ_nonneg (by norm_num), rnd, rndMag_of (-10) (-62) 8925029061461098 (by norm_num) (by norm_num) (by decide) (by norm_num [abs_lt]),
      if_neg (not_le.2 (lt_two_pow_emax (by norm_num)))]
    rfl
  refine ⟨?_, ?_, reduceSgn_fst _ _ _⟩
  all_goals
    obtain ⟨t, w, h1, h2, h3⟩ := reduceAbs_range (φ := binary64) (L := L) (P := 7074237752028440 * 2 ^ (-51 : ℤ)) (p1 := 8925029061461098 * 2 ^ (-62 : ℤ)) (nP := 7074237752028440)
      (by norm_num [binary64]) (by norm_num) (by norm_num) (by decide) (by decide) (lit_625 (by decide) (by decide))
      (by norm_num [binary64]) (by norm_num [binary64]) s a hx.1
    have hr : ofF r = .fin t w := by simp only [r, hP, hp]; exact h1
  · rw [le_F, hr, ofF_lit, rndQ_zero]; simpa [FV.le, sval] using h2
  · rw [le_F, hr, hP]; simpa [FV.le, sval] using h3

/-- `l` overloads in x87ext: for every finite `x` the reduced argument is in `[0, PI]` -/
theorem C26_longdouble_x87ext (L : Lib) (s : Bool) (a : ℚ) (hx : (FV.fin s a).Valid x87ext) :
    let PI : FP x87ext L := FOps.lit 3.14159265358979323846264338327950288
    let r := reduceAbs PI (FOps.lit 0.0019353071795864769252867665590057683943) (toF x87ext L (.fin s a))
    ((FOps.lit 0 : FP x87ext L) <=. r) = true ∧ (r <=. PI) = true ∧
      (reduceSgn PI (FOps.lit 0.0019353071795864769252867665590057683943) (toF x87ext L (.fin s a))).1 = r := by
  intro PI r
  have hP : PI = toF x87ext L (.fin false (14488038916154245685 * 2 ^ (-62 : ℤ))) := by
    change rndQ x87ext _ = _
    rw [rndQ_nonneg (by norm_num), rnd, rndMag_of 1 (-62) 14488038916154245685 (by norm_num) (by norm_num) (by decide) (by norm_num [abs_lt]),
      if_neg (not_le.2 (lt_two_pow_emax (by norm_num)))]
    rfl
  have hp : (FOps.lit 0.0019353071795864769252867665590057683943 : FP x87ext L) = toF x87ext L (.fin false (18278459517872327756 * 2 ^ (-73 : ℤ))) := by
    change rndQ x87ext _ = _
    rw [rndQ_nonneg (by norm_num), rnd, rndMag_of (-10) (-73) 18278459517872327756 (by norm_num) (by norm_num) (by decide) (by norm_num [abs_lt]),
      if_neg (not_le.2 (lt_two_pow_emax (by norm_num)))]
    rfl
  refine ⟨?_, ?_, reduceSgn_fst _ _ _⟩
  all_goals
    obtain ⟨t, w, h1, h2, h3⟩ := reduceAbs_range (φ := x87ext) (L := L) (P := 14488038916154245685 * 2 ^ (-62 : ℤ)) (p1 := 18278459517872327756 * 2 ^ (-73 : ℤ)) (nP := 14488038916154245685)
      (by norm_num [x87ext]) (by norm_num) (by norm_num) (by decide) (by decide) (lit_625 (by decide) (by decide))
      (by norm_num [x87ext]) (by norm_num [x87ext]) s a hx.1
    have hr : ofF r = .fin t w := by simp only [r, hP, hp]; exact h1
  · rw [le_F, hr, ofF_lit, rndQ_zero]; simpa [FV.le, sval] using h2
  · rw [le_F, hr, hP]; simpa [FV.le, sval] using h3

/-- `l` overloads in binary128: for every finite `x` the reduced argument is in `[0, PI]` -/
theorem C26_longdouble_binary128 (L : Lib) (s : Bool) (a : ℚ) (hx : (FV.fin s a).Valid binary128) :
    let PI : FP binary128 L := FOps.lit 3.14159265358979323846264338327950288
    let r := reduceAbs PI (FOps.lit 0.0019353071795864769252867665590057683943) (toF binary128 L (.fin s a))
    ((FOps.lit 0 : FP binary128 L) <=. r) = true ∧ (r <=. PI) = true ∧
      (reduceSgn PI (FOps.lit 0.0019353071795864769252867665590057683943) (toF binary128 L (.fin s a))).1 = r := by
  intro PI r
  have hP : PI = toF binary128 L (.fin false (8156040833015188200833743081374136 * 2 ^ (-111 : ℤ))) := by
    change rndQ binary128 _ = _
    rw [rndQ_nonneg (by norm_num), rnd, rndMag_of 1 (-111) 8156040833015188200833743081374136 (by norm_num) (by norm_num) (by decide) (by norm_num [abs_lt]),
      if_neg (not_le.2 (lt_two_pow_emax (by norm_num)))]
    rfl
  have hp : (FOps.lit 0.0019353071795864769252867665590057683943 : FP binary128 L) = toF binary128 L (.fin false (10289857934199563906859271764804506 * 2 ^ (-122 : ℤ))) := by
    change rndQ binary128 _ = _
    rw [rndQ_nonneg (by norm_num), rnd, rndMag_of (-10) (-122) 10289857934199563906859271764804506 (by norm_num) (by norm_num) (by decide) (by norm_num [abs_lt]),
      if_neg (not_le.2 (lt_two_pow_emax (by norm_num)))]
    rfl
  refine ⟨?_, ?_, reduceSgn_fst _ _ _⟩
  all_goals
    obtain ⟨t, w, h1, h2, h3⟩ := reduceAbs_range (φ := binary128) (L := L) (P := 8156040833015188200833743081374136 * 2 ^ (-111 : ℤ)) (p1 := 10289857934199563906859271764804506 * 2 ^ (-122 : ℤ)) (nP := 8156040833015188200833743081374136)
      (by norm_num [binary128]) (by norm_num) (by norm_num) (by decide) (by decide) (lit_625 (by decide) (by decide))
      (by norm_num [binary128]) (by norm_num [binary128]) s a hx.1
    have hr : ofF r = .fin t w := by simp only [r, hP, hp]; exact h1
  · rw [le_F, hr, ofF_lit, rndQ_zero]; simpa [FV.le, sval] using h2
  · rw [le_F, hr, hP]; simpa [FV.le, sval] using h3

/-- the range reduction of `Cl(n,x)` and `Sl(n,x)`, every order -/
theorem C26_Cl_Sl (L : Lib) (n : ℤ) (s : Bool) (a : ℚ) (hx : (FV.fin s a).Valid binary64) :
    let PI : FP binary64 L := FOps.lit 3.14159265358979324
    let r := (clReduce n (toF binary64 L (.fin s a))).1
    let r' := (slReduce n (toF binary64 L (.fin s a))).1
    ((FOps.lit 0 : FP binary64 L) <=. r) = true ∧ (r <=. PI) = true ∧
      ((FOps.lit 0 : FP binary64 L) <=. r') = true ∧ (r' <=. PI) = true := by
  obtain ⟨h1, h2, h3⟩ := C26_double_binary64 L s a hx
  simp only [clReduce, slReduce]
  split_ifs <;> simp only [h1, h2, h3, and_self]

/-- the largest finite double, where `fmod` has to remove some 10^307 periods, is covered -/
example : (FV.fin true ((2 ^ 53 - 1) * 2 ^ (971 : ℤ))).Valid binary64 :=
  ⟨⟨2 ^ 53 - 1, 971, by decide, by decide, by push_cast; norm_num⟩, by
    rw [show binary64.emax = 53 + 971 from rfl, zpow_add₀ (by norm_num)]
    exact mul_lt_mul_of_pos_right (by norm_num) (two_zpow_pos _)⟩

/-! ## C32: periodicity

`T` is the floating-point number `2*PI` of the code.  The hypothesis on the sign excludes only `x = -0`, which is
returned unchanged, whereas `-0 - m*T` reduces to `+0`. -/

theorem fmod_period {T a : ℚ} (hT : 0 < T) (m : ℕ) :
    a + m * T - T * ⌊(a + m * T) / T⌋ = a - T * ⌊a / T⌋ := by
  have : (a + m * T) / T = a / T + m := by field_simp
  rw [this, Int.floor_add_natCast]; push_cast; ring

theorem lit_pi_nonneg {q : ℚ} (h : 2 ≤ q) {T : ℚ} (hT : (FOps.lit 2 : FP φ L) *. (FOps.lit q : FP φ L) = toF φ L (.fin false T)) :
    0 < T := by
  by_contra hc
  have h1 := (zero_lt_pi (L := L) (φ := φ) h (x := toF φ L (.fin false 0)) ⟨false, rfl⟩).1
  rw [hT] at h1
  change decide (sval false T ≤ sval false 0) = false at h1
  simp [sval] at h1; linarith

theorem step_period {T a : ℚ} (hT : 0 < T) (ha : 0 ≤ a) (m : ℕ) :
    (if toF φ L (.fin false (a + m * T)) >=. toF φ L (.fin false T) then
      FOps.fmod (toF φ L (.fin false (a + m * T))) (toF φ L (.fin false T)) else toF φ L (.fin false (a + m * T)))
    = (if toF φ L (.fin false a) >=. toF φ L (.fin false T) then
      FOps.fmod (toF φ L (.fin false a)) (toF φ L (.fin false T)) else toF φ L (.fin false a)) := by
  have key : ∀ b : ℚ, 0 ≤ b → (if toF φ L (.fin false b) >=. toF φ L (.fin false T) then
      FOps.fmod (toF φ L (.fin false b)) (toF φ L (.fin false T)) else toF φ L (.fin false b))
      = toF φ L (.fin false (b - T * ⌊b / T⌋)) := by
    intro b hb
    split_ifs with h
    · change (if T = 0 then FV.nan else _) = _
      rw [if_neg hT.ne']; rfl
    · change ¬ decide (sval false T ≤ sval false b) = true at h
      simp only [sval, Bool.false_eq_true, if_false, decide_eq_true_eq, not_le] at h
      have : ⌊b / T⌋ = 0 := Int.floor_eq_zero_iff.2 ⟨by positivity, (div_lt_one hT).2 h⟩
      rw [this]; simp
  rw [key a ha, key _ (by positivity), fmod_period hT]

theorem sgn_step {s : Bool} {a : ℚ} (ha : 0 ≤ a) (hs : s = true → 0 < a) :
    (toF φ L (.fin s a) <. (FOps.lit 0 : FP φ L)) = s := by
  have h0 : (FOps.lit 0 : FP φ L) = toF φ L (.fin false 0) := rndQ_zero
  rw [h0]
  change decide (sval s a < sval false 0) = s
  cases s
  · simpa [sval] using ha
  · simpa [sval] using hs rfl

theorem reduceSgn_period {q T a : ℚ} (hq : 2 ≤ q) (p : FP φ L)
    (hT : (FOps.lit 2 : FP φ L) *. (FOps.lit q : FP φ L) = toF φ L (.fin false T)) {s : Bool} (ha : 0 ≤ a)
    (hs : s = true → 0 < a) (m : ℕ) :
    reduceSgn (FOps.lit q) p (toF φ L (.fin s (a + m * T))) = reduceSgn (FOps.lit q) p (toF φ L (.fin s a)) := by
  have hT0 := lit_pi_nonneg hq hT
  have h1 : s = true → 0 < a + m * T := fun h => by have := hs h; positivity
  simp only [reduceSgn, sgn_step ha hs, sgn_step (by positivity : 0 ≤ a + m * T) h1, hT]
  cases s
  · simp only [Bool.false_eq_true, if_false, step_period hT0 ha]
  · have e : ∀ b, ∸(toF φ L (.fin true b)) = toF φ L (.fin false b) := fun b => rfl
    simp only [if_true, e, step_period hT0 ha]

theorem reduceAbs_period {q T a : ℚ} (hq : 2 ≤ q) (p : FP φ L)
    (hT : (FOps.lit 2 : FP φ L) *. (FOps.lit q : FP φ L) = toF φ L (.fin false T)) {s : Bool} (ha : 0 ≤ a)
    (hs : s = true → 0 < a) (m : ℕ) :
    reduceAbs (FOps.lit q) p (toF φ L (.fin s (a + m * T))) = reduceAbs (FOps.lit q) p (toF φ L (.fin s a)) := by
  rw [← reduceSgn_fst, ← reduceSgn_fst, reduceSgn_period hq p hT ha hs]

theorem C32_Cl1d (φ : Fmt) (L : Lib) (T a : ℚ) (s : Bool) (m : ℕ)
    (hT : (FOps.lit 2 : FP φ L) *. (FOps.lit 3.14159265358979324 : FP φ L) = toF φ L (.fin false T))
    (ha : 0 ≤ a) (hs : s = true → 0 < a) :
    Cl1d (toF φ L (.fin s (a + m * T))) = Cl1d (toF φ L (.fin s a)) := by
  simp only [Cl1d, reduceAbs_period (by norm_num) _ hT ha hs]

theorem C32_Cl2d (φ : Fmt) (L : Lib) (T a : ℚ) (s : Bool) (m : ℕ)
    (hT : (FOps.lit 2 : FP φ L) *. (FOps.lit 3.14159265358979324 : FP φ L) = toF φ L (.fin false T))
    (ha : 0 ≤ a) (hs : s = true → 0 < a) :
    Cl2d (toF φ L (.fin s (a + m * T))) = Cl2d (toF φ L (.fin s a)) := by
  simp only [Cl2d, reduceSgn_period (by norm_num) _ hT ha hs]

theorem C32_Cl2l (φ : Fmt) (L : Lib) (T a : ℚ) (s : Bool) (m : ℕ)
    (hT : (FOps.lit 2 : FP φ L) *. (FOps.lit 3.14159265358979323846264338327950288 : FP φ L) = toF φ L (.fin false T))
    (ha : 0 ≤ a) (hs : s = true → 0 < a) :
    Cl2l (toF φ L (.fin s (a + m * T))) = Cl2l (toF φ L (.fin s a)) := by
  simp only [Cl2l, reduceSgn_period (by norm_num) _ hT ha hs]

theorem C32_Cl3d (φ : Fmt) (L : Lib) (T a : ℚ) (s : Bool) (m : ℕ)
    (hT : (FOps.lit 2 : FP φ L) *. (FOps.lit 3.14159265358979324 : FP φ L) = toF φ L (.fin false T))
    (ha : 0 ≤ a) (hs : s = true → 0 < a) :
    Cl3d (toF φ L (.fin s (a + m * T))) = Cl3d (toF φ L (.fin s a)) := by
  simp only [Cl3d, reduceAbs_period (by norm_num) _ hT ha hs]

theorem C32_Cl3l (φ : Fmt) (L : Lib) (T a : ℚ) (s : Bool) (m : ℕ)
    (hT : (FOps.lit 2 : FP φ L) *. (FOps.lit 3.14159265358979323846264338327950288 : FP φ L) = toF φ L (.fin false T))
    (ha : 0 ≤ a) (hs : s = true → 0 < a) :
    Cl3l (toF φ L (.fin s (a + m * T))) = Cl3l (toF φ L (.fin s a)) := by
  simp only [Cl3l, reduceAbs_period (by norm_num) _ hT ha hs]

theorem C32_Cl4d (φ : Fmt) (L : Lib) (T a : ℚ) (s : Bool) (m : ℕ)
    (hT : (FOps.lit 2 : FP φ L) *. (FOps.lit 3.14159265358979324 : FP φ L) = toF φ L (.fin false T))
    (ha : 0 ≤ a) (hs : s = true → 0 < a) :
    Cl4d (toF φ L (.fin s (a + m * T))) = Cl4d (toF φ L (.fin s a)) := by
  simp only [Cl4d, reduceSgn_period (by norm_num) _ hT ha hs]

theorem C32_Cl4l (φ : Fmt) (L : Lib) (T a : ℚ) (s : Bool) (m : ℕ)
    (hT : (FOps.lit 2 : FP φ L) *. (FOps.lit 3.14159265358979323846264338327950288 : FP φ L) = toF φ L (.fin false T))
    (ha : 0 ≤ a) (hs : s = true → 0 < a) :
    Cl4l (toF φ L (.fin s (a + m * T))) = Cl4l (toF φ L (.fin s a)) := by
  simp only [Cl4l, reduceSgn_period (by norm_num) _ hT ha hs]

theorem C32_Cl5d (φ : Fmt) (L : Lib) (T a : ℚ) (s : Bool) (m : ℕ)
    (hT : (FOps.lit 2 : FP φ L) *. (FOps.lit 3.14159265358979324 : FP φ L) = toF φ L (.fin false T))
    (ha : 0 ≤ a) (hs : s = true → 0 < a) :
    Cl5d (toF φ L (.fin s (a + m * T))) = Cl5d (toF φ L (.fin s a)) := by
  simp only [Cl5d, reduceAbs_period (by norm_num) _ hT ha hs]

theorem C32_Cl5l (φ : Fmt) (L : Lib) (T a : ℚ) (s : Bool) (m : ℕ)
    (hT : (FOps.lit 2 : FP φ L) *. (FOps.lit 3.14159265358979323846264338327950288 : FP φ L) = toF φ L (.fin false T))
    (ha : 0 ≤ a) (hs : s = true → 0 < a) :
    Cl5l (toF φ L (.fin s (a + m * T))) = Cl5l (toF φ L (.fin s a)) := by
  simp only [Cl5l, reduceAbs_period (by norm_num) _ hT ha hs]

theorem C32_Cl6d (φ : Fmt) (L : Lib) (T a : ℚ) (s : Bool) (m : ℕ)
    (hT : (FOps.lit 2 : FP φ L) *. (FOps.lit 3.14159265358979324 : FP φ L) = toF φ L (.fin false T))
    (ha : 0 ≤ a) (hs : s = true → 0 < a) :
    Cl6d (toF φ L (.fin s (a + m * T))) = Cl6d (toF φ L (.fin s a)) := by
  simp only [Cl6d, reduceSgn_period (by norm_num) _ hT ha hs]

theorem C32_Cl6l (φ : Fmt) (L : Lib) (T a : ℚ) (s : Bool) (m : ℕ)
    (hT : (FOps.lit 2 : FP φ L) *. (FOps.lit 3.14159265358979323846264338327950288 : FP φ L) = toF φ L (.fin false T))
    (ha : 0 ≤ a) (hs : s = true → 0 < a) :
    Cl6l (toF φ L (.fin s (a + m * T))) = Cl6l (toF φ L (.fin s a)) := by
  simp only [Cl6l, reduceSgn_period (by norm_num) _ hT ha hs]

theorem C32_Cl (φ : Fmt) (L : Lib) (n : ℤ) (T a : ℚ) (s : Bool) (m : ℕ)
    (hT : (FOps.lit 2 : FP φ L) *. (FOps.lit 3.14159265358979324 : FP φ L) = toF φ L (.fin false T))
    (ha : 0 ≤ a) (hs : s = true → 0 < a) :
    Cl n (toF φ L (.fin s (a + m * T))) = Cl n (toF φ L (.fin s a)) := by
  have h : clReduce n (toF φ L (.fin s (a + m * T))) = clReduce n (toF φ L (.fin s a)) := by
    simp only [clReduce, reduceAbs_period (by norm_num) _ hT ha hs, reduceSgn_period (by norm_num) _ hT ha hs]
  simp only [Cl, C32_Cl1d φ L T a s m hT ha hs, C32_Cl2d φ L T a s m hT ha hs, C32_Cl3d φ L T a s m hT ha hs, C32_Cl4d φ L T a s m hT ha hs, C32_Cl5d φ L T a s m hT ha hs, C32_Cl6d φ L T a s m hT ha hs, h]

theorem C32_Sl (φ : Fmt) (L : Lib) (n : ℤ) (T a : ℚ) (s : Bool) (m : ℕ)
    (hT : (FOps.lit 2 : FP φ L) *. (FOps.lit 3.14159265358979324 : FP φ L) = toF φ L (.fin false T))
    (ha : 0 ≤ a) (hs : s = true → 0 < a) :
    Sl n (toF φ L (.fin s (a + m * T))) = Sl n (toF φ L (.fin s a)) := by
  have h : slReduce n (toF φ L (.fin s (a + m * T))) = slReduce n (toF φ L (.fin s a)) := by
    simp only [slReduce, reduceAbs_period (by norm_num) _ hT ha hs, reduceSgn_period (by norm_num) _ hT ha hs]
  simp only [Sl, h]

/-- the number `T` exists: `2*PI` in binary64 -/
example : ∃ T : ℚ, 6 < T ∧ ∀ L : Lib, (FOps.lit 2 : FP binary64 L) *. (FOps.lit 3.14159265358979324 : FP binary64 L)
    = toF binary64 L (.fin false T) := by
  refine ⟨2 * (7074237752028440 * 2 ^ (-51 : ℤ)), by norm_num, fun L => ?_⟩
  change FV.mul binary64 (rndQ binary64 2) (rndQ binary64 _) = _
  rw [lit_two, rndQ_nonneg (by norm_num), rnd, rndMag_of 1 (-51) 7074237752028440 (by norm_num) (by norm_num) (by decide)
    (by norm_num [abs_lt]), if_neg (not_le.2 (lt_two_pow_emax (by norm_num)))]
  refine rnd_repr _ ⟨7074237752028440, -50, by decide, by norm_num [binary64], by norm_num⟩ (lt_two_pow_emax (by norm_num))

end Polylog
