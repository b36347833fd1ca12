import Verif.Sem.IEEELemmas

/-!
# Finite floating-point values as rational numbers

`Val φ x q`: the datum `x` is finite, in the format `φ`, with value `q` (a zero may have either sign).
`rq φ q`: the rational number `q` rounded to nearest, ties to even, as a rational number.  Below the overflow threshold the
floating-point operations are the exact operations followed by `rq`.
-/

namespace Polylog
variable {φ : Fmt}

def Val (φ : Fmt) (x : FV) (q : ℚ) : Prop := ∃ s a, x = .fin s a ∧ sval s a = q ∧ Repr φ a ∧ a < 2 ^ φ.emax

/-- `q` rounded to nearest, ties to even -/
def rq (φ : Fmt) (q : ℚ) : ℚ := sval (decide (q < 0)) (rndMag φ |q|)

theorem repr_nonneg {a : ℚ} (h : Repr φ a) : 0 ≤ a := by obtain ⟨m, e, _, _, rfl⟩ := h; positivity
theorem repr_zero : Repr φ 0 := ⟨0, φ.emin, le_rfl, by positivity, by simp⟩
theorem abs_sval (s : Bool) {a : ℚ} (h : 0 ≤ a) : |sval s a| = a := by cases s <;> simp [sval, abs_of_nonneg h]

theorem rq_nonneg_eq {q : ℚ} (h : 0 ≤ q) : rq φ q = rndMag φ q := by
  unfold rq; simp [not_lt.2 h, sval, abs_of_nonneg h]
theorem rq_zero : rq φ 0 = 0 := by rw [rq_nonneg_eq le_rfl, rndMag_repr repr_zero]
theorem rq_neg (q : ℚ) : rq φ (-q) = -rq φ q := by
  rcases lt_trichotomy q 0 with h | h | h
  · simp only [rq, abs_neg]; simp [h, not_lt.2 (by linarith : (0:ℚ) ≤ -q), sval]
  · subst h; simp [rq_zero]
  · simp only [rq, abs_neg]; simp [h, not_lt.2 h.le, sval]
theorem abs_rq (q : ℚ) : |rq φ q| = rndMag φ |q| := abs_sval _ (rndMag_nonneg (abs_nonneg q))
theorem rq_nonneg {q : ℚ} (h : 0 ≤ q) : 0 ≤ rq φ q := by rw [rq_nonneg_eq h]; exact rndMag_nonneg h
theorem rq_mono {a b : ℚ} (h : a ≤ b) : rq φ a ≤ rq φ b := by
  rcases le_or_gt 0 a with ha | ha
  · rw [rq_nonneg_eq ha, rq_nonneg_eq (ha.trans h)]; exact rndMag_mono ha h
  · have e1 : rq φ a = -rndMag φ (-a) := by
      have := rq_neg (φ := φ) (-a)
      rw [neg_neg] at this
      rw [this, rq_nonneg_eq (by linarith)]
    rcases le_or_gt 0 b with hb | hb
    · rw [e1]
      have := rq_nonneg (φ := φ) hb
      have := rndMag_nonneg (φ := φ) (show 0 ≤ -a by linarith)
      linarith
    · have e2 : rq φ b = -rndMag φ (-b) := by
        have := rq_neg (φ := φ) (-b)
        rw [neg_neg] at this
        rw [this, rq_nonneg_eq (by linarith)]
      rw [e1, e2]
      have := rndMag_mono (φ := φ) (show 0 ≤ -b by linarith) (show -b ≤ -a by linarith)
      linarith
theorem rq_repr {q : ℚ} (h : Repr φ |q|) : rq φ q = q := by
  unfold rq
  rw [rndMag_repr h]
  by_cases hq : q < 0
  · simp [hq, sval, abs_of_neg hq]
  · simp [hq, sval, abs_of_nonneg (not_lt.1 hq)]
theorem repr_rq (q : ℚ) : Repr φ |rq φ q| := by rw [abs_rq]; exact repr_rndMag (abs_nonneg q)
theorem abs_rq_le {q y : ℚ} (hy : Repr φ y) (h : |q| ≤ y) : |rq φ q| ≤ y := by
  rw [abs_rq]; exact rndMag_le (abs_nonneg q) hy h
theorem le_abs_rq {q y : ℚ} (hy : Repr φ y) (h : y ≤ |q|) : y ≤ |rq φ q| := by
  rw [abs_rq]; exact le_rndMag (abs_nonneg q) hy h

theorem rq_sub (q : ℚ) : |rq φ q - q| = abs (rndMag φ (abs q) - abs q) := by
  by_cases hq : q < 0
  · rw [rq, abs_of_neg hq]; simp only [hq, decide_true, sval, if_true]; rw [abs_sub_comm]; congr 1; ring
  · rw [rq, abs_of_nonneg (not_lt.1 hq)]; simp [hq, sval]

/-- error of rounding -/
theorem rq_err (q : ℚ) : |rq φ q - q| ≤ |q| * 2 ^ (-(φ.p : ℤ)) ∨ |rq φ q - q| ≤ 2 ^ (φ.emin - 1) := by
  rw [rq_sub]; exact rndMag_err (abs_nonneg q)

theorem rq_err' (q : ℚ) : |rq φ q - q| ≤ |q| * 2 ^ (-(φ.p : ℤ)) + 2 ^ (φ.emin - 1) := by
  have h1 : (0:ℚ) ≤ |q| * 2 ^ (-(φ.p : ℤ)) := by positivity
  have h2 : (0:ℚ) < 2 ^ (φ.emin - 1) := by positivity
  rcases rq_err (φ := φ) q with h | h <;> linarith

/-- every value is a multiple of the smallest positive one -/
theorem repr_eta {a : ℚ} (h : Repr φ a) : ∃ n : ℕ, a = n * 2 ^ φ.emin := by
  obtain ⟨m, e, he, _, rfl⟩ := h
  refine ⟨m * 2 ^ (e - φ.emin).toNat, ?_⟩
  have : (2 : ℚ) ^ e = 2 ^ ((e - φ.emin).toNat : ℤ) * 2 ^ φ.emin := by
    rw [← zpow_add₀ (by norm_num)]; congr 1; omega
  rw [this, zpow_natCast]; push_cast; ring

theorem abs_eta {q : ℚ} (h : Repr φ |q|) : ∃ n : ℤ, q = n * 2 ^ φ.emin := by
  obtain ⟨m, hm⟩ := repr_eta h
  rcases abs_choice q with h1 | h1
  · exact ⟨m, by rw [h1] at hm; push_cast; exact hm⟩
  · exact ⟨-m, by rw [h1] at hm; push_cast; linarith⟩

theorem repr_of_eta {n : ℕ} (h : n ≤ 2 ^ φ.p) : Repr φ (n * 2 ^ φ.emin) := by
  rcases h.lt_or_eq with h | h
  · exact ⟨n, φ.emin, le_rfl, h, rfl⟩
  · refine ⟨2 ^ (φ.p - 1), φ.emin + 1, by omega, Nat.pow_lt_pow_right (by norm_num) (by have := φ.hp; omega), ?_⟩
    rw [h, zpow_add_one₀ (by norm_num)]
    have : (2:ℕ) ^ φ.p = 2 ^ (φ.p - 1) * 2 := by rw [← pow_succ]; congr 1; have := φ.hp; omega
    rw [this]; push_cast; ring

/-- multiples of the smallest positive value up to `2^p` of them are exact -/
theorem rq_eta {n : ℤ} (h : |n| ≤ 2 ^ φ.p) : rq φ (n * 2 ^ φ.emin) = n * 2 ^ φ.emin := by
  refine rq_repr ?_
  rw [abs_mul, abs_of_pos (two_zpow_pos _)]
  have : (|(n:ℚ)|) = ((n.natAbs : ℕ) : ℚ) := by rw [Nat.cast_natAbs]; push_cast; rfl
  rw [this]
  exact repr_of_eta (by zify; exact h)

/-- the sum of two values: rounding has a relative error only -/
theorem rq_add_err {a b : ℚ} (ha : Repr φ |a|) (hb : Repr φ |b|) : |rq φ (a + b) - (a + b)| ≤ |a + b| * 2 ^ (-(φ.p : ℤ)) := by
  rcases rq_err (φ := φ) (a + b) with h | h
  · exact h
  · obtain ⟨m, hm⟩ := abs_eta ha
    obtain ⟨n, hn⟩ := abs_eta hb
    obtain ⟨k, hk⟩ := abs_eta (repr_rq (φ := φ) (a + b))
    have e : rq φ (a + b) - (a + b) = ((k - (m + n) : ℤ) : ℚ) * 2 ^ φ.emin := by rw [hk, hm, hn]; push_cast; ring
    rw [e, abs_mul, abs_of_pos (two_zpow_pos _), zpow_sub_one₀ (by norm_num)] at h
    have h2 : |((k - (m + n) : ℤ) : ℚ)| ≤ 1 / 2 := by
      have := two_zpow_pos φ.emin
      nlinarith
    have h3 : k - (m + n) = 0 := by
      have h4 := abs_le.1 h2
      have h5 : (-1 : ℚ) < ((k - (m + n) : ℤ) : ℚ) := by linarith
      have h6 : ((k - (m + n) : ℤ) : ℚ) < 1 := by linarith
      have h5' : (-1 : ℤ) < k - (m + n) := by exact_mod_cast h5
      have h6' : k - (m + n) < 1 := by exact_mod_cast h6
      omega
    rw [e, h3]; simp

/-- less than half of the smallest positive value rounds to zero -/
theorem rq_tiny {q : ℚ} (h : |q| < 2 ^ (φ.emin - 1)) : rq φ q = 0 := by
  have h2 := repr_rq (φ := φ) q
  obtain ⟨n, hn⟩ := repr_eta h2
  have h3 : |rq φ q| ≤ 2 ^ φ.emin := abs_rq_le (repr_two_pow le_rfl) (h.le.trans (zpow_le_zpow_right₀ (by norm_num) (by omega)))
  have hp := two_zpow_pos φ.emin
  have e1 : (2:ℚ) ^ (φ.emin - 1) = 2 ^ φ.emin / 2 := by rw [zpow_sub_one₀ (by norm_num)]; ring
  have hlog : |q| * 2 ^ (-(φ.p : ℤ)) ≤ |q| * (1 / 2) := by
    refine mul_le_mul_of_nonneg_left ?_ (abs_nonneg q)
    have : (2:ℚ) ^ (-(φ.p : ℤ)) ≤ 2 ^ (-1 : ℤ) := zpow_le_zpow_right₀ (by norm_num) (by have := φ.hp; omega)
    norm_num at this ⊢; exact this
  have h4 : |rq φ q| < 2 ^ φ.emin := by
    have h5 := abs_abs_sub_abs_le_abs_sub (rq φ q) q
    have h6 := (abs_le.1 h5).2
    rcases rq_err (φ := φ) q with h7 | h7
    · have := abs_nonneg q; rw [e1] at h; linarith
    · rw [e1] at h h7; linarith
  rw [hn] at h4
  have h5 : (n : ℚ) < 1 := by nlinarith
  have h6 : n = 0 := by
    have : n < 1 := by exact_mod_cast h5
    omega
  rw [h6] at hn
  simpa using hn

/-- more than half of the smallest positive value does not round to zero -/
theorem rq_big {q : ℚ} (h : 2 ^ (φ.emin - 1) < q) : 2 ^ φ.emin ≤ rq φ q := by
  have hp := two_zpow_pos φ.emin
  have e1 : (2:ℚ) ^ (φ.emin - 1) = 2 ^ φ.emin / 2 := by rw [zpow_sub_one₀ (by norm_num)]; ring
  rw [e1] at h
  rcases le_or_gt (2 ^ φ.emin) q with h1 | h1
  · have := rq_mono (φ := φ) h1
    rwa [rq_repr (by rw [abs_of_pos hp]; exact repr_two_pow le_rfl)] at this
  · have hq : 0 < q := by linarith
    rw [rq_nonneg_eq hq.le]
    unfold rndMag
    have he : ulpExp φ q = φ.emin := by
      unfold ulpExp
      refine max_eq_right ?_
      have h3 := (log_spec hq).1
      have : Int.log 2 q < φ.emin := (zpow_lt_zpow_iff_right₀ (by norm_num : (1:ℚ) < 2)).1 (lt_of_le_of_lt h3 h1)
      have := φ.hp
      omega
    rw [he]
    have h3 : (1:ℤ) ≤ rne (q / 2 ^ φ.emin) := by
      have h4 : 1 / 2 < q / 2 ^ φ.emin := by rw [lt_div_iff₀ hp]; linarith
      have h5 : q / 2 ^ φ.emin < 1 := by rw [div_lt_one hp]; exact h1
      have hf : ⌊q / 2 ^ φ.emin⌋ = 0 := Int.floor_eq_zero_iff.2 ⟨by linarith, h5⟩
      unfold rne
      rw [hf]
      norm_num
      rw [if_neg (by linarith), if_pos (by norm_num at h4 ⊢; linarith)]
    have h4 : (1:ℚ) ≤ (rne (q / 2 ^ φ.emin) : ℚ) := by exact_mod_cast h3
    nlinarith

/-! ### operations -/

theorem Val.repr {x : FV} {q : ℚ} (h : Val φ x q) : Repr φ |q| := by
  obtain ⟨s, a, rfl, rfl, hr, _⟩ := h
  rw [abs_sval s (repr_nonneg hr)]; exact hr
theorem Val.lt_max {x : FV} {q : ℚ} (h : Val φ x q) : |q| < 2 ^ φ.emax := by
  obtain ⟨s, a, rfl, rfl, hr, hm⟩ := h
  rw [abs_sval s (repr_nonneg hr)]; exact hm

theorem Val.isfin {x : FV} {q : ℚ} (h : Val φ x q) : x.isfin = true := by obtain ⟨s, a, rfl, _⟩ := h; rfl
theorem Val.isnan {x : FV} {q : ℚ} (h : Val φ x q) : x.isnan = false := by obtain ⟨s, a, rfl, _⟩ := h; rfl
theorem Val.isinf {x : FV} {q : ℚ} (h : Val φ x q) : x.isinf = false := by obtain ⟨s, a, rfl, _⟩ := h; rfl

theorem Val.neg {x : FV} {q : ℚ} (h : Val φ x q) : Val φ x.neg (-q) := by
  obtain ⟨s, a, rfl, rfl, hr, hm⟩ := h
  exact ⟨!s, a, rfl, FV.sval_not s a, hr, hm⟩

theorem val_rnd (s : Bool) {a q : ℚ} (ha : 0 ≤ a) (hq : sval s a = q) (h : |rq φ q| < 2 ^ φ.emax) : Val φ (rnd φ s a) (rq φ q) := by
  have e : |q| = a := by rw [← hq, abs_sval s ha]
  rw [abs_rq, e] at h
  unfold rnd
  rw [if_neg (not_le.2 h)]
  refine ⟨s, _, rfl, ?_, repr_rndMag ha, h⟩
  rw [← hq]
  cases s
  · simp only [sval, Bool.false_eq_true, if_false]; rw [rq_nonneg_eq ha]
  · simp only [sval, if_true]; rw [rq_neg, rq_nonneg_eq ha]

theorem val_rndQ {q : ℚ} (h : |rq φ q| < 2 ^ φ.emax) : Val φ (rndQ φ q) (rq φ q) := by
  unfold rndQ
  refine val_rnd _ (abs_nonneg q) ?_ h
  by_cases hq : q < 0
  · simp [sval, hq, abs_of_neg hq]
  · simp [sval, hq, abs_of_nonneg (not_lt.1 hq)]

theorem Val.mul {x y : FV} {a b : ℚ} (hx : Val φ x a) (hy : Val φ y b) (h : |rq φ (a * b)| < 2 ^ φ.emax) : Val φ (FV.mul φ x y) (rq φ (a * b)) := by
  obtain ⟨s, a, rfl, rfl, hra, _⟩ := hx
  obtain ⟨t, b, rfl, rfl, hrb, _⟩ := hy
  refine val_rnd (xor s t) (mul_nonneg (repr_nonneg hra) (repr_nonneg hrb)) ?_ h
  cases s <;> cases t <;> simp [sval]

theorem Val.div {x y : FV} {a b : ℚ} (hx : Val φ x a) (hy : Val φ y b) (hb : b ≠ 0) (h : |rq φ (a / b)| < 2 ^ φ.emax) : Val φ (FV.div φ x y) (rq φ (a / b)) := by
  obtain ⟨s, a, rfl, rfl, hra, _⟩ := hx
  obtain ⟨t, b, rfl, rfl, hrb, _⟩ := hy
  have hb' : b ≠ 0 := fun h0 => hb (by rw [h0]; simp [sval])
  simp only [FV.div]
  rw [if_neg hb']
  refine val_rnd (xor s t) (div_nonneg (repr_nonneg hra) (repr_nonneg hrb)) ?_ h
  cases s <;> cases t <;> simp [sval, neg_div, div_neg]

theorem Val.add {x y : FV} {a b : ℚ} (hx : Val φ x a) (hy : Val φ y b) (h : |rq φ (a + b)| < 2 ^ φ.emax) : Val φ (FV.add φ x y) (rq φ (a + b)) := by
  obtain ⟨s, a, rfl, rfl, hra, hma⟩ := hx
  obtain ⟨t, b, rfl, rfl, hrb, _⟩ := hy
  simp only [FV.add]
  by_cases h0 : sval s a + sval t b = 0
  · rw [if_pos h0, h0, rq_zero]
    have hm : (0:ℚ) < 2 ^ φ.emax := by positivity
    split_ifs
    · exact ⟨_, 0, rfl, by simp [sval], repr_zero, hm⟩
    · exact ⟨_, 0, rfl, by simp [sval], repr_zero, hm⟩
  · rw [if_neg h0]; exact val_rndQ h

theorem Val.eq {x y : FV} {a b : ℚ} (hx : Val φ x a) (hy : Val φ y b) : FV.eq x y = decide (a = b) := by
  obtain ⟨s, a, rfl, rfl, _⟩ := hx
  obtain ⟨t, b, rfl, rfl, _⟩ := hy
  rfl
theorem Val.lt {x y : FV} {a b : ℚ} (hx : Val φ x a) (hy : Val φ y b) : FV.lt x y = decide (a < b) := by
  obtain ⟨s, a, rfl, rfl, _⟩ := hx
  obtain ⟨t, b, rfl, rfl, _⟩ := hy
  rfl
theorem Val.le {x y : FV} {a b : ℚ} (hx : Val φ x a) (hy : Val φ y b) : FV.le x y = decide (a ≤ b) := by
  obtain ⟨s, a, rfl, rfl, _⟩ := hx
  obtain ⟨t, b, rfl, rfl, _⟩ := hy
  rfl

/-- complex multiplication -/
theorem Val.cmul (r : FV × FV → FV × FV → FV × FV) {x1 x2 y1 y2 : FV} {a b c d : ℚ} (h1 : Val φ x1 a) (h2 : Val φ x2 b) (h3 : Val φ y1 c) (h4 : Val φ y2 d)
    (m1 : |rq φ (a * c)| < 2 ^ φ.emax) (m2 : |rq φ (b * d)| < 2 ^ φ.emax) (m3 : |rq φ (a * d)| < 2 ^ φ.emax) (m4 : |rq φ (b * c)| < 2 ^ φ.emax)
    (m5 : |rq φ (rq φ (a * c) - rq φ (b * d))| < 2 ^ φ.emax) (m6 : |rq φ (rq φ (a * d) + rq φ (b * c))| < 2 ^ φ.emax) :
    Val φ (FV.cmul φ r (x1, x2) (y1, y2)).1 (rq φ (rq φ (a * c) - rq φ (b * d))) ∧
    Val φ (FV.cmul φ r (x1, x2) (y1, y2)).2 (rq φ (rq φ (a * d) + rq φ (b * c))) := by
  have hu := (h1.mul h3 m1).add (h2.mul h4 m2).neg (by rw [← sub_eq_add_neg]; exact m5)
  have hv := (h1.mul h4 m3).add (h2.mul h3 m4) m6
  rw [← sub_eq_add_neg] at hu
  unfold FV.cmul
  simp only [hu.isnan, Bool.false_and, Bool.false_eq_true, if_false]
  exact ⟨hu, hv⟩

end Polylog
