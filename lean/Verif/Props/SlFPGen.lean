import Verif.Props.ClFPGen
import Verif.Props.C16

/-!
# `Sl` in IEEE arithmetic: range reduction for any periodic function with a parity
-/

namespace Polylog

variable {φ : Fmt} {L : Lib}

/-- `reduce_spec'` for a function `f` of period `2π` and parity `p` -/
theorem reduce_gen' (p : ℕ) {f : ℝ → ℝ} (hneg : ∀ x, f (-x) = (-1) ^ p * f x) (hper : ∀ x, f (x - 2 * Real.pi) = f x)
    {P p1 x d e r s : ℝ} (hd : |P - Real.pi| ≤ d) (he : |6.28125 + p1 - 2 * Real.pi| ≤ e)
    (hr : r = if P < wrap P x then 6.28125 - wrap P x + p1 else wrap P x)
    (hs : s = ((if x < 0 then -1 else 1) * (if P < wrap P x then -1 else 1)) ^ p) :
    ∃ t, |r - t| ≤ e + 2 * d * ⌊|x| / (2 * P)⌋₊ ∧ f x = s * f t := by
  have he' := abs_le.mp he
  have he0 : 0 ≤ e := le_trans (abs_nonneg _) he
  have hpn : ∀ (k : ℕ) x, f (x - 2 * Real.pi * k) = f x := by
    intro k x
    induction k with
    | zero => simp
    | succ k ih => rw [← ih, ← hper (x - 2 * Real.pi * k)]; congr 1; push_cast; ring
  set k := ⌊|x| / (2 * P)⌋₊ with hk
  have hkd : |(P - Real.pi) * k| ≤ d * k := by
    rw [abs_mul, Nat.abs_cast]; exact mul_le_mul_of_nonneg_right hd (Nat.cast_nonneg _)
  have hkd' := abs_le.mp hkd
  have hx : f x = (if x < 0 then -1 else 1) ^ p * f |x| := by
    split_ifs with h
    · rw [abs_of_neg h, hneg, ← mul_assoc, ← mul_pow]; norm_num
    · rw [abs_of_nonneg (not_lt.mp h)]; simp
  rw [← hpn k |x|] at hx
  have hwx : wrap P x = |x| - 2 * P * k := rfl
  by_cases h : P < wrap P x
  · rw [if_pos h] at hr hs
    refine ⟨2 * Real.pi - (|x| - 2 * Real.pi * k), ?_, ?_⟩
    · have : r - (2 * Real.pi - (|x| - 2 * Real.pi * k)) = (6.28125 + p1 - 2 * Real.pi) + 2 * ((P - Real.pi) * k) := by
        rw [hr, hwx]; ring
      rw [this, abs_le]; constructor <;> linarith
    · have h2 : f (2 * Real.pi - (|x| - 2 * Real.pi * k)) = (-1) ^ p * f (|x| - 2 * Real.pi * k) := by
        rw [← hneg, ← hper (2 * Real.pi - _)]; congr 1; ring
      rw [h2, hx, hs, mul_pow]
      have : ((-1:ℝ) ^ p) * (-1) ^ p = 1 := by rw [← mul_pow]; norm_num
      linear_combination (-(if x < 0 then (-1:ℝ) else 1) ^ p * f (|x| - 2 * Real.pi * k)) * this
  · rw [if_neg h] at hr hs
    refine ⟨|x| - 2 * Real.pi * k, ?_, ?_⟩
    · have : r - (|x| - 2 * Real.pi * k) = -(2 * ((P - Real.pi) * k)) := by rw [hr, hwx]; ring
      rw [this, abs_le]; constructor <;> linarith
    · rw [hx, hs, mul_one]

namespace ClCtx
variable {PI p1 : FP φ L} {c P : ℚ} (h : ClCtx φ L PI p1 c P) (hA : FmtA φ)
include h hA

/-- the reduced argument is close to an argument `t` with `f(q) = ± f(t)` -/
theorem reduceG (p : ℕ) {f : ℝ → ℝ} (hneg : ∀ x, f (-x) = (-1) ^ p * f x) (hper : ∀ x, f (x - 2 * Real.pi) = f x)
    (x : FP φ L) {q : ℚ} (hx : Val φ (ofF x) q) :
    ∃ (r : ℚ) (t s : ℝ), Val φ (ofF (reduceAbs PI p1 x)) r ∧ 0 ≤ r ∧ r ≤ P ∧ |(r:ℝ) - t| ≤ 8 * uR φ + 4 / 3 * uR φ * |(q:ℝ)| ∧
      s = (if (q:ℝ) < 0 then -1 else 1) * (if (P:ℝ) < wrap P q then -1 else 1) ∧
      f q = s ^ p * f t ∧ (|q| ≤ P → (r:ℝ) = |(q:ℝ)| ∧ (r:ℝ) = t) := by
  obtain ⟨p', hp', hp0, hp2, he⟩ := h.hp1
  obtain ⟨r, hr, hr0, hr1⟩ := h.hr x q hx
  have h3 := h.h3
  have hPr : (3:ℝ) ≤ P := by exact_mod_cast h3.le
  have hu0 := uR_pos (φ := φ)
  obtain ⟨hn1, hn2⟩ := reduceAbs_fp hA h.hP h.h3 h.h4 hp' hp0 hp2 hx
  obtain ⟨r', hr', hd⟩ := hn1
  have := hr.unique hr'; subst this
  obtain ⟨t, ht, hc⟩ := reduce_gen' p hneg hper (P := P) (x := q) h.hd he rfl rfl
  have hper := periods (P := P) (x := q) hPr (d := 4 * uR φ) (by positivity)
  by_cases hq : |q| ≤ P
  · have hqr : |(q:ℝ)| ≤ P := by exact_mod_cast hq
    have hw : wrap P q = |(q:ℝ)| := wrap_of_lt (by linarith)
    have hwq : wrapQ P q = |q| := by
      have := wrapQ_cast (show 0 < P by linarith) q
      rw [hw] at this; exact_mod_cast this
    rw [hw, if_neg (not_lt.2 hqr)] at hd ht
    rw [if_neg (by rw [hwq]; exact not_lt.2 hq)] at hd
    have hrq : (r:ℝ) = |(q:ℝ)| := sub_eq_zero.1 (abs_nonpos_iff.1 hd)
    refine ⟨r, r, _, hr, hr0, hr1, ?_, rfl, ?_, fun _ => ⟨hrq, rfl⟩⟩
    · rw [sub_self, abs_zero]; positivity
    · rw [hw, if_neg (not_lt.2 hqr), mul_one, hrq]
      split_ifs with h
      · rw [abs_of_neg h, hneg, ← mul_assoc, ← mul_pow]; norm_num
      · rw [abs_of_nonneg (not_lt.mp h)]; simp
  · refine ⟨r, t, _, hr, hr0, hr1, ?_, rfl, ?_, fun h => absurd h hq⟩
    · have hd' : |(r:ℝ) - if (P:ℝ) < wrap P q then 6.28125 - wrap P q + p' else wrap P q| ≤ 7 * uR φ := by
        refine hd.trans ?_
        split_ifs
        · exact le_rfl
        · positivity
      have := abs_sub_le (r:ℝ) (if (P:ℝ) < wrap P q then 6.28125 - wrap P q + p' else wrap P q) t
      linarith
    · exact hc

omit hA in
theorem le_r {r : ℚ} (hr : r ≤ P) : (r:ℝ) ≤ 3.1416 := by
  have : ((r : ℚ) : ℝ) ≤ ((3.1416 : ℚ) : ℝ) := by exact_mod_cast hr.trans h.h4.le
  norm_num at this ⊢; exact this

/-- functions of even parity, computed as `1*core(|x|)` -/
theorem evenG {f : ℝ → ℝ} (hneg : ∀ x, f (-x) = (-1) ^ 0 * f x) (hper : ∀ x, f (x - 2 * Real.pi) = f x)
    {core : FP φ L → FP φ L} {E Λ κ : ℝ} (hΛ : 0 ≤ Λ) (hlip : ∀ a b : ℝ, 0 ≤ a → a ≤ 3.1416 → |f a - f b| ≤ Λ * |a - b| + κ)
    (hc : ∀ (r : FP φ L) (ρ : ℚ), Val φ (ofF r) ρ → 0 ≤ ρ → ρ ≤ P → Near φ (ofF (core r)) (f ρ) E)
    (x : FP φ L) {q : ℚ} (hx : Val φ (ofF x) q) {y : FP φ L} (hy : y = (FOps.lit 1 : FP φ L) *. core (reduceAbs PI p1 x)) :
    Near φ (ofF y) (f q) (E + (Λ * (8 * uR φ + 4 / 3 * uR φ * |(q:ℝ)|) + κ)) ∧ (|q| ≤ P → Near φ (ofF y) (f q) E) := by
  subst hy
  obtain ⟨r, t, s, hr, hr0, hr1, hd, hs, hcc, hq⟩ := h.reduceG hA 0 hneg hper x hx
  have h1 : Val φ (rndQ φ 1) 1 := vl_one hA
  have hr0' : (0:ℝ) ≤ r := by exact_mod_cast hr0
  have hr1' : (r:ℝ) ≤ 3.1416 := h.le_r hr1
  have key := near_sgn h1 (.inl rfl) (hc _ r hr hr0 hr1)
  rw [Rat.cast_one, one_mul] at key
  rw [pow_zero, one_mul] at hcc
  rw [ofF_mul, ofF_lit, hcc]
  constructor
  · refine (key.shift (hlip r t hr0' hr1')).mono ?_
    have := mul_le_mul_of_nonneg_left hd hΛ
    linarith
  · intro hq'
    rw [← (hq hq').2]; exact key

/-- functions of odd parity, computed with the sign taken out -/
theorem oddG {f : ℝ → ℝ} (hneg : ∀ x, f (-x) = (-1) ^ 1 * f x) (hper : ∀ x, f (x - 2 * Real.pi) = f x)
    {core : FP φ L → FP φ L} {E Λ κ : ℝ} (hE : 0 ≤ E) (hΛ : 0 ≤ Λ) (hlip : ∀ a b : ℝ, 0 ≤ a → a ≤ 3.1416 → |f a - f b| ≤ Λ * |a - b| + κ)
    (hc : ∀ (r : FP φ L) (ρ : ℚ), Val φ (ofF r) ρ → 0 ≤ ρ → ρ ≤ P → Near φ (ofF (core r)) (f ρ) E)
    (x : FP φ L) {q : ℚ} (hx : Val φ (ofF x) q) {y : FP φ L}
    (hy : y = (let xs := reduceSgn PI p1 x
      if xs.1 ==. (FOps.lit 0 : FP φ L) then xs.1 else xs.2 *. core xs.1)) :
    Near φ (ofF y) (f q) (E + (Λ * (8 * uR φ + 4 / 3 * uR φ * |(q:ℝ)|) + κ)) ∧ (|q| ≤ P → Near φ (ofF y) (f q) E) := by
  subst hy
  have hf0 : f 0 = 0 := by
    have := hneg 0
    rw [neg_zero, pow_one] at this
    linarith
  obtain ⟨r, t, s, hr, hr0, hr1, hd, hs, hcc, hq⟩ := h.reduceG hA 1 hneg hper x hx
  obtain ⟨σ, hσ, hσ1, hσ2⟩ := reduceSgn_fp hA (p1 := p1) h.hP h.h3 h.h4 hx
  rw [← hs] at hσ2
  have hz : Val φ (rndQ φ 0) 0 := vl_zero hA
  have hr0' : (0:ℝ) ≤ r := by exact_mod_cast hr0
  have hr1' : (r:ℝ) ≤ 3.1416 := h.le_r hr1
  dsimp only
  rw [reduceSgn_fst]
  generalize reduceAbs PI p1 x = y at *
  generalize (reduceSgn PI p1 x).2 = w at *
  have e1 : (y ==. (FOps.lit 0 : FP φ L)) = decide (r = 0) := by rw [eq_F, ofF_lit]; exact hr.eq hz
  rw [e1]
  have hσa : |(σ:ℝ)| = 1 := by rcases hσ1 with h | h <;> subst h <;> simp
  have key : Near φ (ofF (if decide (r = 0) then y else w *. core y)) (σ * f r) E := by
    by_cases c1 : r = 0
    · simp only [c1, decide_true, if_true]
      have := hr.near
      rw [c1] at this
      rw [Rat.cast_zero, hf0, mul_zero]
      simpa using this.mono hE
    · simp only [c1, decide_false, Bool.false_eq_true, if_false]
      rw [ofF_mul]
      exact near_sgn hσ hσ1 (hc y r hr hr0 hr1)
  rw [pow_one, ← hσ2] at hcc
  rw [hcc]
  constructor
  · refine key.shift (r' := σ * f t) (d := Λ * (8 * uR φ + 4 / 3 * uR φ * |(q:ℝ)|) + κ) ?_
    rw [← mul_sub, abs_mul, hσa, one_mul]
    refine (hlip r t hr0' hr1').trans ?_
    have := mul_le_mul_of_nonneg_left hd hΛ
    linarith
  · intro hq'
    rw [← (hq hq').2]; exact key

end ClCtx

/-- `Gl_2` in closed form around 0 -/
theorem glaisher_two_abs {x : ℝ} (h : |x| < 2 * Real.pi) : glaisher 2 x = Real.pi ^ 2 / 6 - Real.pi / 2 * |x| + |x| ^ 2 / 4 := by
  rw [← glaisher_two_eq (abs_nonneg x) h]
  rcases abs_cases x with ⟨e, _⟩ | ⟨e, _⟩
  · rw [e]
  · rw [e]; have := glaisher_neg 1 0 (by norm_num) (by norm_num) x; simpa using this.symm

theorem glaisher_two_bd (x : ℝ) : |glaisher 2 x| ≤ 2 := by
  have hp := pi_gt; have hp2 := pi_lt
  have key : ∀ y : ℝ, 0 ≤ y → y < 2 * Real.pi → |glaisher 2 y| ≤ 2 := by
    intro y h0 h1
    rw [glaisher_two_eq h0 h1, abs_le]
    have e : Real.pi ^ 2 / 6 - Real.pi / 2 * y + y ^ 2 / 4 = (y - Real.pi) ^ 2 / 4 - Real.pi ^ 2 / 12 := by ring
    rw [e]
    have : (y - Real.pi) ^ 2 ≤ Real.pi ^ 2 := by nlinarith
    constructor <;> nlinarith
  obtain ⟨k, hk0, hk1⟩ : ∃ k : ℕ, 2 * Real.pi * k ≤ |x| ∧ |x| < 2 * Real.pi * (k + 1) := by
    refine ⟨⌊|x| / (2 * Real.pi)⌋₊, ?_, ?_⟩
    · have := Nat.floor_le (show 0 ≤ |x| / (2 * Real.pi) by positivity)
      rw [le_div_iff₀ (by positivity)] at this; linarith
    · have := Nat.lt_floor_add_one (|x| / (2 * Real.pi))
      rw [div_lt_iff₀ (by positivity)] at this; linarith
  have e : glaisher 2 x = glaisher 2 |x| := by
    rcases abs_cases x with ⟨e, _⟩ | ⟨e, _⟩
    · rw [e]
    · rw [e]; have := glaisher_neg 1 0 (by norm_num) (by norm_num) x; simpa using this.symm
  rw [e, ← glaisher_sub_nat 2 k]
  exact key _ (by linarith) (by linarith)

theorem glaisher_two_lip {a : ℝ} (h0 : 0 ≤ a) (h1 : a ≤ 3.1416) (b : ℝ) : |glaisher 2 a - glaisher 2 b| ≤ 4 * |a - b| + 0 := by
  have hp := pi_gt; have hp2 := pi_lt
  rcases le_or_gt 1 |a - b| with h | h
  · have := abs_sub (glaisher 2 a) (glaisher 2 b)
    have := glaisher_two_bd a
    have := glaisher_two_bd b
    linarith
  · have h' := abs_lt.1 h
    have hb : |b| < 4.2 := by rw [abs_lt]; constructor <;> linarith
    rw [glaisher_two_abs (x := a) (by rw [abs_of_nonneg h0]; linarith), glaisher_two_abs (x := b) (by linarith), abs_of_nonneg h0]
    have h3 : |a - (|b|)| ≤ |a - b| := by have := abs_abs_sub_abs_le a b; rwa [abs_of_nonneg h0] at this
    have e : Real.pi ^ 2 / 6 - Real.pi / 2 * a + a ^ 2 / 4 - (Real.pi ^ 2 / 6 - Real.pi / 2 * |b| + |b| ^ 2 / 4) = ((a + |b|) / 4 - Real.pi / 2) * (a - (|b|)) := by ring
    rw [e, abs_mul, add_zero]
    refine mul_le_mul ?_ h3 (abs_nonneg _) (by norm_num)
    rw [abs_le]; constructor <;> linarith [abs_nonneg b]

/-- from the two enclosures to the statements about finite doubles -/
theorem slFin {n : ℕ} {E Λ : ℝ} {v : FP binary64 L} {q : ℚ}
    (h : Near binary64 (ofF v) (glaisher n q) (E * uR binary64 + (Λ * (8 * uR binary64 + 4 / 3 * uR binary64 * |(q:ℝ)|) + 0)) ∧
      (|q| ≤ rq binary64 3.14159265358979324 → Near binary64 (ofF v) (glaisher n q) (E * uR binary64))) :
    ∃ r : ℚ, Val binary64 (ofF v) r ∧ |(r : ℝ) - glaisher n q| ≤ (E + 8 * Λ + 4 / 3 * Λ * |(q : ℝ)|) * 2 ^ (-53 : ℤ) ∧
      (|(q : ℝ)| ≤ 3.14 → |(r : ℝ) - glaisher n q| ≤ E * 2 ^ (-53 : ℤ)) := by
  obtain ⟨⟨r, hr, hd⟩, h2⟩ := h
  have hu : uR binary64 = 2 ^ (-53 : ℤ) := rfl
  rw [hu] at hd h2
  refine ⟨r, hr, hd.trans (le_of_eq (by ring)), fun hq => ?_⟩
  have hq' : |q| ≤ rq binary64 3.14159265358979324 := by
    have hd := abs_le.1 (clCtx_d L).hd
    have hp := pi_gt
    have hu : uR binary64 ≤ 1 / 2 ^ 53 := by norm_num [uR, binary64]
    have : ((|q| : ℚ) : ℝ) ≤ ((rq binary64 3.14159265358979324 : ℚ) : ℝ) := by
      push_cast; norm_num at hq hp ⊢; linarith [hd.1]
    exact_mod_cast this
  obtain ⟨r', hr', hd'⟩ := h2 hq'
  have := hr.unique hr'; subst this
  exact hd'

end Polylog
