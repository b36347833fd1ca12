import Verif.Model.Ops
import Mathlib.Data.Int.Log
import Mathlib.Data.Rat.Floor
import Mathlib.Tactic.Linarith
import Mathlib.Tactic.Ring
import Mathlib.Tactic.NormNum
import Mathlib.Tactic.Positivity
import Mathlib.Tactic.FieldSimp
import Mathlib.Algebra.Order.Field.Power

/-!
# IEEE-754 semantics of the floating-point operations

`FP φ L` is the set of values of a binary floating-point format `φ` (precision, smallest exponent, overflow
threshold): NaN (one NaN: payloads and the sign of a NaN are not modelled), two infinities, and signed
magnitudes (so that there are two zeros).  `+ - * /`, comparisons, `fmod`, `ceil`, conversions are concrete:
the exact rational result is rounded to nearest, ties to even, with gradual underflow and overflow to infinity
(IEEE-754 default rounding; `FLT_EVAL_METHOD = 0`, no contraction to fused multiply-add).

Functions of the C library whose results IEEE-754 does not fix (`log`, `sin`, `pow`, ...), complex division,
complex square root and complex power are arbitrary functions: the fields of `L : Lib`.  Theorems are stated
for all `L`; whatever they need about these functions is an explicit hypothesis.
-/

namespace Polylog

/-- A binary floating-point format: `p` bits of precision, `2^emin` the smallest positive value,
`2^emax` the overflow threshold. -/
structure Fmt where
  p : ℕ
  emin : ℤ
  emax : ℤ
  hp : 1 ≤ p
  hmin : emin ≤ 0
  hmax : 3 ≤ emax

/-- binary32 (`float`), binary64 (`double`), x87 extended and binary128 (`long double`) -/
def binary32 : Fmt := ⟨24, -149, 128, by decide, by decide, by decide⟩
def binary64 : Fmt := ⟨53, -1074, 1024, by decide, by decide, by decide⟩
def x87ext : Fmt := ⟨64, -16445, 16384, by decide, by decide, by decide⟩
def binary128 : Fmt := ⟨113, -16494, 16384, by decide, by decide, by decide⟩

/-- floating-point data: NaN, infinity with sign (`true` = negative), sign and magnitude -/
inductive FV where
  | nan : FV
  | inf (s : Bool) : FV
  | fin (s : Bool) (a : ℚ) : FV
deriving DecidableEq

/-- The parts of the C library that are left unspecified. -/
structure Lib where
  log : FV → FV
  log1p : FV → FV
  sin : FV → FV
  cos : FV → FV
  atan : FV → FV
  exp2 : FV → FV
  tgamma : FV → FV
  pow : FV → FV → FV
  hypot : FV → FV → FV
  atan2 : FV → FV → FV
  /-- result of a complex multiplication when both parts of the naive formula are NaN (C99 Annex G recovery) -/
  cmulRec : FV × FV → FV × FV → FV × FV
  cdiv : FV × FV → FV × FV → FV × FV
  csqrt : FV × FV → FV × FV
  cpow : FV × FV → Int → FV × FV

/-- floating-point values of format `φ` over library `L` -/
def FP (_φ : Fmt) (_L : Lib) : Type := FV

/-- round to the nearest integer, ties to even -/
def rne (x : ℚ) : ℤ :=
  if x - ⌊x⌋ < 1 / 2 then ⌊x⌋
  else if 1 / 2 < x - ⌊x⌋ then ⌊x⌋ + 1
  else if ⌊x⌋ % 2 = 0 then ⌊x⌋ else ⌊x⌋ + 1

/-- exponent of the unit in the last place used to round the magnitude `a` -/
def ulpExp (φ : Fmt) (a : ℚ) : ℤ := max (Int.log 2 a - (φ.p - 1)) φ.emin

/-- rounding of a magnitude with unbounded exponent range above -/
def rndMag (φ : Fmt) (a : ℚ) : ℚ := rne (a / 2 ^ ulpExp φ a) * 2 ^ ulpExp φ a

/-- rounding of the number with sign `s` and magnitude `a` -/
def rnd (φ : Fmt) (s : Bool) (a : ℚ) : FV :=
  if 2 ^ φ.emax ≤ rndMag φ a then .inf s else .fin s (rndMag φ a)

/-- the rational value of sign and magnitude -/
def sval (s : Bool) (a : ℚ) : ℚ := if s then -a else a

/-- rounding of a rational number; zero is positive -/
def rndQ (φ : Fmt) (q : ℚ) : FV := rnd φ (decide (q < 0)) |q|

namespace FV

def neg : FV → FV
  | nan => nan
  | inf s => inf (!s)
  | fin s a => fin (!s) a

def add (φ : Fmt) : FV → FV → FV
  | nan, _ => nan
  | _, nan => nan
  | inf s, inf t => if s = t then inf s else nan
  | inf s, fin _ _ => inf s
  | fin _ _, inf t => inf t
  | fin s a, fin t b =>
    if sval s a + sval t b = 0 then (if s = t then fin s 0 else fin false 0)
    else rndQ φ (sval s a + sval t b)

def mul (φ : Fmt) : FV → FV → FV
  | nan, _ => nan
  | _, nan => nan
  | inf s, inf t => inf (xor s t)
  | inf s, fin t b => if b = 0 then nan else inf (xor s t)
  | fin s a, inf t => if a = 0 then nan else inf (xor s t)
  | fin s a, fin t b => rnd φ (xor s t) (a * b)

def div (φ : Fmt) : FV → FV → FV
  | nan, _ => nan
  | _, nan => nan
  | inf _, inf _ => nan
  | inf s, fin t _ => inf (xor s t)
  | fin s _, inf t => fin (xor s t) 0
  | fin s a, fin t b =>
    if b = 0 then (if a = 0 then nan else inf (xor s t)) else rnd φ (xor s t) (a / b)

def lt : FV → FV → Bool
  | nan, _ => false
  | _, nan => false
  | inf s, inf t => s && !t
  | inf s, fin _ _ => s
  | fin _ _, inf t => !t
  | fin s a, fin t b => decide (sval s a < sval t b)

def le : FV → FV → Bool
  | nan, _ => false
  | _, nan => false
  | inf s, inf t => s || !t
  | inf s, fin _ _ => s
  | fin _ _, inf t => !t
  | fin s a, fin t b => decide (sval s a ≤ sval t b)

def eq : FV → FV → Bool
  | nan, _ => false
  | _, nan => false
  | inf s, inf t => s == t
  | inf _, fin _ _ => false
  | fin _ _, inf _ => false
  | fin s a, fin t b => decide (sval s a = sval t b)

/-- `fmod` is exact -/
def fmod : FV → FV → FV
  | nan, _ => nan
  | _, nan => nan
  | inf _, _ => nan
  | fin s a, inf _ => fin s a
  | fin s a, fin _ b => if b = 0 then nan else fin s (a - b * ⌊a / b⌋)

def ceil : FV → FV
  | nan => nan
  | inf s => inf s
  | fin s a => if s then fin true ⌊a⌋ else fin false ⌈a⌉

/-- conversion to `int64_t` (truncation); `none` if not representable -/
def toInt : FV → Option Int
  | nan => none
  | inf _ => none
  | fin s a =>
    let v : ℤ := if s then -⌊a⌋ else ⌊a⌋
    if i64min ≤ v ∧ v ≤ i64max then some v else none

def isnan : FV → Bool
  | nan => true
  | _ => false

def isinf : FV → Bool
  | inf _ => true
  | _ => false

def isfin : FV → Bool
  | fin _ _ => true
  | _ => false

/-- complex multiplication `(a c - b d, a d + b c)` with Annex G recovery -/
def cmul (φ : Fmt) (r : FV × FV → FV × FV → FV × FV) (x y : FV × FV) : FV × FV :=
  let u := add φ (mul φ x.1 y.1) (neg (mul φ x.2 y.2))
  let v := add φ (mul φ x.1 y.2) (mul φ x.2 y.1)
  if isnan u && isnan v then r x y else (u, v)

end FV

instance instFOpsFP (φ : Fmt) (L : Lib) : FOps (FP φ L) where
  lit q := rndQ φ q
  ofInt n := rndQ φ n
  add := fun (a b : FV) => FV.add φ a b
  sub := fun (a b : FV) => FV.add φ a b.neg
  mul := fun (a b : FV) => FV.mul φ a b
  div := fun (a b : FV) => FV.div φ a b
  neg := fun (a : FV) => a.neg
  lt := fun (a b : FV) => a.lt b
  le := fun (a b : FV) => a.le b
  eq := fun (a b : FV) => a.eq b
  log := L.log
  log1p := L.log1p
  sin := L.sin
  cos := L.cos
  atan := L.atan
  ceil := FV.ceil
  exp2 := L.exp2
  tgamma := L.tgamma
  pow := L.pow
  fmod := FV.fmod
  hypot := L.hypot
  atan2 := L.atan2
  inf := FV.inf false
  nan := FV.nan
  eps := FV.fin false (2 ^ (1 - (φ.p : ℤ)))
  isnan := FV.isnan
  isinf := FV.isinf
  isfinite := FV.isfin
  toInt := FV.toInt
  cmul := FV.cmul φ L.cmulRec
  cdiv := L.cdiv
  csqrt := L.csqrt
  cpow := L.cpow

/-- `a` is a nonnegative number representable with unbounded exponent range above -/
def Repr (φ : Fmt) (a : ℚ) : Prop := ∃ (m : ℕ) (e : ℤ), φ.emin ≤ e ∧ m < 2 ^ φ.p ∧ a = m * 2 ^ e

/-- the values that occur in the format `φ` -/
def FV.Valid (φ : Fmt) : FV → Prop
  | nan => True
  | inf _ => True
  | fin _ a => Repr φ a ∧ a < 2 ^ φ.emax

/-! ## Rounding -/

theorem rne_int (n : ℤ) : rne n = n := by
  simp [rne]

theorem rne_mono {x y : ℚ} (h : x ≤ y) : rne x ≤ rne y := by
  have hf : ⌊x⌋ ≤ ⌊y⌋ := Int.floor_mono h
  rcases hf.lt_or_eq with h1 | h1
  · have hx : rne x ≤ ⌊x⌋ + 1 := by unfold rne; split_ifs <;> omega
    have hy : ⌊y⌋ ≤ rne y := by unfold rne; split_ifs <;> omega
    omega
  · unfold rne
    rw [h1]
    split_ifs <;> first | omega | (exfalso; linarith)

theorem rne_le_int {x : ℚ} {n : ℤ} (h : x ≤ n) : rne x ≤ n := by
  have := rne_mono h; rwa [rne_int] at this

theorem int_le_rne {x : ℚ} {n : ℤ} (h : (n : ℚ) ≤ x) : n ≤ rne x := by
  have := rne_mono h; rwa [rne_int] at this

theorem rne_err (x : ℚ) : |(rne x : ℚ) - x| ≤ 1 / 2 := by
  have h1 := Int.floor_le x
  have h2 := Int.lt_floor_add_one x
  rw [abs_le]
  unfold rne
  split_ifs <;> push_cast <;> constructor <;> linarith

theorem two_zpow_pos (e : ℤ) : (0 : ℚ) < 2 ^ e := by positivity

theorem log_spec {a : ℚ} (h : 0 < a) :
    (2 : ℚ) ^ Int.log 2 a ≤ a ∧ a < 2 ^ (Int.log 2 a + 1) :=
  ⟨by exact_mod_cast Int.zpow_log_le_self (by norm_num) h,
   by exact_mod_cast Int.lt_zpow_succ_log_self (by norm_num) a⟩

theorem log_eq {a : ℚ} {k : ℤ} (h1 : (2 : ℚ) ^ k ≤ a) (h2 : a < 2 ^ (k + 1)) : Int.log 2 a = k := by
  have h : 0 < a := lt_of_lt_of_le (by positivity) h1
  have := log_spec h
  have a1 : k < Int.log 2 a + 1 := by
    have := lt_of_le_of_lt h1 this.2
    exact (zpow_lt_zpow_iff_right₀ (by norm_num)).1 this
  have a2 : Int.log 2 a < k + 1 := by
    have := lt_of_le_of_lt this.1 h2
    exact (zpow_lt_zpow_iff_right₀ (by norm_num)).1 this
  omega

variable {φ : Fmt}

/-- a representable number that is at least the binade of `a` is a multiple of the unit used to round `a` -/
theorem repr_multiple {a y : ℚ} (hy : Repr φ y) (h : (2 : ℚ) ^ Int.log 2 a ≤ y ∨ ulpExp φ a = φ.emin) :
    ∃ n : ℤ, y = n * 2 ^ ulpExp φ a := by
  obtain ⟨m, e, he, hm, rfl⟩ := hy
  have key : ∀ e0 : ℤ, e0 ≤ e → ∃ n : ℤ, (m : ℚ) * 2 ^ e = n * 2 ^ e0 := by
    intro e0 h0
    refine ⟨m * 2 ^ (e - e0).toNat, ?_⟩
    have : (2 : ℚ) ^ e = 2 ^ ((e - e0).toNat : ℤ) * 2 ^ e0 := by
      rw [← zpow_add₀ (by norm_num)]; congr 1; omega
    rw [this, zpow_natCast]; push_cast; ring
  rcases h with h | h
  · rcases le_or_gt (ulpExp φ a) e with h1 | h1
    · exact key _ h1
    · exfalso
      have h2 : ulpExp φ a = Int.log 2 a - (φ.p - 1) := by
        unfold ulpExp at h1 ⊢; omega
      have : (m : ℚ) * 2 ^ e < 2 ^ (φ.p : ℤ) * 2 ^ e := by
        rw [zpow_natCast]
        exact mul_lt_mul_of_pos_right (by exact_mod_cast hm) (two_zpow_pos e)
      rw [← zpow_add₀ (by norm_num)] at this
      have := lt_of_le_of_lt h this
      have := (zpow_lt_zpow_iff_right₀ (by norm_num : (1 : ℚ) < 2)).1 this
      omega
  · rw [h]; exact key _ he

/-- Rounding does not cross a representable number (from below). -/
theorem rndMag_le {a y : ℚ} (ha : 0 ≤ a) (hy : Repr φ y) (h : a ≤ y) : rndMag φ a ≤ y := by
  rcases ha.eq_or_lt with rfl | ha
  · simp only [rndMag, zero_div]
    have : rne 0 = 0 := by simpa using rne_int 0
    simpa [this] using h
  have h0 := (log_spec ha).1.trans h
  obtain ⟨n, hn⟩ := repr_multiple (φ := φ) hy (Or.inl h0)
  unfold rndMag
  rw [hn]
  refine mul_le_mul_of_nonneg_right ?_ (two_zpow_pos _).le
  exact_mod_cast rne_le_int ((div_le_iff₀ (two_zpow_pos _)).2 (hn ▸ h))

/-- Rounding does not cross a representable number (from above). -/
theorem le_rndMag {a y : ℚ} (ha : 0 ≤ a) (hy : Repr φ y) (h : y ≤ a) : y ≤ rndMag φ a := by
  rcases ha.eq_or_lt with rfl | ha
  · have : rne 0 = 0 := by simpa using rne_int 0
    simpa [rndMag, this] using h
  by_cases hc : (2 : ℚ) ^ Int.log 2 a ≤ y ∨ ulpExp φ a = φ.emin
  · obtain ⟨n, hn⟩ := repr_multiple (φ := φ) hy hc
    unfold rndMag
    rw [hn]
    refine mul_le_mul_of_nonneg_right ?_ (two_zpow_pos _).le
    exact_mod_cast int_le_rne ((le_div_iff₀ (two_zpow_pos _)).2 (hn ▸ h))
  · push Not at hc
    refine hc.1.le.trans ?_
    have h2 : ulpExp φ a = Int.log 2 a - (φ.p - 1) := by
      have := hc.2; unfold ulpExp at this ⊢; omega
    have hp := φ.hp
    have h3 : (2 : ℚ) ^ Int.log 2 a = ((2 ^ (φ.p - 1) : ℤ) : ℚ) * 2 ^ ulpExp φ a := by
      push_cast
      rw [← zpow_natCast, ← zpow_add₀ (by norm_num), h2]; congr 1; omega
    unfold rndMag
    rw [h3]
    refine mul_le_mul_of_nonneg_right ?_ (two_zpow_pos _).le
    refine Int.cast_le.2 (int_le_rne ((le_div_iff₀ (two_zpow_pos _)).2 ?_))
    rw [← h3]; exact (log_spec ha).1

theorem rndMag_nonneg {a : ℚ} (ha : 0 ≤ a) : 0 ≤ rndMag φ a :=
  le_rndMag ha ⟨0, φ.emin, le_rfl, by positivity, by simp⟩ ha

/-- representable numbers are fixed by rounding -/
theorem rndMag_repr {a : ℚ} (h : Repr φ a) : rndMag φ a = a := by
  have ha : 0 ≤ a := by obtain ⟨m, e, _, _, rfl⟩ := h; positivity
  exact le_antisymm (rndMag_le ha h le_rfl) (le_rndMag ha h le_rfl)

/-- the result of rounding is representable -/
theorem repr_rndMag {a : ℚ} (ha : 0 ≤ a) : Repr φ (rndMag φ a) := by
  have hp := φ.hp
  have hn : 0 ≤ rne (a / 2 ^ ulpExp φ a) := int_le_rne (by push_cast; positivity)
  have hu : rne (a / 2 ^ ulpExp φ a) ≤ 2 ^ φ.p := by
    refine rne_le_int ((div_le_iff₀ (two_zpow_pos _)).2 ?_)
    push_cast
    rw [← zpow_natCast, ← zpow_add₀ (by norm_num)]
    rcases ha.eq_or_lt with rfl | ha
    · positivity
    refine (log_spec ha).2.le.trans (zpow_le_zpow_right₀ (by norm_num) ?_)
    unfold ulpExp; omega
  have he : φ.emin ≤ ulpExp φ a := le_max_right _ _
  rcases hu.lt_or_eq with h | h
  · refine ⟨(rne (a / 2 ^ ulpExp φ a)).toNat, _, he, by zify; rw [Int.toNat_of_nonneg hn]; exact h, ?_⟩
    unfold rndMag
    congr 1
    exact_mod_cast (Int.toNat_of_nonneg hn).symm
  · refine ⟨2 ^ (φ.p - 1), ulpExp φ a + 1, by omega, Nat.pow_lt_pow_right (by norm_num) (by omega), ?_⟩
    unfold rndMag
    rw [h]
    push_cast
    rw [← zpow_natCast, ← zpow_natCast, ← zpow_add₀ (by norm_num), ← zpow_add₀ (by norm_num)]
    congr 1; omega

theorem rndMag_mono {a b : ℚ} (ha : 0 ≤ a) (h : a ≤ b) : rndMag φ a ≤ rndMag φ b := by
  rcases le_total a (rndMag φ b) with h1 | h1
  · exact rndMag_le ha (repr_rndMag (ha.trans h)) h1
  · -- `rndMag b ≤ a ≤ b`
    have : rndMag φ a ≤ rndMag φ b ∨ rndMag φ b < rndMag φ a := le_or_gt _ _
    rcases this with h2 | h2
    · exact h2
    · exfalso
      have hb := ha.trans h
      rcases ha.eq_or_lt with rfl | ha'
      · have := rndMag_nonneg (φ := φ) hb
        have h0 : rndMag φ 0 = 0 := rndMag_repr ⟨0, φ.emin, le_rfl, by positivity, by simp⟩
        linarith
      have hb' := lt_of_lt_of_le ha' h
      -- same binade
      have hk : Int.log 2 a = Int.log 2 b := by
        refine le_antisymm (Int.log_mono_right ha' h) ?_
        by_contra hc
        push Not at hc
        have h3 : Repr φ ((2 : ℚ) ^ Int.log 2 b) ∨ Int.log 2 b < φ.emin := by
          rcases le_or_gt φ.emin (Int.log 2 b) with h4 | h4
          · exact Or.inl ⟨1, _, h4, Nat.one_lt_two_pow (by have := φ.hp; omega), by simp⟩
          · exact Or.inr h4
        rcases h3 with h3 | h3
        · have h5 := le_rndMag hb h3 (log_spec hb').1
          have h6 : a < 2 ^ Int.log 2 b :=
            lt_of_lt_of_le (log_spec ha').2 (zpow_le_zpow_right₀ (by norm_num) (by omega))
          linarith
        · have e1 : ulpExp φ a = ulpExp φ b := by unfold ulpExp; have := φ.hp; omega
          have : rndMag φ a ≤ rndMag φ b := by
            unfold rndMag
            rw [e1]
            refine mul_le_mul_of_nonneg_right ?_ (two_zpow_pos _).le
            exact Int.cast_le.2 (rne_mono (div_le_div_of_nonneg_right h (two_zpow_pos _).le))
          linarith
      have e1 : ulpExp φ a = ulpExp φ b := by unfold ulpExp; rw [hk]
      have : rndMag φ a ≤ rndMag φ b := by
        unfold rndMag
        rw [e1]
        refine mul_le_mul_of_nonneg_right ?_ (two_zpow_pos _).le
        exact Int.cast_le.2 (rne_mono (div_le_div_of_nonneg_right h (two_zpow_pos _).le))
      linarith

/-- relative error of rounding in the normal range -/
theorem rndMag_err {a : ℚ} (ha : 0 ≤ a) :
    |rndMag φ a - a| ≤ a * 2 ^ (-(φ.p : ℤ)) ∨ |rndMag φ a - a| ≤ 2 ^ (φ.emin - 1) := by
  have h := rne_err (a / 2 ^ ulpExp φ a)
  have h1 : |rndMag φ a - a| ≤ 1 / 2 * 2 ^ ulpExp φ a := by
    have : rndMag φ a - a = (rne (a / 2 ^ ulpExp φ a) - a / 2 ^ ulpExp φ a) * 2 ^ ulpExp φ a := by
      unfold rndMag; field_simp
    rw [this, abs_mul, abs_of_pos (two_zpow_pos _)]
    exact mul_le_mul_of_nonneg_right h (two_zpow_pos _).le
  rcases max_choice (Int.log 2 a - (φ.p - 1)) φ.emin with h2 | h2
  · rcases ha.eq_or_lt with rfl | ha
    · right
      have : rndMag φ 0 = 0 := rndMag_repr ⟨0, φ.emin, le_rfl, by positivity, by simp⟩
      rw [this]; simp; positivity
    left
    refine h1.trans ?_
    rw [ulpExp, h2]
    calc (1 : ℚ) / 2 * 2 ^ (Int.log 2 a - (φ.p - 1)) = 2 ^ Int.log 2 a * 2 ^ (-(φ.p : ℤ)) := by
          rw [← zpow_add₀ (by norm_num), show Int.log 2 a - ((φ.p : ℤ) - 1) = Int.log 2 a + -(φ.p : ℤ) + 1 by ring,
            zpow_add_one₀ (by norm_num)]; ring
      _ ≤ _ := mul_le_mul_of_nonneg_right (log_spec ha).1 (two_zpow_pos _).le
  · right
    refine h1.trans ?_
    rw [ulpExp, h2, zpow_sub_one₀ (by norm_num)]
    exact le_of_eq (by ring)

theorem rnd_valid (s : Bool) {a : ℚ} (ha : 0 ≤ a) : (rnd φ s a).Valid φ := by
  unfold rnd
  split_ifs with h
  · trivial
  · exact ⟨repr_rndMag ha, not_le.1 h⟩

theorem rnd_repr (s : Bool) {a : ℚ} (ha : Repr φ a) (h : a < 2 ^ φ.emax) : rnd φ s a = .fin s a := by
  unfold rnd
  rw [rndMag_repr ha, if_neg (not_le.2 h)]

theorem rndQ_zero : rndQ φ 0 = .fin false 0 := by
  have h0 : Repr φ 0 := ⟨0, φ.emin, le_rfl, by positivity, by simp⟩
  simp only [rndQ, lt_irrefl, decide_false, abs_zero]
  exact rnd_repr _ h0 (by positivity)

theorem repr_two_pow {e : ℤ} (h : φ.emin ≤ e) : Repr φ (2 ^ e) :=
  ⟨1, e, h, Nat.one_lt_two_pow (by have := φ.hp; omega), by simp⟩

/-- rounding of a nonnegative rational -/
theorem rndQ_nonneg {q : ℚ} (h : 0 ≤ q) : rndQ φ q = rnd φ false q := by
  rw [rndQ, abs_of_nonneg h]; simp [not_lt.2 h]

theorem rndQ_neg {q : ℚ} (h : q < 0) : rndQ φ q = rnd φ true (-q) := by
  rw [rndQ, abs_of_neg h]; simp [h]

end Polylog
