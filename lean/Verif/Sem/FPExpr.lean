import Verif.Sem.FPVal
import Mathlib.Data.Real.Basic
import Mathlib.Data.Rat.Cast.Order
import Mathlib.Data.Rat.Cast.Lemmas
import Mathlib.Data.Nat.Prime.Basic
import Mathlib.Tactic.GCongr
import Mathlib.Data.Nat.Cast.Field

/-!
# A verified rounding-error analyser for straight-line floating-point expressions

`FE` : expressions built from variables, decimal literals and `+ - * /`.  `FE.fp` evaluates in the IEEE semantics (literals rounded, every operation
rounded), `FE.re` evaluates in exact real arithmetic with the decimal values of the literals.
`chk` propagates an interval `[lo, hi]` for the exact value and a bound `err` for the distance of the computed value
from it; all three are integers in units of `2^-K`.  `chk_sound`: if `chk` returns a box, the computed value is finite and within `err` of the exact one.
-/

namespace Polylog

inductive FE where
  | var (i : ℕ)
  | lit (q : ℚ)
  | add (a b : FE)
  | sub (a b : FE)
  | mul (a b : FE)
  | div (a b : FE)
  | neg (a : FE)

/-- evaluation in the IEEE semantics -/
def FE.fp (φ : Fmt) (env : ℕ → FV) : FE → FV
  | var i => env i
  | lit q => rndQ φ q
  | add a b => (a.fp φ env).add φ (b.fp φ env)
  | sub a b => (a.fp φ env).add φ (b.fp φ env).neg
  | mul a b => (a.fp φ env).mul φ (b.fp φ env)
  | div a b => (a.fp φ env).div φ (b.fp φ env)
  | neg a => (a.fp φ env).neg

/-- exact evaluation -/
noncomputable def FE.re (env : ℕ → ℝ) : FE → ℝ
  | var i => env i
  | lit q => (q : ℝ)
  | add a b => a.re env + b.re env
  | sub a b => a.re env - b.re env
  | mul a b => a.re env * b.re env
  | div a b => a.re env / b.re env
  | neg a => -a.re env

/-- interval of the exact value and error of the computed one, in units of `2^-K` -/
structure IB where
  lo : ℤ
  hi : ℤ
  err : ℤ
deriving DecidableEq

def IB.mag (b : IB) : ℤ := max |b.lo| |b.hi|

/-- box after a rounded operation with exact value in `[lo, hi]` and propagated error `e` -/
def fin1 (p K : ℕ) (lo hi e : ℤ) : Option IB :=
  if max |lo| |hi| + e ≤ 2 ^ (K + 100) then some ⟨lo, hi, e + (max |lo| |hi| + e) / 2 ^ p + 2⟩ else none

def addB (p K : ℕ) (a b : IB) : Option IB := fin1 p K (a.lo + b.lo) (a.hi + b.hi) (a.err + b.err)
def negB (a : IB) : IB := ⟨-a.hi, -a.lo, a.err⟩
def mulB (p K : ℕ) (a b : IB) : Option IB :=
  fin1 p K (min (min (a.lo * b.lo) (a.lo * b.hi)) (min (a.hi * b.lo) (a.hi * b.hi)) / 2 ^ K)
    (max (max (a.lo * b.lo) (a.lo * b.hi)) (max (a.hi * b.lo) (a.hi * b.hi)) / 2 ^ K + 1)
    ((a.err * (b.mag + b.err) + b.err * a.mag) / 2 ^ K + 1)
/-- quotient for a positive divisor -/
def divP (p K : ℕ) (a b : IB) : Option IB :=
  if 0 < b.lo - b.err then
    let lo := min (a.lo * 2 ^ K / b.lo) (a.lo * 2 ^ K / b.hi)
    let hi := max (a.hi * 2 ^ K / b.lo) (a.hi * 2 ^ K / b.hi) + 1
    fin1 p K lo hi ((a.err * 2 ^ K + max |lo| |hi| * b.err) / (b.lo - b.err) + 1)
  else none
def divB (p K : ℕ) (a b : IB) : Option IB := if b.hi < 0 then divP p K (negB a) (negB b) else divP p K a b
def litB (p K : ℕ) (q : ℚ) : Option IB :=
  if |q.num| ≤ 2 ^ 24 ∧ q.den ≤ 2 ^ 24 ∧ 2 ^ 24 % q.den = 0 then
    (if 2 ^ K % q.den = 0 then some ⟨q.num * (2 ^ K / q.den : ℕ), q.num * (2 ^ K / q.den : ℕ), 0⟩ else none)
  else fin1 p K (q.num * 2 ^ K / q.den) (q.num * 2 ^ K / q.den + 1) 0

def chk (p K : ℕ) (env : List IB) : FE → Option IB
  | .var i => env[i]?
  | .lit q => litB p K q
  | .add a b => (chk p K env a).bind fun x => (chk p K env b).bind fun y => addB p K x y
  | .sub a b => (chk p K env a).bind fun x => (chk p K env b).bind fun y => addB p K x (negB y)
  | .mul a b => (chk p K env a).bind fun x => (chk p K env b).bind fun y => mulB p K x y
  | .div a b => (chk p K env a).bind fun x => (chk p K env b).bind fun y => divB p K x y
  | .neg a => (chk p K env a).map negB

/-- the datum `x` is finite and approximates `r` as described by the box `b` -/
def Apx (φ : Fmt) (K : ℕ) (x : FV) (r : ℝ) (b : IB) : Prop :=
  ∃ q : ℚ, Val φ x q ∧ (b.lo : ℝ) ≤ r * 2 ^ K ∧ r * 2 ^ K ≤ b.hi ∧ |(q : ℝ) - r| * 2 ^ K ≤ b.err

/-- side conditions on format and scale -/
structure FmtOK (φ : Fmt) (K : ℕ) : Prop where
  hp : 24 ≤ φ.p
  hK : (K : ℤ) ≤ 1 - φ.emin
  hmin : φ.emin ≤ -24
  hmax : 102 ≤ φ.emax

variable {φ : Fmt} {K : ℕ}

theorem Apx.err_nonneg {x : FV} {r : ℝ} {b : IB} (h : Apx φ K x r b) : 0 ≤ b.err := by
  obtain ⟨q, _, _, _, h⟩ := h
  have : (0:ℝ) ≤ b.err := le_trans (by positivity) h
  exact_mod_cast this

theorem le_mag {lo hi : ℤ} {t : ℝ} (h1 : (lo : ℝ) ≤ t) (h2 : t ≤ hi) : |t| ≤ ((max |lo| |hi| : ℤ) : ℝ) := by
  push_cast
  rw [abs_le]
  constructor
  · have := neg_abs_le (lo : ℝ); have := le_max_left |(lo:ℝ)| |(hi:ℝ)|; linarith
  · have := le_abs_self (hi : ℝ); have := le_max_right |(lo:ℝ)| |(hi:ℝ)|; linarith

theorem lt_ediv {a b : ℤ} (hb : 0 < b) : (a : ℝ) / b < (a / b : ℤ) + 1 := by
  rw [div_lt_iff₀ (by exact_mod_cast hb)]
  have := Int.lt_ediv_add_one_mul_self a hb
  exact_mod_cast this
theorem ediv_le {a b : ℤ} (hb : 0 < b) : ((a / b : ℤ) : ℝ) ≤ (a : ℝ) / b := by
  rw [le_div_iff₀ (by exact_mod_cast hb)]
  exact_mod_cast Int.ediv_mul_le a hb.ne'

theorem lt_ediv_pow {a : ℤ} (k : ℕ) : (a : ℝ) / 2 ^ k < (a / 2 ^ k : ℤ) + 1 := by
  have := lt_ediv (a := a) (b := 2 ^ k) (by positivity); push_cast at this; exact this
theorem ediv_pow_le {a : ℤ} (k : ℕ) : ((a / 2 ^ k : ℤ) : ℝ) ≤ (a : ℝ) / 2 ^ k := by
  have := ediv_le (a := a) (b := 2 ^ k) (by positivity); push_cast at this; exact this

/-- the rounding step: `v` is the exact result of the operation on the computed operands -/
theorem fin1_sound (hφ : FmtOK φ K) {lo hi e : ℤ} {b : IB} (hb : fin1 φ.p K lo hi e = some b) {v : ℚ} {r : ℝ} {x : FV}
    (hlo : (lo : ℝ) ≤ r * 2 ^ K) (hhi : r * 2 ^ K ≤ hi) (he : |(v : ℝ) - r| * 2 ^ K ≤ e)
    (hx : |rq φ v| < 2 ^ φ.emax → Val φ x (rq φ v)) : Apx φ K x r b := by
  unfold fin1 at hb
  split at hb
  swap; · simp at hb
  rename_i hM
  simp only [Option.some.injEq] at hb
  set M : ℤ := max |lo| |hi| + e with hMd
  have hs : (0:ℝ) < 2 ^ K := by positivity
  have h1 := le_mag hlo hhi
  rw [abs_mul, abs_of_pos hs] at h1
  have hv : |(v : ℝ)| * 2 ^ K ≤ M := by
    have : |(v:ℝ)| ≤ |(v:ℝ) - r| + |r| := by
      have := abs_add_le ((v:ℝ) - r) r; simpa using this
    have := mul_le_mul_of_nonneg_right this hs.le
    rw [add_mul] at this
    rw [hMd, Int.cast_add]; linarith
  have hMR : (M : ℝ) ≤ 2 ^ K * 2 ^ 100 := by rw [← pow_add]; exact_mod_cast hM
  -- rounding error
  have h2 := rq_err' (φ := φ) v
  have h2R : |((rq φ v : ℚ) : ℝ) - v| ≤ |(v:ℝ)| * 2 ^ (-(φ.p : ℤ)) + 2 ^ (φ.emin - 1) := by
    have := (Rat.cast_le (K := ℝ)).2 h2; push_cast at this; exact this
  have h3 : (2:ℝ) ^ (φ.emin - 1) * 2 ^ K ≤ 1 := by
    rw [← zpow_natCast, ← zpow_add₀ (by norm_num)]
    have := hφ.hK
    exact zpow_le_one_of_nonpos₀ (by norm_num) (by omega)
  have h4 : |(v:ℝ)| * 2 ^ (-(φ.p : ℤ)) * 2 ^ K ≤ (M : ℝ) / 2 ^ φ.p := by
    rw [zpow_neg, zpow_natCast, div_eq_mul_inv]
    have h0 : (0:ℝ) ≤ (2 ^ φ.p)⁻¹ := by positivity
    nlinarith
  have h5 := lt_ediv_pow (a := M) φ.p
  have herr : |((rq φ v : ℚ) : ℝ) - r| * 2 ^ K ≤ e + (M / 2 ^ φ.p : ℤ) + 2 := by
    have h6 : |((rq φ v : ℚ) : ℝ) - r| ≤ |((rq φ v : ℚ) : ℝ) - v| + |(v:ℝ) - r| := abs_sub_le _ _ _
    have h7 := mul_le_mul_of_nonneg_right h6 hs.le
    have h8 := mul_le_mul_of_nonneg_right h2R hs.le
    rw [add_mul] at h7 h8
    linarith
  have hfin : |rq φ v| < 2 ^ φ.emax := by
    have hvq : |v| ≤ 2 ^ (100 : ℤ) := by
      have : |(v:ℝ)| ≤ 2 ^ 100 := by nlinarith
      have h' : (|v| : ℚ) ≤ 2 ^ 100 := by exact_mod_cast this
      norm_num at h' ⊢; exact h'
    have hr : Repr φ (2 ^ (100 : ℤ)) := ⟨1, 100, by have := hφ.hmin; omega, by
      have := hφ.hp
      calc 1 < 2 ^ 1 := by norm_num
        _ ≤ 2 ^ φ.p := Nat.pow_le_pow_right (by norm_num) (by omega), by simp⟩
    refine lt_of_le_of_lt (abs_rq_le hr hvq) (zpow_lt_zpow_right₀ (by norm_num) (by have := hφ.hmax; omega))
  subst hb
  exact ⟨rq φ v, hx hfin, hlo, hhi, by push_cast; push_cast at herr; linarith⟩

theorem addB_sound (hφ : FmtOK φ K) {a b c : IB} {x y : FV} {r s : ℝ} (hc : addB φ.p K a b = some c) (hx : Apx φ K x r a) (hy : Apx φ K y s b) :
    Apx φ K (x.add φ y) (r + s) c := by
  obtain ⟨q, hq, h1, h2, h3⟩ := hx
  obtain ⟨t, ht, k1, k2, k3⟩ := hy
  have hs : (0:ℝ) < 2 ^ K := by positivity
  refine fin1_sound hφ hc (v := q + t) ?_ ?_ ?_ (fun h => hq.add ht h)
  · push_cast; rw [add_mul]; linarith
  · push_cast; rw [add_mul]; linarith
  · push_cast
    have : |((q:ℝ) + t) - (r + s)| ≤ |(q:ℝ) - r| + |(t:ℝ) - s| := by
      have := abs_add_le ((q:ℝ) - r) ((t:ℝ) - s); rwa [show (q:ℝ) - r + (t - s) = q + t - (r + s) by ring] at this
    have := mul_le_mul_of_nonneg_right this hs.le
    rw [add_mul] at this; linarith

theorem negB_sound {a : IB} {x : FV} {r : ℝ} (hx : Apx φ K x r a) : Apx φ K x.neg (-r) (negB a) := by
  obtain ⟨q, hq, h1, h2, h3⟩ := hx
  refine ⟨-q, hq.neg, ?_, ?_, ?_⟩
  · simp only [negB]; push_cast; linarith
  · simp only [negB]; push_cast; linarith
  · simp only [negB]; push_cast; rwa [show -(q:ℝ) - -r = -(q - r) by ring, abs_neg]

/-- the product of two numbers lies between the extreme products of the end points -/
theorem mul_mem {a b c d x y : ℝ} (h1 : a ≤ x) (h2 : x ≤ b) (h3 : c ≤ y) (h4 : y ≤ d) :
    min (min (a * c) (a * d)) (min (b * c) (b * d)) ≤ x * y ∧ x * y ≤ max (max (a * c) (a * d)) (max (b * c) (b * d)) := by
  have e1 : min (a * c) (a * d) ≤ a * y ∧ a * y ≤ max (a * c) (a * d) := by
    rcases le_total 0 a with h | h
    · exact ⟨(min_le_left _ _).trans (by nlinarith), le_trans (by nlinarith) (le_max_right _ _)⟩
    · exact ⟨(min_le_right _ _).trans (by nlinarith), le_trans (by nlinarith) (le_max_left _ _)⟩
  have e2 : min (b * c) (b * d) ≤ b * y ∧ b * y ≤ max (b * c) (b * d) := by
    rcases le_total 0 b with h | h
    · exact ⟨(min_le_left _ _).trans (by nlinarith), le_trans (by nlinarith) (le_max_right _ _)⟩
    · exact ⟨(min_le_right _ _).trans (by nlinarith), le_trans (by nlinarith) (le_max_left _ _)⟩
  have e3 : min (a * y) (b * y) ≤ x * y ∧ x * y ≤ max (a * y) (b * y) := by
    rcases le_total 0 y with h | h
    · exact ⟨(min_le_left _ _).trans (by nlinarith), le_trans (by nlinarith) (le_max_right _ _)⟩
    · exact ⟨(min_le_right _ _).trans (by nlinarith), le_trans (by nlinarith) (le_max_left _ _)⟩
  exact ⟨(min_le_min e1.1 e2.1).trans e3.1, e3.2.trans (max_le_max e1.2 e2.2)⟩

theorem mulB_sound (hφ : FmtOK φ K) {a b c : IB} {x y : FV} {r s : ℝ} (hc : mulB φ.p K a b = some c) (hx : Apx φ K x r a) (hy : Apx φ K y s b) :
    Apx φ K (x.mul φ y) (r * s) c := by
  have ea := hx.err_nonneg
  have eb := hy.err_nonneg
  obtain ⟨q, hq, h1, h2, h3⟩ := hx
  obtain ⟨t, ht, k1, k2, k3⟩ := hy
  have hs : (0:ℝ) < 2 ^ K := by positivity
  have hm := mul_mem h1 h2 k1 k2
  have e0 : r * s * 2 ^ K = (r * 2 ^ K) * (s * 2 ^ K) / 2 ^ K := by field_simp
  refine fin1_sound hφ hc (v := q * t) ?_ ?_ ?_ (fun h => hq.mul ht h)
  · refine (ediv_pow_le K).trans ?_
    push_cast
    rw [e0]
    exact div_le_div_of_nonneg_right hm.1 hs.le
  · have := lt_ediv_pow (a := max (max (a.lo * b.lo) (a.lo * b.hi)) (max (a.hi * b.lo) (a.hi * b.hi))) K
    push_cast at this ⊢
    refine le_trans ?_ this.le
    rw [e0]
    exact div_le_div_of_nonneg_right hm.2 hs.le
  · have h5 := lt_ediv_pow (a := a.err * (b.mag + b.err) + b.err * a.mag) K
    push_cast at h5 ⊢
    refine le_trans ?_ h5.le
    rw [le_div_iff₀ hs]
    have m1 := le_mag h1 h2
    have m2 := le_mag k1 k2
    rw [abs_mul, abs_of_pos hs] at m1 m2
    have hd : |(q:ℝ) * t - r * s| ≤ |(q:ℝ) - r| * |(t:ℝ)| + |r| * |(t:ℝ) - s| := by
      rw [← abs_mul, ← abs_mul]
      have := abs_add_le (((q:ℝ) - r) * t) (r * (t - s))
      rwa [show ((q:ℝ) - r) * t + r * (t - s) = q * t - r * s by ring] at this
    have ht' : |(t:ℝ)| * 2 ^ K ≤ (b.mag : ℝ) + b.err := by
      have : |(t:ℝ)| ≤ |(t:ℝ) - s| + |s| := by have := abs_add_le ((t:ℝ) - s) s; simpa using this
      have := mul_le_mul_of_nonneg_right this hs.le
      rw [add_mul] at this
      have : (b.mag : ℝ) = ((max |b.lo| |b.hi| : ℤ) : ℝ) := rfl
      linarith
    have hm' : (a.mag : ℝ) = ((max |a.lo| |a.hi| : ℤ) : ℝ) := rfl
    calc |(q:ℝ) * t - r * s| * 2 ^ K * 2 ^ K ≤ (|(q:ℝ) - r| * |(t:ℝ)| + |r| * |(t:ℝ) - s|) * 2 ^ K * 2 ^ K := by gcongr
      _ = (|(q:ℝ) - r| * 2 ^ K) * (|(t:ℝ)| * 2 ^ K) + (|(t:ℝ) - s| * 2 ^ K) * (|r| * 2 ^ K) := by ring
      _ ≤ a.err * (b.mag + b.err) + b.err * a.mag := by
          rw [hm']
          have ea' : (0:ℝ) ≤ a.err := by exact_mod_cast ea
          have eb' : (0:ℝ) ≤ b.err := by exact_mod_cast eb
          refine add_le_add (mul_le_mul h3 ht' (by positivity) ea') (mul_le_mul k3 m1 (by positivity) eb')

theorem divP_sound (hφ : FmtOK φ K) {a b c : IB} {x y : FV} {r s : ℝ} (hc : divP φ.p K a b = some c) (hx : Apx φ K x r a) (hy : Apx φ K y s b) :
    Apx φ K (x.div φ y) (r / s) c := by
  have ea := hx.err_nonneg
  have eb := hy.err_nonneg
  obtain ⟨q, hq, h1, h2, h3⟩ := hx
  obtain ⟨t, ht, k1, k2, k3⟩ := hy
  have hs : (0:ℝ) < 2 ^ K := by positivity
  unfold divP at hc
  split at hc
  swap; · simp at hc
  rename_i hpos
  have hlb : 0 < b.lo := by omega
  have hlbR : (0:ℝ) < b.lo := by exact_mod_cast hlb
  have hlh : (b.lo : ℝ) ≤ b.hi := k1.trans k2
  have hhb : 0 < b.hi := by have : b.lo ≤ b.hi := by exact_mod_cast hlh
                            omega
  have hhbR : (0:ℝ) < b.hi := by exact_mod_cast hhb
  have hsp : 0 < s := by
    have : 0 < s * 2 ^ K := hlbR.trans_le k1
    exact (mul_pos_iff_of_pos_right hs).1 this
  -- the exact quotient
  set lo := min (a.lo * 2 ^ K / b.lo) (a.lo * 2 ^ K / b.hi) with hlo
  set hi := max (a.hi * 2 ^ K / b.lo) (a.hi * 2 ^ K / b.hi) + 1 with hhi
  have hsK : 0 < s * 2 ^ K := by positivity
  have eq0 : r / s * 2 ^ K = (r * 2 ^ K) * 2 ^ K / (s * 2 ^ K) := by field_simp
  have g1 : (lo : ℝ) ≤ r / s * 2 ^ K := by
    rw [eq0]
    have l1 := ediv_le (a := a.lo * 2 ^ K) hlb
    have l2 := ediv_le (a := a.lo * 2 ^ K) hhb
    push_cast at l1 l2
    have step : (a.lo : ℝ) * 2 ^ K / (s * 2 ^ K) ≤ r * 2 ^ K * 2 ^ K / (s * 2 ^ K) := by gcongr
    refine le_trans ?_ step
    rw [hlo]; push_cast
    rcases le_total 0 (a.lo : ℝ) with h | h
    · refine (min_le_right _ _).trans (l2.trans ?_)
      apply div_le_div_of_nonneg_left (by positivity) hsK k2
    · refine (min_le_left _ _).trans (l1.trans ?_)
      rw [div_le_div_iff₀ hlbR hsK]
      have h0 : (a.lo : ℝ) * 2 ^ K ≤ 0 := mul_nonpos_of_nonpos_of_nonneg h hs.le
      nlinarith
  have g2 : r / s * 2 ^ K ≤ (hi : ℝ) := by
    rw [eq0]
    have l1 := lt_ediv (a := a.hi * 2 ^ K) hlb
    have l2 := lt_ediv (a := a.hi * 2 ^ K) hhb
    push_cast at l1 l2
    have step : r * 2 ^ K * 2 ^ K / (s * 2 ^ K) ≤ (a.hi : ℝ) * 2 ^ K / (s * 2 ^ K) := by gcongr
    refine le_trans step ?_
    rw [hhi]; push_cast
    rcases le_total 0 (a.hi : ℝ) with h | h
    · refine le_trans (le_trans ?_ l1.le) (add_le_add_left (le_max_left _ _) _)
      apply div_le_div_of_nonneg_left (by positivity) hlbR k1
    · refine le_trans (le_trans ?_ l2.le) (add_le_add_left (le_max_right _ _) _)
      rw [div_le_div_iff₀ hsK hhbR]
      have h0 : (a.hi : ℝ) * 2 ^ K ≤ 0 := mul_nonpos_of_nonpos_of_nonneg h hs.le
      nlinarith
  -- the computed divisor
  have htl : ((b.lo : ℝ) - b.err) ≤ t * 2 ^ K := by
    have := neg_abs_le ((t:ℝ) - s)
    have := mul_le_mul_of_nonneg_right this hs.le
    rw [sub_mul, neg_mul] at this; linarith
  have hposR : (0:ℝ) < (b.lo : ℝ) - b.err := by exact_mod_cast hpos
  have htK : (0:ℝ) < t * 2 ^ K := hposR.trans_le htl
  have htp : (0:ℝ) < t := (mul_pos_iff_of_pos_right hs).1 htK
  have ht0 : t ≠ 0 := by intro h; rw [h] at htp; simp at htp
  refine fin1_sound hφ hc (v := q / t) g1 g2 ?_ (fun h => hq.div ht ht0 h)
  have h5 := lt_ediv (a := a.err * 2 ^ K + max |lo| |hi| * b.err) hpos
  rw [Int.cast_add, Int.cast_one]
  refine le_trans ?_ h5.le
  have m := le_mag g1 g2
  rw [abs_mul, abs_of_pos hs] at m
  have hd : ((q / t : ℚ) : ℝ) - r / s = ((q - r) - r / s * (t - s)) / t := by
    push_cast; field_simp; ring
  rw [hd, abs_div, abs_of_pos htp, div_mul_eq_mul_div, div_le_div_iff₀ htp (by exact_mod_cast hpos)]
  have hn : |((q:ℝ) - r) - r / s * (t - s)| ≤ |(q:ℝ) - r| + |r / s| * |(t:ℝ) - s| := by
    rw [← abs_mul]; exact abs_sub _ _
  have ea' : (0:ℝ) ≤ a.err := by exact_mod_cast ea
  have eb' : (0:ℝ) ≤ b.err := by exact_mod_cast eb
  set Mx : ℝ := ((max |lo| |hi| : ℤ) : ℝ) with hMx
  have hMx0 : 0 ≤ Mx := le_trans (by positivity) m
  have hn2 : |((q:ℝ) - r) - r / s * (t - s)| * 2 ^ K * 2 ^ K ≤ a.err * 2 ^ K + Mx * b.err := by
    calc |((q:ℝ) - r) - r / s * (t - s)| * 2 ^ K * 2 ^ K ≤ (|(q:ℝ) - r| + |r / s| * |(t:ℝ) - s|) * 2 ^ K * 2 ^ K := by gcongr
      _ = (|(q:ℝ) - r| * 2 ^ K) * 2 ^ K + (|r / s| * 2 ^ K) * (|(t:ℝ) - s| * 2 ^ K) := by ring
      _ ≤ _ := add_le_add (mul_le_mul_of_nonneg_right h3 hs.le) (mul_le_mul m k3 (by positivity) hMx0)
  push_cast
  rw [show ((max |(lo:ℝ)| |(hi:ℝ)| : ℝ)) = Mx by rw [hMx]; push_cast; rfl]
  have hR : (0:ℝ) ≤ a.err * 2 ^ K + Mx * b.err := by positivity
  have hA : (0:ℝ) ≤ |((q:ℝ) - r) - r / s * (t - s)| * 2 ^ K := by positivity
  calc |((q:ℝ) - r) - r / s * (t - s)| * 2 ^ K * ((b.lo : ℝ) - b.err)
      ≤ |((q:ℝ) - r) - r / s * (t - s)| * 2 ^ K * (t * 2 ^ K) := by gcongr
    _ = (|((q:ℝ) - r) - r / s * (t - s)| * 2 ^ K * 2 ^ K) * t := by ring
    _ ≤ (a.err * 2 ^ K + Mx * b.err) * t := by gcongr

theorem FV.div_neg_neg (x y : FV) : x.neg.div φ y.neg = x.div φ y := by
  cases x <;> cases y <;> simp [FV.neg, FV.div]

theorem divB_sound (hφ : FmtOK φ K) {a b c : IB} {x y : FV} {r s : ℝ} (hc : divB φ.p K a b = some c) (hx : Apx φ K x r a) (hy : Apx φ K y s b) :
    Apx φ K (x.div φ y) (r / s) c := by
  unfold divB at hc
  split at hc
  · have := divP_sound hφ hc (negB_sound hx) (negB_sound hy)
    rwa [FV.div_neg_neg, neg_div_neg_eq] at this
  · exact divP_sound hφ hc hx hy

theorem litB_sound (hφ : FmtOK φ K) {q : ℚ} {c : IB} (hc : litB φ.p K q = some c) : Apx φ K (rndQ φ q) (q : ℝ) c := by
  unfold litB at hc
  have hd0 : 0 < q.den := q.den_pos
  split at hc
  · rename_i hq
    obtain ⟨hn, hd, hdiv⟩ := hq
    split at hc
    swap; · simp at hc
    rename_i hKd
    simp only [Option.some.injEq] at hc
    subst hc
    -- exact
    have hrep : Repr φ |q| := by
      obtain ⟨j, hj, hdj⟩ := (Nat.dvd_prime_pow Nat.prime_two).1 (Nat.dvd_of_mod_eq_zero hdiv)
      -- write the numerator with at most 24 bits
      have hq' : |q| = (|q.num| : ℚ) / q.den := by
        conv_lhs => rw [← Rat.num_div_den q]
        rw [abs_div, Nat.abs_cast]
      by_cases hlt : |q.num| < 2 ^ 24
      · refine ⟨q.num.natAbs, -(j:ℤ), by have := hφ.hmin; omega, ?_, ?_⟩
        · calc q.num.natAbs < 2 ^ 24 := by have := Int.abs_eq_natAbs q.num; omega
            _ ≤ 2 ^ φ.p := Nat.pow_le_pow_right (by norm_num) hφ.hp
        · rw [hq', hdj, zpow_neg, zpow_natCast, Nat.cast_natAbs]; push_cast; rw [div_eq_mul_inv]
      · have he : |q.num| = 2 ^ 24 := by omega
        refine ⟨1, 24 - (j:ℤ), by have := hφ.hmin; omega, ?_, ?_⟩
        · calc 1 < 2 ^ 24 := by norm_num
            _ ≤ 2 ^ φ.p := Nat.pow_le_pow_right (by norm_num) hφ.hp
        · have he' : (|q.num| : ℚ) = 2 ^ 24 := by exact_mod_cast he
          rw [hq', hdj, he', zpow_sub₀ (by norm_num), zpow_natCast]; push_cast; norm_num
    have hfin : |rq φ q| < 2 ^ φ.emax := by
      rw [rq_repr hrep]
      have h1 : |q| ≤ 2 ^ (24:ℤ) := by
        have hq' : |q| = (|q.num| : ℚ) / q.den := by
          conv_lhs => rw [← Rat.num_div_den q]
          rw [abs_div, Nat.abs_cast]
        rw [hq', div_le_iff₀ (by exact_mod_cast hd0)]
        have : (|q.num| : ℚ) ≤ 2 ^ 24 := by exact_mod_cast hn
        have h1 : (1:ℚ) ≤ q.den := by exact_mod_cast hd0
        norm_num at this ⊢; nlinarith
      exact lt_of_le_of_lt h1 (zpow_lt_zpow_right₀ (by norm_num) (by have := hφ.hmax; omega))
    have hv := val_rndQ hfin
    rw [rq_repr hrep] at hv
    have hcast : (q : ℝ) * 2 ^ K = ((q.num * (2 ^ K / q.den : ℕ) : ℤ) : ℝ) := by
      have h1 : ((2 ^ K / q.den : ℕ) : ℝ) = 2 ^ K / q.den := by
        rw [Nat.cast_div (Nat.dvd_of_mod_eq_zero hKd) (by exact_mod_cast hd0.ne')]; push_cast; rfl
      have h2 : (q : ℝ) = q.num / q.den := by
        conv_lhs => rw [← Rat.num_div_den q]
        push_cast; rfl
      rw [Int.cast_mul, Int.cast_natCast, h1, h2]; ring
    refine ⟨q, hv, ?_, ?_, ?_⟩
    · exact hcast.ge
    · exact hcast.le
    · simp
  · have h2 : (q : ℝ) = q.num / q.den := by
      conv_lhs => rw [← Rat.num_div_den q]
      push_cast; rfl
    have e0 : (q : ℝ) * 2 ^ K = ((q.num * 2 ^ K : ℤ) : ℝ) / ((q.den : ℤ) : ℝ) := by rw [h2]; push_cast; ring
    refine fin1_sound hφ hc (v := q) ?_ ?_ (by simp) (fun h => val_rndQ h)
    · rw [e0]; exact ediv_le (by exact_mod_cast hd0)
    · rw [e0]; push_cast
      have := lt_ediv (a := q.num * 2 ^ K) (b := q.den) (by exact_mod_cast hd0)
      push_cast at this; exact this.le

/-- soundness of the analyser -/
theorem chk_sound (hφ : FmtOK φ K) {env : List IB} {fenv : ℕ → FV} {renv : ℕ → ℝ} (henv : ∀ i b, env[i]? = some b → Apx φ K (fenv i) (renv i) b)
    (e : FE) {c : IB} (hc : chk φ.p K env e = some c) : Apx φ K (e.fp φ fenv) (e.re renv) c := by
  induction e generalizing c with
  | var i => exact henv i c hc
  | lit q => exact litB_sound hφ hc
  | add a b iha ihb =>
    simp only [chk, Option.bind_eq_some_iff] at hc
    obtain ⟨x, hx, y, hy, hc⟩ := hc
    exact addB_sound hφ hc (iha hx) (ihb hy)
  | sub a b iha ihb =>
    simp only [chk, Option.bind_eq_some_iff] at hc
    obtain ⟨x, hx, y, hy, hc⟩ := hc
    have := addB_sound hφ hc (iha hx) (negB_sound (ihb hy))
    rwa [← sub_eq_add_neg] at this
  | mul a b iha ihb =>
    simp only [chk, Option.bind_eq_some_iff] at hc
    obtain ⟨x, hx, y, hy, hc⟩ := hc
    exact mulB_sound hφ hc (iha hx) (ihb hy)
  | div a b iha ihb =>
    simp only [chk, Option.bind_eq_some_iff] at hc
    obtain ⟨x, hx, y, hy, hc⟩ := hc
    exact divB_sound hφ hc (iha hx) (ihb hy)
  | neg a iha =>
    simp only [chk, Option.map_eq_some_iff] at hc
    obtain ⟨x, hx, hc⟩ := hc
    subst hc
    exact negB_sound (iha hx)

end Polylog
