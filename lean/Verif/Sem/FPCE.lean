import Verif.Sem.FPC
import Verif.Sem.Lit

/-!
# Rounding errors of complex expressions: a verified analyser

`CXE` is the language of the expressions in the complex polylogarithms, apart from the calls of library functions.  An expression can be
evaluated in every arithmetic (`CXE.ev`): in `FP φ L` this is the floating-point program, in `R (semF φ)` it is the same expression
without rounding, except that literals are rounded.  `CXE.chk` computes a bound `M Λ^d` of the value and a bound `e u Λ^d` of the rounding error.
-/

namespace Polylog
set_option linter.style.longLine false
open Complex

inductive CXE : Bool → Type
  | lit (q : ℚ) : CXE false
  | var (i : ℕ) : CXE true
  | re (a : CXE true) : CXE false
  | im (a : CXE true) : CXE false
  | mk (a b : CXE false) : CXE true
  | rneg (a : CXE false) : CXE false
  | radd (a b : CXE false) : CXE false
  | rsub (a b : CXE false) : CXE false
  | rmul (a b : CXE false) : CXE false
  | rdiv (a : CXE false) (q : ℚ) : CXE false
  | neg (a : CXE true) : CXE true
  | add (a b : CXE true) : CXE true
  | sub (a b : CXE true) : CXE true
  | mul (a b : CXE true) : CXE true
  | addr (a : CXE true) (b : CXE false) : CXE true
  | addl (a : CXE false) (b : CXE true) : CXE true
  | subl (a : CXE false) (b : CXE true) : CXE true
  | mulr (a : CXE true) (b : CXE false) : CXE true
  | mull (a : CXE false) (b : CXE true) : CXE true
  | div (a : CXE true) (q : ℚ) : CXE true

@[reducible] def El (F : Type) : Bool → Type
  | true => Cx F
  | false => F

def CXE.ev {F : Type} [FOps F] (env : ℕ → Cx F) : {b : Bool} → CXE b → El F b
  | _, .lit q => (FOps.lit q : F)
  | _, .var i => env i
  | _, .re a => (a.ev env).re
  | _, .im a => (a.ev env).im
  | _, .mk a b => ⟨a.ev env, b.ev env⟩
  | _, .rneg a => (∸(show F from a.ev env) : F)
  | _, .radd a b => ((show F from a.ev env) +. (show F from b.ev env) : F)
  | _, .rsub a b => ((show F from a.ev env) -. (show F from b.ev env) : F)
  | _, .rmul a b => ((show F from a.ev env) *. (show F from b.ev env) : F)
  | _, .rdiv a q => ((show F from a.ev env) /. (FOps.lit q : F) : F)
  | _, .neg a => (∸(show Cx F from a.ev env) : Cx F)
  | _, .add a b => ((show Cx F from a.ev env) +. (show Cx F from b.ev env) : Cx F)
  | _, .sub a b => ((show Cx F from a.ev env) -. (show Cx F from b.ev env) : Cx F)
  | _, .mul a b => ((show Cx F from a.ev env) *. (show Cx F from b.ev env) : Cx F)
  | _, .addr a b => ((show Cx F from a.ev env) +. (show F from b.ev env) : Cx F)
  | _, .addl a b => ((show F from a.ev env) +. (show Cx F from b.ev env) : Cx F)
  | _, .subl a b => ((show F from a.ev env) -. (show Cx F from b.ev env) : Cx F)
  | _, .mulr a b => ((show Cx F from a.ev env) *. (show F from b.ev env) : Cx F)
  | _, .mull a b => ((show F from a.ev env) *. (show Cx F from b.ev env) : Cx F)
  | _, .div a q => ((show Cx F from a.ev env) /. (FOps.lit q : F) : Cx F)

/-- real arithmetic with the literals of format `φ` -/
noncomputable def semF (φ : Fmt) : RealSem :=
  { RealSem.dec with rho := fun q => if 2 ^ (φ.emin + φ.p) ≤ |q| then rq φ q else q }

theorem semF_lit {φ : Fmt} (hφ : FmtB φ) : (semF φ).Lit (uR φ) where
  rel q := by
    show |(((if 2 ^ (φ.emin + φ.p) ≤ |q| then rq φ q else q : ℚ)) : ℝ) - q| ≤ _
    have h0 := uR_pos (φ := φ)
    split
    case isFalse => rw [sub_self, abs_zero]; positivity
    case isTrue h =>
      have h1 : |rq φ q - q| ≤ |q| * 2 ^ (-(φ.p : ℤ)) := by
        rcases rq_err (φ := φ) q with h2 | h2
        · exact h2
        · refine h2.trans ?_
          have : (2:ℚ) ^ (φ.emin + φ.p) * 2 ^ (-(φ.p : ℤ)) ≤ |q| * 2 ^ (-(φ.p : ℤ)) := mul_le_mul_of_nonneg_right h (by positivity)
          refine le_trans ?_ this
          rw [← zpow_add₀ (by norm_num)]
          exact zpow_le_zpow_right₀ (by norm_num) (by omega)
      have := (Rat.cast_le (K := ℝ)).2 h1
      push_cast at this
      rw [mul_comm]; exact this
  dyadic m k hm hk := by
    show (if _ then _ else _) = _
    split
    · have := near_dy hφ.a (q := m / 2 ^ k) m k hm hk rfl
      exact rq_repr this.repr
    · rfl

structure Bx where
  M : ℕ
  e : ℕ
  d : ℤ

/-- bound of value plus error -/
def Bx.B (b : Bx) : ℕ := b.M + b.e / 2 ^ 50 + 1

/-- ranges in which nothing overflows; `Λ ≤ 2^l` -/
def Bx.ok (l : ℕ) (b : Bx) : Bool := b.M < 2 ^ 188 && b.e < 2 ^ 188 && b.d * l ≤ 640 && -2 ≤ b.d

def Bx.guard (l : ℕ) (b : Bx) : Option Bx := if b.ok l then some b else none

def Bx.badd (a b : Bx) : Bx := ⟨a.M + b.M, a.e + b.e + a.B + b.B, max a.d b.d⟩
def Bx.bmul (c : ℕ) (a b : Bx) : Bx :=
  ⟨a.M * b.M / 2 ^ 128 + 1, (a.e * b.M + b.e * a.M + (a.e * b.e / 2 ^ 50 + 1) + c * (a.B * b.B)) / 2 ^ 128 + 2, max (a.d + b.d) (-2)⟩
def Bx.bdiv (n : ℕ) (a : Bx) : Bx := ⟨a.M / n + 1, (a.e + a.B) / n + 2, a.d⟩

/-- a divisor: an integer between 1 and `2^24` -/
def isDiv (q : ℚ) : Bool := q.den == 1 && 1 ≤ q.num && q.num < 2 ^ 24

/-- a literal: zero or of moderate size -/
def isLit (q : ℚ) : Bool := q == 0 || (2 ^ (-900 : ℤ) ≤ |q| && |q| ≤ 2 ^ 50)

def CXE.chk (l : ℕ) (env : ℕ → Bx) : {b : Bool} → CXE b → Option Bx
  | _, .lit q => if isLit q then some ⟨⌈|q| * (2 ^ 128 + 2 ^ 78)⌉₊, 0, 0⟩ else none
  | _, .var i => (env i).guard l
  | _, .re a => a.chk l env
  | _, .im a => a.chk l env
  | _, .mk a b => do
    let x ← a.chk l env
    let y ← b.chk l env
    Bx.guard l ⟨x.M + y.M, x.e + y.e, max x.d y.d⟩
  | _, .rneg a => a.chk l env
  | _, .radd a b => do (Bx.badd (← a.chk l env) (← b.chk l env)).guard l
  | _, .rsub a b => do (Bx.badd (← a.chk l env) (← b.chk l env)).guard l
  | _, .rmul a b => do (Bx.bmul 1 (← a.chk l env) (← b.chk l env)).guard l
  | _, .rdiv a q => do let x ← a.chk l env; if isDiv q then (Bx.bdiv q.num.toNat x).guard l else none
  | _, .neg a => a.chk l env
  | _, .add a b => do (Bx.badd (← a.chk l env) (← b.chk l env)).guard l
  | _, .sub a b => do (Bx.badd (← a.chk l env) (← b.chk l env)).guard l
  | _, .mul a b => do (Bx.bmul 3 (← a.chk l env) (← b.chk l env)).guard l
  | _, .addr a b => do (Bx.badd (← a.chk l env) (← b.chk l env)).guard l
  | _, .addl a b => do (Bx.badd (← a.chk l env) (← b.chk l env)).guard l
  | _, .subl a b => do (Bx.badd (← a.chk l env) (← b.chk l env)).guard l
  | _, .mulr a b => do (Bx.bmul 1 (← a.chk l env) (← b.chk l env)).guard l
  | _, .mull a b => do (Bx.bmul 1 (← a.chk l env) (← b.chk l env)).guard l
  | _, .div a q => do let x ← a.chk l env; if isDiv q then (Bx.bdiv q.num.toNat x).guard l else none

section
variable {φ : Fmt} {L : Lib} {Λ : ℝ} {l : ℕ}

/-- scaled natural number -/
noncomputable def um (M : ℕ) : ℝ := M / 2 ^ 128

theorem um_nonneg (M : ℕ) : 0 ≤ um M := by unfold um; positivity
theorem um_add (a b : ℕ) : um (a + b) = um a + um b := by unfold um; push_cast; ring
theorem um_mono {a b : ℕ} (h : a ≤ b) : um a ≤ um b := by
  unfold um; have : (a:ℝ) ≤ b := by exact_mod_cast h
  gcongr
theorem um_one : um 1 = 1 / 2 ^ 128 := by unfold um; norm_num
theorem div_le_succ (x n : ℕ) (hn : 0 < n) : (x:ℝ) / n ≤ ((x / n : ℕ) : ℝ) + 1 := by
  rw [div_le_iff₀ (by exact_mod_cast hn)]
  have h := Nat.div_add_mod x n
  have h2 := Nat.mod_lt x hn
  have : x ≤ (x / n + 1) * n := by rw [Nat.add_mul, Nat.mul_comm (x / n)]; omega
  exact_mod_cast this
theorem um_mul (a b : ℕ) : um a * um b ≤ um (a * b / 2 ^ 128 + 1) := by
  have h := div_le_succ (a * b) (2 ^ 128) (by norm_num)
  unfold um
  simp only [Nat.cast_mul, Nat.cast_pow, Nat.cast_ofNat, Nat.cast_add, Nat.cast_one] at h ⊢
  rw [show (a:ℝ) / 2 ^ 128 * (b / 2 ^ 128) = (a * b / 2 ^ 128) / 2 ^ 128 by ring]
  gcongr
theorem um_shift (a : ℕ) {u : ℝ} (h : u ≤ 1 / 2 ^ 53) : um a * u ≤ um (a / 2 ^ 50 + 1) := by
  have h1 := div_le_succ a (2 ^ 50) (by norm_num)
  have h2 : um a * u ≤ um a * (1 / 2 ^ 50) := mul_le_mul_of_nonneg_left (h.trans (by norm_num)) (um_nonneg a)
  refine h2.trans ?_
  unfold um
  simp only [Nat.cast_mul, Nat.cast_pow, Nat.cast_ofNat, Nat.cast_add, Nat.cast_one] at h1 ⊢
  rw [show (a:ℝ) / 2 ^ 128 * (1 / 2 ^ 50) = (a / 2 ^ 50) / 2 ^ 128 by ring]
  gcongr

theorem Bx.B_le (b : Bx) {u : ℝ} (h : u ≤ 1 / 2 ^ 53) : um b.M + um b.e * u ≤ um b.B := by
  have := um_shift b.e h
  rw [Bx.B, Nat.add_assoc, um_add]; linarith

/-- the value `r` and the rounded value `x` are in the box `b` -/
def RHolds (φ : Fmt) (Λ : ℝ) (x : FV) (r : ℝ) (b : Bx) : Prop := |r| ≤ um b.M * Λ ^ b.d ∧ Near φ x r (um b.e * uR φ * Λ ^ b.d)
def CHolds (Λ : ℝ) (z : Cx (FP φ L)) (w : ℂ) (b : Bx) : Prop := ‖w‖ ≤ um b.M * Λ ^ b.d ∧ CNear z w (um b.e * uR φ * Λ ^ b.d)

def EHolds (Λ : ℝ) : {b : Bool} → El (FP φ L) b → El (R (semF φ)) b → Bx → Prop
  | true, z, w, b => CHolds Λ z w.toC b
  | false, x, r, b => RHolds φ Λ (ofF x) (ofR r) b

theorem zpow_mono_exp (h1 : 1 ≤ Λ) {a b : ℤ} (h : a ≤ b) : Λ ^ a ≤ Λ ^ b := zpow_le_zpow_right₀ h1 h

noncomputable def c706 : ℝ := 2 ^ (706 : ℤ)
theorem c706_pos : 0 < c706 := by unfold c706; positivity

/-- magnitude bound from `ok` -/
theorem ok_cap (h1 : 1 ≤ Λ) (hΛ : Λ ≤ 2 ^ l) {b : Bx} (h : b.ok l = true) (M : ℕ) (hM : M ≤ 2 ^ 194) :
    um M * Λ ^ b.d ≤ c706 := by
  simp only [Bx.ok, Bool.and_eq_true, decide_eq_true_eq] at h
  obtain ⟨⟨⟨h2, h3⟩, h4⟩, h5⟩ := h
  have hp : Λ ^ b.d ≤ 2 ^ (640 : ℤ) := by
    rcases le_or_gt b.d 0 with hd | hd
    · calc Λ ^ b.d ≤ Λ ^ (0:ℤ) := zpow_mono_exp h1 hd
        _ = 2 ^ (0:ℤ) := by simp
        _ ≤ _ := zpow_le_zpow_right₀ (by norm_num) (by norm_num)
    · obtain ⟨n, hn⟩ : ∃ n : ℕ, b.d = n := ⟨b.d.toNat, by omega⟩
      rw [hn, zpow_natCast]
      calc Λ ^ n ≤ (2 ^ l) ^ n := pow_le_pow_left₀ (by linarith) hΛ n
        _ = 2 ^ (((l * n : ℕ)) : ℤ) := by rw [← pow_mul, zpow_natCast]
        _ ≤ _ := zpow_le_zpow_right₀ (by norm_num) (by rw [hn] at h4; push_cast; linarith)
  have hm : um M ≤ 2 ^ (66 : ℤ) := by
    unfold um
    rw [div_le_iff₀ (by positivity)]
    have : (M:ℝ) ≤ 2 ^ 194 := by exact_mod_cast hM
    refine this.trans (le_of_eq ?_)
    rw [← zpow_natCast, ← zpow_natCast, ← zpow_add₀ (by norm_num)]; norm_num
  calc um M * Λ ^ b.d ≤ 2 ^ (66:ℤ) * 2 ^ (640 : ℤ) := mul_le_mul hm hp (by positivity) (by positivity)
    _ = _ := by rw [← zpow_add₀ (by norm_num)]; rfl

theorem tau_unit (hφ : FmtB φ) (h1 : 1 ≤ Λ) (hΛ : Λ ≤ 2 ^ l) (hl : l ≤ 320) {d : ℤ} (hd : -2 ≤ d) : 3 * tauR ≤ um 1 * uR φ * Λ ^ d := by
  have e1 : (2:ℝ) ^ (-640 : ℤ) ≤ Λ ^ d := by
    have : Λ ^ (-2 : ℤ) ≤ Λ ^ d := zpow_mono_exp h1 hd
    refine le_trans ?_ this
    rw [zpow_neg, zpow_neg]
    apply inv_anti₀ (by positivity)
    calc Λ ^ (2:ℤ) = Λ ^ 2 := by norm_cast
      _ ≤ (2 ^ l) ^ 2 := pow_le_pow_left₀ (by linarith) hΛ 2
      _ = 2 ^ ((l * 2 : ℕ) : ℤ) := by rw [← pow_mul, zpow_natCast]
      _ ≤ _ := zpow_le_zpow_right₀ (by norm_num) (by push_cast; omega)
  have e2 := hφ.le_u
  have e3 : um 1 = (2:ℝ) ^ (-128 : ℤ) := by rw [um_one]; norm_num
  rw [e3]
  calc 3 * tauR ≤ 2 ^ (2:ℤ) * 2 ^ (-1000 : ℤ) := mul_le_mul_of_nonneg_right (by norm_num) (by unfold tauR; positivity)
    _ ≤ 2 ^ (-128 : ℤ) * 2 ^ (-113 : ℤ) * 2 ^ (-640 : ℤ) := by
      rw [← zpow_add₀ (by norm_num), ← zpow_add₀ (by norm_num), ← zpow_add₀ (by norm_num)]
      exact zpow_le_zpow_right₀ (by norm_num) (by norm_num)
    _ ≤ _ := by gcongr

theorem guard_some {b b' : Bx} (h : Bx.guard l b = some b') : b.ok l = true ∧ b' = b := by
  unfold Bx.guard at h
  split at h
  case isTrue hh => exact ⟨hh, by injection h with h; exact h.symm⟩
  case isFalse => exact absurd h (by simp)

theorem ok_d {b : Bx} (h : b.ok l = true) : -2 ≤ b.d := by
  simp only [Bx.ok, Bool.and_eq_true, decide_eq_true_eq] at h; exact h.2
theorem ok_M {b : Bx} (h : b.ok l = true) : b.M < 2 ^ 188 ∧ b.e < 2 ^ 188 := by
  simp only [Bx.ok, Bool.and_eq_true, decide_eq_true_eq] at h; exact ⟨h.1.1.1, h.1.1.2⟩

theorem cap706 : c706 * 16 + 16 ≤ capR := by
  have e : c706 * 16 = 2 ^ (710:ℤ) := by
    unfold c706
    rw [show (16:ℝ) = 2 ^ (4:ℤ) by norm_num, ← zpow_add₀ (by norm_num)]; norm_num
  have e2 : (16:ℝ) ≤ 2 ^ (710:ℤ) := by
    have : (2:ℝ) ^ (4:ℤ) ≤ 2 ^ (710:ℤ) := zpow_le_zpow_right₀ (by norm_num) (by norm_num)
    exact le_trans (by norm_num) this
  have e3 : (2:ℝ) ^ (710:ℤ) + 2 ^ (710:ℤ) = 2 ^ (711:ℤ) := by
    rw [show (711:ℤ) = 710 + 1 by norm_num, zpow_add₀ (by norm_num)]; ring
  have e4 : (2:ℝ) ^ (711:ℤ) ≤ capR := zpow_le_zpow_right₀ (by norm_num) (by norm_num)
  rw [e]
  exact (add_le_add_right e2 _).trans (e3.le.trans e4)

/-- the two inequalities behind addition -/
theorem add_box (h1 : 1 ≤ Λ) (hΛ : Λ ≤ 2 ^ l) {u : ℝ} (hu0 : 0 < u) (hu : u ≤ 1 / 2 ^ 53) {a b : Bx} (ha : (a.badd b).ok l = true) {n r s : ℝ}
    (hn : n ≤ r + s) (hr : r ≤ um a.M * Λ ^ a.d) (hs : s ≤ um b.M * Λ ^ b.d) :
    n ≤ um (a.badd b).M * Λ ^ (a.badd b).d ∧
    n + (um a.e * u * Λ ^ a.d + um b.e * u * Λ ^ b.d) ≤ capR ∧
    um a.e * u * Λ ^ a.d + um b.e * u * Λ ^ b.d + u * (n + (um a.e * u * Λ ^ a.d + um b.e * u * Λ ^ b.d)) ≤ um (a.badd b).e * u * Λ ^ (a.badd b).d := by
  have hd : (a.badd b).d = max a.d b.d := rfl
  have hΛ0 : 0 < Λ := by linarith
  set W := Λ ^ (a.badd b).d with hW
  have hW0 : 0 < W := by positivity
  have wa : Λ ^ a.d ≤ W := zpow_mono_exp h1 (by rw [hd]; exact le_max_left _ _)
  have wb : Λ ^ b.d ≤ W := zpow_mono_exp h1 (by rw [hd]; exact le_max_right _ _)
  have m1 : um a.M * Λ ^ a.d ≤ um a.M * W := mul_le_mul_of_nonneg_left wa (um_nonneg _)
  have m2 : um b.M * Λ ^ b.d ≤ um b.M * W := mul_le_mul_of_nonneg_left wb (um_nonneg _)
  have g1 : um a.e * u * Λ ^ a.d ≤ um a.e * u * W := mul_le_mul_of_nonneg_left wa (mul_nonneg (um_nonneg _) hu0.le)
  have g2 : um b.e * u * Λ ^ b.d ≤ um b.e * u * W := mul_le_mul_of_nonneg_left wb (mul_nonneg (um_nonneg _) hu0.le)
  have ba := mul_le_mul_of_nonneg_right (a.B_le hu) hW0.le
  have bb := mul_le_mul_of_nonneg_right (b.B_le hu) hW0.le
  have tot : n + (um a.e * u * Λ ^ a.d + um b.e * u * Λ ^ b.d) ≤ (um a.B + um b.B) * W := by
    rw [add_mul] at ba bb ⊢; linarith
  refine ⟨?_, ?_, ?_⟩
  · show n ≤ um (a.M + b.M) * W
    rw [um_add, add_mul]; linarith
  · refine tot.trans ?_
    have hok := ok_M ha
    have hle : a.B + b.B ≤ 2 ^ 194 := by
      have : (a.badd b).e = a.e + b.e + a.B + b.B := rfl
      have h2 := hok.2
      rw [this] at h2
      have : (2:ℕ) ^ 124 ≤ 2 ^ 194 := Nat.pow_le_pow_right (by norm_num) (by norm_num)
      omega
    have h3 := ok_cap h1 hΛ ha _ hle
    rw [← um_add]
    have := cap706
    have := c706_pos
    linarith
  · show _ ≤ um (a.e + b.e + a.B + b.B) * u * W
    rw [um_add, um_add, um_add]
    have := mul_le_mul_of_nonneg_left tot hu0.le
    calc _ ≤ um a.e * u * W + um b.e * u * W + u * ((um a.B + um b.B) * W) := by linarith
      _ = _ := by ring

/-- the inequalities behind multiplication -/
theorem mul_box (hφ : FmtB φ) (h1 : 1 ≤ Λ) (hΛ : Λ ≤ 2 ^ l) (hl : l ≤ 320) (c : ℕ) {C : ℝ} (hC0 : 1 ≤ C) (hC : C ≤ c) {a b : Bx} (ha : (a.bmul c b).ok l = true) {r s t : ℝ}
    (hr0 : 0 ≤ r) (hs0 : 0 ≤ s) (hr : r ≤ um a.M * Λ ^ a.d) (hs : s ≤ um b.M * Λ ^ b.d) (ht : t ≤ 3 * tauR) :
    r * s ≤ um (a.bmul c b).M * Λ ^ (a.bmul c b).d ∧
    4 * ((r + um a.e * uR φ * Λ ^ a.d) * (s + um b.e * uR φ * Λ ^ b.d)) + 4 ≤ capR ∧
    um a.e * uR φ * Λ ^ a.d * s + um b.e * uR φ * Λ ^ b.d * r + um a.e * uR φ * Λ ^ a.d * (um b.e * uR φ * Λ ^ b.d)
      + C * uR φ * ((r + um a.e * uR φ * Λ ^ a.d) * (s + um b.e * uR φ * Λ ^ b.d)) + t ≤ um (a.bmul c b).e * uR φ * Λ ^ (a.bmul c b).d := by
  have hd : (a.bmul c b).d = max (a.d + b.d) (-2) := rfl
  have hΛ0 : 0 < Λ := by linarith
  have hu0 := uR_pos (φ := φ)
  have hu := hφ.u_le
  have hτ := tau_unit hφ h1 hΛ hl (ok_d ha)
  have hok := ok_M ha
  generalize uR φ = u at *
  set W := Λ ^ (a.bmul c b).d with hW
  set A := Λ ^ a.d with hA
  set B := Λ ^ b.d with hB
  have hA0 : 0 < A := by positivity
  have hB0 : 0 < B := by positivity
  have hW0 : 0 < W := by positivity
  have hAB : A * B ≤ W := by
    rw [hA, hB, ← zpow_add₀ hΛ0.ne']; exact zpow_mono_exp h1 (by rw [hd]; exact le_max_left _ _)
  have na := um_nonneg a.M
  have nb := um_nonneg b.M
  have ea := um_nonneg a.e
  have eb := um_nonneg b.e
  have p0 : r * s ≤ um a.M * um b.M * (A * B) := by
    calc r * s ≤ (um a.M * A) * (um b.M * B) := mul_le_mul hr hs hs0 (by positivity)
      _ = _ := by ring
  have fa : r + um a.e * u * A ≤ um a.B * A := by
    have := mul_le_mul_of_nonneg_right (a.B_le hu) hA0.le
    rw [add_mul] at this; linarith
  have fb : s + um b.e * u * B ≤ um b.B * B := by
    have := mul_le_mul_of_nonneg_right (b.B_le hu) hB0.le
    rw [add_mul] at this; linarith
  have hBa := um_nonneg a.B
  have hBb := um_nonneg b.B
  have p1 : (r + um a.e * u * A) * (s + um b.e * u * B) ≤ um a.B * um b.B * (A * B) := by
    calc _ ≤ (um a.B * A) * (um b.B * B) := mul_le_mul fa fb (by positivity) (by positivity)
      _ = _ := by ring
  have p1W : um a.B * um b.B * (A * B) ≤ um a.B * um b.B * W := mul_le_mul_of_nonneg_left hAB (by positivity)
  have hc1 : (1:ℝ) ≤ c := hC0.trans hC
  have hcn : 1 ≤ c := by exact_mod_cast hc1
  have key : um a.e * um b.M + um b.e * um a.M + um a.e * um b.e * u + c * (um a.B * um b.B) + um 1 ≤ um (a.bmul c b).e := by
    have k1 := div_le_succ (a.e * b.M + b.e * a.M + (a.e * b.e / 2 ^ 50 + 1) + c * (a.B * b.B)) (2 ^ 128) (by norm_num)
    have k2 := div_le_succ (a.e * b.e) (2 ^ 50) (by norm_num)
    have k3 : um a.e * um b.e * u ≤ um a.e * um b.e * (1 / 2 ^ 50) := mul_le_mul_of_nonneg_left (hu.trans (by norm_num)) (by positivity)
    refine le_trans (add_le_add (add_le_add (add_le_add le_rfl k3) le_rfl) le_rfl) ?_
    show _ ≤ um ((a.e * b.M + b.e * a.M + (a.e * b.e / 2 ^ 50 + 1) + c * (a.B * b.B)) / 2 ^ 128 + 2)
    rw [show (2:ℕ) = 1 + 1 from rfl, ← Nat.add_assoc, um_add]
    refine add_le_add ?_ le_rfl
    unfold um
    generalize a.B = P at *
    generalize b.B = Q at *
    simp only [Nat.cast_mul, Nat.cast_pow, Nat.cast_ofNat, Nat.cast_add, Nat.cast_one] at k1 k2 ⊢
    generalize (((a.e * b.M + b.e * a.M + (a.e * b.e / 2 ^ 50 + 1) + c * (P * Q)) / 2 ^ 128 : ℕ) : ℝ) = X at *
    generalize ((a.e * b.e / 2 ^ 50 : ℕ) : ℝ) = Y at *
    rw [le_div_iff₀ (by positivity)]
    refine le_trans ?_ k1
    rw [le_div_iff₀ (by positivity)]
    calc _ = (a.e:ℝ) * b.M + b.e * a.M + a.e * b.e / 2 ^ 50 + c * (P * Q) := by field_simp
      _ ≤ _ := by linarith
  have hBB : a.B * b.B ≤ 2 ^ 317 := by
    have h2 := hok.2
    have e1 : (a.bmul c b).e = (a.e * b.M + b.e * a.M + (a.e * b.e / 2 ^ 50 + 1) + c * (a.B * b.B)) / 2 ^ 128 + 2 := rfl
    rw [e1] at h2
    have h3 : (a.e * b.M + b.e * a.M + (a.e * b.e / 2 ^ 50 + 1) + c * (a.B * b.B)) / 2 ^ 128 < 2 ^ 188 := lt_of_le_of_lt (Nat.le_add_right _ 2) h2
    rw [Nat.div_lt_iff_lt_mul (by positivity)] at h3
    have h4 : a.B * b.B ≤ c * (a.B * b.B) := Nat.le_mul_of_pos_left _ hcn
    have h5 : (2:ℕ) ^ 188 * 2 ^ 128 ≤ 2 ^ 317 := by
      rw [← pow_add]; exact Nat.pow_le_pow_right (by norm_num) (by norm_num)
    exact h4.trans ((Nat.le_add_left _ _).trans (h3.le.trans h5))
  refine ⟨?_, ?_, ?_⟩
  · refine p0.trans ?_
    calc um a.M * um b.M * (A * B) ≤ um a.M * um b.M * W := mul_le_mul_of_nonneg_left hAB (by positivity)
      _ ≤ _ := mul_le_mul_of_nonneg_right (um_mul _ _) hW0.le
  · have h3 := ok_cap h1 hΛ ha (2 ^ 189) (Nat.pow_le_pow_right (by norm_num) (by norm_num))
    have h4 : um a.B * um b.B ≤ um (2 ^ 189) := by
      unfold um
      rw [div_mul_div_comm, div_le_div_iff₀ (by positivity) (by positivity)]
      have : (a.B:ℝ) * b.B ≤ 2 ^ 317 := by exact_mod_cast hBB
      rw [Nat.cast_pow, Nat.cast_ofNat]
      calc (a.B:ℝ) * b.B * 2 ^ 128 ≤ 2 ^ 317 * 2 ^ 128 := mul_le_mul_of_nonneg_right this (by positivity)
        _ ≤ 2 ^ 189 * (2 ^ 128 * 2 ^ 128) := by rw [← pow_add, ← pow_add, ← pow_add]
    have h5 : um a.B * um b.B * W ≤ um (2 ^ 189) * W := mul_le_mul_of_nonneg_right h4 hW0.le
    have := cap706
    have := c706_pos
    linarith
  · have t1 : um a.e * u * A * s ≤ um a.e * um b.M * u * W := by
      calc _ ≤ um a.e * u * A * (um b.M * B) := mul_le_mul_of_nonneg_left hs (by positivity)
        _ = um a.e * um b.M * u * (A * B) := by ring
        _ ≤ _ := mul_le_mul_of_nonneg_left hAB (by positivity)
    have t2 : um b.e * u * B * r ≤ um b.e * um a.M * u * W := by
      calc _ ≤ um b.e * u * B * (um a.M * A) := mul_le_mul_of_nonneg_left hr (by positivity)
        _ = um b.e * um a.M * u * (A * B) := by ring
        _ ≤ _ := mul_le_mul_of_nonneg_left hAB (by positivity)
    have t3 : um a.e * u * A * (um b.e * u * B) ≤ um a.e * um b.e * u * u * W := by
      calc _ = um a.e * um b.e * u * u * (A * B) := by ring
        _ ≤ _ := mul_le_mul_of_nonneg_left hAB (by positivity)
    have t4 : C * u * ((r + um a.e * u * A) * (s + um b.e * u * B)) ≤ c * (um a.B * um b.B) * u * W := by
      calc _ ≤ C * u * (um a.B * um b.B * W) := mul_le_mul_of_nonneg_left (p1.trans p1W) (by positivity)
        _ ≤ c * u * (um a.B * um b.B * W) := by gcongr
        _ = _ := by ring
    have t5 := mul_le_mul_of_nonneg_right (mul_le_mul_of_nonneg_right key hu0.le) hW0.le
    calc _ ≤ um a.e * um b.M * u * W + um b.e * um a.M * u * W + um a.e * um b.e * u * u * W + c * (um a.B * um b.B) * u * W + um 1 * u * W := by linarith
      _ = (um a.e * um b.M + um b.e * um a.M + um a.e * um b.e * u + c * (um a.B * um b.B) + um 1) * u * W := by ring
      _ ≤ _ := t5

/-- the inequalities behind division by an integer -/
theorem div_box (hφ : FmtB φ) (h1 : 1 ≤ Λ) (hΛ : Λ ≤ 2 ^ l) (hl : l ≤ 320) {n : ℕ} (hn : 1 ≤ n) {a : Bx} (ha0 : a.ok l = true) (ha : (a.bdiv n).ok l = true) {r t : ℝ}
    (hr : r ≤ um a.M * Λ ^ a.d) (ht : t ≤ 3 * tauR) :
    r / n ≤ um (a.bdiv n).M * Λ ^ (a.bdiv n).d ∧ r + um a.e * uR φ * Λ ^ a.d ≤ capR ∧
    um a.e * uR φ * Λ ^ a.d / n + uR φ * ((r + um a.e * uR φ * Λ ^ a.d) / n) + t ≤ um (a.bdiv n).e * uR φ * Λ ^ (a.bdiv n).d := by
  have hd : (a.bdiv n).d = a.d := rfl
  have hΛ0 : 0 < Λ := by linarith
  have hu0 := uR_pos (φ := φ)
  have hu := hφ.u_le
  have hτ := tau_unit hφ h1 hΛ hl (ok_d ha)
  have hok := ok_M ha0
  generalize uR φ = u at *
  rw [hd] at hτ ⊢
  set W := Λ ^ a.d with hW
  have hW0 : 0 < W := by positivity
  have hn0 : (0:ℝ) < n := by exact_mod_cast hn
  have dv : ∀ x : ℕ, um x / n ≤ um (x / n + 1) := by
    intro x
    have := div_le_succ x n hn
    unfold um
    push_cast
    rw [div_right_comm]; gcongr
  have fb : r + um a.e * u * W ≤ um a.B * W := by
    have := mul_le_mul_of_nonneg_right (a.B_le hu) hW0.le
    rw [add_mul] at this; linarith
  refine ⟨?_, ?_, ?_⟩
  · calc r / n ≤ um a.M * W / n := by gcongr
      _ = um a.M / n * W := by ring
      _ ≤ _ := mul_le_mul_of_nonneg_right (dv _) hW0.le
  · have h3 := ok_cap h1 hΛ ha0 a.B (by
      have : a.e / 2 ^ 50 ≤ a.e := Nat.div_le_self _ _
      have : (2:ℕ) ^ 124 + 2 ^ 188 + 1 ≤ 2 ^ 194 := by norm_num
      unfold Bx.B; omega)
    have := cap706
    have := c706_pos
    linarith
  · have key : um a.e / n + um a.B / n + um 1 ≤ um ((a.e + a.B) / n + 2) := by
      have := dv (a.e + a.B)
      rw [um_add] at this
      rw [show (2:ℕ) = 1 + 1 from rfl, ← Nat.add_assoc, um_add, ← add_div]
      linarith
    have t5 := mul_le_mul_of_nonneg_right (mul_le_mul_of_nonneg_right key hu0.le) hW0.le
    have t4 : u * ((r + um a.e * u * W) / n) ≤ u * (um a.B * W / n) := by gcongr
    show _ ≤ um ((a.e + a.B) / n + 2) * u * W
    calc _ ≤ um a.e * u * W / n + u * (um a.B * W / n) + um 1 * u * W := by linarith
      _ = (um a.e / n + um a.B / n + um 1) * u * W := by ring
      _ ≤ _ := t5

/-! ## real operations -/

section
variable {x y : FV} {r s e f : ℝ}

theorem Near.addB (hφ : FmtB φ) (h : Near φ x r e) (h' : Near φ y s f) (hM : |r + s| + (e + f) ≤ capR) :
    Near φ (x.add φ y) (r + s) (e + f + uR φ * (|r + s| + (e + f))) := by
  obtain ⟨q, h1, h2⟩ := h
  obtain ⟨t, k1, k2⟩ := h'
  have hd : |(q + t : ℝ) - (r + s)| ≤ e + f := by
    have := abs_add_le ((q:ℝ) - r) (t - s)
    rw [show (q:ℝ) - r + (t - s) = q + t - (r + s) by ring] at this; linarith
  have hv : |(q + t : ℝ)| ≤ |r + s| + (e + f) := by
    have := abs_add_le ((q + t : ℝ) - (r + s)) (r + s); rw [sub_add_cancel] at this; linarith
  have hv' : |((q + t : ℚ) : ℝ)| ≤ capR := by push_cast; linarith
  refine ⟨_, h1.add k1 (rq_lt_maxB hφ hv'), ?_⟩
  have h3 := rq_add_errR h1.repr k1.repr
  have h4 : |(q + t : ℝ)| * uR φ ≤ (|r + s| + (e + f)) * uR φ := mul_le_mul_of_nonneg_right hv uR_pos.le
  have h5 := abs_sub_le ((rq φ (q + t) : ℚ) : ℝ) (q + t) (r + s)
  linarith

theorem Near.mulB (hφ : FmtB φ) (h : Near φ x r e) (h' : Near φ y s f) (hM : (|r| + e) * (|s| + f) ≤ capR) :
    Near φ (x.mul φ y) (r * s) (e * |s| + f * |r| + e * f + uR φ * ((|r| + e) * (|s| + f)) + tauR) := by
  have he := h.nonneg
  have hf := h'.nonneg
  obtain ⟨q, h1, h2⟩ := h
  obtain ⟨t, k1, k2⟩ := h'
  have hd : |(q * t : ℝ) - r * s| ≤ e * |s| + f * |r| + e * f := by
    have e0 : (q * t : ℝ) - r * s = (q - r) * s + (t - s) * r + (q - r) * (t - s) := by ring
    rw [e0]
    refine (abs_add_le _ _).trans (add_le_add ((abs_add_le _ _).trans (add_le_add ?_ ?_)) ?_) <;> rw [abs_mul] <;> gcongr
  have hq : |(q:ℝ)| ≤ |r| + e := by have := abs_add_le ((q:ℝ) - r) r; rw [sub_add_cancel] at this; linarith
  have ht : |(t:ℝ)| ≤ |s| + f := by have := abs_add_le ((t:ℝ) - s) s; rw [sub_add_cancel] at this; linarith
  have hv : |(q * t : ℝ)| ≤ (|r| + e) * (|s| + f) := by rw [abs_mul]; gcongr
  have hv' : |((q * t : ℚ) : ℝ)| ≤ capR := by push_cast; linarith
  refine ⟨_, h1.mul k1 (rq_lt_maxB hφ hv'), ?_⟩
  have h3 := rq_errT hφ (q * t)
  push_cast at h3
  have h4 : |(q * t : ℝ)| * uR φ ≤ ((|r| + e) * (|s| + f)) * uR φ := mul_le_mul_of_nonneg_right hv uR_pos.le
  have h5 := abs_sub_le ((rq φ (q * t) : ℚ) : ℝ) (q * t) (r * s)
  linarith

theorem Near.divB (hφ : FmtB φ) {c : ℚ} (h : Near φ x r e) (h' : Val φ y c) (hc : 1 ≤ (c:ℝ)) (hM : |r| + e ≤ capR) :
    Near φ (x.div φ y) (r / c) (e / c + uR φ * ((|r| + e) / c) + tauR) := by
  obtain ⟨q, h1, h2⟩ := h
  have hc0 : (0:ℝ) < c := by linarith
  have hcq : c ≠ 0 := by rintro rfl; norm_num at hc0
  have hq : |(q:ℝ)| ≤ |r| + e := by have := abs_add_le ((q:ℝ) - r) r; rw [sub_add_cancel] at this; linarith
  have hv : |((q / c : ℚ) : ℝ)| ≤ capR := by
    push_cast; rw [abs_div, abs_of_pos hc0]
    exact (div_le_self (abs_nonneg _) hc).trans (by linarith)
  refine ⟨_, h1.div h' hcq (rq_lt_maxB hφ hv), ?_⟩
  have h3 := rq_errT hφ (q / c)
  push_cast at h3
  rw [abs_div, abs_of_pos hc0] at h3
  have h4 : |(q:ℝ)| / c * uR φ ≤ (|r| + e) / c * uR φ := by have := uR_pos (φ := φ); gcongr
  have h5 := abs_sub_le ((rq φ (q / c) : ℚ) : ℝ) (q / c) (r / c)
  have h6 : |(q:ℝ) / c - r / c| ≤ e / c := by rw [← sub_div, abs_div, abs_of_pos hc0]; gcongr
  linarith
end

theorem isDiv_spec {q : ℚ} (h : isDiv q = true) : 1 ≤ q.num.toNat ∧ q = (q.num.toNat : ℚ) ∧ q.num.toNat < 2 ^ 24 := by
  simp only [isDiv, Bool.and_eq_true, decide_eq_true_eq, beq_iff_eq] at h
  obtain ⟨⟨h1, h2⟩, h3⟩ := h
  refine ⟨by omega, ?_, by omega⟩
  have e : ((q.num.toNat : ℕ) : ℤ) = q.num := by omega
  have : q = (q.num : ℚ) := by
    conv_lhs => rw [← Rat.num_div_den q, h1]
    simp
  rw [this]
  exact_mod_cast e.symm

theorem isDiv_val (hφ : FmtB φ) {q : ℚ} (h : isDiv q = true) : Val φ (rndQ φ q) ((q.num.toNat : ℕ) : ℚ) ∧ ((semF φ).rho q : ℝ) = (q.num.toNat : ℕ) := by
  obtain ⟨h1, h2, h3⟩ := isDiv_spec h
  set n := q.num.toNat
  constructor
  · rw [h2]
    exact near_dy hφ.a (n:ℤ) 0 (by rw [abs_of_nonneg (by positivity)]; exact_mod_cast h3) (by norm_num) (by simp)
  · rw [h2, (semF_lit hφ).nat n h3]; simp

theorem semF_zero (hφ : FmtB φ) : (semF φ).rho 0 = 0 := (semF_lit hφ).zero

theorem lit_holds (hφ : FmtB φ) {q : ℚ} (hq : isLit q = true) : Val φ (rndQ φ q) ((semF φ).rho q) ∧ |(((semF φ).rho q : ℚ) : ℝ)| ≤ um ⌈|q| * (2 ^ 128 + 2 ^ 78)⌉₊ := by
  have hu := hφ.u_le
  have hm : |(((semF φ).rho q : ℚ) : ℝ)| ≤ um ⌈|q| * (2 ^ 128 + 2 ^ 78)⌉₊ := by
    have h1 := (semF_lit hφ).rel q
    have h2 : |(((semF φ).rho q : ℚ) : ℝ)| ≤ |(q:ℝ)| + uR φ * |(q:ℝ)| := by
      have := abs_add_le ((((semF φ).rho q : ℚ) : ℝ) - q) q; rw [sub_add_cancel] at this; linarith
    have h3 : uR φ * |(q:ℝ)| ≤ 1 / 2 ^ 50 * |(q:ℝ)| := mul_le_mul_of_nonneg_right (hu.trans (by norm_num)) (abs_nonneg _)
    have h4 : ((|q| * (2 ^ 128 + 2 ^ 78) : ℚ) : ℝ) ≤ ((⌈|q| * (2 ^ 128 + 2 ^ 78)⌉₊ : ℕ) : ℝ) := by
      have := Nat.le_ceil (|q| * (2 ^ 128 + 2 ^ 78))
      exact_mod_cast this
    unfold um
    rw [le_div_iff₀ (by positivity)]
    refine le_trans ?_ h4
    push_cast
    calc |(((semF φ).rho q : ℚ) : ℝ)| * 2 ^ 128 ≤ (|(q:ℝ)| + 1 / 2 ^ 50 * |(q:ℝ)|) * 2 ^ 128 := by gcongr; linarith
      _ = _ := by ring
  refine ⟨?_, hm⟩
  simp only [isLit, Bool.or_eq_true, beq_iff_eq, Bool.and_eq_true, decide_eq_true_eq] at hq
  rcases hq with rfl | ⟨h1, h2⟩
  · rw [semF_zero hφ]
    have := val_rndQ (φ := φ) (q := 0) (by rw [rq_zero]; positivity)
    rwa [rq_zero] at this
  · have e : (semF φ).rho q = rq φ q := by
      show (if _ then _ else _) = _
      rw [if_pos]
      refine le_trans ?_ h1
      exact zpow_le_zpow_right₀ (by norm_num) (by have := hφ.hmin; have := hφ.hq; omega)
    rw [e]
    refine val_rndQ (rq_lt_maxB hφ ?_)
    have h3 : |(q:ℝ)| ≤ 2 ^ (50:ℤ) := by exact_mod_cast h2
    exact h3.trans (zpow_le_zpow_right₀ (by norm_num) (by norm_num))

theorem CXE.sound (hφ : FmtB φ) (h1 : 1 ≤ Λ) (hΛ : Λ ≤ 2 ^ l) (hl : l ≤ 320) {env : ℕ → Cx (FP φ L)} {envR : ℕ → Cx (R (semF φ))} {bx : ℕ → Bx}
    (henv : ∀ i, (bx i).ok l = true → CHolds Λ (env i) (envR i).toC (bx i)) : ∀ {b : Bool} (a : CXE b) {x : Bx}, a.chk l bx = some x →
      x.ok l = true ∧ EHolds Λ (a.ev env) (a.ev envR) x := by
  have hu0 := uR_pos (φ := φ)
  have hu := hφ.u_le
  have hτ := tauR_pos
  have hL0 : 0 < Λ := by linarith
  intro b a
  induction a with
  | lit q =>
    intro x hx
    simp only [CXE.chk] at hx
    split at hx
    case isFalse => exact absurd hx (by simp)
    case isTrue hq =>
      injection hx with hx
      obtain ⟨hv, hm⟩ := lit_holds hφ hq
      subst hx
      refine ⟨?_, ?_, ?_⟩
      · simp only [Bx.ok, Bool.and_eq_true, decide_eq_true_eq]
        refine ⟨⟨⟨?_, by norm_num⟩, by simp⟩, by norm_num⟩
        have hq2 : |q| ≤ 2 ^ 50 := by
          simp only [isLit, Bool.or_eq_true, beq_iff_eq, Bool.and_eq_true, decide_eq_true_eq] at hq
          rcases hq with rfl | ⟨_, h2⟩
          · norm_num
          · exact h2
        have : ⌈|q| * (2 ^ 128 + 2 ^ 78)⌉₊ ≤ 2 ^ 187 := by
          rw [Nat.ceil_le]
          calc |q| * (2 ^ 128 + 2 ^ 78) ≤ 2 ^ 50 * (2 ^ 128 + 2 ^ 78) := by gcongr
            _ ≤ _ := by norm_num
        exact lt_of_le_of_lt this (Nat.pow_lt_pow_right (by norm_num) (by norm_num))
      · show |(((semF φ).rho q : ℚ) : ℝ)| ≤ _
        simpa using hm
      · refine ⟨_, hv, ?_⟩
        show |(((semF φ).rho q : ℚ) : ℝ) - ((semF φ).rho q : ℚ)| ≤ _
        rw [sub_self, abs_zero]
        simp [um]
  | var i =>
    intro x hx
    obtain ⟨ho, rfl⟩ := guard_some hx
    exact ⟨ho, henv i ho⟩
  | re a ih =>
    intro x hx
    obtain ⟨ho, h2, h3⟩ := ih hx
    exact ⟨ho, (Complex.abs_re_le_norm _).trans h2, h3.re⟩
  | im a ih =>
    intro x hx
    obtain ⟨ho, h2, h3⟩ := ih hx
    exact ⟨ho, (Complex.abs_im_le_norm _).trans h2, h3.im⟩
  | mk a b iha ihb =>
    intro x hx
    simp only [CXE.chk, Option.bind_eq_bind, Option.bind_eq_some_iff] at hx
    obtain ⟨p, hp, q, hq, hx⟩ := hx
    obtain ⟨ho, rfl⟩ := guard_some hx
    obtain ⟨o1, a1, a2⟩ := iha hp
    obtain ⟨o2, b1, b2⟩ := ihb hq
    refine ⟨ho, ?_, ?_⟩
    · have wa : Λ ^ p.d ≤ Λ ^ max p.d q.d := zpow_mono_exp h1 (le_max_left _ _)
      have wb : Λ ^ q.d ≤ Λ ^ max p.d q.d := zpow_mono_exp h1 (le_max_right _ _)
      show ‖(⟨ofR (a.ev envR : R (semF φ)), ofR (b.ev envR : R (semF φ))⟩ : ℂ)‖ ≤ um (p.M + q.M) * Λ ^ max p.d q.d
      rw [um_add, add_mul]
      refine (Complex.norm_le_abs_re_add_abs_im _).trans (add_le_add ?_ ?_)
      · exact a1.trans (mul_le_mul_of_nonneg_left wa (um_nonneg _))
      · exact b1.trans (mul_le_mul_of_nonneg_left wb (um_nonneg _))
    · have wa : Λ ^ p.d ≤ Λ ^ max p.d q.d := zpow_mono_exp h1 (le_max_left _ _)
      have wb : Λ ^ q.d ≤ Λ ^ max p.d q.d := zpow_mono_exp h1 (le_max_right _ _)
      refine (CNear.of_re_im (z := (⟨(a.ev env : FP φ L), (b.ev env : FP φ L)⟩ : Cx (FP φ L))) a2 b2).mono ?_
      show _ ≤ um (p.e + q.e) * uR φ * Λ ^ max p.d q.d
      rw [um_add, add_mul, add_mul]
      have := um_nonneg p.e
      have := um_nonneg q.e
      gcongr
  | rneg a ih =>
    intro x hx
    obtain ⟨ho, h2, h3⟩ := ih hx
    refine ⟨ho, ?_, h3.neg⟩
    show |-ofR (a.ev envR : R (semF φ))| ≤ _
    rw [abs_neg]; exact h2
  | neg a ih =>
    intro x hx
    obtain ⟨ho, h2, h3⟩ := ih hx
    refine ⟨ho, ?_, h3.neg⟩
    show ‖-(a.ev envR : Cx (R (semF φ))).toC‖ ≤ _
    rw [norm_neg]; exact h2
  | radd a b iha ihb =>
    intro x hx
    simp only [CXE.chk, Option.bind_eq_bind, Option.bind_eq_some_iff] at hx
    obtain ⟨p, hp, q, hq, hx⟩ := hx
    obtain ⟨ho, rfl⟩ := guard_some hx
    obtain ⟨o1, a1, a2⟩ := iha hp
    obtain ⟨o2, b1, b2⟩ := ihb hq
    obtain ⟨k1, k2, k3⟩ := add_box h1 hΛ hu0 hu ho (abs_add_le _ _) a1 b1
    exact ⟨ho, k1, (Near.addB hφ a2 b2 k2).mono k3⟩
  | rsub a b iha ihb =>
    intro x hx
    simp only [CXE.chk, Option.bind_eq_bind, Option.bind_eq_some_iff] at hx
    obtain ⟨p, hp, q, hq, hx⟩ := hx
    obtain ⟨ho, rfl⟩ := guard_some hx
    obtain ⟨o1, a1, a2⟩ := iha hp
    obtain ⟨o2, b1, b2⟩ := ihb hq
    rw [← abs_neg] at b1
    obtain ⟨k1, k2, k3⟩ := add_box h1 hΛ hu0 hu ho (abs_add_le _ _) a1 b1
    have := (Near.addB hφ a2 b2.neg k2).mono k3
    rw [← sub_eq_add_neg] at this k1
    exact ⟨ho, k1, this⟩
  | rmul a b iha ihb =>
    intro x hx
    simp only [CXE.chk, Option.bind_eq_bind, Option.bind_eq_some_iff] at hx
    obtain ⟨p, hp, q, hq, hx⟩ := hx
    obtain ⟨ho, rfl⟩ := guard_some hx
    obtain ⟨o1, a1, a2⟩ := iha hp
    obtain ⟨o2, b1, b2⟩ := ihb hq
    obtain ⟨k1, k2, k3⟩ := mul_box hφ h1 hΛ hl 1 (C := 1) le_rfl (by norm_num) ho (abs_nonneg _) (abs_nonneg _) a1 b1 (t := tauR) (by linarith)
    rw [← abs_mul] at k1
    have hge : 0 ≤ (|ofR (a.ev envR : R (semF φ))| + um p.e * uR φ * Λ ^ p.d) * (|ofR (b.ev envR : R (semF φ))| + um q.e * uR φ * Λ ^ q.d) := by
      have := a2.nonneg; have := b2.nonneg; positivity
    refine ⟨ho, k1, (Near.mulB hφ a2 b2 (by linarith)).mono ?_⟩
    rw [one_mul] at k3
    exact k3
  | rdiv a q ih =>
    intro x hx
    simp only [CXE.chk, Option.bind_eq_bind, Option.bind_eq_some_iff] at hx
    obtain ⟨p, hp, hx⟩ := hx
    split at hx
    case isFalse => exact absurd hx (by simp)
    case isTrue hq =>
      obtain ⟨ho, rfl⟩ := guard_some hx
      obtain ⟨o1, a1, a2⟩ := ih hp
      obtain ⟨v1, v2⟩ := isDiv_val hφ hq
      have hn := (isDiv_spec hq).1
      have hn1 : (1:ℝ) ≤ ((q.num.toNat : ℕ) : ℝ) := by exact_mod_cast hn
      obtain ⟨k1, k2, k3⟩ := div_box hφ h1 hΛ hl hn o1 ho a1 (t := tauR) (by linarith)
      have e : ofR ((CXE.rdiv a q).ev envR : R (semF φ)) = ofR (a.ev envR : R (semF φ)) / ((q.num.toNat : ℕ) : ℝ) := by
        show ofR ((a.ev envR : R (semF φ)) /. (FOps.lit q : R (semF φ))) = _
        rw [ofR_div (by rw [ofR_lit, v2]; linarith), ofR_lit, v2]
      refine ⟨ho, ?_, ?_⟩
      · rw [e, abs_div, abs_of_pos (by linarith : (0:ℝ) < ((q.num.toNat : ℕ) : ℝ))]; exact k1
      · rw [e]
        have := Near.divB hφ a2 v1 (by push_cast; exact hn1) k2
        push_cast at this
        exact this.mono k3
  | add a b iha ihb =>
    intro x hx
    simp only [CXE.chk, Option.bind_eq_bind, Option.bind_eq_some_iff] at hx
    obtain ⟨p, hp, q, hq, hx⟩ := hx
    obtain ⟨ho, rfl⟩ := guard_some hx
    obtain ⟨o1, a1, a2⟩ := iha hp
    obtain ⟨o2, b1, b2⟩ := ihb hq
    obtain ⟨k1, k2, k3⟩ := add_box h1 hΛ hu0 hu ho (norm_add_le _ _) a1 b1
    exact ⟨ho, k1, (CNear.add hφ a2 b2 k2).mono k3⟩
  | sub a b iha ihb =>
    intro x hx
    simp only [CXE.chk, Option.bind_eq_bind, Option.bind_eq_some_iff] at hx
    obtain ⟨p, hp, q, hq, hx⟩ := hx
    obtain ⟨ho, rfl⟩ := guard_some hx
    obtain ⟨o1, a1, a2⟩ := iha hp
    obtain ⟨o2, b1, b2⟩ := ihb hq
    obtain ⟨k1, k2, k3⟩ := add_box h1 hΛ hu0 hu ho (norm_sub_le _ _) a1 b1
    exact ⟨ho, k1, (CNear.sub hφ a2 b2 k2).mono k3⟩
  | mul a b iha ihb =>
    intro x hx
    simp only [CXE.chk, Option.bind_eq_bind, Option.bind_eq_some_iff] at hx
    obtain ⟨p, hp, q, hq, hx⟩ := hx
    obtain ⟨ho, rfl⟩ := guard_some hx
    obtain ⟨o1, a1, a2⟩ := iha hp
    obtain ⟨o2, b1, b2⟩ := ihb hq
    obtain ⟨k1, k2, k3⟩ := mul_box hφ h1 hΛ hl 3 (C := 2.42) (by norm_num) (by norm_num) ho (norm_nonneg _) (norm_nonneg _) a1 b1 (t := 3 * tauR) le_rfl
    rw [← norm_mul] at k1
    refine ⟨ho, ?_, ?_⟩
    · show ‖((a.ev envR : Cx (R (semF φ))) *. (b.ev envR : Cx (R (semF φ)))).toC‖ ≤ _
      rw [toC_mul]; exact k1
    · show CNear _ ((a.ev envR : Cx (R (semF φ))) *. (b.ev envR : Cx (R (semF φ)))).toC _
      rw [toC_mul]; exact (CNear.mul hφ a2 b2 k2).mono k3
  | addr a b iha ihb =>
    intro x hx
    simp only [CXE.chk, Option.bind_eq_bind, Option.bind_eq_some_iff] at hx
    obtain ⟨p, hp, q, hq, hx⟩ := hx
    obtain ⟨ho, rfl⟩ := guard_some hx
    obtain ⟨o1, a1, a2⟩ := iha hp
    obtain ⟨o2, b1, b2⟩ := ihb hq
    have hn : ‖((ofR (b.ev envR : R (semF φ)) : ℝ) : ℂ) + (a.ev envR : Cx (R (semF φ))).toC‖ ≤ ‖(a.ev envR : Cx (R (semF φ))).toC‖ + |ofR (b.ev envR : R (semF φ))| := by
      refine (norm_add_le _ _).trans ?_
      rw [Complex.norm_real, Real.norm_eq_abs, add_comm]
    obtain ⟨k1, k2, k3⟩ := add_box h1 hΛ hu0 hu ho hn a1 b1
    have e : ((CXE.addr a b).ev envR : Cx (R (semF φ))).toC = ((ofR (b.ev envR : R (semF φ)) : ℝ) : ℂ) + (a.ev envR : Cx (R (semF φ))).toC := by
      show ((a.ev envR : Cx (R (semF φ))) +. (b.ev envR : R (semF φ))).toC = _
      rw [toC_addr, add_comm]
    refine ⟨ho, ?_, ?_⟩
    · rw [← e] at k1; exact k1
    · have := ((CNear.radd hφ a2 b2 k2).2).mono k3
      rw [← e] at this; exact this
  | addl a b iha ihb =>
    intro x hx
    simp only [CXE.chk, Option.bind_eq_bind, Option.bind_eq_some_iff] at hx
    obtain ⟨p, hp, q, hq, hx⟩ := hx
    obtain ⟨ho, rfl⟩ := guard_some hx
    obtain ⟨o1, a1, a2⟩ := iha hp
    obtain ⟨o2, b1, b2⟩ := ihb hq
    have hn : ‖((ofR (a.ev envR : R (semF φ)) : ℝ) : ℂ) + (b.ev envR : Cx (R (semF φ))).toC‖ ≤ |ofR (a.ev envR : R (semF φ))| + ‖(b.ev envR : Cx (R (semF φ))).toC‖ := by
      refine (norm_add_le _ _).trans ?_
      rw [Complex.norm_real, Real.norm_eq_abs]
    obtain ⟨k1, k2, k3⟩ := add_box h1 hΛ hu0 hu ho hn a1 b1
    have e : ((CXE.addl a b).ev envR : Cx (R (semF φ))).toC = ((ofR (a.ev envR : R (semF φ)) : ℝ) : ℂ) + (b.ev envR : Cx (R (semF φ))).toC := by
      show ((a.ev envR : R (semF φ)) +. (b.ev envR : Cx (R (semF φ)))).toC = _
      rw [toC_radd]
    refine ⟨ho, ?_, ?_⟩
    · rw [← e] at k1; exact k1
    · have := ((CNear.radd hφ b2 a2 (by rw [add_comm (um q.e * uR φ * Λ ^ q.d)]; exact k2)).1).mono (f := um (p.badd q).e * uR φ * Λ ^ (p.badd q).d) (by rw [add_comm (um q.e * uR φ * Λ ^ q.d)]; exact k3)
      rw [← e] at this; exact this
  | subl a b iha ihb =>
    intro x hx
    simp only [CXE.chk, Option.bind_eq_bind, Option.bind_eq_some_iff] at hx
    obtain ⟨p, hp, q, hq, hx⟩ := hx
    obtain ⟨ho, rfl⟩ := guard_some hx
    obtain ⟨o1, a1, a2⟩ := iha hp
    obtain ⟨o2, b1, b2⟩ := ihb hq
    have hn : ‖((ofR (a.ev envR : R (semF φ)) : ℝ) : ℂ) - (b.ev envR : Cx (R (semF φ))).toC‖ ≤ |ofR (a.ev envR : R (semF φ))| + ‖(b.ev envR : Cx (R (semF φ))).toC‖ := by
      refine (norm_sub_le _ _).trans ?_
      rw [Complex.norm_real, Real.norm_eq_abs]
    obtain ⟨k1, k2, k3⟩ := add_box h1 hΛ hu0 hu ho hn a1 b1
    have e : ((CXE.subl a b).ev envR : Cx (R (semF φ))).toC = ((ofR (a.ev envR : R (semF φ)) : ℝ) : ℂ) - (b.ev envR : Cx (R (semF φ))).toC := by
      show ((a.ev envR : R (semF φ)) -. (b.ev envR : Cx (R (semF φ)))).toC = _
      rw [toC_rsub]
    refine ⟨ho, ?_, ?_⟩
    · rw [← e] at k1; exact k1
    · have := (CNear.rsub hφ b2 a2 (by rw [add_comm (um q.e * uR φ * Λ ^ q.d)]; exact k2)).mono (f := um (p.badd q).e * uR φ * Λ ^ (p.badd q).d) (by rw [add_comm (um q.e * uR φ * Λ ^ q.d)]; exact k3)
      rw [← e] at this; exact this
  | mulr a b iha ihb =>
    intro x hx
    simp only [CXE.chk, Option.bind_eq_bind, Option.bind_eq_some_iff] at hx
    obtain ⟨p, hp, q, hq, hx⟩ := hx
    obtain ⟨ho, rfl⟩ := guard_some hx
    obtain ⟨o1, a1, a2⟩ := iha hp
    obtain ⟨o2, b1, b2⟩ := ihb hq
    obtain ⟨k1, k2, k3⟩ := mul_box hφ h1 hΛ hl 1 (C := 1) le_rfl (by norm_num) ho (norm_nonneg _) (abs_nonneg _) a1 b1 (t := 2 * tauR) (by linarith)
    have hge : 0 ≤ (‖(a.ev envR : Cx (R (semF φ))).toC‖ + um p.e * uR φ * Λ ^ p.d) * (|ofR (b.ev envR : R (semF φ))| + um q.e * uR φ * Λ ^ q.d) := by
      have := a2.nonneg; have := b2.nonneg; positivity
    have e : ((CXE.mulr a b).ev envR : Cx (R (semF φ))).toC = ((ofR (b.ev envR : R (semF φ)) : ℝ) : ℂ) * (a.ev envR : Cx (R (semF φ))).toC := by
      show ((a.ev envR : Cx (R (semF φ))) *. (b.ev envR : R (semF φ))).toC = _
      rw [toC_mulr, mul_comm]
    refine ⟨ho, ?_, ?_⟩
    · have e2 : ‖((CXE.mulr a b).ev envR : Cx (R (semF φ))).toC‖ = ‖(a.ev envR : Cx (R (semF φ))).toC‖ * |ofR (b.ev envR : R (semF φ))| := by
        rw [e, norm_mul, Complex.norm_real, Real.norm_eq_abs, mul_comm]
      rw [← e2] at k1; exact k1
    · have := ((CNear.rmul hφ a2 b2 (by linarith)).2).mono (f := um (p.bmul 1 q).e * uR φ * Λ ^ (p.bmul 1 q).d) (by rw [one_mul] at k3; exact k3)
      rw [← e] at this; exact this
  | mull a b iha ihb =>
    intro x hx
    simp only [CXE.chk, Option.bind_eq_bind, Option.bind_eq_some_iff] at hx
    obtain ⟨p, hp, q, hq, hx⟩ := hx
    obtain ⟨ho, rfl⟩ := guard_some hx
    obtain ⟨o1, a1, a2⟩ := iha hp
    obtain ⟨o2, b1, b2⟩ := ihb hq
    obtain ⟨k1, k2, k3⟩ := mul_box hφ h1 hΛ hl 1 (C := 1) le_rfl (by norm_num) ho (abs_nonneg _) (norm_nonneg _) a1 b1 (t := 2 * tauR) (by linarith)
    have hge : 0 ≤ (|ofR (a.ev envR : R (semF φ))| + um p.e * uR φ * Λ ^ p.d) * (‖(b.ev envR : Cx (R (semF φ))).toC‖ + um q.e * uR φ * Λ ^ q.d) := by
      have := a2.nonneg; have := b2.nonneg; positivity
    have e : ((CXE.mull a b).ev envR : Cx (R (semF φ))).toC = ((ofR (a.ev envR : R (semF φ)) : ℝ) : ℂ) * (b.ev envR : Cx (R (semF φ))).toC := by
      show ((a.ev envR : R (semF φ)) *. (b.ev envR : Cx (R (semF φ)))).toC = _
      rw [toC_rmul]
    refine ⟨ho, ?_, ?_⟩
    · have e2 : ‖((CXE.mull a b).ev envR : Cx (R (semF φ))).toC‖ = |ofR (a.ev envR : R (semF φ))| * ‖(b.ev envR : Cx (R (semF φ))).toC‖ := by
        rw [e, norm_mul, Complex.norm_real, Real.norm_eq_abs]
      rw [← e2] at k1; exact k1
    · have := ((CNear.rmul hφ b2 a2 (by rw [mul_comm]; linarith)).1).mono (f := um (p.bmul 1 q).e * uR φ * Λ ^ (p.bmul 1 q).d) (by
        rw [one_mul] at k3
        refine le_trans (le_of_eq ?_) k3
        ring)
      rw [← e] at this; exact this
  | div a q ih =>
    intro x hx
    simp only [CXE.chk, Option.bind_eq_bind, Option.bind_eq_some_iff] at hx
    obtain ⟨p, hp, hx⟩ := hx
    split at hx
    case isFalse => exact absurd hx (by simp)
    case isTrue hq =>
      obtain ⟨ho, rfl⟩ := guard_some hx
      obtain ⟨o1, a1, a2⟩ := ih hp
      obtain ⟨v1, v2⟩ := isDiv_val hφ hq
      have hn := (isDiv_spec hq).1
      have hn1 : (1:ℝ) ≤ ((q.num.toNat : ℕ) : ℝ) := by exact_mod_cast hn
      obtain ⟨k1, k2, k3⟩ := div_box hφ h1 hΛ hl hn o1 ho a1 (t := 2 * tauR) (by linarith)
      have e : ((CXE.div a q).ev envR : Cx (R (semF φ))).toC = (a.ev envR : Cx (R (semF φ))).toC / (((q.num.toNat : ℕ) : ℚ) : ℂ) := by
        show ((a.ev envR : Cx (R (semF φ))) /. (FOps.lit q : R (semF φ))).toC = _
        rw [toC_divr (by rw [ofR_lit, v2]; linarith), ofR_lit, v2]; push_cast; rfl
      refine ⟨ho, ?_, ?_⟩
      · have e2 : ‖((CXE.div a q).ev envR : Cx (R (semF φ))).toC‖ = ‖(a.ev envR : Cx (R (semF φ))).toC‖ / ((q.num.toNat : ℕ) : ℝ) := by
          rw [e, norm_div, Rat.cast_natCast, Complex.norm_natCast]
        rw [← e2] at k1; exact k1
      · have := CNear.divr hφ (x := (FOps.lit q : FP φ L)) a2 v1 (by push_cast; exact hn1) k2
        rw [Rat.cast_natCast (α := ℝ)] at this
        have := this.mono k3
        rw [← e] at this; exact this
end
end Polylog
