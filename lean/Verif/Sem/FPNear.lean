import Verif.Sem.FPExpr
import Verif.Sem.FPAbsorb
import Mathlib.Analysis.SpecialFunctions.Log.Basic
import Mathlib.Tactic.Bound

/-!
# Error propagation through rounded operations

`Near φ x r e`: the datum `x` is finite and within `e` of the real number `r`.  Each operation adds the propagated
errors and the relative rounding error `uR φ = 2^-p` (and `uR^2` for a possible underflow).
-/

namespace Polylog

/-- unit roundoff -/
noncomputable def uR (φ : Fmt) : ℝ := 2 ^ (-(φ.p : ℤ))

/-- the formats considered: binary32, binary64, x87 extended, binary128 -/
structure FmtA (φ : Fmt) : Prop where
  hp : 24 ≤ φ.p
  hmin : φ.emin ≤ -2 * φ.p
  hmax : 102 ≤ φ.emax
  hpm : (φ.p : ℤ) + 4 ≤ φ.emax
  hbig : φ.emax * 2 ^ 16 ≤ 2 ^ φ.p
  hrange : φ.emax ≤ 2 ^ 14 ∧ -2 ^ 15 ≤ φ.emin

theorem fmtA32 : FmtA binary32 := ⟨by decide, by decide, by decide, by decide, by decide, by decide⟩
theorem fmtA64 : FmtA binary64 := ⟨by decide, by decide, by decide, by decide, by decide, by decide⟩
theorem fmtA80 : FmtA x87ext := ⟨by decide, by decide, by decide, by decide, by decide, by decide⟩
theorem fmtA128 : FmtA binary128 := ⟨by decide, by decide, by decide, by decide, by decide, by decide⟩

def Near (φ : Fmt) (x : FV) (r e : ℝ) : Prop := ∃ q : ℚ, Val φ x q ∧ |(q : ℝ) - r| ≤ e

variable {φ : Fmt} {x y : FV} {r s e f : ℝ}

theorem uR_pos : 0 < uR φ := by unfold uR; positivity
theorem FmtA.u_le (h : FmtA φ) : uR φ ≤ 1 / 2 ^ 24 := by
  unfold uR
  have : (2:ℝ) ^ (-(φ.p:ℤ)) ≤ 2 ^ (-24 : ℤ) := zpow_le_zpow_right₀ (by norm_num) (by have := h.hp; omega)
  refine this.trans (by norm_num)
theorem FmtA.eta_le (h : FmtA φ) : (2:ℝ) ^ (φ.emin - 1) ≤ uR φ ^ 2 := by
  unfold uR
  rw [← zpow_natCast, ← zpow_mul]
  exact zpow_le_zpow_right₀ (by norm_num) (by have := h.hmin; push_cast; omega)

theorem Near.mono (h : Near φ x r e) {e' : ℝ} (he : e ≤ e') : Near φ x r e' := by
  obtain ⟨q, h1, h2⟩ := h; exact ⟨q, h1, h2.trans he⟩
theorem Near.congr (h : Near φ x r e) {r' : ℝ} (he : r = r') : Near φ x r' e := he ▸ h
theorem Near.nonneg (h : Near φ x r e) : 0 ≤ e := by obtain ⟨q, _, h2⟩ := h; exact (abs_nonneg _).trans h2
theorem Val.near {q : ℚ} (h : Val φ x q) : Near φ x q 0 := ⟨q, h, by simp⟩
/-- change of the reference value -/
theorem Near.shift (h : Near φ x r e) {r' d : ℝ} (hd : |r - r'| ≤ d) : Near φ x r' (e + d) := by
  obtain ⟨q, h1, h2⟩ := h
  exact ⟨q, h1, (abs_sub_le _ r _).trans (add_le_add h2 hd)⟩

theorem rq_lt_max (hφ : FmtA φ) {v : ℚ} (hv : |(v : ℝ)| ≤ 2 ^ 100) : |rq φ v| < 2 ^ φ.emax := by
  have h' : (|v| : ℚ) ≤ 2 ^ (100 : ℤ) := by
    have : (|v| : ℚ) ≤ 2 ^ 100 := by exact_mod_cast hv
    norm_num at this ⊢; exact this
  exact lt_of_le_of_lt (abs_rq_le (repr_two_pow (by have := φ.hmin; omega)) h')
    (zpow_lt_zpow_right₀ (by norm_num) (by have := hφ.hmax; omega))

theorem rq_errR (hφ : FmtA φ) (v : ℚ) : |((rq φ v : ℚ) : ℝ) - v| ≤ |(v:ℝ)| * uR φ + uR φ ^ 2 := by
  have := (Rat.cast_le (K := ℝ)).2 (rq_err' (φ := φ) v)
  push_cast at this
  exact this.trans (add_le_add le_rfl hφ.eta_le)

theorem rq_add_errR {a b : ℚ} (ha : Repr φ |a|) (hb : Repr φ |b|) : |((rq φ (a + b) : ℚ) : ℝ) - (a + b)| ≤ |(a:ℝ) + b| * uR φ := by
  have := (Rat.cast_le (K := ℝ)).2 (rq_add_err ha hb)
  push_cast at this; exact this

theorem Near.neg (h : Near φ x r e) : Near φ x.neg (-r) e := by
  obtain ⟨q, h1, h2⟩ := h
  exact ⟨-q, h1.neg, by push_cast; rwa [show -(q:ℝ) - -r = -(q - r) by ring, abs_neg]⟩

theorem Near.add (hφ : FmtA φ) (h : Near φ x r e) (h' : Near φ y s f) (hM : |r + s| + (e + f) ≤ 2 ^ 100) :
    Near φ (x.add φ y) (r + s) (e + f + uR φ * (|r + s| + (e + f))) := by
  obtain ⟨q, h1, h2⟩ := h
  obtain ⟨t, k1, k2⟩ := h'
  have hd : |(q + t : ℝ) - (r + s)| ≤ e + f := by
    have := abs_add_le ((q:ℝ) - r) (t - s)
    rw [show (q:ℝ) - r + (t - s) = q + t - (r + s) by ring] at this; linarith
  have hv : |(q + t : ℝ)| ≤ |r + s| + (e + f) := by
    have := abs_add_le ((q + t : ℝ) - (r + s)) (r + s); rw [sub_add_cancel] at this; linarith
  have hv' : |((q + t : ℚ) : ℝ)| ≤ 2 ^ 100 := by push_cast; linarith
  refine ⟨_, h1.add k1 (rq_lt_max hφ hv'), ?_⟩
  have h3 := rq_add_errR h1.repr k1.repr
  have h4 : |(q + t : ℝ)| * uR φ ≤ (|r + s| + (e + f)) * uR φ := mul_le_mul_of_nonneg_right hv uR_pos.le
  have h5 := abs_sub_le ((rq φ (q + t) : ℚ) : ℝ) (q + t) (r + s)
  linarith

theorem Near.sub (hφ : FmtA φ) (h : Near φ x r e) (h' : Near φ y s f) (hM : |r - s| + (e + f) ≤ 2 ^ 100) :
    Near φ (x.add φ y.neg) (r - s) (e + f + uR φ * (|r - s| + (e + f))) := by
  rw [sub_eq_add_neg] at hM ⊢; exact h.add hφ h'.neg hM

theorem Near.mul (hφ : FmtA φ) (h : Near φ x r e) (h' : Near φ y s f) (hM : (|r| + e) * (|s| + f) ≤ 2 ^ 100) :
    Near φ (x.mul φ y) (r * s) (e * |s| + f * |r| + e * f + uR φ * ((|r| + e) * (|s| + f)) + uR φ ^ 2) := by
  have he := h.nonneg
  have hf := h'.nonneg
  obtain ⟨q, h1, h2⟩ := h
  obtain ⟨t, k1, k2⟩ := h'
  have hd : |(q * t : ℝ) - r * s| ≤ e * |s| + f * |r| + e * f := by
    have e0 : (q * t : ℝ) - r * s = (q - r) * s + (t - s) * r + (q - r) * (t - s) := by ring
    rw [e0]
    refine (abs_add_le _ _).trans (add_le_add ((abs_add_le _ _).trans (add_le_add ?_ ?_)) ?_) <;> rw [abs_mul]
    · gcongr
    · gcongr
    · gcongr
  have hq : |(q:ℝ)| ≤ |r| + e := by have := abs_add_le ((q:ℝ) - r) r; rw [sub_add_cancel] at this; linarith
  have ht : |(t:ℝ)| ≤ |s| + f := by have := abs_add_le ((t:ℝ) - s) s; rw [sub_add_cancel] at this; linarith
  have hv : |(q * t : ℝ)| ≤ (|r| + e) * (|s| + f) := by rw [abs_mul]; gcongr
  have hv' : |((q * t : ℚ) : ℝ)| ≤ 2 ^ 100 := by push_cast; linarith
  refine ⟨_, h1.mul k1 (rq_lt_max hφ hv'), ?_⟩
  have h3 := rq_errR hφ (q * t)
  push_cast at h3
  have h4 : |(q * t : ℝ)| * uR φ ≤ ((|r| + e) * (|s| + f)) * uR φ := mul_le_mul_of_nonneg_right hv uR_pos.le
  have h5 := abs_sub_le ((rq φ (q * t) : ℚ) : ℝ) (q * t) (r * s)
  linarith

theorem Near.div (hφ : FmtA φ) (h : Near φ x r e) (h' : Near φ y s f) (hs : f < |s|)
    (hM : |r / s| + (e + |r / s| * f) / (|s| - f) ≤ 2 ^ 100) :
    Near φ (x.div φ y) (r / s) ((e + |r / s| * f) / (|s| - f) + uR φ * (|r / s| + (e + |r / s| * f) / (|s| - f)) + uR φ ^ 2) := by
  have he := h.nonneg
  have hf := h'.nonneg
  obtain ⟨q, h1, h2⟩ := h
  obtain ⟨t, k1, k2⟩ := h'
  have ht : |s| - f ≤ |(t:ℝ)| := by
    have := abs_add_le (s - t) (t:ℝ); rw [sub_add_cancel, abs_sub_comm s] at this; linarith
  have hp : 0 < |s| - f := by linarith
  have htp : 0 < |(t:ℝ)| := by linarith
  have ht0 : (t:ℝ) ≠ 0 := abs_pos.1 htp
  have hs0 : s ≠ 0 := by intro h; rw [h, abs_zero] at hs; linarith
  have hd : |(q / t : ℝ) - r / s| ≤ (e + |r / s| * f) / (|s| - f) := by
    have e0 : (q / t : ℝ) - r / s = ((q - r) - r / s * (t - s)) / t := by field_simp; ring
    rw [e0, abs_div]
    have : |(q - r : ℝ) - r / s * (t - s)| ≤ e + |r / s| * f := by
      refine (abs_sub _ _).trans (add_le_add h2 ?_)
      rw [abs_mul]; gcongr
    gcongr
  have hv : |(q / t : ℝ)| ≤ |r / s| + (e + |r / s| * f) / (|s| - f) := by
    have := abs_add_le ((q / t : ℝ) - r / s) (r / s); rw [sub_add_cancel] at this; linarith
  have hv' : |((q / t : ℚ) : ℝ)| ≤ 2 ^ 100 := by push_cast; linarith
  have htq : t ≠ 0 := by exact_mod_cast ht0
  refine ⟨_, h1.div k1 htq (rq_lt_max hφ hv'), ?_⟩
  have h3 := rq_errR hφ (q / t)
  push_cast at h3
  have h4 : |(q / t : ℝ)| * uR φ ≤ (|r / s| + (e + |r / s| * f) / (|s| - f)) * uR φ := mul_le_mul_of_nonneg_right hv uR_pos.le
  have h5 := abs_sub_le ((rq φ (q / t) : ℚ) : ℝ) (q / t) (r / s)
  linarith

/-- a literal -/
theorem near_lit (hφ : FmtA φ) {q : ℚ} (hq : |(q:ℝ)| ≤ 2 ^ 100) : Near φ (rndQ φ q) q (|(q:ℝ)| * uR φ + uR φ ^ 2) :=
  ⟨_, val_rndQ (rq_lt_max hφ hq), rq_errR hφ q⟩

/-- an exactly representable literal `m / 2^k` -/
theorem near_dy (hφ : FmtA φ) {q : ℚ} (m : ℤ) (k : ℕ) (hm : |m| < 2 ^ 24) (hk : k ≤ 24) (hq : q = m / 2 ^ k) : Val φ (rndQ φ q) q := by
  have hp := hφ.hp
  have hmin := hφ.hmin
  have hrep : Repr φ |q| := ⟨m.natAbs, -(k:ℤ), by omega,
    by calc m.natAbs < 2 ^ 24 := by have := Int.abs_eq_natAbs m; omega
        _ ≤ 2 ^ φ.p := Nat.pow_le_pow_right (by norm_num) hφ.hp,
    by rw [hq, abs_div, Nat.cast_natAbs, zpow_neg, zpow_natCast, div_eq_mul_inv]; push_cast; simp⟩
  have hfin : |rq φ q| < 2 ^ φ.emax := by
    rw [rq_repr hrep]
    have h1 : |q| < 2 ^ (24:ℤ) := by
      rw [hq, abs_div, div_lt_iff₀ (by positivity)]
      have hm' : |(m:ℚ)| < 2 ^ 24 := by exact_mod_cast hm
      have : (1:ℚ) ≤ |(2:ℚ) ^ k| := by rw [abs_of_pos (by positivity)]; exact one_le_pow₀ (by norm_num)
      have h2 : (2:ℚ) ^ (24:ℤ) = 2 ^ 24 := by norm_cast
      rw [h2]; nlinarith
    exact h1.trans_le (zpow_le_zpow_right₀ (by norm_num) (by have := hφ.hmax; omega))
  have := val_rndQ hfin
  rwa [rq_repr hrep] at this

/-! ## relative form: `x` approximates `r`, `|r| ≤ A`, with error `a` units of `uR φ * A` -/

structure SN (φ : Fmt) (x : FV) (r A a : ℝ) : Prop where
  near : Near φ x r (uR φ * a * A)
  le : |r| ≤ A
  hA : 1 / 64 ≤ A
  hA2 : A ≤ 2 ^ 40
  ha : 0 ≤ a
  ha2 : a ≤ 1000

theorem SN.mono {A a A' a' : ℝ} (h : SN φ x r A a) (hA : A ≤ A') (ha : a ≤ a') (hA2 : A' ≤ 2 ^ 40 := by norm_num) (ha2 : a' ≤ 1000 := by norm_num) :
    SN φ x r A' a' := by
  have h0 := h.hA
  have h1 := h.ha
  refine ⟨h.near.mono ?_, h.le.trans hA, h0.trans hA, hA2, h1.trans ha, ha2⟩
  have := uR_pos (φ := φ)
  have : uR φ * a ≤ uR φ * a' := by gcongr
  exact mul_le_mul this hA (by linarith) (by have := h1.trans ha; positivity)

theorem SN.neg {A a : ℝ} (h : SN φ x r A a) : SN φ x.neg (-r) A a :=
  ⟨h.near.neg, by rw [abs_neg]; exact h.le, h.hA, h.hA2, h.ha, h.ha2⟩

theorem Val.sn {q : ℚ} (h : Val φ x q) {A : ℝ} (hA : |(q:ℝ)| ≤ A) (h1 : 1 / 64 ≤ A) (h2 : A ≤ 2 ^ 40) : SN φ x q A 0 :=
  ⟨by simpa using h.near, hA, h1, h2, le_rfl, by norm_num⟩

theorem SN.mul (hφ : FmtA φ) {A a B b : ℝ} (h : SN φ x r A a) (h' : SN φ y s B b) (hAB : 1 / 64 ≤ A * B) (hAB2 : A * B ≤ 2 ^ 40)
    (hab : (a + b) * 1.001 + 1.001 ≤ 1000 := by norm_num) : SN φ (x.mul φ y) (r * s) (A * B) ((a + b) * 1.001 + 1.001) := by
  have hu := hφ.u_le
  have hu0 := uR_pos (φ := φ)
  have hA0 : 0 < A := by linarith [h.hA]
  have hB0 : 0 < B := by linarith [h'.hA]
  have ha := h.ha
  have hb := h'.ha
  have ha2 : uR φ * a ≤ 1 / 10000 := by
    have := mul_le_mul hu h.ha2 ha (by norm_num); norm_num at this ⊢; linarith
  have hb2 : uR φ * b ≤ 1 / 10000 := by
    have := mul_le_mul hu h'.ha2 hb (by norm_num); norm_num at this ⊢; linarith
  set u := uR φ
  have hr := h.le
  have hs := h'.le
  have m1 : |r| + u * a * A ≤ 1.0001 * A := by nlinarith
  have m2 : |s| + u * b * B ≤ 1.0001 * B := by nlinarith
  have m3 : (|r| + u * a * A) * (|s| + u * b * B) ≤ 1.00021 * (A * B) := by
    have := mul_le_mul m1 m2 (by positivity) (by positivity); nlinarith
  refine ⟨(h.near.mul hφ h'.near (by linarith)).mono ?_, ?_, hAB, hAB2, by positivity, hab⟩
  · have e1 : u * a * A * |s| ≤ u * a * A * B := by gcongr
    have e2 : u * b * B * |r| ≤ u * b * B * A := by gcongr
    have e3 : u * a * A * (u * b * B) ≤ (1 / 10000) * (u * b) * (A * B) := by
      have : u * a * A * (u * b * B) = (u * a) * (u * b) * (A * B) := by ring
      rw [this]; gcongr
    have e4 : u * ((|r| + u * a * A) * (|s| + u * b * B)) ≤ u * (1.00021 * (A * B)) := by gcongr
    have e5 : u ^ 2 ≤ u * (A * B) * (1 / 10000) := by
      have : u ≤ A * B * (1 / 10000) := by linarith
      nlinarith
    have p1 : 0 ≤ u * b * (A * B) := by positivity
    have p2 : 0 ≤ u * a * (A * B) := by positivity
    have p3 : 0 ≤ u * (A * B) := by positivity
    nlinarith
  · rw [abs_mul]; gcongr

theorem SN.add (hφ : FmtA φ) {A a B b m : ℝ} (h : SN φ x r A a) (h' : SN φ y s B b) (hAB : A + B ≤ 2 ^ 40) (ham : a ≤ m) (hbm : b ≤ m)
    (hm : m + 1.001 ≤ 1000 := by norm_num) : SN φ (x.add φ y) (r + s) (A + B) (m + 1.001) := by
  have hu := hφ.u_le
  have hu0 := uR_pos (φ := φ)
  have hA0 : 0 < A := by linarith [h.hA]
  have hB0 : 0 < B := by linarith [h'.hA]
  have hm0 : 0 ≤ m := h.ha.trans ham
  have hm1 : uR φ * m ≤ 1 / 10000 := by
    have := mul_le_mul hu (show m ≤ 1000 by linarith) hm0 (by norm_num); norm_num at this ⊢; linarith
  set u := uR φ
  have hrs : |r + s| ≤ A + B := (abs_add_le _ _).trans (add_le_add h.le h'.le)
  have e1 : u * a * A + u * b * B ≤ u * m * (A + B) := by
    have h1 : u * a * A ≤ u * m * A := by gcongr
    have h2 : u * b * B ≤ u * m * B := by gcongr
    linarith
  have e2 : u * m * (A + B) ≤ 1 / 10000 * (A + B) := by gcongr
  refine ⟨(h.near.add hφ h'.near (by linarith)).mono ?_, hrs, by linarith [h.hA], hAB, by positivity, hm⟩
  have e3 : u * (|r + s| + (u * a * A + u * b * B)) ≤ u * (1.0001 * (A + B)) := by
    apply mul_le_mul_of_nonneg_left _ hu0.le; linarith
  have : 0 ≤ u * (A + B) := by positivity
  nlinarith

theorem SN.sub (hφ : FmtA φ) {A a B b m : ℝ} (h : SN φ x r A a) (h' : SN φ y s B b) (hAB : A + B ≤ 2 ^ 40) (ham : a ≤ m) (hbm : b ≤ m)
    (hm : m + 1.001 ≤ 1000 := by norm_num) : SN φ (x.add φ y.neg) (r - s) (A + B) (m + 1.001) := by
  rw [sub_eq_add_neg]; exact h.add hφ h'.neg hAB ham hbm hm

/-- division by an exact positive constant -/
theorem SN.divc (hφ : FmtA φ) {A a : ℝ} {c : ℚ} (h : SN φ x r A a) (h' : Val φ y c) (hc : 1 ≤ (c:ℝ)) (hA : 1 / 64 ≤ A / c)
    (ha : a + 1.001 ≤ 1000 := by norm_num) : SN φ (x.div φ y) (r / c) (A / c) (a + 1.001) := by
  have hu := hφ.u_le
  have hu0 := uR_pos (φ := φ)
  have hA0 : 0 < A := by linarith [h.hA]
  have hc0 : 0 < (c:ℝ) := by linarith
  have ha0 := h.ha
  have ha1 : uR φ * a ≤ 1 / 10000 := by
    have := mul_le_mul hu h.ha2 ha0 (by norm_num); norm_num at this ⊢; linarith
  set u := uR φ
  have h1 : |r / c| ≤ A / c := by rw [abs_div, abs_of_pos hc0]; gcongr; exact h.le
  have h2 : A / c ≤ 2 ^ 40 := (div_le_self hA0.le hc).trans h.hA2
  have e0 : (u * a * A + |r / c| * 0) / (|(c:ℝ)| - 0) = u * a * (A / c) := by rw [abs_of_pos hc0]; ring
  have e1 : u * a * (A / c) ≤ 1 / 10000 * (A / c) := by gcongr
  refine ⟨(h.near.div hφ h'.near (by rw [abs_of_pos hc0]; exact hc0) (by rw [e0]; linarith)).mono ?_, h1, hA, h2, by positivity, ha⟩
  rw [e0]
  have e3 : u * (|r / c| + u * a * (A / c)) ≤ u * (1.0001 * (A / c)) := by
    apply mul_le_mul_of_nonneg_left _ hu0.le; linarith
  have e5 : u ^ 2 ≤ u * (A / c) * (1 / 10000) := by
    have : u ≤ A / c * (1 / 10000) := by linarith
    nlinarith
  have : 0 ≤ u * (A / c) := by positivity
  nlinarith

/-! ## the logarithm of the C library -/

/-- `log` and `log1p` have relative error at most `2^(1-p)` (one unit in the last place); results may underflow -/
structure LogOK (φ : Fmt) (L : Lib) : Prop where
  log : ∀ (x : FV) (q : ℚ), Val φ x q → 0 < q → Near φ (L.log x) (Real.log q) (2 * uR φ * |Real.log q| + uR φ ^ 2)
  log1p : ∀ (x : FV) (q : ℚ), Val φ x q → -1 < q → Near φ (L.log1p x) (Real.log (1 + q)) (2 * uR φ * |Real.log (1 + q)| + uR φ ^ 2)

/-- positive numbers of the format have logarithms of moderate size -/
theorem Val.log_le (hφ : FmtA φ) {q : ℚ} (h : Val φ x q) (hq : 0 < q) : |Real.log q| ≤ 2 ^ 15 := by
  obtain ⟨n, hn⟩ := repr_eta h.repr
  rw [abs_of_pos hq] at hn
  have hm := h.lt_max
  rw [abs_of_pos hq] at hm
  have hn1 : 1 ≤ n := by
    rcases Nat.eq_zero_or_pos n with h0 | h0
    · rw [h0] at hn; simp at hn; linarith
    · exact h0
  have hlow : (2:ℝ) ^ φ.emin ≤ q := by
    have : (2:ℚ) ^ φ.emin ≤ q := by
      rw [hn]; exact le_mul_of_one_le_left (by positivity) (by exact_mod_cast hn1)
    have := (Rat.cast_le (K := ℝ)).2 this
    push_cast at this; exact this
  have hup : (q:ℝ) ≤ 2 ^ φ.emax := by
    have := (Rat.cast_le (K := ℝ)).2 hm.le
    push_cast at this; exact this
  have hq' : (0:ℝ) < q := by exact_mod_cast hq
  have l1 := Real.log_le_log (by positivity) hlow
  have l2 := Real.log_le_log hq' hup
  rw [Real.log_zpow] at l1 l2
  have h2 : Real.log 2 ≤ 1 := by have := Real.log_le_sub_one_of_pos (x := 2) (by norm_num); linarith
  have h20 : 0 ≤ Real.log 2 := Real.log_nonneg (by norm_num)
  have hr1 : (φ.emax : ℝ) ≤ 2 ^ 14 := by exact_mod_cast hφ.hrange.1
  have hr2 : -2 ^ 15 ≤ (φ.emin : ℝ) := by exact_mod_cast hφ.hrange.2
  rw [abs_le]
  constructor
  · nlinarith
  · nlinarith

/-- the same for `log1p` -/
theorem Val.log1p_le (hφ : FmtA φ) {q : ℚ} (h : Val φ x q) (hq : -1 < q) : |Real.log (1 + q)| ≤ 2 ^ 15 := by
  have hm := (Rat.cast_le (K := ℝ)).2 h.lt_max.le
  push_cast at hm
  have hr := h.repr
  have hq' : (-1:ℝ) < q := by exact_mod_cast hq
  have hlow : (2:ℝ) ^ φ.emin ≤ 1 + q := by
    obtain ⟨n, hn⟩ := abs_eta hr
    have h1 : (1:ℚ) = 2 ^ (-φ.emin).toNat * 2 ^ φ.emin := by
      rw [← zpow_natCast, ← zpow_add₀ (by norm_num)]
      have := φ.hmin
      rw [show (((-φ.emin).toNat : ℤ)) + φ.emin = 0 by omega]; simp
    have h2 : 1 + q = ((2 ^ (-φ.emin).toNat + n : ℤ) : ℚ) * 2 ^ φ.emin := by push_cast; rw [add_mul, ← h1, ← hn]
    have h3 : 0 < 1 + q := by linarith
    rw [h2] at h3
    have h4 : (0:ℚ) < ((2 ^ (-φ.emin).toNat + n : ℤ) : ℚ) := (mul_pos_iff_of_pos_right (by positivity)).1 h3
    have h5 : (0:ℤ) < 2 ^ (-φ.emin).toNat + n := by exact_mod_cast h4
    have h6 : (2:ℚ) ^ φ.emin ≤ 1 + q := by
      rw [h2]; exact le_mul_of_one_le_left (by positivity) (by exact_mod_cast h5)
    have := (Rat.cast_le (K := ℝ)).2 h6
    push_cast at this; exact this
  have hup : (1:ℝ) + q ≤ 2 ^ (φ.emax + 1) := by
    rw [zpow_add₀ (by norm_num)]
    have h1 : (1:ℝ) ≤ 2 ^ φ.emax := one_le_zpow₀ (by norm_num) (by have := φ.hmax; omega)
    have := le_abs_self (q:ℝ)
    norm_num; linarith
  have l1 := Real.log_le_log (by positivity) hlow
  have l2 := Real.log_le_log (by linarith) hup
  rw [Real.log_zpow] at l1 l2
  have h2 : Real.log 2 ≤ 1 := by have := Real.log_le_sub_one_of_pos (x := 2) (by norm_num); linarith
  have h20 : 0 ≤ Real.log 2 := Real.log_nonneg (by norm_num)
  have hr1 : ((φ.emax + 1 : ℤ) : ℝ) ≤ 2 ^ 15 := by
    have := hφ.hrange.1
    exact_mod_cast (by omega : φ.emax + 1 ≤ 2 ^ 15)
  have hr2 : -2 ^ 15 ≤ (φ.emin : ℝ) := by exact_mod_cast hφ.hrange.2
  rw [abs_le]
  constructor
  · nlinarith
  · nlinarith

/-- a library function that rounds a close rational approximation of `f` -/
noncomputable def approxF (φ : Fmt) (f : ℝ → ℝ) : FV → FV
  | .fin s a => rndQ φ (Classical.choose (exists_rat_near (f (sval s a : ℚ)) (show (0:ℝ) < uR φ ^ 2 / 4 by have := uR_pos (φ := φ); positivity)))
  | _ => .nan

theorem approxF_near (hφ : FmtA φ) (g : ℝ → ℝ) {q : ℚ} (h : Val φ x q) (hg : |g q| ≤ 2 ^ 99) : Near φ (approxF φ g x) (g q) (uR φ * |g q| + uR φ ^ 2) := by
  obtain ⟨s, a, rfl, hs, _, _⟩ := h
  have h0 := uR_pos (φ := φ)
  have hu := hφ.u_le
  have hc := Classical.choose_spec (exists_rat_near (g (sval s a : ℚ)) (show (0:ℝ) < uR φ ^ 2 / 4 by positivity))
  unfold approxF
  set t := Classical.choose (exists_rat_near (g (sval s a : ℚ)) (show (0:ℝ) < uR φ ^ 2 / 4 by positivity))
  rw [hs] at hc
  have ht : |(t:ℝ)| ≤ |g q| + uR φ ^ 2 / 4 := by
    have := abs_sub_abs_le_abs_sub (t:ℝ) (g q)
    rw [abs_sub_comm] at this; linarith
  have hu2 : uR φ ^ 2 ≤ 1 / 2 ^ 24 := by nlinarith
  refine ⟨_, val_rndQ (rq_lt_max hφ (v := t) (by linarith)), ?_⟩
  have h1 := (Rat.cast_le (K := ℝ)).2 (rq_err' (φ := φ) t)
  push_cast at h1
  have h3 : (2:ℝ) ^ (φ.emin - 1) ≤ uR φ ^ 2 / 2 := by
    have : uR φ ^ 2 / 2 = 2 ^ (-2 * (φ.p:ℤ) - 1) := by
      rw [zpow_sub₀ (by norm_num)]
      unfold uR
      rw [← zpow_natCast, ← zpow_mul]; norm_num; ring_nf
    rw [this]
    exact zpow_le_zpow_right₀ (by norm_num) (by have := hφ.hmin; omega)
  have h2 := abs_sub_le ((rq φ t : ℚ) : ℝ) t (g q)
  rw [abs_sub_comm (t:ℝ)] at h2
  have h4 : |(t:ℝ)| * 2 ^ (-(φ.p:ℤ)) ≤ (|g q| + uR φ ^ 2 / 4) * uR φ := mul_le_mul_of_nonneg_right ht h0.le
  nlinarith

/-- a library with these logarithms exists -/
theorem exists_logOK (hφ : FmtA φ) (L : Lib) : LogOK φ { L with log := approxF φ Real.log, log1p := approxF φ (fun t => Real.log (1 + t)) } where
  log x q h hq := by
    have h0 := uR_pos (φ := φ)
    refine (approxF_near hφ Real.log h ((h.log_le hφ hq).trans (by norm_num))).mono ?_
    have := mul_nonneg h0.le (abs_nonneg (Real.log q)); linarith
  log1p x q h hq := by
    have h0 := uR_pos (φ := φ)
    have hb : |Real.log (1 + q)| ≤ 2 ^ 99 := (h.log1p_le hφ hq).trans (by norm_num)
    refine (approxF_near hφ (fun t => Real.log (1 + t)) h hb).mono ?_
    have := mul_nonneg h0.le (abs_nonneg (Real.log (1 + q))); linarith

/-- change of the logarithm under a perturbation of its argument -/
theorem abs_log_sub_le {a b : ℝ} (ha : 0 < a) (hb : 0 < b) : |Real.log a - Real.log b| ≤ |a - b| / min a b := by
  have key : ∀ {a b : ℝ}, 0 < a → a ≤ b → |Real.log a - Real.log b| ≤ |a - b| / min a b := by
    intro a b ha hab
    have hb : 0 < b := by linarith
    rw [min_eq_left hab, abs_sub_comm, abs_of_nonneg (sub_nonneg.2 (Real.log_le_log ha hab)), abs_sub_comm, abs_of_nonneg (sub_nonneg.2 hab),
      ← Real.log_div hb.ne' ha.ne']
    have := Real.log_le_sub_one_of_pos (x := b / a) (by positivity)
    refine this.trans (le_of_eq ?_); field_simp
  rcases le_total a b with h | h
  · exact key ha h
  · have := key hb h; rwa [abs_sub_comm, abs_sub_comm b, min_comm] at this

end Polylog
