import Verif.Sem.FPNear
import Verif.Sem.IEEELemmas

/-!
# Rounding errors of complex arithmetic

`CNear z w e`: both components of the floating-point complex number `z` are finite and the value of `z` is within `e` of `w`.
`CXE` is a small language of complex expressions (what the complex polylogarithms use apart from library calls) with a verified
norm-wise error analyser `CXE.bnd`.
-/

namespace Polylog
set_option linter.style.longLine false
open Complex

variable {φ : Fmt} {L : Lib}

/-- the formats with at least the range of binary64 -/
structure FmtB (φ : Fmt) : Prop where
  a : FmtA φ
  hp : 53 ≤ φ.p
  hq : φ.p ≤ 113
  hmin : φ.emin ≤ -1074
  hmax : 1024 ≤ φ.emax

theorem fmtB64 : FmtB binary64 := ⟨fmtA64, by decide, by decide, by decide, by decide⟩
theorem fmtB80 : FmtB x87ext := ⟨fmtA80, by decide, by decide, by decide, by decide⟩
theorem fmtB128 : FmtB binary128 := ⟨fmtA128, by decide, by decide, by decide, by decide⟩

/-- bound for the error of an underflow -/
noncomputable def tauR : ℝ := 2 ^ (-1000 : ℤ)
/-- no overflow below this number -/
noncomputable def capR : ℝ := 2 ^ (1000 : ℤ)
theorem tauR_pos : 0 < tauR := by unfold tauR; positivity
theorem capR_ge : (2:ℝ) ^ (900 : ℤ) ≤ capR := zpow_le_zpow_right₀ (by norm_num) (by norm_num)

theorem FmtB.u_le (h : FmtB φ) : uR φ ≤ 1 / 2 ^ 53 := by
  unfold uR
  have : (2:ℝ) ^ (-(φ.p:ℤ)) ≤ 2 ^ (-53 : ℤ) := zpow_le_zpow_right₀ (by norm_num) (by have := h.hp; omega)
  refine this.trans (by norm_num)
theorem FmtB.le_u (h : FmtB φ) : (2:ℝ) ^ (-113 : ℤ) ≤ uR φ := by
  unfold uR
  exact zpow_le_zpow_right₀ (by norm_num) (by have := h.hq; omega)
theorem FmtB.eta_le (h : FmtB φ) : (2:ℝ) ^ (φ.emin - 1) ≤ tauR :=
  zpow_le_zpow_right₀ (by norm_num) (by have := h.hmin; omega)

theorem rq_lt_maxB (hφ : FmtB φ) {v : ℚ} (hv : |(v : ℝ)| ≤ capR) : |rq φ v| < 2 ^ φ.emax := by
  have h' : (|v| : ℚ) ≤ 2 ^ (1000 : ℤ) := by
    unfold capR at hv
    exact_mod_cast hv
  exact lt_of_le_of_lt (abs_rq_le (repr_two_pow (by have := φ.hmin; omega)) h')
    (zpow_lt_zpow_right₀ (by norm_num) (by have := hφ.hmax; omega))

theorem rq_errT (hφ : FmtB φ) (v : ℚ) : |((rq φ v : ℚ) : ℝ) - v| ≤ |(v:ℝ)| * uR φ + tauR := by
  have := (Rat.cast_le (K := ℝ)).2 (rq_err' (φ := φ) v)
  push_cast at this
  exact this.trans (add_le_add le_rfl hφ.eta_le)

/-- the complex number with rational parts `a`, `b` -/
def cq (a b : ℚ) : ℂ := ⟨a, b⟩

def CNear (z : Cx (FP φ L)) (w : ℂ) (e : ℝ) : Prop := ∃ a b : ℚ, Val φ (ofF z.re) a ∧ Val φ (ofF z.im) b ∧ ‖cq a b - w‖ ≤ e

theorem norm_le_of_abs {x y X Y : ℝ} (hx : |x| ≤ X) (hy : |y| ≤ Y) : ‖(⟨x, y⟩ : ℂ)‖ ≤ ‖(⟨X, Y⟩ : ℂ)‖ := by
  rw [Complex.norm_eq_sqrt_sq_add_sq, Complex.norm_eq_sqrt_sq_add_sq]
  apply Real.sqrt_le_sqrt
  have h1 : x ^ 2 ≤ X ^ 2 := sq_le_sq' (by linarith [abs_le.1 hx]) (abs_le.1 hx).2
  have h2 : y ^ 2 ≤ Y ^ 2 := sq_le_sq' (by linarith [abs_le.1 hy]) (abs_le.1 hy).2
  simp only
  linarith

theorem norm_mk_abs (x y : ℝ) : ‖(⟨|x|, |y|⟩ : ℂ)‖ = ‖(⟨x, y⟩ : ℂ)‖ := by
  rw [Complex.norm_eq_sqrt_sq_add_sq, Complex.norm_eq_sqrt_sq_add_sq]; simp

theorem norm_mk_le {x y t : ℝ} (hx : |x| ≤ t) (hy : |y| ≤ t) : ‖(⟨x, y⟩ : ℂ)‖ ≤ 1.4143 * t := by
  have ht : 0 ≤ t := (abs_nonneg _).trans hx
  rw [Complex.norm_eq_sqrt_sq_add_sq]
  apply Real.sqrt_le_iff.2
  constructor
  · positivity
  · have h1 : x ^ 2 ≤ t ^ 2 := sq_le_sq' (by linarith [abs_le.1 hx]) (abs_le.1 hx).2
    have h2 : y ^ 2 ≤ t ^ 2 := sq_le_sq' (by linarith [abs_le.1 hy]) (abs_le.1 hy).2
    simp only; norm_num; nlinarith [sq_nonneg t]

section
variable {z z' : Cx (FP φ L)} {w w' : ℂ} {e e' : ℝ}

theorem CNear.mono (h : CNear z w e) {f : ℝ} (hf : e ≤ f) : CNear z w f := by
  obtain ⟨a, b, h1, h2, h3⟩ := h; exact ⟨a, b, h1, h2, h3.trans hf⟩
theorem CNear.congr (h : CNear z w e) {v : ℂ} (hv : w = v) : CNear z v e := hv ▸ h
theorem CNear.nonneg (h : CNear z w e) : 0 ≤ e := by obtain ⟨a, b, h1, h2, h3⟩ := h; exact (norm_nonneg _).trans h3
theorem CNear.shift (h : CNear z w e) {v : ℂ} {d : ℝ} (hd : ‖w - v‖ ≤ d) : CNear z v (e + d) := by
  obtain ⟨a, b, h1, h2, h3⟩ := h
  refine ⟨a, b, h1, h2, ?_⟩
  rw [show cq a b - v = (cq a b - w) + (w - v) by ring]
  exact (norm_add_le _ _).trans (add_le_add h3 hd)
theorem CNear.neg (h : CNear z w e) : CNear (∸z) (-w) e := by
  obtain ⟨a, b, h1, h2, h3⟩ := h
  refine ⟨-a, -b, h1.neg, h2.neg, ?_⟩
  have : cq (-a) (-b) - -w = -(cq a b - w) := by apply Complex.ext <;> simp [cq] <;> ring
  rw [this, norm_neg]; exact h3

theorem CNear.of_re_im {x y : ℝ} (h1 : Near φ (ofF z.re) x e) (h2 : Near φ (ofF z.im) y e') : CNear z ⟨x, y⟩ (e + e') := by
  obtain ⟨a, ha, ha'⟩ := h1
  obtain ⟨b, hb, hb'⟩ := h2
  refine ⟨a, b, ha, hb, ?_⟩
  have : cq a b - ⟨x, y⟩ = (((a - x : ℝ)) : ℂ) + ((b - y : ℝ) : ℂ) * I := by apply Complex.ext <;> simp [cq]
  rw [this]
  refine (norm_add_le _ _).trans (add_le_add ?_ ?_)
  · rw [Complex.norm_real]; exact ha'
  · rw [norm_mul, Complex.norm_I, mul_one, Complex.norm_real]; exact hb'

theorem CNear.re (h : CNear z w e) : Near φ (ofF z.re) w.re e := by
  obtain ⟨a, b, h1, h2, h3⟩ := h
  exact ⟨a, h1, (Complex.abs_re_le_norm (cq a b - w)).trans h3⟩
theorem CNear.im (h : CNear z w e) : Near φ (ofF z.im) w.im e := by
  obtain ⟨a, b, h1, h2, h3⟩ := h
  exact ⟨b, h2, (Complex.abs_im_le_norm (cq a b - w)).trans h3⟩

theorem cq_norm_le {a b : ℚ} (h3 : ‖cq a b - w‖ ≤ e) : ‖cq a b‖ ≤ ‖w‖ + e := by
  have := norm_add_le (cq a b - w) w
  rw [sub_add_cancel] at this; linarith

theorem abs_cq_re (a b : ℚ) : |(a:ℝ)| ≤ ‖cq a b‖ := Complex.abs_re_le_norm (cq a b)
theorem abs_cq_im (a b : ℚ) : |(b:ℝ)| ≤ ‖cq a b‖ := Complex.abs_im_le_norm (cq a b)

theorem CNear.add (hφ : FmtB φ) (h : CNear z w e) (h' : CNear z' w' e') (hM : ‖w + w'‖ + (e + e') ≤ capR) :
    CNear (z +. z') (w + w') (e + e' + uR φ * (‖w + w'‖ + (e + e'))) := by
  obtain ⟨a, b, h1, h2, h3⟩ := h
  obtain ⟨c, d, k1, k2, k3⟩ := h'
  have hd : ‖(cq a b + cq c d) - (w + w')‖ ≤ e + e' := by
    rw [show (cq a b + cq c d) - (w + w') = (cq a b - w) + (cq c d - w') by ring]
    exact (norm_add_le _ _).trans (add_le_add h3 k3)
  have hn : ‖cq a b + cq c d‖ ≤ ‖w + w'‖ + (e + e') := by
    have := norm_add_le ((cq a b + cq c d) - (w + w')) (w + w'); rw [sub_add_cancel] at this; linarith
  have e1 : (cq a b + cq c d) = ⟨(a:ℝ) + c, (b:ℝ) + d⟩ := by apply Complex.ext <;> simp [cq]
  have hre : |((a + c : ℚ) : ℝ)| ≤ ‖cq a b + cq c d‖ := by
    have := Complex.abs_re_le_norm (cq a b + cq c d); rw [e1] at this ⊢; push_cast; exact this
  have him : |((b + d : ℚ) : ℝ)| ≤ ‖cq a b + cq c d‖ := by
    have := Complex.abs_im_le_norm (cq a b + cq c d); rw [e1] at this ⊢; push_cast; exact this
  refine ⟨_, _, h1.add k1 (rq_lt_maxB hφ (by linarith)), h2.add k2 (rq_lt_maxB hφ (by linarith)), ?_⟩
  have r1 := rq_add_errR h1.repr k1.repr
  have r2 := rq_add_errR h2.repr k2.repr
  have hu := uR_pos (φ := φ)
  have r3 : ‖cq (rq φ (a + c)) (rq φ (b + d)) - (cq a b + cq c d)‖ ≤ uR φ * ‖cq a b + cq c d‖ := by
    have e2 : cq (rq φ (a + c)) (rq φ (b + d)) - (cq a b + cq c d) = ⟨((rq φ (a + c) : ℚ) : ℝ) - (a + c), ((rq φ (b + d) : ℚ) : ℝ) - (b + d)⟩ := by
      rw [e1]; apply Complex.ext <;> simp [cq]
    rw [e2]
    refine (norm_le_of_abs r1 r2).trans (le_of_eq ?_)
    have e3 : (⟨|(a:ℝ) + c| * uR φ, |(b:ℝ) + d| * uR φ⟩ : ℂ) = (uR φ : ℂ) * ⟨|(a:ℝ) + c|, |(b:ℝ) + d|⟩ := by
      apply Complex.ext <;> simp <;> ring
    rw [e3, norm_mul, Complex.norm_real, Real.norm_eq_abs, abs_of_pos hu, norm_mk_abs, e1]
  have : cq (rq φ (a + c)) (rq φ (b + d)) - (w + w') = (cq (rq φ (a + c)) (rq φ (b + d)) - (cq a b + cq c d)) + ((cq a b + cq c d) - (w + w')) := by ring
  rw [this]
  refine (norm_add_le _ _).trans ?_
  have := mul_le_mul_of_nonneg_left hn hu.le
  linarith

theorem CNear.sub (hφ : FmtB φ) (h : CNear z w e) (h' : CNear z' w' e') (hM : ‖w - w'‖ + (e + e') ≤ capR) :
    CNear (z -. z') (w - w') (e + e' + uR φ * (‖w - w'‖ + (e + e'))) := by
  have := h.add hφ h'.neg (by rw [← sub_eq_add_neg]; exact hM)
  rw [← sub_eq_add_neg] at this
  exact this

/-- only the real part changes when a real number is added -/
theorem CNear.radd (hφ : FmtB φ) {x : FP φ L} {r f : ℝ} (h : CNear z w e) (h' : Near φ (ofF x) r f) (hM : ‖r + w‖ + (e + f) ≤ capR) :
    CNear (x +. z) (r + w) (e + f + uR φ * (‖r + w‖ + (e + f))) ∧ CNear (z +. x) (r + w) (e + f + uR φ * (‖r + w‖ + (e + f))) := by
  obtain ⟨a, b, h1, h2, h3⟩ := h
  obtain ⟨c, k1, k3⟩ := h'
  have hd : ‖(cq a b + c) - (r + w)‖ ≤ e + f := by
    rw [show (cq a b + c) - (r + w) = (cq a b - w) + (((c - r : ℝ)) : ℂ) by push_cast; ring]
    refine (norm_add_le _ _).trans (add_le_add h3 ?_)
    rw [Complex.norm_real]; exact k3
  have hn : ‖cq a b + c‖ ≤ ‖r + w‖ + (e + f) := by
    have := norm_add_le ((cq a b + c) - (r + w)) (r + w); rw [sub_add_cancel] at this; linarith
  have hre : |((a + c : ℚ) : ℝ)| ≤ ‖cq a b + c‖ := by
    have := Complex.abs_re_le_norm (cq a b + c); simp [cq] at this ⊢; exact this
  have hu := uR_pos (φ := φ)
  have r1 := rq_add_errR h1.repr k1.repr
  have r3 : ‖cq (rq φ (a + c)) b - (r + w)‖ ≤ e + f + uR φ * (‖r + w‖ + (e + f)) := by
    have : cq (rq φ (a + c)) b - (r + w) = (((rq φ (a + c) : ℚ) : ℝ) - (a + c) : ℝ) + ((cq a b + c) - (r + w)) := by
      apply Complex.ext <;> simp [cq] <;> ring
    rw [this]
    refine (norm_add_le _ _).trans ?_
    rw [Complex.norm_real, Real.norm_eq_abs]
    have h5 : |(a:ℝ) + c| * uR φ ≤ (‖r + w‖ + (e + f)) * uR φ := by
      apply mul_le_mul_of_nonneg_right _ hu.le
      push_cast at hre; linarith
    linarith
  have hv := h1.add k1 (rq_lt_maxB hφ (by linarith))
  exact ⟨⟨_, _, hv, h2, r3⟩, ⟨_, _, hv, h2, r3⟩⟩

theorem CNear.rsub (hφ : FmtB φ) {x : FP φ L} {r f : ℝ} (h : CNear z w e) (h' : Near φ (ofF x) r f) (hM : ‖r - w‖ + (e + f) ≤ capR) :
    CNear (x -. z) (r - w) (e + f + uR φ * (‖r - w‖ + (e + f))) := by
  obtain ⟨a, b, h1, h2, h3⟩ := h.neg
  obtain ⟨c, k1, k3⟩ := h'
  rw [sub_eq_add_neg] at hM ⊢
  have hd : ‖(cq a b + c) - (r + -w)‖ ≤ e + f := by
    rw [show (cq a b + c) - (r + -w) = (cq a b - -w) + (((c - r : ℝ)) : ℂ) by push_cast; ring]
    refine (norm_add_le _ _).trans (add_le_add h3 ?_)
    rw [Complex.norm_real]; exact k3
  have hn : ‖cq a b + c‖ ≤ ‖r + -w‖ + (e + f) := by
    have := norm_add_le ((cq a b + c) - (r + -w)) (r + -w); rw [sub_add_cancel] at this; linarith
  have hre : |((c + a : ℚ) : ℝ)| ≤ ‖cq a b + c‖ := by
    have := Complex.abs_re_le_norm (cq a b + c); simp [cq] at this ⊢; rwa [add_comm]
  have hu := uR_pos (φ := φ)
  have r1 := rq_add_errR k1.repr h1.repr
  have r3 : ‖cq (rq φ (c + a)) b - (r + -w)‖ ≤ e + f + uR φ * (‖r + -w‖ + (e + f)) := by
    have : cq (rq φ (c + a)) b - (r + -w) = (((rq φ (c + a) : ℚ) : ℝ) - (c + a) : ℝ) + ((cq a b + c) - (r + -w)) := by
      apply Complex.ext <;> simp [cq] <;> ring
    rw [this]
    refine (norm_add_le _ _).trans ?_
    rw [Complex.norm_real, Real.norm_eq_abs]
    have h5 : |(c:ℝ) + a| * uR φ ≤ (‖r + -w‖ + (e + f)) * uR φ := by
      apply mul_le_mul_of_nonneg_right _ hu.le
      push_cast at hre; linarith
    linarith
  exact ⟨_, _, k1.add h1 (rq_lt_maxB hφ (by linarith)), h2, r3⟩

/-- multiplication by a real number -/
theorem CNear.rmul (hφ : FmtB φ) {x : FP φ L} {r f : ℝ} (h : CNear z w e) (h' : Near φ (ofF x) r f) (hM : (‖w‖ + e) * (|r| + f) ≤ capR) :
    CNear (x *. z) (r * w) (e * |r| + f * ‖w‖ + e * f + uR φ * ((‖w‖ + e) * (|r| + f)) + 2 * tauR) ∧
    CNear (z *. x) (r * w) (e * |r| + f * ‖w‖ + e * f + uR φ * ((‖w‖ + e) * (|r| + f)) + 2 * tauR) := by
  have he := h.nonneg
  have hf := h'.nonneg
  obtain ⟨a, b, h1, h2, h3⟩ := h
  obtain ⟨c, k1, k3⟩ := h'
  have hu := uR_pos (φ := φ)
  have hc : |(c:ℝ)| ≤ |r| + f := by have := abs_add_le ((c:ℝ) - r) r; rw [sub_add_cancel] at this; linarith
  have hz := cq_norm_le h3
  have hd : ‖cq a b * c - r * w‖ ≤ e * |r| + f * ‖w‖ + e * f := by
    have e0 : cq a b * c - r * w = (cq a b - w) * (r:ℂ) + w * ((c - r : ℝ) : ℂ) + (cq a b - w) * ((c - r : ℝ) : ℂ) := by push_cast; ring
    rw [e0]
    refine (norm_add_le _ _).trans (add_le_add ((norm_add_le _ _).trans (add_le_add ?_ ?_)) ?_) <;> rw [norm_mul, Complex.norm_real, Real.norm_eq_abs]
    · gcongr
    · rw [mul_comm]; gcongr
    · gcongr
  have hp : ‖cq a b‖ * |(c:ℝ)| ≤ (‖w‖ + e) * (|r| + f) := by gcongr
  have ha : |((a * c : ℚ) : ℝ)| ≤ capR := by
    push_cast; rw [abs_mul]
    exact ((mul_le_mul_of_nonneg_right (abs_cq_re a b) (abs_nonneg _)).trans hp).trans hM
  have hb : |((b * c : ℚ) : ℝ)| ≤ capR := by
    push_cast; rw [abs_mul]
    exact ((mul_le_mul_of_nonneg_right (abs_cq_im a b) (abs_nonneg _)).trans hp).trans hM
  have r1 := rq_errT hφ (a * c)
  have r2 := rq_errT hφ (b * c)
  push_cast at r1 r2
  have hr : ‖cq (rq φ (a * c)) (rq φ (b * c)) - cq a b * c‖ ≤ uR φ * (‖cq a b‖ * |(c:ℝ)|) + 2 * tauR := by
    have e2 : cq (rq φ (a * c)) (rq φ (b * c)) - cq a b * c = ⟨((rq φ (a * c) : ℚ) : ℝ) - a * c, ((rq φ (b * c) : ℚ) : ℝ) - b * c⟩ := by
      apply Complex.ext <;> simp [cq]
    rw [e2]
    refine (norm_le_of_abs r1 r2).trans ?_
    have e3 : (⟨|(a:ℝ) * c| * uR φ + tauR, |(b:ℝ) * c| * uR φ + tauR⟩ : ℂ) = ((uR φ * |(c:ℝ)| : ℝ) : ℂ) * ⟨|(a:ℝ)|, |(b:ℝ)|⟩ + ⟨tauR, tauR⟩ := by
      apply Complex.ext <;> simp [abs_mul] <;> ring
    rw [e3]
    refine (norm_add_le _ _).trans (add_le_add ?_ ?_)
    · rw [norm_mul, Complex.norm_real, Real.norm_eq_abs, abs_of_nonneg (by positivity), norm_mk_abs]
      have : ‖cq a b‖ = ‖(⟨(a:ℝ), (b:ℝ)⟩ : ℂ)‖ := rfl
      rw [this]; apply le_of_eq; ring
    · refine (norm_mk_le (t := tauR) (by rw [abs_of_nonneg tauR_pos.le]) (by rw [abs_of_nonneg tauR_pos.le])).trans ?_
      norm_num; have := tauR_pos; linarith
  have hfin : ‖cq (rq φ (a * c)) (rq φ (b * c)) - r * w‖ ≤ e * |r| + f * ‖w‖ + e * f + uR φ * ((‖w‖ + e) * (|r| + f)) + 2 * tauR := by
    have : cq (rq φ (a * c)) (rq φ (b * c)) - r * w = (cq (rq φ (a * c)) (rq φ (b * c)) - cq a b * c) + (cq a b * c - r * w) := by ring
    rw [this]
    refine (norm_add_le _ _).trans ?_
    have := mul_le_mul_of_nonneg_left hp hu.le
    linarith
  have v1 := h1.mul k1 (rq_lt_maxB hφ ha)
  have v2 := h2.mul k1 (rq_lt_maxB hφ hb)
  exact ⟨⟨_, _, v1, v2, hfin⟩, ⟨_, _, v1, v2, hfin⟩⟩

/-- division by a real constant of the format, at least 1 -/
theorem CNear.divr (hφ : FmtB φ) {x : FP φ L} {c : ℚ} (h : CNear z w e) (h' : Val φ (ofF x) c) (hc : 1 ≤ (c:ℝ)) (hM : ‖w‖ + e ≤ capR) :
    CNear (z /. x) (w / c) (e / c + uR φ * ((‖w‖ + e) / c) + 2 * tauR) := by
  have he := h.nonneg
  obtain ⟨a, b, h1, h2, h3⟩ := h
  have hu := uR_pos (φ := φ)
  have hc0 : (0:ℝ) < c := by linarith
  have hcq : c ≠ 0 := by rintro rfl; norm_num at hc0
  have hz := cq_norm_le h3
  have hd : ‖cq a b / c - w / c‖ ≤ e / c := by
    rw [← sub_div, norm_div]
    have : ‖((c:ℚ):ℂ)‖ = (c:ℝ) := by
      rw [show ((c:ℚ):ℂ) = (((c:ℚ):ℝ):ℂ) by push_cast; rfl, Complex.norm_real, Real.norm_eq_abs, abs_of_pos hc0]
    rw [this]; gcongr
  have hle : ∀ t : ℚ, |(t:ℝ)| ≤ ‖cq a b‖ → |((t / c : ℚ) : ℝ)| ≤ capR := by
    intro t ht
    push_cast; rw [abs_div, abs_of_pos hc0]
    refine (div_le_self (abs_nonneg _) hc).trans (by linarith)
  have r1 := rq_errT hφ (a / c)
  have r2 := rq_errT hφ (b / c)
  push_cast at r1 r2
  have hr : ‖cq (rq φ (a / c)) (rq φ (b / c)) - cq a b / c‖ ≤ uR φ * (‖cq a b‖ / c) + 2 * tauR := by
    have hcc : cq a b / c = ⟨(a:ℝ) / c, (b:ℝ) / c⟩ := by
      have : ((c:ℚ):ℂ) = (((c:ℚ):ℝ):ℂ) := by push_cast; rfl
      rw [this]
      apply Complex.ext
      · rw [Complex.div_ofReal_re]; simp [cq]
      · rw [Complex.div_ofReal_im]; simp [cq]
    have e2 : cq (rq φ (a / c)) (rq φ (b / c)) - cq a b / c = ⟨((rq φ (a / c) : ℚ) : ℝ) - a / c, ((rq φ (b / c) : ℚ) : ℝ) - b / c⟩ := by
      rw [hcc]; apply Complex.ext <;> simp [cq]
    rw [e2]
    refine (norm_le_of_abs r1 r2).trans ?_
    have e3 : (⟨|(a:ℝ) / c| * uR φ + tauR, |(b:ℝ) / c| * uR φ + tauR⟩ : ℂ) = ((uR φ / c : ℝ) : ℂ) * ⟨|(a:ℝ)|, |(b:ℝ)|⟩ + ⟨tauR, tauR⟩ := by
      apply Complex.ext <;> simp [abs_div, abs_of_pos hc0] <;> ring
    rw [e3]
    refine (norm_add_le _ _).trans (add_le_add ?_ ?_)
    · rw [norm_mul, Complex.norm_real, Real.norm_eq_abs, abs_of_nonneg (by positivity), norm_mk_abs]
      have : ‖cq a b‖ = ‖(⟨(a:ℝ), (b:ℝ)⟩ : ℂ)‖ := rfl
      rw [this]; apply le_of_eq; ring
    · refine (norm_mk_le (t := tauR) (by rw [abs_of_nonneg tauR_pos.le]) (by rw [abs_of_nonneg tauR_pos.le])).trans ?_
      norm_num; have := tauR_pos; linarith
  refine ⟨_, _, h1.div h' hcq (rq_lt_maxB hφ (hle a (abs_cq_re a b))), h2.div h' hcq (rq_lt_maxB hφ (hle b (abs_cq_im a b))), ?_⟩
  have : cq (rq φ (a / c)) (rq φ (b / c)) - w / c = (cq (rq φ (a / c)) (rq φ (b / c)) - cq a b / c) + (cq a b / c - w / c) := by ring
  rw [this]
  refine (norm_add_le _ _).trans ?_
  have : uR φ * (‖cq a b‖ / c) ≤ uR φ * ((‖w‖ + e) / c) := by gcongr
  linarith


/-- rounded sum of two rounded products -/
theorem twosum_err (hφ : FmtB φ) {p q : ℚ} {P Q α : ℝ} (hp : Repr φ |p|) (hq : Repr φ |q|) (h : |(p:ℝ) + q - (P + Q)| ≤ α) :
    |((rq φ (p + q) : ℚ) : ℝ) - (P + Q)| ≤ |P + Q| * uR φ + 1.0001 * α := by
  have hu0 := uR_pos (φ := φ)
  have hu : uR φ ≤ 0.0001 := hφ.u_le.trans (by norm_num)
  have h1 := rq_add_errR hp hq
  have t1 := abs_add_le ((p:ℝ) + q - (P + Q)) (P + Q)
  rw [sub_add_cancel] at t1
  have t2 := abs_sub_le ((rq φ (p + q) : ℚ) : ℝ) ((p:ℝ) + q) (P + Q)
  have hα : 0 ≤ α := (abs_nonneg _).trans h
  have t3 : |(p:ℝ) + q| * uR φ ≤ (|P + Q| + α) * uR φ := mul_le_mul_of_nonneg_right (by linarith) hu0.le
  have t4 : α * uR φ ≤ α * 0.0001 := mul_le_mul_of_nonneg_left hu hα
  norm_num at *
  linarith

theorem abs_mul_sum_le (a b c d : ℝ) : |a * c - b * d| + 0 ≤ ‖(⟨a, b⟩ : ℂ)‖ * ‖(⟨c, d⟩ : ℂ)‖ ∧ |a| * |c| + |b| * |d| ≤ ‖(⟨a, b⟩ : ℂ)‖ * ‖(⟨c, d⟩ : ℂ)‖ ∧
    |a| * |d| + |b| * |c| ≤ ‖(⟨a, b⟩ : ℂ)‖ * ‖(⟨c, d⟩ : ℂ)‖ := by
  set N := ‖(⟨a, b⟩ : ℂ)‖ with hN
  set N' := ‖(⟨c, d⟩ : ℂ)‖ with hN'
  have hN0 : 0 ≤ N := norm_nonneg _
  have hN0' : 0 ≤ N' := norm_nonneg _
  have sa : N ^ 2 = |a| ^ 2 + |b| ^ 2 := by
    rw [hN, Complex.sq_norm, Complex.normSq_apply, sq_abs, sq_abs]; ring
  have sb : N' ^ 2 = |c| ^ 2 + |d| ^ 2 := by
    rw [hN', Complex.sq_norm, Complex.normSq_apply, sq_abs, sq_abs]; ring
  have p1 : |a| * |c| + |b| * |d| ≤ N * N' := by
    apply abs_le_of_sq_le_sq' _ (by positivity) |>.2
    rw [mul_pow, sa, sb]; nlinarith [sq_nonneg (|a| * |d| - |b| * |c|)]
  have p2 : |a| * |d| + |b| * |c| ≤ N * N' := by
    apply abs_le_of_sq_le_sq' _ (by positivity) |>.2
    rw [mul_pow, sa, sb]; nlinarith [sq_nonneg (|a| * |c| - |b| * |d|)]
  refine ⟨?_, p1, p2⟩
  have := abs_sub (a * c) (b * d)
  rw [abs_mul, abs_mul] at this
  linarith

/-- rounding error of one part of a product -/
theorem prod_part (hφ : FmtB φ) {s t x y : ℚ} {N : ℝ} (hN : |(s:ℝ)| * |(t:ℝ)| + |(x:ℝ)| * |(y:ℝ)| ≤ N) (hc : 4 * N + 4 ≤ capR) :
    |rq φ (s * t)| < 2 ^ φ.emax ∧ |rq φ (x * y)| < 2 ^ φ.emax ∧ |rq φ (rq φ (s * t) + rq φ (x * y))| < 2 ^ φ.emax ∧
    |((rq φ (rq φ (s * t) + rq φ (x * y)) : ℚ) : ℝ) - (s * t + x * y)| ≤ |(s:ℝ) * t + x * y| * uR φ + 1.0001 * (uR φ * N + 2 * tauR) := by
  have hu0 := uR_pos (φ := φ)
  have hu : uR φ ≤ 0.0001 := hφ.u_le.trans (by norm_num)
  have hτ := tauR_pos
  have hτ1 : tauR ≤ 1 := by
    have : tauR ≤ 2 ^ (0:ℤ) := zpow_le_zpow_right₀ (by norm_num) (by norm_num)
    simpa using this
  have i1 : 0 ≤ |(s:ℝ)| * |(t:ℝ)| := by positivity
  have i2 : 0 ≤ |(x:ℝ)| * |(y:ℝ)| := by positivity
  have r1 := rq_errT hφ (s * t)
  have r2 := rq_errT hφ (x * y)
  push_cast at r1 r2
  rw [abs_mul] at r1 r2
  have d : |((rq φ (s * t) : ℚ) : ℝ) + (rq φ (x * y) : ℚ) - (s * t + x * y)| ≤ uR φ * N + 2 * tauR := by
    have h1 := abs_add_le (((rq φ (s * t) : ℚ) : ℝ) - s * t) (((rq φ (x * y) : ℚ) : ℝ) - x * y)
    rw [show ((rq φ (s * t) : ℚ) : ℝ) - s * t + (((rq φ (x * y) : ℚ) : ℝ) - x * y) = ((rq φ (s * t) : ℚ) : ℝ) + (rq φ (x * y) : ℚ) - (s * t + x * y) by ring] at h1
    have h2 := mul_le_mul_of_nonneg_left hN hu0.le
    linarith
  have huN : uR φ * N ≤ N := by
    have : uR φ * N ≤ 1 * N := mul_le_mul_of_nonneg_right (by linarith) (by linarith)
    linarith
  refine ⟨rq_lt_maxB hφ ?_, rq_lt_maxB hφ ?_, rq_lt_maxB hφ ?_, twosum_err hφ (repr_rq _) (repr_rq _) d⟩
  · push_cast; rw [abs_mul]; linarith
  · push_cast; rw [abs_mul]; linarith
  · push_cast
    have h1 := abs_add_le (((rq φ (s * t) : ℚ) : ℝ) + (rq φ (x * y) : ℚ) - (s * t + x * y)) (s * t + x * y)
    rw [sub_add_cancel] at h1
    have h2 := abs_add_le ((s:ℝ) * t) (x * y)
    rw [abs_mul, abs_mul] at h2
    linarith

/-- complex multiplication -/
theorem CNear.mul (hφ : FmtB φ) (h : CNear z w e) (h' : CNear z' w' e') (hM : 4 * ((‖w‖ + e) * (‖w'‖ + e')) + 4 ≤ capR) :
    CNear (z *. z') (w * w') (e * ‖w'‖ + e' * ‖w‖ + e * e' + 2.42 * uR φ * ((‖w‖ + e) * (‖w'‖ + e')) + 3 * tauR) := by
  have he := h.nonneg
  have he' := h'.nonneg
  obtain ⟨a, b, h1, h2, h3⟩ := h
  obtain ⟨c, d, k1, k2, k3⟩ := h'
  have hu0 := uR_pos (φ := φ)
  have hτ := tauR_pos
  have hz := cq_norm_le h3
  have hz' := cq_norm_le k3
  have hd : ‖cq a b * cq c d - w * w'‖ ≤ e * ‖w'‖ + e' * ‖w‖ + e * e' := by
    have e0 : cq a b * cq c d - w * w' = (cq a b - w) * w' + w * (cq c d - w') + (cq a b - w) * (cq c d - w') := by ring
    rw [e0]
    refine (norm_add_le _ _).trans (add_le_add ((norm_add_le _ _).trans (add_le_add ?_ ?_)) ?_) <;> rw [norm_mul]
    · gcongr
    · rw [mul_comm]; gcongr
    · gcongr
  have hp : ‖cq a b‖ * ‖cq c d‖ ≤ (‖w‖ + e) * (‖w'‖ + e') := by gcongr
  obtain ⟨-, p1, p2⟩ := abs_mul_sum_le (a:ℝ) b c d
  change _ ≤ ‖cq a b‖ * ‖cq c d‖ at p1
  change _ ≤ ‖cq a b‖ * ‖cq c d‖ at p2
  have emul : cq a b * cq c d = ⟨(a:ℝ) * c + (-b) * d, (a:ℝ) * d + b * c⟩ := by apply Complex.ext <;> simp [cq]; ring
  have nmul : ‖cq a b * cq c d‖ = ‖cq a b‖ * ‖cq c d‖ := norm_mul _ _
  set P := ‖cq a b‖ * ‖cq c d‖ with hP
  have hP0 : 0 ≤ P := by positivity
  obtain ⟨q1, q2, f1, g1⟩ := prod_part hφ (s := a) (t := c) (x := -b) (y := d) (N := P) (by push_cast; rw [abs_neg]; exact p1) (by linarith)
  obtain ⟨q3, q4, f2, g2⟩ := prod_part hφ (s := a) (t := d) (x := b) (y := c) (N := P) p2 (by linarith)
  have en : rq φ (-b * d) = -rq φ (b * d) := by rw [neg_mul, rq_neg]
  rw [en] at q2 f1 g1
  rw [abs_neg] at q2
  obtain ⟨v1, v2⟩ := Val.cmul L.cmulRec h1 h2 k1 k2 q1 q2 q3 q4 (by rw [sub_eq_add_neg]; exact f1) f2
  rw [sub_eq_add_neg] at v1
  generalize rq φ (rq φ (a * c) + -rq φ (b * d)) = X at *
  generalize rq φ (rq φ (a * d) + rq φ (b * c)) = Y at *
  push_cast at g1
  have hr : ‖cq X Y - cq a b * cq c d‖ ≤ 2.42 * uR φ * P + 3 * tauR := by
    have e2 : cq X Y - cq a b * cq c d = ⟨(X:ℝ) - (a * c + (-b) * d), (Y:ℝ) - (a * d + b * c)⟩ := by
      rw [emul]; apply Complex.ext <;> simp [cq]
    rw [e2]
    refine (norm_le_of_abs g1 g2).trans ?_
    set κ := 1.0001 * (uR φ * P + 2 * tauR) with hκ
    have hκ0 : 0 ≤ κ := by positivity
    have e3 : (⟨|(a:ℝ) * c + (-b) * d| * uR φ + κ, |(a:ℝ) * d + b * c| * uR φ + κ⟩ : ℂ) = (uR φ : ℂ) * ⟨|(a:ℝ) * c + (-b) * d|, |(a:ℝ) * d + b * c|⟩ + ⟨κ, κ⟩ := by
      apply Complex.ext <;> simp <;> ring
    rw [e3]
    have n1 : ‖(uR φ : ℂ) * ⟨|(a:ℝ) * c + (-b) * d|, |(a:ℝ) * d + b * c|⟩‖ = uR φ * P := by
      rw [norm_mul, Complex.norm_real, Real.norm_eq_abs, abs_of_pos hu0, norm_mk_abs, ← emul, nmul]
    have n2 := norm_mk_le (x := κ) (y := κ) (t := κ) (by rw [abs_of_nonneg hκ0]) (by rw [abs_of_nonneg hκ0])
    refine (norm_add_le _ _).trans ?_
    rw [n1]
    have : 0 ≤ uR φ * P := by positivity
    have e4 : 1.4143 * κ = 1.41444143 * (uR φ * P) + 2.82888286 * tauR := by rw [hκ]; ring
    rw [e4] at n2
    refine (add_le_add le_rfl n2).trans ?_
    have e5 : 2.42 * uR φ * P = 2.42 * (uR φ * P) := by ring
    rw [e5]
    linarith
  refine ⟨_, _, v1, v2, ?_⟩
  have : cq X Y - w * w' = (cq X Y - cq a b * cq c d) + (cq a b * cq c d - w * w') := by ring
  rw [this]
  refine (norm_add_le _ _).trans ?_
  have : 2.42 * uR φ * P ≤ 2.42 * uR φ * ((‖w‖ + e) * (‖w'‖ + e')) := mul_le_mul_of_nonneg_left hp (by positivity)
  linarith
end

end Polylog
