import Verif.Props.LiFPLong
import Verif.Props.FPNan

/-!
# A C library satisfying the contract `CxLib` exists; examples for C44
-/

namespace Polylog
set_option linter.style.longLine false
open Complex

variable {φ : Fmt}

theorem Val.uniq {x : FV} {a b : ℚ} (h : Val φ x a) (h' : Val φ x b) : a = b := by
  obtain ⟨s, m, rfl, h1, _⟩ := h
  obtain ⟨s', m', h2, h3, _⟩ := h'
  injection h2 with h4 h5
  subst h4; subst h5; rw [← h1, h3]

/-- correctly rounded results exist -/
theorem exists_near (hφ : FmtB φ) {t : ℝ} (ht : |t| ≤ 2 ^ (φ.emax - 2)) : ∃ r : FV, Near φ r t (uR φ * |t| + 2 ^ φ.emin) := by
  have h0 := uR_pos (φ := φ)
  have hu := hφ.u_le
  have hη : (0:ℝ) < 2 ^ (φ.emin - 2) := by positivity
  have hη1 : (2:ℝ) ^ (φ.emin - 2) ≤ 1 := zpow_le_one_of_nonpos₀ (by norm_num) (by have := hφ.hmin; omega)
  obtain ⟨q, hq⟩ := exists_rat_near t hη
  rw [abs_sub_comm] at hq
  have e1 : (2:ℝ) ^ φ.emin = 4 * 2 ^ (φ.emin - 2) := by
    rw [show φ.emin = 2 + (φ.emin - 2) by ring, zpow_add₀ (by norm_num)]; norm_num
  have e2 : (2:ℝ) ^ (φ.emin - 1) = 2 * 2 ^ (φ.emin - 2) := by
    rw [show φ.emin - 1 = 1 + (φ.emin - 2) by ring, zpow_add₀ (by norm_num)]; norm_num
  have hqa : |(q:ℝ)| ≤ |t| + 2 ^ (φ.emin - 2) := by
    have := abs_add_le ((q:ℝ) - t) t; rw [sub_add_cancel] at this; linarith
  have hb : (|q| : ℚ) ≤ 2 ^ (φ.emax - 1) := by
    have e3 : (2:ℝ) ^ (φ.emax - 1) = 2 * 2 ^ (φ.emax - 2) := by
      rw [show φ.emax - 1 = 1 + (φ.emax - 2) by ring, zpow_add₀ (by norm_num)]; norm_num
    have e4 : (1:ℝ) ≤ 2 ^ (φ.emax - 2) := one_le_zpow₀ (by norm_num) (by have := hφ.hmax; omega)
    have : |(q:ℝ)| ≤ 2 ^ (φ.emax - 1) := by linarith
    rw [← Rat.cast_le (K := ℝ)]; push_cast; exact this
  have hfin : |rq φ q| < 2 ^ φ.emax :=
    lt_of_le_of_lt (abs_rq_le (repr_two_pow (by have := hφ.hmin; have := hφ.hmax; omega)) hb) (zpow_lt_zpow_right₀ (by norm_num) (by omega))
  refine ⟨_, _, val_rndQ hfin, ?_⟩
  have h1 := (Rat.cast_le (K := ℝ)).2 (rq_err' (φ := φ) q)
  push_cast at h1
  have h1' : |((rq φ q : ℚ) : ℝ) - q| ≤ |(q:ℝ)| * uR φ + 2 ^ (φ.emin - 1) := h1
  have h2 := abs_sub_le ((rq φ q : ℚ) : ℝ) q t
  rw [e1]; rw [e2] at h1'
  have h3 : |(q:ℝ)| * uR φ ≤ (|t| + 2 ^ (φ.emin - 2)) * uR φ := mul_le_mul_of_nonneg_right hqa h0.le
  have h4 : 2 ^ (φ.emin - 2) * uR φ ≤ 2 ^ (φ.emin - 2) * 1 := mul_le_mul_of_nonneg_left (hu.trans (by norm_num)) hη.le
  rw [add_mul] at h3
  linarith [mul_comm (uR φ) |t|]

theorem eta_uu (hφ : FmtB φ) : (2:ℝ) ^ φ.emin ≤ uR φ ^ 2 := by
  unfold uR
  rw [← zpow_natCast, ← zpow_mul]
  exact zpow_le_zpow_right₀ (by norm_num) (by have := hφ.hmin; have := hφ.hq; push_cast; omega)

theorem ex_log (hφ : FmtB φ) (x : FV) : ∃ r : FV, ∀ q : ℚ, Val φ x q → 0 < q →
    Near φ r (Real.log q) (2 * uR φ * |Real.log q| + uR φ ^ 2) ∧ (q = 1 → Val φ r 0) := by
  have h0 := uR_pos (φ := φ)
  by_cases hx : ∃ q, Val φ x q ∧ 0 < q
  · obtain ⟨q, hq, hq0⟩ := hx
    by_cases h1 : q = 1
    · subst h1
      refine ⟨rndQ φ 0, fun q' h' _ => ?_⟩
      obtain rfl := hq.uniq h'
      have v0 : Val φ (rndQ φ 0) 0 := val_zeroB hφ
      refine ⟨⟨0, v0, ?_⟩, fun _ => v0⟩
      simp; positivity
    · have hb : |Real.log q| ≤ 2 ^ (φ.emax - 2) := by
        have := (hq.log_le hφ.a hq0)
        refine this.trans ?_
        refine le_trans ?_ (zpow_le_zpow_right₀ (by norm_num : (1:ℝ) ≤ 2) (show (99:ℤ) ≤ φ.emax - 2 by have := hφ.hmax; omega))
        norm_num
      obtain ⟨r, hr⟩ := exists_near hφ hb
      refine ⟨r, fun q' h' _ => ?_⟩
      obtain rfl := hq.uniq h'
      refine ⟨hr.mono ?_, fun h => absurd h h1⟩
      have := eta_uu hφ
      have := mul_nonneg h0.le (abs_nonneg (Real.log q))
      linarith
  · exact ⟨x, fun q hq h => absurd ⟨q, hq, h⟩ hx⟩

theorem eta_900 (hφ : FmtB φ) : (2:ℝ) ^ φ.emin ≤ uR φ * 2 ^ (-900 : ℤ) := by
  unfold uR
  rw [← zpow_add₀ (by norm_num)]
  exact zpow_le_zpow_right₀ (by norm_num) (by have := hφ.hmin; have := hφ.hq; omega)

theorem big_emax (hφ : FmtB φ) : (2:ℝ) ^ (900 : ℤ) ≤ 2 ^ (φ.emax - 2) :=
  zpow_le_zpow_right₀ (by norm_num) (by have := hφ.hmax; omega)

theorem ex_hypot (hφ : FmtB φ) (x y : FV) : ∃ r : FV, ∀ a b : ℚ, Val φ x a → Val φ y b →
    ((2:ℝ) ^ (-900 : ℤ) ≤ ‖cq a b‖ → ‖cq a b‖ ≤ 2 ^ (900 : ℤ) → Near φ r ‖cq a b‖ (2 * uR φ * ‖cq a b‖)) ∧ (a = 1 → |(b:ℝ)| ≤ uR φ → Val φ r 1) := by
  have h0 := uR_pos (φ := φ)
  have hη := eta_900 hφ
  have hmax := big_emax hφ
  by_cases hx : ∃ a b, Val φ x a ∧ Val φ y b
  · obtain ⟨a, b, ha, hb⟩ := hx
    by_cases h1 : a = 1 ∧ |(b:ℝ)| ≤ uR φ
    · obtain ⟨rfl, h1⟩ := h1
      refine ⟨rndQ φ 1, fun a' b' ha' hb' => ?_⟩
      obtain rfl := ha.uniq ha'
      obtain rfl := hb.uniq hb'
      have v0 : Val φ (rndQ φ 1) 1 := val_oneB hφ
      refine ⟨fun _ _ => ⟨1, v0, ?_⟩, fun _ _ => v0⟩
      have l1 : 1 ≤ ‖cq 1 b‖ := by
        have := Complex.abs_re_le_norm (cq 1 b); simpa [cq] using this
      have l2 : ‖cq 1 b‖ ≤ 1 + |(b:ℝ)| := by
        have := Complex.norm_le_abs_re_add_abs_im (cq 1 b); simpa [cq] using this
      rw [abs_sub_comm, Rat.cast_one, abs_of_nonneg (by linarith)]
      nlinarith
    · by_cases h2 : (2:ℝ) ^ (-900 : ℤ) ≤ ‖cq a b‖ ∧ ‖cq a b‖ ≤ 2 ^ (900 : ℤ)
      · obtain ⟨r, hr⟩ := exists_near hφ (t := ‖cq a b‖) (by rw [abs_of_nonneg (norm_nonneg _)]; exact h2.2.trans hmax)
        refine ⟨r, fun a' b' ha' hb' => ?_⟩
        obtain rfl := ha.uniq ha'
        obtain rfl := hb.uniq hb'
        refine ⟨fun _ _ => hr.mono ?_, fun e1 e2 => absurd ⟨e1, e2⟩ h1⟩
        rw [abs_of_nonneg (norm_nonneg _)]
        have := mul_le_mul_of_nonneg_left h2.1 h0.le
        generalize (2:ℝ) ^ (-900 : ℤ) = T at *
        generalize (2:ℝ) ^ (900 : ℤ) = T' at *
        linarith
      · refine ⟨x, fun a' b' ha' hb' => ?_⟩
        obtain rfl := ha.uniq ha'
        obtain rfl := hb.uniq hb'
        exact ⟨fun e1 e2 => absurd ⟨e1, e2⟩ h2, fun e1 e2 => absurd ⟨e1, e2⟩ h1⟩
  · exact ⟨x, fun a b ha hb => absurd ⟨a, b, ha, hb⟩ hx⟩

theorem ex_atan2 (hφ : FmtB φ) (y x : FV) : ∃ r : FV, ∀ b a : ℚ, Val φ y b → Val φ x a →
    Near φ r (Complex.arg (cq a b)) (2 * uR φ * |Complex.arg (cq a b)| + 2 ^ φ.emin) := by
  have h0 := uR_pos (φ := φ)
  by_cases hx : ∃ b a, Val φ y b ∧ Val φ x a
  · obtain ⟨b, a, hb, ha⟩ := hx
    obtain ⟨r, hr⟩ := exists_near hφ (t := Complex.arg (cq a b)) (by
      have h1 := Complex.abs_arg_le_pi (cq a b)
      have h2 := Real.pi_lt_d2
      have h3 : (2:ℝ) ^ (2:ℤ) ≤ 2 ^ (φ.emax - 2) := zpow_le_zpow_right₀ (by norm_num) (by have := hφ.hmax; omega)
      refine le_trans ?_ h3
      norm_num
      linarith)
    refine ⟨r, fun b' a' hb' ha' => ?_⟩
    obtain rfl := ha.uniq ha'
    obtain rfl := hb.uniq hb'
    refine hr.mono ?_
    have := mul_nonneg h0.le (abs_nonneg (Complex.arg (cq a b)))
    linarith
  · exact ⟨x, fun a b ha hb => absurd ⟨a, b, ha, hb⟩ hx⟩

theorem ex_cdiv (hφ : FmtB φ) (p p' : FV × FV) : ∃ r : FV × FV, ∀ a b c d : ℚ, Val φ p.1 a → Val φ p.2 b → Val φ p'.1 c → Val φ p'.2 d →
    ‖cq a b / cq c d‖ ≤ 2 ^ (φ.emax - 2) →
    ∃ e f : ℚ, Val φ r.1 e ∧ Val φ r.2 f ∧ ‖cq e f - cq a b / cq c d‖ ≤ 8 * uR φ * ‖cq a b / cq c d‖ + tauR := by
  have h0 := uR_pos (φ := φ)
  by_cases hx : ∃ a b c d, Val φ p.1 a ∧ Val φ p.2 b ∧ Val φ p'.1 c ∧ Val φ p'.2 d ∧ ‖cq a b / cq c d‖ ≤ 2 ^ (φ.emax - 2)
  · obtain ⟨a, b, c, d, ha, hb, hc, hd, hn⟩ := hx
    obtain ⟨r1, e, he, he'⟩ := exists_near hφ ((Complex.abs_re_le_norm (cq a b / cq c d)).trans hn)
    obtain ⟨r2, f, hf, hf'⟩ := exists_near hφ ((Complex.abs_im_le_norm (cq a b / cq c d)).trans hn)
    refine ⟨(r1, r2), fun a' b' c' d' ha' hb' hc' hd' _ => ⟨e, f, he, hf, ?_⟩⟩
    obtain rfl := ha.uniq ha'
    obtain rfl := hb.uniq hb'
    obtain rfl := hc.uniq hc'
    obtain rfl := hd.uniq hd'
    clear hn
    set w := cq a b / cq c d
    have hτ : 2 * (2:ℝ) ^ φ.emin ≤ tauR := by
      unfold tauR
      have : (2:ℝ) ^ (φ.emin + 1) ≤ 2 ^ (-1000 : ℤ) := zpow_le_zpow_right₀ (by norm_num) (by have := hφ.hmin; omega)
      rwa [zpow_add_one₀ (by norm_num), mul_comm] at this
    have h1 : ‖cq e f - w‖ ≤ |(e:ℝ) - w.re| + |(f:ℝ) - w.im| := Complex.norm_le_abs_re_add_abs_im (cq e f - w)
    have h2 := mul_le_mul_of_nonneg_left (Complex.abs_re_le_norm w) h0.le
    have h3 := mul_le_mul_of_nonneg_left (Complex.abs_im_le_norm w) h0.le
    have h4 := mul_nonneg h0.le (norm_nonneg w)
    linarith
  · exact ⟨p, fun a b c d ha hb hc hd hn => absurd ⟨a, b, c, d, ha, hb, hc, hd, hn⟩ hx⟩

/-- for every format there is a library as accurate as `CxLib` demands: the results of the functions are chosen among the rounded exact values -/
theorem cxLib_exists (hφ : FmtB φ) (L : Lib) : ∃ L' : Lib, CxLib φ L' ∧ L'.log1p = L.log1p ∧ L'.sin = L.sin ∧ L'.cos = L.cos := by
  classical
  choose lg hlg using ex_log hφ
  choose hy hhy using ex_hypot hφ
  choose at2 hat2 using ex_atan2 hφ
  choose dv hdv using ex_cdiv hφ
  refine ⟨{ L with log := lg, hypot := hy, atan2 := at2, cdiv := dv }, ?_, rfl, rfl, rfl⟩
  exact
    { log := fun x q h h' => (hlg x q h h').1
      log_one := fun x h => (hlg x 1 h (by norm_num)).2 rfl
      hypot := fun x y a b ha hb h1 h2 => (hhy x y a b ha hb).1 h1 h2
      hypot_one := fun x y b ha hb h => (hhy x y 1 b ha hb).2 rfl h
      atan2 := fun y x b a hb ha _ => hat2 y x b a hb ha
      cdiv := fun x y x' y' a b c d ha hb hc hd _ _ _ h => hdv (x, y) (x', y') a b c d ha hb hc hd h }

/-- the hypotheses of `C44_Li3d_IEEE` can be met: `z = -3 + i/2` -/
example : ∃ (L : Lib) (z : Cx (FP binary64 L)), CxLib binary64 L ∧ Val binary64 (ofF z.re) (-3) ∧ Val binary64 (ofF z.im) (1 / 2) ∧
    ∃ a b : ℚ, Val binary64 (ofF (cLi3d z).re) a ∧ Val binary64 (ofF (cLi3d z).im) b ∧
      ‖(⟨a, b⟩ : ℂ) - pLi 3 ⟨(-3 : ℚ), (1 / 2 : ℚ)⟩‖ ≤ 1.5e-13 * max 1 ‖Complex.log (-⟨(-3 : ℚ), (1 / 2 : ℚ)⟩)‖ ^ 3 := by
  obtain ⟨L, hL, -⟩ := cxLib_exists fmtB64 zeroLib
  have v1 : Val binary64 (rndQ binary64 (-3)) (-3) := near_dy fmtA64 (-3) 0 (by norm_num) (by norm_num) (by norm_num)
  have v2 : Val binary64 (rndQ binary64 (1 / 2)) (1 / 2) := near_dy fmtA64 1 1 (by norm_num) (by norm_num) (by norm_num)
  exact ⟨L, ⟨FOps.lit (-3), FOps.lit (1 / 2)⟩, hL, v1, v2, C44_Li3d_IEEE hL v1 v2 (by decide +kernel) (by decide +kernel) (by decide +kernel)⟩

/-- `z = 20 + i/1024`, x87 extended precision -/
example : ∃ (L : Lib) (z : Cx (FP x87ext L)), CxLib x87ext L ∧ Val x87ext (ofF z.re) 20 ∧ Val x87ext (ofF z.im) (1 / 1024) ∧
    ∃ a b : ℚ, Val x87ext (ofF (cLi6l18 z).re) a ∧ Val x87ext (ofF (cLi6l18 z).im) b ∧
      ‖(⟨a, b⟩ : ℂ) - pLi 6 ⟨(20 : ℚ), (1 / 1024 : ℚ)⟩‖ ≤ 2.1e-16 * max 1 ‖Complex.log (-⟨(20 : ℚ), (1 / 1024 : ℚ)⟩)‖ ^ 6 := by
  obtain ⟨L, hL, -⟩ := cxLib_exists fmtB80 zeroLib
  have v1 : Val x87ext (rndQ x87ext 20) 20 := near_dy fmtB80.a 20 0 (by norm_num) (by norm_num) (by norm_num)
  have v2 : Val x87ext (rndQ x87ext (1 / 1024)) (1 / 1024) := near_dy fmtB80.a 1 10 (by norm_num) (by norm_num) (by norm_num)
  exact ⟨L, ⟨FOps.lit 20, FOps.lit (1 / 1024)⟩, hL, v1, v2, C44_Li6l18_IEEE hL v1 v2 (by decide +kernel) (by decide +kernel) (by decide +kernel)⟩

/-- `z = 1/2 - 3i/4`, binary128 -/
example : ∃ (L : Lib) (z : Cx (FP binary128 L)), CxLib binary128 L ∧ Val binary128 (ofF z.re) (1 / 2) ∧ Val binary128 (ofF z.im) (-3 / 4) ∧
    ∃ a b : ℚ, Val binary128 (ofF (cLi5l36 z).re) a ∧ Val binary128 (ofF (cLi5l36 z).im) b ∧
      ‖(⟨a, b⟩ : ℂ) - pLi 5 ⟨(1 / 2 : ℚ), (-3 / 4 : ℚ)⟩‖ ≤ 3.3e-31 * max 1 ‖Complex.log (-⟨(1 / 2 : ℚ), (-3 / 4 : ℚ)⟩)‖ ^ 5 := by
  obtain ⟨L, hL, -⟩ := cxLib_exists fmtB128 zeroLib
  have v1 : Val binary128 (rndQ binary128 (1 / 2)) (1 / 2) := near_dy fmtB128.a 1 1 (by norm_num) (by norm_num) (by norm_num)
  have v2 : Val binary128 (rndQ binary128 (-3 / 4)) (-3 / 4) := near_dy fmtB128.a (-3) 2 (by norm_num) (by norm_num) (by norm_num)
  exact ⟨L, ⟨FOps.lit (1 / 2), FOps.lit (-3 / 4)⟩, hL, v1, v2, C44_Li5l36_IEEE hL v1 v2 (by decide +kernel) (by decide +kernel) (by decide +kernel)⟩

end Polylog
