import Verif.Sem.FPC
import Mathlib.Analysis.SpecialFunctions.Complex.LogDeriv
import Mathlib.Analysis.Calculus.MeanValue
import Mathlib.Analysis.Complex.Convex
import Mathlib.Analysis.Complex.ExponentialBounds
import Mathlib.Analysis.SpecialFunctions.Trigonometric.Bounds

/-!
# What the complex functions need from the C library, and the rounding error of `log1p(complex)`

`CxLib φ L` states the accuracy of `log`, `hypot`, `atan2` and of the complex division.
-/

namespace Polylog
set_option linter.style.longLine false
open Complex

variable {φ : Fmt} {L : Lib}

/-- Accuracy of the library functions behind `std::log(complex)` and of the complex division: one unit in the last place for `log`,
`hypot`, `atan2`, four units in the last place (of the modulus) for the division; `log(1) = 0` and `hypot(1, b) = 1` for `|b| ≤ 2^-p`. -/
structure CxLib (φ : Fmt) (L : Lib) : Prop where
  log : ∀ (x : FV) (q : ℚ), Val φ x q → 0 < q → Near φ (L.log x) (Real.log q) (2 * uR φ * |Real.log q| + uR φ ^ 2)
  log_one : ∀ x : FV, Val φ x 1 → Val φ (L.log x) 0
  hypot : ∀ (x y : FV) (a b : ℚ), Val φ x a → Val φ y b → (2:ℝ) ^ (-900 : ℤ) ≤ ‖cq a b‖ → ‖cq a b‖ ≤ 2 ^ (900 : ℤ) →
    Near φ (L.hypot x y) ‖cq a b‖ (2 * uR φ * ‖cq a b‖)
  hypot_one : ∀ (x y : FV) (b : ℚ), Val φ x 1 → Val φ y b → |(b:ℝ)| ≤ uR φ → Val φ (L.hypot x y) 1
  atan2 : ∀ (y x : FV) (b a : ℚ), Val φ y b → Val φ x a → b ≠ 0 ∨ 0 < a →
    Near φ (L.atan2 y x) (Complex.arg (cq a b)) (2 * uR φ * |Complex.arg (cq a b)| + 2 ^ φ.emin)
  cdiv : ∀ (x y x' y' : FV) (a b c d : ℚ), Val φ x a → Val φ y b → Val φ x' c → Val φ y' d → cq c d ≠ 0 → ‖cq a b‖ ≤ 2 ^ (900 : ℤ) →
    ((2:ℝ) ^ (-900 : ℤ) ≤ ‖cq c d‖ ∧ ‖cq c d‖ ≤ 2 ^ (900 : ℤ) ∨ c = 0 ∨ d = 0) → ‖cq a b / cq c d‖ ≤ 2 ^ (φ.emax - 2) →
    ∃ e f : ℚ, Val φ (L.cdiv (x, y) (x', y')).1 e ∧ Val φ (L.cdiv (x, y) (x', y')).2 f ∧
      ‖cq e f - cq a b / cq c d‖ ≤ 8 * uR φ * ‖cq a b / cq c d‖ + tauR

/-! ## the complex logarithm -/

theorem log_lip {A B : ℂ} {m : ℝ} (hm : 0 < m) (hA : m ≤ A.re) (hB : m ≤ B.re) : ‖Complex.log A - Complex.log B‖ ≤ ‖A - B‖ / m := by
  have hc : Convex ℝ {z : ℂ | m ≤ z.re} := convex_halfSpace_re_ge m
  have h := hc.norm_image_sub_le_of_norm_hasDerivWithin_le (f := Complex.log) (f' := fun z => z⁻¹) (C := 1 / m) (x := B) (y := A) (fun z hz => by
      have : z ∈ slitPlane := Or.inl (lt_of_lt_of_le hm hz)
      exact (Complex.hasDerivAt_log this).hasDerivWithinAt)
    (fun z hz => by
      rw [norm_inv, ← one_div]
      exact one_div_le_one_div_of_le hm ((show m ≤ z.re from hz).trans (Complex.re_le_norm z))) hB hA
  refine h.trans (le_of_eq ?_); ring

theorem log_small {T : ℂ} (h0 : T ≠ 0) (h : ‖Complex.log T‖ ≤ 1.11) : 1 / 3.06 ≤ ‖T‖ ∧ ‖T‖ ≤ 3.06 ∧ 1 / 8 ≤ T.re := by
  have hn : 0 < ‖T‖ := norm_pos_iff.2 h0
  have hre := (Complex.abs_re_le_norm (Complex.log T)).trans h
  have him := (Complex.abs_im_le_norm (Complex.log T)).trans h
  rw [Complex.log_re] at hre
  rw [Complex.log_im] at him
  have he : Real.exp 1.11 ≤ 3.06 := by
    have h1 := Real.exp_one_lt_d9
    have h2 : Real.exp 0.11 ≤ 1 / (1 - 0.11) := by
      have := Real.one_sub_le_exp_neg 0.11
      rw [Real.exp_neg] at this
      rw [le_div_iff₀ (by norm_num)]
      have h3 := Real.exp_pos 0.11
      calc _ ≤ Real.exp 0.11 * (Real.exp 0.11)⁻¹ := by gcongr
        _ = 1 := mul_inv_cancel₀ h3.ne'
    have h3 : Real.exp 1.11 = Real.exp 1 * Real.exp 0.11 := by rw [← Real.exp_add]; norm_num
    rw [h3]
    have := Real.exp_pos 0.11
    have h4 : Real.exp 1 * Real.exp 0.11 ≤ 2.7182818286 * (1 / (1 - 0.11)) := by gcongr
    refine h4.trans (by norm_num)
  have hu : ‖T‖ ≤ 3.06 := by
    refine le_trans ?_ he
    rw [← Real.log_le_iff_le_exp hn]; exact (abs_le.1 hre).2
  have hl : 1 / 3.06 ≤ ‖T‖ := by
    have h1 : Real.exp (-1.11) ≤ ‖T‖ := by rw [← Real.le_log_iff_exp_le hn]; exact (abs_le.1 hre).1
    refine le_trans ?_ h1
    rw [Real.exp_neg, ← one_div]
    exact one_div_le_one_div_of_le (Real.exp_pos _) he
  refine ⟨hl, hu, ?_⟩
  have hc := Real.one_sub_sq_div_two_le_cos (x := Complex.arg T)
  have hs : Complex.arg T ^ 2 ≤ 1.11 ^ 2 := by rw [← sq_abs]; exact pow_le_pow_left₀ (abs_nonneg _) him 2
  have e : T.re = ‖T‖ * Real.cos (Complex.arg T) := (Complex.norm_mul_cos_arg T).symm
  rw [e]
  have hcc : (0.3839:ℝ) ≤ Real.cos (Complex.arg T) := by norm_num at hs ⊢; linarith
  calc (1/8 : ℝ) ≤ 1 / 3.06 * 0.3839 := by norm_num
    _ ≤ _ := by gcongr

/-- `std::log` of a complex number of moderate modulus -/
theorem log_near (hφ : FmtB φ) (hL : CxLib φ L) {z : Cx (FP φ L)} {a b : ℚ} (ha : Val φ (ofF z.re) a) (hb : Val φ (ofF z.im) b)
    (h1 : (2:ℝ) ^ (-900 : ℤ) ≤ ‖cq a b‖) (h2 : ‖cq a b‖ ≤ 2 ^ (900 : ℤ)) (h3 : b ≠ 0 ∨ 0 < a) :
    (∃ n : ℚ, Val φ (ofF (Cx.abs z)) n ∧ 0 < n ∧ |(n:ℝ) - ‖cq a b‖| ≤ 2 * uR φ * ‖cq a b‖) ∧
    Near φ (ofF (xlog (Cx.abs z) : FP φ L)) (Real.log ‖cq a b‖) (2 * uR φ * |Real.log ‖cq a b‖| + 2.02 * uR φ) ∧
    Near φ (ofF (Cx.arg z)) (Complex.arg (cq a b)) (2 * uR φ * |Complex.arg (cq a b)| + 2 ^ φ.emin) := by
  have hu0 := uR_pos (φ := φ)
  have hu : uR φ ≤ 0.0001 := hφ.u_le.trans (by norm_num)
  obtain ⟨n, hn, hn'⟩ := hL.hypot _ _ a b ha hb h1 h2
  have hN : 0 < ‖cq a b‖ := lt_of_lt_of_le (by positivity) h1
  generalize ‖cq a b‖ = N at *
  have hn0 : 0 < (n:ℝ) := by have := (abs_le.1 hn').1; nlinarith
  have hn0' : 0 < n := by exact_mod_cast hn0
  refine ⟨⟨n, hn, hn0', hn'⟩, ?_, hL.atan2 _ _ b a hb ha h3⟩
  have hl := hL.log _ n hn hn0'
  have hd : |Real.log n - Real.log N| ≤ 2.001 * uR φ := by
    refine (abs_log_sub_le hn0 hN).trans ?_
    have hmin : N * (1 - 0.0002) ≤ min (n:ℝ) N := le_min (by have := (abs_le.1 hn').1; nlinarith) (by nlinarith)
    rw [div_le_iff₀ (lt_min hn0 hN)]
    refine hn'.trans ?_
    calc 2 * uR φ * N ≤ 2.001 * uR φ * (N * (1 - 0.0002)) := by nlinarith [mul_pos hu0 hN]
      _ ≤ _ := by gcongr
  have := (hl.shift hd)
  refine this.mono ?_
  have t1 : |Real.log n| ≤ |Real.log N| + 2.001 * uR φ := by
    have := abs_sub_abs_le_abs_sub (Real.log n) (Real.log N); linarith
  have t2 : 2 * uR φ * |Real.log n| ≤ 2 * uR φ * (|Real.log N| + 2.001 * uR φ) := by gcongr
  nlinarith

theorem cq_re (a b : ℚ) : (cq a b).re = a := rfl
theorem cq_im (a b : ℚ) : (cq a b).im = b := rfl

theorem emin_le (hφ : FmtB φ) : (2:ℝ) ^ φ.emin ≤ 0.0001 * uR φ := by
  have h1 := hφ.le_u
  have h2 : (2:ℝ) ^ φ.emin ≤ 2 ^ (-14 : ℤ) * 2 ^ (-113 : ℤ) := by
    rw [← zpow_add₀ (by norm_num)]
    exact zpow_le_zpow_right₀ (by norm_num) (by have := hφ.hmin; omega)
  refine h2.trans ?_
  gcongr
  norm_num

theorem tau_le (hφ : FmtB φ) : tauR ≤ 0.0001 * uR φ := by
  have h1 := hφ.le_u
  have h2 : tauR ≤ 2 ^ (-14 : ℤ) * 2 ^ (-113 : ℤ) := by
    rw [← zpow_add₀ (by norm_num)]
    exact zpow_le_zpow_right₀ (by norm_num) (by norm_num)
  refine h2.trans ?_
  gcongr
  norm_num

/-- numbers other than 1 are not close to 1 -/
theorem gap_one {v : ℚ} (h : Repr φ |v|) (h0 : 0 < v) (h1 : v ≠ 1) (hp : 1 ≤ φ.p) : uR φ ≤ |(v:ℝ) - 1| := by
  have hu : uR φ ≤ 1 / 2 := by
    unfold uR
    have : (2:ℝ) ^ (-(φ.p:ℤ)) ≤ 2 ^ (-1 : ℤ) := zpow_le_zpow_right₀ (by norm_num) (by omega)
    refine this.trans (by norm_num)
  rcases le_or_gt v (1/2) with hv | hv
  · have : (v:ℝ) ≤ 1 / 2 := by have := (Rat.cast_le (K := ℝ)).2 hv; push_cast at this; exact this
    rw [abs_sub_comm, abs_of_nonneg (by linarith)]; linarith
  rw [abs_of_pos h0] at h
  obtain ⟨m, e, he, hm, rfl⟩ := h
  have hpe : -(φ.p : ℤ) ≤ e := by
    by_contra hc
    have h2 : (m:ℚ) * 2 ^ e ≤ 2 ^ φ.p * 2 ^ (-(φ.p:ℤ) - 1) := by
      have : (m:ℚ) ≤ 2 ^ φ.p := by exact_mod_cast hm.le
      have h3 : (2:ℚ) ^ e ≤ 2 ^ (-(φ.p:ℤ) - 1) := zpow_le_zpow_right₀ (by norm_num) (by omega)
      gcongr
    have h4 : (2:ℚ) ^ φ.p * 2 ^ (-(φ.p:ℤ) - 1) = 1 / 2 := by
      rw [← zpow_natCast, ← zpow_add₀ (by norm_num), show ((φ.p:ℕ):ℤ) + (-(φ.p:ℤ) - 1) = -1 by ring]; norm_num
    rw [h4] at h2; linarith
  obtain ⟨k, rfl⟩ : ∃ k : ℕ, e = -(φ.p : ℤ) + k := ⟨(e + φ.p).toNat, by omega⟩
  have e1 : (((m:ℚ) * 2 ^ (-(φ.p : ℤ) + k) : ℚ) : ℝ) - 1 = (((m:ℤ) * 2 ^ k - 2 ^ φ.p : ℤ) : ℝ) * uR φ := by
    unfold uR
    push_cast
    rw [zpow_add₀ (by norm_num), zpow_natCast, sub_mul, show (2:ℝ) ^ φ.p * 2 ^ (-(φ.p:ℤ)) = 1 by
      rw [← zpow_natCast, ← zpow_add₀ (by norm_num)]; norm_num]
    ring
  rw [e1, abs_mul, abs_of_pos uR_pos]
  have hne : (m:ℤ) * 2 ^ k - 2 ^ φ.p ≠ 0 := by
    intro hz
    apply h1
    have : ((((m:ℚ) * 2 ^ (-(φ.p : ℤ) + k) : ℚ) : ℝ)) - 1 = 0 := by rw [e1, hz]; simp
    have : ((((m:ℚ) * 2 ^ (-(φ.p : ℤ) + k) : ℚ) : ℝ)) = ((1:ℚ):ℝ) := by push_cast at this ⊢; linarith
    exact_mod_cast this
  have : (1:ℝ) ≤ |(((m:ℤ) * 2 ^ k - 2 ^ φ.p : ℤ) : ℝ)| := by
    rw [← Int.cast_abs]; exact_mod_cast Int.one_le_abs hne
  have := uR_pos (φ := φ)
  nlinarith

end Polylog
