import Verif.Props.LiFPCx

/-!
# Complex polylogarithms in floating point: each branch against the exact evaluation at a nearby point
-/

namespace Polylog
set_option linter.style.longLine false
open Complex

variable {φ : Fmt} {L : Lib} {s : ℝ}

theorem um_bn (x : ℚ) : (x:ℝ) ≤ um (bn x) := by
  unfold um bn
  rw [le_div_iff₀ (by positivity)]
  have := Nat.le_ceil (x * 2 ^ 128)
  have := (Rat.cast_le (K := ℝ)).2 this
  push_cast at this ⊢; exact this

def boxU : Bx := ⟨bn 1.0001, bn 20, -1⟩
def boxLU : Bx := ⟨bn 4.2, bn 40, 1⟩
def boxV : Bx := ⟨bn 1.1, bn 250, 0⟩
def boxLz : Bx := ⟨bn 1, bn 75, 1⟩

/-- `pos_log` off the real axis -/
theorem posLog_near (hφ : FmtB φ) (hL : CxLib φ L) {z : Cx (FP φ L)} {a b : ℚ} (ha : Val φ (ofF z.re) a) (hb : Val φ (ofF z.im) b) (h3 : b ≠ 0)
    (h1 : (2:ℝ) ^ (-900 : ℤ) ≤ ‖cq a b‖) (h2 : ‖cq a b‖ ≤ 2 ^ (900 : ℤ)) :
    CNear (posLog z) (Complex.log (cq a b)) (2 * uR φ * |Real.log ‖cq a b‖| + 8.4 * uR φ) := by
  have hu0 := uR_pos (φ := φ)
  have c : (z.im ==. (FOps.lit 0 : FP φ L)) = false := by
    rw [eq_F, ofF_lit, hb.eq (val_zeroB hφ)]; simpa using h3
  unfold posLog
  rw [c, Bool.false_and, if_neg (by simp), if_neg (by simp)]
  obtain ⟨-, g1, g2⟩ := log_near hφ hL ha hb h1 h2 (Or.inl h3)
  have := CNear.of_re_im (z := xlog z) g1 g2
  rw [show (⟨Real.log ‖cq a b‖, Complex.arg (cq a b)⟩ : ℂ) = Complex.log (cq a b) by apply Complex.ext <;> simp [Complex.log_re, Complex.log_im]] at this
  refine this.mono ?_
  have h4 := Complex.abs_arg_le_pi (cq a b)
  have h5 := Real.pi_lt_d2
  have h6 := emin_le hφ
  have h7 : 2 * uR φ * |Complex.arg (cq a b)| ≤ 2 * uR φ * 3.15 := by gcongr; linarith
  linarith

theorem branch_near (hφ : FmtB φ) (hL : CxLib φ L) {cN : CXE true} {bN : Bx} (hN : cN.chk 310 (envB boxU boxLU) = some bN) (hd : bN.d ≤ 0)
    {U : Cx (FP φ L)} {a b : ℚ} (va : Val φ (ofF U.re) a) (vb : Val φ (ofF U.im) b) (hb : (2:ℝ) ^ (-302:ℤ) ≤ |(b:ℝ)|)
    (hn : ‖cq a b‖ ≤ 1 + 1.2 * uR φ) {W : Cx (R (semF φ))} (hW : W.toC = ((1 - 16 * uR φ : ℝ) : ℂ) * cq a b) :
    CNear (cN.ev (env2 U (posLog (∸U)))) (cN.ev (env2 W (posLog (∸W))) : Cx (R (semF φ))).toC (um bN.e * uR φ) := by
  have hu0 := uR_pos (φ := φ)
  have hu : uR φ ≤ 1e-6 := hφ.u_le.trans (by norm_num)
  have hb0 : b ≠ 0 := by
    intro h0
    rw [h0, Rat.cast_zero, abs_zero] at hb
    exact absurd hb (not_le.2 (by positivity))
  have hnb : (2:ℝ) ^ (-302:ℤ) ≤ ‖cq a b‖ := hb.trans (Complex.abs_im_le_norm (cq a b))
  have hn0 : 0 < ‖cq a b‖ := lt_of_lt_of_le (by positivity) hnb
  set w' : ℂ := ((1 - 16 * uR φ : ℝ) : ℂ) * cq a b with hw'
  have hwn : ‖w'‖ = (1 - 16 * uR φ) * ‖cq a b‖ := by
    rw [hw', norm_mul, Complex.norm_real, Real.norm_eq_abs, abs_of_pos (by linarith)]
  have hw1 : ‖w'‖ < 1 := by rw [hwn]; nlinarith
  have hw0 : 0 < ‖w'‖ := by rw [hwn]; exact mul_pos (by linarith) hn0
  set Λ : ℝ := 1 / ‖w'‖ with hΛ
  have hΛ1 : 1 ≤ Λ := by rw [hΛ, le_div_iff₀ hw0]; linarith
  have hΛi : Λ ^ (-1:ℤ) = ‖w'‖ := by rw [hΛ, zpow_neg_one, one_div, inv_inv]
  have hΛ2 : Λ ≤ 2 ^ 310 := by
    rw [hΛ, div_le_iff₀ hw0, hwn]
    calc (1:ℝ) ≤ 2 ^ (310:ℕ) * (0.5 * 2 ^ (-302:ℤ)) := by
          rw [← zpow_natCast, show (2:ℝ) ^ ((310:ℕ):ℤ) * (0.5 * 2 ^ (-302:ℤ)) = 0.5 * (2 ^ ((310:ℕ):ℤ) * 2 ^ (-302:ℤ)) by ring, ← zpow_add₀ (by norm_num)]
          norm_num
      _ ≤ 2 ^ 310 * ((1 - 16 * uR φ) * ‖cq a b‖) := by
        refine mul_le_mul_of_nonneg_left ?_ (by positivity)
        refine mul_le_mul ?_ hnb (by positivity) ?_ <;> norm_num at hu ⊢ <;> linarith
  -- the two variables
  have H0 : CHolds Λ U W.toC boxU := by
    refine ⟨?_, a, b, va, vb, ?_⟩
    · show _ ≤ um (bn 1.0001) * Λ ^ (-1:ℤ)
      rw [hW, hΛi]
      have := um_bn 1.0001
      push_cast at this
      nlinarith
    · show _ ≤ um (bn 20) * uR φ * Λ ^ (-1:ℤ)
      rw [hW, hΛi, hw', show cq a b - ((1 - 16 * uR φ : ℝ) : ℂ) * cq a b = ((16 * uR φ : ℝ) : ℂ) * cq a b by push_cast; ring,
        norm_mul, Complex.norm_real, Real.norm_eq_abs, abs_of_pos (by positivity), ← hw', hwn]
      have := um_bn 20
      push_cast at this
      calc 16 * uR φ * ‖cq a b‖ ≤ 20 * uR φ * ((1 - 16 * uR φ) * ‖cq a b‖) := by
            nlinarith [mul_pos hu0 hn0]
        _ ≤ _ := by rw [← hwn]; gcongr
  have hneg : cq (-a) (-b) = -cq a b := by apply Complex.ext <;> simp [cq]
  have hw0' : w' ≠ 0 := norm_pos_iff.1 hw0
  have hRW : (posLog (∸W)).toC = Complex.log (-w') := by
    rw [C07_pos_log (semF_lit hφ) _ (by rw [toC_neg, hW]; simpa using hw0'), toC_neg, hW]
  have hlogΛ : |Real.log ‖w'‖| ≤ Λ - 1 := by
    have h1 : Real.log ‖w'‖ ≤ 0 := Real.log_nonpos hw0.le hw1.le
    rw [abs_of_nonpos h1]
    have := Real.log_le_sub_one_of_pos (x := Λ) (by linarith)
    rw [hΛ, one_div, Real.log_inv, ← one_div, ← hΛ] at this
    exact this
  have hshift : ‖Complex.log (-cq a b) - Complex.log (-w')‖ ≤ 16.1 * uR φ := by
    have e : -w' = ((1 - 16 * uR φ : ℝ) : ℂ) * (-cq a b) := by rw [hw']; ring
    rw [e, Complex.log_ofReal_mul (by linarith) (neg_ne_zero.2 (norm_pos_iff.1 hn0))]
    rw [show Complex.log (-cq a b) - (((Real.log (1 - 16 * uR φ) : ℝ) : ℂ) + Complex.log (-cq a b)) = -((Real.log (1 - 16 * uR φ) : ℝ) : ℂ) by ring,
      norm_neg, Complex.norm_real, Real.norm_eq_abs, abs_of_nonpos (Real.log_nonpos (by linarith) (by linarith))]
    have := Real.one_sub_inv_le_log_of_pos (x := 1 - 16 * uR φ) (by linarith)
    have h2 : (1 - 16 * uR φ)⁻¹ ≤ 1 + 16.1 * uR φ := by
      rw [inv_le_comm₀ (by linarith) (by linarith), ← one_div, div_le_iff₀ (by linarith)]
      nlinarith
    linarith
  have hlogd : |Real.log ‖cq a b‖| ≤ Λ - 1 + 16.1 * uR φ := by
    have h1 := Complex.abs_re_le_norm (Complex.log (-cq a b) - Complex.log (-w'))
    rw [Complex.sub_re, Complex.log_re, Complex.log_re, norm_neg, norm_neg] at h1
    have := abs_sub_abs_le_abs_sub (Real.log ‖cq a b‖) (Real.log ‖w'‖)
    linarith
  have H1 : CHolds Λ (posLog (∸U)) (posLog (∸W)).toC boxLU := by
    rw [hRW]
    refine ⟨?_, ?_⟩
    · show _ ≤ um (bn 4.2) * Λ ^ (1:ℤ)
      rw [zpow_one]
      have e : Complex.log (-w') = ((Real.log ‖-w'‖ : ℝ) : ℂ) + ((Complex.arg (-w') : ℝ) : ℂ) * I := rfl
      have h1 : ‖Complex.log (-w')‖ ≤ Λ - 1 + 3.15 := by
        rw [e]
        refine (norm_add_le _ _).trans ?_
        rw [norm_mul, Complex.norm_I, Complex.norm_real, Complex.norm_real, mul_one, Real.norm_eq_abs, Real.norm_eq_abs, norm_neg]
        have h4 := Complex.abs_arg_le_pi (-w')
        have h5 := Real.pi_lt_d2
        linarith
      have := um_bn 4.2
      push_cast at this
      nlinarith
    · show CNear _ _ (um (bn 40) * uR φ * Λ ^ (1:ℤ))
      rw [zpow_one]
      have h1 := posLog_near hφ hL (z := ∸U) va.neg vb.neg (neg_ne_zero.2 hb0)
        (by rw [hneg, norm_neg]; exact le_trans (zpow_le_zpow_right₀ (by norm_num) (by norm_num)) hnb)
        (by rw [hneg, norm_neg]; exact (hn.trans (by linarith)).trans big900)
      rw [hneg, norm_neg] at h1
      refine (h1.shift hshift).mono ?_
      have := um_bn 40
      push_cast at this
      calc 2 * uR φ * |Real.log ‖cq a b‖| + 8.4 * uR φ + 16.1 * uR φ ≤ 2 * uR φ * (Λ - 1 + 16.1 * uR φ) + 8.4 * uR φ + 16.1 * uR φ := by gcongr
        _ ≤ 40 * uR φ * Λ := by nlinarith
        _ ≤ _ := by gcongr
  obtain ⟨-, hres⟩ := CXE.sound hφ hΛ1 hΛ2 (by norm_num) (env := env2 U (posLog (∸U))) (envR := env2 W (posLog (∸W))) (bx := envB boxU boxLU)
    (fun i _ => by cases i with
      | zero => exact H0
      | succ i => exact H1) cN hN
  obtain ⟨-, hres⟩ := hres
  refine hres.mono ?_
  have h1 : Λ ^ bN.d ≤ Λ ^ (0:ℤ) := zpow_mono_exp hΛ1 hd
  rw [zpow_zero] at h1
  have := um_nonneg bN.e
  calc um bN.e * uR φ * Λ ^ bN.d ≤ um bN.e * uR φ * 1 := by gcongr
    _ = _ := by ring

theorem branch_fin1 (hφ : FmtB φ) {c1 : CXE true} {b1 : Bx} (h1 : c1.chk 10 (envB boxV boxV) = some b1)
    {U : Cx (FP φ L)} {W : Cx (R (semF φ))} (hW : ‖W.toC‖ ≤ 1.1) (hU : CNear U W.toC (250 * uR φ)) :
    CNear (c1.ev (env2 U U)) (c1.ev (env2 W W) : Cx (R (semF φ))).toC (um b1.e * uR φ) := by
  have hu0 := uR_pos (φ := φ)
  have H0 : CHolds 1 U W.toC boxV := by
    have q1 := um_bn 1.1
    have q2 := um_bn 250
    push_cast at q1 q2
    refine ⟨?_, hU.mono ?_⟩
    · show _ ≤ um (bn 1.1) * 1 ^ (0:ℤ)
      rw [one_zpow, mul_one]; linarith
    · show _ ≤ um (bn 250) * uR φ * 1 ^ (0:ℤ)
      rw [one_zpow, mul_one]; gcongr
  obtain ⟨-, -, hres⟩ := CXE.sound hφ le_rfl (by norm_num) (by norm_num) (env := env2 U U) (envR := env2 W W) (bx := envB boxV boxV)
    (fun i _ => by cases i with
      | zero => exact H0
      | succ i => exact H0) c1 h1
  rw [one_zpow, mul_one] at hres
  exact hres

theorem branch_finI (hφ : FmtB φ) {cI : CXE true} {bI : Bx} (h1 : cI.chk 10 (envB boxV boxLz) = some bI) {Λ : ℝ} (hΛ1 : 1 ≤ Λ) (hΛ2 : Λ ≤ 2 ^ 10)
    {U l : Cx (FP φ L)} {W l' : Cx (R (semF φ))} (hW : ‖W.toC‖ ≤ 1.1) (hU : CNear U W.toC (250 * uR φ)) (hl' : ‖l'.toC‖ ≤ Λ) (hl : CNear l l'.toC (75 * uR φ * Λ)) :
    CNear (cI.ev (env2 U l)) (cI.ev (env2 W l') : Cx (R (semF φ))).toC (um bI.e * uR φ * Λ ^ bI.d) := by
  have hu0 := uR_pos (φ := φ)
  have H0 : CHolds Λ U W.toC boxV := by
    have q1 := um_bn 1.1
    have q2 := um_bn 250
    push_cast at q1 q2
    refine ⟨?_, hU.mono ?_⟩
    · show _ ≤ um (bn 1.1) * Λ ^ (0:ℤ)
      rw [zpow_zero, mul_one]; linarith
    · show _ ≤ um (bn 250) * uR φ * Λ ^ (0:ℤ)
      rw [zpow_zero, mul_one]; gcongr
  have H1 : CHolds Λ l l'.toC boxLz := by
    have q1 := um_bn 1
    have q2 := um_bn 75
    push_cast at q1 q2
    refine ⟨?_, hl.mono ?_⟩
    · show _ ≤ um (bn 1) * Λ ^ (1:ℤ)
      rw [zpow_one]; nlinarith
    · show _ ≤ um (bn 75) * uR φ * Λ ^ (1:ℤ)
      rw [zpow_one]; gcongr
  obtain ⟨-, -, hres⟩ := CXE.sound hφ hΛ1 hΛ2 (by norm_num) (env := env2 U l) (envR := env2 W l') (bx := envB boxV boxLz)
    (fun i _ => by cases i with
      | zero => exact H0
      | succ i => exact H1) cI h1
  exact hres

end Polylog
