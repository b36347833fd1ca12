import Verif.Props.CLi2FPGeo

/-!
# Complex dilogarithm in floating point: computed quantities and branches
-/

namespace Polylog
set_option linter.style.longLine false
open Complex

variable {φ : Fmt} {L : Lib}

theorem half_lt_cast {x : ℚ} (h : 1 / 2 < x) : (1/2:ℝ) < x := by
  have := (Rat.cast_lt (K := ℝ)).2 h
  push_cast at this; exact this

theorem cq_norm_sq (x y : ℚ) : ‖cq x y‖ ^ 2 = (x:ℝ) * x + (y:ℝ) * y := by
  rw [← normSq_eq_norm_sq, normSq_apply]; rfl

theorem cq_neg (x y : ℚ) : cq (-x) (-y) = -cq x y := by apply Complex.ext <;> simp [cq]

/-- `std::norm(z)` as computed -/
theorem norm_test (hφ : FmtB φ) {z : Cx (FP φ L)} {x y : ℚ} (vx : Val φ (ofF z.re) x) (vy : Val φ (ofF z.im) y) (hd : InDom x y) :
    ∃ t : ℚ, Val φ (ofF (Cx.norm z)) t ∧ |(t:ℝ) - ‖cq x y‖ ^ 2| ≤ 2.1 * uR φ * ‖cq x y‖ ^ 2 := by
  have hu0 := uR_pos (φ := φ)
  have hu : uR φ ≤ 1e-6 := hφ.u_le.trans (by norm_num)
  have hN := cq_norm_sq x y
  have hτ0 := tauR_pos
  have hτ : tauR ≤ 0.001 * uR φ * ‖cq x y‖ ^ 2 := by
    have h1 : (2:ℝ) ^ (-600:ℤ) ≤ ‖cq x y‖ ^ 2 := by
      have := pow_le_pow_left₀ (by positivity) hd.norm_ge 2
      refine le_trans (le_of_eq ?_) this
      rw [← zpow_natCast, ← zpow_mul]; norm_num
    have h2 : tauR ≤ 2 ^ (-10:ℤ) * 2 ^ (-113:ℤ) * 2 ^ (-600:ℤ) := by
      rw [← zpow_add₀ (by norm_num), ← zpow_add₀ (by norm_num)]
      exact zpow_le_zpow_right₀ (by norm_num) (by norm_num)
    refine h2.trans ?_
    have := hφ.le_u
    gcongr
    norm_num
  have hcap : ‖cq x y‖ ^ 2 * 2 ≤ capR := by
    have h1 : ‖cq x y‖ ^ 2 ≤ 2 ^ (602:ℤ) := by
      have := pow_le_pow_left₀ (norm_nonneg _) hd.norm_le 2
      refine le_trans this (le_of_eq ?_)
      rw [← zpow_natCast, ← zpow_mul]; norm_num
    have h2 : (2:ℝ) ^ (602:ℤ) * 2 ≤ capR := by
      rw [show (2:ℝ) ^ (602:ℤ) * 2 = 2 ^ (602:ℤ) * 2 ^ (1:ℤ) by norm_num, ← zpow_add₀ (by norm_num)]
      exact zpow_le_zpow_right₀ (by norm_num) (by norm_num)
    refine le_trans ?_ h2
    gcongr
  have hx0 := mul_self_nonneg (x:ℝ)
  have hy0 := mul_self_nonneg (y:ℝ)
  rw [hN] at hτ hcap ⊢
  clear hN
  generalize hX : (x:ℝ) * x = X at *
  generalize hY : (y:ℝ) * y = Y at *
  have rx := rq_errT hφ (x * x)
  have ry := rq_errT hφ (y * y)
  push_cast at rx ry
  rw [hX, abs_of_nonneg hx0] at rx
  rw [hY, abs_of_nonneg hy0] at ry
  have vX := vx.mul vx (rq_lt_maxB hφ (by push_cast; rw [hX, abs_of_nonneg hx0]; linarith))
  have vY := vy.mul vy (rq_lt_maxB hφ (by push_cast; rw [hY, abs_of_nonneg hy0]; linarith))
  have rs := rq_add_errR vX.repr vY.repr
  have hs : |((rq φ (x * x) : ℚ) : ℝ) + (rq φ (y * y) : ℚ) - (X + Y)| ≤ 1.003 * uR φ * (X + Y) := by
    rw [abs_le] at rx ry ⊢
    constructor <;> nlinarith
  have hsb : |((rq φ (x * x) : ℚ) : ℝ) + (rq φ (y * y) : ℚ)| ≤ 1.01 * (X + Y) := by
    rw [abs_le] at hs ⊢
    constructor <;> nlinarith
  refine ⟨_, vX.add vY (rq_lt_maxB hφ (by push_cast; linarith)), ?_⟩
  have h3 : |((rq φ (x * x) : ℚ) : ℝ) + (rq φ (y * y) : ℚ)| * uR φ ≤ 1.01 * (X + Y) * uR φ := by gcongr
  have := abs_sub_le ((rq φ (rq φ (x * x) + rq φ (y * y)) : ℚ) : ℝ) (((rq φ (x * x) : ℚ) : ℝ) + (rq φ (y * y) : ℚ)) (X + Y)
  nlinarith

/-- `2.0*rz` is exact -/
theorem two_mul_val (hφ : FmtB φ) {r : FP φ L} {x : ℚ} (vx : Val φ (ofF r) x) (h1 : |(x:ℝ)| ≤ 2 ^ (300:ℤ)) :
    ∃ t : ℚ, Val φ (ofF ((FOps.lit 2 : FP φ L) *. r)) t ∧ |(t:ℝ) - 2 * x| ≤ uR φ * (2 * |(x:ℝ)|) + tauR := by
  have v2 : Val φ (ofF (FOps.lit 2 : FP φ L)) 2 := near_dy hφ.a 2 0 (by norm_num) (by norm_num) (by norm_num)
  have hcap : 2 * |(x:ℝ)| ≤ capR := by
    refine le_trans (b := (2:ℝ) ^ (301:ℤ)) ?_ (zpow_le_zpow_right₀ (by norm_num) (by norm_num))
    rw [show (301:ℤ) = 1 + 300 by norm_num, zpow_add₀ (by norm_num), zpow_one]
    linarith
  have := rq_errT hφ (2 * x)
  push_cast at this
  rw [abs_mul, abs_two] at this
  refine ⟨_, v2.mul vx (rq_lt_maxB hφ (by push_cast; rw [abs_mul, abs_two]; exact hcap)), ?_⟩
  linarith

/-- `std::log` with the error relative to the modulus of the logarithm -/
theorem xlog_near (hφ : FmtB φ) (hL : CxLib φ L) {z : Cx (FP φ L)} {a b : ℚ} (ha : Val φ (ofF z.re) a) (hb : Val φ (ofF z.im) b)
    (h1 : (2:ℝ) ^ (-900 : ℤ) ≤ ‖cq a b‖) (h2 : ‖cq a b‖ ≤ 2 ^ (900 : ℤ)) (h3 : b ≠ 0 ∨ 0 < a) :
    CNear (xlog z) (Complex.log (cq a b)) (4 * uR φ * ‖Complex.log (cq a b)‖ + 2.1 * uR φ) := by
  have hu0 := uR_pos (φ := φ)
  obtain ⟨-, g1, g2⟩ := log_near hφ hL ha hb h1 h2 h3
  have := CNear.of_re_im (z := xlog z) g1 g2
  rw [show (⟨Real.log ‖cq a b‖, Complex.arg (cq a b)⟩ : ℂ) = Complex.log (cq a b) by apply Complex.ext <;> simp [Complex.log_re, Complex.log_im]] at this
  refine this.mono ?_
  have h4 := Complex.abs_im_le_norm (Complex.log (cq a b))
  have h5 := Complex.abs_re_le_norm (Complex.log (cq a b))
  rw [Complex.log_im] at h4
  rw [Complex.log_re] at h5
  have h6 := emin_le hφ
  have h7 : 2 * uR φ * |Complex.arg (cq a b)| ≤ 2 * uR φ * ‖Complex.log (cq a b)‖ := by gcongr
  have h8 : 2 * uR φ * |Real.log ‖cq a b‖| ≤ 2 * uR φ * ‖Complex.log (cq a b)‖ := by gcongr
  linarith

theorem norm_log_le (T : ℂ) : ‖Complex.log T‖ ≤ |Real.log ‖T‖| + 3.15 := by
  have e : Complex.log T = ((Real.log ‖T‖ : ℝ) : ℂ) + ((Complex.arg T : ℝ) : ℂ) * I := rfl
  rw [e]
  refine (norm_add_le _ _).trans ?_
  rw [norm_mul, Complex.norm_I, Complex.norm_real, Complex.norm_real, mul_one, Real.norm_eq_abs, Real.norm_eq_abs]
  have h4 := Complex.abs_arg_le_pi T
  have h5 := Real.pi_lt_d2
  linarith

theorem one_sub_cq (x y : ℚ) : cq (1 - x) (-y) = 1 - cq x y := by apply Complex.ext <;> simp [cq]

/-- `log(1 - z)` as computed for `z` right of `1/2` -/
theorem clog1p_right (hφ : FmtB φ) (hL : CxLib φ L) {z : Cx (FP φ L)} {x y : ℚ} (vx : Val φ (ofF z.re) x) (vy : Val φ (ofF z.im) y) (hd : InDom x y)
    (h1 : 1 / 2 < x) (h2 : (x:ℝ) ≤ 2.001) (h3 : ‖1 - cq x y‖ ^ 2 ≤ 1.0001) :
    ‖Complex.log (1 - cq x y)‖ ≤ 213 ∧ CNear (clog1p (∸z)) (Complex.log (1 - cq x y)) (25 * uR φ * (‖Complex.log (1 - cq x y)‖ + 1)) := by
  have hu0 := uR_pos (φ := φ)
  have hu : uR φ ≤ 1e-6 := hφ.u_le.trans (by norm_num)
  have hτ := tau_le hφ
  have hτ0 := tauR_pos
  have hy0 := hd.y_ne
  have hx4 : x < 4 := by have : (x:ℝ) < 4 := by linarith
                         exact_mod_cast this
  have hrep : Repr φ |1 - x| := repr_one_sub (by have := hφ.hp; omega) (by have := hφ.hmin; have := hφ.hq; omega) vx.repr h1.le hx4
  have hT0 : (2:ℝ) ^ (-300:ℤ) ≤ ‖1 - cq x y‖ := by
    have := Complex.abs_im_le_norm (1 - cq x y)
    rw [Complex.sub_im, Complex.one_im, cq_im, zero_sub, abs_neg] at this
    exact hd.y_ge.trans this
  have hTp : 0 < ‖1 - cq x y‖ := lt_of_lt_of_le (by positivity) hT0
  have hT1 : ‖1 - cq x y‖ ≤ 1.001 := by nlinarith
  have hln : |Real.log ‖1 - cq x y‖| ≤ 208.5 := by
    have l2 := Real.log_two_lt_d9
    have k1 := Real.log_le_sub_one_of_pos hTp
    have k2 : -300 * Real.log 2 ≤ Real.log ‖1 - cq x y‖ := by
      have := Real.log_le_log (by positivity) hT0
      rw [Real.log_zpow] at this
      push_cast at this; exact this
    rw [abs_le]; constructor <;> linarith
  have hl := norm_log_le (1 - cq x y)
  refine ⟨by linarith, ?_⟩
  have hl213 : ‖Complex.log (1 - cq x y)‖ ≤ 213 := by linarith
  have hlt : |rq φ (-x + 1)| < 2 ^ φ.emax := by
    rw [show -x + 1 = 1 - x by ring]
    refine rq_lt_maxB hφ ?_
    have : |((1 - x : ℚ) : ℝ)| ≤ 8 := by push_cast; have : (1/2:ℝ) < x := half_lt_cast h1
                                         rw [abs_le]; constructor <;> linarith
    exact this.trans (big900.trans capR_ge)
  have vv : Val φ (ofF ((FOps.lit 1 : FP φ L) +. ∸z).re) (1 - x) := by
    have := vx.neg.add (val_oneB hφ) hlt
    rw [show -x + 1 = 1 - x by ring, rq_repr hrep] at this
    exact this
  have vw : Val φ (ofF ((FOps.lit 1 : FP φ L) +. ∸z).im) (-y) := vy.neg
  have hlog := xlog_near hφ hL (z := (FOps.lit 1 : FP φ L) +. ∸z) vv vw (by rw [one_sub_cq]; exact (zpow_le_zpow_right₀ (by norm_num) (by norm_num)).trans hT0)
    (by rw [one_sub_cq]; exact (hT1.trans (by norm_num)).trans big900) (Or.inl (neg_ne_zero.2 hy0))
  rw [one_sub_cq] at hlog
  have c1 : ((((FOps.lit 1 : FP φ L) +. ∸z).re ==. (FOps.lit 1 : FP φ L)) && (((FOps.lit 1 : FP φ L) +. ∸z).im ==. (FOps.lit 0 : FP φ L))) = false := by
    rw [eq_F, ofF_lit, vv.eq (val_oneB hφ)]
    have : ¬ (1 - x = 1) := by intro h; linarith
    simp [this]
  have c2 : (((FOps.lit 1 : FP φ L) +. ∸z).re <=. (FOps.lit 0 : FP φ L)) = decide (1 - x ≤ 0) := by
    rw [le_F, ofF_lit, vv.le (val_zeroB hφ)]
  unfold clog1p
  dsimp only
  rw [c1, if_neg (by simp), c2]
  have hln0 := norm_nonneg (Complex.log (1 - cq x y))
  by_cases hx1 : 1 - x ≤ 0
  · rw [if_pos (by simpa using hx1)]
    refine hlog.mono ?_
    nlinarith
  · rw [if_neg (by simpa using hx1)]
    have vm : Val φ (ofF (((FOps.lit 1 : FP φ L) +. ∸z) -. (FOps.lit 1 : FP φ L)).re) (-x) := by
      have hx0 : |(((1 - x + -1 : ℚ)) : ℝ)| ≤ 8 := by
        push_cast; have : (1/2:ℝ) < x := half_lt_cast h1
        rw [abs_le]; constructor <;> linarith
      have := vv.add (val_oneB hφ).neg (rq_lt_maxB hφ (hx0.trans (big900.trans capR_ge)))
      rw [show 1 - x + -1 = -x by ring, rq_repr (by rw [abs_neg]; exact vx.repr)] at this
      exact this
    have vm' : Val φ (ofF (((FOps.lit 1 : FP φ L) +. ∸z) -. (FOps.lit 1 : FP φ L)).im) (-y) := vy.neg
    have hne : cq (-x) (-y) ≠ 0 := by rw [cq_neg]; exact neg_ne_zero.2 hd.ne_zero
    have hd1 : cq (-x) (-y) / cq (-x) (-y) = 1 := div_self hne
    have hemax : (8:ℝ) ≤ 2 ^ (φ.emax - 2) := by
      have : (2:ℝ) ^ (3:ℤ) ≤ 2 ^ (φ.emax - 2) := zpow_le_zpow_right₀ (by norm_num) (by have := hφ.hmax; omega)
      exact le_trans (by norm_num) this
    have hnn : ‖cq (-x) (-y)‖ ≤ 2 ^ (900:ℤ) := by
      rw [cq_neg, norm_neg]; exact hd.norm_le.trans (zpow_le_zpow_right₀ (by norm_num) (by norm_num))
    obtain ⟨e, f, ve, vf, hef⟩ := hL.cdiv _ _ _ _ (-x) (-y) (-x) (-y) vx.neg vy.neg vm vm' hne hnn
      (Or.inl ⟨by rw [cq_neg, norm_neg]; exact le_trans (zpow_le_zpow_right₀ (by norm_num) (by norm_num)) hd.norm_ge, hnn⟩)
      (by rw [hd1, norm_one]; linarith)
    rw [hd1, norm_one, mul_one] at hef
    have hq : CNear (∸z /. (((FOps.lit 1 : FP φ L) +. ∸z) -. (FOps.lit 1 : FP φ L))) 1 (8.001 * uR φ) := ⟨e, f, ve, vf, hef.trans (by linarith)⟩
    have hc8 : (8:ℝ) ^ 4 ≤ capR := by
      refine le_trans (b := (2:ℝ) ^ (12:ℤ)) (by norm_num) (zpow_le_zpow_right₀ (by norm_num) (by norm_num))
    set ℓ := ‖Complex.log (1 - cq x y)‖ with hℓ
    have he1 : 4 * uR φ * ℓ + 2.1 * uR φ ≤ 0.001 := by nlinarith
    have hbb : (ℓ + (4 * uR φ * ℓ + 2.1 * uR φ)) * (‖(1:ℂ)‖ + 8.001 * uR φ) ≤ 1.001 * (ℓ + 0.001) := by
      rw [norm_one, mul_comm]
      exact mul_le_mul (by linarith) (by linarith) (by positivity) (by norm_num)
    have hm := hlog.mul hφ hq (by rw [← hℓ]; norm_num at hc8; linarith)
    rw [mul_one, ← hℓ, norm_one] at hm
    rw [norm_one] at hbb
    refine hm.mono ?_
    have k1 : 2.42 * uR φ * ((ℓ + (4 * uR φ * ℓ + 2.1 * uR φ)) * (1 + 8.001 * uR φ)) ≤ 2.42 * uR φ * (1.001 * (ℓ + 0.001)) := by gcongr
    have k2 : (4 * uR φ * ℓ + 2.1 * uR φ) * (8.001 * uR φ) ≤ 0.001 * (8.001 * uR φ) := by gcongr
    nlinarith

/-- `-log z` as computed for `z` in the region of the reflection formula -/
theorem log_right (hφ : FmtB φ) (hL : CxLib φ L) {z : Cx (FP φ L)} {x y : ℚ} (vx : Val φ (ofF z.re) x) (vy : Val φ (ofF z.im) y) (hd : InDom x y)
    (h1 : 1 / 2 < x) (h3 : ‖1 - cq x y‖ ^ 2 ≤ 1.0001) (hl1 : ‖Complex.log (cq x y)‖ ≤ 1.1) :
    ∃ e : ℝ, CNear (∸(xlog z)) (-Complex.log (cq x y)) e ∧ e ≤ 7 * uR φ ∧ e * ‖Complex.log (1 - cq x y)‖ ≤ 580 * uR φ := by
  have hu0 := uR_pos (φ := φ)
  have hu : uR φ ≤ 1e-6 := hφ.u_le.trans (by norm_num)
  have hy0 := hd.y_ne
  have hT0 : 1 - cq x y ≠ 0 := by
    intro h
    have := congrArg Complex.im h
    simp [cq_im] at this
    exact hy0 this
  have hTp : 0 < ‖1 - cq x y‖ := norm_pos_iff.2 hT0
  have hT1 : ‖1 - cq x y‖ ≤ 1.001 := by nlinarith
  obtain ⟨hp1, hp2⟩ := log_prod hT0 (by rw [cq_re]; have : (1/2:ℝ) < x := half_lt_cast h1
                                        exact this.le) h3
  obtain ⟨n, a, b, vn, va, vb, hn, ha, hb⟩ := log_data hφ hL vx vy hd
  have hre := (Complex.abs_re_le_norm (Complex.log (cq x y)))
  have him := (Complex.abs_im_le_norm (Complex.log (cq x y)))
  by_cases hB : x = 1 ∧ |(y:ℝ)| ≤ uR φ
  · obtain ⟨hx1, hyu⟩ := hB
    have v1 : Val φ (ofF (Cx.abs z)) 1 := hL.hypot_one _ _ y (by rw [← hx1]; exact vx) vy hyu
    have v0 : Val φ (ofF (xlog (Cx.abs z) : FP φ L)) 0 := hL.log_one _ v1
    have hty : ‖1 - cq x y‖ = |(y:ℝ)| := by
      rw [show 1 - cq x y = ((-(y:ℝ) : ℝ) : ℂ) * I by rw [hx1]; apply Complex.ext <;> simp [cq], norm_mul, Complex.norm_I, Complex.norm_real, mul_one, Real.norm_eq_abs, abs_neg]
    set t := ‖1 - cq x y‖ with ht
    have hlre : |(Complex.log (cq x y)).re| ≤ 0.5 * uR φ * t := by
      rw [Complex.log_re]
      have hN := cq_norm_sq x y
      rw [hx1] at hN
      push_cast at hN
      have hyy : (y:ℝ) * y = t ^ 2 := by rw [hty, sq_abs]; ring
      rw [hyy] at hN
      have hNp : 0 < ‖cq x y‖ := norm_pos_iff.2 hd.ne_zero
      have h2 : 2 * Real.log ‖cq x y‖ = Real.log (1 * 1 + t ^ 2) := by
        rw [← hN, hx1, Real.log_pow]; push_cast; ring
      have h4 := Real.log_le_sub_one_of_pos (x := 1 * 1 + t ^ 2) (by positivity)
      have h5 := Real.log_nonneg (x := 1 * 1 + t ^ 2) (by nlinarith)
      rw [abs_le]
      constructor <;> nlinarith
    have hc : CNear (∸(xlog z)) (-Complex.log (cq x y)) (4.6 * uR φ * t) := by
      refine CNear.neg ⟨0, b, v0, vb, ?_⟩
      have h5 := Complex.norm_le_abs_re_add_abs_im (cq 0 b - Complex.log (cq x y))
      rw [Complex.sub_re, Complex.sub_im, cq_re, cq_im, Rat.cast_zero, zero_sub, abs_neg] at h5
      have h6 : 2.001 * uR φ * |(Complex.log (cq x y)).im| ≤ 2.001 * uR φ * (2 * t) := by gcongr; linarith
      nlinarith
    refine ⟨_, hc, ?_, ?_⟩
    · nlinarith
    · calc 4.6 * uR φ * t * ‖Complex.log (1 - cq x y)‖ = 4.6 * uR φ * (t * ‖Complex.log (1 - cq x y)‖) := by ring
        _ ≤ 4.6 * uR φ * 3.6 := by gcongr
        _ ≤ _ := by linarith
  · have htu : uR φ ≤ ‖1 - cq x y‖ := by
      by_cases hx1 : x = 1
      · have : uR φ < |(y:ℝ)| := not_le.1 fun h => hB ⟨hx1, h⟩
        have h4 := Complex.abs_im_le_norm (1 - cq x y)
        rw [Complex.sub_im, Complex.one_im, cq_im, zero_sub, abs_neg] at h4
        linarith
      · have h5 := gap_one vx.repr (by linarith) hx1 (by have := hφ.hp; omega)
        have h4 := Complex.abs_re_le_norm (1 - cq x y)
        rw [Complex.sub_re, Complex.one_re, cq_re, abs_sub_comm] at h4
        linarith
    have hln : |Real.log ‖1 - cq x y‖| ≤ 78.5 := by
      have l2 := Real.log_two_lt_d9
      have k1 := Real.log_le_sub_one_of_pos hTp
      have k2 : -113 * Real.log 2 ≤ Real.log ‖1 - cq x y‖ := by
        have := Real.log_le_log (by positivity) (hφ.le_u.trans htu)
        rw [Real.log_zpow] at this
        push_cast at this; exact this
      rw [abs_le]; constructor <;> linarith
    have hl := norm_log_le (1 - cq x y)
    have hc : CNear (∸(xlog z)) (-Complex.log (cq x y)) (7 * uR φ) := by
      refine CNear.neg ⟨a, b, va, vb, ?_⟩
      have h5 := Complex.norm_le_abs_re_add_abs_im (cq a b - Complex.log (cq x y))
      rw [Complex.sub_re, Complex.sub_im, cq_re, cq_im] at h5
      have h6 : 2.001 * uR φ * |(Complex.log (cq x y)).im| ≤ 2.001 * uR φ * 1.1 := by gcongr; linarith
      have h7 : 2 * uR φ * |(Complex.log (cq x y)).re| ≤ 2 * uR φ * 1.1 := by gcongr; linarith
      linarith
    refine ⟨_, hc, le_rfl, ?_⟩
    have : 7 * uR φ * ‖Complex.log (1 - cq x y)‖ ≤ 7 * uR φ * 82 := by gcongr; linarith
    linarith

/-- the product `log z * log(1-z)` as computed -/
theorem li2_prod (hφ : FmtB φ) (hL : CxLib φ L) {z : Cx (FP φ L)} {x y : ℚ} (vx : Val φ (ofF z.re) x) (vy : Val φ (ofF z.im) y) (hd : InDom x y)
    (h1 : 1 / 2 < x) (h2 : (x:ℝ) ≤ 2.001) (h3 : ‖1 - cq x y‖ ^ 2 ≤ 1.0001) (hl1 : ‖Complex.log (cq x y)‖ ≤ 1.1) :
    ‖-Complex.log (cq x y) * Complex.log (1 - cq x y)‖ ≤ 7.2 ∧
    CNear (∸(xlog z)) (-Complex.log (cq x y)) (7 * uR φ) ∧
    CNear (∸(xlog z) *. clog1p (∸z)) (-Complex.log (cq x y) * Complex.log (1 - cq x y)) (900 * uR φ) := by
  have hu0 := uR_pos (φ := φ)
  have hu : uR φ ≤ 1e-6 := hφ.u_le.trans (by norm_num)
  have hu' : uR φ ≤ 1e-12 := hφ.u_le.trans (by norm_num)
  have hτ := tau_le hφ
  have hT0 : 1 - cq x y ≠ 0 := by
    intro h
    have := congrArg Complex.im h
    simp [cq_im] at this
    exact hd.y_ne this
  obtain ⟨hp1, hp2⟩ := log_prod hT0 (by rw [cq_re]; have : (1/2:ℝ) < x := half_lt_cast h1
                                        exact this.le) h3
  obtain ⟨hL1, hL2⟩ := clog1p_right hφ hL vx vy hd h1 h2 h3
  obtain ⟨e, he, he7, heL⟩ := log_right hφ hL vx vy hd h1 h3 hl1
  have he0 := he.nonneg
  have hprod : ‖Complex.log (cq x y)‖ * ‖Complex.log (1 - cq x y)‖ ≤ 7.2 := by
    calc _ ≤ 2 * ‖1 - cq x y‖ * ‖Complex.log (1 - cq x y)‖ := by gcongr
      _ = 2 * (‖1 - cq x y‖ * ‖Complex.log (1 - cq x y)‖) := by ring
      _ ≤ _ := by linarith
  refine ⟨by rw [norm_mul, norm_neg]; exact hprod, he.mono he7, ?_⟩
  have hn1 := norm_nonneg (Complex.log (cq x y))
  have hn2 := norm_nonneg (Complex.log (1 - cq x y))
  set A := ‖Complex.log (cq x y)‖ with hA
  set B := ‖Complex.log (1 - cq x y)‖ with hB
  have hB25 : 25 * uR φ * (B + 1) ≤ 0.001 := by nlinarith
  have hbb : (A + e) * (B + 25 * uR φ * (B + 1)) ≤ 7.3 := by
    have : A * (25 * uR φ * (B + 1)) ≤ 1.1 * 0.001 := by gcongr
    have k : e * (25 * uR φ * (B + 1)) ≤ 7 * 1e-6 * 0.001 := by
      refine mul_le_mul (by linarith) hB25 (by positivity) (by norm_num)
    nlinarith
  have hc8 : (8:ℝ) ^ 4 ≤ capR := by
    refine le_trans (b := (2:ℝ) ^ (12:ℤ)) (by norm_num) (zpow_le_zpow_right₀ (by norm_num) (by norm_num))
  have hm := he.mul hφ hL2 (by rw [norm_neg, ← hA, ← hB]; norm_num at hc8; linarith)
  rw [norm_neg, ← hA, ← hB] at hm
  refine hm.mono ?_
  have k1 : 25 * uR φ * (B + 1) * A ≤ 208 * uR φ := by nlinarith
  have k2 : e * (25 * uR φ * (B + 1)) ≤ 7 * uR φ * 0.001 := mul_le_mul he7 hB25 (by positivity) (by positivity)
  have k3 : 2.42 * uR φ * ((A + e) * (B + 25 * uR φ * (B + 1))) ≤ 2.42 * uR φ * 7.3 := by gcongr
  linarith

end Polylog
