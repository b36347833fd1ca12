import Verif.Props.LiFPInst
import Verif.Props.CLi2FPBr
import Verif.Props.FLiCxMain

/-!
# C46: complex functions of the C and Fortran ports in floating point

The ports evaluate `pos_clog(1 - z)` where the C++ code evaluates `log1p(-z)`.
-/

namespace Polylog
set_option linter.style.longLine false
open Complex

variable {φ : Fmt} {L : Lib}

/-- `pos_clog(1 - v)` as computed, where the logarithm is small -/
theorem posLogP_near (hφ : FmtB φ) (hL : CxLib φ L) (p : ℚ) {z : Cx (FP φ L)} {x y : ℚ} (vx : Val φ (ofF z.re) x) (vy : Val φ (ofF z.im) y)
    (h0 : cq x y ≠ 1) (hlog : ‖Complex.log (1 - cq x y)‖ ≤ 1.11) :
    CNear (∸(posLogP p ((FOps.lit 1 : FP φ L) -. z))) (-Complex.log (1 - cq x y)) (25 * uR φ) := by
  have hu0 := uR_pos (φ := φ)
  have hu : uR φ ≤ 1e-6 := hφ.u_le.trans (by norm_num)
  have hT0 : 1 - cq x y ≠ 0 := sub_ne_zero.2 (Ne.symm h0)
  obtain ⟨hT1, hT2, hT3⟩ := log_small hT0 hlog
  have hTre : (1 - cq x y).re = 1 + -x := by simp [cq, sub_eq_add_neg]
  have hTim : (1 - cq x y).im = -y := by simp [cq]
  have hre3 := (Complex.abs_re_le_norm (1 - cq x y))
  rw [hTre] at hre3 hT3
  have hlt : |rq φ (1 + -x)| < 2 ^ φ.emax := rq_lt_maxB hφ (by
    push_cast
    exact (hre3.trans hT2).trans ((by norm_num : (3.06:ℝ) ≤ 8).trans (big900.trans capR_ge)))
  have va : Val φ (ofF ((FOps.lit 1 : FP φ L) -. z).re) (rq φ (1 + -x)) := (val_oneB hφ).add vx.neg hlt
  have vb : Val φ (ofF ((FOps.lit 1 : FP φ L) -. z).im) (-y) := vy.neg
  have her := rq_add_errR (val_oneB hφ).repr vx.neg.repr
  push_cast at her
  set a := rq φ (1 + -x) with had
  have hdist : ‖cq a (-y) - (1 - cq x y)‖ ≤ uR φ * ‖1 - cq x y‖ := by
    have e : cq a (-y) - (1 - cq x y) = (((a:ℝ) - (1 + -x) : ℝ) : ℂ) := by
      apply Complex.ext
      · rw [Complex.sub_re (cq a (-y)), hTre, cq_re, Complex.ofReal_re]
      · rw [Complex.sub_im (cq a (-y)), hTim, cq_im, Complex.ofReal_im]; push_cast; ring
    rw [e, Complex.norm_real, Real.norm_eq_abs]
    refine her.trans ?_
    rw [mul_comm]; gcongr
  have hsm : uR φ * ‖1 - cq x y‖ ≤ 1e-6 * 3.06 := by gcongr
  have hball := log_ball hdist (by rw [hTre]; norm_num at hsm ⊢; linarith)
  have hpert : ‖Complex.log (cq a (-y)) - Complex.log (1 - cq x y)‖ ≤ 1.01 * uR φ := by
    refine hball.trans ?_
    have hpos : 0 < ‖1 - cq x y‖ - uR φ * ‖1 - cq x y‖ := by norm_num at hsm hT1 ⊢; linarith
    rw [div_le_iff₀ hpos]
    refine hdist.trans ?_
    nlinarith [norm_nonneg (1 - cq x y)]
  have hlog2 : ‖Complex.log (cq a (-y))‖ ≤ 1.12 := by
    have := norm_sub_norm_le (Complex.log (cq a (-y))) (Complex.log (1 - cq x y))
    linarith
  have hn := abs_le.1 ((abs_norm_sub_norm_le (cq a (-y)) (1 - cq x y)).trans hdist)
  have hn1 : 1 / 4 ≤ ‖cq a (-y)‖ := by norm_num at hsm hT1 ⊢; linarith [hn.1]
  have hn2 : ‖cq a (-y)‖ ≤ 4 := by norm_num at hsm hT1 ⊢; linarith [hn.2]
  have ha0 : (0:ℝ) < a := by
    have h1 := Complex.abs_re_le_norm (cq a (-y) - (1 - cq x y))
    rw [Complex.sub_re (cq a (-y)), hTre, cq_re] at h1
    have := (abs_le.1 (h1.trans hdist)).1
    norm_num at hsm hT3; linarith
  have ha0' : 0 < a := by exact_mod_cast ha0
  have key : CNear (posLogP p ((FOps.lit 1 : FP φ L) -. z)) (Complex.log (cq a (-y))) (7 * uR φ) := by
    have ci : (((FOps.lit 1 : FP φ L) -. z).im ==. (FOps.lit 0 : FP φ L)) = decide (-y = 0) := by
      rw [eq_F, ofF_lit, vb.eq (val_zeroB hφ)]
    have cr : (((FOps.lit 1 : FP φ L) -. z).re >. (FOps.lit 0 : FP φ L)) = true := by
      show ((FOps.lit 0 : FP φ L) <. ((FOps.lit 1 : FP φ L) -. z).re) = true
      rw [lt_F, ofF_lit, (val_zeroB hφ).lt va]; simpa using ha0'
    unfold posLogP
    rw [ci, cr, Bool.and_true]
    by_cases hy : -y = 0
    · rw [if_pos (by simpa using hy)]
      obtain ⟨l, vl, hl⟩ := hL.log _ a va ha0'
      refine ⟨l, 0, vl, val_zeroB hφ, ?_⟩
      have e1 : cq a (-y) = ((a:ℝ) : ℂ) := by rw [hy]; apply Complex.ext <;> simp [cq]
      rw [e1, ← Complex.ofReal_log ha0.le] at hlog2 ⊢
      rw [Complex.norm_real, Real.norm_eq_abs] at hlog2
      have e2 : cq l 0 - ((Real.log a : ℝ) : ℂ) = ((l - Real.log a : ℝ) : ℂ) := by apply Complex.ext <;> simp [cq]
      rw [e2, Complex.norm_real, Real.norm_eq_abs]
      refine hl.trans ?_
      nlinarith
    · rw [if_neg (by simpa using hy), if_neg (by simpa using hy)]
      refine (xlog_near hφ hL va vb ((show (2:ℝ) ^ (-900:ℤ) ≤ 1 / 4 from ?_).trans hn1) (hn2.trans ((by norm_num : (4:ℝ) ≤ 8).trans big900)) (Or.inl hy)).mono ?_
      · rw [show (1/4:ℝ) = 2 ^ (-2:ℤ) by norm_num]; exact zpow_le_zpow_right₀ (by norm_num) (by norm_num)
      · nlinarith
  have hk := key.neg
  refine (hk.shift (d := 1.01 * uR φ) ?_).mono (by linarith)
  rw [show -Complex.log (cq a (-y)) - -Complex.log (1 - cq x y) = -(Complex.log (cq a (-y)) - Complex.log (1 - cq x y)) by ring, norm_neg]
  exact hpert

theorem arg_invP (hφ : FmtB φ) (hL : CxLib φ L) (p : ℚ) {z : Cx (FP φ L)} {x y : ℚ} (vx : Val φ (ofF z.re) x) (vy : Val φ (ofF z.im) y) (hd : InDom x y)
    (hin2 : ‖1 / cq x y‖ ≤ 1.001) : ∃ v : ℂ, ‖v - 1 / cq x y‖ ≤ 8.1 * uR φ ∧ (v ≠ 1 → ‖Complex.log (1 - v)‖ ≤ 1.11 →
      CNear (∸(posLogP p ((FOps.lit 1 : FP φ L) -. (FOps.lit 1 : FP φ L) /. z))) (-Complex.log (1 - v)) (25 * uR φ)) := by
  have hu0 := uR_pos (φ := φ)
  have hζ0 := hd.ne_zero
  have h1 : cq 1 0 = 1 := by apply Complex.ext <;> simp [cq]
  have hemax : (8:ℝ) ≤ 2 ^ (φ.emax - 2) := by
    have : (2:ℝ) ^ (3:ℤ) ≤ 2 ^ (φ.emax - 2) := zpow_le_zpow_right₀ (by norm_num) (by have := hφ.hmax; omega)
    exact le_trans (by norm_num) this
  have hτ := tau_le hφ
  obtain ⟨e, f, ve, vf, hef⟩ := hL.cdiv _ _ _ _ 1 0 x y (val_oneB hφ) (val_zeroB hφ) vx vy hζ0
    ((show ‖cq 1 0‖ ≤ 8 by rw [h1]; norm_num).trans big900)
    (Or.inl ⟨le_trans (zpow_le_zpow_right₀ (by norm_num) (by norm_num)) hd.norm_ge, hd.norm_le.trans (zpow_le_zpow_right₀ (by norm_num) (by norm_num))⟩)
    (by rw [h1]; exact le_trans (le_trans hin2 (by norm_num)) hemax)
  rw [h1] at hef
  refine ⟨cq e f, ?_, fun hv1 hv2 => posLogP_near hφ hL p (z := (FOps.lit 1 : FP φ L) /. z) ve vf hv1 hv2⟩
  have : 8 * uR φ * ‖1 / cq x y‖ ≤ 8 * uR φ * 1.001 := by gcongr
  linarith

theorem posLogP_posLog {F : Type} [FOps F] (p : ℚ) (w : Cx F) (h : (w.im ==. (FOps.lit 0 : F)) = false) : posLogP p w = posLog w := by
  unfold posLogP posLog
  rw [h]; rfl

/-- the port functions in floating point -/
theorem portCE_fp (hφ : FmtB φ) (hL : CxLib φ L) {n : ℕ} {p p' : ℚ} {cN c1 cI : CXE true} {K E0 E1 : ℝ}
    (hC : LiCert φ n p cN c1 cI K E0 E1) {z : Cx (FP φ L)} {x y : ℚ} (vx : Val φ (ofF z.re) x) (vy : Val φ (ofF z.im) y) (hd : InDom x y) :
    CNear (portShape (posLogP p') (FOps.lit p : FP φ L) (fun u => cN.ev (env2 u (posLogP p' (∸u)))) (fun u => c1.ev (env2 u u)) (fun u l => cI.ev (env2 u l)) z)
      (pLi (n + 3) (cq x y)) ((1.001 * K * uR φ + E0 + 2.73 * E1 + 450 * uR φ) * max 1 ‖Complex.log (-cq x y)‖ ^ (n + 3)) := by
  refine cLiG_fp hφ hL hC vx vy hd (fun b vb hb => ?_) (fun hv1 hv2 => posLogP_near hφ hL p' vx vy hv1 hv2) (arg_invP hφ hL p' vx vy hd)
  show cN.ev (env2 _ (posLogP p' (∸(⟨xlog (Cx.abs z), Cx.arg z⟩ : Cx (FP φ L))))) = _
  rw [posLogP_posLog]
  · rfl
  show ((∸(Cx.arg z) : FP φ L) ==. (FOps.lit 0 : FP φ L)) = false
  have vn : Val φ (ofF (∸(Cx.arg z) : FP φ L)) (-b) := vb.neg
  rw [eq_F, ofF_lit, vn.eq (val_zeroB hφ)]
  simpa using hb

/-- in real semantics, off the real axis, the port functions are the three-branch expression of the C++ code -/
theorem portCE_R {S : RealSem} {u : ℝ} (hS : S.Lit u) (p p' : ℚ) (cN c1 cI : CXE true) {z : ℂ} (hz : z.im ≠ 0) :
    portShape (posLogP p') (FOps.lit p : R S) (fun u => cN.ev (env2 u (posLogP p' (∸u)))) (fun u => c1.ev (env2 u u)) (fun u l => cI.ev (env2 u l)) (ofC S z)
      = cLiCE p cN c1 cI (ofC S z) := by
  have h0 : z ≠ 0 := by rintro rfl; exact hz rfl
  rw [portShape_eq hS p' _ _ _ _ z h0 (by rintro rfl; exact hz Complex.one_im), cLiCE]
  unfold cLiShape
  dsimp only
  have hi : ((∸(⟨xlog (Cx.abs (ofC S z)), Cx.arg (ofC S z)⟩ : Cx (R S))).im ==. (FOps.lit 0 : R S)) = false := by
    have harg : ofR (Cx.arg (ofC S z)) = Complex.arg z := by rw [ofR_arg (by rw [toC_ofC]; exact h0), toC_ofC]
    show ((∸(Cx.arg (ofC S z)) : R S) ==. (FOps.lit 0 : R S)) = false
    rw [eq_R, ofR_neg, ofR_lit, hS.zero, harg]
    simp only [Rat.cast_zero, neg_eq_zero, decide_eq_false_iff_not]
    intro h
    exact hz (Complex.arg_eq_zero_iff.1 h).2
  rw [posLogP_posLog p' _ hi]

end Polylog
