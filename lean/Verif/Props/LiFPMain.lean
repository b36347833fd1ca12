import Verif.Props.LiFPBr

/-!
# Complex polylogarithms in floating point: the error bound
-/

namespace Polylog
set_option linter.style.longLine false
open Complex

variable {φ : Fmt} {L : Lib} {s : ℝ}

theorem pow_pert {u M r : ℝ} (hu0 : 0 < u) (hu : u ≤ 1e-6) (hM : 1 ≤ M) (hr : r ≤ M + 65 * u) (hr0 : 0 ≤ r) {k : ℕ} (hk : k ≤ 6) : r ^ k ≤ 1.001 * M ^ k := by
  have h1 : r ≤ (1 + 65 * u) * M := by nlinarith
  calc r ^ k ≤ ((1 + 65 * u) * M) ^ k := pow_le_pow_left₀ hr0 h1 k
    _ = (1 + 65 * u) ^ k * M ^ k := mul_pow _ _ _
    _ ≤ 1.001 * M ^ k := by
      refine mul_le_mul_of_nonneg_right ?_ (by positivity)
      calc (1 + 65 * u) ^ k ≤ (1 + 65 * u) ^ 6 := pow_le_pow_right₀ (by linarith) hk
        _ ≤ (1 + 65 * 1e-6) ^ 6 := by gcongr
        _ ≤ _ := by norm_num

/-- rounding error, method error at the nearby point, distance of the points -/
theorem fp_combine (hφ : FmtB φ) (hs : s = 1 ∨ s = -1) {n : ℕ} (hn : n ≤ 3) {w w' : ℂ} (hw : w ∈ hstrip s) (hw' : w' ∈ hstrip s)
    (hd : ‖w' - w‖ ≤ 60 * uR φ) {X : Cx (FP φ L)} {Rv : ℂ} {k E0 E1 : ℝ} (hE1 : 0 ≤ E1) (hE0 : 0 ≤ E0) (hX : CNear X Rv k)
    (hR : ‖Rv - pLi (n + 3) (Complex.exp w')‖ ≤ E0 + if ‖Complex.exp w'‖ ≤ 1 then 0 else E1 * expN (n + 3) ‖Complex.log (-Complex.exp w')‖) :
    CNear X (pLi (n + 3) (Complex.exp w)) (k + (E0 + 2.73 * E1 + 450 * uR φ) * max 1 ‖Complex.log (-Complex.exp w)‖ ^ (n + 3)) := by
  have hu0 := uR_pos (φ := φ)
  have hu : uR φ ≤ 1e-6 := hφ.u_le.trans (by norm_num)
  rw [log_neg_exp_strip hs hw'] at hR
  rw [log_neg_exp_strip hs hw]
  set M := max 1 ‖w - s * Real.pi * I‖ with hM
  have hM1 : 1 ≤ M := le_max_left _ _
  have hMw : ‖w - s * Real.pi * I‖ ≤ M := le_max_right _ _
  set r := M + 60 * uR φ with hr
  have hr1 : 1 ≤ r := by linarith
  have hrw' : ‖w' - s * Real.pi * I‖ ≤ r := by
    have := norm_add_le (w' - w) (w - s * Real.pi * I)
    rw [show w' - w + (w - s * Real.pi * I) = w' - s * Real.pi * I by ring] at this
    linarith
  have p3 : r ^ (n + 3) ≤ 1.001 * M ^ (n + 3) := pow_pert hu0 hu hM1 (by linarith) (by linarith) (by omega)
  have p2 : r ^ (n + 2) ≤ 1.001 * M ^ (n + 2) := pow_pert hu0 hu hM1 (by linarith) (by linarith) (by omega)
  have pm : M ^ (n + 2) ≤ M ^ (n + 3) := pow_le_pow_right₀ hM1 (by omega)
  have pm1 : 1 ≤ M ^ (n + 2) := one_le_pow₀ hM1
  have hm : (if ‖Complex.exp w'‖ ≤ 1 then 0 else E1 * expN (n + 3) ‖w' - s * Real.pi * I‖) ≤ 2.73 * E1 * M ^ (n + 3) := by
    have q : expN (n + 3) ‖w' - s * Real.pi * I‖ ≤ 2.73 * M ^ (n + 3) := by
      have q1 : expN (n + 3) ‖w' - s * Real.pi * I‖ ≤ expN (n + 3) r := by
        refine Finset.sum_le_sum fun m _ => ?_
        gcongr
      have q2 := expN_le_pow (n + 3) hr1
      linarith
    split
    · positivity
    · calc _ ≤ E1 * (2.73 * M ^ (n + 3)) := by gcongr
        _ = _ := by ring
  have hlip := pLi_lip hs n hw hw' (hMw.trans (by linarith)) hrw'
  have hl2 : (2 + 2 * expN (n + 2) r) * ‖w' - w‖ ≤ 450 * uR φ * M ^ (n + 3) := by
    have q2 := expN_le_pow (n + 2) hr1
    calc (2 + 2 * expN (n + 2) r) * ‖w' - w‖ ≤ (7.46 * M ^ (n + 3)) * (60 * uR φ) := by
          refine mul_le_mul ?_ hd (norm_nonneg _) (by positivity)
          linarith
      _ = (447.6 * uR φ) * M ^ (n + 3) := by ring
      _ ≤ _ := by gcongr; linarith
  have h1 := (hX.shift hR).shift (hlip.trans hl2)
  refine h1.mono ?_
  have : E0 ≤ E0 * M ^ (n + 3) := by
    have : 1 ≤ M ^ (n + 3) := one_le_pow₀ hM1
    nlinarith
  linarith

/-- what is needed of the expressions for the three branches -/
structure LiCert (φ : Fmt) (n : ℕ) (p : ℚ) (cN c1 cI : CXE true) (K E0 E1 : ℝ) : Prop where
  near : ∃ b, cN.chk 310 (envB boxU boxLU) = some b ∧ b.d ≤ 0 ∧ um b.e ≤ K
  fin1 : ∃ b, c1.chk 10 (envB boxV boxV) = some b ∧ um b.e ≤ K
  finI : ∃ b, cI.chk 10 (envB boxV boxLz) = some b ∧ b.d ≤ (n:ℤ) + 3 ∧ um b.e ≤ K
  ord : n ≤ 3
  pi_lit : isLit p = true
  pi_err : |(((semF φ).rho p : ℚ) : ℝ) - Real.pi| ≤ 5 * uR φ
  E0_nonneg : 0 ≤ E0
  E1_nonneg : 0 ≤ E1
  method : ∀ z : ℂ, z.im ≠ 0 → ‖(cLiCE p cN c1 cI (ofC (semF φ) z)).toC - pLi (n + 3) z‖ ≤ E0 + if ‖z‖ ≤ 1 then 0 else E1 * expN (n + 3) ‖Complex.log (-z)‖

theorem test_true {u N t : ℝ} (hu0 : 0 < u) (hu : u ≤ 1e-6) (ht : |t - N ^ 2| ≤ 2.1 * u * N ^ 2 + 0.001 * u) (h : t < 1) : N ≤ 1 + 1.2 * u := by
  by_contra hc
  push Not at hc
  have h1 := (abs_le.1 ht).1
  have hsq : (1 + 1.2 * u) ^ 2 ≤ N ^ 2 := pow_le_pow_left₀ (by positivity) hc.le 2
  have h2 : (1 + 1.2 * u) ^ 2 * (1 - 2.1 * u) ≤ N ^ 2 * (1 - 2.1 * u) := mul_le_mul_of_nonneg_right hsq (by linarith)
  have h3 : N ^ 2 * (1 - 2.1 * u) < 1 + 0.001 * u := by linarith
  have h4 : (1 + 1.2 * u) ^ 2 * (1 - 2.1 * u) = 1 + 0.3 * u - 3.6 * u ^ 2 - 3.024 * u ^ 3 := by ring
  have h5 : u ^ 2 ≤ 1e-6 * u := by nlinarith
  have h6 : u ^ 3 ≤ u ^ 2 := by nlinarith
  linarith

theorem test_false {u N t : ℝ} (hu0 : 0 < u) (hu : u ≤ 1e-6) (hN0 : 0 ≤ N) (ht : |t - N ^ 2| ≤ 2.1 * u * N ^ 2 + 0.001 * u) (h : 1 ≤ t) : 1 - 1.2 * u ≤ N := by
  by_contra hc
  push Not at hc
  have h1 := (abs_le.1 ht).2
  have hsq : N ^ 2 ≤ (1 - 1.2 * u) ^ 2 := pow_le_pow_left₀ hN0 hc.le 2
  have h2 : N ^ 2 * (1 + 2.1 * u) ≤ (1 - 1.2 * u) ^ 2 * (1 + 2.1 * u) := mul_le_mul_of_nonneg_right hsq (by linarith)
  have h3 : 1 - 0.001 * u ≤ N ^ 2 * (1 + 2.1 * u) := by linarith
  have h4 : (1 - 1.2 * u) ^ 2 * (1 + 2.1 * u) = 1 - 0.3 * u - 3.6 * u ^ 2 + 3.024 * u ^ 3 := by ring
  have h5 : u ^ 2 ≤ 1e-6 * u := by nlinarith
  have h6 : u ^ 3 ≤ u ^ 2 := by nlinarith
  have h7 : 0 ≤ u ^ 2 := sq_nonneg u
  linarith

theorem fp_near (hφ : FmtB φ) (hL : CxLib φ L) {n : ℕ} {p : ℚ} {cN c1 cI : CXE true} {K E0 E1 : ℝ} (hC : LiCert φ n p cN c1 cI K E0 E1)
    {z : Cx (FP φ L)} {x y : ℚ} (hd : InDom x y) {a b : ℚ} (va : Val φ (ofF (xlog (Cx.abs z) : FP φ L)) a) (vb : Val φ (ofF (Cx.arg z)) b)
    {w : ℂ} (hwd : w = Complex.log (cq x y))
    (ha : |(a:ℝ) - w.re| ≤ 2 * uR φ * |w.re| + 2.02 * uR φ) (hb : |(b:ℝ) - w.im| ≤ 2.001 * uR φ * |w.im|) (hs : s = 1 ∨ s = -1) (hw : w ∈ hstrip s)
    (hN1 : ‖cq a b‖ ≤ 1 + 1.2 * uR φ) :
    CNear (cN.ev (env2 (⟨xlog (Cx.abs z), Cx.arg z⟩ : Cx (FP φ L)) (posLog (∸(⟨xlog (Cx.abs z), Cx.arg z⟩ : Cx (FP φ L)))))) (pLi (n + 3) (cq x y))
      ((1.001 * K * uR φ + E0 + 2.73 * E1 + 450 * uR φ) * max 1 ‖Complex.log (-cq x y)‖ ^ (n + 3)) := by
  have hu0 := uR_pos (φ := φ)
  have hu : uR φ ≤ 1e-6 := hφ.u_le.trans (by norm_num)
  have hζ0 := hd.ne_zero
  have hζn : 0 < ‖cq x y‖ := norm_pos_iff.2 hζ0
  have hexp : Complex.exp w = cq x y := by rw [hwd]; exact Complex.exp_log hζ0
  have hwre : w.re = Real.log ‖cq x y‖ := by rw [hwd]; exact Complex.log_re _
  have hwim : w.im = Complex.arg (cq x y) := by rw [hwd]; exact Complex.log_im _
  have harg := hd.arg_ge0
  rw [← hwim] at harg
  have hK : 0 ≤ K := by obtain ⟨b, -, -, h⟩ := hC.near; exact (um_nonneg _).trans h
  set N := ‖cq a b‖ with hN
  have hN0 : 0 ≤ N := norm_nonneg _
  have hww : ‖cq a b - w‖ ≤ |(a:ℝ) - w.re| + |(b:ℝ) - w.im| := Complex.norm_le_abs_re_add_abs_im (cq a b - w)
  have hM1 : 1 ≤ max 1 ‖Complex.log (-cq x y)‖ ^ (n + 3) := one_le_pow₀ (le_max_left _ _)
  have ha1 : |(a:ℝ)| ≤ N := Complex.abs_re_le_norm (cq a b)
  have hb1 : |(b:ℝ)| ≤ N := Complex.abs_im_le_norm (cq a b)
  have hre : |w.re| ≤ 1.2 := by
    have := abs_sub_abs_le_abs_sub w.re (a:ℝ)
    rw [abs_sub_comm] at this
    nlinarith [abs_nonneg w.re]
  have him : |w.im| ≤ 1.2 := by
    have := abs_sub_abs_le_abs_sub w.im (b:ℝ)
    rw [abs_sub_comm] at this
    nlinarith [abs_nonneg w.im]
  have hww2 : ‖cq a b - w‖ ≤ 7 * uR φ := by nlinarith
  have hbl : (2:ℝ) ^ (-302:ℤ) ≤ |(b:ℝ)| := by
    have q1 : ‖cq x y‖ ≤ 3.4 := by
      have : ‖cq x y‖ ≤ Real.exp 1.2 := by
        rw [← Real.log_le_iff_le_exp hζn, ← hwre]; exact (abs_le.1 hre).2
      refine this.trans ?_
      have h1 := Real.exp_one_lt_d9
      have h2 : Real.exp 0.2 ≤ 1 / (1 - 0.2) := by
        have := Real.one_sub_le_exp_neg 0.2
        rw [Real.exp_neg] at this
        rw [le_div_iff₀ (by norm_num)]
        have h3 := Real.exp_pos 0.2
        calc _ ≤ Real.exp 0.2 * (Real.exp 0.2)⁻¹ := by gcongr
          _ = 1 := mul_inv_cancel₀ h3.ne'
      have h3 : Real.exp 1.2 = Real.exp 1 * Real.exp 0.2 := by rw [← Real.exp_add]; norm_num
      rw [h3]
      have h4 : Real.exp 1 * Real.exp 0.2 ≤ 2.7182818286 * (1 / (1 - 0.2)) := by gcongr
      exact h4.trans (by norm_num)
    have q2 : (2:ℝ) ^ (-300:ℤ) / 3.4 ≤ |w.im| := by
      refine le_trans ?_ harg
      have := hd.y_ge
      gcongr
    have q3 : |w.im| * (1 - 2.001 * uR φ) ≤ |(b:ℝ)| := by
      have := abs_sub_abs_le_abs_sub w.im (b:ℝ)
      rw [abs_sub_comm] at this
      linarith
    refine le_trans ?_ q3
    refine le_trans ?_ (mul_le_mul_of_nonneg_right q2 (by linarith))
    rw [show (-300:ℤ) = -302 + 2 by norm_num, zpow_add₀ (by norm_num)]
    have : (0:ℝ) < 2 ^ (-302:ℤ) := by positivity
    generalize (2:ℝ) ^ (-302:ℤ) = c at *
    rw [show c * 2 ^ (2:ℤ) / 3.4 = c * (4 / 3.4) by norm_num; ring, mul_assoc]
    refine le_mul_of_one_le_right this.le ?_
    norm_num at hu ⊢; linarith
  set w' : ℂ := ((1 - 16 * uR φ : ℝ) : ℂ) * cq a b with hw'
  have hw'im : w'.im = (1 - 16 * uR φ) * b := by rw [hw', Complex.im_ofReal_mul, cq_im]
  have hsb : 0 < s * b := by
    have h1 := hw.1
    have hss : |s| = 1 := by rcases hs with rfl | rfl <;> norm_num
    have h2 : |s * b - s * w.im| ≤ 2.001 * uR φ * (s * w.im) := by
      have : |w.im| = s * w.im := by rw [← abs_of_pos h1, abs_mul, hss, one_mul]
      rw [← mul_sub, abs_mul, hss, one_mul, ← this]; exact hb
    have := (abs_le.1 h2).1
    nlinarith
  have hw's : w' ∈ hstrip s := by
    have hpi := Real.pi_gt_three
    refine ⟨?_, ?_⟩
    · rw [hw'im, show s * ((1 - 16 * uR φ) * b) = (1 - 16 * uR φ) * (s * b) by ring]; exact mul_pos (by linarith) hsb
    · rw [hw'im, show s * ((1 - 16 * uR φ) * b) = (1 - 16 * uR φ) * (s * b) by ring]
      have : s * b ≤ N := by
        refine le_trans (le_abs_self _) ?_
        rw [abs_mul]; rcases hs with rfl | rfl <;> simpa using hb1
      nlinarith
  have hdist : ‖w' - w‖ ≤ 60 * uR φ := by
    have e : w' - w = (cq a b - w) - ((16 * uR φ : ℝ) : ℂ) * cq a b := by rw [hw']; push_cast; ring
    rw [e]
    refine (norm_sub_le _ _).trans ?_
    rw [norm_mul, Complex.norm_real, Real.norm_eq_abs, abs_of_pos (by positivity), ← hN]
    nlinarith
  have hlog := log_exp_strip hs hw's
  have hw'n : ‖w'‖ < 1 := by
    rw [hw', norm_mul, Complex.norm_real, Real.norm_eq_abs, abs_of_pos (by linarith), ← hN]; nlinarith
  obtain ⟨W, hW, hRe⟩ := cLiShape_R_near (semF_lit hφ) (FOps.lit p : R (semF φ)) (fun u => cN.ev (env2 u (posLog (∸u)))) (fun u => c1.ev (env2 u u))
    (fun u l => cI.ev (env2 u l)) (Complex.exp_ne_zero w') (by rw [hlog]; exact hw'n)
  obtain ⟨bN, hcN, hdN, heN⟩ := hC.near
  have hbr := branch_near hφ hL hcN hdN (U := ⟨xlog (Cx.abs z), Cx.arg z⟩) va vb hbl hN1 (W := W) (by rw [hW, hlog])
  have hmeth := hC.method (Complex.exp w') (by
    have := exp_im_strip hs hw's
    intro h; rw [h] at this; simp at this)
  have hRe' : cLiCE p cN c1 cI (ofC (semF φ) (Complex.exp w')) = cN.ev (env2 W (posLog (∸W))) := hRe
  rw [hRe'] at hmeth
  have hfin := fp_combine hφ hs hC.ord hw hw's hdist hC.E1_nonneg hC.E0_nonneg hbr hmeth
  rw [hexp] at hfin
  refine hfin.mono ?_
  have q1 : um bN.e * uR φ ≤ K * uR φ := by gcongr
  have q2 : 0 ≤ K * uR φ := by positivity
  nlinarith

theorem fp_fin1 (hφ : FmtB φ) {n : ℕ} {p : ℚ} {cN c1 cI : CXE true} {K E0 E1 : ℝ}
    (hC : LiCert φ n p cN c1 cI K E0 E1) {x y : ℚ} (hd : InDom x y) {U : Cx (FP φ L)}
    (hUl : cq x y ≠ 1 → ‖Complex.log (1 - cq x y)‖ ≤ 1.11 → CNear U (-Complex.log (1 - cq x y)) (25 * uR φ))
    {w : ℂ} (hwd : w = Complex.log (cq x y)) (hs : s = 1 ∨ s = -1) (hw : w ∈ hstrip s) (hw1 : 1 - 10 * uR φ ≤ ‖w‖) (hwr : w.re ≤ 2.1 * uR φ) :
    CNear (c1.ev (env2 U U)) (pLi (n + 3) (cq x y))
      ((1.001 * K * uR φ + E0 + 2.73 * E1 + 450 * uR φ) * max 1 ‖Complex.log (-cq x y)‖ ^ (n + 3)) := by
  have hu0 := uR_pos (φ := φ)
  have hu : uR φ ≤ 1e-6 := hφ.u_le.trans (by norm_num)
  have hζ0 := hd.ne_zero
  have hexp : Complex.exp w = cq x y := by rw [hwd]; exact Complex.exp_log hζ0
  have hK : 0 ≤ K := by obtain ⟨b, -, -, h⟩ := hC.near; exact (um_nonneg _).trans h
  have hM1 : 1 ≤ max 1 ‖Complex.log (-cq x y)‖ ^ (n + 3) := one_le_pow₀ (le_max_left _ _)
  obtain ⟨w', hw's, hw're, hw'n, hdist⟩ := exists_branch_point hu0 hu hs (t := 1) (Or.inl rfl) hw hw1 (by linarith)
  rw [one_mul] at hw're
  have hlog := log_exp_strip hs hw's
  have him0 : (Complex.exp w').im ≠ 0 := by
    have := exp_im_strip hs hw's
    intro h; rw [h] at this; simp at this
  have hz1 : Complex.exp w' ≠ 1 := by intro h; rw [h] at him0; simp at him0
  have hzn : ‖Complex.exp w'‖ ≤ 1 := by rw [Complex.norm_exp]; exact Real.exp_le_one_iff.2 hw're.le
  have hlo := norm_log_one_sub hzn (by rw [hlog]; exact hw'n) hz1
  have hpert := exp_pert hu0 hu hdist hzn
  rw [hexp] at hpert
  obtain ⟨hv1, hv2, hv3⟩ := log_one_sub_pert hu0 hu hz1 hlo (hpert.trans (by linarith))
  obtain ⟨W, hW, hRe⟩ := cLiShape_R_fin1 (semF_lit hφ) (FOps.lit p : R (semF φ)) (fun u => cN.ev (env2 u (posLog (∸u)))) (fun u => c1.ev (env2 u u))
    (fun u l => cI.ev (env2 u l)) (Complex.exp_ne_zero w') hz1 (by rw [hlog]; exact hw'n) hzn
  have hU : CNear U W.toC (250 * uR φ) := by
    rw [hW]
    refine ((hUl hv1 hv2).shift (d := 222 * uR φ) ?_).mono (by linarith)
    rw [show -Complex.log (1 - cq x y) - -Complex.log (1 - Complex.exp w') = -(Complex.log (1 - cq x y) - Complex.log (1 - Complex.exp w')) by ring, norm_neg]
    exact hv3
  obtain ⟨b1, hc1, he1⟩ := hC.fin1
  have hbr := branch_fin1 hφ hc1 (by rw [hW, norm_neg]; exact hlo) hU
  have hmeth := hC.method (Complex.exp w') him0
  have hRe' : cLiCE p cN c1 cI (ofC (semF φ) (Complex.exp w')) = c1.ev (env2 W W) := hRe
  rw [hRe'] at hmeth
  have hfin := fp_combine hφ hs hC.ord hw hw's hdist hC.E1_nonneg hC.E0_nonneg hbr hmeth
  rw [hexp] at hfin
  refine hfin.mono ?_
  have q1 : um b1.e * uR φ ≤ K * uR φ := by gcongr
  have q2 : 0 ≤ K * uR φ := by positivity
  nlinarith

set_option maxHeartbeats 1000000 in
theorem fp_finI (hφ : FmtB φ) {n : ℕ} {p : ℚ} {cN c1 cI : CXE true} {K E0 E1 : ℝ}
    (hC : LiCert φ n p cN c1 cI K E0 E1) {z : Cx (FP φ L)} {x y : ℚ} (hd : InDom x y) {U : Cx (FP φ L)}
    (hUl : ‖1 / cq x y‖ ≤ 1.001 → ∃ v : ℂ, ‖v - 1 / cq x y‖ ≤ 8.1 * uR φ ∧ (v ≠ 1 → ‖Complex.log (1 - v)‖ ≤ 1.11 → CNear U (-Complex.log (1 - v)) (25 * uR φ)))
    {a b : ℚ} (va : Val φ (ofF (xlog (Cx.abs z) : FP φ L)) a) (vb : Val φ (ofF (Cx.arg z)) b)
    {w : ℂ} (hwd : w = Complex.log (cq x y))
    (ha : |(a:ℝ) - w.re| ≤ 2 * uR φ * |w.re| + 2.02 * uR φ) (hb : |(b:ℝ) - w.im| ≤ 2.001 * uR φ * |w.im|)
    (hs : s = 1 ∨ s = -1) (hw : w ∈ hstrip s) (hsb : 0 < b ↔ s = 1) (hw1 : 1 - 10 * uR φ ≤ ‖w‖) (hwr : -w.re ≤ 2.1 * uR φ) :
    CNear (cI.ev (env2 U
        (⟨xlog (Cx.abs z), if (Cx.arg z) >. (FOps.lit 0 : FP φ L) then Cx.arg z -. (FOps.lit p : FP φ L) else Cx.arg z +. (FOps.lit p : FP φ L)⟩ : Cx (FP φ L)))) (pLi (n + 3) (cq x y))
      ((1.001 * K * uR φ + E0 + 2.73 * E1 + 450 * uR φ) * max 1 ‖Complex.log (-cq x y)‖ ^ (n + 3)) := by
  have hu0 := uR_pos (φ := φ)
  have hu : uR φ ≤ 1e-6 := hφ.u_le.trans (by norm_num)
  have hζ0 := hd.ne_zero
  have hexp : Complex.exp w = cq x y := by rw [hwd]; exact Complex.exp_log hζ0
  have hK : 0 ≤ K := by obtain ⟨b, -, -, h⟩ := hC.near; exact (um_nonneg _).trans h
  have hM1 : 1 ≤ max 1 ‖Complex.log (-cq x y)‖ ^ (n + 3) := one_le_pow₀ (le_max_left _ _)
  have hre209 : |w.re| ≤ 209 := by rw [hwd]; exact hd.re_log
  have hpid := Real.pi_lt_d2
  have hpid' := Real.pi_gt_d2
  have hargpi : |w.im| ≤ 3.15 := by
    rw [hwd, Complex.log_im]; have := Complex.abs_arg_le_pi (cq x y); linarith
  obtain ⟨w', hw's, hw're, hw'n, hdist⟩ := exists_branch_point hu0 hu hs (t := -1) (Or.inr rfl) hw hw1 (by linarith)
  have hw'0 : 0 < w'.re := by linarith
  have hlog := log_exp_strip hs hw's
  have him0 : (Complex.exp w').im ≠ 0 := by
    have := exp_im_strip hs hw's
    intro h; rw [h] at this; simp at this
  have hz1 : Complex.exp w' ≠ 1 := by intro h; rw [h] at him0; simp at him0
  have hzn : 1 < ‖Complex.exp w'‖ := by rw [Complex.norm_exp]; exact Real.one_lt_exp_iff.2 hw'0
  -- the reciprocal
  have hinv : 1 / Complex.exp w' = Complex.exp (-w') := by rw [Complex.exp_neg, one_div]
  have hinn : ‖Complex.exp (-w')‖ ≤ 1 := by rw [Complex.norm_exp]; exact Real.exp_le_one_iff.2 (by rw [Complex.neg_re]; linarith)
  have hin1 : Complex.exp (-w') ≠ 1 := by
    rw [← hinv]; intro h; rw [div_eq_iff (Complex.exp_ne_zero w'), one_mul] at h; exact hz1 h.symm
  have hlogi : ‖Complex.log (Complex.exp (-w'))‖ = ‖w'‖ := by
    have : -w' ∈ hstrip (-s) := ⟨by have := hw's.1; rw [Complex.neg_im]; linarith, by have := hw's.2; rw [Complex.neg_im]; linarith⟩
    rw [log_exp_strip (by rcases hs with rfl | rfl <;> simp) this, norm_neg]
  have hlo := norm_log_one_sub hinn (by rw [hlogi]; exact hw'n) hin1
  have hpert := exp_pert (w := -w) (w' := -w') hu0 hu (by rw [show -w' - -w = -(w' - w) by ring, norm_neg]; exact hdist) hinn
  have hexpi : Complex.exp (-w) = 1 / cq x y := by rw [Complex.exp_neg, hexp, one_div]
  rw [hexpi] at hpert
  have hin2 : ‖1 / cq x y‖ ≤ 1.001 := by
    have := norm_sub_norm_le (1 / cq x y) (Complex.exp (-w'))
    linarith
  obtain ⟨v, hv, hUv⟩ := hUl hin2
  have hvp : ‖v - Complex.exp (-w')‖ ≤ 72 * uR φ := by
    have e1 : v - Complex.exp (-w') = (v - 1 / cq x y) + (1 / cq x y - Complex.exp (-w')) := by ring
    rw [e1]
    refine (norm_add_le _ _).trans ?_
    linarith
  obtain ⟨hv1, hv2, hv3⟩ := log_one_sub_pert hu0 hu hin1 hlo hvp
  obtain ⟨W, l', hW, hl', hRe⟩ := cLiShape_R_finI (semF_lit hφ) (FOps.lit p : R (semF φ)) (fun u => cN.ev (env2 u (posLog (∸u)))) (fun u => c1.ev (env2 u u))
    (fun u l => cI.ev (env2 u l)) hz1 (by rw [hlog]; exact hw'n) hzn
  rw [hinv] at hW
  have hU : CNear U W.toC (250 * uR φ) := by
    rw [hW]
    refine ((hUv hv1 hv2).shift (d := 222 * uR φ) ?_).mono (by linarith)
    rw [show -Complex.log (1 - v) - -Complex.log (1 - Complex.exp (-w')) = -(Complex.log (1 - v) - Complex.log (1 - Complex.exp (-w'))) by ring, norm_neg]
    exact hv3
  -- the logarithm of -z
  obtain ⟨vP, -⟩ := lit_holds hφ hC.pi_lit
  have hPe := hC.pi_err
  have hofP : ofR (FOps.lit p : R (semF φ)) = (((semF φ).rho p : ℚ) : ℝ) := ofR_lit _
  rw [hofP] at hl'
  set P : ℚ := (semF φ).rho p with hPd
  have hl'' : l'.toC = w' - ((s * P : ℝ) : ℂ) * I := by
    have harg' : Complex.arg (Complex.exp w') = w'.im := by rw [← Complex.log_im, hlog]
    have hln : Real.log ‖Complex.exp w'‖ = w'.re := by rw [← Complex.log_re, hlog]
    rw [hl', harg', hln]
    have h1 := hw's.1
    rcases hs with rfl | rfl
    · rw [if_pos (by linarith)]; apply Complex.ext <;> simp
    · rw [if_neg (by linarith)]; apply Complex.ext <;> simp
  have hss : |s| = 1 := by rcases hs with rfl | rfl <;> norm_num
  have hPb := abs_le.1 hPe
  have hsP : |s * (P:ℝ) - s * Real.pi| ≤ 5 * uR φ := by rw [← mul_sub, abs_mul, hss, one_mul]; exact hPe
  -- the computed imaginary part
  have hbs : |(b:ℝ) - s * P| ≤ 3.2 := by
    have h1 := hw.1
    have h2 : |w.im| = s * w.im := by rw [← abs_of_pos h1, abs_mul, hss, one_mul]
    have h3 : |w.im - s * P| ≤ 3.16 := by
      have e1 : w.im - s * P = s * (s * w.im - P) := by rcases hs with rfl | rfl <;> ring
      rw [e1, abs_mul, hss, one_mul, abs_le]
      constructor <;> linarith [hPb.1, hPb.2, hw.2, abs_nonneg w.im]
    have := abs_sub_le (b:ℝ) w.im (s * P)
    nlinarith [abs_nonneg w.im]
  have hreq : |(b:ℝ) - s * P| ≤ capR := hbs.trans ((by norm_num : (3.2:ℝ) ≤ 8).trans (big900.trans capR_ge))
  obtain ⟨g, vg, hg⟩ : ∃ g : ℚ, Val φ (ofF (if (Cx.arg z) >. (FOps.lit 0 : FP φ L) then Cx.arg z -. (FOps.lit p : FP φ L) else Cx.arg z +. (FOps.lit p : FP φ L))) g ∧
      |(g:ℝ) - (b - s * P)| ≤ 3.2 * uR φ := by
    have ct : ((Cx.arg z) >. (FOps.lit 0 : FP φ L)) = decide (0 < b) := by
      show ((FOps.lit 0 : FP φ L) <. Cx.arg z) = _
      rw [lt_F, ofF_lit, (val_zeroB hφ).lt vb]
    rw [ct]
    rcases hs with rfl | rfl
    · have hb0 : 0 < b := hsb.2 rfl
      rw [if_pos (by simpa using hb0)]
      have hlt : |rq φ (b + -P)| < 2 ^ φ.emax := rq_lt_maxB hφ (by push_cast; rw [one_mul] at hreq; rwa [← sub_eq_add_neg])
      refine ⟨_, vb.add vP.neg hlt, ?_⟩
      have := rq_add_errR vb.repr vP.neg.repr
      push_cast at this
      rw [one_mul] at hbs ⊢
      rw [sub_eq_add_neg (b:ℝ)] at hbs ⊢
      refine this.trans ?_
      gcongr
    · have hb0 : ¬ 0 < b := fun h => by have := hsb.1 h; norm_num at this
      rw [if_neg (by simpa using hb0)]
      have e1 : (b:ℝ) - -1 * P = b + P := by ring
      rw [e1] at hreq hbs ⊢
      have hlt : |rq φ (b + P)| < 2 ^ φ.emax := rq_lt_maxB hφ (by push_cast; exact hreq)
      refine ⟨_, vb.add vP hlt, ?_⟩
      have := rq_add_errR vb.repr vP.repr
      push_cast at this
      refine this.trans ?_
      gcongr
  set Λ := max 1 ‖l'.toC‖ with hΛ
  have hΛ1 : 1 ≤ Λ := le_max_left _ _
  have hlre : |w'.re| ≤ Λ := by
    refine le_trans ?_ (le_max_right _ _)
    have := Complex.abs_re_le_norm l'.toC
    rw [hl''] at this ⊢
    simpa using this
  have hwre : |w.re| ≤ Λ + 60 * uR φ := by
    have h1 := Complex.abs_re_le_norm (w' - w)
    rw [Complex.sub_re, abs_sub_comm] at h1
    have := abs_sub_abs_le_abs_sub w.re w'.re
    linarith
  have hll : CNear (⟨xlog (Cx.abs z), if (Cx.arg z) >. (FOps.lit 0 : FP φ L) then Cx.arg z -. (FOps.lit p : FP φ L) else Cx.arg z +. (FOps.lit p : FP φ L)⟩ : Cx (FP φ L)) l'.toC (75 * uR φ * Λ) := by
    refine ⟨a, g, va, vg, ?_⟩
    have e1 : cq a g - l'.toC = (⟨a - w.re, g - (w.im - s * P)⟩ : ℂ) - (w' - w) := by
      rw [hl'']; apply Complex.ext <;> simp [cq] <;> ring
    rw [e1]
    refine (norm_sub_le _ _).trans ?_
    have h1 := Complex.norm_le_abs_re_add_abs_im (⟨a - w.re, g - (w.im - s * P)⟩ : ℂ)
    simp only at h1
    have h2 : |(g:ℝ) - (w.im - s * P)| ≤ 3.2 * uR φ + 2.001 * uR φ * 3.15 := by
      have := abs_sub_le (g:ℝ) (b - s * P) (w.im - s * P)
      rw [show (b:ℝ) - s * P - (w.im - s * P) = b - w.im by ring] at this
      have h3 : 2.001 * uR φ * |w.im| ≤ 2.001 * uR φ * 3.15 := by gcongr
      linarith
    have h4 : 2 * uR φ * |w.re| ≤ 2 * uR φ * (Λ + 60 * uR φ) := by gcongr
    nlinarith
  have hL10 : ‖l'.toC‖ ≤ 2 ^ 10 := by
    have h1 := Complex.norm_le_abs_re_add_abs_im l'.toC
    have h2 : |l'.toC.re| ≤ 210 := by
      rw [hl'']
      simp only [Complex.sub_re, Complex.mul_re, Complex.ofReal_re, Complex.I_re, mul_zero, Complex.ofReal_im, Complex.I_im, mul_one, sub_zero, zero_mul]
      have h1 := Complex.abs_re_le_norm (w' - w)
      rw [Complex.sub_re] at h1
      have := abs_sub_abs_le_abs_sub w'.re w.re
      linarith
    have h3 : |l'.toC.im| ≤ 10 := by
      rw [hl'']
      simp only [Complex.sub_im, Complex.mul_im, Complex.ofReal_re, Complex.I_re, mul_zero, Complex.ofReal_im, Complex.I_im, mul_one, zero_add, add_zero, zero_mul]
      have h1 := Complex.abs_im_le_norm (w' - w)
      rw [Complex.sub_im] at h1
      have h5 : |w'.im| ≤ 4 := by
        have := abs_sub_abs_le_abs_sub w'.im w.im
        linarith
      have h6 : |s * (P:ℝ)| ≤ 4 := by
        rw [abs_mul, hss, one_mul, abs_le]; constructor <;> linarith
      have := abs_sub w'.im (s * P)
      linarith
    norm_num; linarith
  have hΛ2 : Λ ≤ 2 ^ 10 := max_le (by norm_num) hL10
  obtain ⟨bI, hcI, hdI, heI⟩ := hC.finI
  have hbr := branch_finI hφ hcI hΛ1 hΛ2 (by rw [hW, norm_neg]; exact hlo) hU (le_max_right _ _) hll
  have hmeth := hC.method (Complex.exp w') him0
  have hRe' : cLiCE p cN c1 cI (ofC (semF φ) (Complex.exp w')) = cI.ev (env2 W l') := hRe
  rw [hRe'] at hmeth
  have hfin := fp_combine hφ hs hC.ord hw hw's hdist hC.E1_nonneg hC.E0_nonneg hbr hmeth
  have hMe : Complex.log (-cq x y) = w - s * Real.pi * I := by rw [← hexp]; exact log_neg_exp_strip hs hw
  rw [hexp] at hfin
  refine hfin.mono ?_
  -- Λ against the bound for log(-z)
  have hΛM : Λ ≤ max 1 ‖Complex.log (-cq x y)‖ + 65 * uR φ := by
    refine max_le (by have := le_max_left 1 ‖Complex.log (-cq x y)‖; linarith) ?_
    have e1 : l'.toC = (w - s * Real.pi * I) + (w' - w) - (((s * P - s * Real.pi : ℝ)) : ℂ) * I := by
      rw [hl'']; push_cast; ring
    rw [e1, ← hMe]
    refine (norm_sub_le _ _).trans ?_
    have h1 := norm_add_le (Complex.log (-cq x y)) (w' - w)
    rw [norm_mul, Complex.norm_I, mul_one, Complex.norm_real, Real.norm_eq_abs]
    have := le_max_right 1 ‖Complex.log (-cq x y)‖
    linarith
  have hpow : Λ ^ bI.d ≤ 1.001 * max 1 ‖Complex.log (-cq x y)‖ ^ (n + 3) := by
    have h1 : Λ ^ bI.d ≤ Λ ^ ((n + 3 : ℕ) : ℤ) := zpow_mono_exp hΛ1 (by push_cast; exact hdI)
    rw [zpow_natCast] at h1
    exact h1.trans (pow_pert hu0 hu (le_max_left _ _) hΛM (by linarith) (by have := hC.ord; omega))
  generalize max 1 ‖Complex.log (-cq x y)‖ ^ (n + 3) = X at *
  have q1 : um bI.e * uR φ * Λ ^ bI.d ≤ K * uR φ * (1.001 * X) := by
    have := um_nonneg bI.e
    gcongr
  linarith

set_option maxHeartbeats 1000000 in
/-- error of the three-branch algorithm in floating point -/
theorem cLiG_fp (hφ : FmtB φ) (hL : CxLib φ L) {n : ℕ} {p : ℚ} {cN c1 cI : CXE true} {K E0 E1 : ℝ}
    (hC : LiCert φ n p cN c1 cI K E0 E1) {z : Cx (FP φ L)} {x y : ℚ} (vx : Val φ (ofF z.re) x) (vy : Val φ (ofF z.im) y) (hd : InDom x y)
    {N₀ U V : Cx (FP φ L)}
    (hNl : ∀ b : ℚ, Val φ (ofF (Cx.arg z)) b → b ≠ 0 → N₀ = cN.ev (env2 ⟨xlog (Cx.abs z), Cx.arg z⟩ (posLog (∸(⟨xlog (Cx.abs z), Cx.arg z⟩ : Cx (FP φ L))))))
    (hUl : cq x y ≠ 1 → ‖Complex.log (1 - cq x y)‖ ≤ 1.11 → CNear U (-Complex.log (1 - cq x y)) (25 * uR φ))
    (hVl : ‖1 / cq x y‖ ≤ 1.001 → ∃ v : ℂ, ‖v - 1 / cq x y‖ ≤ 8.1 * uR φ ∧ (v ≠ 1 → ‖Complex.log (1 - v)‖ ≤ 1.11 → CNear V (-Complex.log (1 - v)) (25 * uR φ))) :
    CNear (if (xlog (Cx.abs z) : FP φ L) *. xlog (Cx.abs z) +. Cx.arg z *. Cx.arg z <. (FOps.lit 1 : FP φ L) then N₀
        else if (Cx.abs z) <=. (FOps.lit 1 : FP φ L) then c1.ev (env2 U U)
        else cI.ev (env2 V ⟨xlog (Cx.abs z), if (Cx.arg z) >. (FOps.lit 0 : FP φ L) then Cx.arg z -. (FOps.lit p : FP φ L) else Cx.arg z +. (FOps.lit p : FP φ L)⟩)) (pLi (n + 3) (cq x y)) ((1.001 * K * uR φ + E0 + 2.73 * E1 + 450 * uR φ) * max 1 ‖Complex.log (-cq x y)‖ ^ (n + 3)) := by
  have hu0 := uR_pos (φ := φ)
  have hu : uR φ ≤ 1e-6 := hφ.u_le.trans (by norm_num)
  have hζ0 := hd.ne_zero
  have hζn : 0 < ‖cq x y‖ := norm_pos_iff.2 hζ0
  obtain ⟨m, a, b, vm, va, vb, hm, ha, hb⟩ := log_data hφ hL vx vy hd
  obtain ⟨s, hs, hw, hsa⟩ := hd.strip
  have hre209 := hd.re_log
  have hexp : Complex.exp (Complex.log (cq x y)) = cq x y := Complex.exp_log hζ0
  have hwre : (Complex.log (cq x y)).re = Real.log ‖cq x y‖ := Complex.log_re _
  have hwim : (Complex.log (cq x y)).im = Complex.arg (cq x y) := Complex.log_im _
  have hargpi : |(Complex.log (cq x y)).im| ≤ 3.15 := by
    rw [hwim]; have := Complex.abs_arg_le_pi (cq x y); have := Real.pi_lt_d2; linarith
  have harg := hd.arg_ge0
  rw [← hwim] at harg hsa
  set w := Complex.log (cq x y) with hwd
  have hK : 0 ≤ K := by obtain ⟨b, -, -, h⟩ := hC.near; exact (um_nonneg _).trans h
  have habs : |(a:ℝ)| ≤ 1000 := by
    have := abs_sub_abs_le_abs_sub (a:ℝ) w.re
    nlinarith [abs_nonneg w.re]
  have hbbs : |(b:ℝ)| ≤ 1000 := by
    have := abs_sub_abs_le_abs_sub (b:ℝ) w.im
    nlinarith [abs_nonneg w.im]
  obtain ⟨t, vt, ht⟩ := sq_test hφ va vb habs hbbs
  set N := ‖cq a b‖ with hN
  have hN0 : 0 ≤ N := norm_nonneg _
  have hww : ‖cq a b - w‖ ≤ |(a:ℝ) - w.re| + |(b:ℝ) - w.im| := Complex.norm_le_abs_re_add_abs_im (cq a b - w)
  have hM1 : 1 ≤ max 1 ‖Complex.log (-cq x y)‖ ^ (n + 3) := one_le_pow₀ (le_max_left _ _)
  -- the first test
  have c1t : ((xlog (Cx.abs z) : FP φ L) *. xlog (Cx.abs z) +. Cx.arg z *. Cx.arg z <. (FOps.lit 1 : FP φ L)) = decide (t < 1) := by
    rw [lt_F, ofF_lit, vt.lt (val_oneB hφ)]
  rw [c1t]
  by_cases htl : t < 1
  · rw [if_pos (by simpa using htl)]
    have htl' : (t:ℝ) < 1 := by exact_mod_cast htl
    have hb0 : b ≠ 0 := by
      intro h
      have h1 := hw.1
      rw [h, Rat.cast_zero, zero_sub, abs_neg] at hb
      have h2 : 0 < |w.im| := abs_pos.2 (by intro h; rw [h, mul_zero] at h1; exact lt_irrefl _ h1)
      nlinarith
    rw [hNl b vb hb0]
    exact fp_near hφ hL hC hd va vb hwd ha hb hs hw (test_true hu0 hu ht htl')
  rw [if_neg (by simpa using htl)]
  have htl' : 1 ≤ (t:ℝ) := by exact_mod_cast not_lt.1 htl
  have hN1 := test_false hu0 hu hN0 ht htl'
  have hw1 : 1 - 10 * uR φ ≤ ‖w‖ := by
    by_contra hc
    push Not at hc
    have h1 := Complex.abs_re_le_norm w
    have h2 := Complex.abs_im_le_norm w
    have h3 := norm_sub_norm_le (cq a b) w
    have h4 : 2 * uR φ * |w.re| ≤ 2 * uR φ * 1 := by gcongr; linarith
    have h5 : 2.001 * uR φ * |w.im| ≤ 2.001 * uR φ * 1 := by gcongr; linarith
    linarith
  have c2t : ((Cx.abs z) <=. (FOps.lit 1 : FP φ L)) = decide (m ≤ 1) := by
    rw [le_F, ofF_lit, vm.le (val_oneB hφ)]
  rw [c2t]
  have hlogle := Real.log_le_sub_one_of_pos hζn
  have hm2 := abs_le.1 hm
  by_cases hml : m ≤ 1
  · rw [if_pos (by simpa using hml)]
    have hml' : (m:ℝ) ≤ 1 := by exact_mod_cast hml
    refine fp_fin1 hφ hC hd hUl hwd hs hw hw1 ?_
    rw [hwre]
    have h2 : ‖cq x y‖ * (1 - 2 * uR φ) ≤ 1 := by linarith [hm2.1]
    have h3 : ‖cq x y‖ ≤ 1 + 2.1 * uR φ := by
      by_contra hc
      push Not at hc
      nlinarith
    linarith
  · rw [if_neg (by simpa using hml)]
    have hml' : 1 < (m:ℝ) := by exact_mod_cast not_le.1 hml
    refine fp_finI hφ hC hd hVl va vb hwd ha hb hs hw ?_ hw1 ?_
    · rw [← hsa]
      have hbb := abs_le.1 hb
      constructor
      · intro h
        have h' : (0:ℝ) < b := by exact_mod_cast h
        by_contra hc
        push Not at hc
        rw [abs_of_nonpos hc] at hbb
        nlinarith [hbb.2]
      · intro h
        rw [abs_of_pos h] at hbb
        have h' : (0:ℝ) < b := by nlinarith [hbb.1]
        exact_mod_cast h'
    · rw [hwre, ← Real.log_inv]
      have h2 : 1 < ‖cq x y‖ * (1 + 2 * uR φ) := by linarith [hm2.2]
      have h3 := Real.log_le_sub_one_of_pos (inv_pos.2 hζn)
      have h4 : ‖cq x y‖⁻¹ ≤ 1 + 2 * uR φ := by
        rw [inv_le_comm₀ hζn (by linarith), ← one_div, div_le_iff₀ (by linarith)]; exact h2.le
      linarith

/-- the quotient `-1/z` of the C++ code -/
theorem arg_inv (hφ : FmtB φ) (hx : -φ.emin - φ.p + 1 ≤ φ.emax - 2) (hL : CxLib φ L) {z : Cx (FP φ L)} {x y : ℚ} (vx : Val φ (ofF z.re) x) (vy : Val φ (ofF z.im) y) (hd : InDom x y)
    (hin2 : ‖1 / cq x y‖ ≤ 1.001) : ∃ v : ℂ, ‖v - 1 / cq x y‖ ≤ 8.1 * uR φ ∧ (v ≠ 1 → ‖Complex.log (1 - v)‖ ≤ 1.11 →
      CNear (∸(clog1p (∸(FOps.lit 1 : FP φ L) /. z))) (-Complex.log (1 - v)) (25 * uR φ)) := by
  have hu0 := uR_pos (φ := φ)
  have hζ0 := hd.ne_zero
  have hm1 : cq (-1) 0 / cq x y = -(1 / cq x y) := by
    rw [show cq (-1) 0 = -1 by apply Complex.ext <;> simp [cq]]; ring
  have hemax : (8:ℝ) ≤ 2 ^ (φ.emax - 2) := by
    have : (2:ℝ) ^ (3:ℤ) ≤ 2 ^ (φ.emax - 2) := zpow_le_zpow_right₀ (by norm_num) (by have := hφ.hmax; omega)
    exact le_trans (by norm_num) this
  have hτ := tau_le hφ
  obtain ⟨e, f, ve, vf, hef⟩ := hL.cdiv _ _ _ _ (-1) 0 x y (val_oneB hφ).neg (val_zeroB hφ) vx vy hζ0
    ((show ‖cq (-1) 0‖ ≤ 8 by rw [show cq (-1) 0 = -1 by apply Complex.ext <;> simp [cq]]; norm_num).trans big900)
    (Or.inl ⟨le_trans (zpow_le_zpow_right₀ (by norm_num) (by norm_num)) hd.norm_ge, hd.norm_le.trans (zpow_le_zpow_right₀ (by norm_num) (by norm_num))⟩)
    (by rw [hm1, norm_neg]; exact le_trans (le_trans hin2 (by norm_num)) hemax)
  rw [hm1, norm_neg] at hef
  refine ⟨-cq e f, ?_, fun hv1 hv2 => ?_⟩
  · rw [show -cq e f - 1 / cq x y = -(cq e f - -(1 / cq x y)) by ring, norm_neg]
    have : 8 * uR φ * ‖1 / cq x y‖ ≤ 8 * uR φ * 1.001 := by gcongr
    linarith
  · have hef1 : 1 - -cq e f = 1 + cq e f := by ring
    rw [hef1] at hv2 ⊢
    exact (clog1p_near hφ hx hL (z := ∸(FOps.lit 1 : FP φ L) /. z) ve vf (by rw [← hef1]; exact sub_ne_zero.2 (Ne.symm hv1)) hv2).neg

theorem cLiCE_fp (hφ : FmtB φ) (hx : -φ.emin - φ.p + 1 ≤ φ.emax - 2) (hL : CxLib φ L) {n : ℕ} {p : ℚ} {cN c1 cI : CXE true} {K E0 E1 : ℝ}
    (hC : LiCert φ n p cN c1 cI K E0 E1) {z : Cx (FP φ L)} {x y : ℚ} (vx : Val φ (ofF z.re) x) (vy : Val φ (ofF z.im) y) (hd : InDom x y) :
    CNear (cLiCE p cN c1 cI z) (pLi (n + 3) (cq x y)) ((1.001 * K * uR φ + E0 + 2.73 * E1 + 450 * uR φ) * max 1 ‖Complex.log (-cq x y)‖ ^ (n + 3)) := by
  have hneg : 1 + cq (-x) (-y) = 1 - cq x y := by apply Complex.ext <;> simp [cq, sub_eq_add_neg]
  refine cLiG_fp hφ hL hC vx vy hd (fun _ _ _ => rfl) (fun hv1 hv2 => ?_) (arg_inv hφ hx hL vx vy hd)
  have hl := clog1p_near hφ hx hL (z := ∸z) vx.neg vy.neg (by rw [hneg]; exact sub_ne_zero.2 (Ne.symm hv1)) (by rw [hneg]; exact hv2)
  rw [hneg] at hl
  exact hl.neg

end Polylog
