import Verif.Props.Li3Real
import Verif.Props.Li4Cx

/-! # C12: the real fourth-order polylogarithm; C34 for the approximations of `Li4` -/

set_option linter.unusedSimpArgs false

noncomputable section
namespace Polylog
open Finset

variable {S : RealSem}

theorem li4half_ratio {u : ℝ} (hS : S.Lit u) (hu : u ≤ 1 / 1000) {y : ℝ} (hy0 : 0 < y) (hy1 : y ≤ 1 / 2) :
    0 < rv S li4halfQ y ∧ |rv S li4halfP y / rv S li4halfQ y - reLi 4 y / y| ≤ 4.34e-17 + u * 56 := by
  refine li_ratio 2 li4halfP li4halfQ hS (M := 2^80) (K := 64) (BP := 2.46) (BQ := 2.53) (δ' := 0.27) (by exact_mod_cast cert_li4half)
    den_li34.2.2.1 (by norm_num) hy0 hy1 (by norm_num) (by norm_num) (by norm_num) (by norm_num)
    (by decide +kernel) (by push_cast; linarith) (by norm_num)

theorem li4neg_ratio {u : ℝ} (hS : S.Lit u) (hu : u ≤ 1 / 1000) {x : ℝ} (hx0 : x < 0) (hx1 : -1 < x) :
    0 < rv S li4negQ x ∧ |rv S li4negP x / rv S li4negQ x - reLi 4 x / x| ≤ 9.3e-18 + u * 20 := by
  refine euler_ratio 3 li4negP li4negQ hS (M := 2^80) (K := 70) (BP := 4.4) (BQ := 4.65) cert_li4neg cert_li4negQ (by decide +kernel)
    den_li34.2.2.2.1 (by norm_num) hx0 hx1 (by norm_num) (by norm_num)
    (by decide +kernel) (by push_cast; linarith) (by norm_num)

theorem li4mid_ratio {u : ℝ} (hS : S.Lit u) (hu : u ≤ 1 / 1000) {y : ℝ} (hy0 : 1 / 2 ≤ y) (hy1 : y ≤ 0.80008) :
    0 < rv S li4midQ y ∧ |rv S li4midP y / rv S li4midQ y - reLi 4 y| ≤ 6e-18 + u * 3300 := by
  have h0 : (0:ℝ) < y := by linarith
  obtain ⟨h1, h2⟩ := rcert_qv (by exact_mod_cast cert_li4mid) den_li34.2.2.2.2 (by norm_num) (by norm_num) (by norm_num) (by norm_num) (by norm_num) (by norm_num)
    (x := y) (by norm_num; try linarith) (by norm_num; try linarith)
  have hya : |y| ≤ 0.80008 := by rw [abs_of_pos h0]; exact hy1
  have h3 := reLi_taylor 2 (M := 2 ^ 80) (K := 190) (by norm_num) h0.ne' hya (by norm_num)
  have h4 := reLi_div_abs_le 2 h0.ne' hya (by norm_num)
  rw [abs_sub_comm] at h3
  have h5 := quot_bound h0.ne' h3
  have h6 : |reLi 4 y| ≤ 4.1 := by
    have e : reLi 4 y = y * (reLi (2 + 2) y / y) := by field_simp
    rw [e, abs_mul]
    calc |y| * |reLi (2 + 2) y / y| ≤ 0.80008 * (1 / (1 - 0.80008)) := mul_le_mul hya h4 (abs_nonneg _) (by norm_num)
      _ ≤ _ := by norm_num
  have h7 : |qv li4midP y / qv li4midQ y - reLi 4 y| ≤ 6e-18 := by
    rw [pev_cons] at h2
    have e : (((0 : ℤ) : ℝ) + y * pev (liL 4 (2 ^ 80) 190) y) / (((2 ^ 80 : ℕ) : ℤ) : ℝ) = y * (pev (liL (2 + 2) (2 ^ 80) 190) y / ((2 ^ 80 : ℕ) : ℝ)) := by
      push_cast; ring
    rw [e] at h2
    calc _ ≤ _ := abs_sub_le _ (y * (pev (liL (2 + 2) (2 ^ 80) 190) y / ((2 ^ 80 : ℕ) : ℝ))) _
      _ ≤ _ := add_le_add h2 h5
      _ ≤ ((350 : ℤ) : ℝ) / (((10 ^ 20 : ℕ) : ℤ) : ℝ) + ((1 / ((2 ^ 80 : ℕ) : ℝ) + 0.80008 ^ 190) / (1 - 0.80008)) * 0.80008 :=
          add_le_add le_rfl (mul_le_mul_of_nonneg_left hya (by norm_num))
      _ ≤ _ := by norm_num
  exact rat_approx li4midP li4midQ hS (X := 0.80008) (by push_cast; exact hya) (δ := 0.024) (BP := 5.09) (BQ := 6.65) (by norm_num) (le_trans (by norm_num) h1) h7 (C := 4.2) (by linarith)
    (by decide +kernel) (by decide +kernel) (by push_cast; linarith) (by push_cast; norm_num)

/-- evaluation scheme of the polynomials of degree 5 (`li4_half`) -/
theorem ev66 (P Q : Vector ℚ 6) (x : R S) (h : rv S Q (ofR x) ≠ 0) :
    ofR (x *. ((FOps.lit P[0] : R S) +. x *. (FOps.lit P[1] : R S) +. x *. x *. ((FOps.lit P[2] : R S) +. x *. (FOps.lit P[3] : R S)) +. x *. x *. (x *. x) *. ((FOps.lit P[4] : R S) +. x *. (FOps.lit P[5] : R S)))
      /. ((FOps.lit Q[0] : R S) +. x *. (FOps.lit Q[1] : R S) +. x *. x *. ((FOps.lit Q[2] : R S) +. x *. (FOps.lit Q[3] : R S)) +. x *. x *. (x *. x) *. ((FOps.lit Q[4] : R S) +. x *. (FOps.lit Q[5] : R S)))) =
    ofR x * (rv S P (ofR x) / rv S Q (ofR x)) := by
  have hp (P : Vector ℚ 6) : ofR ((FOps.lit P[0] : R S) +. x *. (FOps.lit P[1] : R S) +. x *. x *. ((FOps.lit P[2] : R S) +. x *. (FOps.lit P[3] : R S)) +. x *. x *. (x *. x) *. ((FOps.lit P[4] : R S) +. x *. (FOps.lit P[5] : R S))) = rv S P (ofR x) := by
    simp [rsem, rv, Fin.sum_univ_succ]; ring
  rw [ofR_div (by rw [hp]; exact h), hp, ofR_mul, hp]
  ring

/-- evaluation scheme of the polynomials of degree 6 (`li4_mid`) -/
theorem ev77 (P Q : Vector ℚ 7) (x : R S) (h : rv S Q (ofR x) ≠ 0) :
    ofR (((FOps.lit P[0] : R S) +. x *. (FOps.lit P[1] : R S) +. x *. x *. ((FOps.lit P[2] : R S) +. x *. (FOps.lit P[3] : R S)) +. x *. x *. (x *. x) *. ((FOps.lit P[4] : R S) +. x *. (FOps.lit P[5] : R S) +. x *. x *. (FOps.lit P[6] : R S)))
      /. ((FOps.lit Q[0] : R S) +. x *. (FOps.lit Q[1] : R S) +. x *. x *. ((FOps.lit Q[2] : R S) +. x *. (FOps.lit Q[3] : R S)) +. x *. x *. (x *. x) *. ((FOps.lit Q[4] : R S) +. x *. (FOps.lit Q[5] : R S) +. x *. x *. (FOps.lit Q[6] : R S)))) =
    rv S P (ofR x) / rv S Q (ofR x) := by
  have hp (P : Vector ℚ 7) : ofR ((FOps.lit P[0] : R S) +. x *. (FOps.lit P[1] : R S) +. x *. x *. ((FOps.lit P[2] : R S) +. x *. (FOps.lit P[3] : R S)) +. x *. x *. (x *. x) *. ((FOps.lit P[4] : R S) +. x *. (FOps.lit P[5] : R S) +. x *. x *. (FOps.lit P[6] : R S))) = rv S P (ofR x) := by
    simp [rsem, rv, Fin.sum_univ_succ]; ring
  rw [ofR_div (by rw [hp]; exact h), hp, hp]

theorem li4_half_acc {u : ℝ} (hS : S.Lit u) (hu : u ≤ 1 / 1000) (x : R S) (h0 : 0 < ofR x) (h1 : ofR x ≤ 1 / 2) :
    |ofR (li4_half x) - reLi 4 (ofR x)| ≤ (4.34e-17 + u * 56) * |ofR x| := by
  have h := li4half_ratio hS hu h0 h1
  have e2 : ofR (li4_half x) = ofR x * (rv S li4halfP (ofR x) / rv S li4halfQ (ofR x)) := ev66 li4halfP li4halfQ x h.1.ne'
  rw [e2]
  exact quot_bound h0.ne' h.2

theorem li4_neg_acc {u : ℝ} (hS : S.Lit u) (hu : u ≤ 1 / 1000) (x : R S) (h0 : ofR x < 0) (h1 : -1 < ofR x) :
    |ofR (li4_neg x) - reLi 4 (ofR x)| ≤ (9.3e-18 + u * 20) * |ofR x| := by
  have h := li4neg_ratio hS hu h0 h1
  have e2 : ofR (li4_neg x) = ofR x * (rv S li4negP (ofR x) / rv S li4negQ (ofR x)) := ev67 li4negP li4negQ x h.1.ne'
  rw [e2]
  exact quot_bound h0.ne h.2

theorem li4_mid_acc {u : ℝ} (hS : S.Lit u) (hu : u ≤ 1 / 1000) (x : R S) (h0 : 1 / 2 ≤ ofR x) (h1 : ofR x ≤ 0.80008) :
    |ofR (li4_mid x) - reLi 4 (ofR x)| ≤ 6e-18 + u * 3300 := by
  have h := li4mid_ratio hS hu h0 h1
  have e2 : ofR (li4_mid x) = rv S li4midP (ofR x) / rv S li4midQ (ofR x) := ev77 li4midP li4midQ x h.1.ne'
  rw [e2]
  exact h.2

/-- the coefficients of `li4_one` -/
def li4oneT : List ℚ := [1.0823232337111382, 1.2020569031595943, 1.6449340668482264 / 2, 0, -1 / 48, -1 / 1440, 0, 1 / 604800, 0, -1 / 91445760]

theorem li4one_cert : perr (9/40) 64 li4oneT (zcQ 3) ≤ 21 * 10 ^ 42 ∧ psize (9/40) 64 li4oneT ≤ 14 * 10 ^ 59 := by decide +kernel

theorem li4_one_acc {u : ℝ} (hS : S.Lit u) (hu : u ≤ 1 / 1000) (x : R S) (h0 : 0.79992 ≤ ofR x) (h1 : ofR x < 1) :
    |ofR (li4_one x) - reLi 4 (ofR x)| ≤ 2.2e-17 + u * 3 := by
  have hu0 := hS.u_nonneg
  generalize hX : ofR x = X at *
  have hX0 : 0 < X := by linarith
  have hl0 : Real.log X < 0 := Real.log_neg hX0 h1
  have hl1 : -0.225 ≤ Real.log X := by
    rw [Real.le_log_iff_exp_le hX0, Real.exp_neg]
    have := Real.quadratic_le_exp_of_nonneg (x := 0.225) (by norm_num)
    refine le_trans (inv_anti₀ (by norm_num) this) ?_
    norm_num; linarith
  have hlog : ofR (xlog x) = Real.log X := by rw [xlog_R, ofR_log (by rw [hX]; exact hX0), hX]
  generalize hL : Real.log X = L at *
  have hlog2 : ofR (xlog (∸(xlog x))) = Real.log (-L) := by
    rw [xlog_R, ofR_log (by rw [ofR_neg, hlog]; linarith), ofR_neg, hlog]
  have d36 := ofR_divlit hS 36 (q := 36) (by norm_num) (by norm_num) (by norm_num)
  have d6 := ofR_divlit hS 6 (q := 6) (by norm_num) (by norm_num) (by norm_num)
  have d48 := ofR_divlit hS 48 (q := 48) (by norm_num) (by norm_num) (by norm_num)
  have d1440 := ofR_divlit hS 1440 (q := 1440) (by norm_num) (by norm_num) (by norm_num)
  have d604800 := ofR_divlit hS 604800 (q := 604800) (by norm_num) (by norm_num) (by norm_num)
  have l1 := lit_of hS 1 (q := 1) (by norm_num) (by norm_num)
  have l11 := lit_of hS 11 (q := 11) (by norm_num) (by norm_num)
  have e5 : ((S.rho 0.5 : ℚ) : ℝ) = 1 / 2 := by rw [hS.half]; norm_num
  have hr := hS.rel 91445760
  have hr0 : (0:ℝ) < ((S.rho 91445760 : ℚ) : ℝ) := by
    push_cast at hr
    rw [abs_le, abs_of_pos (by norm_num)] at hr
    linarith [hr.1]
  have d9 : ∀ y : R S, ofR (y /. (FOps.lit 91445760 : R S)) = ofR y / ((S.rho 91445760 : ℚ) : ℝ) := by
    intro y
    rw [ofR_div (by rw [ofR_lit]; exact hr0.ne'), ofR_lit]
  set T : ℕ → ℝ := fun k => ([((S.rho 1.0823232337111382 : ℚ) : ℝ), ((S.rho 1.2020569031595943 : ℚ) : ℝ), 1 / 2 * ((S.rho 1.6449340668482264 : ℚ) : ℝ), 0,
    -1 / 48, -1 / 1440, 0, 1 / 604800, 0, -1 / ((S.rho 91445760 : ℚ) : ℝ)] : List ℝ).getD k 0 with hT
  have hTc : ∀ k, |T k - ((li4oneT.getD k 0 : ℚ) : ℝ)| ≤ (2 * u) * |((li4oneT.getD k 0 : ℚ) : ℝ)| := by
    intro k
    have hz : ∀ q : ℚ, |((S.rho q : ℚ) : ℝ) - (q : ℝ)| ≤ (2 * u) * |(q : ℝ)| := fun q => (hS.rel q).trans
      (mul_le_mul_of_nonneg_right (by linarith) (abs_nonneg _))
    have hex : ∀ a b : ℝ, a = b → |a - b| ≤ (2 * u) * |b| := by
      intro a b h; rw [h, sub_self, abs_zero]; positivity
    match k with
    | 0 => exact hz _
    | 1 => exact hz _
    | 2 =>
      have := hz 1.6449340668482264
      simp only [hT, li4oneT, List.getD_cons_succ, List.getD_cons_zero]
      rw [Rat.cast_div, Rat.cast_ofNat]
      generalize ((S.rho 1.6449340668482264 : ℚ) : ℝ) = a at *
      generalize ((1.6449340668482264 : ℚ) : ℝ) = b at *
      rw [show 1 / 2 * a - b / 2 = (a - b) / 2 by ring, abs_div, abs_div, abs_of_pos (show (0:ℝ) < 2 by norm_num)]
      linarith
    | 3 => exact hex _ _ (by norm_num [hT, li4oneT])
    | 4 => exact hex _ _ (by norm_num [hT, li4oneT])
    | 5 => exact hex _ _ (by norm_num [hT, li4oneT])
    | 6 => exact hex _ _ (by norm_num [hT, li4oneT])
    | 7 => exact hex _ _ (by norm_num [hT, li4oneT])
    | 8 => exact hex _ _ (by norm_num [hT, li4oneT])
    | 9 =>
      simp only [hT, li4oneT, List.getD_cons_succ, List.getD_cons_zero]
      push_cast at hr ⊢
      generalize ((S.rho 91445760 : ℚ) : ℝ) = a at *
      have e : (-1 / a - -1 / 91445760 : ℝ) = (a - 91445760) / (a * 91445760) := by field_simp; ring
      rw [e, abs_div, abs_of_pos (show 0 < a * 91445760 by positivity), div_le_iff₀ (by positivity)]
      refine hr.trans ?_
      rw [abs_le] at hr
      norm_num [abs_of_pos] at hr ⊢
      nlinarith
    | k + 10 => exact hex _ _ (by simp [hT, li4oneT])
  have hc := coef_cert (e := 6e-42) (u := 2 * u) (by positivity) (R := 9/40) (t := li4oneT) (q := zcQ 3) (K := 64) (T := T) (zcoef_bound 4) (by norm_num) (by norm_num)
    (by simp [li4oneT]) (fun k hk => zcQ_approx 3 (by norm_num) k hk) hTc (z := (L : ℂ))
    (by rw [Complex.norm_real, Real.norm_eq_abs, abs_of_neg hl0]; push_cast; linarith) (N := 10) (by simp [li4oneT])
  have hcl : Complex.log (X : ℂ) = (L : ℂ) := by rw [← Complex.ofReal_log hX0.le, hL]
  have hu1 := pLi_unity 3 (z := (X : ℂ)) (by exact_mod_cast hX0.ne') (by exact_mod_cast h1.ne) (by
    rw [hcl, Complex.norm_real, Real.norm_eq_abs, abs_of_neg hl0]; linarith [Real.pi_gt_three])
  rw [hcl] at hu1
  have e1 : ((ofR (li4_one x) : ℝ) : ℂ) = ∑ k ∈ range 10, (T k : ℂ) * (L : ℂ) ^ k + singU 3 (L : ℂ) := by
    have : ofR (li4_one x) = ∑ k ∈ range 10, T k * L ^ k + L ^ 3 / 6 * (11 / 6 - Real.log (-L)) := by
      rw [li4_one]
      simp only [ofR_add, ofR_sub, ofR_mul, hlog, hlog2, d36, d6, d48, d1440, d604800, d9, ofR_neg, ofR_lit, hS.one, e5, l11]
      simp only [hT, sum_range_succ, sum_range_zero, List.getD_cons_succ, List.getD_cons_zero]
      push_cast
      ring
    rw [this, singU, show (-(L : ℂ)) = ((-L : ℝ) : ℂ) by push_cast; rfl, ← Complex.ofReal_log (by linarith)]
    norm_num [harmonic, sum_range_succ, Nat.factorial]
  have e2 : |ofR (li4_one x) - reLi 4 X| ≤ ‖((ofR (li4_one x) : ℝ) : ℂ) - pLi 4 (X : ℂ)‖ := by
    change |ofR (li4_one x) - (pLi 4 (X : ℂ)).re| ≤ _
    have := Complex.abs_re_le_norm (((ofR (li4_one x) : ℝ) : ℂ) - pLi 4 (X : ℂ))
    simpa using this
  refine e2.trans ?_
  rw [hu1, e1, add_sub_add_right_eq_sub, norm_sub_rev]
  refine hc.trans ?_
  have hA : (perr (9/40) 64 li4oneT (zcQ 3) : ℝ) ≤ 21 * 10 ^ 42 := by exact_mod_cast li4one_cert.1
  have hB : (psize (9/40) 64 li4oneT : ℝ) ≤ 14 * 10 ^ 59 := by exact_mod_cast li4one_cert.2
  have h3 : (2 * u) * ((psize (9/40) 64 li4oneT : ℝ) / 10 ^ 60) ≤ (2 * u) * (14 * 10 ^ 59 / 10 ^ 60) :=
    mul_le_mul_of_nonneg_left (by gcongr) (by positivity)
  have h4 : (perr (9/40) 64 li4oneT (zcQ 3) : ℝ) / 10 ^ 60 ≤ 21 * 10 ^ 42 / 10 ^ 60 := by gcongr
  have h5 : (6e-42 : ℝ) * ∑ k ∈ range 64, (((9/40 : ℚ) : ℝ)) ^ k ≤ 1e-40 := by
    rw [geom_sum_eq (by push_cast; norm_num)]; push_cast; norm_num
  have h6 : (2 * Real.pi) ^ 4 * (((9/40 : ℚ) : ℝ) / 6.28) ^ 64 / (1 - ((9/40 : ℚ) : ℝ) / 6.28) ≤ 1e-40 := by
    have h7 : 2 * Real.pi ≤ 7 := by linarith [Real.pi_lt_d2]
    calc _ ≤ 7 ^ 4 * (((9/40 : ℚ) : ℝ) / 6.28) ^ 64 / (1 - ((9/40 : ℚ) : ℝ) / 6.28) := by
          apply div_le_div_of_nonneg_right _ (by push_cast; norm_num)
          exact mul_le_mul_of_nonneg_right (pow_le_pow_left₀ (by positivity) h7 _) (by push_cast; positivity)
      _ ≤ 1e-40 := by push_cast; norm_num
  push_cast at *
  linarith

theorem ofR_frac {u : ℝ} (hS : S.Lit u) (n d : ℕ) {q r : ℚ} (hn : n < 2 ^ 24) (hd : d < 2 ^ 24) (hd0 : d ≠ 0) (hq : q = n := by norm_num) (hr : r = d := by norm_num) :
    ofR ((FOps.lit q : R S) /. (FOps.lit r : R S)) = n / d := by
  subst hq hr
  have h1 := hS.nat n hn
  have h2 := hS.nat d hd
  rw [ofR_div (by rw [ofR_lit, h2]; exact_mod_cast hd0), ofR_lit, ofR_lit, h1, h2]
  push_cast; rfl

/-- the selected approximation -/
theorem li4_app_acc {u : ℝ} (hS : S.Lit u) (hu : u ≤ 1 / 10000) (x : R S) (hx0 : ofR x ≠ 0) (h0 : -1 < ofR x) (h1 : ofR x < 1) (r s : R S) :
    |ofR (li4dFin x r s) - (ofR r + ofR s * reLi 4 (ofR x))| ≤ |ofR s| * (2.2e-17 + u * 3300) := by
  have hu0 := hS.u_nonneg
  have hu' : u ≤ 1 / 1000 := by linarith
  have e5 : ((S.rho 0.5 : ℚ) : ℝ) = 1 / 2 := by rw [hS.half]; norm_num
  have h8 : |((S.rho 0.8 : ℚ) : ℝ) - 0.8| ≤ 8e-5 := by
    have := hS.rel 0.8
    have e : ((0.8 : ℚ) : ℝ) = 0.8 := by norm_num
    rw [e, abs_of_pos (show (0:ℝ) < 0.8 by norm_num)] at this
    linarith
  rw [abs_le] at h8
  have key : ∀ a : R S, |ofR a - reLi 4 (ofR x)| ≤ 2.2e-17 + u * 3300 →
      |ofR (r +. s *. a) - (ofR r + ofR s * reLi 4 (ofR x))| ≤ |ofR s| * (2.2e-17 + u * 3300) := by
    intro a ha
    rw [ofR_add, ofR_mul, show ofR r + ofR s * ofR a - (ofR r + ofR s * reLi 4 (ofR x)) = ofR s * (ofR a - reLi 4 (ofR x)) by ring, abs_mul]
    exact mul_le_mul_of_nonneg_left ha (abs_nonneg _)
  unfold li4dFin
  refine key _ ?_
  simp only [lt_R, decide_eq_true_eq]
  split
  · rename_i h
    simp only [ofR_lit, hS.zero, e5, Rat.cast_zero] at h
    refine (li4_neg_acc hS hu' x h h0).trans ?_
    have : |ofR x| ≤ 1 := by rw [abs_le]; constructor <;> linarith
    nlinarith [abs_nonneg (ofR x)]
  · rename_i hn
    simp only [ofR_lit, hS.zero, e5, Rat.cast_zero] at hn
    have hp : 0 < ofR x := lt_of_le_of_ne (not_lt.mp hn) (Ne.symm hx0)
    split
    · rename_i h
      simp only [ofR_lit, hS.zero, e5, Rat.cast_zero] at h
      refine (li4_half_acc hS hu' x hp h.le).trans ?_
      have : |ofR x| ≤ 1 / 2 := by rw [abs_le]; constructor <;> linarith
      nlinarith [abs_nonneg (ofR x)]
    · rename_i h
      simp only [ofR_lit, hS.zero, e5, Rat.cast_zero] at h
      push Not at h
      split
      · rename_i h'
        simp only [ofR_lit, hS.zero, e5, Rat.cast_zero] at h'
        refine (li4_mid_acc hS hu' x h (by linarith [h8.2])).trans ?_
        nlinarith
      · rename_i h'
        simp only [ofR_lit, hS.zero, e5, Rat.cast_zero] at h'
        push Not at h'
        refine (li4_one_acc hS hu' x (by linarith [h8.1]) h1).trans ?_
        nlinarith

set_option maxHeartbeats 1000000 in
/-- **C12.** `double Li4(double x)`: for every real `x` the method error is at most
`4e-17 + 4.4e-17 log(max(1,|x|))^2` (plus a multiple of `u`, the relative error of the compiled literals). -/
theorem C12_Li4d {u : ℝ} (hS : S.Lit u) (hu : u ≤ 1 / 10000) (x : ℝ) :
    |ofR (Li4d (toR S x)) - (pLi 4 (x : ℂ)).re| ≤ 4e-17 + 3310 * u + (4.4e-17 + 2 * u) * Real.log (max 1 |x|) ^ 2 := by
  have hu0 := hS.u_nonneg
  have hn : ofR (toR S x) = x := rfl
  have e5 : ((S.rho 0.5 : ℚ) : ℝ) = 1 / 2 := by rw [hS.half]; norm_num
  have hz2 := zlit_err hS 0 (by norm_num) 1.6449340668482264 (e := 4.4e-17) (by decide +kernel) (by norm_num)
  have hz4 := zlit_err hS 2 (by norm_num) 1.0823232337111382 (e := 8.5e-18) (by decide +kernel) (by norm_num)
  rw [show reLi (0 + 2) 1 = Real.pi ^ 2 / 6 from reLi_two_one] at hz2
  rw [reLi_22_one] at hz4
  set D2 := ((S.rho 1.6449340668482264 : ℚ) : ℝ) - Real.pi ^ 2 / 6 with hD2
  set D4 := ((S.rho 1.0823232337111382 : ℚ) : ℝ) - Real.pi ^ 4 / 90 with hD4
  have hZ2 : ((S.rho 1.6449340668482264 : ℚ) : ℝ) = Real.pi ^ 2 / 6 + D2 := by rw [hD2]; ring
  have hZ4 : ((S.rho 1.0823232337111382 : ℚ) : ℝ) = Real.pi ^ 4 / 90 + D4 := by rw [hD4]; ring
  clear_value D2 D4
  push_cast at hz2 hz4
  change |_ - reLi 4 x| ≤ _
  set L := Real.log (max 1 |x|) with hL
  have hL0 : 0 ≤ L := Real.log_nonneg (le_max_left _ _)
  have key : ∀ {A a b c m : ℝ}, |a| ≤ L ^ 2 → |b| ≤ 2 → A = a * D2 + b * D4 + c → |c| ≤ m → m ≤ 2.2e-17 + u * 3300 →
      |A| ≤ 4e-17 + 3310 * u + (4.4e-17 + 2 * u) * L ^ 2 := by
    intro A a b c m ha hb hA hc hm
    replace hc := hc.trans hm
    calc |A| ≤ |a| * |D2| + |b| * |D4| + |c| := by
          rw [hA, ← abs_mul, ← abs_mul]; exact (abs_add_le _ _).trans (add_le_add (abs_add_le _ _) le_rfl)
      _ ≤ L ^ 2 * (4.4e-17 + 2 * u) + 2 * (8.5e-18 + 2 * u) + (2.2e-17 + u * 3300) := by
          refine add_le_add (add_le_add (mul_le_mul ha ?_ (abs_nonneg _) (by positivity)) (mul_le_mul hb ?_ (abs_nonneg _) (by norm_num))) hc
          · linarith
          · linarith
      _ ≤ _ := by linarith
  have o7 := ofR_frac hS 1 24 (q := 1) (r := 24) (by norm_num) (by norm_num) (by norm_num)
  have d4 := ofR_divlit hS 4 (q := 4) (by norm_num) (by norm_num) (by norm_num)
  have d8 := ofR_divlit hS 8 (q := 8) (by norm_num) (by norm_num) (by norm_num)
  have l7 := lit_of hS 7 (q := 7) (by norm_num) (by norm_num)
  have l1 := lit_of hS 1 (q := 1) (by norm_num) (by norm_num)
  have l2 := lit_of hS 2 (q := 2) (by norm_num) (by norm_num)
  unfold Li4d
  simp only [lt_R, eq_R, decide_eq_true_eq]
  simp only [ofR_neg, ofR_lit, hS.one, hS.zero, hn, Rat.cast_one, Rat.cast_zero]
  split_ifs with h1 h2 h3 h4 h5
  · -- x < -1
    have hx : x < 0 := by linarith
    have hy : ofR ((FOps.lit 1 : R S) /. toR S x) = x⁻¹ := by
      rw [ofR_div (by simp [rsem]; linarith)]; simp [rsem, hS.one]
    have hy0 : x⁻¹ < 0 := inv_neg''.mpr hx
    have hy1 : -1 < x⁻¹ := by rw [neg_lt, ← inv_neg]; exact inv_lt_one_of_one_lt₀ (by linarith)
    have hlog : ofR (xlog (∸(toR S x))) = Real.log (-x) := by
      rw [xlog_R, ofR_log (by simp [rsem]; linarith)]; simp [rsem]
    have ha := li4_app_acc hS hu ((FOps.lit 1 : R S) /. toR S x) (by rw [hy]; exact hy0.ne) (by rw [hy]; exact hy1) (by rw [hy]; linarith)
      (∸(FOps.lit 7 : R S) /. (FOps.lit 4 : R S) *. (FOps.lit 1.0823232337111382 : R S) +. (xlog (∸(toR S x))) *. (xlog (∸(toR S x))) *. (∸(FOps.lit 0.5 : R S) *. (FOps.lit 1.6449340668482264 : R S) -. (FOps.lit 1 : R S) /. (FOps.lit 24 : R S) *. ((xlog (∸(toR S x))) *. (xlog (∸(toR S x)))))) (∸(FOps.lit 1 : R S))
    generalize ofR (li4dFin ((FOps.lit 1 : R S) /. toR S x) _ _) = A at ha ⊢
    simp only [hy, ofR_sub, ofR_mul, ofR_add, ofR_neg, d4, l7, l1, o7, hlog, ofR_lit, hZ2, hZ4, e5] at ha
    have hlL : |Real.log (-x)| = L := by
      rw [hL, abs_of_neg hx, max_eq_right (by linarith), abs_of_nonneg (Real.log_nonneg (by linarith))]
    have hI := reLi_four_inv_neg hx
    generalize Real.log (-x) = l at *
    norm_num at ha
    refine key (a := -(l ^ 2 / 2)) (b := -(7 / 4)) (c := _) ?_ (by norm_num [abs_of_nonneg]) ?_ ha (by norm_num)
    · rw [abs_neg, abs_div, abs_pow, hlL, abs_of_pos (by norm_num : (0:ℝ) < 2)]
      nlinarith
    · rw [hI]; ring
  · -- x = -1
    subst h2
    have hm := reLi_neg_one_eq 2
    rw [reLi_22_one] at hm
    norm_num at hm
    simp only [ofR_mul, ofR_neg, d8, l7, ofR_lit, hZ4]
    refine key (a := 0) (b := -(7/8)) (c := 0) (by simp; positivity) (by norm_num [abs_of_nonneg]) ?_ (m := 0) (by simp) (by positivity)
    rw [hm]; push_cast; ring
  · subst h3
    rw [hn, reLi_zero_right, sub_zero, abs_zero]; positivity
  · have hm1 : -1 < x := lt_of_le_of_ne (not_lt.mp h1) (fun h => h2 h.symm)
    have ha := li4_app_acc hS hu (toR S x) (by rw [hn]; exact h3) (by rw [hn]; exact hm1) (by rw [hn]; exact h4) (FOps.lit 0) (FOps.lit 1)
    rw [hn, l1, ofR_lit, hS.zero] at ha
    norm_num at ha
    refine key (a := 0) (b := 0) (by simp; positivity) (by norm_num) (by ring) ha (by norm_num)
  · subst h5
    have h41 := reLi_22_one
    norm_num only [Nat.reduceAdd] at h41
    refine key (a := 0) (b := 1) (c := 0) (by simp; positivity) (by norm_num) ?_ (m := 0) (by simp) (by positivity)
    rw [ofR_lit, hZ4, h41]; ring
  · have hx : 1 < x := lt_of_le_of_ne (not_lt.mp h4) (fun h => h5 h.symm)
    have hx0 : 0 < x := by linarith
    have hy : ofR ((FOps.lit 1 : R S) /. toR S x) = x⁻¹ := by
      rw [ofR_div (by simp [rsem]; linarith)]; simp [rsem, hS.one]
    have hy0 : 0 < x⁻¹ := by positivity
    have hy1 : x⁻¹ < 1 := inv_lt_one_of_one_lt₀ hx
    have hlog : ofR (xlog (toR S x)) = Real.log x := by
      rw [xlog_R, ofR_log (by simpa [rsem] using hx0), hn]
    have ha := li4_app_acc hS hu ((FOps.lit 1 : R S) /. toR S x) (by rw [hy]; exact hy0.ne') (by rw [hy]; linarith) (by rw [hy]; linarith)
      ((FOps.lit 2 : R S) *. (FOps.lit 1.0823232337111382 : R S) +. (xlog (toR S x)) *. (xlog (toR S x)) *. ((FOps.lit 1.6449340668482264 : R S) -. (FOps.lit 1 : R S) /. (FOps.lit 24 : R S) *. ((xlog (toR S x)) *. (xlog (toR S x))))) (∸(FOps.lit 1 : R S))
    generalize ofR (li4dFin ((FOps.lit 1 : R S) /. toR S x) _ _) = A at ha ⊢
    simp only [hy, ofR_sub, ofR_mul, ofR_add, ofR_neg, l1, l2, o7, hlog, ofR_lit, hZ2, hZ4] at ha
    have hlL : |Real.log x| = L := by
      rw [hL, abs_of_pos hx0, max_eq_right (by linarith), abs_of_nonneg (Real.log_nonneg (by linarith))]
    have hI := reLi_four_inv hx
    generalize Real.log x = l at *
    norm_num at ha
    refine key (a := l ^ 2) (b := 2) (c := _) ?_ (by norm_num [abs_of_nonneg]) ?_ ha (by norm_num)
    · rw [abs_pow, hlL]
    · rw [hI]; ring

/-- **C34** (Li4): the denominators of `li4_neg`, `li4_half`, `li4_mid` are positive where they are used
(`li4_mid` is used for `1/2 ≤ x < 0.8`; the literal `0.8` may be rounded up). -/
theorem C34_Li4 {u : ℝ} (hS : S.Lit u) (hu : u ≤ 1 / 1000) :
    (∀ y : ℝ, 0 < y → y ≤ 1 / 2 → 0 < rv S li4halfQ y) ∧ (∀ y : ℝ, y < 0 → -1 < y → 0 < rv S li4negQ y) ∧
    (∀ y : ℝ, 1 / 2 ≤ y → y ≤ 0.80008 → 0 < rv S li4midQ y) :=
  ⟨fun _ h0 h1 => (li4half_ratio hS hu h0 h1).1, fun _ h0 h1 => (li4neg_ratio hS hu h0 h1).1, fun _ h0 h1 => (li4mid_ratio hS hu h0 h1).1⟩

/-- non-vacuity: decimal literals -/
example (x : ℝ) (hx : |x| ≤ 1) : |ofR (Li4d (toR RealSem.dec x)) - (pLi 4 (x : ℂ)).re| ≤ 4e-17 := by
  have := C12_Li4d RealSem.dec_lit (by norm_num) x
  simpa [max_eq_left hx] using this

end Polylog
