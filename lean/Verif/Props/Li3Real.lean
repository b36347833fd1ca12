import Verif.Proofs.CertLi34
import Verif.Proofs.RealLi34
import Verif.Props.Li3Cx

/-! # C11: the real trilogarithm; C34 for the approximations of `Li3` -/

noncomputable section
namespace Polylog

variable {S : RealSem}

/-- approximation of `Li_n(y)/y`, `0 < y ≤ 1/2`, from a certificate -/
theorem li_ratio (k : ℕ) {a b : ℕ} (P : Vector ℚ a) (Q : Vector ℚ b) {u : ℝ} (hS : S.Lit u) {N : ℚ} {j n : ℕ}
    {E En δ : ℤ} {M K : ℕ} {ε δ' B : ℝ} {BP BQ : ℚ} {y : ℝ}
    (h : rcert j n 1 1 4 (vZ N P) (vZ N Q) (liL (k + 2) M K) M E En δ = true)
    (hden : (P.toList ++ Q.toList).all (fun q => (q * N).den == 1) = true)
    (hpos : 0 < N ∧ 0 < En ∧ 0 < δ ∧ 0 < M)
    (hy0 : 0 < y) (hy1 : y ≤ 1 / 2)
    (hε : (E : ℝ) / En + (1 / M + (1 / 2) ^ K) / (1 - 1 / 2) ≤ ε) (hε1 : ε ≤ 1 / 100)
    (hδ : δ' ≤ (δ : ℝ) / N) (hδ0 : 0 < δ')
    (hB : vAbs P (1/2) ≤ BP ∧ vAbs Q (1/2) ≤ BQ) (hu : u * BQ ≤ δ' / 2) (hK : 2 * (BP + 2.01 * BQ) / δ' ≤ B) :
    0 < rv S Q y ∧ |rv S P y / rv S Q y - reLi (k + 2) y / y| ≤ ε + u * B := by
  obtain ⟨hN, hEn, hδz, hM⟩ := hpos
  obtain ⟨h1, h2⟩ := rcert_qv h hden hN one_pos (by norm_num) (by exact_mod_cast hM) hEn hδz (x := y) (by norm_num; exact hy0) (by norm_num; linarith)
  have hya : |y| ≤ 1 / 2 := by rw [abs_of_pos hy0]; exact hy1
  have h3 := reLi_taylor k (M := M) (K := K) hM hy0.ne' hya (by norm_num)
  have h4 := reLi_div_abs_le k hy0.ne' hya (by norm_num)
  have h5 : |qv P y / qv Q y - reLi (k + 2) y / y| ≤ ε := by
    rw [abs_sub_comm] at h3
    push_cast at h2
    calc _ ≤ |qv P y / qv Q y - pev (liL (k + 2) M K) y / M| + |pev (liL (k + 2) M K) y / M - reLi (k + 2) y / y| := abs_sub_le _ _ _
      _ ≤ _ := by linarith
  exact rat_approx P Q hS (X := 1/2) (by push_cast; exact hya) hδ0 (hδ.trans h1) h5 (by norm_num at h4; linarith) hB.1 hB.2 hu hK

theorem li3pos_ratio {u : ℝ} (hS : S.Lit u) (hu : u ≤ 1 / 1000) {y : ℝ} (hy0 : 0 < y) (hy1 : y ≤ 1 / 2) :
    0 < rv S li3posQ y ∧ |rv S li3posP y / rv S li3posQ y - reLi 3 y / y| ≤ 1.2e-17 + u * 98 := by
  refine li_ratio 1 li3posP li3posQ hS (M := 2^80) (K := 64) (BP := 2.97) (BQ := 3.15) (δ' := 0.19) (by exact_mod_cast cert_li3pos)
    den_li34.1 (by norm_num) hy0 hy1 (by norm_num) (by norm_num) (by norm_num) (by norm_num)
    (by decide +kernel) (by push_cast; linarith) (by norm_num)

theorem li3neg_ratio {u : ℝ} (hS : S.Lit u) (hu : u ≤ 1 / 1000) {x : ℝ} (hx0 : x < 0) (hx1 : -1 < x) :
    0 < rv S li3negQ x ∧ |rv S li3negP x / rv S li3negQ x - reLi 3 x / x| ≤ 3.72e-17 + u * 22 := by
  refine euler_ratio 2 li3negP li3negQ hS (M := 2^80) (K := 70) (BP := 4.94) (BQ := 5.48) cert_li3neg cert_li3negQ (by decide +kernel)
    den_li34.2.1 (by norm_num) hx0 hx1 (by norm_num) (by norm_num)
    (by decide +kernel) (by push_cast; linarith) (by norm_num)

theorem quot_bound {r f ε y : ℝ} (hy : y ≠ 0) (h : |r - f / y| ≤ ε) : |y * r - f| ≤ ε * |y| := by
  have e : y * r - f = y * (r - f / y) := by field_simp
  rw [e, abs_mul, mul_comm]
  exact mul_le_mul_of_nonneg_right h (abs_nonneg y)

/-- evaluation scheme of the polynomials of degree 5 and 6 (`li3_neg`, `li3_pos`, `li4_neg`) -/
theorem ev67 (P : Vector ℚ 6) (Q : Vector ℚ 7) (x : R S) (h : rv S Q (ofR x) ≠ 0) :
    ofR (x *. ((FOps.lit P[0] : R S) +. x *. (FOps.lit P[1] : R S) +. x *. x *. ((FOps.lit P[2] : R S) +. x *. (FOps.lit P[3] : R S)) +. x *. x *. (x *. x) *. ((FOps.lit P[4] : R S) +. x *. (FOps.lit P[5] : R S)))
      /. ((FOps.lit Q[0] : R S) +. x *. (FOps.lit Q[1] : R S) +. x *. x *. ((FOps.lit Q[2] : R S) +. x *. (FOps.lit Q[3] : R S)) +. x *. x *. (x *. x) *. ((FOps.lit Q[4] : R S) +. x *. (FOps.lit Q[5] : R S) +. x *. x *. (FOps.lit Q[6] : R S)))) =
    ofR x * (rv S P (ofR x) / rv S Q (ofR x)) := by
  have hq : ofR ((FOps.lit Q[0] : R S) +. x *. (FOps.lit Q[1] : R S) +. x *. x *. ((FOps.lit Q[2] : R S) +. x *. (FOps.lit Q[3] : R S)) +. x *. x *. (x *. x) *. ((FOps.lit Q[4] : R S) +. x *. (FOps.lit Q[5] : R S) +. x *. x *. (FOps.lit Q[6] : R S))) = rv S Q (ofR x) := by
    simp [rsem, rv, Fin.sum_univ_succ]; ring
  have hp : ofR ((FOps.lit P[0] : R S) +. x *. (FOps.lit P[1] : R S) +. x *. x *. ((FOps.lit P[2] : R S) +. x *. (FOps.lit P[3] : R S)) +. x *. x *. (x *. x) *. ((FOps.lit P[4] : R S) +. x *. (FOps.lit P[5] : R S))) = rv S P (ofR x) := by
    simp [rsem, rv, Fin.sum_univ_succ]; ring
  rw [ofR_div (by rw [hq]; exact h), hq, ofR_mul, hp]
  ring

theorem li3_pos_acc {u : ℝ} (hS : S.Lit u) (hu : u ≤ 1 / 1000) (x : R S) (h0 : 0 < ofR x) (h1 : ofR x ≤ 1 / 2) :
    |ofR (li3_pos x) - reLi 3 (ofR x)| ≤ (1.2e-17 + u * 98) * |ofR x| := by
  have h := li3pos_ratio hS hu h0 h1
  have e := ev67 li3posP li3posQ x h.1.ne'
  have e2 : ofR (li3_pos x) = ofR x * (rv S li3posP (ofR x) / rv S li3posQ (ofR x)) := e
  rw [e2]
  exact quot_bound h0.ne' h.2

theorem li3_neg_acc {u : ℝ} (hS : S.Lit u) (hu : u ≤ 1 / 1000) (x : R S) (h0 : ofR x < 0) (h1 : -1 < ofR x) :
    |ofR (li3_neg x) - reLi 3 (ofR x)| ≤ (3.72e-17 + u * 22) * |ofR x| := by
  have h := li3neg_ratio hS hu h0 h1
  have e := ev67 li3negP li3negQ x h.1.ne'
  have e2 : ofR (li3_neg x) = ofR x * (rv S li3negP (ofR x) / rv S li3negQ (ofR x)) := e
  rw [e2]
  exact quot_bound h0.ne h.2

theorem ofR_sixth {u : ℝ} (hS : S.Lit u) : ofR ((FOps.lit 1 : R S) /. (FOps.lit 6 : R S)) = 1 / 6 := by
  rw [ofR_div (by simp [rsem, hS.six])]; simp [rsem, hS.one, hS.six]

set_option maxHeartbeats 2000000 in
/-- **C11.** `double Li3(double x)`: for every real `x` the method error is at most
`1.2e-16 + 9e-17 log(max(1,|x|))` (plus a multiple of `u`, the relative error of the compiled literals). -/
theorem C11_Li3d {u : ℝ} (hS : S.Lit u) (hu : u ≤ 1 / 1000) (x : ℝ) :
    |ofR (Li3d (toR S x)) - (pLi 3 (x : ℂ)).re| ≤ 1.2e-16 + 75 * u + (9e-17 + 4 * u) * Real.log (max 1 |x|) := by
  have hu0 := hS.u_nonneg
  have e5 : ((S.rho 0.5 : ℚ) : ℝ) = 1 / 2 := by rw [hS.half]; norm_num
  have hn : ofR (toR S x) = x := rfl
  have hz2 := zlit_err hS 0 (by norm_num) 1.6449340668482264 (e := 4.4e-17) (by decide +kernel) (by norm_num)
  have hz3 := zlit_err hS 1 (by norm_num) 1.2020569031595943 (e := 1.5e-17) (by decide +kernel) (by norm_num)
  rw [show reLi (0 + 2) 1 = Real.pi ^ 2 / 6 from reLi_two_one] at hz2
  rw [show reLi (1 + 2) 1 = reLi 3 1 from rfl] at hz3
  set D2 := ((S.rho 1.6449340668482264 : ℚ) : ℝ) - Real.pi ^ 2 / 6 with hD2
  set D3 := ((S.rho 1.2020569031595943 : ℚ) : ℝ) - reLi 3 1 with hD3
  have hZ2 : ((S.rho 1.6449340668482264 : ℚ) : ℝ) = Real.pi ^ 2 / 6 + D2 := by rw [hD2]; ring
  have hZ3 : ((S.rho 1.2020569031595943 : ℚ) : ℝ) = reLi 3 1 + D3 := by rw [hD3]; ring
  clear_value D2 D3
  push_cast at hz2 hz3
  change |_ - reLi 3 x| ≤ _
  set L := Real.log (max 1 |x|) with hL
  have hL0 : 0 ≤ L := Real.log_nonneg (le_max_left _ _)
  have key : ∀ {A a b c m : ℝ}, |a| ≤ 2 * L + 0.7 → |b| ≤ 1 → A = a * D2 + b * D3 + c → |c| ≤ m → m ≤ 5e-17 + 71 * u →
      |A| ≤ 1.2e-16 + 75 * u + (9e-17 + 4 * u) * L := by
    intro A a b c m ha hb hA hc hm
    calc |A| ≤ |a| * |D2| + |b| * |D3| + |c| := by
          rw [hA, ← abs_mul, ← abs_mul]; exact (abs_add_le _ _).trans (add_le_add (abs_add_le _ _) le_rfl)
      _ ≤ (2 * L + 0.7) * (4.4e-17 + 2 * u) + 1 * (1.5e-17 + 2 * u) + m := by
          refine add_le_add (add_le_add (mul_le_mul ha ?_ (abs_nonneg _) (by positivity)) (mul_le_mul hb ?_ (abs_nonneg _) (by norm_num))) hc
          · linarith
          · linarith
      _ ≤ _ := by
          have : 0 ≤ L * u := mul_nonneg hL0 hu0
          nlinarith
  unfold Li3d
  simp only [lt_R, eq_R, ofR_neg, ofR_lit, hS.one, hS.zero, hS.two, e5, hn, Rat.cast_one, Rat.cast_zero, Rat.cast_ofNat,
    decide_eq_true_eq]
  split_ifs with h1 h2 h3 h4 h5 h6 h7 h8 h9
  · -- x < -1
    have hx : x < 0 := by linarith
    have hy : ofR ((FOps.lit 1 : R S) /. toR S x) = x⁻¹ := by
      rw [ofR_div (by simp [rsem]; linarith)]; simp [rsem, hS.one]
    have hy0 : x⁻¹ < 0 := inv_neg''.mpr hx
    have hy1 : -1 < x⁻¹ := by rw [neg_lt, ← inv_neg]; exact inv_lt_one_of_one_lt₀ (by linarith)
    have ha := li3_neg_acc hS hu ((FOps.lit 1 : R S) /. toR S x) (by rw [hy]; exact hy0) (by rw [hy]; exact hy1)
    rw [hy] at ha
    have hlog : ofR (xlog (∸(toR S x))) = Real.log (-x) := by
      rw [xlog_R, ofR_log (by simp [rsem]; linarith)]; simp [rsem]
    simp only [ofR_sub, ofR_mul, ofR_add, hlog, ofR_lit, hZ2, ofR_sixth hS]
    have hlL : |Real.log (-x)| = L := by
      rw [hL, abs_of_neg hx, max_eq_right (by linarith), abs_of_nonneg (Real.log_nonneg (by linarith))]
    refine key (a := -Real.log (-x)) (b := 0) (c := ofR (li3_neg ((FOps.lit 1 : R S) /. toR S x)) - reLi 3 x⁻¹) (by rw [abs_neg, hlL]; linarith) (by norm_num) ?_ ha ?_
    · rw [reLi_three_inv_neg hx]; ring
    · have : |x⁻¹| ≤ 1 := by rw [abs_le]; constructor <;> linarith
      nlinarith [abs_nonneg x⁻¹]
  · -- x = -1
    subst h2
    have e75 : ((S.rho 0.75 : ℚ) : ℝ) = 3 / 4 := by
      rw [hS.dy 0.75 3 2 (by norm_num) (by norm_num) (by norm_num)]; norm_num
    have := reLi_neg_one_eq 1
    norm_num at this
    simp only [ofR_mul, ofR_neg, ofR_lit, hZ3, e75]
    refine key (a := 0) (b := -(3/4)) (c := 0) (m := 0) (by simp; positivity) (by norm_num [abs_of_nonneg]) ?_ (by simp) (by positivity)
    rw [this]; ring
  · -- -1 < x < 0
    have hm1 : -1 < x := lt_of_le_of_ne (not_lt.mp h1) (fun h => h2 h.symm)
    have ha := li3_neg_acc hS hu (toR S x) (by rw [hn]; exact h3) (by rw [hn]; exact hm1)
    rw [hn] at ha
    refine key (a := 0) (b := 0) (by simp; positivity) (by norm_num) (by ring) ha ?_
    have : |x| ≤ 1 := by rw [abs_le]; constructor <;> linarith
    nlinarith [abs_nonneg x]
  · subst h4
    rw [hn, reLi_zero_right, sub_zero, abs_zero]; positivity
  · -- 0 < x < 1/2
    have h0 : 0 < x := lt_of_le_of_ne (not_lt.mp h3) (fun h => h4 h.symm)
    have ha := li3_pos_acc hS hu (toR S x) (by rw [hn]; exact h0) (by rw [hn]; exact h5.le)
    rw [hn] at ha
    refine key (a := 0) (b := 0) (by simp; positivity) (by norm_num) (by ring) ha ?_
    have : |x| ≤ 1 / 2 := by rw [abs_of_pos h0]; exact h5.le
    nlinarith [abs_nonneg x]
  · -- x = 1/2
    subst h6
    have hh := reLi_three_half
    have hr := hS.rel 0.53721319360804020
    refine key (a := 0) (b := 0) (c := ((S.rho 0.53721319360804020 : ℚ) : ℝ) - reLi 3 (1 / 2)) (m := 1e-17 + u) (by simp; positivity) (by norm_num)
      (by rw [ofR_lit, zero_mul, zero_mul, zero_add, zero_add]) ?_ (by linarith)
    push_cast at hh hr
    rw [abs_sub_comm] at hh
    have e1 : |(0.53721319360804020 : ℝ) - 0.537213193608040200940623225594965827| ≤ 9.5e-19 := by
      rw [abs_le]; constructor <;> norm_num
    have e2 : |(0.53721319360804020 : ℝ)| = 0.53721319360804020 := abs_of_nonneg (by norm_num)
    rw [e2] at hr
    rw [abs_le] at hr hh e1 ⊢
    constructor <;> linarith [hr.1, hr.2, hh.1, hh.2, e1.1, e1.2]
  · -- 1/2 < x < 1
    have h0 : 1 / 2 < x := lt_of_le_of_ne (not_lt.mp h5) (fun h => h6 h.symm)
    have hx0 : 0 < x := by linarith
    have hy : ofR ((FOps.lit 1 : R S) -. (FOps.lit 1 : R S) /. toR S x) = 1 - 1 / x := by
      rw [ofR_sub, ofR_div (by simp [rsem]; linarith)]; simp [rsem, hS.one]
    have hy' : ofR ((FOps.lit 1 : R S) -. toR S x) = 1 - x := by simp [rsem, hS.one]
    have hi1 : 1 < 1 / x := by rw [lt_div_iff₀ hx0]; linarith
    have hi2 : 1 / x < 2 := by rw [div_lt_iff₀ hx0]; linarith
    have ha := li3_neg_acc hS hu ((FOps.lit 1 : R S) -. (FOps.lit 1 : R S) /. toR S x) (by rw [hy]; linarith) (by rw [hy]; linarith)
    have hb := li3_pos_acc hS hu ((FOps.lit 1 : R S) -. toR S x) (by rw [hy']; linarith) (by rw [hy']; linarith)
    rw [hy] at ha
    rw [hy'] at hb
    have hlog : ofR (FOps.log1p (∸(toR S x))) = Real.log (1 - x) := by
      rw [ofR_log1p (by simp [rsem]; linarith)]; simp [rsem, sub_eq_add_neg]
    have hlog2 : ofR (xlog (toR S x)) = Real.log x := by
      rw [xlog_R, ofR_log (by simpa [rsem] using hx0), hn]
    simp only [ofR_sub, ofR_mul, ofR_add, ofR_neg, hlog, hlog2, ofR_lit, hZ2, hZ3, ofR_sixth hS, e5]
    have hl : |Real.log x| ≤ 0.7 := by
      rw [abs_of_neg (Real.log_neg hx0 h7)]
      have := Real.log_lt_log (by norm_num) h0
      rw [one_div, Real.log_inv] at this
      have := Real.log_two_lt_d9
      linarith
    refine key (a := Real.log x) (b := 1) (c := -(ofR (li3_neg ((FOps.lit 1 : R S) -. (FOps.lit 1 : R S) /. toR S x)) - reLi 3 (1 - 1 / x))
        - (ofR (li3_pos ((FOps.lit 1 : R S) -. toR S x)) - reLi 3 (1 - x)))
      (m := (3.72e-17 + u * 22) * |1 - 1 / x| + (1.2e-17 + u * 98) * |1 - x|) (by linarith) (by norm_num) ?_ ?_ ?_
    · linear_combination -reLi_three_landen hx0 h7
    · refine (abs_sub _ _).trans (add_le_add ?_ hb)
      rw [abs_neg]; exact ha
    · have h8 : |1 - 1 / x| ≤ 1 := by rw [abs_le]; constructor <;> linarith
      have h9 : |1 - x| ≤ 1 / 2 := by rw [abs_le]; constructor <;> linarith
      nlinarith [abs_nonneg (1 - x), abs_nonneg (1 - 1 / x)]
  · subst h8
    refine key (a := 0) (b := 1) (c := 0) (m := 0) (by simp; positivity) (by norm_num) ?_ (by simp) (by positivity)
    rw [ofR_lit, hZ3]; ring
  · -- 1 < x < 2
    have hx : 1 < x := lt_of_le_of_ne (not_lt.mp h7) (fun h => h8 h.symm)
    have hx0 : 0 < x := by linarith
    have hy : ofR ((FOps.lit 1 : R S) -. (FOps.lit 1 : R S) /. toR S x) = 1 - 1 / x := by
      rw [ofR_sub, ofR_div (by simp [rsem]; linarith)]; simp [rsem, hS.one]
    have hy' : ofR ((FOps.lit 1 : R S) -. toR S x) = 1 - x := by simp [rsem, hS.one]
    have hi1 : 1 / x < 1 := by rw [div_lt_iff₀ hx0]; linarith
    have hi2 : 1 / 2 < 1 / x := by rw [lt_div_iff₀ hx0]; linarith
    have ha := li3_neg_acc hS hu ((FOps.lit 1 : R S) -. toR S x) (by rw [hy']; linarith) (by rw [hy']; linarith)
    have hb := li3_pos_acc hS hu ((FOps.lit 1 : R S) -. (FOps.lit 1 : R S) /. toR S x) (by rw [hy]; linarith) (by rw [hy]; linarith)
    rw [hy'] at ha
    rw [hy] at hb
    have hlog : ofR (xlog (toR S x -. (FOps.lit 1 : R S))) = Real.log (x - 1) := by
      rw [xlog_R, ofR_log (by simp [rsem, hS.one]; linarith)]; simp [rsem, hS.one]
    have hlog2 : ofR (xlog (toR S x)) = Real.log x := by
      rw [xlog_R, ofR_log (by simpa [rsem] using hx0), hn]
    simp only [ofR_sub, ofR_mul, ofR_add, ofR_neg, hlog, hlog2, ofR_lit, hZ2, hZ3, ofR_sixth hS, e5]
    have hl : |Real.log x| ≤ 0.7 := by
      rw [abs_of_pos (Real.log_pos hx)]
      have := Real.log_lt_log hx0 h9
      have := Real.log_two_lt_d9
      linarith
    have hI := reLi_three_inv hx
    rw [← one_div] at hI
    have hLd := reLi_three_landen (x := 1 / x) (by positivity) hi1
    have e1 : 1 - 1 / (1 / x) = 1 - x := by field_simp
    have e2 : Real.log (1 - 1 / x) = Real.log (x - 1) - Real.log x := by
      rw [← Real.log_div (by linarith) hx0.ne']; congr 1; field_simp
    have e3 : Real.log (1 / x) = -Real.log x := by rw [one_div, Real.log_inv]
    rw [e1, e2, e3] at hLd
    refine key (a := Real.log x) (b := 1) (c := -(ofR (li3_neg ((FOps.lit 1 : R S) -. toR S x)) - reLi 3 (1 - x))
        - (ofR (li3_pos ((FOps.lit 1 : R S) -. (FOps.lit 1 : R S) /. toR S x)) - reLi 3 (1 - 1 / x)))
      (m := (3.72e-17 + u * 22) * |1 - x| + (1.2e-17 + u * 98) * |1 - 1 / x|) (by linarith) (by norm_num) ?_ ?_ ?_
    · rw [hI]; linear_combination -hLd
    · refine (abs_sub _ _).trans (add_le_add ?_ hb)
      rw [abs_neg]; exact ha
    · have h8 : |1 - 1 / x| ≤ 1 / 2 := by rw [abs_le]; constructor <;> linarith
      have h9 : |1 - x| ≤ 1 := by rw [abs_le]; constructor <;> linarith
      nlinarith [abs_nonneg (1 - x), abs_nonneg (1 - 1 / x)]
  · -- 2 ≤ x
    have hx : 1 < x := by linarith
    have hx0 : 0 < x := by linarith
    have hy : ofR ((FOps.lit 1 : R S) /. toR S x) = x⁻¹ := by
      rw [ofR_div (by simp [rsem]; linarith)]; simp [rsem, hS.one]
    have hy0 : 0 < x⁻¹ := by positivity
    have hy1 : x⁻¹ ≤ 1 / 2 := by rw [← one_div]; apply one_div_le_one_div_of_le <;> linarith
    have ha := li3_pos_acc hS hu ((FOps.lit 1 : R S) /. toR S x) (by rw [hy]; exact hy0) (by rw [hy]; exact hy1)
    rw [hy] at ha
    have hlog : ofR (xlog (toR S x)) = Real.log x := by
      rw [xlog_R, ofR_log (by simpa [rsem] using hx0), hn]
    simp only [ofR_sub, ofR_mul, ofR_add, hlog, ofR_lit, hZ2, ofR_sixth hS, hS.two]
    have hlL : |Real.log x| = L := by
      rw [hL, abs_of_pos hx0, max_eq_right (by linarith), abs_of_nonneg (Real.log_nonneg (by linarith))]
    refine key (a := 2 * Real.log x) (b := 0) (c := ofR (li3_pos ((FOps.lit 1 : R S) /. toR S x)) - reLi 3 x⁻¹) (by rw [abs_mul, hlL]; norm_num) (by norm_num) ?_ ha ?_
    · rw [reLi_three_inv hx]; push_cast; ring
    · have : |x⁻¹| ≤ 1 / 2 := by rw [abs_of_pos hy0]; exact hy1
      nlinarith [abs_nonneg x⁻¹]

/-- **C34** (Li3): the denominators of `li3_pos`, `li3_neg` are positive where they are used. -/
theorem C34_Li3 {u : ℝ} (hS : S.Lit u) (hu : u ≤ 1 / 1000) :
    (∀ y : ℝ, 0 < y → y ≤ 1 / 2 → 0 < rv S li3posQ y) ∧ (∀ y : ℝ, y < 0 → -1 < y → 0 < rv S li3negQ y) :=
  ⟨fun _ h0 h1 => (li3pos_ratio hS hu h0 h1).1, fun _ h0 h1 => (li3neg_ratio hS hu h0 h1).1⟩

/-- non-vacuity: decimal literals -/
example (x : ℝ) (hx : |x| ≤ 1) : |ofR (Li3d (toR RealSem.dec x)) - (pLi 3 (x : ℂ)).re| ≤ 1.2e-16 := by
  have := C11_Li3d RealSem.dec_lit (by norm_num) x
  simpa [max_eq_left hx] using this

end Polylog
