import Verif.Props.Li34FPApp

/-! # Rational approximations of `Li3`, `Li4` in IEEE binary64 (generated by tools/li/genli34.py) -/

namespace Polylog
set_option linter.style.longLine false
set_option linter.unusedSimpArgs false
set_option maxRecDepth 20000

variable {L : Lib}

section
/-- numeric literal -/
local notation:max "♯" q:max => FE.lit (q : ℚ)
/-- numerator and denominator of `li3_neg` as straight-line programs -/
def li3negD : List FE := [(FE.var 0) *. (FE.var 0), (FE.var 1) *. (FE.var 1)]
@[inherit_doc li3negD] def li3negEP : FE := ♯(li3negP[0]) +. (FE.var 0) *. ♯(li3negP[1]) +. (FE.var 1) *. (♯(li3negP[2]) +. (FE.var 0) *. ♯(li3negP[3])) +. (FE.var 2) *. (♯(li3negP[4]) +. (FE.var 0) *. ♯(li3negP[5]))
@[inherit_doc li3negD] def li3negEQ : FE := ♯(li3negQ[0]) +. (FE.var 0) *. ♯(li3negQ[1]) +. (FE.var 1) *. (♯(li3negQ[2]) +. (FE.var 0) *. ♯(li3negQ[3])) +. (FE.var 2) *. (♯(li3negQ[4]) +. (FE.var 0) *. ♯(li3negQ[5]) +. (FE.var 1) *. ♯(li3negQ[6]))
@[inherit_doc li3negD] def li3negRD : List FE := li3negD ++ [li3negEP, li3negEQ]
@[inherit_doc li3negD] def li3negRE : FE := (FE.var 3) /. (FE.var 4)
end

theorem li3neg_certP : boxesP 53 120 1329227995784915884304521879603543061 [] 0 li3negD li3negEP 4196694300948247725757 (-1329227995784915879267943284127137581) 1 = true := by decide +kernel
theorem li3neg_certQ : boxesP 53 120 1329227995784915884304521879603543061 [] 0 li3negD li3negEQ 4196694300948247725757 (-1329227995784915879267943284127137581) 1 = true := by decide +kernel
theorem li3neg_certR : boxesP 53 120 83076749736557253457202760590720021 [] 0 li3negRD li3negRE 1733855405568659735055 (-1329227995784915879267943284127137581) 16 = true := by decide +kernel
theorem li3neg_rsP (x : ℝ) : ofR (rsP RealSem.dec [toR RealSem.dec x] li3negD li3negEP) = rv RealSem.dec li3negP x := by
  have h : rsP RealSem.dec [toR RealSem.dec x] li3negD li3negEP = (let x : R RealSem.dec := toR RealSem.dec x
    let x2 := x *. x
    let x4 := x2 *. x2
    (FOps.lit li3negP[0] : R RealSem.dec) +. x *. (FOps.lit li3negP[1] : R RealSem.dec) +. x2 *. ((FOps.lit li3negP[2] : R RealSem.dec) +. x *. (FOps.lit li3negP[3] : R RealSem.dec)) +. x4 *. ((FOps.lit li3negP[4] : R RealSem.dec) +. x *. (FOps.lit li3negP[5] : R RealSem.dec))) := rfl
  rw [h]
  simp [rsem, rv, Fin.sum_univ_succ]; ring
theorem li3neg_rsQ (x : ℝ) : ofR (rsP RealSem.dec [toR RealSem.dec x] li3negD li3negEQ) = rv RealSem.dec li3negQ x := by
  have h : rsP RealSem.dec [toR RealSem.dec x] li3negD li3negEQ = (let x : R RealSem.dec := toR RealSem.dec x
    let x2 := x *. x
    let x4 := x2 *. x2
    (FOps.lit li3negQ[0] : R RealSem.dec) +. x *. (FOps.lit li3negQ[1] : R RealSem.dec) +. x2 *. ((FOps.lit li3negQ[2] : R RealSem.dec) +. x *. (FOps.lit li3negQ[3] : R RealSem.dec)) +. x4 *. ((FOps.lit li3negQ[4] : R RealSem.dec) +. x *. (FOps.lit li3negQ[5] : R RealSem.dec) +. x2 *. (FOps.lit li3negQ[6] : R RealSem.dec))) := rfl
  rw [h]
  simp [rsem, rv, Fin.sum_univ_succ]; ring
theorem li3neg_rsR (x : ℝ) (h : rv RealSem.dec li3negQ x ≠ 0) : ofR (rsP RealSem.dec [toR RealSem.dec x] li3negRD li3negRE) = rv RealSem.dec li3negP x / rv RealSem.dec li3negQ x := by
  have h' : rsP RealSem.dec [toR RealSem.dec x] li3negRD li3negRE = rsP RealSem.dec [toR RealSem.dec x] li3negD li3negEP /. rsP RealSem.dec [toR RealSem.dec x] li3negD li3negEQ := rfl
  rw [h', ofR_div (by rw [li3neg_rsQ]; exact h), li3neg_rsP, li3neg_rsQ]

theorem li3neg_fp (x : FP binary64 L) : ofF (li3_neg x) = FV.div binary64 (FV.mul binary64 (ofF x) (fpP binary64 [ofF x] li3negD li3negEP)) (fpP binary64 [ofF x] li3negD li3negEQ) := rfl
theorem li3neg_fpR (x : FP binary64 L) : fpP binary64 [ofF x] li3negRD li3negRE = FV.div binary64 (fpP binary64 [ofF x] li3negD li3negEP) (fpP binary64 [ofF x] li3negD li3negEQ) := rfl
theorem li3neg_Qge {x : ℝ} (h0 : -1 ≤ x) (h1 : x ≤ 0) : 1 ≤ rv RealSem.dec li3negQ x := by
  obtain ⟨t, rfl⟩ : ∃ t, x = -t := ⟨-x, by ring⟩
  have ht : 0 ≤ t := by linarith
  simp only [rv, RealSem.dec, id, Fin.sum_univ_succ, li3negQ]
  simp
  norm_num
  nlinarith [pow_nonneg ht 2, pow_nonneg ht 3, pow_nonneg ht 4, pow_nonneg ht 5, pow_nonneg ht 6]

theorem li3neg_ratio' {x : ℝ} (h0 : -1 ≤ x) (h1 : x < 0) : |rv RealSem.dec li3negP x / rv RealSem.dec li3negQ x - reLi 3 x / x| ≤ 4.9e-17 := by
  rcases h0.eq_or_lt with h | h
  · subst h
    have hz := zlit_err RealSem.dec_lit 1 (by norm_num) 1.202056903159594285 (e := 1e-18) (by decide +kernel) (by norm_num)
    have hm := reLi_neg_one_eq 1
    norm_num at hm
    rw [hm]
    have hc : |qev li3negP (-1) / qev li3negQ (-1) - 3 / 4 * 1.202056903159594285| ≤ 4e-17 := by decide +kernel
    have hc' := (Rat.cast_le (K := ℝ)).2 hc
    rw [Rat.cast_abs, Rat.cast_sub, Rat.cast_div, ← rv_dec_cast, ← rv_dec_cast] at hc'
    push_cast at hc'
    simp only [RealSem.dec, id] at hz
    rw [abs_le] at hz hc' ⊢
    norm_num at hz hc' ⊢
    constructor <;> linarith [hz.1, hz.2, hc'.1, hc'.2]
  · refine ((li3neg_ratio RealSem.dec_lit (by norm_num) h1 h).2).trans (by norm_num)

/-- `li3_neg` in binary64: relative error `16.3 u` -/
theorem li3neg_near (x : FP binary64 L) {q : ℚ} (hx : Val binary64 (ofF x) q) (h0 : -1 ≤ q) (h1 : q ≤ 0) :
    Near binary64 (ofF (li3_neg x)) (reLi 3 q) (16.3 * uR binary64 * |(q : ℝ)| + 2 ^ (-1068 : ℤ)) := by
  have h0r : (-1 : ℝ) ≤ q := by exact_mod_cast h0
  have h1r : (q : ℝ) ≤ 0 := by exact_mod_cast h1
  have hu0 := uR_pos (φ := binary64)
  have hx0 : Near binary64 (ofF x) (ofR (toR RealSem.dec (q : ℝ))) (((0:ℤ):ℝ) / 2 ^ 120) := by
    have := hx.near; simpa using this
  have b0 : (((-1329227995784915879267943284127137581 : ℤ)) : ℝ) ≤ ofR (toR RealSem.dec (q : ℝ)) * 2 ^ 120 := by
    change _ ≤ (q:ℝ) * 2 ^ 120
    push_cast; nlinarith
  have b1 : ofR (toR RealSem.dec (q : ℝ)) * 2 ^ 120 ≤ (((-1329227995784915879267943284127137581 : ℤ) + (1 : ℕ) * 1329227995784915884304521879603543061 : ℤ) : ℝ) := by
    change (q:ℝ) * 2 ^ 120 ≤ _
    push_cast; nlinarith
  have hP := boxesP_sound fmtOK64 (S := RealSem.dec) rfl (by norm_num) (by norm_num) li3neg_certP .nil hx0 b0 b1
  have hQ := boxesP_sound fmtOK64 (S := RealSem.dec) rfl (by norm_num) (by norm_num) li3neg_certQ .nil hx0 b0 b1
  rw [li3neg_rsP] at hP
  rw [li3neg_rsQ] at hQ
  have hge := li3neg_Qge h0r h1r
  have hQ0 : rv RealSem.dec li3negQ q ≠ 0 := by intro h; rw [h] at hge; norm_num at hge

  have hR := boxesP_sound fmtOK64 (S := RealSem.dec) rfl (by norm_num) (by norm_num) li3neg_certR .nil hx0 b0 (by
    change (q:ℝ) * 2 ^ 120 ≤ _
    push_cast; nlinarith)
  rw [li3neg_rsR _ hQ0, li3neg_fpR] at hR

  have hq1 : |(q:ℝ)| ≤ 1 := by rw [abs_le]; constructor <;> linarith
  have hpb : |rv RealSem.dec li3negP q| ≤ 10 := by
    have e : rv RealSem.dec li3negP q = qv li3negP q := rfl
    rw [e]
    refine (qv_abs_le li3negP (X := 1) (by push_cast; linarith)).trans ?_
    have : vAbs li3negP 1 ≤ 10 := by decide +kernel
    exact_mod_cast this
  have hrat : |rv RealSem.dec li3negP q / rv RealSem.dec li3negQ q| ≤ 1.01 - 0.005 ∧ |q * (rv RealSem.dec li3negP q / rv RealSem.dec li3negQ q) - reLi 3 q| ≤ 5e-17 * |(q:ℝ)| := by
    by_cases hq0 : (q:ℝ) = 0
    · rw [hq0, reLi_zero_right]
      constructor
      · have hc : |qev li3negP 0 / qev li3negQ 0| ≤ 1.01 - 0.005 := by decide +kernel
        have hc' := (Rat.cast_le (K := ℝ)).2 hc
        rw [Rat.cast_abs, Rat.cast_div, ← rv_dec_cast, ← rv_dec_cast] at hc'
        push_cast at hc'; exact hc'
      · simp
    · have h := li3neg_ratio' h0r (lt_of_le_of_ne h1r hq0)
      constructor
      · have hb := reLi_euler_abs_le 2 (lt_of_le_of_ne h1r hq0) h0r
        norm_num at hb
        have := abs_add_le (rv RealSem.dec li3negP q / rv RealSem.dec li3negQ q - reLi 3 q / q) (reLi 3 q / q)
        rw [sub_add_cancel] at this
        norm_num at h ⊢; linarith
      · exact (quot_bound hq0 h).trans (mul_le_mul_of_nonneg_right (by norm_num) (abs_nonneg _))
  have hf := rat_rel fmtA64 hx (by linarith) hP (by norm_num at hpb ⊢; linarith) hQ (m := 0.9) (by norm_num at hge ⊢; linarith) (by norm_num) hR (R := 1.01) (by
    have := hrat.1; norm_num at this ⊢; linarith) (by norm_num) (by norm_num)
  rw [← li3neg_fp] at hf
  refine (hf.shift hrat.2).mono ?_
  have e1 : (103:ℝ) * 2 ^ (binary64.emin - 1) ≤ 2 ^ (-1068 : ℤ) := by
    have : (2:ℝ) ^ (-1068 : ℤ) = 2 ^ (7:ℤ) * 2 ^ (binary64.emin - 1) := by rw [← zpow_add₀ (by norm_num)]; rfl
    rw [this]
    have h2 : (0:ℝ) < 2 ^ (binary64.emin - 1) := by positivity
    norm_num at h2 ⊢
    try linarith
  have e2 : (((1733855405568659735055 : ℤ) : ℝ) / 2 ^ 120 + 4 * uR binary64 * 1.01 + 5e-17) ≤ 16.3 * uR binary64 := by norm_num [uR, binary64]
  have := mul_le_mul_of_nonneg_right e2 (abs_nonneg (q:ℝ))
  linarith

section
/-- numeric literal -/
local notation:max "♯" q:max => FE.lit (q : ℚ)
/-- numerator and denominator of `li3_pos` as straight-line programs -/
def li3posD : List FE := [(FE.var 0) *. (FE.var 0), (FE.var 1) *. (FE.var 1)]
@[inherit_doc li3posD] def li3posEP : FE := ♯(li3posP[0]) +. (FE.var 0) *. ♯(li3posP[1]) +. (FE.var 1) *. (♯(li3posP[2]) +. (FE.var 0) *. ♯(li3posP[3])) +. (FE.var 2) *. (♯(li3posP[4]) +. (FE.var 0) *. ♯(li3posP[5]))
@[inherit_doc li3posD] def li3posEQ : FE := ♯(li3posQ[0]) +. (FE.var 0) *. ♯(li3posQ[1]) +. (FE.var 1) *. (♯(li3posQ[2]) +. (FE.var 0) *. ♯(li3posQ[3])) +. (FE.var 2) *. (♯(li3posQ[4]) +. (FE.var 0) *. ♯(li3posQ[5]) +. (FE.var 1) *. ♯(li3posQ[6]))
@[inherit_doc li3posD] def li3posRD : List FE := li3posD ++ [li3posEP, li3posEQ]
@[inherit_doc li3posD] def li3posRE : FE := (FE.var 3) /. (FE.var 4)
end

theorem li3pos_certP : boxesP 53 120 664613997892457947852618349463370773 [] 0 li3posD li3posEP 1521110838683491903412 (-6364136223846793005) 1 = true := by decide +kernel
theorem li3pos_certQ : boxesP 53 120 664613997892457947852618349463370773 [] 0 li3posD li3posEQ 1521110838683491903412 (-6364136223846793005) 1 = true := by decide +kernel
theorem li3pos_certR : hiCert 53 120 li3posRD li3posRE 13281655733070877163520 0 [424673, 99615] = true := by decide +kernel
theorem li3pos_rsP (x : ℝ) : ofR (rsP RealSem.dec [toR RealSem.dec x] li3posD li3posEP) = rv RealSem.dec li3posP x := by
  have h : rsP RealSem.dec [toR RealSem.dec x] li3posD li3posEP = (let x : R RealSem.dec := toR RealSem.dec x
    let x2 := x *. x
    let x4 := x2 *. x2
    (FOps.lit li3posP[0] : R RealSem.dec) +. x *. (FOps.lit li3posP[1] : R RealSem.dec) +. x2 *. ((FOps.lit li3posP[2] : R RealSem.dec) +. x *. (FOps.lit li3posP[3] : R RealSem.dec)) +. x4 *. ((FOps.lit li3posP[4] : R RealSem.dec) +. x *. (FOps.lit li3posP[5] : R RealSem.dec))) := rfl
  rw [h]
  simp [rsem, rv, Fin.sum_univ_succ]; ring
theorem li3pos_rsQ (x : ℝ) : ofR (rsP RealSem.dec [toR RealSem.dec x] li3posD li3posEQ) = rv RealSem.dec li3posQ x := by
  have h : rsP RealSem.dec [toR RealSem.dec x] li3posD li3posEQ = (let x : R RealSem.dec := toR RealSem.dec x
    let x2 := x *. x
    let x4 := x2 *. x2
    (FOps.lit li3posQ[0] : R RealSem.dec) +. x *. (FOps.lit li3posQ[1] : R RealSem.dec) +. x2 *. ((FOps.lit li3posQ[2] : R RealSem.dec) +. x *. (FOps.lit li3posQ[3] : R RealSem.dec)) +. x4 *. ((FOps.lit li3posQ[4] : R RealSem.dec) +. x *. (FOps.lit li3posQ[5] : R RealSem.dec) +. x2 *. (FOps.lit li3posQ[6] : R RealSem.dec))) := rfl
  rw [h]
  simp [rsem, rv, Fin.sum_univ_succ]; ring
theorem li3pos_rsR (x : ℝ) (h : rv RealSem.dec li3posQ x ≠ 0) : ofR (rsP RealSem.dec [toR RealSem.dec x] li3posRD li3posRE) = rv RealSem.dec li3posP x / rv RealSem.dec li3posQ x := by
  have h' : rsP RealSem.dec [toR RealSem.dec x] li3posRD li3posRE = rsP RealSem.dec [toR RealSem.dec x] li3posD li3posEP /. rsP RealSem.dec [toR RealSem.dec x] li3posD li3posEQ := rfl
  rw [h', ofR_div (by rw [li3pos_rsQ]; exact h), li3pos_rsP, li3pos_rsQ]

theorem li3pos_fp (x : FP binary64 L) : ofF (li3_pos x) = FV.div binary64 (FV.mul binary64 (ofF x) (fpP binary64 [ofF x] li3posD li3posEP)) (fpP binary64 [ofF x] li3posD li3posEQ) := rfl
theorem li3pos_fpR (x : FP binary64 L) : fpP binary64 [ofF x] li3posRD li3posRE = FV.div binary64 (fpP binary64 [ofF x] li3posD li3posEP) (fpP binary64 [ofF x] li3posD li3posEQ) := rfl
theorem li3pos_Qge {x : ℝ} (h0 : 0 ≤ x) (h1 : x ≤ 1 / 2) : 0.19 ≤ rv RealSem.dec li3posQ x := by
  rcases h0.eq_or_lt with h | h
  · subst h
    have hc : 0.19 ≤ qev li3posQ 0 := by decide +kernel
    have hc' := (Rat.cast_le (K := ℝ)).2 hc
    rw [← rv_dec_cast] at hc'
    push_cast at hc'; exact hc'
  · have h2 := (rcert_qv (by exact_mod_cast cert_li3pos) den_li34.1 (by norm_num) (by norm_num) (by norm_num) (by norm_num) (by norm_num) (by norm_num)
      (x := x) (by norm_num; exact h) (by norm_num; linarith)).1
    have e : rv RealSem.dec li3posQ x = qv li3posQ x := rfl
    rw [e]
    refine le_trans ?_ h2
    norm_num

theorem li3pos_ratio' {x : ℝ} (h0 : 0 < x) (h1 : x ≤ 1 / 2) : |rv RealSem.dec li3posP x / rv RealSem.dec li3posQ x - reLi 3 x / x| ≤ 5e-17 := by
  refine ((li3pos_ratio RealSem.dec_lit (by norm_num) h0 h1).2).trans (by norm_num)

/-- `li3_pos` in binary64: relative error `98.5 u` -/
theorem li3pos_near (x : FP binary64 L) {q : ℚ} (hx : Val binary64 (ofF x) q) (h0 : 0 ≤ q) (h1 : q ≤ 1 / 2) :
    Near binary64 (ofF (li3_pos x)) (reLi 3 q) (98.5 * uR binary64 * |(q : ℝ)| + 2 ^ (-1068 : ℤ)) := by
  have h0r : (0 : ℝ) ≤ q := by exact_mod_cast h0
  have h1r : (q : ℝ) ≤ 1 / 2 := by have := (Rat.cast_le (K := ℝ)).2 h1; push_cast at this; exact this
  have hu0 := uR_pos (φ := binary64)
  have hx0 : Near binary64 (ofF x) (ofR (toR RealSem.dec (q : ℝ))) (((0:ℤ):ℝ) / 2 ^ 120) := by
    have := hx.near; simpa using this
  have b0 : (((-6364136223846793005 : ℤ)) : ℝ) ≤ ofR (toR RealSem.dec (q : ℝ)) * 2 ^ 120 := by
    change _ ≤ (q:ℝ) * 2 ^ 120
    push_cast; nlinarith
  have b1 : ofR (toR RealSem.dec (q : ℝ)) * 2 ^ 120 ≤ (((-6364136223846793005 : ℤ) + (1 : ℕ) * 664613997892457947852618349463370773 : ℤ) : ℝ) := by
    change (q:ℝ) * 2 ^ 120 ≤ _
    push_cast; nlinarith
  have hP := boxesP_sound fmtOK64 (S := RealSem.dec) rfl (by norm_num) (by norm_num) li3pos_certP .nil hx0 b0 b1
  have hQ := boxesP_sound fmtOK64 (S := RealSem.dec) rfl (by norm_num) (by norm_num) li3pos_certQ .nil hx0 b0 b1
  rw [li3pos_rsP] at hP
  rw [li3pos_rsQ] at hQ
  have hge := li3pos_Qge h0r h1r
  have hQ0 : rv RealSem.dec li3posQ q ≠ 0 := by intro h; rw [h] at hge; norm_num at hge

  have hR := hi_sound fmtOK64 (by norm_num) _ (by simp) li3pos_certR hx (by simpa using h0r) (by norm_num; linarith)
  rw [li3pos_rsR _ hQ0, li3pos_fpR] at hR

  have hq1 : |(q:ℝ)| ≤ 1 / 2 := by rw [abs_le]; constructor <;> linarith
  have hpb : |rv RealSem.dec li3posP q| ≤ 10 := by
    have e : rv RealSem.dec li3posP q = qv li3posP q := rfl
    rw [e]
    refine (qv_abs_le li3posP (X := 1) (by push_cast; linarith)).trans ?_
    have : vAbs li3posP 1 ≤ 10 := by decide +kernel
    exact_mod_cast this
  have hrat : |rv RealSem.dec li3posP q / rv RealSem.dec li3posQ q| ≤ 2.01 - 0.005 ∧ |q * (rv RealSem.dec li3posP q / rv RealSem.dec li3posQ q) - reLi 3 q| ≤ 5e-17 * |(q:ℝ)| := by
    by_cases hq0 : (q:ℝ) = 0
    · rw [hq0, reLi_zero_right]
      constructor
      · have hc : |qev li3posP 0 / qev li3posQ 0| ≤ 2.01 - 0.005 := by decide +kernel
        have hc' := (Rat.cast_le (K := ℝ)).2 hc
        rw [Rat.cast_abs, Rat.cast_div, ← rv_dec_cast, ← rv_dec_cast] at hc'
        push_cast at hc'; exact hc'
      · simp
    · have h := li3pos_ratio' (lt_of_le_of_ne h0r (Ne.symm hq0)) h1r
      constructor
      · have hb := reLi_div_abs_le 1 hq0 hq1 (by norm_num)
        norm_num at hb
        have := abs_add_le (rv RealSem.dec li3posP q / rv RealSem.dec li3posQ q - reLi 3 q / q) (reLi 3 q / q)
        rw [sub_add_cancel] at this
        norm_num at h ⊢; linarith
      · exact (quot_bound hq0 h).trans (mul_le_mul_of_nonneg_right (by norm_num) (abs_nonneg _))
  have hf := rat_rel fmtA64 hx (by linarith) hP (by norm_num at hpb ⊢; linarith) hQ (m := 0.18) (by norm_num at hge ⊢; linarith) (by norm_num) hR (R := 2.01) (by
    have := hrat.1; norm_num at this ⊢; linarith) (by norm_num) (by norm_num)
  rw [← li3pos_fp] at hf
  refine (hf.shift hrat.2).mono ?_
  have e1 : (103:ℝ) * 2 ^ (binary64.emin - 1) ≤ 2 ^ (-1068 : ℤ) := by
    have : (2:ℝ) ^ (-1068 : ℤ) = 2 ^ (7:ℤ) * 2 ^ (binary64.emin - 1) := by rw [← zpow_add₀ (by norm_num)]; rfl
    rw [this]
    have h2 : (0:ℝ) < 2 ^ (binary64.emin - 1) := by positivity
    norm_num at h2 ⊢
    try linarith
  have e2 : (((13281655733070877163520 : ℤ) : ℝ) / 2 ^ 120 + 4 * uR binary64 * 2.01 + 5e-17) ≤ 98.5 * uR binary64 := by norm_num [uR, binary64]
  have := mul_le_mul_of_nonneg_right e2 (abs_nonneg (q:ℝ))
  linarith

section
/-- numeric literal -/
local notation:max "♯" q:max => FE.lit (q : ℚ)
/-- numerator and denominator of `li4_neg` as straight-line programs -/
def li4negD : List FE := [(FE.var 0) *. (FE.var 0), (FE.var 1) *. (FE.var 1)]
@[inherit_doc li4negD] def li4negEP : FE := ♯(li4negP[0]) +. (FE.var 0) *. ♯(li4negP[1]) +. (FE.var 1) *. (♯(li4negP[2]) +. (FE.var 0) *. ♯(li4negP[3])) +. (FE.var 2) *. (♯(li4negP[4]) +. (FE.var 0) *. ♯(li4negP[5]))
@[inherit_doc li4negD] def li4negEQ : FE := ♯(li4negQ[0]) +. (FE.var 0) *. ♯(li4negQ[1]) +. (FE.var 1) *. (♯(li4negQ[2]) +. (FE.var 0) *. ♯(li4negQ[3])) +. (FE.var 2) *. (♯(li4negQ[4]) +. (FE.var 0) *. ♯(li4negQ[5]) +. (FE.var 1) *. ♯(li4negQ[6]))
@[inherit_doc li4negD] def li4negRD : List FE := li4negD ++ [li4negEP, li4negEQ]
@[inherit_doc li4negD] def li4negRE : FE := (FE.var 3) /. (FE.var 4)
end

theorem li4neg_certP : boxesP 53 120 1329227995784915884304521879603543061 [] 0 li4negD li4negEP 3457162384941258201201 (-1329227995784915879267943284127137581) 1 = true := by decide +kernel
theorem li4neg_certQ : boxesP 53 120 1329227995784915884304521879603543061 [] 0 li4negD li4negEQ 3457162384941258201201 (-1329227995784915879267943284127137581) 1 = true := by decide +kernel
theorem li4neg_certR : boxesP 53 120 83076749736557253457202760590720021 [] 0 li4negRD li4negRE 1765343622903605503092 (-1329227995784915879267943284127137581) 16 = true := by decide +kernel
theorem li4neg_rsP (x : ℝ) : ofR (rsP RealSem.dec [toR RealSem.dec x] li4negD li4negEP) = rv RealSem.dec li4negP x := by
  have h : rsP RealSem.dec [toR RealSem.dec x] li4negD li4negEP = (let x : R RealSem.dec := toR RealSem.dec x
    let x2 := x *. x
    let x4 := x2 *. x2
    (FOps.lit li4negP[0] : R RealSem.dec) +. x *. (FOps.lit li4negP[1] : R RealSem.dec) +. x2 *. ((FOps.lit li4negP[2] : R RealSem.dec) +. x *. (FOps.lit li4negP[3] : R RealSem.dec)) +. x4 *. ((FOps.lit li4negP[4] : R RealSem.dec) +. x *. (FOps.lit li4negP[5] : R RealSem.dec))) := rfl
  rw [h]
  simp [rsem, rv, Fin.sum_univ_succ]; ring
theorem li4neg_rsQ (x : ℝ) : ofR (rsP RealSem.dec [toR RealSem.dec x] li4negD li4negEQ) = rv RealSem.dec li4negQ x := by
  have h : rsP RealSem.dec [toR RealSem.dec x] li4negD li4negEQ = (let x : R RealSem.dec := toR RealSem.dec x
    let x2 := x *. x
    let x4 := x2 *. x2
    (FOps.lit li4negQ[0] : R RealSem.dec) +. x *. (FOps.lit li4negQ[1] : R RealSem.dec) +. x2 *. ((FOps.lit li4negQ[2] : R RealSem.dec) +. x *. (FOps.lit li4negQ[3] : R RealSem.dec)) +. x4 *. ((FOps.lit li4negQ[4] : R RealSem.dec) +. x *. (FOps.lit li4negQ[5] : R RealSem.dec) +. x2 *. (FOps.lit li4negQ[6] : R RealSem.dec))) := rfl
  rw [h]
  simp [rsem, rv, Fin.sum_univ_succ]; ring
theorem li4neg_rsR (x : ℝ) (h : rv RealSem.dec li4negQ x ≠ 0) : ofR (rsP RealSem.dec [toR RealSem.dec x] li4negRD li4negRE) = rv RealSem.dec li4negP x / rv RealSem.dec li4negQ x := by
  have h' : rsP RealSem.dec [toR RealSem.dec x] li4negRD li4negRE = rsP RealSem.dec [toR RealSem.dec x] li4negD li4negEP /. rsP RealSem.dec [toR RealSem.dec x] li4negD li4negEQ := rfl
  rw [h', ofR_div (by rw [li4neg_rsQ]; exact h), li4neg_rsP, li4neg_rsQ]

theorem li4neg_fp (x : FP binary64 L) : ofF (li4_neg x) = FV.div binary64 (FV.mul binary64 (ofF x) (fpP binary64 [ofF x] li4negD li4negEP)) (fpP binary64 [ofF x] li4negD li4negEQ) := rfl
theorem li4neg_fpR (x : FP binary64 L) : fpP binary64 [ofF x] li4negRD li4negRE = FV.div binary64 (fpP binary64 [ofF x] li4negD li4negEP) (fpP binary64 [ofF x] li4negD li4negEQ) := rfl
theorem li4neg_Qge {x : ℝ} (h0 : -1 ≤ x) (h1 : x ≤ 0) : 1 ≤ rv RealSem.dec li4negQ x := by
  obtain ⟨t, rfl⟩ : ∃ t, x = -t := ⟨-x, by ring⟩
  have ht : 0 ≤ t := by linarith
  simp only [rv, RealSem.dec, id, Fin.sum_univ_succ, li4negQ]
  simp
  norm_num
  nlinarith [pow_nonneg ht 2, pow_nonneg ht 3, pow_nonneg ht 4, pow_nonneg ht 5, pow_nonneg ht 6]

theorem li4neg_ratio' {x : ℝ} (h0 : -1 ≤ x) (h1 : x < 0) : |rv RealSem.dec li4negP x / rv RealSem.dec li4negQ x - reLi 4 x / x| ≤ 4.9e-17 := by
  rcases h0.eq_or_lt with h | h
  · subst h
    have hz := zlit_err RealSem.dec_lit 2 (by norm_num) 1.082323233711138192 (e := 1e-18) (by decide +kernel) (by norm_num)
    have hm := reLi_neg_one_eq 2
    norm_num at hm
    rw [hm]
    have hc : |qev li4negP (-1) / qev li4negQ (-1) - 7 / 8 * 1.082323233711138192| ≤ 4e-17 := by decide +kernel
    have hc' := (Rat.cast_le (K := ℝ)).2 hc
    rw [Rat.cast_abs, Rat.cast_sub, Rat.cast_div, ← rv_dec_cast, ← rv_dec_cast] at hc'
    push_cast at hc'
    simp only [RealSem.dec, id] at hz
    rw [abs_le] at hz hc' ⊢
    norm_num at hz hc' ⊢
    constructor <;> linarith [hz.1, hz.2, hc'.1, hc'.2]
  · refine ((li4neg_ratio RealSem.dec_lit (by norm_num) h1 h).2).trans (by norm_num)

/-- `li4_neg` in binary64: relative error `16.5 u` -/
theorem li4neg_near (x : FP binary64 L) {q : ℚ} (hx : Val binary64 (ofF x) q) (h0 : -1 ≤ q) (h1 : q ≤ 0) :
    Near binary64 (ofF (li4_neg x)) (reLi 4 q) (16.5 * uR binary64 * |(q : ℝ)| + 2 ^ (-1068 : ℤ)) := by
  have h0r : (-1 : ℝ) ≤ q := by exact_mod_cast h0
  have h1r : (q : ℝ) ≤ 0 := by exact_mod_cast h1
  have hu0 := uR_pos (φ := binary64)
  have hx0 : Near binary64 (ofF x) (ofR (toR RealSem.dec (q : ℝ))) (((0:ℤ):ℝ) / 2 ^ 120) := by
    have := hx.near; simpa using this
  have b0 : (((-1329227995784915879267943284127137581 : ℤ)) : ℝ) ≤ ofR (toR RealSem.dec (q : ℝ)) * 2 ^ 120 := by
    change _ ≤ (q:ℝ) * 2 ^ 120
    push_cast; nlinarith
  have b1 : ofR (toR RealSem.dec (q : ℝ)) * 2 ^ 120 ≤ (((-1329227995784915879267943284127137581 : ℤ) + (1 : ℕ) * 1329227995784915884304521879603543061 : ℤ) : ℝ) := by
    change (q:ℝ) * 2 ^ 120 ≤ _
    push_cast; nlinarith
  have hP := boxesP_sound fmtOK64 (S := RealSem.dec) rfl (by norm_num) (by norm_num) li4neg_certP .nil hx0 b0 b1
  have hQ := boxesP_sound fmtOK64 (S := RealSem.dec) rfl (by norm_num) (by norm_num) li4neg_certQ .nil hx0 b0 b1
  rw [li4neg_rsP] at hP
  rw [li4neg_rsQ] at hQ
  have hge := li4neg_Qge h0r h1r
  have hQ0 : rv RealSem.dec li4negQ q ≠ 0 := by intro h; rw [h] at hge; norm_num at hge

  have hR := boxesP_sound fmtOK64 (S := RealSem.dec) rfl (by norm_num) (by norm_num) li4neg_certR .nil hx0 b0 (by
    change (q:ℝ) * 2 ^ 120 ≤ _
    push_cast; nlinarith)
  rw [li4neg_rsR _ hQ0, li4neg_fpR] at hR

  have hq1 : |(q:ℝ)| ≤ 1 := by rw [abs_le]; constructor <;> linarith
  have hpb : |rv RealSem.dec li4negP q| ≤ 10 := by
    have e : rv RealSem.dec li4negP q = qv li4negP q := rfl
    rw [e]
    refine (qv_abs_le li4negP (X := 1) (by push_cast; linarith)).trans ?_
    have : vAbs li4negP 1 ≤ 10 := by decide +kernel
    exact_mod_cast this
  have hrat : |rv RealSem.dec li4negP q / rv RealSem.dec li4negQ q| ≤ 1.01 - 0.005 ∧ |q * (rv RealSem.dec li4negP q / rv RealSem.dec li4negQ q) - reLi 4 q| ≤ 5e-17 * |(q:ℝ)| := by
    by_cases hq0 : (q:ℝ) = 0
    · rw [hq0, reLi_zero_right]
      constructor
      · have hc : |qev li4negP 0 / qev li4negQ 0| ≤ 1.01 - 0.005 := by decide +kernel
        have hc' := (Rat.cast_le (K := ℝ)).2 hc
        rw [Rat.cast_abs, Rat.cast_div, ← rv_dec_cast, ← rv_dec_cast] at hc'
        push_cast at hc'; exact hc'
      · simp
    · have h := li4neg_ratio' h0r (lt_of_le_of_ne h1r hq0)
      constructor
      · have hb := reLi_euler_abs_le 3 (lt_of_le_of_ne h1r hq0) h0r
        norm_num at hb
        have := abs_add_le (rv RealSem.dec li4negP q / rv RealSem.dec li4negQ q - reLi 4 q / q) (reLi 4 q / q)
        rw [sub_add_cancel] at this
        norm_num at h ⊢; linarith
      · exact (quot_bound hq0 h).trans (mul_le_mul_of_nonneg_right (by norm_num) (abs_nonneg _))
  have hf := rat_rel fmtA64 hx (by linarith) hP (by norm_num at hpb ⊢; linarith) hQ (m := 0.9) (by norm_num at hge ⊢; linarith) (by norm_num) hR (R := 1.01) (by
    have := hrat.1; norm_num at this ⊢; linarith) (by norm_num) (by norm_num)
  rw [← li4neg_fp] at hf
  refine (hf.shift hrat.2).mono ?_
  have e1 : (103:ℝ) * 2 ^ (binary64.emin - 1) ≤ 2 ^ (-1068 : ℤ) := by
    have : (2:ℝ) ^ (-1068 : ℤ) = 2 ^ (7:ℤ) * 2 ^ (binary64.emin - 1) := by rw [← zpow_add₀ (by norm_num)]; rfl
    rw [this]
    have h2 : (0:ℝ) < 2 ^ (binary64.emin - 1) := by positivity
    norm_num at h2 ⊢
    try linarith
  have e2 : (((1765343622903605503092 : ℤ) : ℝ) / 2 ^ 120 + 4 * uR binary64 * 1.01 + 5e-17) ≤ 16.5 * uR binary64 := by norm_num [uR, binary64]
  have := mul_le_mul_of_nonneg_right e2 (abs_nonneg (q:ℝ))
  linarith

section
/-- numeric literal -/
local notation:max "♯" q:max => FE.lit (q : ℚ)
/-- numerator and denominator of `li4_half` as straight-line programs -/
def li4halfD : List FE := [(FE.var 0) *. (FE.var 0), (FE.var 1) *. (FE.var 1)]
@[inherit_doc li4halfD] def li4halfEP : FE := ♯(li4halfP[0]) +. (FE.var 0) *. ♯(li4halfP[1]) +. (FE.var 1) *. (♯(li4halfP[2]) +. (FE.var 0) *. ♯(li4halfP[3])) +. (FE.var 2) *. (♯(li4halfP[4]) +. (FE.var 0) *. ♯(li4halfP[5]))
@[inherit_doc li4halfD] def li4halfEQ : FE := ♯(li4halfQ[0]) +. (FE.var 0) *. ♯(li4halfQ[1]) +. (FE.var 1) *. (♯(li4halfQ[2]) +. (FE.var 0) *. ♯(li4halfQ[3])) +. (FE.var 2) *. (♯(li4halfQ[4]) +. (FE.var 0) *. ♯(li4halfQ[5]))
@[inherit_doc li4halfD] def li4halfRD : List FE := li4halfD ++ [li4halfEP, li4halfEQ]
@[inherit_doc li4halfD] def li4halfRE : FE := (FE.var 3) /. (FE.var 4)
end

theorem li4half_certP : boxesP 53 120 664613997892457947852618349463370773 [] 0 li4halfD li4halfEP 1238318473870869970006 (-6364136223846793005) 1 = true := by decide +kernel
theorem li4half_certQ : boxesP 53 120 664613997892457947852618349463370773 [] 0 li4halfD li4halfEQ 1238318473870869970006 (-6364136223846793005) 1 = true := by decide +kernel
theorem li4half_certR : hiCert 53 120 li4halfRD li4halfRE 5902958103587056517120 0 [424673, 89653, 9962] = true := by decide +kernel
theorem li4half_rsP (x : ℝ) : ofR (rsP RealSem.dec [toR RealSem.dec x] li4halfD li4halfEP) = rv RealSem.dec li4halfP x := by
  have h : rsP RealSem.dec [toR RealSem.dec x] li4halfD li4halfEP = (let x : R RealSem.dec := toR RealSem.dec x
    let x2 := x *. x
    let x4 := x2 *. x2
    (FOps.lit li4halfP[0] : R RealSem.dec) +. x *. (FOps.lit li4halfP[1] : R RealSem.dec) +. x2 *. ((FOps.lit li4halfP[2] : R RealSem.dec) +. x *. (FOps.lit li4halfP[3] : R RealSem.dec)) +. x4 *. ((FOps.lit li4halfP[4] : R RealSem.dec) +. x *. (FOps.lit li4halfP[5] : R RealSem.dec))) := rfl
  rw [h]
  simp [rsem, rv, Fin.sum_univ_succ]; ring
theorem li4half_rsQ (x : ℝ) : ofR (rsP RealSem.dec [toR RealSem.dec x] li4halfD li4halfEQ) = rv RealSem.dec li4halfQ x := by
  have h : rsP RealSem.dec [toR RealSem.dec x] li4halfD li4halfEQ = (let x : R RealSem.dec := toR RealSem.dec x
    let x2 := x *. x
    let x4 := x2 *. x2
    (FOps.lit li4halfQ[0] : R RealSem.dec) +. x *. (FOps.lit li4halfQ[1] : R RealSem.dec) +. x2 *. ((FOps.lit li4halfQ[2] : R RealSem.dec) +. x *. (FOps.lit li4halfQ[3] : R RealSem.dec)) +. x4 *. ((FOps.lit li4halfQ[4] : R RealSem.dec) +. x *. (FOps.lit li4halfQ[5] : R RealSem.dec))) := rfl
  rw [h]
  simp [rsem, rv, Fin.sum_univ_succ]; ring
theorem li4half_rsR (x : ℝ) (h : rv RealSem.dec li4halfQ x ≠ 0) : ofR (rsP RealSem.dec [toR RealSem.dec x] li4halfRD li4halfRE) = rv RealSem.dec li4halfP x / rv RealSem.dec li4halfQ x := by
  have h' : rsP RealSem.dec [toR RealSem.dec x] li4halfRD li4halfRE = rsP RealSem.dec [toR RealSem.dec x] li4halfD li4halfEP /. rsP RealSem.dec [toR RealSem.dec x] li4halfD li4halfEQ := rfl
  rw [h', ofR_div (by rw [li4half_rsQ]; exact h), li4half_rsP, li4half_rsQ]

theorem li4half_fp (x : FP binary64 L) : ofF (li4_half x) = FV.div binary64 (FV.mul binary64 (ofF x) (fpP binary64 [ofF x] li4halfD li4halfEP)) (fpP binary64 [ofF x] li4halfD li4halfEQ) := rfl
theorem li4half_fpR (x : FP binary64 L) : fpP binary64 [ofF x] li4halfRD li4halfRE = FV.div binary64 (fpP binary64 [ofF x] li4halfD li4halfEP) (fpP binary64 [ofF x] li4halfD li4halfEQ) := rfl
theorem li4half_Qge {x : ℝ} (h0 : 0 ≤ x) (h1 : x ≤ 1 / 2) : 0.27 ≤ rv RealSem.dec li4halfQ x := by
  rcases h0.eq_or_lt with h | h
  · subst h
    have hc : 0.27 ≤ qev li4halfQ 0 := by decide +kernel
    have hc' := (Rat.cast_le (K := ℝ)).2 hc
    rw [← rv_dec_cast] at hc'
    push_cast at hc'; exact hc'
  · have h2 := (rcert_qv (by exact_mod_cast cert_li4half) den_li34.2.2.1 (by norm_num) (by norm_num) (by norm_num) (by norm_num) (by norm_num) (by norm_num)
      (x := x) (by norm_num; exact h) (by norm_num; linarith)).1
    have e : rv RealSem.dec li4halfQ x = qv li4halfQ x := rfl
    rw [e]
    refine le_trans ?_ h2
    norm_num

theorem li4half_ratio' {x : ℝ} (h0 : 0 < x) (h1 : x ≤ 1 / 2) : |rv RealSem.dec li4halfP x / rv RealSem.dec li4halfQ x - reLi 4 x / x| ≤ 5e-17 := by
  refine ((li4half_ratio RealSem.dec_lit (by norm_num) h0 h1).2).trans (by norm_num)

/-- `li4_half` in binary64: relative error `48.6 u` -/
theorem li4half_near (x : FP binary64 L) {q : ℚ} (hx : Val binary64 (ofF x) q) (h0 : 0 ≤ q) (h1 : q ≤ 1 / 2) :
    Near binary64 (ofF (li4_half x)) (reLi 4 q) (48.6 * uR binary64 * |(q : ℝ)| + 2 ^ (-1068 : ℤ)) := by
  have h0r : (0 : ℝ) ≤ q := by exact_mod_cast h0
  have h1r : (q : ℝ) ≤ 1 / 2 := by have := (Rat.cast_le (K := ℝ)).2 h1; push_cast at this; exact this
  have hu0 := uR_pos (φ := binary64)
  have hx0 : Near binary64 (ofF x) (ofR (toR RealSem.dec (q : ℝ))) (((0:ℤ):ℝ) / 2 ^ 120) := by
    have := hx.near; simpa using this
  have b0 : (((-6364136223846793005 : ℤ)) : ℝ) ≤ ofR (toR RealSem.dec (q : ℝ)) * 2 ^ 120 := by
    change _ ≤ (q:ℝ) * 2 ^ 120
    push_cast; nlinarith
  have b1 : ofR (toR RealSem.dec (q : ℝ)) * 2 ^ 120 ≤ (((-6364136223846793005 : ℤ) + (1 : ℕ) * 664613997892457947852618349463370773 : ℤ) : ℝ) := by
    change (q:ℝ) * 2 ^ 120 ≤ _
    push_cast; nlinarith
  have hP := boxesP_sound fmtOK64 (S := RealSem.dec) rfl (by norm_num) (by norm_num) li4half_certP .nil hx0 b0 b1
  have hQ := boxesP_sound fmtOK64 (S := RealSem.dec) rfl (by norm_num) (by norm_num) li4half_certQ .nil hx0 b0 b1
  rw [li4half_rsP] at hP
  rw [li4half_rsQ] at hQ
  have hge := li4half_Qge h0r h1r
  have hQ0 : rv RealSem.dec li4halfQ q ≠ 0 := by intro h; rw [h] at hge; norm_num at hge

  have hR := hi_sound fmtOK64 (by norm_num) _ (by simp) li4half_certR hx (by simpa using h0r) (by norm_num; linarith)
  rw [li4half_rsR _ hQ0, li4half_fpR] at hR

  have hq1 : |(q:ℝ)| ≤ 1 / 2 := by rw [abs_le]; constructor <;> linarith
  have hpb : |rv RealSem.dec li4halfP q| ≤ 10 := by
    have e : rv RealSem.dec li4halfP q = qv li4halfP q := rfl
    rw [e]
    refine (qv_abs_le li4halfP (X := 1) (by push_cast; linarith)).trans ?_
    have : vAbs li4halfP 1 ≤ 10 := by decide +kernel
    exact_mod_cast this
  have hrat : |rv RealSem.dec li4halfP q / rv RealSem.dec li4halfQ q| ≤ 2.01 - 0.005 ∧ |q * (rv RealSem.dec li4halfP q / rv RealSem.dec li4halfQ q) - reLi 4 q| ≤ 5e-17 * |(q:ℝ)| := by
    by_cases hq0 : (q:ℝ) = 0
    · rw [hq0, reLi_zero_right]
      constructor
      · have hc : |qev li4halfP 0 / qev li4halfQ 0| ≤ 2.01 - 0.005 := by decide +kernel
        have hc' := (Rat.cast_le (K := ℝ)).2 hc
        rw [Rat.cast_abs, Rat.cast_div, ← rv_dec_cast, ← rv_dec_cast] at hc'
        push_cast at hc'; exact hc'
      · simp
    · have h := li4half_ratio' (lt_of_le_of_ne h0r (Ne.symm hq0)) h1r
      constructor
      · have hb := reLi_div_abs_le 2 hq0 hq1 (by norm_num)
        norm_num at hb
        have := abs_add_le (rv RealSem.dec li4halfP q / rv RealSem.dec li4halfQ q - reLi 4 q / q) (reLi 4 q / q)
        rw [sub_add_cancel] at this
        norm_num at h ⊢; linarith
      · exact (quot_bound hq0 h).trans (mul_le_mul_of_nonneg_right (by norm_num) (abs_nonneg _))
  have hf := rat_rel fmtA64 hx (by linarith) hP (by norm_num at hpb ⊢; linarith) hQ (m := 0.26) (by norm_num at hge ⊢; linarith) (by norm_num) hR (R := 2.01) (by
    have := hrat.1; norm_num at this ⊢; linarith) (by norm_num) (by norm_num)
  rw [← li4half_fp] at hf
  refine (hf.shift hrat.2).mono ?_
  have e1 : (103:ℝ) * 2 ^ (binary64.emin - 1) ≤ 2 ^ (-1068 : ℤ) := by
    have : (2:ℝ) ^ (-1068 : ℤ) = 2 ^ (7:ℤ) * 2 ^ (binary64.emin - 1) := by rw [← zpow_add₀ (by norm_num)]; rfl
    rw [this]
    have h2 : (0:ℝ) < 2 ^ (binary64.emin - 1) := by positivity
    norm_num at h2 ⊢
    try linarith
  have e2 : (((5902958103587056517120 : ℤ) : ℝ) / 2 ^ 120 + 4 * uR binary64 * 2.01 + 5e-17) ≤ 48.6 * uR binary64 := by norm_num [uR, binary64]
  have := mul_le_mul_of_nonneg_right e2 (abs_nonneg (q:ℝ))
  linarith

section
/-- numeric literal -/
local notation:max "♯" q:max => FE.lit (q : ℚ)
/-- numerator and denominator of `li4_mid` as straight-line programs -/
def li4midD : List FE := [(FE.var 0) *. (FE.var 0), (FE.var 1) *. (FE.var 1)]
@[inherit_doc li4midD] def li4midEP : FE := ♯(li4midP[0]) +. (FE.var 0) *. ♯(li4midP[1]) +. (FE.var 1) *. (♯(li4midP[2]) +. (FE.var 0) *. ♯(li4midP[3])) +. (FE.var 2) *. (♯(li4midP[4]) +. (FE.var 0) *. ♯(li4midP[5]) +. (FE.var 1) *. ♯(li4midP[6]))
@[inherit_doc li4midD] def li4midEQ : FE := ♯(li4midQ[0]) +. (FE.var 0) *. ♯(li4midQ[1]) +. (FE.var 1) *. (♯(li4midQ[2]) +. (FE.var 0) *. ♯(li4midQ[3])) +. (FE.var 2) *. (♯(li4midQ[4]) +. (FE.var 0) *. ♯(li4midQ[5]) +. (FE.var 1) *. ♯(li4midQ[6]))
@[inherit_doc li4midD] def li4midRD : List FE := li4midD ++ [li4midEP, li4midEQ]
@[inherit_doc li4midD] def li4midRE : FE := (FE.var 3) /. (FE.var 4)
end

theorem li4mid_certR : hiCert 53 120 li4midRD li4midRE 191846138366579336806400 524288 [121869, 67189, 39385, 27026, 18545, 14140, 10234, 7740, 6156, 2290] = true := by decide +kernel
theorem li4mid_rsP (x : ℝ) : ofR (rsP RealSem.dec [toR RealSem.dec x] li4midD li4midEP) = rv RealSem.dec li4midP x := by
  have h : rsP RealSem.dec [toR RealSem.dec x] li4midD li4midEP = (let x : R RealSem.dec := toR RealSem.dec x
    let x2 := x *. x
    let x4 := x2 *. x2
    (FOps.lit li4midP[0] : R RealSem.dec) +. x *. (FOps.lit li4midP[1] : R RealSem.dec) +. x2 *. ((FOps.lit li4midP[2] : R RealSem.dec) +. x *. (FOps.lit li4midP[3] : R RealSem.dec)) +. x4 *. ((FOps.lit li4midP[4] : R RealSem.dec) +. x *. (FOps.lit li4midP[5] : R RealSem.dec) +. x2 *. (FOps.lit li4midP[6] : R RealSem.dec))) := rfl
  rw [h]
  simp [rsem, rv, Fin.sum_univ_succ]; ring
theorem li4mid_rsQ (x : ℝ) : ofR (rsP RealSem.dec [toR RealSem.dec x] li4midD li4midEQ) = rv RealSem.dec li4midQ x := by
  have h : rsP RealSem.dec [toR RealSem.dec x] li4midD li4midEQ = (let x : R RealSem.dec := toR RealSem.dec x
    let x2 := x *. x
    let x4 := x2 *. x2
    (FOps.lit li4midQ[0] : R RealSem.dec) +. x *. (FOps.lit li4midQ[1] : R RealSem.dec) +. x2 *. ((FOps.lit li4midQ[2] : R RealSem.dec) +. x *. (FOps.lit li4midQ[3] : R RealSem.dec)) +. x4 *. ((FOps.lit li4midQ[4] : R RealSem.dec) +. x *. (FOps.lit li4midQ[5] : R RealSem.dec) +. x2 *. (FOps.lit li4midQ[6] : R RealSem.dec))) := rfl
  rw [h]
  simp [rsem, rv, Fin.sum_univ_succ]; ring
theorem li4mid_rsR (x : ℝ) (h : rv RealSem.dec li4midQ x ≠ 0) : ofR (rsP RealSem.dec [toR RealSem.dec x] li4midRD li4midRE) = rv RealSem.dec li4midP x / rv RealSem.dec li4midQ x := by
  have h' : rsP RealSem.dec [toR RealSem.dec x] li4midRD li4midRE = rsP RealSem.dec [toR RealSem.dec x] li4midD li4midEP /. rsP RealSem.dec [toR RealSem.dec x] li4midD li4midEQ := rfl
  rw [h', ofR_div (by rw [li4mid_rsQ]; exact h), li4mid_rsP, li4mid_rsQ]

theorem li4mid_fp (x : FP binary64 L) : ofF (li4_mid x) = fpP binary64 [ofF x] li4midRD li4midRE := rfl
/-- `li4_mid` in binary64 -/
theorem li4mid_near (x : FP binary64 L) {q : ℚ} (hx : Val binary64 (ofF x) q) (h0 : (1 / 2 : ℝ) ≤ q) (h1 : (q : ℝ) ≤ 0.8000001) :
    Near binary64 (ofF (li4_mid x)) (reLi 4 q) (1301 * uR binary64) := by
  have hs := hi_sound fmtOK64 (by norm_num) _ (by simp) li4mid_certR hx (by norm_num; linarith) (by norm_num at h1 ⊢; linarith)
  have hr := li4mid_ratio RealSem.dec_lit (by norm_num) h0 (by linarith)
  rw [← li4mid_fp, li4mid_rsR _ hr.1.ne'] at hs
  refine (hs.shift hr.2).mono ?_
  norm_num [uR, binary64]

end Polylog
