import Verif.Props.FClReal
import Verif.Props.Li2Real
import Verif.Props.Li3Real
import Verif.Props.Li4Real
import Verif.Model.FLi2
import Verif.Model.FLi3
import Verif.Model.FLi4

/-! # C38: the real polylogarithms of the Fortran port, in exact arithmetic -/

noncomputable section
namespace Polylog

variable {S : RealSem}

theorem neg_mulR (a b : R S) : ∸(a *. b) = ∸a *. b := by
  show ofR (∸(a *. b)) = ofR (∸a *. b)
  simp only [ofR_mul, ofR_neg]; ring

theorem neg_divR {a b : R S} (h : ofR b ≠ 0) : ∸(a /. b) = ∸a /. b := by
  show ofR (∸(a /. b)) = ofR (∸a /. b)
  rw [ofR_neg, ofR_div h, ofR_div h, ofR_neg]; ring

theorem log1m_R {u : ℝ} (hS : S.Lit u) {x : R S} (h : ofR x < 1) : (xlog ((FOps.lit 1 : R S) -. x) : R S) = FOps.log1p (∸x) := by
  have l1 : ofR (FOps.lit 1 : R S) = 1 := by rw [ofR_lit, hS.one]; norm_num
  show ofR (xlog ((FOps.lit 1 : R S) -. x) : R S) = ofR (FOps.log1p (∸x))
  rw [ofR_log1p (by rw [ofR_neg]; linarith), xlog_R, ofR_log (by rw [ofR_sub, l1]; linarith), ofR_sub, l1, ofR_neg, sub_eq_add_neg]

/-- `dli2` has the shape of the C++ function, with a different literal for `pi` -/
theorem dli2_gen {u : ℝ} (hS : S.Lit u) (x : R S) : Fortran.dli2 x = li2Gen li2dFin (FOps.lit 3.14159265358979324 : R S) x := by
  have l1 : ofR (FOps.lit 1 : R S) = 1 := by rw [ofR_lit, hS.one]; norm_num
  have h6 : ofR (FOps.lit 6 : R S) ≠ 0 := by rw [ofR_lit, hS.six]; norm_num
  have h12 : ofR (FOps.lit 12 : R S) ≠ 0 := by
    show ((S.rho 12 : ℚ) : ℝ) ≠ 0
    rw [hS.dy 12 12 0 (by norm_num) (by norm_num) (by norm_num)]; norm_num
  simp only [Fortran.dli2, li2Gen]
  split_ifs with c1 c2 c3 c4 c5 c6 c7 c8
  · simp only [Fortran.ipow2, neg_divR h6, neg_mulR]; rfl
  · simp only [Fortran.ipow2, neg_divR h12, neg_mulR]
  · rw [lt_R, lit0 hS, decide_eq_true_eq] at c3
    rw [log1m_R hS (by linarith)]
    simp only [Fortran.ipow2, neg_mulR, mul_assocR]
    rfl
  · rfl
  · rfl
  · rw [lt_R, l1, decide_eq_true_eq] at c6
    rw [log1m_R hS c6]; rfl
  · rfl
  · rfl
  · simp only [Fortran.ipow2, mul_assocR]; rfl

/-- **C38**, `dli2`: for every real `x` the method error is at most `4e-17` (plus `76 u`). -/
theorem C38_dli2 {u : ℝ} (hS : S.Lit u) (hu : u ≤ 1 / 1000) (x : ℝ) :
    |ofR (Fortran.dli2 (toR S x)) - (pLi 2 (x : ℂ)).re| ≤ 4e-17 + 76 * u := by
  have h := li2Gen_accuracy hS li2dFin (FOps.lit 3.14159265358979324) (fun y => y * (rv S li2dP y / rv S li2dQ y)) (5.87e-17 + u * 137)
    (fun y r s h0 h1 => li2dFin_eq y r s (li2d_ratio hS hu h0 h1).1.ne')
    (fun y h0 h1 => li2_g_bound h0 (li2d_ratio hS hu h0 h1).2) (by have := hS.u_nonneg; positivity) x
  rw [← dli2_gen hS, ofR_lit] at h
  have h2 := litpi_err hS 3.14159265358979324 (by norm_num) (by norm_num) (e := ((1.6e-18 : ℚ) : ℝ)) (pi_lit _ _ (by decide +kernel)) (by norm_num) hu
  push_cast at h2
  have := hS.u_nonneg
  refine h.trans ?_
  linarith

/-- **C38**, `dli3`: the value of the C++ function. -/
theorem C38_dli3 {u : ℝ} (hS : S.Lit u) (x : R S) : Fortran.dli3 x = Li3d x := by
  have l1 : ofR (FOps.lit 1 : R S) = 1 := by rw [ofR_lit, hS.one]; norm_num
  simp only [Fortran.dli3, Li3d]
  split_ifs with c1 c2 c3 c4 c5 c6 c7 c8 c9
  · simp only [Fortran.ipow2, mul_assocR]; rfl
  · simp only [neg_mulR]
  · rfl
  · rfl
  · rfl
  · rfl
  · rw [lt_R, l1, decide_eq_true_eq] at c7
    rw [log1m_R hS c7]; simp only [neg_mulR]; rfl
  · rfl
  · simp only [neg_mulR]; rfl
  · simp only [Fortran.ipow2, mul_assocR]; rfl

/-- **C38**, `dli4`: the value of the C++ function. -/
theorem C38_dli4 {u : ℝ} (hS : S.Lit u) (x : R S) : (Fortran.dli4 x).value = Li4d x := by
  have h4 : ofR (FOps.lit 4 : R S) ≠ 0 := by rw [ofR_lit, hS.four]; norm_num
  have h8 : ofR (FOps.lit 8 : R S) ≠ 0 := by
    show ((S.rho 8 : ℚ) : ℝ) ≠ 0
    rw [hS.dy 8 8 0 (by norm_num) (by norm_num) (by norm_num)]; norm_num
  have h48 : ofR (FOps.lit 48 : R S) ≠ 0 := by
    show ((S.rho 48 : ℚ) : ℝ) ≠ 0
    rw [hS.dy 48 48 0 (by norm_num) (by norm_num) (by norm_num)]; norm_num
  have h1440 : ofR (FOps.lit 1440 : R S) ≠ 0 := by
    show ((S.rho 1440 : ℚ) : ℝ) ≠ 0
    rw [hS.dy 1440 1440 0 (by norm_num) (by norm_num) (by norm_num)]; norm_num
  have one : ∀ y : R S, Fortran.dli4_one y = li4_one y := by
    intro y
    simp only [Fortran.dli4_one, li4_one, neg_divR h48, neg_divR h1440]
    rfl
  have fin : ∀ y r s : R S, Fortran.dli4Fin y r s = li4dFin y r s := by
    intro y r s
    simp only [Fortran.dli4Fin, one]
    rfl
  simp only [Fortran.dli4, Li4d, fin]
  split_ifs <;> simp only [neg_divR h4, neg_divR h8, neg_mulR] <;> rfl

/-- **C39**, `dli4`, every arithmetic: for `x < -1`, and whenever none of the cases `x <= 1` applies, the variable passed by the caller is
overwritten by `1/x`; otherwise it keeps its value. -/
theorem C39_dli4_overwrites {F : Type} [FOps F] (x : F) :
    (Fortran.dli4 x).arg = if (x <. ∸(FOps.lit 1 : F)) || !((x ==. ∸(FOps.lit 1 : F)) || (x ==. (FOps.lit 0 : F)) || (x <. (FOps.lit 1 : F)) || (x ==. (FOps.lit 1 : F)))
      then (FOps.lit 1 : F) /. x else x := by
  simp only [Fortran.dli4]
  split_ifs <;> simp_all

/-- **C39**, `dli4`: calling the function twice with a variable of value `x > 1` or `x < -1` yields `Li_4(x)` and then `Li_4(1/x)`. -/
theorem C39_dli4_twice {u : ℝ} (hS : S.Lit u) {x : ℝ} (hx : 1 < |x|) :
    (Fortran.dli4 (toR S x)).value = Li4d (toR S x) ∧ (Fortran.dli4 (Fortran.dli4 (toR S x)).arg).value = Li4d (toR S (1 / x)) := by
  refine ⟨C38_dli4 hS _, ?_⟩
  have l1 : ofR (FOps.lit 1 : R S) = 1 := by rw [ofR_lit, hS.one]; norm_num
  have e : (Fortran.dli4 (toR S x)).arg = toR S (1 / x) := by
    have hx0 : x ≠ 0 := by rintro rfl; norm_num at hx
    have hd : (FOps.lit 1 : R S) /. toR S x = toR S (1 / x) := by
      show ofR ((FOps.lit 1 : R S) /. toR S x) = ofR (toR S (1 / x))
      rw [ofR_div (by rwa [ofR_toR]), l1, ofR_toR, ofR_toR]
    rw [C39_dli4_overwrites, hd, if_pos]
    simp only [lt_R, eq_R, ofR_neg, l1, lit0 hS, ofR_toR, Bool.or_eq_true, Bool.not_eq_true', Bool.or_eq_false_iff, decide_eq_true_eq, decide_eq_false_iff_not]
    rcases lt_abs.mp hx with h | h
    · right
      refine ⟨⟨⟨?_, ?_⟩, ?_⟩, ?_⟩ <;> intro h' <;> linarith
    · left; linarith
  rw [e, C38_dli4 hS]

/-- **C38**, `dli3`, accuracy. -/
theorem C38_dli3_accuracy {u : ℝ} (hS : S.Lit u) (hu : u ≤ 1 / 1000) (x : ℝ) :
    |ofR (Fortran.dli3 (toR S x)) - (pLi 3 (x : ℂ)).re| ≤ 1.2e-16 + 75 * u + (9e-17 + 4 * u) * Real.log (max 1 |x|) := by
  rw [C38_dli3 hS]; exact C11_Li3d hS hu x

/-- **C38**, `dli4`, accuracy. -/
theorem C38_dli4_accuracy {u : ℝ} (hS : S.Lit u) (hu : u ≤ 1 / 10000) (x : ℝ) :
    |ofR (Fortran.dli4 (toR S x)).value - (pLi 4 (x : ℂ)).re| ≤ 4e-17 + 3310 * u + (4.4e-17 + 2 * u) * Real.log (max 1 |x|) ^ 2 := by
  rw [C38_dli4 hS]; exact C12_Li4d hS hu x

/-- The hypotheses are met: the literals of the source text, `x = 2`. -/
example (hid : S.rho = id) : ∃ r : Fortran.Ret (R S), r = Fortran.dli4 (toR S 2) ∧ r.value = Li4d (toR S 2) ∧ (Fortran.dli4 r.arg).value = Li4d (toR S (1 / 2)) :=
  ⟨_, rfl, C39_dli4_twice (lit_id S hid) (by norm_num)⟩

end Polylog
