import Verif.Props.CClReal
import Verif.Props.C13
import Verif.Model.FCl

/-! # C38: the Clausen functions of the Fortran port, in exact arithmetic

The Fortran functions compute the same values as the C++ functions; they also change the variable passed by the caller (C39). -/

noncomputable section
namespace Polylog

variable {S : RealSem}

/-- `s * y * p / q` and `s * (y * p / q)` are the same if `q` is not zero -/
theorem smul_div {s y p q : R S} (hq : ofR q ≠ 0) : s *. y *. p /. q = s *. (y *. p /. q) := by
  show ofR (s *. y *. p /. q) = ofR (s *. (y *. p /. q))
  rw [ofR_div hq, ofR_mul, ofR_mul, ofR_mul, ofR_div hq, ofR_mul]; ring

theorem sdiv_neg {y p q : R S} (hq : ofR q ≠ 0) :
    ofR ((FOps.lit 1 : R S) *. y *. p /. q) = -ofR (∸(FOps.lit 1 : R S) *. y *. p /. q) := by
  rw [ofR_div hq, ofR_div hq, ofR_mul, ofR_mul, ofR_mul, ofR_mul, ofR_neg]; ring

theorem mul_assocR (a b c : R S) : a *. b *. c = a *. (b *. c) := by
  show ofR (a *. b *. c) = ofR (a *. (b *. c))
  simp only [ofR_mul]; ring

/-- the reduced argument of the Fortran functions -/
theorem fred_bounds {u : ℝ} (hS : S.Lit u) (hu : u ≤ 1e-6) (x : ℝ)
    (hw : wrap (ofR (FOps.lit 3.14159265358979324 : R S)) x ≤ 6.28125 + ofR (FOps.lit 0.0019353071795864769253 : R S)) :
    0 ≤ ofR (reduceAbs (FOps.lit 3.14159265358979324 : R S) (FOps.lit 0.0019353071795864769253 : R S) (toR S x))
    ∧ ofR (reduceAbs (FOps.lit 3.14159265358979324 : R S) (FOps.lit 0.0019353071795864769253 : R S) (toR S x)) ≤ ofR (FOps.lit 3.14159265358979324 : R S) + 1e-4 := by
  have hu0 := hS.u_nonneg
  have hd := PId hS
  have he := P1d hS
  have hpi := pi_gt
  have hP3 : 3 ≤ ofR (FOps.lit 3.14159265358979324 : R S) := by have := (abs_le.mp hd).1; linarith
  have hr := reduceAbs_R hS (PI := (FOps.lit 3.14159265358979324 : R S)) (p1 := (FOps.lit 0.0019353071795864769253 : R S)) (x := toR S x) (by linarith)
  obtain ⟨r0, r1, -⟩ := reduce_spec 0 1 (by norm_num) (by norm_num) hP3 hd he hr rfl hw
  exact ⟨r0, by linarith⟩

theorem dcl6cp_eq : Fortran.dcl6cp = cl6dloP := by decide +kernel

/-- **C38**, `dcl2`: the value of the C++ function. -/
theorem C38_dcl2 {u : ℝ} (hS : S.Lit u) (hu : u ≤ 1e-6) (x : ℝ)
    (hw : wrap (ofR (FOps.lit 3.14159265358979324 : R S)) x ≤ 6.28125 + ofR (FOps.lit 0.0019353071795864769253 : R S)) :
    (Fortran.dcl2 (toR S x)).value = Cl2d (toR S x) := by
  obtain ⟨r0, r1⟩ := fred_bounds hS hu x hw
  rw [← reduceSgn_R_fst] at r0 r1
  rw [Cl2d_split]
  simp only [Fortran.dcl2]
  rw [show Fortran.reduceSgn (FOps.lit 3.14159265358979324 : R S) (FOps.lit 0.0019353071795864769253 : R S) (toR S x) = reduceSgn (FOps.lit 3.14159265358979324 : R S) (FOps.lit 0.0019353071795864769253 : R S) (toR S x) from rfl]
  generalize reduceSgn (FOps.lit 3.14159265358979324 : R S) (FOps.lit 0.0019353071795864769253 : R S) (toR S x) = xs at *
  split_ifs with c1 c2 c3
  · rfl
  · rfl
  · simp only [mul_assocR xs.2]
    rfl
  · rw [lt_R, half_R hS, decide_eq_true_eq, not_lt] at c3
    exact smul_div (cl2dHiQ_pos hS hu c3 r1).ne'

/-- **C38**, `dcl4`: the value of the C++ function. -/
theorem C38_dcl4 {u : ℝ} (hS : S.Lit u) (hu : u ≤ 1e-6) (x : ℝ)
    (hw : wrap (ofR (FOps.lit 3.14159265358979324 : R S)) x ≤ 6.28125 + ofR (FOps.lit 0.0019353071795864769253 : R S)) :
    (Fortran.dcl4 (toR S x)).value = Cl4d (toR S x) := by
  obtain ⟨r0, r1⟩ := fred_bounds hS hu x hw
  rw [← reduceSgn_R_fst] at r0 r1
  rw [Cl4d_split]
  simp only [Fortran.dcl4]
  rw [show Fortran.reduceSgn (FOps.lit 3.14159265358979324 : R S) (FOps.lit 0.0019353071795864769253 : R S) (toR S x) = reduceSgn (FOps.lit 3.14159265358979324 : R S) (FOps.lit 0.0019353071795864769253 : R S) (toR S x) from rfl]
  generalize reduceSgn (FOps.lit 3.14159265358979324 : R S) (FOps.lit 0.0019353071795864769253 : R S) (toR S x) = xs at *
  split_ifs with c1 c2 c3
  · rfl
  · rfl
  · simp only [div6_eq hS (xlog _), mul_assocR xs.2]
    rfl
  · rw [lt_R, half_R hS, decide_eq_true_eq, not_lt] at c3
    exact smul_div (cl4dHiQ_pos hS hu c3 r1).ne'

/-- **C38**, `dcl6`: the value of the C++ function. -/
theorem C38_dcl6 {u : ℝ} (hS : S.Lit u) (hu : u ≤ 1e-6) (x : ℝ)
    (hw : wrap (ofR (FOps.lit 3.14159265358979324 : R S)) x ≤ 6.28125 + ofR (FOps.lit 0.0019353071795864769253 : R S)) :
    (Fortran.dcl6 (toR S x)).value = Cl6d (toR S x) := by
  obtain ⟨r0, r1⟩ := fred_bounds hS hu x hw
  rw [← reduceSgn_R_fst] at r0 r1
  rw [Cl6d_split]
  simp only [Fortran.dcl6]
  rw [show Fortran.reduceSgn (FOps.lit 3.14159265358979324 : R S) (FOps.lit 0.0019353071795864769253 : R S) (toR S x) = reduceSgn (FOps.lit 3.14159265358979324 : R S) (FOps.lit 0.0019353071795864769253 : R S) (toR S x) from rfl]
  generalize reduceSgn (FOps.lit 3.14159265358979324 : R S) (FOps.lit 0.0019353071795864769253 : R S) (toR S x) = xs at *
  split_ifs with c1 c2 c3
  · rfl
  · rfl
  · simp only [mul_assocR xs.2, dcl6cp_eq]
    rfl
  · rw [lt_R, half_R hS, decide_eq_true_eq, not_lt] at c3
    exact smul_div (cl6dHiQ_pos hS hu c3 r1).ne'

/-- **C38**, `dcl5`: the value of the C++ function, in every arithmetic. -/
theorem C38_dcl5 {F : Type} [FOps F] (x : F) : (Fortran.dcl5 x).value = Cl5d x := by
  simp only [Fortran.dcl5]
  rw [Cl5d]
  rw [show Fortran.reduceAbs (FOps.lit 3.14159265358979324 : F) (FOps.lit 0.0019353071795864769253 : F) x = reduceAbs (FOps.lit 3.14159265358979324 : F) (FOps.lit 0.0019353071795864769253 : F) x from rfl]
  dsimp only
  split_ifs <;> rfl

/-- **C38**, `dcl3`: the value of the C++ function. -/
theorem C38_dcl3 {u : ℝ} (hS : S.Lit u) (x : R S) : (Fortran.dcl3 x).value = Cl3d x := by
  simp only [Fortran.dcl3, div2_eq hS (xlog _)]
  rw [Cl3d]
  rw [show Fortran.reduceAbs (FOps.lit 3.14159265358979324 : R S) (FOps.lit 0.0019353071795864769253 : R S) x = reduceAbs (FOps.lit 3.14159265358979324 : R S) (FOps.lit 0.0019353071795864769253 : R S) x from rfl]
  dsimp only
  split_ifs <;> rfl

theorem dcl2_arg {F : Type} [FOps F] (x : F) : (Fortran.dcl2 x).arg = (reduceSgn (FOps.lit 3.14159265358979324 : F) (FOps.lit 0.0019353071795864769253 : F) x).1 := by
  simp only [Fortran.dcl2]
  split_ifs <;> rfl

theorem dcl3_arg {F : Type} [FOps F] (x : F) : (Fortran.dcl3 x).arg = reduceAbs (FOps.lit 3.14159265358979324 : F) (FOps.lit 0.0019353071795864769253 : F) x := by
  simp only [Fortran.dcl3]
  split_ifs <;> rfl

theorem dcl4_arg {F : Type} [FOps F] (x : F) : (Fortran.dcl4 x).arg = (reduceSgn (FOps.lit 3.14159265358979324 : F) (FOps.lit 0.0019353071795864769253 : F) x).1 := by
  simp only [Fortran.dcl4]
  split_ifs <;> rfl

theorem dcl5_arg {F : Type} [FOps F] (x : F) : (Fortran.dcl5 x).arg = reduceAbs (FOps.lit 3.14159265358979324 : F) (FOps.lit 0.0019353071795864769253 : F) x := by
  simp only [Fortran.dcl5]
  split_ifs <;> rfl

theorem dcl6_arg {F : Type} [FOps F] (x : F) : (Fortran.dcl6 x).arg = (reduceSgn (FOps.lit 3.14159265358979324 : F) (FOps.lit 0.0019353071795864769253 : F) x).1 := by
  simp only [Fortran.dcl6]
  split_ifs <;> rfl

/-- **C38**: `dcl2` with the literals of the source text, `|x| ≤ 2 pi` -/
theorem C38_dcl2_dec (h : S.rho = id) {x : ℝ} (hx : |x| ≤ 2 * Real.pi) : |ofR (Fortran.dcl2 (toR S x)).value - clausen 2 x| ≤ 11e-18 := by
  rw [C38_dcl2 (lit_id S h) (by norm_num) x (dec_wrapd h hx).1]
  exact C13_Cl2_dec h hx

/-- **C38**: `dcl2` with the literals stored in binary64, every real argument -/
theorem C38_dcl2_binary64 (h : S.rho = rhoBits 53) (x : ℝ) : |ofR (Fortran.dcl2 (toR S x)).value - clausen 2 x| ≤ 157e-17 + 68e-16 * |x| := by
  rw [C38_dcl2 (RealSem.lit_of_bits (by norm_num) h) (by norm_num) x (wrap_le_b64d x h)]
  exact C13_Cl2_binary64 h x

/-- **C38**: `dcl3` with the literals of the source text, `|x| ≤ 2 pi` -/
theorem C38_dcl3_dec (h : S.rho = id) {x : ℝ} (hx : |x| ≤ 2 * Real.pi) : |ofR (Fortran.dcl3 (toR S x)).value - clausen 3 x| ≤ 524e-19 := by
  rw [C38_dcl3 (lit_id S h) _]
  exact C13_Cl3_dec h hx

/-- **C38**: `dcl3` with the literals stored in binary64, every real argument -/
theorem C38_dcl3_binary64 (h : S.rho = rhoBits 53) (x : ℝ) : |ofR (Fortran.dcl3 (toR S x)).value - clausen 3 x| ≤ 161e-17 + 235e-18 * |x| := by
  rw [C38_dcl3 (RealSem.lit_of_bits (by norm_num) h) _]
  exact C13_Cl3_binary64 h x

/-- **C38**: `dcl4` with the literals of the source text, `|x| ≤ 2 pi` -/
theorem C38_dcl4_dec (h : S.rho = id) {x : ℝ} (hx : |x| ≤ 2 * Real.pi) : |ofR (Fortran.dcl4 (toR S x)).value - clausen 4 x| ≤ 431e-19 := by
  rw [C38_dcl4 (lit_id S h) (by norm_num) x (dec_wrapd h hx).1]
  exact C13_Cl4_dec h hx

/-- **C38**: `dcl4` with the literals stored in binary64, every real argument -/
theorem C38_dcl4_binary64 (h : S.rho = rhoBits 53) (x : ℝ) : |ofR (Fortran.dcl4 (toR S x)).value - clausen 4 x| ≤ 205e-17 + 235e-18 * |x| := by
  rw [C38_dcl4 (RealSem.lit_of_bits (by norm_num) h) (by norm_num) x (wrap_le_b64d x h)]
  exact C13_Cl4_binary64 h x

/-- **C38**: `dcl5` with the literals of the source text, `|x| ≤ 2 pi` -/
theorem C38_dcl5_dec (h : S.rho = id) {x : ℝ} (hx : |x| ≤ 2 * Real.pi) : |ofR (Fortran.dcl5 (toR S x)).value - clausen 5 x| ≤ 302e-19 := by
  rw [C38_dcl5 _]
  exact C13_Cl5_dec h hx

/-- **C38**: `dcl5` with the literals stored in binary64, every real argument -/
theorem C38_dcl5_binary64 (h : S.rho = rhoBits 53) (x : ℝ) : |ofR (Fortran.dcl5 (toR S x)).value - clausen 5 x| ≤ 181e-17 + 235e-18 * |x| := by
  rw [C38_dcl5 _]
  exact C13_Cl5_binary64 h x

/-- **C38**: `dcl6` with the literals of the source text, `|x| ≤ 2 pi` -/
theorem C38_dcl6_dec (h : S.rho = id) {x : ℝ} (hx : |x| ≤ 2 * Real.pi) : |ofR (Fortran.dcl6 (toR S x)).value - clausen 6 x| ≤ 412e-18 := by
  rw [C38_dcl6 (lit_id S h) (by norm_num) x (dec_wrapd h hx).1]
  exact C13_Cl6_dec h hx

/-- **C38**: `dcl6` with the literals stored in binary64, every real argument -/
theorem C38_dcl6_binary64 (h : S.rho = rhoBits 53) (x : ℝ) : |ofR (Fortran.dcl6 (toR S x)).value - clausen 6 x| ≤ 253e-17 + 235e-18 * |x| := by
  rw [C38_dcl6 (RealSem.lit_of_bits (by norm_num) h) (by norm_num) x (wrap_le_b64d x h)]
  exact C13_Cl6_binary64 h x

/-! ## C39: the variable passed by the caller is changed -/

section
variable {F : Type} [FOps F]

/-- **C39**, every arithmetic: a call of `dcl2` ... `dcl6` with a negative argument not below `-PI` changes the sign of the caller's variable. -/
theorem C39_dcl_overwrites (x : F) (h0 : (x <. (FOps.lit 0 : F)) = true)
    (h1 : (∸x >=. (FOps.lit 2 : F) *. (FOps.lit 3.14159265358979324 : F)) = false) (h2 : (∸x >. (FOps.lit 3.14159265358979324 : F)) = false) :
    (Fortran.dcl2 x).arg = ∸x ∧ (Fortran.dcl3 x).arg = ∸x ∧ (Fortran.dcl4 x).arg = ∸x ∧ (Fortran.dcl5 x).arg = ∸x ∧ (Fortran.dcl6 x).arg = ∸x := by
  refine ⟨?_, ?_, ?_, ?_, ?_⟩
  · rw [dcl2_arg]; simp [reduceSgn, h0, h1, h2]
  · rw [dcl3_arg]; simp [reduceAbs, h0, h1, h2]
  · rw [dcl4_arg]; simp [reduceSgn, h0, h1, h2]
  · rw [dcl5_arg]; simp [reduceAbs, h0, h1, h2]
  · rw [dcl6_arg]; simp [reduceSgn, h0, h1, h2]
end

theorem neg_cond {u : ℝ} (hS : S.Lit u) {x : ℝ} (h1 : -ofR (FOps.lit 3.14159265358979324 : R S) ≤ x) (h2 : x < 0) :
    (toR S x <. (FOps.lit 0 : R S)) = true ∧ (∸(toR S x) >=. (FOps.lit 2 : R S) *. (FOps.lit 3.14159265358979324 : R S)) = false
    ∧ (∸(toR S x) >. (FOps.lit 3.14159265358979324 : R S)) = false ∧ (∸(toR S x) <. (FOps.lit 0 : R S)) = false := by
  have e2 : ofR ((FOps.lit 2 : R S) *. (FOps.lit 3.14159265358979324 : R S)) = 2 * ofR (FOps.lit 3.14159265358979324 : R S) := by
    rw [ofR_mul, ofR_lit, hS.two]; norm_num
  refine ⟨?_, ?_, ?_, ?_⟩
  · rw [lt_R, lit0 hS, decide_eq_true_eq]; exact h2
  · show (((FOps.lit 2 : R S) *. (FOps.lit 3.14159265358979324 : R S)) <=. ∸(toR S x)) = false
    rw [le_R, e2, decide_eq_false_iff_not, not_le]
    show -x < _
    linarith
  · show ((FOps.lit 3.14159265358979324 : R S) <. ∸(toR S x)) = false
    rw [lt_R, decide_eq_false_iff_not, not_lt]
    show -x ≤ _
    linarith
  · rw [lt_R, lit0 hS, decide_eq_false_iff_not, not_lt]
    show 0 ≤ -x
    linarith

/-- **C39**, `dcl2`: the same call repeated with the same variable `-PI ≤ x < 0` returns the negative of the first result. -/
theorem C39_dcl2_twice {u : ℝ} (hS : S.Lit u) (hu : u ≤ 1e-6) {x : ℝ} (h1 : -ofR (FOps.lit 3.14159265358979324 : R S) ≤ x) (h2 : x < 0) :
    ofR (Fortran.dcl2 (Fortran.dcl2 (toR S x)).arg).value = -ofR (Fortran.dcl2 (toR S x)).value := by
  obtain ⟨a, b, c, d⟩ := neg_cond hS h1 h2
  have e1 := (C39_dcl_overwrites (toR S x) a b c).1
  have r1 : Fortran.reduceSgn (FOps.lit 3.14159265358979324 : R S) (FOps.lit 0.0019353071795864769253 : R S) (toR S x) = (∸(toR S x), ∸(FOps.lit 1 : R S)) := by
    simp [Fortran.reduceSgn, a, b, c]
  have r2 : Fortran.reduceSgn (FOps.lit 3.14159265358979324 : R S) (FOps.lit 0.0019353071795864769253 : R S) (∸(toR S x)) = (∸(toR S x), (FOps.lit 1 : R S)) := by
    simp [Fortran.reduceSgn, d, b, c]
  rw [e1]
  simp only [Fortran.dcl2, r1, r2]
  have hne : (∸(toR S x) ==. (FOps.lit 0 : R S)) = false := by
    rw [eq_R, lit0 hS, decide_eq_false_iff_not]
    show -x ≠ 0
    linarith
  simp only [hne, Bool.false_eq_true, if_false]
  have l1 : ofR (FOps.lit 1 : R S) = 1 := by rw [ofR_lit, hS.one]; norm_num
  split_ifs with c1 c2
  · simp only [lit0 hS, neg_zero]
  · simp only [ofR_mul, ofR_neg, l1]; ring
  · exact sdiv_neg (cl2dHiQ_pos hS hu (by rwa [lt_R, half_R hS, decide_eq_true_eq, not_lt] at c2) (by rw [ofR_neg]; show -x ≤ _; linarith)).ne'

/-- **C39**, `dcl4`: the same call repeated with the same variable `-PI ≤ x < 0` returns the negative of the first result. -/
theorem C39_dcl4_twice {u : ℝ} (hS : S.Lit u) (hu : u ≤ 1e-6) {x : ℝ} (h1 : -ofR (FOps.lit 3.14159265358979324 : R S) ≤ x) (h2 : x < 0) :
    ofR (Fortran.dcl4 (Fortran.dcl4 (toR S x)).arg).value = -ofR (Fortran.dcl4 (toR S x)).value := by
  obtain ⟨a, b, c, d⟩ := neg_cond hS h1 h2
  have e1 := (C39_dcl_overwrites (toR S x) a b c).2.2.1
  have r1 : Fortran.reduceSgn (FOps.lit 3.14159265358979324 : R S) (FOps.lit 0.0019353071795864769253 : R S) (toR S x) = (∸(toR S x), ∸(FOps.lit 1 : R S)) := by
    simp [Fortran.reduceSgn, a, b, c]
  have r2 : Fortran.reduceSgn (FOps.lit 3.14159265358979324 : R S) (FOps.lit 0.0019353071795864769253 : R S) (∸(toR S x)) = (∸(toR S x), (FOps.lit 1 : R S)) := by
    simp [Fortran.reduceSgn, d, b, c]
  rw [e1]
  simp only [Fortran.dcl4, r1, r2]
  have hne : (∸(toR S x) ==. (FOps.lit 0 : R S)) = false := by
    rw [eq_R, lit0 hS, decide_eq_false_iff_not]
    show -x ≠ 0
    linarith
  simp only [hne, Bool.false_eq_true, if_false]
  have l1 : ofR (FOps.lit 1 : R S) = 1 := by rw [ofR_lit, hS.one]; norm_num
  split_ifs with c1 c2
  · simp only [lit0 hS, neg_zero]
  · simp only [ofR_mul, ofR_neg, l1]; ring
  · exact sdiv_neg (cl4dHiQ_pos hS hu (by rwa [lt_R, half_R hS, decide_eq_true_eq, not_lt] at c2) (by rw [ofR_neg]; show -x ≤ _; linarith)).ne'

/-- **C39**, `dcl6`: the same call repeated with the same variable `-PI ≤ x < 0` returns the negative of the first result. -/
theorem C39_dcl6_twice {u : ℝ} (hS : S.Lit u) (hu : u ≤ 1e-6) {x : ℝ} (h1 : -ofR (FOps.lit 3.14159265358979324 : R S) ≤ x) (h2 : x < 0) :
    ofR (Fortran.dcl6 (Fortran.dcl6 (toR S x)).arg).value = -ofR (Fortran.dcl6 (toR S x)).value := by
  obtain ⟨a, b, c, d⟩ := neg_cond hS h1 h2
  have e1 := (C39_dcl_overwrites (toR S x) a b c).2.2.2.2
  have r1 : Fortran.reduceSgn (FOps.lit 3.14159265358979324 : R S) (FOps.lit 0.0019353071795864769253 : R S) (toR S x) = (∸(toR S x), ∸(FOps.lit 1 : R S)) := by
    simp [Fortran.reduceSgn, a, b, c]
  have r2 : Fortran.reduceSgn (FOps.lit 3.14159265358979324 : R S) (FOps.lit 0.0019353071795864769253 : R S) (∸(toR S x)) = (∸(toR S x), (FOps.lit 1 : R S)) := by
    simp [Fortran.reduceSgn, d, b, c]
  rw [e1]
  simp only [Fortran.dcl6, r1, r2]
  have hne : (∸(toR S x) ==. (FOps.lit 0 : R S)) = false := by
    rw [eq_R, lit0 hS, decide_eq_false_iff_not]
    show -x ≠ 0
    linarith
  simp only [hne, Bool.false_eq_true, if_false]
  have l1 : ofR (FOps.lit 1 : R S) = 1 := by rw [ofR_lit, hS.one]; norm_num
  split_ifs with c1 c2
  · simp only [lit0 hS, neg_zero]
  · simp only [ofR_mul, ofR_neg, l1]; ring
  · exact sdiv_neg (cl6dHiQ_pos hS hu (by rwa [lt_R, half_R hS, decide_eq_true_eq, not_lt] at c2) (by rw [ofR_neg]; show -x ≤ _; linarith)).ne'

/-- the hypotheses are met: `x = -1` with the literals of the source text -/
example (hid : S.rho = id) : ofR (Fortran.dcl2 (Fortran.dcl2 (toR S (-1))).arg).value = -ofR (Fortran.dcl2 (toR S (-1))).value :=
  C39_dcl2_twice (lit_id S hid) (by norm_num) (by rw [ofR_lit, hid]; norm_num) (by norm_num)
example (hid : S.rho = id) := C38_dcl2_dec hid (S := S) (x := -1) (by rw [abs_neg, abs_one]; linarith [Real.pi_gt_three])

end Polylog
