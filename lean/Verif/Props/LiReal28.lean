import Verif.Props.LiAxis
import Verif.Props.FPParity

/-! # C28: the complex functions on the real axis

The complex `Li2` (all precisions), `Li3` and `Li4` (double) dispatch to the real functions when the imaginary
part compares equal to zero.  The statements are about the IEEE semantics, every format and every library
(so both signed zeros, infinities and NaN as real part are included).  The long double complex `Li3`, `Li4` and all complex
`Li5`, `Li6` have no such dispatch; on the axis they are covered by C18. -/

noncomputable section
namespace Polylog

variable {φ : Fmt} {L : Lib}

theorem F_zero_eq (s : Bool) : ((toF φ L (.fin s 0)) ==. (FOps.lit 0 : FP φ L)) = true := (isZ_iff _).mpr ⟨s, rfl⟩

/-- the value on the real axis: the real function, and as imaginary part the given one (`x <= 1`), or `c` -/
def onAxis (f : FP φ L → FP φ L) (c : FP φ L → FP φ L) (x : FP φ L) (s : Bool) : Cx (FP φ L) :=
  ⟨f x, if x <=. (FOps.lit 1 : FP φ L) then toF φ L (.fin s 0) else c x⟩

theorem cx_ite {c : Prop} [Decidable c] {a b b' : FP φ L} : (if c then (⟨a, b⟩ : Cx (FP φ L)) else ⟨a, b'⟩) = ⟨a, if c then b else b'⟩ := by
  split <;> rfl

/-- **C28**, `Li2`: float, double, long double (both coefficient sets).  `x` is any floating-point number, `s` the sign of the
zero imaginary part, which is returned unchanged for `x <= 1`. -/
theorem C28_Li2f (φ : Fmt) (L : Lib) (x : FP φ L) (s : Bool) : cLi2f ⟨x, toF φ L (.fin s 0)⟩ =
    onAxis Li2f (fun x => ∸(FOps.lit 3.14159265 : FP φ L) *. xlog x) x s := by
  rw [cLi2f_gen]; unfold cLi2Gen; simp only [F_zero_eq, if_true, cx_ite]; rfl
theorem C28_Li2d (φ : Fmt) (L : Lib) (x : FP φ L) (s : Bool) : cLi2d ⟨x, toF φ L (.fin s 0)⟩ =
    onAxis Li2d (fun x => ∸(FOps.lit 3.1415926535897932 : FP φ L) *. xlog x) x s := by
  rw [cLi2d_gen]; unfold cLi2Gen; simp only [F_zero_eq, if_true, cx_ite]; rfl
theorem C28_Li2l18 (φ : Fmt) (L : Lib) (x : FP φ L) (s : Bool) : cLi2l18 ⟨x, toF φ L (.fin s 0)⟩ =
    onAxis Li2l18 (fun x => ∸(FOps.lit 3.14159265358979323846264338327950288 : FP φ L) *. xlog x) x s := by
  rw [cLi2l18, cLi2l_gen]; unfold cLi2Gen; simp only [F_zero_eq, if_true, cx_ite]; rfl
theorem C28_Li2l36 (φ : Fmt) (L : Lib) (x : FP φ L) (s : Bool) : cLi2l36 ⟨x, toF φ L (.fin s 0)⟩ =
    onAxis Li2l36 (fun x => ∸(FOps.lit 3.14159265358979323846264338327950288 : FP φ L) *. xlog x) x s := by
  rw [cLi2l36, cLi2l_gen]; unfold cLi2Gen; simp only [F_zero_eq, if_true, cx_ite]; rfl
/-- **C28**, `Li3`, double -/
theorem C28_Li3d (φ : Fmt) (L : Lib) (x : FP φ L) (s : Bool) : cLi3d ⟨x, toF φ L (.fin s 0)⟩ =
    onAxis Li3d (fun x => ∸(FOps.lit 0.5 : FP φ L) *. (FOps.lit 3.1415926535897932 : FP φ L) *. xlog x *. xlog x) x s := by
  rw [cLi3d_eq]; simp only [F_zero_eq, if_true, cx_ite]; rfl
/-- **C28**, `Li4`, double -/
theorem C28_Li4d (φ : Fmt) (L : Lib) (x : FP φ L) (s : Bool) : cLi4d ⟨x, toF φ L (.fin s 0)⟩ =
    onAxis Li4d (fun x => ∸(FOps.lit 1 : FP φ L) /. (FOps.lit 6 : FP φ L) *. (FOps.lit 3.1415926535897932 : FP φ L) *. xlog x *. xlog x *. xlog x) x s := by
  rw [cLi4d_eq]; simp only [F_zero_eq, if_true, cx_ite]; rfl

/-! The imaginary part on the cut, with exact elementary operations -/

variable {S : RealSem}

/-- **C28**, imaginary part of the complex `Li2` on the cut: `-π log x` up to the error of the literal. -/
theorem C28_Li2_im {u : ℝ} (hS : S.Lit u) (x : ℝ) (hx : 1 < x) :
    |(cLi2f (ofC S x)).toC.im - -(Real.pi * Real.log x)| ≤ (3.6e-9 + 3.15 * u) * Real.log x ∧
    |(cLi2d (ofC S x)).toC.im - -(Real.pi * Real.log x)| ≤ (3.85e-17 + 3.15 * u) * Real.log x ∧
    |(cLi2l18 (ofC S x)).toC.im - -(Real.pi * Real.log x)| ≤ (4.2e-36 + 3.15 * u) * Real.log x ∧
    |(cLi2l36 (ofC S x)).toC.im - -(Real.pi * Real.log x)| ≤ (4.2e-36 + 3.15 * u) * Real.log x := by
  have hl := Real.log_pos hx
  have key : ∀ (q : ℚ) (e : ℝ) (Li2r : R S → R S) (n : ℕ) (bf : Vector ℚ (n + 2)), |((S.rho q : ℚ) : ℝ) - Real.pi| ≤ e →
      |(cLi2Gen (FOps.lit q : R S) Li2r bf (ofC S x)).toC.im - -(Real.pi * Real.log x)| ≤ e * Real.log x := by
    intro q e f n bf h
    rw [cLi2Gen_real hS _ _ _ _ (Complex.ofReal_im x), Complex.ofReal_re, if_neg (by linarith)]
    show |-(((S.rho q : ℚ) : ℝ) * Real.log x) - -(Real.pi * Real.log x)| ≤ _
    rw [show -(((S.rho q : ℚ) : ℝ) * Real.log x) - -(Real.pi * Real.log x) = -((((S.rho q : ℚ) : ℝ) - Real.pi) * Real.log x) by ring,
      abs_neg, abs_mul, abs_of_pos hl]
    exact mul_le_mul_of_nonneg_right h hl.le
  refine ⟨?_, ?_, ?_, ?_⟩
  · rw [cLi2f_gen]
    have := litpi_abs hS 3.14159265 (by norm_num) (by norm_num) (pi_lit 3.14159265 3.6e-9 (by decide +kernel))
    exact key _ _ _ _ _ (by push_cast at this ⊢; exact this)
  · rw [cLi2d_gen]
    have := litpi_abs hS 3.1415926535897932 (by norm_num) (by norm_num) (pi_lit 3.1415926535897932 3.85e-17 (by decide +kernel))
    exact key _ _ _ _ _ (by push_cast at this ⊢; exact this)
  · rw [cLi2l18, cLi2l_gen]
    have := litpi_abs hS 3.14159265358979323846264338327950288 (by norm_num) (by norm_num) (pi_lit 3.14159265358979323846264338327950288 4.2e-36 (by decide +kernel))
    exact key _ _ _ _ _ (by push_cast at this ⊢; exact this)
  · rw [cLi2l36, cLi2l_gen]
    have := litpi_abs hS 3.14159265358979323846264338327950288 (by norm_num) (by norm_num) (pi_lit 3.14159265358979323846264338327950288 4.2e-36 (by decide +kernel))
    exact key _ _ _ _ _ (by push_cast at this ⊢; exact this)

/-- **C28**, imaginary part of the complex double `Li3` and `Li4` on the cut: `-π log^2 x / 2`, `-π log^3 x / 6`. -/
theorem C28_Li34_im {u : ℝ} (hS : S.Lit u) (x : ℝ) (hx : 1 < x) :
    |(cLi3d (ofC S x)).toC.im - -(Real.pi * Real.log x ^ 2 / 2)| ≤ (3.85e-17 + 3.15 * u) * Real.log x ^ 2 / 2 ∧
    |(cLi4d (ofC S x)).toC.im - -(Real.pi * Real.log x ^ 3 / 6)| ≤ (3.85e-17 + 3.15 * u) * Real.log x ^ 3 / 6 := by
  have hl := Real.log_pos hx
  have hd := litpi_abs hS 3.1415926535897932 (by norm_num) (by norm_num) (pi_lit 3.1415926535897932 3.85e-17 (by decide +kernel))
  have hn : (ofC S (x : ℂ)).re = toR S x := rfl
  have hi : (ofC S (x : ℂ)).im = toR S 0 := rfl
  have hn' : ofR (toR S x) = x := rfl
  have hi' : ofR (toR S 0) = 0 := rfl
  have hlog : ofR (xlog (toR S x)) = Real.log x := by
    rw [xlog_R, ofR_log (by simp [rsem]; linarith), hn']
  have e5 : ((S.rho 0.5 : ℚ) : ℝ) = 1 / 2 := by rw [hS.half]; norm_num
  have d6 := ofR_divlit hS 6 (q := 6) (by norm_num) (by norm_num) (by norm_num)
  have l1 := lit_of hS 1 (q := 1) (by norm_num) (by norm_num)
  constructor
  · rw [cLi3d_eq, hn, hi]
    simp only [eq_R, le_R, decide_eq_true_eq]
    simp only [ofR_lit, hS.zero, hS.one, Rat.cast_zero, Rat.cast_one, hi', hn', if_true]
    rw [if_neg (by linarith)]
    show |ofR (∸(FOps.lit 0.5 : R S) *. (FOps.lit 3.1415926535897932 : R S) *. xlog (toR S x) *. xlog (toR S x)) - _| ≤ _
    simp only [ofR_mul, ofR_neg, hlog, ofR_lit, e5]
    generalize ((S.rho 3.1415926535897932 : ℚ) : ℝ) = P at *
    generalize Real.log x = l at *
    rw [show -(1 / 2) * P * l * l - -(Real.pi * l ^ 2 / 2) = -((P - Real.pi) * l ^ 2 / 2) by ring, abs_neg, abs_div, abs_mul,
      abs_of_nonneg (sq_nonneg l), abs_of_pos (show (0:ℝ) < 2 by norm_num)]
    push_cast at hd
    gcongr
  · rw [cLi4d_eq, hn, hi]
    simp only [eq_R, le_R, decide_eq_true_eq]
    simp only [ofR_lit, hS.zero, hS.one, Rat.cast_zero, Rat.cast_one, hi', hn', if_true]
    rw [if_neg (by linarith)]
    show |ofR (∸(FOps.lit 1 : R S) /. (FOps.lit 6 : R S) *. (FOps.lit 3.1415926535897932 : R S) *. xlog (toR S x) *. xlog (toR S x) *. xlog (toR S x)) - _| ≤ _
    simp only [ofR_mul, ofR_neg, hlog, d6, l1, ofR_lit]
    generalize ((S.rho 3.1415926535897932 : ℚ) : ℝ) = P at *
    generalize Real.log x = l at *
    rw [show -((1 : ℕ) : ℝ) / ((6 : ℕ) : ℝ) * P * l * l * l - -(Real.pi * l ^ 3 / 6) = -((P - Real.pi) * l ^ 3 / 6) by push_cast; ring, abs_neg, abs_div, abs_mul,
      abs_of_nonneg (show 0 ≤ l ^ 3 by positivity), abs_of_pos (show (0:ℝ) < 6 by norm_num)]
    push_cast at hd
    gcongr

/-- non-vacuity: at `x = -0.5`, imaginary part `-0`, the imaginary part `-0` is returned -/
example (L : Lib) : (cLi3d ⟨toF binary64 L (.fin true 0.5), toF binary64 L (.fin true 0)⟩).im = toF binary64 L (.fin true 0) := by
  rw [C28_Li3d, onAxis]
  exact if_pos (show FV.le (.fin true 0.5) (rndQ binary64 1) = true by decide +kernel)

end Polylog
