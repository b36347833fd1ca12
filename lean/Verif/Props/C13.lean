import Verif.Props.Cl2Real
import Verif.Props.Cl3Real
import Verif.Props.Cl4Real
import Verif.Props.Cl5Real
import Verif.Props.Cl6Real
import Verif.Sem.LitBits

/-! # C13: accuracy of `Cl2` ... `Cl6`, double overloads (generated by tools/cl/gencl4.py)

`clausen n x` is the textbook function of Spec/Polylog.lean.  Every theorem bounds the difference between the
value computed with exact elementary operations and `clausen n x`:

* `C13_Cln`: any literals within relative `u` of the source text; `wrap P x` is `|x|` modulo `2 P`.  The condition
  excludes only arguments whose reduction is negative in exact arithmetic, an interval of width `< 1e-17` below each
  multiple of the period that contains no floating-point number (C26);
* `C13_Cln_dec`: literals of the source text, `|x| ≤ 2π`;
* the others: literals as stored by the compiler.
-/

noncomputable section
namespace Polylog
variable {S : RealSem}

theorem b64d_PI : rhoBits 53 3.14159265358979324 = 7074237752028440 * 2 ^ (-51 : ℤ) := by
  have := rhoBits_eval (p := 53) (q := 3.14159265358979324) (-51) 7074237752028440 (by norm_num) (by norm_num) (by norm_num [abs_lt])
  exact_mod_cast this
theorem b64d_P1 : rhoBits 53 0.0019353071795864769253 = 8925029061461098 * 2 ^ (-62 : ℤ) := by
  have := rhoBits_eval (p := 53) (q := 0.0019353071795864769253) (-62) 8925029061461098 (by norm_num) (by norm_num) (by norm_num [abs_lt])
  exact_mod_cast this

theorem dec_wrapd {x : ℝ} (h : S.rho = id) (hx : |x| ≤ 2 * Real.pi) :
    wrap (ofR (FOps.lit 3.14159265358979324 : R S)) x ≤ 6.28125 + ofR (FOps.lit 0.0019353071795864769253 : R S) ∧ ⌊|x| / (2 * ofR (FOps.lit 3.14159265358979324 : R S))⌋₊ = 0 := by
  have e1 : ofR (FOps.lit 3.14159265358979324 : R S) = ((3.14159265358979324 : ℚ) : ℝ) := by show ((S.rho _ : ℚ) : ℝ) = _; rw [h]; rfl
  have e2 : ofR (FOps.lit 0.0019353071795864769253 : R S) = ((0.0019353071795864769253 : ℚ) : ℝ) := by show ((S.rho _ : ℚ) : ℝ) = _; rw [h]; rfl
  rw [e1, e2]
  have hp := abs_le.mp pi_approx
  have h1 : 2 * (piQ + 1 / 10 ^ 49) < 2 * (3.14159265358979324 : ℚ) := by decide +kernel
  have h2 : 2 * (piQ + 1 / 10 ^ 49) ≤ 6.28125 + (0.0019353071795864769253 : ℚ) := by decide +kernel
  have h1' := (Rat.cast_lt (K := ℝ)).mpr h1
  have h2' := (Rat.cast_le (K := ℝ)).mpr h2
  push_cast at h1' h2' ⊢
  have h3 : |x| < 2 * 3.14159 + 1 := by linarith [pi_lt]
  have h4 : |x| < 2 * 3.14159265358979324 := by linarith
  refine ⟨?_, ?_⟩
  · rw [wrap_of_lt h4]; linarith
  · rw [Nat.floor_eq_zero, div_lt_one (by norm_num)]; exact h4

theorem wrap_le_b64d (x : ℝ) (h : S.rho = rhoBits 53) : wrap (ofR (FOps.lit 3.14159265358979324 : R S)) x ≤ 6.28125 + ofR (FOps.lit 0.0019353071795864769253 : R S) := by
  have e1 : ofR (FOps.lit 3.14159265358979324 : R S) = ((7074237752028440 * 2 ^ (-51 : ℤ) : ℚ) : ℝ) := by show ((S.rho _ : ℚ) : ℝ) = _; rw [h, b64d_PI]
  have e2 : ofR (FOps.lit 0.0019353071795864769253 : R S) = ((8925029061461098 * 2 ^ (-62 : ℤ) : ℚ) : ℝ) := by show ((S.rho _ : ℚ) : ℝ) = _; rw [h, b64d_P1]
  rw [e1, e2]
  refine (wrap_lt (by norm_num) x).le.trans ?_
  norm_num


/-- `Cl2`, literals within relative `u`: every argument -/
theorem C13_Cl2 {u : ℝ} (hS : S.Lit u) (hu : u ≤ 1e-6) (x : ℝ)
    (hw : wrap (ofR (FOps.lit 3.14159265358979324 : R S)) x ≤ 6.28125 + ofR (FOps.lit 0.0019353071795864769253 : R S)) :
    |ofR (Cl2d (toR S x)) - clausen 2 x| ≤ 11e-18 + 14 * u + (31e-18 + 609e-1 * u) * |x| := by
  refine (Cl2d_acc hS hu x hw).trans ?_
  have hu0 := hS.u_nonneg
  have hd := abs_le.mp (PId hS)
  have hpi := pi_gt
  have h := periods (x := x) (P := ofR (FOps.lit 3.14159265358979324 : R S)) (d := 1.6e-18 + 3.15 * u) (by linarith) (by linarith)
  have hx := abs_nonneg x
  have hux := mul_nonneg hu0 hx
  generalize 2 * (1.6e-18 + 3.15 * u) * (⌊|x| / (2 * ofR (FOps.lit 3.14159265358979324 : R S))⌋₊ : ℝ) = K at *
  nlinarith

/-- `Cl2` with the literals of the source text on the fundamental domain -/
theorem C13_Cl2_dec (h : S.rho = id) {x : ℝ} (hx : |x| ≤ 2 * Real.pi) : |ofR (Cl2d (toR S x)) - clausen 2 x| ≤ 11e-18 := by
  obtain ⟨h1, h2⟩ := dec_wrapd h hx
  have := Cl2d_acc (lit_id S h) (by norm_num) x h1
  rw [h2] at this
  refine this.trans ?_
  norm_num

/-- `Cl2` with the literals stored in binary64, every real argument -/
theorem C13_Cl2_binary64 (h : S.rho = rhoBits 53) (x : ℝ) : |ofR (Cl2d (toR S x)) - clausen 2 x| ≤ 157e-17 + 68e-16 * |x| := by
  refine (C13_Cl2 (RealSem.lit_of_bits (by norm_num) h) (by norm_num) _ (wrap_le_b64d x h)).trans ?_
  have hx := abs_nonneg x
  generalize |x| = y at hx ⊢
  norm_num; linarith

/-- `Cl3`, literals within relative `u`: every argument -/
theorem C13_Cl3 {u : ℝ} (hS : S.Lit u) (hu : u ≤ 1e-6) (x : ℝ)
    (hw : wrap (ofR (FOps.lit 3.14159265358979324 : R S)) x ≤ 6.28125 + ofR (FOps.lit 0.0019353071795864769253 : R S)) :
    |ofR (Cl3d (toR S x)) - clausen 3 x| ≤ 524e-19 + 14 * u + (107e-20 + 21e-1 * u) * |x| := by
  refine (Cl3d_acc hS hu x hw).trans ?_
  have hu0 := hS.u_nonneg
  have hd := abs_le.mp (PId hS)
  have hpi := pi_gt
  have h := periods (x := x) (P := ofR (FOps.lit 3.14159265358979324 : R S)) (d := 1.6e-18 + 3.15 * u) (by linarith) (by linarith)
  have hx := abs_nonneg x
  have hux := mul_nonneg hu0 hx
  generalize 2 * (1.6e-18 + 3.15 * u) * (⌊|x| / (2 * ofR (FOps.lit 3.14159265358979324 : R S))⌋₊ : ℝ) = K at *
  nlinarith

/-- `Cl3` with the literals of the source text on the fundamental domain -/
theorem C13_Cl3_dec (h : S.rho = id) {x : ℝ} (hx : |x| ≤ 2 * Real.pi) : |ofR (Cl3d (toR S x)) - clausen 3 x| ≤ 524e-19 := by
  obtain ⟨h1, h2⟩ := dec_wrapd h hx
  have := Cl3d_acc (lit_id S h) (by norm_num) x h1
  rw [h2] at this
  refine this.trans ?_
  norm_num

/-- `Cl3` with the literals stored in binary64, every real argument -/
theorem C13_Cl3_binary64 (h : S.rho = rhoBits 53) (x : ℝ) : |ofR (Cl3d (toR S x)) - clausen 3 x| ≤ 161e-17 + 235e-18 * |x| := by
  refine (C13_Cl3 (RealSem.lit_of_bits (by norm_num) h) (by norm_num) _ (wrap_le_b64d x h)).trans ?_
  have hx := abs_nonneg x
  generalize |x| = y at hx ⊢
  norm_num; linarith

/-- `Cl4`, literals within relative `u`: every argument -/
theorem C13_Cl4 {u : ℝ} (hS : S.Lit u) (hu : u ≤ 1e-6) (x : ℝ)
    (hw : wrap (ofR (FOps.lit 3.14159265358979324 : R S)) x ≤ 6.28125 + ofR (FOps.lit 0.0019353071795864769253 : R S)) :
    |ofR (Cl4d (toR S x)) - clausen 4 x| ≤ 431e-19 + 18 * u + (107e-20 + 21e-1 * u) * |x| := by
  refine (Cl4d_acc hS hu x hw).trans ?_
  have hu0 := hS.u_nonneg
  have hd := abs_le.mp (PId hS)
  have hpi := pi_gt
  have h := periods (x := x) (P := ofR (FOps.lit 3.14159265358979324 : R S)) (d := 1.6e-18 + 3.15 * u) (by linarith) (by linarith)
  have hx := abs_nonneg x
  have hux := mul_nonneg hu0 hx
  generalize 2 * (1.6e-18 + 3.15 * u) * (⌊|x| / (2 * ofR (FOps.lit 3.14159265358979324 : R S))⌋₊ : ℝ) = K at *
  nlinarith

/-- `Cl4` with the literals of the source text on the fundamental domain -/
theorem C13_Cl4_dec (h : S.rho = id) {x : ℝ} (hx : |x| ≤ 2 * Real.pi) : |ofR (Cl4d (toR S x)) - clausen 4 x| ≤ 431e-19 := by
  obtain ⟨h1, h2⟩ := dec_wrapd h hx
  have := Cl4d_acc (lit_id S h) (by norm_num) x h1
  rw [h2] at this
  refine this.trans ?_
  norm_num

/-- `Cl4` with the literals stored in binary64, every real argument -/
theorem C13_Cl4_binary64 (h : S.rho = rhoBits 53) (x : ℝ) : |ofR (Cl4d (toR S x)) - clausen 4 x| ≤ 205e-17 + 235e-18 * |x| := by
  refine (C13_Cl4 (RealSem.lit_of_bits (by norm_num) h) (by norm_num) _ (wrap_le_b64d x h)).trans ?_
  have hx := abs_nonneg x
  generalize |x| = y at hx ⊢
  norm_num; linarith

/-- `Cl5`, literals within relative `u`: every argument -/
theorem C13_Cl5 {u : ℝ} (hS : S.Lit u) (hu : u ≤ 1e-6) (x : ℝ)
    (hw : wrap (ofR (FOps.lit 3.14159265358979324 : R S)) x ≤ 6.28125 + ofR (FOps.lit 0.0019353071795864769253 : R S)) :
    |ofR (Cl5d (toR S x)) - clausen 5 x| ≤ 302e-19 + 16 * u + (107e-20 + 21e-1 * u) * |x| := by
  refine (Cl5d_acc hS hu x hw).trans ?_
  have hu0 := hS.u_nonneg
  have hd := abs_le.mp (PId hS)
  have hpi := pi_gt
  have h := periods (x := x) (P := ofR (FOps.lit 3.14159265358979324 : R S)) (d := 1.6e-18 + 3.15 * u) (by linarith) (by linarith)
  have hx := abs_nonneg x
  have hux := mul_nonneg hu0 hx
  generalize 2 * (1.6e-18 + 3.15 * u) * (⌊|x| / (2 * ofR (FOps.lit 3.14159265358979324 : R S))⌋₊ : ℝ) = K at *
  nlinarith

/-- `Cl5` with the literals of the source text on the fundamental domain -/
theorem C13_Cl5_dec (h : S.rho = id) {x : ℝ} (hx : |x| ≤ 2 * Real.pi) : |ofR (Cl5d (toR S x)) - clausen 5 x| ≤ 302e-19 := by
  obtain ⟨h1, h2⟩ := dec_wrapd h hx
  have := Cl5d_acc (lit_id S h) (by norm_num) x h1
  rw [h2] at this
  refine this.trans ?_
  norm_num

/-- `Cl5` with the literals stored in binary64, every real argument -/
theorem C13_Cl5_binary64 (h : S.rho = rhoBits 53) (x : ℝ) : |ofR (Cl5d (toR S x)) - clausen 5 x| ≤ 181e-17 + 235e-18 * |x| := by
  refine (C13_Cl5 (RealSem.lit_of_bits (by norm_num) h) (by norm_num) _ (wrap_le_b64d x h)).trans ?_
  have hx := abs_nonneg x
  generalize |x| = y at hx ⊢
  norm_num; linarith

/-- `Cl6`, literals within relative `u`: every argument -/
theorem C13_Cl6 {u : ℝ} (hS : S.Lit u) (hu : u ≤ 1e-6) (x : ℝ)
    (hw : wrap (ofR (FOps.lit 3.14159265358979324 : R S)) x ≤ 6.28125 + ofR (FOps.lit 0.0019353071795864769253 : R S)) :
    |ofR (Cl6d (toR S x)) - clausen 6 x| ≤ 412e-18 + 19 * u + (107e-20 + 21e-1 * u) * |x| := by
  refine (Cl6d_acc hS hu x hw).trans ?_
  have hu0 := hS.u_nonneg
  have hd := abs_le.mp (PId hS)
  have hpi := pi_gt
  have h := periods (x := x) (P := ofR (FOps.lit 3.14159265358979324 : R S)) (d := 1.6e-18 + 3.15 * u) (by linarith) (by linarith)
  have hx := abs_nonneg x
  have hux := mul_nonneg hu0 hx
  generalize 2 * (1.6e-18 + 3.15 * u) * (⌊|x| / (2 * ofR (FOps.lit 3.14159265358979324 : R S))⌋₊ : ℝ) = K at *
  nlinarith

/-- `Cl6` with the literals of the source text on the fundamental domain -/
theorem C13_Cl6_dec (h : S.rho = id) {x : ℝ} (hx : |x| ≤ 2 * Real.pi) : |ofR (Cl6d (toR S x)) - clausen 6 x| ≤ 412e-18 := by
  obtain ⟨h1, h2⟩ := dec_wrapd h hx
  have := Cl6d_acc (lit_id S h) (by norm_num) x h1
  rw [h2] at this
  refine this.trans ?_
  norm_num

/-- `Cl6` with the literals stored in binary64, every real argument -/
theorem C13_Cl6_binary64 (h : S.rho = rhoBits 53) (x : ℝ) : |ofR (Cl6d (toR S x)) - clausen 6 x| ≤ 253e-17 + 235e-18 * |x| := by
  refine (C13_Cl6 (RealSem.lit_of_bits (by norm_num) h) (by norm_num) _ (wrap_le_b64d x h)).trans ?_
  have hx := abs_nonneg x
  generalize |x| = y at hx ⊢
  norm_num; linarith

/-! the hypotheses are met, for instance at `x = 2` and, in the compiled formats, at `x = 5` -/
example : |ofR (Cl2d (toR RealSem.dec 2)) - clausen 2 2| ≤ 11e-18 := C13_Cl2_dec rfl (by rw [abs_of_pos (by norm_num)]; linarith [pi_gt])
example : |ofR (Cl5d (toR (RealSem.bits 53) 5)) - clausen 5 5| ≤ 181e-17 + 235e-18 * |5| := C13_Cl5_binary64 rfl 5

end Polylog
