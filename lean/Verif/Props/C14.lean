import Verif.Props.Cl2Real
import Verif.Props.Cl3Real
import Verif.Props.Cl4Real
import Verif.Props.Cl5Real
import Verif.Props.Cl6Real
import Verif.Sem.LitBits

/-! # C14: accuracy of `Cl2` ... `Cl6`, long double overloads (generated by tools/cl/gencl4.py)

`clausen n x` is the textbook function of Spec/Polylog.lean.  Every theorem bounds the difference between the
value computed with exact elementary operations and `clausen n x`:

* `C14_Cln`: any literals within relative `u` of the source text; `wrap P x` is `|x|` modulo `2 P`.  The condition
  excludes only arguments whose reduction is negative in exact arithmetic, an interval of width `< 1e-17` below each
  multiple of the period that contains no floating-point number (C26);
* `C14_Cln_dec`: literals of the source text, `|x| ≤ 2π`;
* the others: literals as stored by the compiler.
-/

noncomputable section
namespace Polylog
variable {S : RealSem}

theorem b64l_PI : rhoBits 53 3.14159265358979323846264338327950288 = 7074237752028440 * 2 ^ (-51 : ℤ) := by
  have := rhoBits_eval (p := 53) (q := 3.14159265358979323846264338327950288) (-51) 7074237752028440 (by norm_num) (by norm_num) (by norm_num [abs_lt])
  exact_mod_cast this
theorem b64l_P1 : rhoBits 53 0.0019353071795864769252867665590057683943 = 8925029061461098 * 2 ^ (-62 : ℤ) := by
  have := rhoBits_eval (p := 53) (q := 0.0019353071795864769252867665590057683943) (-62) 8925029061461098 (by norm_num) (by norm_num) (by norm_num [abs_lt])
  exact_mod_cast this
theorem x87l_PI : rhoBits 64 3.14159265358979323846264338327950288 = 14488038916154245685 * 2 ^ (-62 : ℤ) := by
  have := rhoBits_eval (p := 64) (q := 3.14159265358979323846264338327950288) (-62) 14488038916154245685 (by norm_num) (by norm_num) (by norm_num [abs_lt])
  exact_mod_cast this
theorem x87l_P1 : rhoBits 64 0.0019353071795864769252867665590057683943 = 18278459517872327756 * 2 ^ (-73 : ℤ) := by
  have := rhoBits_eval (p := 64) (q := 0.0019353071795864769252867665590057683943) (-73) 18278459517872327756 (by norm_num) (by norm_num) (by norm_num [abs_lt])
  exact_mod_cast this
theorem b128l_PI : rhoBits 113 3.14159265358979323846264338327950288 = 8156040833015188200833743081374136 * 2 ^ (-111 : ℤ) := by
  have := rhoBits_eval (p := 113) (q := 3.14159265358979323846264338327950288) (-111) 8156040833015188200833743081374136 (by norm_num) (by norm_num) (by norm_num [abs_lt])
  exact_mod_cast this
theorem b128l_P1 : rhoBits 113 0.0019353071795864769252867665590057683943 = 10289857934199563906859271764804506 * 2 ^ (-122 : ℤ) := by
  have := rhoBits_eval (p := 113) (q := 0.0019353071795864769252867665590057683943) (-122) 10289857934199563906859271764804506 (by norm_num) (by norm_num) (by norm_num [abs_lt])
  exact_mod_cast this

theorem dec_wrapl (x : ℝ) (h : S.rho = id) : wrap (ofR (FOps.lit 3.14159265358979323846264338327950288 : R S)) x ≤ 6.28125 + ofR (FOps.lit 0.0019353071795864769252867665590057683943 : R S) := by
  have e1 : ofR (FOps.lit 3.14159265358979323846264338327950288 : R S) = ((3.14159265358979323846264338327950288 : ℚ) : ℝ) := by show ((S.rho _ : ℚ) : ℝ) = _; rw [h]; rfl
  have e2 : ofR (FOps.lit 0.0019353071795864769252867665590057683943 : R S) = ((0.0019353071795864769252867665590057683943 : ℚ) : ℝ) := by show ((S.rho _ : ℚ) : ℝ) = _; rw [h]; rfl
  rw [e1, e2]
  refine (wrap_lt (by norm_num) x).le.trans ?_
  norm_num

theorem wrap_le_b64l (x : ℝ) (h : S.rho = rhoBits 53) : wrap (ofR (FOps.lit 3.14159265358979323846264338327950288 : R S)) x ≤ 6.28125 + ofR (FOps.lit 0.0019353071795864769252867665590057683943 : R S) := by
  have e1 : ofR (FOps.lit 3.14159265358979323846264338327950288 : R S) = ((7074237752028440 * 2 ^ (-51 : ℤ) : ℚ) : ℝ) := by show ((S.rho _ : ℚ) : ℝ) = _; rw [h, b64l_PI]
  have e2 : ofR (FOps.lit 0.0019353071795864769252867665590057683943 : R S) = ((8925029061461098 * 2 ^ (-62 : ℤ) : ℚ) : ℝ) := by show ((S.rho _ : ℚ) : ℝ) = _; rw [h, b64l_P1]
  rw [e1, e2]
  refine (wrap_lt (by norm_num) x).le.trans ?_
  norm_num

/-- a number with a 64-bit significand, modulo an even multiple of `2^-62` -/
theorem wrap_gap (nP : ℤ) (hP : 4 < (nP : ℝ) * 2 ^ (-61 : ℤ) - 2 ^ (-61 : ℤ)) {P : ℝ} (hPn : 2 * P = nP * 2 ^ (-61 : ℤ)) (m e : ℤ) (hm : |m| < 2 ^ 64) :
    wrap P (m * 2 ^ e) ≤ 2 * P - 2 ^ (-61 : ℤ) := by
  have h61 : (0:ℝ) < 2 ^ (-61 : ℤ) := by positivity
  have hP0 : 0 < P := by linarith
  have hw := wrap_lt hP0 ((m:ℝ) * 2 ^ e)
  by_cases h4 : |(m:ℝ) * 2 ^ e| < 4
  · rw [wrap_of_lt (by linarith)]; linarith
  · have he : -61 ≤ e := by
      by_contra hc
      have h1 : (2:ℝ) ^ e ≤ 2 ^ (-62 : ℤ) := zpow_le_zpow_right₀ (by norm_num) (by omega)
      have h2 : |(m:ℝ)| < 2 ^ 64 := by exact_mod_cast hm
      rw [abs_mul, abs_of_pos (by positivity : (0:ℝ) < 2 ^ e)] at h4
      have h3 : |(m:ℝ)| * 2 ^ e < 2 ^ 64 * 2 ^ (-62 : ℤ) := by
        have : (0:ℝ) < 2 ^ e := by positivity
        nlinarith [abs_nonneg (m:ℝ)]
      norm_num at h3 h4; linarith
    obtain ⟨k, hk⟩ := Int.eq_ofNat_of_zero_le (by omega : 0 ≤ e + 61)
    have h5 : |(m:ℝ) * 2 ^ e| = ((|m| * 2 ^ k : ℤ) : ℝ) * 2 ^ (-61 : ℤ) := by
      rw [abs_mul, abs_of_pos (by positivity : (0:ℝ) < 2 ^ e), show e = (k:ℤ) + -61 by omega, zpow_add₀ (by norm_num), zpow_natCast]
      push_cast; ring
    rw [wrap] at *
    generalize ⌊|(m:ℝ) * 2 ^ e| / (2 * P)⌋₊ = j at *
    rw [h5, hPn] at *
    have h6 : ((|m| * 2 ^ k : ℤ) : ℝ) * 2 ^ (-61 : ℤ) - nP * 2 ^ (-61 : ℤ) * (j:ℝ) = ((|m| * 2 ^ k - nP * j : ℤ) : ℝ) * 2 ^ (-61 : ℤ) := by push_cast; ring
    rw [h6] at hw ⊢
    have h7 := lt_of_mul_lt_mul_right hw h61.le
    have h8 : |m| * 2 ^ k - nP * j + 1 ≤ nP := by exact_mod_cast h7
    have h9 : ((|m| * 2 ^ k - nP * j : ℤ) : ℝ) + 1 ≤ nP := by exact_mod_cast h8
    nlinarith

theorem wrap_le_x87l (m e : ℤ) (hm : |m| < 2 ^ 64) (h : S.rho = rhoBits 64) : wrap (ofR (FOps.lit 3.14159265358979323846264338327950288 : R S)) (m * 2 ^ e) ≤ 6.28125 + ofR (FOps.lit 0.0019353071795864769252867665590057683943 : R S) := by
  have e1 : ofR (FOps.lit 3.14159265358979323846264338327950288 : R S) = ((14488038916154245685 * 2 ^ (-62 : ℤ) : ℚ) : ℝ) := by show ((S.rho _ : ℚ) : ℝ) = _; rw [h, x87l_PI]
  have e2 : ofR (FOps.lit 0.0019353071795864769252867665590057683943 : R S) = ((18278459517872327756 * 2 ^ (-73 : ℤ) : ℚ) : ℝ) := by show ((S.rho _ : ℚ) : ℝ) = _; rw [h, x87l_P1]
  rw [e1, e2]
  refine (wrap_gap 14488038916154245685 (by norm_num) (by norm_num) m e hm).trans ?_
  norm_num

theorem wrap_le_b128l (x : ℝ) (h : S.rho = rhoBits 113) : wrap (ofR (FOps.lit 3.14159265358979323846264338327950288 : R S)) x ≤ 6.28125 + ofR (FOps.lit 0.0019353071795864769252867665590057683943 : R S) := by
  have e1 : ofR (FOps.lit 3.14159265358979323846264338327950288 : R S) = ((8156040833015188200833743081374136 * 2 ^ (-111 : ℤ) : ℚ) : ℝ) := by show ((S.rho _ : ℚ) : ℝ) = _; rw [h, b128l_PI]
  have e2 : ofR (FOps.lit 0.0019353071795864769252867665590057683943 : R S) = ((10289857934199563906859271764804506 * 2 ^ (-122 : ℤ) : ℚ) : ℝ) := by show ((S.rho _ : ℚ) : ℝ) = _; rw [h, b128l_P1]
  rw [e1, e2]
  refine (wrap_lt (by norm_num) x).le.trans ?_
  norm_num


/-- `Cl2`, literals within relative `u`: every argument -/
theorem C14_Cl2 {u : ℝ} (hS : S.Lit u) (hu : u ≤ 1e-6) (x : ℝ)
    (hw : wrap (ofR (FOps.lit 3.14159265358979323846264338327950288 : R S)) x ≤ 6.28125 + ofR (FOps.lit 0.0019353071795864769252867665590057683943 : R S)) :
    |ofR (Cl2l (toR S x)) - clausen 2 x| ≤ 416e-38 + 30 * u + (139e-36 + 104 * u) * |x| := by
  refine (Cl2l_acc hS hu x hw).trans ?_
  have hu0 := hS.u_nonneg
  have hd := abs_le.mp (PIl hS)
  have hpi := pi_gt
  have h := periods (x := x) (P := ofR (FOps.lit 3.14159265358979323846264338327950288 : R S)) (d := 4.2e-36 + 3.15 * u) (by linarith) (by linarith)
  have hx := abs_nonneg x
  have hux := mul_nonneg hu0 hx
  generalize 2 * (4.2e-36 + 3.15 * u) * (⌊|x| / (2 * ofR (FOps.lit 3.14159265358979323846264338327950288 : R S))⌋₊ : ℝ) = K at *
  nlinarith

/-- `Cl2` with the literals of the source text on the fundamental domain -/
theorem C14_Cl2_dec (h : S.rho = id) {x : ℝ} (hx : |x| ≤ 2 * Real.pi) : |ofR (Cl2l (toR S x)) - clausen 2 x| ≤ 88e-35 := by
  refine (C14_Cl2 (lit_id S h) (by norm_num) x (dec_wrapl x h)).trans ?_
  have := pi_lt
  linarith

/-- `Cl2` with the literals stored in binary64, every real argument -/
theorem C14_Cl2_binary64 (h : S.rho = rhoBits 53) (x : ℝ) : |ofR (Cl2l (toR S x)) - clausen 2 x| ≤ 334e-17 + 116e-16 * |x| := by
  refine (C14_Cl2 (RealSem.lit_of_bits (by norm_num) h) (by norm_num) _ (wrap_le_b64l x h)).trans ?_
  have hx := abs_nonneg x
  generalize |x| = y at hx ⊢
  norm_num; linarith

/-- `Cl2` with the literals stored in x87ext; the argument is any number with a 64-bit significand -/
theorem C14_Cl2_x87ext (h : S.rho = rhoBits 64) {m e : ℤ} (hm : |m| < 2 ^ 64) : |ofR (Cl2l (toR S (m * 2 ^ e : ℝ))) - clausen 2 (m * 2 ^ e : ℝ)| ≤ 163e-20 + 564e-20 * |(m * 2 ^ e : ℝ)| := by
  refine (C14_Cl2 (RealSem.lit_of_bits (by norm_num) h) (by norm_num) _ (wrap_le_x87l m e hm h)).trans ?_
  have hx := abs_nonneg (m * 2 ^ e : ℝ)
  generalize |(m * 2 ^ e : ℝ)| = y at hx ⊢
  norm_num; linarith

/-- `Cl2` with the literals stored in binary128, every real argument -/
theorem C14_Cl2_binary128 (h : S.rho = rhoBits 113) (x : ℝ) : |ofR (Cl2l (toR S x)) - clausen 2 x| ≤ 29e-34 + 102e-34 * |x| := by
  refine (C14_Cl2 (RealSem.lit_of_bits (by norm_num) h) (by norm_num) _ (wrap_le_b128l x h)).trans ?_
  have hx := abs_nonneg x
  generalize |x| = y at hx ⊢
  norm_num; linarith

/-- `Cl3`, literals within relative `u`: every argument -/
theorem C14_Cl3 {u : ℝ} (hS : S.Lit u) (hu : u ≤ 1e-6) (x : ℝ)
    (hw : wrap (ofR (FOps.lit 3.14159265358979323846264338327950288 : R S)) x ≤ 6.28125 + ofR (FOps.lit 0.0019353071795864769252867665590057683943 : R S)) :
    |ofR (Cl3l (toR S x)) - clausen 3 x| ≤ 173e-28 + 1141 * u + (28e-37 + 21e-1 * u) * |x| := by
  refine (Cl3l_acc hS hu x hw).trans ?_
  have hu0 := hS.u_nonneg
  have hd := abs_le.mp (PIl hS)
  have hpi := pi_gt
  have h := periods (x := x) (P := ofR (FOps.lit 3.14159265358979323846264338327950288 : R S)) (d := 4.2e-36 + 3.15 * u) (by linarith) (by linarith)
  have hx := abs_nonneg x
  have hux := mul_nonneg hu0 hx
  generalize 2 * (4.2e-36 + 3.15 * u) * (⌊|x| / (2 * ofR (FOps.lit 3.14159265358979323846264338327950288 : R S))⌋₊ : ℝ) = K at *
  nlinarith

/-- `Cl3` with the literals of the source text on the fundamental domain -/
theorem C14_Cl3_dec (h : S.rho = id) {x : ℝ} (hx : |x| ≤ 2 * Real.pi) : |ofR (Cl3l (toR S x)) - clausen 3 x| ≤ 174e-28 := by
  refine (C14_Cl3 (lit_id S h) (by norm_num) x (dec_wrapl x h)).trans ?_
  have := pi_lt
  linarith

/-- `Cl3` with the literals stored in binary64, every real argument -/
theorem C14_Cl3_binary64 (h : S.rho = rhoBits 53) (x : ℝ) : |ofR (Cl3l (toR S x)) - clausen 3 x| ≤ 127e-15 + 234e-18 * |x| := by
  refine (C14_Cl3 (RealSem.lit_of_bits (by norm_num) h) (by norm_num) _ (wrap_le_b64l x h)).trans ?_
  have hx := abs_nonneg x
  generalize |x| = y at hx ⊢
  norm_num; linarith

/-- `Cl3` with the literals stored in x87ext; the argument is any number with a 64-bit significand -/
theorem C14_Cl3_x87ext (h : S.rho = rhoBits 64) {m e : ℤ} (hm : |m| < 2 ^ 64) : |ofR (Cl3l (toR S (m * 2 ^ e : ℝ))) - clausen 3 (m * 2 ^ e : ℝ)| ≤ 619e-19 + 114e-21 * |(m * 2 ^ e : ℝ)| := by
  refine (C14_Cl3 (RealSem.lit_of_bits (by norm_num) h) (by norm_num) _ (wrap_le_x87l m e hm h)).trans ?_
  have hx := abs_nonneg (m * 2 ^ e : ℝ)
  generalize |(m * 2 ^ e : ℝ)| = y at hx ⊢
  norm_num; linarith

/-- `Cl3` with the literals stored in binary128, every real argument -/
theorem C14_Cl3_binary128 (h : S.rho = rhoBits 113) (x : ℝ) : |ofR (Cl3l (toR S x)) - clausen 3 x| ≤ 174e-28 + 206e-36 * |x| := by
  refine (C14_Cl3 (RealSem.lit_of_bits (by norm_num) h) (by norm_num) _ (wrap_le_b128l x h)).trans ?_
  have hx := abs_nonneg x
  generalize |x| = y at hx ⊢
  norm_num; linarith

/-- `Cl4`, literals within relative `u`: every argument -/
theorem C14_Cl4 {u : ℝ} (hS : S.Lit u) (hu : u ≤ 1e-6) (x : ℝ)
    (hw : wrap (ofR (FOps.lit 3.14159265358979323846264338327950288 : R S)) x ≤ 6.28125 + ofR (FOps.lit 0.0019353071795864769252867665590057683943 : R S)) :
    |ofR (Cl4l (toR S x)) - clausen 4 x| ≤ 27e-27 + 150 * u + (28e-37 + 21e-1 * u) * |x| := by
  refine (Cl4l_acc hS hu x hw).trans ?_
  have hu0 := hS.u_nonneg
  have hd := abs_le.mp (PIl hS)
  have hpi := pi_gt
  have h := periods (x := x) (P := ofR (FOps.lit 3.14159265358979323846264338327950288 : R S)) (d := 4.2e-36 + 3.15 * u) (by linarith) (by linarith)
  have hx := abs_nonneg x
  have hux := mul_nonneg hu0 hx
  generalize 2 * (4.2e-36 + 3.15 * u) * (⌊|x| / (2 * ofR (FOps.lit 3.14159265358979323846264338327950288 : R S))⌋₊ : ℝ) = K at *
  nlinarith

/-- `Cl4` with the literals of the source text on the fundamental domain -/
theorem C14_Cl4_dec (h : S.rho = id) {x : ℝ} (hx : |x| ≤ 2 * Real.pi) : |ofR (Cl4l (toR S x)) - clausen 4 x| ≤ 271e-28 := by
  refine (C14_Cl4 (lit_id S h) (by norm_num) x (dec_wrapl x h)).trans ?_
  have := pi_lt
  linarith

/-- `Cl4` with the literals stored in binary64, every real argument -/
theorem C14_Cl4_binary64 (h : S.rho = rhoBits 53) (x : ℝ) : |ofR (Cl4l (toR S x)) - clausen 4 x| ≤ 167e-16 + 234e-18 * |x| := by
  refine (C14_Cl4 (RealSem.lit_of_bits (by norm_num) h) (by norm_num) _ (wrap_le_b64l x h)).trans ?_
  have hx := abs_nonneg x
  generalize |x| = y at hx ⊢
  norm_num; linarith

/-- `Cl4` with the literals stored in x87ext; the argument is any number with a 64-bit significand -/
theorem C14_Cl4_x87ext (h : S.rho = rhoBits 64) {m e : ℤ} (hm : |m| < 2 ^ 64) : |ofR (Cl4l (toR S (m * 2 ^ e : ℝ))) - clausen 4 (m * 2 ^ e : ℝ)| ≤ 814e-20 + 114e-21 * |(m * 2 ^ e : ℝ)| := by
  refine (C14_Cl4 (RealSem.lit_of_bits (by norm_num) h) (by norm_num) _ (wrap_le_x87l m e hm h)).trans ?_
  have hx := abs_nonneg (m * 2 ^ e : ℝ)
  generalize |(m * 2 ^ e : ℝ)| = y at hx ⊢
  norm_num; linarith

/-- `Cl4` with the literals stored in binary128, every real argument -/
theorem C14_Cl4_binary128 (h : S.rho = rhoBits 113) (x : ℝ) : |ofR (Cl4l (toR S x)) - clausen 4 x| ≤ 271e-28 + 206e-36 * |x| := by
  refine (C14_Cl4 (RealSem.lit_of_bits (by norm_num) h) (by norm_num) _ (wrap_le_b128l x h)).trans ?_
  have hx := abs_nonneg x
  generalize |x| = y at hx ⊢
  norm_num; linarith

/-- `Cl5`, literals within relative `u`: every argument -/
theorem C14_Cl5 {u : ℝ} (hS : S.Lit u) (hu : u ≤ 1e-6) (x : ℝ)
    (hw : wrap (ofR (FOps.lit 3.14159265358979323846264338327950288 : R S)) x ≤ 6.28125 + ofR (FOps.lit 0.0019353071795864769252867665590057683943 : R S)) :
    |ofR (Cl5l (toR S x)) - clausen 5 x| ≤ 313e-28 + 1531 * u + (28e-37 + 21e-1 * u) * |x| := by
  refine (Cl5l_acc hS hu x hw).trans ?_
  have hu0 := hS.u_nonneg
  have hd := abs_le.mp (PIl hS)
  have hpi := pi_gt
  have h := periods (x := x) (P := ofR (FOps.lit 3.14159265358979323846264338327950288 : R S)) (d := 4.2e-36 + 3.15 * u) (by linarith) (by linarith)
  have hx := abs_nonneg x
  have hux := mul_nonneg hu0 hx
  generalize 2 * (4.2e-36 + 3.15 * u) * (⌊|x| / (2 * ofR (FOps.lit 3.14159265358979323846264338327950288 : R S))⌋₊ : ℝ) = K at *
  nlinarith

/-- `Cl5` with the literals of the source text on the fundamental domain -/
theorem C14_Cl5_dec (h : S.rho = id) {x : ℝ} (hx : |x| ≤ 2 * Real.pi) : |ofR (Cl5l (toR S x)) - clausen 5 x| ≤ 314e-28 := by
  refine (C14_Cl5 (lit_id S h) (by norm_num) x (dec_wrapl x h)).trans ?_
  have := pi_lt
  linarith

/-- `Cl5` with the literals stored in binary64, every real argument -/
theorem C14_Cl5_binary64 (h : S.rho = rhoBits 53) (x : ℝ) : |ofR (Cl5l (toR S x)) - clausen 5 x| ≤ 17e-14 + 234e-18 * |x| := by
  refine (C14_Cl5 (RealSem.lit_of_bits (by norm_num) h) (by norm_num) _ (wrap_le_b64l x h)).trans ?_
  have hx := abs_nonneg x
  generalize |x| = y at hx ⊢
  norm_num; linarith

/-- `Cl5` with the literals stored in x87ext; the argument is any number with a 64-bit significand -/
theorem C14_Cl5_x87ext (h : S.rho = rhoBits 64) {m e : ℤ} (hm : |m| < 2 ^ 64) : |ofR (Cl5l (toR S (m * 2 ^ e : ℝ))) - clausen 5 (m * 2 ^ e : ℝ)| ≤ 83e-18 + 114e-21 * |(m * 2 ^ e : ℝ)| := by
  refine (C14_Cl5 (RealSem.lit_of_bits (by norm_num) h) (by norm_num) _ (wrap_le_x87l m e hm h)).trans ?_
  have hx := abs_nonneg (m * 2 ^ e : ℝ)
  generalize |(m * 2 ^ e : ℝ)| = y at hx ⊢
  norm_num; linarith

/-- `Cl5` with the literals stored in binary128, every real argument -/
theorem C14_Cl5_binary128 (h : S.rho = rhoBits 113) (x : ℝ) : |ofR (Cl5l (toR S x)) - clausen 5 x| ≤ 314e-28 + 206e-36 * |x| := by
  refine (C14_Cl5 (RealSem.lit_of_bits (by norm_num) h) (by norm_num) _ (wrap_le_b128l x h)).trans ?_
  have hx := abs_nonneg x
  generalize |x| = y at hx ⊢
  norm_num; linarith

/-- `Cl6`, literals within relative `u`: every argument -/
theorem C14_Cl6 {u : ℝ} (hS : S.Lit u) (hu : u ≤ 1e-6) (x : ℝ)
    (hw : wrap (ofR (FOps.lit 3.14159265358979323846264338327950288 : R S)) x ≤ 6.28125 + ofR (FOps.lit 0.0019353071795864769252867665590057683943 : R S)) :
    |ofR (Cl6l (toR S x)) - clausen 6 x| ≤ 302e-28 + 2231 * u + (28e-37 + 21e-1 * u) * |x| := by
  refine (Cl6l_acc hS hu x hw).trans ?_
  have hu0 := hS.u_nonneg
  have hd := abs_le.mp (PIl hS)
  have hpi := pi_gt
  have h := periods (x := x) (P := ofR (FOps.lit 3.14159265358979323846264338327950288 : R S)) (d := 4.2e-36 + 3.15 * u) (by linarith) (by linarith)
  have hx := abs_nonneg x
  have hux := mul_nonneg hu0 hx
  generalize 2 * (4.2e-36 + 3.15 * u) * (⌊|x| / (2 * ofR (FOps.lit 3.14159265358979323846264338327950288 : R S))⌋₊ : ℝ) = K at *
  nlinarith

/-- `Cl6` with the literals of the source text on the fundamental domain -/
theorem C14_Cl6_dec (h : S.rho = id) {x : ℝ} (hx : |x| ≤ 2 * Real.pi) : |ofR (Cl6l (toR S x)) - clausen 6 x| ≤ 303e-28 := by
  refine (C14_Cl6 (lit_id S h) (by norm_num) x (dec_wrapl x h)).trans ?_
  have := pi_lt
  linarith

/-- `Cl6` with the literals stored in binary64, every real argument -/
theorem C14_Cl6_binary64 (h : S.rho = rhoBits 53) (x : ℝ) : |ofR (Cl6l (toR S x)) - clausen 6 x| ≤ 248e-15 + 234e-18 * |x| := by
  refine (C14_Cl6 (RealSem.lit_of_bits (by norm_num) h) (by norm_num) _ (wrap_le_b64l x h)).trans ?_
  have hx := abs_nonneg x
  generalize |x| = y at hx ⊢
  norm_num; linarith

/-- `Cl6` with the literals stored in x87ext; the argument is any number with a 64-bit significand -/
theorem C14_Cl6_x87ext (h : S.rho = rhoBits 64) {m e : ℤ} (hm : |m| < 2 ^ 64) : |ofR (Cl6l (toR S (m * 2 ^ e : ℝ))) - clausen 6 (m * 2 ^ e : ℝ)| ≤ 121e-18 + 114e-21 * |(m * 2 ^ e : ℝ)| := by
  refine (C14_Cl6 (RealSem.lit_of_bits (by norm_num) h) (by norm_num) _ (wrap_le_x87l m e hm h)).trans ?_
  have hx := abs_nonneg (m * 2 ^ e : ℝ)
  generalize |(m * 2 ^ e : ℝ)| = y at hx ⊢
  norm_num; linarith

/-- `Cl6` with the literals stored in binary128, every real argument -/
theorem C14_Cl6_binary128 (h : S.rho = rhoBits 113) (x : ℝ) : |ofR (Cl6l (toR S x)) - clausen 6 x| ≤ 303e-28 + 206e-36 * |x| := by
  refine (C14_Cl6 (RealSem.lit_of_bits (by norm_num) h) (by norm_num) _ (wrap_le_b128l x h)).trans ?_
  have hx := abs_nonneg x
  generalize |x| = y at hx ⊢
  norm_num; linarith

/-! the hypotheses are met, for instance at `x = 2` and, in the compiled formats, at `x = 5` -/
example : |ofR (Cl2l (toR RealSem.dec 2)) - clausen 2 2| ≤ 88e-35 := C14_Cl2_dec rfl (by rw [abs_of_pos (by norm_num)]; linarith [pi_gt])
example : |ofR (Cl5l (toR (RealSem.bits 64) (5 * 2 ^ (-1 : ℤ)))) - clausen 5 (5 * 2 ^ (-1 : ℤ))| ≤ 83e-18 + 114e-21 * |(5 * 2 ^ (-1 : ℤ) : ℝ)| := by
  have := C14_Cl5_x87ext (S := RealSem.bits 64) rfl (m := 5) (e := -1) (by norm_num)
  exact_mod_cast this

end Polylog
