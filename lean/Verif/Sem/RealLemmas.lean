import Verif.Sem.Real
import Verif.Sem.Attr

/-! # Translation of model operations over `R S` to `ℝ` and `ℂ` -/

noncomputable section

namespace Polylog
open Classical

variable {S : RealSem}

@[rsem, simp] theorem ofR_toR (x : ℝ) : ofR (toR S x) = x := rfl
@[simp] theorem toR_ofR (x : R S) : toR S (ofR x) = x := rfl
@[rsem] theorem ofR_add (a b : R S) : ofR (a +. b) = ofR a + ofR b := rfl
@[rsem] theorem ofR_sub (a b : R S) : ofR (a -. b) = ofR a - ofR b := rfl
@[rsem] theorem ofR_mul (a b : R S) : ofR (a *. b) = ofR a * ofR b := rfl
@[rsem] theorem ofR_neg (a : R S) : ofR (∸a) = -ofR a := rfl
@[rsem] theorem ofR_lit (q : ℚ) : ofR (FOps.lit q : R S) = (S.rho q : ℝ) := rfl
@[rsem] theorem ofR_ofInt (n : ℤ) : ofR (FOps.ofInt n : R S) = (n : ℝ) := rfl
@[rsem] theorem ofR_ite (c : Prop) [Decidable c] (a b : R S) :
    ofR (if c then a else b) = if c then ofR a else ofR b := by split <;> rfl
theorem ofR_div' (a b : R S) : ofR (a /. b) = if ofR b = 0 then S.divJ (ofR a) else ofR a / ofR b := rfl
theorem ofR_div {a b : R S} (h : ofR b ≠ 0) : ofR (a /. b) = ofR a / ofR b := by
  rw [ofR_div', if_neg h]
@[rsem] theorem lt_R (a b : R S) : (a <. b) = decide (ofR a < ofR b) := rfl
@[rsem] theorem le_R (a b : R S) : (a <=. b) = decide (ofR a ≤ ofR b) := rfl
@[rsem] theorem eq_R (a b : R S) : (a ==. b) = decide (ofR a = ofR b) := rfl
@[rsem] theorem gt_R (a b : R S) : (a >. b) = decide (ofR b < ofR a) := rfl
@[rsem] theorem ge_R (a b : R S) : (a >=. b) = decide (ofR b ≤ ofR a) := rfl
theorem ofR_log' (a : R S) : ofR (FOps.log a) = if 0 < ofR a then Real.log (ofR a) else S.logJ (ofR a) := rfl
theorem ofR_log {a : R S} (h : 0 < ofR a) : ofR (FOps.log a) = Real.log (ofR a) := by
  rw [ofR_log', if_pos h]
@[rsem] theorem xlog_R (a : R S) : (xlog a : R S) = FOps.log a := rfl
theorem ofR_log1p {a : R S} (h : -1 < ofR a) : ofR (FOps.log1p a) = Real.log (1 + ofR a) := by
  show (if -1 < ofR a then Real.log (1 + ofR a) else S.log1pJ (ofR a)) = _
  rw [if_pos h]
@[rsem] theorem ofR_sin (a : R S) : ofR (FOps.sin a) = Real.sin (ofR a) := rfl
@[rsem] theorem ofR_cos (a : R S) : ofR (FOps.cos a) = Real.cos (ofR a) := rfl
@[rsem] theorem ofR_atan (a : R S) : ofR (FOps.atan a) = Real.arctan (ofR a) := rfl
@[rsem] theorem ofR_inf : ofR (FOps.inf : R S) = S.inf := rfl
@[rsem] theorem ofR_nan : ofR (FOps.nan : R S) = S.nan := rfl
@[rsem] theorem ofR_eps : ofR (FOps.eps : R S) = S.eps := rfl
@[rsem] theorem isnan_R (a : R S) : FOps.isnan a = false := rfl
@[rsem] theorem isinf_R (a : R S) : FOps.isinf a = false := rfl
@[rsem] theorem isfinite_R (a : R S) : FOps.isfinite a = true := rfl
@[rsem] theorem ofR_hypot (a b : R S) : ofR (FOps.hypot a b) = Real.sqrt (ofR a ^ 2 + ofR b ^ 2) := rfl

/-! ### complex -/

@[rsem, simp] theorem toC_ofC (z : ℂ) : (ofC S z).toC = z := rfl
@[simp] theorem ofC_toC (z : Cx (R S)) : ofC S z.toC = z := rfl
@[rsem] theorem toC_mk (a b : R S) : (Cx.mk a b).toC = ⟨ofR a, ofR b⟩ := rfl
@[rsem] theorem ofR_re (z : Cx (R S)) : ofR z.re = z.toC.re := rfl
@[rsem] theorem ofR_im (z : Cx (R S)) : ofR z.im = z.toC.im := rfl
@[rsem] theorem toC_ite (c : Prop) [Decidable c] (a b : Cx (R S)) :
    (if c then a else b).toC = if c then a.toC else b.toC := by split <;> rfl
@[rsem] theorem toC_add (a b : Cx (R S)) : (a +. b).toC = a.toC + b.toC := rfl
@[rsem] theorem toC_sub (a b : Cx (R S)) : (a -. b).toC = a.toC - b.toC := rfl
@[rsem] theorem toC_neg (a : Cx (R S)) : (∸a).toC = -a.toC := rfl
@[rsem] theorem toC_addr (a : Cx (R S)) (b : R S) : (a +. b).toC = a.toC + (ofR b : ℂ) := by
  apply Complex.ext
  · simp; rfl
  · simp; rfl
@[rsem] theorem toC_radd (a : R S) (b : Cx (R S)) : (a +. b).toC = (ofR a : ℂ) + b.toC := by
  apply Complex.ext
  · simp only [Complex.add_re, Complex.ofReal_re]; rw [add_comm]; rfl
  · simp; rfl
@[rsem] theorem toC_subr (a : Cx (R S)) (b : R S) : (a -. b).toC = a.toC - (ofR b : ℂ) := by
  apply Complex.ext
  · simp; rfl
  · simp; rfl
@[rsem] theorem toC_rsub (a : R S) (b : Cx (R S)) : (a -. b).toC = (ofR a : ℂ) - b.toC := by
  apply Complex.ext
  · simp; rfl
  · simp; rfl
@[rsem] theorem toC_mul (a b : Cx (R S)) : (a *. b).toC = a.toC * b.toC := by
  apply Complex.ext
  · simp; rfl
  · simp; rfl
@[rsem] theorem toC_mulr (a : Cx (R S)) (b : R S) : (a *. b).toC = a.toC * (ofR b : ℂ) := by
  apply Complex.ext
  · simp; rfl
  · simp; rfl
@[rsem] theorem toC_rmul (a : R S) (b : Cx (R S)) : (a *. b).toC = (ofR a : ℂ) * b.toC := by
  apply Complex.ext
  · simp only [Complex.re_ofReal_mul]; rw [mul_comm]; rfl
  · simp only [Complex.im_ofReal_mul]; rw [mul_comm]; rfl
theorem toC_div {a b : Cx (R S)} (h : b.toC ≠ 0) : (a /. b).toC = a.toC / b.toC := by
  have : (a /. b) = (let r := (if b.toC = 0 then cPair (S.cdivJ a.toC) else cPair (a.toC / b.toC)); (⟨r.1, r.2⟩ : Cx (R S))) := rfl
  rw [this, if_neg h]; rfl
theorem toC_rdiv {a : R S} {b : Cx (R S)} (h0 : S.rho 0 = 0) (h : b.toC ≠ 0) :
    (a /. b).toC = (ofR a : ℂ) / b.toC := by
  have : (a /. b) = (let r := (if b.toC = 0 then cPair (S.cdivJ ⟨ofR a, (S.rho 0 : ℝ)⟩)
    else cPair ((⟨ofR a, (S.rho 0 : ℝ)⟩ : ℂ) / b.toC)); (⟨r.1, r.2⟩ : Cx (R S))) := rfl
  rw [this, if_neg h, h0]
  have h2 : (⟨ofR a, ((0 : ℚ) : ℝ)⟩ : ℂ) = (ofR a : ℂ) := by simp [Complex.ext_iff]
  rw [h2]; rfl
theorem toC_divr {a : Cx (R S)} {b : R S} (h : ofR b ≠ 0) : (a /. b).toC = a.toC / (ofR b : ℂ) := by
  apply Complex.ext
  · rw [Complex.div_ofReal_re]; exact ofR_div h
  · rw [Complex.div_ofReal_im]; exact ofR_div h
@[rsem] theorem ofR_norm (z : Cx (R S)) : ofR (Cx.norm z) = Complex.normSq z.toC := rfl
@[rsem] theorem ofR_abs (z : Cx (R S)) : ofR (Cx.abs z) = ‖z.toC‖ := by
  rw [Cx.abs, ofR_hypot, Complex.norm_eq_sqrt_sq_add_sq]; rfl
theorem ofR_arg {z : Cx (R S)} (h : z.toC ≠ 0) : ofR (Cx.arg z) = Complex.arg z.toC := by
  show (if ofR z.re = 0 ∧ ofR z.im = 0 then S.atan2J else Complex.arg ⟨ofR z.re, ofR z.im⟩) = _
  rw [if_neg]; · rfl
  · rintro ⟨h1, h2⟩; exact h (Complex.ext h1 h2)
theorem toC_log {z : Cx (R S)} (h : z.toC ≠ 0) : (xlog z : Cx (R S)).toC = Complex.log z.toC := by
  apply Complex.ext
  · show ofR (FOps.log (Cx.abs z)) = _
    rw [ofR_log (by rw [ofR_abs]; exact norm_pos_iff.mpr h), ofR_abs, Complex.log_re]
  · show ofR (Cx.arg z) = _
    rw [ofR_arg h, Complex.log_im]
@[rsem] theorem toC_sqrt (z : Cx (R S)) : (Cx.sqrt z).toC = z.toC ^ (1 / 2 : ℂ) := rfl
theorem toC_pow {z : Cx (R S)} {n : ℤ} (h : z.toC ≠ 0 ∨ 0 < n) : (Cx.pow z n).toC = z.toC ^ n := by
  have : Cx.pow z n = (let r := (if z.toC = 0 ∧ n ≤ 0 then cPair (S.cpowJ n) else cPair (z.toC ^ n)); (⟨r.1, r.2⟩ : Cx (R S))) := rfl
  rw [this, if_neg]; · rfl
  · rintro ⟨h1, h2⟩
    rcases h with h | h
    · exact h h1
    · omega
@[rsem] theorem beq_R (a b : Cx (R S)) : Cx.beq a b = decide (a.toC = b.toC) := by
  rw [Cx.beq, eq_R, eq_R, ← Bool.decide_and, ofR_re, ofR_im, ofR_re, ofR_im, decide_eq_decide]
  exact Complex.ext_iff.symm
theorem beqr_R (h0 : S.rho 0 = 0) (a : Cx (R S)) (b : R S) : Cx.beqr a b = decide (a.toC = (ofR b : ℂ)) := by
  rw [Cx.beqr, eq_R, eq_R, ← Bool.decide_and, decide_eq_decide, ofR_re, ofR_im, ofR_lit, h0, Complex.ext_iff]
  simp
@[rsem] theorem toC_ofReal (h0 : S.rho 0 = 0) (x : R S) : (Cx.ofReal x).toC = (ofR x : ℂ) := by
  apply Complex.ext
  · rfl
  · show ((S.rho 0 : ℚ) : ℝ) = _
    rw [h0]; simp

end Polylog
