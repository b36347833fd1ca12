import Verif.Props.FPParity
import Verif.Props.Li6Cx
import Verif.Props.Li5Cx
import Verif.Props.Li4Cx
import Verif.Props.Li3Cx
import Verif.Model.Li4
import Verif.Model.Cl1

/-! # C29: special points, in floating-point arithmetic

The values returned at the special points by the actual floating-point program: `float` = binary32, `double` = binary64,
`long double` = x87 extended (coefficient sets for LDBL_DIG ≤ 18) or binary128 (LDBL_DIG > 18), any C library. -/

noncomputable section
namespace Polylog

variable {φ : Fmt} {L : Lib}

/-- `r` is a finite floating-point number that differs from the real number `x` by at most `ε` -/
def FNear (r : FP φ L) (x ε : ℝ) : Prop := ∃ s v, r = toF φ L (.fin s v) ∧ |((sval s v : ℚ) : ℝ) - x| ≤ ε

/-- computable version of `FNear` -/
def nearQ (r : FV) (q e : ℚ) : Bool :=
  match r with
  | .fin s v => decide (|sval s v - q| ≤ e)
  | _ => false

theorem near_of {r : FP φ L} {q e : ℚ} {x d ε : ℝ} (hx : |x - (q : ℝ)| ≤ d) (h : nearQ (ofF r) q e = true) (he : (e : ℝ) + d ≤ ε) :
    FNear r x ε := by
  change FNear (toF φ L (ofF r)) x ε
  generalize ofF r = r at *
  cases r with
  | nan => simp [nearQ] at h
  | inf => simp [nearQ] at h
  | fin s v =>
    refine ⟨s, v, rfl, ?_⟩
    simp only [nearQ, decide_eq_true_eq] at h
    have h' : |((sval s v : ℚ) : ℝ) - q| ≤ e := by
      have := (Rat.cast_le (K := ℝ)).mpr h
      push_cast at this ⊢; exact this
    calc |((sval s v : ℚ) : ℝ) - x| ≤ |((sval s v : ℚ) : ℝ) - q| + |(q : ℝ) - x| := abs_sub_le _ _ _
      _ ≤ e + d := add_le_add h' (by rw [abs_sub_comm]; exact hx)
      _ ≤ ε := he

/-- `Li_n(1)` -/
theorem near_one (n : ℕ) (hn : n < 5) {r : FP φ L} {e : ℚ} {ε : ℝ} (h : nearQ (ofF r) (zA.getD (n + 2) 0) e = true) (he : (e : ℝ) + 6e-42 ≤ ε) :
    FNear r (pLi (n + 2) 1).re ε := by
  rw [pLi_one_re]
  exact near_of (zA_approx n hn) h he

/-- `Li_n(-1)` -/
theorem near_mone (n : ℕ) (hn : n < 5) {r : FP φ L} {e : ℚ} {ε : ℝ} (h : nearQ (ofF r) (-(1 - (1 / 2) ^ (n + 1)) * zA.getD (n + 2) 0) e = true)
    (he : (e : ℝ) + 6e-42 ≤ ε) : FNear r (pLi (n + 2) (-1)).re ε := by
  refine near_of ?_ h he
  rw [pLi_neg_one_re, Complex.ofReal_re]
  have h1 := zA_approx n hn
  have h2 : (0:ℝ) ≤ (1 / 2) ^ (n + 1) := by positivity
  have h3 : ((1 / 2) ^ (n + 1) : ℝ) ≤ 1 := pow_le_one₀ (by norm_num) (by norm_num)
  push_cast
  rw [← mul_sub, abs_mul, abs_neg, abs_of_nonneg (by linarith)]
  calc _ ≤ 1 * 6e-42 := mul_le_mul (by linarith) h1 (abs_nonneg _) (by norm_num)
    _ = _ := by norm_num

theorem near_half {r : FP φ L} {e : ℚ} {ε : ℝ} (h : nearQ (ofF r) 0.537213193608040200940623225594965827 e = true)
    (he : (e : ℝ) + 6e-37 ≤ ε) : FNear r (pLi 3 (1 / 2)).re ε := by
  have h2 : (pLi 3 (1 / 2)).re = reLi (1 + 2) (1 / 2) := by
    rw [reLi]; congr 2; push_cast; rfl
  rw [h2]
  exact near_of reLi_three_half h he

theorem lit_one : rndQ φ 1 = .fin false 1 := by
  rw [rndQ_nonneg (by norm_num)]
  refine rnd_repr _ (by simpa using repr_two_pow (φ := φ) (e := 0) φ.hmin) ?_
  have h3 : (2 : ℚ) ^ (3 : ℤ) ≤ 2 ^ φ.emax := zpow_le_zpow_right₀ (by norm_num) φ.hmax
  norm_num at h3; linarith

/-- the floating-point numbers `1`, `-1`, `±0`, `1/2` -/
def f1 (φ : Fmt) (L : Lib) : FP φ L := toF φ L (.fin false 1)
def fm1 (φ : Fmt) (L : Lib) : FP φ L := toF φ L (.fin true 1)
def f0 (φ : Fmt) (L : Lib) (s : Bool) : FP φ L := toF φ L (.fin s 0)
def fh (φ : Fmt) (L : Lib) : FP φ L := toF φ L (.fin false (1 / 2))

theorem f0_lt (s : Bool) : (f0 φ L s <. ∸(FOps.lit 1 : FP φ L)) = false := by
  rw [lt_F, ofF_neg, ofF_lit, lit_one]; simp [f0, FV.lt, FV.neg, sval]
theorem f0_eq (s : Bool) : (f0 φ L s ==. ∸(FOps.lit 1 : FP φ L)) = false := by
  rw [eq_F, ofF_neg, ofF_lit, lit_one]; simp [f0, FV.eq, FV.neg, sval]
theorem f0_lt0 (s : Bool) : (f0 φ L s <. (FOps.lit 0 : FP φ L)) = false := by
  rw [lt_F, ofF_lit, rndQ_zero]; simp [f0, FV.lt, sval]
theorem f0_eq0 (s : Bool) : (f0 φ L s ==. (FOps.lit 0 : FP φ L)) = true := (isZ_iff _).mpr ⟨s, rfl⟩

/-! ### Argument zero: returned unchanged, with its sign -/

/-- **C29**: every real function returns a zero argument unchanged (either sign), in every format and with every library. -/
theorem C29_zero (φ : Fmt) (L : Lib) (s : Bool) :
    Li2f (f0 φ L s) = f0 φ L s ∧ Li2d (f0 φ L s) = f0 φ L s ∧ Li2l18 (f0 φ L s) = f0 φ L s ∧ Li2l36 (f0 φ L s) = f0 φ L s ∧
    Li3d (f0 φ L s) = f0 φ L s ∧ Li4d (f0 φ L s) = f0 φ L s := by
  refine ⟨?_, ?_, ?_, ?_, ?_, ?_⟩
  · simp only [Li2f, f0_lt, f0_eq, f0_lt0, f0_eq0, Bool.false_eq_true, if_false, if_true]
  · simp only [Li2d, f0_lt, f0_eq, f0_lt0, f0_eq0, Bool.false_eq_true, if_false, if_true]
  · simp only [Li2l18, Li2l, f0_lt, f0_eq, f0_lt0, f0_eq0, Bool.false_eq_true, if_false, if_true]
  · simp only [Li2l36, Li2l, f0_lt, f0_eq, f0_lt0, f0_eq0, Bool.false_eq_true, if_false, if_true]
  · simp only [Li3d, f0_lt, f0_eq, f0_lt0, f0_eq0, Bool.false_eq_true, if_false, if_true]
  · simp only [Li4d, f0_lt, f0_eq, f0_eq0, Bool.false_eq_true, if_false, if_true]

/-- **C29**: every complex function returns `±0 ± 0 i` unchanged. -/
theorem C29_zero_complex (φ : Fmt) (L : Lib) (s t : Bool) :
    let z : Cx (FP φ L) := ⟨f0 φ L s, f0 φ L t⟩
    cLi3l18 z = z ∧ cLi3l36 z = z ∧ cLi4l18 z = z ∧ cLi4l36 z = z ∧ cLi5d z = z ∧ cLi5l18 z = z ∧ cLi5l36 z = z ∧
    cLi6d z = z ∧ cLi6l18 z = z ∧ cLi6l36 z = z := by
  refine ⟨?_, ?_, ?_, ?_, ?_, ?_, ?_, ?_, ?_, ?_⟩
  · simp only [cLi3l18, cLi3l, f0_eq0, Bool.and_self, if_true]
  · simp only [cLi3l36, cLi3l, f0_eq0, Bool.and_self, if_true]
  · simp only [cLi4l18, cLi4l, f0_eq0, Bool.and_self, if_true]
  · simp only [cLi4l36, cLi4l, f0_eq0, Bool.and_self, if_true]
  · simp only [cLi5d, f0_eq0, Bool.and_self, if_true]
  · simp only [cLi5l18, cLi5l, f0_eq0, Bool.and_self, if_true]
  · simp only [cLi5l36, cLi5l, f0_eq0, Bool.and_self, if_true]
  · simp only [cLi6d, f0_eq0, Bool.and_self, if_true]
  · simp only [cLi6l18, cLi6l, f0_eq0, Bool.and_self, if_true]
  · simp only [cLi6l36, cLi6l, f0_eq0, Bool.and_self, if_true]

/-! ### Arguments `1`, `-1`, `1/2` -/

theorem lit_half (h : φ.emin ≤ -1) : rndQ φ 0.5 = .fin false (1 / 2) := by
  rw [rndQ_nonneg (by norm_num), show (0.5 : ℚ) = 2 ^ (-1 : ℤ) by norm_num, rnd_repr _ (repr_two_pow h) ?_]
  · norm_num
  · have h3 : (2 : ℚ) ^ (3 : ℤ) ≤ 2 ^ φ.emax := zpow_le_zpow_right₀ (by norm_num) φ.hmax
    norm_num at h3 ⊢; linarith

/-- formats in which `1/2` is a number (all the formats of C++ implementations) -/
class HalfOK (φ : Fmt) : Prop where
  h : φ.emin ≤ -1
instance : HalfOK binary32 := ⟨by decide⟩
instance : HalfOK binary64 := ⟨by decide⟩
instance : HalfOK x87ext := ⟨by decide⟩
instance : HalfOK binary128 := ⟨by decide⟩

theorem f1_lt_m1 : (f1 φ L <. ∸(FOps.lit 1 : FP φ L)) = false := by
  rw [lt_F, ofF_neg, ofF_lit, lit_one]; norm_num [f1, FV.lt, FV.neg, sval]
theorem f1_eq_m1 : (f1 φ L ==. ∸(FOps.lit 1 : FP φ L)) = false := by
  rw [eq_F, ofF_neg, ofF_lit, lit_one]; norm_num [f1, FV.eq, FV.neg, sval]
theorem f1_le_m1 : (f1 φ L <=. ∸(FOps.lit 1 : FP φ L)) = false := by
  rw [le_F, ofF_neg, ofF_lit, lit_one]; norm_num [f1, FV.le, FV.neg, sval]
theorem f1_lt_z : (f1 φ L <. (FOps.lit 0 : FP φ L)) = false := by
  rw [lt_F, ofF_lit, rndQ_zero]; norm_num [f1, FV.lt, FV.neg, sval]
theorem f1_eq_z : (f1 φ L ==. (FOps.lit 0 : FP φ L)) = false := by
  rw [eq_F, ofF_lit, rndQ_zero]; norm_num [f1, FV.eq, FV.neg, sval]
theorem f1_le_z : (f1 φ L <=. (FOps.lit 0 : FP φ L)) = false := by
  rw [le_F, ofF_lit, rndQ_zero]; norm_num [f1, FV.le, FV.neg, sval]
theorem f1_lt_h [HalfOK φ] : (f1 φ L <. (FOps.lit 0.5 : FP φ L)) = false := by
  rw [lt_F, ofF_lit, lit_half HalfOK.h]; norm_num [f1, FV.lt, FV.neg, sval]
theorem f1_eq_h [HalfOK φ] : (f1 φ L ==. (FOps.lit 0.5 : FP φ L)) = false := by
  rw [eq_F, ofF_lit, lit_half HalfOK.h]; norm_num [f1, FV.eq, FV.neg, sval]
theorem f1_le_h [HalfOK φ] : (f1 φ L <=. (FOps.lit 0.5 : FP φ L)) = false := by
  rw [le_F, ofF_lit, lit_half HalfOK.h]; norm_num [f1, FV.le, FV.neg, sval]
theorem f1_lt_o : (f1 φ L <. (FOps.lit 1 : FP φ L)) = false := by
  rw [lt_F, ofF_lit, lit_one]; norm_num [f1, FV.lt, FV.neg, sval]
theorem f1_eq_o : (f1 φ L ==. (FOps.lit 1 : FP φ L)) = true := by
  rw [eq_F, ofF_lit, lit_one]; norm_num [f1, FV.eq, FV.neg, sval]
theorem f1_le_o : (f1 φ L <=. (FOps.lit 1 : FP φ L)) = true := by
  rw [le_F, ofF_lit, lit_one]; norm_num [f1, FV.le, FV.neg, sval]
theorem fm1_lt_m1 : (fm1 φ L <. ∸(FOps.lit 1 : FP φ L)) = false := by
  rw [lt_F, ofF_neg, ofF_lit, lit_one]; norm_num [fm1, FV.lt, FV.neg, sval]
theorem fm1_eq_m1 : (fm1 φ L ==. ∸(FOps.lit 1 : FP φ L)) = true := by
  rw [eq_F, ofF_neg, ofF_lit, lit_one]; norm_num [fm1, FV.eq, FV.neg, sval]
theorem fm1_le_m1 : (fm1 φ L <=. ∸(FOps.lit 1 : FP φ L)) = true := by
  rw [le_F, ofF_neg, ofF_lit, lit_one]; norm_num [fm1, FV.le, FV.neg, sval]
theorem fm1_lt_z : (fm1 φ L <. (FOps.lit 0 : FP φ L)) = true := by
  rw [lt_F, ofF_lit, rndQ_zero]; norm_num [fm1, FV.lt, FV.neg, sval]
theorem fm1_eq_z : (fm1 φ L ==. (FOps.lit 0 : FP φ L)) = false := by
  rw [eq_F, ofF_lit, rndQ_zero]; norm_num [fm1, FV.eq, FV.neg, sval]
theorem fm1_le_z : (fm1 φ L <=. (FOps.lit 0 : FP φ L)) = true := by
  rw [le_F, ofF_lit, rndQ_zero]; norm_num [fm1, FV.le, FV.neg, sval]
theorem fm1_lt_h [HalfOK φ] : (fm1 φ L <. (FOps.lit 0.5 : FP φ L)) = true := by
  rw [lt_F, ofF_lit, lit_half HalfOK.h]; norm_num [fm1, FV.lt, FV.neg, sval]
theorem fm1_eq_h [HalfOK φ] : (fm1 φ L ==. (FOps.lit 0.5 : FP φ L)) = false := by
  rw [eq_F, ofF_lit, lit_half HalfOK.h]; norm_num [fm1, FV.eq, FV.neg, sval]
theorem fm1_le_h [HalfOK φ] : (fm1 φ L <=. (FOps.lit 0.5 : FP φ L)) = true := by
  rw [le_F, ofF_lit, lit_half HalfOK.h]; norm_num [fm1, FV.le, FV.neg, sval]
theorem fm1_lt_o : (fm1 φ L <. (FOps.lit 1 : FP φ L)) = true := by
  rw [lt_F, ofF_lit, lit_one]; norm_num [fm1, FV.lt, FV.neg, sval]
theorem fm1_eq_o : (fm1 φ L ==. (FOps.lit 1 : FP φ L)) = false := by
  rw [eq_F, ofF_lit, lit_one]; norm_num [fm1, FV.eq, FV.neg, sval]
theorem fm1_le_o : (fm1 φ L <=. (FOps.lit 1 : FP φ L)) = true := by
  rw [le_F, ofF_lit, lit_one]; norm_num [fm1, FV.le, FV.neg, sval]
theorem fh_lt_m1 : (fh φ L <. ∸(FOps.lit 1 : FP φ L)) = false := by
  rw [lt_F, ofF_neg, ofF_lit, lit_one]; norm_num [fh, FV.lt, FV.neg, sval]
theorem fh_eq_m1 : (fh φ L ==. ∸(FOps.lit 1 : FP φ L)) = false := by
  rw [eq_F, ofF_neg, ofF_lit, lit_one]; norm_num [fh, FV.eq, FV.neg, sval]
theorem fh_le_m1 : (fh φ L <=. ∸(FOps.lit 1 : FP φ L)) = false := by
  rw [le_F, ofF_neg, ofF_lit, lit_one]; norm_num [fh, FV.le, FV.neg, sval]
theorem fh_lt_z : (fh φ L <. (FOps.lit 0 : FP φ L)) = false := by
  rw [lt_F, ofF_lit, rndQ_zero]; norm_num [fh, FV.lt, FV.neg, sval]
theorem fh_eq_z : (fh φ L ==. (FOps.lit 0 : FP φ L)) = false := by
  rw [eq_F, ofF_lit, rndQ_zero]; norm_num [fh, FV.eq, FV.neg, sval]
theorem fh_le_z : (fh φ L <=. (FOps.lit 0 : FP φ L)) = false := by
  rw [le_F, ofF_lit, rndQ_zero]; norm_num [fh, FV.le, FV.neg, sval]
theorem fh_lt_h [HalfOK φ] : (fh φ L <. (FOps.lit 0.5 : FP φ L)) = false := by
  rw [lt_F, ofF_lit, lit_half HalfOK.h]; norm_num [fh, FV.lt, FV.neg, sval]
theorem fh_eq_h [HalfOK φ] : (fh φ L ==. (FOps.lit 0.5 : FP φ L)) = true := by
  rw [eq_F, ofF_lit, lit_half HalfOK.h]; norm_num [fh, FV.eq, FV.neg, sval]
theorem fh_le_h [HalfOK φ] : (fh φ L <=. (FOps.lit 0.5 : FP φ L)) = true := by
  rw [le_F, ofF_lit, lit_half HalfOK.h]; norm_num [fh, FV.le, FV.neg, sval]
theorem fh_lt_o : (fh φ L <. (FOps.lit 1 : FP φ L)) = true := by
  rw [lt_F, ofF_lit, lit_one]; norm_num [fh, FV.lt, FV.neg, sval]
theorem fh_eq_o : (fh φ L ==. (FOps.lit 1 : FP φ L)) = false := by
  rw [eq_F, ofF_lit, lit_one]; norm_num [fh, FV.eq, FV.neg, sval]
theorem fh_le_o : (fh φ L <=. (FOps.lit 1 : FP φ L)) = true := by
  rw [le_F, ofF_lit, lit_one]; norm_num [fh, FV.le, FV.neg, sval]

macro "spec_val" : tactic => `(tactic| (
  simp only [ofF_add, ofF_sub, ofF_mul, ofF_div, ofF_neg, ofF_lit]; decide +kernel))

macro "spec_pt" : tactic => `(tactic| (
  simp only [f1_lt_m1, f1_eq_m1, f1_le_m1, f1_lt_z, f1_eq_z, f1_le_z, f1_lt_h, f1_eq_h, f1_le_h, f1_lt_o, f1_eq_o, f1_le_o, fm1_lt_m1, fm1_eq_m1, fm1_le_m1, fm1_lt_z, fm1_eq_z, fm1_le_z, fm1_lt_h, fm1_eq_h, fm1_le_h, fm1_lt_o, fm1_eq_o, fm1_le_o, fh_lt_m1, fh_eq_m1, fh_le_m1, fh_lt_z, fh_eq_z, fh_le_z, fh_lt_h, fh_eq_h, fh_le_h, fh_lt_o, fh_eq_o, fh_le_o, f0_eq0, Bool.false_eq_true, if_false, if_true, Bool.and_false, Bool.and_true, Bool.and_self]))

/-- **C29**: `Li2f` at `1`, `-1` -/
theorem C29_Li2f (L : Lib) : FNear (Li2f (f1 binary32 L)) (pLi 2 1).re 2.4e-7 ∧ FNear (Li2f (fm1 binary32 L)) (pLi 2 (-1)).re 2.4e-7 := by
  refine ⟨?_, ?_⟩
  all_goals simp only [Li2f]
  all_goals spec_pt
  · exact near_one 0 (by norm_num) (e := 2.3e-7) (by spec_val) (by norm_num)
  · exact near_mone 0 (by norm_num) (e := 2.3e-7) (by spec_val) (by norm_num)

/-- **C29**: `Li2d` at `1`, `-1` -/
theorem C29_Li2d (L : Lib) : FNear (Li2d (f1 binary64 L)) (pLi 2 1).re 2.3e-16 ∧ FNear (Li2d (fm1 binary64 L)) (pLi 2 (-1)).re 2.3e-16 := by
  refine ⟨?_, ?_⟩
  all_goals simp only [Li2d]
  all_goals spec_pt
  · exact near_one 0 (by norm_num) (e := 2.2e-16) (by spec_val) (by norm_num)
  · exact near_mone 0 (by norm_num) (e := 2.2e-16) (by spec_val) (by norm_num)

/-- **C29**: `Li2l18` at `1`, `-1` -/
theorem C29_Li2l18 (L : Lib) : FNear (Li2l18 (f1 x87ext L)) (pLi 2 1).re 1.1e-19 ∧ FNear (Li2l18 (fm1 x87ext L)) (pLi 2 (-1)).re 1.1e-19 := by
  refine ⟨?_, ?_⟩
  all_goals simp only [Li2l18, Li2l]
  all_goals spec_pt
  · exact near_one 0 (by norm_num) (e := 1.05e-19) (by spec_val) (by norm_num)
  · exact near_mone 0 (by norm_num) (e := 1.05e-19) (by spec_val) (by norm_num)

/-- **C29**: `Li2l36` at `1`, `-1` -/
theorem C29_Li2l36 (L : Lib) : FNear (Li2l36 (f1 binary128 L)) (pLi 2 1).re 2e-34 ∧ FNear (Li2l36 (fm1 binary128 L)) (pLi 2 (-1)).re 2e-34 := by
  refine ⟨?_, ?_⟩
  all_goals simp only [Li2l36, Li2l]
  all_goals spec_pt
  · exact near_one 0 (by norm_num) (e := 1.9e-34) (by spec_val) (by norm_num)
  · exact near_mone 0 (by norm_num) (e := 1.9e-34) (by spec_val) (by norm_num)

/-- **C29**: `Li3d` at `1`, `-1`, `1/2` -/
theorem C29_Li3d (L : Lib) : FNear (Li3d (f1 binary64 L)) (pLi 3 1).re 2.3e-16 ∧ FNear (Li3d (fm1 binary64 L)) (pLi 3 (-1)).re 2.3e-16 ∧
    FNear (Li3d (fh binary64 L)) (pLi 3 (1 / 2)).re 2.3e-16 := by
  refine ⟨?_, ?_, ?_⟩
  all_goals simp only [Li3d]
  all_goals spec_pt
  · exact near_one 1 (by norm_num) (e := 2.2e-16) (by spec_val) (by norm_num)
  · exact near_mone 1 (by norm_num) (e := 2.2e-16) (by spec_val) (by norm_num)
  · exact near_half (e := 2.2e-16) (by spec_val) (by norm_num)

/-- **C29**: `Li4d` at `1`, `-1` -/
theorem C29_Li4d (L : Lib) : FNear (Li4d (f1 binary64 L)) (pLi 4 1).re 2.3e-16 ∧ FNear (Li4d (fm1 binary64 L)) (pLi 4 (-1)).re 2.3e-16 := by
  refine ⟨?_, ?_⟩
  all_goals simp only [Li4d]
  all_goals spec_pt
  · exact near_one 2 (by norm_num) (e := 2.2e-16) (by spec_val) (by norm_num)
  · exact near_mone 2 (by norm_num) (e := 2.2e-16) (by spec_val) (by norm_num)

/-- **C29**: `cLi3l18` at `1`, `-1`, `1/2`; the sign of the zero imaginary part is kept -/
theorem C29_cLi3l18 (L : Lib) (s : Bool) :
    (∃ r, cLi3l18 ⟨f1 x87ext L, f0 x87ext L s⟩ = ⟨r, f0 x87ext L s⟩ ∧ FNear r (pLi 3 1).re 1.1e-19) ∧
    (∃ r, cLi3l18 ⟨fm1 x87ext L, f0 x87ext L s⟩ = ⟨r, f0 x87ext L s⟩ ∧ FNear r (pLi 3 (-1)).re 1.1e-19) ∧
    (∃ r, cLi3l18 ⟨fh x87ext L, f0 x87ext L s⟩ = ⟨r, f0 x87ext L s⟩ ∧ FNear r (pLi 3 (1 / 2)).re 1.1e-19) := by
  refine ⟨⟨_, by simp only [cLi3l18, cLi3l]; spec_pt; rfl, ?_⟩, ⟨_, by simp only [cLi3l18, cLi3l]; spec_pt; rfl, ?_⟩, ⟨_, by simp only [cLi3l18, cLi3l]; spec_pt; rfl, ?_⟩⟩
  · exact near_one 1 (by norm_num) (e := 1.05e-19) (by spec_val) (by norm_num)
  · exact near_mone 1 (by norm_num) (e := 1.05e-19) (by spec_val) (by norm_num)
  · exact near_half (e := 1.05e-19) (by spec_val) (by norm_num)

/-- **C29**: `cLi3l36` at `1`, `-1`, `1/2`; the sign of the zero imaginary part is kept -/
theorem C29_cLi3l36 (L : Lib) (s : Bool) :
    (∃ r, cLi3l36 ⟨f1 binary128 L, f0 binary128 L s⟩ = ⟨r, f0 binary128 L s⟩ ∧ FNear r (pLi 3 1).re 2e-34) ∧
    (∃ r, cLi3l36 ⟨fm1 binary128 L, f0 binary128 L s⟩ = ⟨r, f0 binary128 L s⟩ ∧ FNear r (pLi 3 (-1)).re 2e-34) ∧
    (∃ r, cLi3l36 ⟨fh binary128 L, f0 binary128 L s⟩ = ⟨r, f0 binary128 L s⟩ ∧ FNear r (pLi 3 (1 / 2)).re 2e-34) := by
  refine ⟨⟨_, by simp only [cLi3l36, cLi3l]; spec_pt; rfl, ?_⟩, ⟨_, by simp only [cLi3l36, cLi3l]; spec_pt; rfl, ?_⟩, ⟨_, by simp only [cLi3l36, cLi3l]; spec_pt; rfl, ?_⟩⟩
  · exact near_one 1 (by norm_num) (e := 1.9e-34) (by spec_val) (by norm_num)
  · exact near_mone 1 (by norm_num) (e := 1.9e-34) (by spec_val) (by norm_num)
  · exact near_half (e := 1.9e-34) (by spec_val) (by norm_num)

/-- **C29**: `cLi4l18` at `1`, `-1`; the sign of the zero imaginary part is kept -/
theorem C29_cLi4l18 (L : Lib) (s : Bool) :
    (∃ r, cLi4l18 ⟨f1 x87ext L, f0 x87ext L s⟩ = ⟨r, f0 x87ext L s⟩ ∧ FNear r (pLi 4 1).re 2.2e-19) ∧
    (∃ r, cLi4l18 ⟨fm1 x87ext L, f0 x87ext L s⟩ = ⟨r, f0 x87ext L s⟩ ∧ FNear r (pLi 4 (-1)).re 2.2e-19) := by
  refine ⟨⟨_, by simp only [cLi4l18, cLi4l]; spec_pt; rfl, ?_⟩, ⟨_, by simp only [cLi4l18, cLi4l]; spec_pt; rfl, ?_⟩⟩
  · exact near_one 2 (by norm_num) (e := 2.1e-19) (by spec_val) (by norm_num)
  · exact near_mone 2 (by norm_num) (e := 2.1e-19) (by spec_val) (by norm_num)

/-- **C29**: `cLi4l36` at `1`, `-1`; the sign of the zero imaginary part is kept -/
theorem C29_cLi4l36 (L : Lib) (s : Bool) :
    (∃ r, cLi4l36 ⟨f1 binary128 L, f0 binary128 L s⟩ = ⟨r, f0 binary128 L s⟩ ∧ FNear r (pLi 4 1).re 2e-34) ∧
    (∃ r, cLi4l36 ⟨fm1 binary128 L, f0 binary128 L s⟩ = ⟨r, f0 binary128 L s⟩ ∧ FNear r (pLi 4 (-1)).re 2e-34) := by
  refine ⟨⟨_, by simp only [cLi4l36, cLi4l]; spec_pt; rfl, ?_⟩, ⟨_, by simp only [cLi4l36, cLi4l]; spec_pt; rfl, ?_⟩⟩
  · exact near_one 2 (by norm_num) (e := 1.9e-34) (by spec_val) (by norm_num)
  · exact near_mone 2 (by norm_num) (e := 1.9e-34) (by spec_val) (by norm_num)

/-- **C29**: `cLi5d` at `1`, `-1`; the sign of the zero imaginary part is kept -/
theorem C29_cLi5d (L : Lib) (s : Bool) :
    (∃ r, cLi5d ⟨f1 binary64 L, f0 binary64 L s⟩ = ⟨r, f0 binary64 L s⟩ ∧ FNear r (pLi 5 1).re 2.3e-16) ∧
    (∃ r, cLi5d ⟨fm1 binary64 L, f0 binary64 L s⟩ = ⟨r, f0 binary64 L s⟩ ∧ FNear r (pLi 5 (-1)).re 2.3e-16) := by
  refine ⟨⟨_, by simp only [cLi5d]; spec_pt; rfl, ?_⟩, ⟨_, by simp only [cLi5d]; spec_pt; rfl, ?_⟩⟩
  · exact near_one 3 (by norm_num) (e := 2.2e-16) (by spec_val) (by norm_num)
  · exact near_mone 3 (by norm_num) (e := 2.2e-16) (by spec_val) (by norm_num)

/-- **C29**: `cLi5l18` at `1`, `-1`; the sign of the zero imaginary part is kept -/
theorem C29_cLi5l18 (L : Lib) (s : Bool) :
    (∃ r, cLi5l18 ⟨f1 x87ext L, f0 x87ext L s⟩ = ⟨r, f0 x87ext L s⟩ ∧ FNear r (pLi 5 1).re 1.1e-19) ∧
    (∃ r, cLi5l18 ⟨fm1 x87ext L, f0 x87ext L s⟩ = ⟨r, f0 x87ext L s⟩ ∧ FNear r (pLi 5 (-1)).re 1.1e-19) := by
  refine ⟨⟨_, by simp only [cLi5l18, cLi5l]; spec_pt; rfl, ?_⟩, ⟨_, by simp only [cLi5l18, cLi5l]; spec_pt; rfl, ?_⟩⟩
  · exact near_one 3 (by norm_num) (e := 1.05e-19) (by spec_val) (by norm_num)
  · exact near_mone 3 (by norm_num) (e := 1.05e-19) (by spec_val) (by norm_num)

/-- **C29**: `cLi5l36` at `1`, `-1`; the sign of the zero imaginary part is kept -/
theorem C29_cLi5l36 (L : Lib) (s : Bool) :
    (∃ r, cLi5l36 ⟨f1 binary128 L, f0 binary128 L s⟩ = ⟨r, f0 binary128 L s⟩ ∧ FNear r (pLi 5 1).re 2e-34) ∧
    (∃ r, cLi5l36 ⟨fm1 binary128 L, f0 binary128 L s⟩ = ⟨r, f0 binary128 L s⟩ ∧ FNear r (pLi 5 (-1)).re 2e-34) := by
  refine ⟨⟨_, by simp only [cLi5l36, cLi5l]; spec_pt; rfl, ?_⟩, ⟨_, by simp only [cLi5l36, cLi5l]; spec_pt; rfl, ?_⟩⟩
  · exact near_one 3 (by norm_num) (e := 1.9e-34) (by spec_val) (by norm_num)
  · exact near_mone 3 (by norm_num) (e := 1.9e-34) (by spec_val) (by norm_num)

/-- **C29**: `cLi6d` at `1`, `-1`; the sign of the zero imaginary part is kept -/
theorem C29_cLi6d (L : Lib) (s : Bool) :
    (∃ r, cLi6d ⟨f1 binary64 L, f0 binary64 L s⟩ = ⟨r, f0 binary64 L s⟩ ∧ FNear r (pLi 6 1).re 2.3e-16) ∧
    (∃ r, cLi6d ⟨fm1 binary64 L, f0 binary64 L s⟩ = ⟨r, f0 binary64 L s⟩ ∧ FNear r (pLi 6 (-1)).re 2.3e-16) := by
  refine ⟨⟨_, by simp only [cLi6d]; spec_pt; rfl, ?_⟩, ⟨_, by simp only [cLi6d]; spec_pt; rfl, ?_⟩⟩
  · exact near_one 4 (by norm_num) (e := 2.2e-16) (by spec_val) (by norm_num)
  · exact near_mone 4 (by norm_num) (e := 2.2e-16) (by spec_val) (by norm_num)

/-- **C29**: `cLi6l18` at `1`, `-1`; the sign of the zero imaginary part is kept -/
theorem C29_cLi6l18 (L : Lib) (s : Bool) :
    (∃ r, cLi6l18 ⟨f1 x87ext L, f0 x87ext L s⟩ = ⟨r, f0 x87ext L s⟩ ∧ FNear r (pLi 6 1).re 1.1e-19) ∧
    (∃ r, cLi6l18 ⟨fm1 x87ext L, f0 x87ext L s⟩ = ⟨r, f0 x87ext L s⟩ ∧ FNear r (pLi 6 (-1)).re 1.1e-19) := by
  refine ⟨⟨_, by simp only [cLi6l18, cLi6l]; spec_pt; rfl, ?_⟩, ⟨_, by simp only [cLi6l18, cLi6l]; spec_pt; rfl, ?_⟩⟩
  · exact near_one 4 (by norm_num) (e := 1.05e-19) (by spec_val) (by norm_num)
  · exact near_mone 4 (by norm_num) (e := 1.05e-19) (by spec_val) (by norm_num)

/-- **C29**: `cLi6l36` at `1`, `-1`; the sign of the zero imaginary part is kept -/
theorem C29_cLi6l36 (L : Lib) (s : Bool) :
    (∃ r, cLi6l36 ⟨f1 binary128 L, f0 binary128 L s⟩ = ⟨r, f0 binary128 L s⟩ ∧ FNear r (pLi 6 1).re 2e-34) ∧
    (∃ r, cLi6l36 ⟨fm1 binary128 L, f0 binary128 L s⟩ = ⟨r, f0 binary128 L s⟩ ∧ FNear r (pLi 6 (-1)).re 2e-34) := by
  refine ⟨⟨_, by simp only [cLi6l36, cLi6l]; spec_pt; rfl, ?_⟩, ⟨_, by simp only [cLi6l36, cLi6l]; spec_pt; rfl, ?_⟩⟩
  · exact near_one 4 (by norm_num) (e := 1.9e-34) (by spec_val) (by norm_num)
  · exact near_mone 4 (by norm_num) (e := 1.9e-34) (by spec_val) (by norm_num)


/-! ### Clausen functions at `0` and at `π` -/

/-- **C29**: `Cl_n(±0)` is a zero for even `n` (`Cl2`, `Cl4`, `Cl6`, double and long double), every format and library. -/
theorem C29_Cl_even_zero (φ : Fmt) (L : Lib) (s : Bool) : IsZ (Cl2d (f0 φ L s)) ∧ IsZ (Cl2l (f0 φ L s)) ∧ IsZ (Cl4d (f0 φ L s)) ∧
    IsZ (Cl4l (f0 φ L s)) ∧ IsZ (Cl6d (f0 φ L s)) ∧ IsZ (Cl6l (f0 φ L s)) := by
  have h : ∀ {q : ℚ} (_ : 2 ≤ q) (p : FP φ L), IsZ (reduceSgn (FOps.lit q) p (f0 φ L s)).1 := fun hq p => reduceSgn_isZ hq p ⟨s, rfl⟩
  refine ⟨?_, ?_, ?_, ?_, ?_, ?_⟩
  · have h' := h (q := 3.14159265358979324) (by norm_num) (FOps.lit 0.0019353071795864769253)
    simp only [Cl2d, (isZ_iff _).mpr h', if_true]; exact h'
  · have h' := h (q := 3.14159265358979323846264338327950288) (by norm_num) (FOps.lit 0.0019353071795864769252867665590057683943)
    simp only [Cl2l, (isZ_iff _).mpr h', if_true]; exact h'
  · have h' := h (q := 3.14159265358979324) (by norm_num) (FOps.lit 0.0019353071795864769253)
    simp only [Cl4d, (isZ_iff _).mpr h', if_true]; exact h'
  · have h' := h (q := 3.14159265358979323846264338327950288) (by norm_num) (FOps.lit 0.0019353071795864769252867665590057683943)
    simp only [Cl4l, (isZ_iff _).mpr h', if_true]; exact h'
  · have h' := h (q := 3.14159265358979324) (by norm_num) (FOps.lit 0.0019353071795864769253)
    simp only [Cl6d, (isZ_iff _).mpr h', if_true]; exact h'
  · have h' := h (q := 3.14159265358979323846264338327950288) (by norm_num) (FOps.lit 0.0019353071795864769252867665590057683943)
    simp only [Cl6l, (isZ_iff _).mpr h', if_true]; exact h'

/-- **C29**: `Cl1(±0) = +∞`, in every format. -/
theorem C29_Cl1_zero (φ : Fmt) (L : Lib) (s : Bool) : Cl1d (f0 φ L s) = toF φ L (.inf false) := by
  have h' := reduceAbs_isZ (L := L) (φ := φ) (q := 3.14159265358979324) (by norm_num) (FOps.lit 0.0019353071795864769253) (x := f0 φ L s) ⟨s, rfl⟩
  simp only [Cl1d, (isZ_iff _).mpr h', if_true]; rfl

/-- **C29**: `Cl3(0) = ζ(3)`, `Cl5(0) = ζ(5)`. -/
theorem C29_Cl_odd_zero (L : Lib) (s : Bool) : FNear (Cl3d (f0 binary64 L s)) (pLi 3 1).re 2.3e-16 ∧ FNear (Cl5d (f0 binary64 L s)) (pLi 5 1).re 2.3e-16 ∧
    FNear (Cl3l (f0 x87ext L s)) (pLi 3 1).re 1.1e-19 ∧ FNear (Cl5l (f0 x87ext L s)) (pLi 5 1).re 1.1e-19 ∧
    FNear (Cl3l (f0 binary128 L s)) (pLi 3 1).re 2e-34 ∧ FNear (Cl5l (f0 binary128 L s)) (pLi 5 1).re 2e-34 := by
  have h : ∀ (φ : Fmt) {q : ℚ} (_ : 2 ≤ q) (p : FP φ L), (reduceAbs (FOps.lit q) p (f0 φ L s) ==. (FOps.lit 0 : FP φ L)) = true :=
    fun φ _ hq p => (isZ_iff _).mpr (reduceAbs_isZ hq p ⟨s, rfl⟩)
  have hd := h binary64 (q := 3.14159265358979324) (by norm_num) (FOps.lit 0.0019353071795864769253)
  have hx := h x87ext (q := 3.14159265358979323846264338327950288) (by norm_num) (FOps.lit 0.0019353071795864769252867665590057683943)
  have hq := h binary128 (q := 3.14159265358979323846264338327950288) (by norm_num) (FOps.lit 0.0019353071795864769252867665590057683943)
  refine ⟨?_, ?_, ?_, ?_, ?_, ?_⟩
  · simp only [Cl3d, hd, if_true]; exact near_one 1 (by norm_num) (e := 2.2e-16) (by spec_val) (by norm_num)
  · simp only [Cl5d, hd, if_true]; exact near_one 3 (by norm_num) (e := 2.2e-16) (by spec_val) (by norm_num)
  · simp only [Cl3l, hx, if_true]; exact near_one 1 (by norm_num) (e := 1.05e-19) (by spec_val) (by norm_num)
  · simp only [Cl5l, hx, if_true]; exact near_one 3 (by norm_num) (e := 1.05e-19) (by spec_val) (by norm_num)
  · simp only [Cl3l, hq, if_true]; exact near_one 1 (by norm_num) (e := 1.9e-34) (by spec_val) (by norm_num)
  · simp only [Cl5l, hq, if_true]; exact near_one 3 (by norm_num) (e := 1.9e-34) (by spec_val) (by norm_num)

theorem reduceSgn_pi {q : ℚ} (p : FP φ L) (h0 : ((FOps.lit q : FP φ L) <. (FOps.lit 0 : FP φ L)) = false)
    (h1 : ((FOps.lit q : FP φ L) >=. (FOps.lit 2 : FP φ L) *. (FOps.lit q : FP φ L)) = false)
    (h2 : ((FOps.lit q : FP φ L) >. (FOps.lit q : FP φ L)) = false) :
    reduceSgn (FOps.lit q) p (FOps.lit q : FP φ L) = (FOps.lit q, FOps.lit 1) := by
  simp only [reduceSgn, h0, h1, h2, Bool.false_eq_true, if_false]

/-- **C29**: the even Clausen functions vanish at the floating-point number `π`: the result is exactly `+0`. -/
theorem C29_Cl_even_pi (L : Lib) :
    (let π : FP binary64 L := FOps.lit 3.14159265358979324; let o : FP binary64 L := f0 binary64 L false; Cl2d π = o ∧ Cl4d π = o ∧ Cl6d π = o) ∧
    (let π : FP x87ext L := FOps.lit 3.14159265358979323846264338327950288; let o : FP x87ext L := f0 x87ext L false; Cl2l π = o ∧ Cl4l π = o ∧ Cl6l π = o) ∧
    (let π : FP binary128 L := FOps.lit 3.14159265358979323846264338327950288; let o : FP binary128 L := f0 binary128 L false; Cl2l π = o ∧ Cl4l π = o ∧ Cl6l π = o) := by
  have o : ∀ φ : Fmt, (FOps.lit 0 : FP φ L) = f0 φ L false := fun φ => rndQ_zero
  refine ⟨?_, ?_, ?_⟩
  · have h := reduceSgn_pi (L := L) (φ := binary64) (q := 3.14159265358979324) (FOps.lit 0.0019353071795864769253)
      (by show FV.lt (rndQ _ _) (rndQ _ _) = false; decide +kernel)
      (by show FV.le (FV.mul _ (rndQ _ _) (rndQ _ _)) (rndQ _ _) = false; decide +kernel)
      (by show FV.lt (rndQ _ _) (rndQ _ _) = false; decide +kernel)
    have e0 : ((FOps.lit 3.14159265358979324 : FP binary64 L) ==. FOps.lit 0) = false := by
      show FV.eq (rndQ _ _) (rndQ _ _) = false; decide +kernel
    have e1 : ((FOps.lit 3.14159265358979324 : FP binary64 L) ==. FOps.lit 3.14159265358979324) = true := by
      show FV.eq (rndQ _ _) (rndQ _ _) = true; decide +kernel
    simp only [Cl2d, Cl4d, Cl6d, h, e0, e1, Bool.false_eq_true, if_false, if_true]; exact ⟨o _, o _, o _⟩
  · have h := reduceSgn_pi (L := L) (φ := x87ext) (q := 3.14159265358979323846264338327950288) (FOps.lit 0.0019353071795864769252867665590057683943)
      (by show FV.lt (rndQ _ _) (rndQ _ _) = false; decide +kernel)
      (by show FV.le (FV.mul _ (rndQ _ _) (rndQ _ _)) (rndQ _ _) = false; decide +kernel)
      (by show FV.lt (rndQ _ _) (rndQ _ _) = false; decide +kernel)
    have e0 : ((FOps.lit 3.14159265358979323846264338327950288 : FP x87ext L) ==. FOps.lit 0) = false := by
      show FV.eq (rndQ _ _) (rndQ _ _) = false; decide +kernel
    have e1 : ((FOps.lit 3.14159265358979323846264338327950288 : FP x87ext L) ==. FOps.lit 3.14159265358979323846264338327950288) = true := by
      show FV.eq (rndQ _ _) (rndQ _ _) = true; decide +kernel
    simp only [Cl2l, Cl4l, Cl6l, h, e0, e1, Bool.false_eq_true, if_false, if_true]; exact ⟨o _, o _, o _⟩
  · have h := reduceSgn_pi (L := L) (φ := binary128) (q := 3.14159265358979323846264338327950288) (FOps.lit 0.0019353071795864769252867665590057683943)
      (by show FV.lt (rndQ _ _) (rndQ _ _) = false; decide +kernel)
      (by show FV.le (FV.mul _ (rndQ _ _) (rndQ _ _)) (rndQ _ _) = false; decide +kernel)
      (by show FV.lt (rndQ _ _) (rndQ _ _) = false; decide +kernel)
    have e0 : ((FOps.lit 3.14159265358979323846264338327950288 : FP binary128 L) ==. FOps.lit 0) = false := by
      show FV.eq (rndQ _ _) (rndQ _ _) = false; decide +kernel
    have e1 : ((FOps.lit 3.14159265358979323846264338327950288 : FP binary128 L) ==. FOps.lit 3.14159265358979323846264338327950288) = true := by
      show FV.eq (rndQ _ _) (rndQ _ _) = true; decide +kernel
    simp only [Cl2l, Cl4l, Cl6l, h, e0, e1, Bool.false_eq_true, if_false, if_true]; exact ⟨o _, o _, o _⟩

end Polylog
