import Verif.Props.Li6Cx
import Verif.Props.Li5Cx
import Verif.Props.Li4Cx
import Verif.Props.Li3Cx
import Verif.Props.Li2Cx
import Verif.Model.Li

/-! # C27: the complex functions commute with complex conjugation off the real axis

With exact elementary operations (`R S`, any literals and junk values). -/

noncomputable section
namespace Polylog
open Complex ComplexConjugate

variable {S : RealSem}

/-- complex conjugate of a `std::complex` -/
def cj (z : Cx (R S)) : Cx (R S) := ofC S (conj z.toC)

theorem cj_toC (z : Cx (R S)) : (cj z).toC = conj z.toC := rfl
theorem toC_inj {a b : Cx (R S)} (h : a.toC = b.toC) : a = b := by
  rw [← ofC_toC a, h, ofC_toC]
theorem cj_re (z : Cx (R S)) : (cj z).re = z.re := rfl
theorem cj_im (z : Cx (R S)) : (cj z).im = ∸z.im := rfl
theorem cj_mk (a b : R S) : cj ⟨a, b⟩ = ⟨a, ∸b⟩ := rfl
theorem cj_neg (a : Cx (R S)) : cj (∸a) = ∸(cj a) := toC_inj (by simp only [cj_toC, toC_neg, map_neg])
theorem cj_add (a b : Cx (R S)) : cj (a +. b) = cj a +. cj b := toC_inj (by simp only [cj_toC, toC_add, map_add])
theorem cj_sub (a b : Cx (R S)) : cj (a -. b) = cj a -. cj b := toC_inj (by simp only [cj_toC, toC_sub, map_sub])
theorem cj_mul (a b : Cx (R S)) : cj (a *. b) = cj a *. cj b := toC_inj (by simp only [cj_toC, toC_mul, map_mul])
theorem cj_addr (a : Cx (R S)) (b : R S) : cj (a +. b) = cj a +. b := toC_inj (by simp only [cj_toC, toC_addr, map_add, conj_ofReal])
theorem cj_radd (a : R S) (b : Cx (R S)) : cj (a +. b) = a +. cj b := toC_inj (by simp only [cj_toC, toC_radd, map_add, conj_ofReal])
theorem cj_subr (a : Cx (R S)) (b : R S) : cj (a -. b) = cj a -. b := toC_inj (by simp only [cj_toC, toC_subr, map_sub, conj_ofReal])
theorem cj_rsub (a : R S) (b : Cx (R S)) : cj (a -. b) = a -. cj b := toC_inj (by simp only [cj_toC, toC_rsub, map_sub, conj_ofReal])
theorem cj_mulr (a : Cx (R S)) (b : R S) : cj (a *. b) = cj a *. b := toC_inj (by simp only [cj_toC, toC_mulr, map_mul, conj_ofReal])
theorem cj_rmul (a : R S) (b : Cx (R S)) : cj (a *. b) = a *. cj b := toC_inj (by simp only [cj_toC, toC_rmul, map_mul, conj_ofReal])
theorem cj_divr (a : Cx (R S)) {b : R S} (hb : ofR b ≠ 0) : cj (a /. b) = cj a /. b :=
  toC_inj (by rw [cj_toC, toC_divr hb, toC_divr hb, map_div₀, conj_ofReal, cj_toC])
theorem cj_div (a : Cx (R S)) {b : Cx (R S)} (hb : b.toC ≠ 0) : cj (a /. b) = cj a /. cj b := by
  refine toC_inj ?_
  rw [cj_toC, toC_div hb, toC_div (by rw [cj_toC]; simpa using hb), map_div₀, cj_toC, cj_toC]
theorem cj_rdiv (h0 : S.rho 0 = 0) (a : R S) {b : Cx (R S)} (hb : b.toC ≠ 0) : cj (a /. b) = a /. cj b := by
  refine toC_inj ?_
  rw [cj_toC, toC_rdiv h0 hb, toC_rdiv h0 (by rw [cj_toC]; simpa using hb), map_div₀, cj_toC, conj_ofReal]
theorem cj_cj (z : Cx (R S)) : cj (cj z) = z := toC_inj (by rw [cj_toC, cj_toC, conj_conj])
theorem cj_abs (z : Cx (R S)) : Cx.abs (cj z) = Cx.abs z := by
  have : ofR (Cx.abs (cj z)) = ofR (Cx.abs z) := by rw [ofR_abs, ofR_abs, cj_toC, Complex.norm_conj]
  exact this
theorem cj_norm (z : Cx (R S)) : Cx.norm (cj z) = Cx.norm z := by
  have : ofR (Cx.norm (cj z)) = ofR (Cx.norm z) := by rw [ofR_norm, ofR_norm, cj_toC, Complex.normSq_conj]
  exact this
theorem cj_arg {z : Cx (R S)} (hz : z.toC.im ≠ 0) : Cx.arg (cj z) = ∸(Cx.arg z) := by
  have h0 : z.toC ≠ 0 := by intro h; rw [h] at hz; simp at hz
  have : ofR (Cx.arg (cj z)) = ofR (∸(Cx.arg z)) := by
    rw [ofR_neg, ofR_arg (by rw [cj_toC]; simpa using h0), ofR_arg h0, cj_toC, Complex.arg_conj, if_neg]
    intro h
    exact hz (Complex.arg_eq_pi_iff.mp h).2
  exact this
theorem cj_log {z : Cx (R S)} (hz : z.toC.im ≠ 0) : (xlog (cj z) : Cx (R S)) = cj (xlog z) := by
  show Cx.log (cj z) = cj (Cx.log z)
  rw [Cx.log, Cx.log, cj_abs, cj_arg hz, cj_mk]

theorem cj_im0 (h0 : S.rho 0 = 0) (z : Cx (R S)) : ((cj z).im ==. (FOps.lit 0 : R S)) = (z.im ==. (FOps.lit 0 : R S)) := by
  rw [eq_R, eq_R, decide_eq_decide, ofR_lit, h0, cj_im, ofR_neg]
  simp

theorem arg_ne {z : Cx (R S)} (hz : z.toC.im ≠ 0) : ofR (Cx.arg z) ≠ 0 := by
  have h0 : z.toC ≠ 0 := by intro h; rw [h] at hz; simp at hz
  rw [ofR_arg h0]
  intro h
  exact hz (Complex.arg_eq_zero_iff.mp h).2

theorem toC_ne {z : Cx (R S)} (hz : z.toC.im ≠ 0) : z.toC ≠ 0 := by
  intro h; rw [h] at hz; simp at hz

theorem im_eq0 (h0 : S.rho 0 = 0) {z : Cx (R S)} (hz : z.toC.im ≠ 0) : (z.im ==. (FOps.lit 0 : R S)) = false := by
  rw [eq_R, ofR_lit, h0, ofR_im]
  simpa using hz

theorem cj_log1p {u : ℝ} (hS : S.Lit u) {z : Cx (R S)} (hz : z.toC.im ≠ 0) : clog1p (cj z) = cj (clog1p z) := by
  have h1 : ((FOps.lit 1 : R S) +. z).toC.im ≠ 0 := by rw [toC_radd]; simpa using hz
  have h2 : ((FOps.lit 1 : R S) +. cj z).toC.im ≠ 0 := by rw [toC_radd, cj_toC]; simpa using hz
  have h3 : ((FOps.lit 1 : R S) +. z -. (FOps.lit 1 : R S)).toC ≠ 0 := toC_ne (by rw [toC_subr]; simpa using h1)
  simp only [clog1p, im_eq0 hS.zero h1, im_eq0 hS.zero h2, Bool.and_false, Bool.false_eq_true, if_false]
  rw [← cj_radd]
  rw [cj_re, cj_log h1]
  split
  · rfl
  · rw [cj_mul, cj_div _ h3, cj_subr]

theorem cj_posLog {u : ℝ} (hS : S.Lit u) {z : Cx (R S)} (hz : z.toC.im ≠ 0) : posLog (cj z) = cj (posLog z) := by
  have h2 : (cj z).toC.im ≠ 0 := by rw [cj_toC]; simpa using hz
  simp only [posLog, im_eq0 hS.zero hz, im_eq0 hS.zero h2, Bool.false_and, Bool.false_eq_true, if_false]
  exact cj_log hz

theorem cj_horner {n : ℕ} (m : ℕ) (z : Cx (R S)) (c : Vector ℚ (n + 2)) : hornerC m (cj z) c = cj (hornerC m z c) := by
  simp only [hornerC, cj_mk, cj_re, cj_im, cj_norm]
  congr 1
  exact neg_mul (ofR z.im) _

theorem cj_zero {u : ℝ} (hS : S.Lit u) : cj (⟨FOps.lit 0, FOps.lit 0⟩ : Cx (R S)) = ⟨FOps.lit 0, FOps.lit 0⟩ := by
  rw [cj_mk]; congr 1
  show -((S.rho 0 : ℚ) : ℝ) = ((S.rho 0 : ℚ) : ℝ)
  rw [hS.zero]; simp

theorem cj_ofReal {u : ℝ} (hS : S.Lit u) (x : R S) : cj (Cx.ofReal x) = Cx.ofReal x := by
  refine toC_inj ?_
  rw [cj_toC, toC_ofReal hS.zero, conj_ofReal]

theorem neg_im_ne {z : Cx (R S)} (hz : z.toC.im ≠ 0) : (∸z).toC.im ≠ 0 := by rw [toC_neg]; simpa using hz

theorem rdiv_im_ne {u : ℝ} (hS : S.Lit u) {z : Cx (R S)} (hz : z.toC.im ≠ 0) : (∸(FOps.lit 1 : R S) /. z).toC.im ≠ 0 := by
  have h0 := toC_ne hz
  have hn : Complex.normSq z.toC ≠ 0 := by simpa using h0
  rw [toC_rdiv hS.zero h0, ofR_neg, ofR_lit, hS.one]
  push_cast
  rw [neg_div, one_div, Complex.neg_im, Complex.inv_im, neg_div, neg_neg]
  exact div_ne_zero hz hn

/-! ### Li2 -/

theorem cLi2Gen_conj {u : ℝ} (hS : S.Lit u) (PI : R S) (Li2r : R S → R S) {n : ℕ} (bf : Vector ℚ (n + 2)) (z : Cx (R S))
    (hz : z.toC.im ≠ 0) : cLi2Gen PI Li2r bf (cj z) = cj (cLi2Gen PI Li2r bf z) := by
  have h2 : (cj z).toC.im ≠ 0 := by rw [cj_toC]; simpa using hz
  have l1 := cj_log hz
  have l2 : (xlog (∸(cj z)) : Cx (R S)) = cj (xlog (∸z)) := by rw [← cj_neg, cj_log (neg_im_ne hz)]
  have l3 : clog1p (∸(cj z)) = cj (clog1p (∸z)) := by rw [← cj_neg, cj_log1p hS (neg_im_ne hz)]
  have l4 : clog1p (∸(FOps.lit 1 : R S) /. cj z) = cj (clog1p (∸(FOps.lit 1 : R S) /. z)) := by
    rw [← cj_log1p hS (rdiv_im_ne hS hz), cj_rdiv hS.zero _ (toC_ne hz)]
  simp only [cLi2Gen, im_eq0 hS.zero hz, im_eq0 hS.zero h2, Bool.false_eq_true, if_false, cj_norm, cj_re, l1, l2, l3, l4]
  split_ifs <;> simp only [cj_mul, cj_add, cj_rmul, cj_radd, cj_neg, cj_subr, cj_addr, ← cj_horner, cj_ofReal hS]

/-- **C27**, `Li2`, all precisions -/
theorem C27_Li2 {u : ℝ} (hS : S.Lit u) (z : ℂ) (hz : z.im ≠ 0) :
    (cLi2f (ofC S (conj z))).toC = conj (cLi2f (ofC S z)).toC ∧ (cLi2d (ofC S (conj z))).toC = conj (cLi2d (ofC S z)).toC ∧
    (cLi2l18 (ofC S (conj z))).toC = conj (cLi2l18 (ofC S z)).toC ∧ (cLi2l36 (ofC S (conj z))).toC = conj (cLi2l36 (ofC S z)).toC := by
  have h : ∀ (PI : R S) (Li2r : R S → R S) (n : ℕ) (bf : Vector ℚ (n + 2)),
      (cLi2Gen PI Li2r bf (ofC S (conj z))).toC = conj (cLi2Gen PI Li2r bf (ofC S z)).toC := fun PI f n bf => by
    rw [show ofC S (conj z) = cj (ofC S z) from rfl, cLi2Gen_conj hS PI f bf (ofC S z) hz, cj_toC]
  exact ⟨h _ _ _ _, h _ _ _ _, h _ _ _ _, h _ _ _ _⟩

/-! ### Li3, ..., Li6 -/

theorem cLiShape_conj {u : ℝ} (hS : S.Lit u) (PI : R S) (near fin1 : Cx (R S) → Cx (R S)) (finI : Cx (R S) → Cx (R S) → Cx (R S))
    (hn : ∀ w : Cx (R S), w.toC.im ≠ 0 → near (cj w) = cj (near w)) (h1 : ∀ w, fin1 (cj w) = cj (fin1 w))
    (hI : ∀ w l, finI (cj w) (cj l) = cj (finI w l)) (z : Cx (R S)) (hz : z.toC.im ≠ 0) :
    cLiShape PI near fin1 finI (cj z) = cj (cLiShape PI near fin1 finI z) := by
  have l3 : clog1p (∸(cj z)) = cj (clog1p (∸z)) := by rw [← cj_neg, cj_log1p hS (neg_im_ne hz)]
  have l4 : clog1p (∸(FOps.lit 1 : R S) /. cj z) = cj (clog1p (∸(FOps.lit 1 : R S) /. z)) := by
    rw [← cj_log1p hS (rdiv_im_ne hS hz), cj_rdiv hS.zero _ (toC_ne hz)]
  have ha := arg_ne hz
  have l5 : ∸(Cx.arg z) *. ∸(Cx.arg z) = Cx.arg z *. Cx.arg z := by
    have : ofR (∸(Cx.arg z) *. ∸(Cx.arg z)) = ofR (Cx.arg z *. Cx.arg z) := by simp only [ofR_mul, ofR_neg, neg_mul_neg]
    exact this
  have l6 : (if ∸(Cx.arg z) >. (FOps.lit 0 : R S) then ∸(Cx.arg z) -. PI else ∸(Cx.arg z) +. PI) =
      ∸(if Cx.arg z >. (FOps.lit 0 : R S) then Cx.arg z -. PI else Cx.arg z +. PI) := by
    have key : ofR (if ∸(Cx.arg z) >. (FOps.lit 0 : R S) then ∸(Cx.arg z) -. PI else ∸(Cx.arg z) +. PI) =
      ofR (∸(if Cx.arg z >. (FOps.lit 0 : R S) then Cx.arg z -. PI else Cx.arg z +. PI)) := by
      simp only [gt_R, decide_eq_true_eq]
      rcases lt_or_gt_of_ne ha with h | h
      · rw [if_pos (by rw [ofR_lit, hS.zero, ofR_neg]; simpa using h), if_neg (by rw [ofR_lit, hS.zero]; simpa using h.le)]
        simp only [ofR_sub, ofR_neg, ofR_add]; ring
      · rw [if_neg (by rw [ofR_lit, hS.zero, ofR_neg]; simpa using h.le), if_pos (by rw [ofR_lit, hS.zero]; simpa using h)]
        simp only [ofR_sub, ofR_neg, ofR_add]; ring
    exact key
  simp only [cLiShape, cj_abs, cj_arg hz, l3, l4, l5, l6]
  split_ifs
  · rw [← hn ⟨xlog (Cx.abs z), Cx.arg z⟩ ha, cj_mk]
  · rw [← cj_neg, h1]
  all_goals rw [← cj_neg, ← cj_mk, hI]

theorem lit_ne {u : ℝ} (hS : S.Lit u) (k : ℕ) {q : ℚ} (h : q = k) (h1 : k < 2 ^ 24) (h2 : k ≠ 0) : ofR (FOps.lit q : R S) ≠ 0 := by
  rw [lit_of hS k h h1]; exact_mod_cast h2

macro "cj_push" : tactic => `(tactic| simp only [cj_mul, cj_add, cj_sub, cj_rmul, cj_mulr, cj_radd, cj_neg, cj_subr, cj_rsub, cj_addr, ← cj_horner])

theorem fin18_conj (bf : Vector ℚ 18) (w r : Cx (R S)) : fin18 bf (cj w) (cj r) = cj (fin18 bf w r) := by
  simp only [fin18]; cj_push
theorem fin18s_conj (bf : Vector ℚ 18) (w r : Cx (R S)) (s : R S) : fin18s bf (cj w) (cj r) s = cj (fin18s bf w r s) := by
  simp only [fin18s]; cj_push
theorem fin19_conj (bf : Vector ℚ 19) (w r : Cx (R S)) : fin19 bf (cj w) (cj r) = cj (fin19 bf w r) := by
  simp only [fin19]; cj_push

theorem cLi3S_conj {u : ℝ} (hS : S.Lit u) (p z2 : ℚ) (near : Cx (R S) → Cx (R S)) (fin : Cx (R S) → Cx (R S) → Cx (R S))
    (hn : ∀ w : Cx (R S), w.toC.im ≠ 0 → near (cj w) = cj (near w)) (hf : ∀ w r, fin (cj w) (cj r) = cj (fin w r))
    (z : Cx (R S)) (hz : z.toC.im ≠ 0) : cLi3S p z2 near fin (cj z) = cj (cLi3S p z2 near fin z) := by
  unfold cLi3S
  refine cLiShape_conj hS _ _ _ _ hn (fun w => ?_) (fun w l => ?_) z hz
  · rw [← hf, cj_zero hS]
  · rw [← hf]
    have h6 := lit_ne hS 6 (q := 6) (by norm_num) (by norm_num) (by norm_num)
    cj_push
    rw [cj_divr _ h6]; cj_push

theorem near3d_conj {u : ℝ} (hS : S.Lit u) (z3 z2 : ℚ) (cs : Vector ℚ 7) (w : Cx (R S)) (hw : w.toC.im ≠ 0) :
    near3d z3 z2 cs (cj w) = cj (near3d z3 z2 cs w) := by
  have h12 := lit_ne hS 12 (q := 12) (by norm_num) (by norm_num) (by norm_num)
  have l : posLog (∸(cj w)) = cj (posLog (∸w)) := by rw [← cj_neg, cj_posLog hS (neg_im_ne hw)]
  simp only [near3d, l]; cj_push; rw [cj_divr _ h12]; cj_push

theorem near3l_conj {u : ℝ} (hS : S.Lit u) (z3 z2 : ℚ) {m : ℕ} (cs : Vector ℚ (m + 2)) (w : Cx (R S)) (hw : w.toC.im ≠ 0) :
    near3l z3 z2 cs (cj w) = cj (near3l z3 z2 cs w) := by
  have h12 := lit_ne hS 12 (q := 12) (by norm_num) (by norm_num) (by norm_num)
  have l : posLog (∸(cj w)) = cj (posLog (∸w)) := by rw [← cj_neg, cj_posLog hS (neg_im_ne hw)]
  simp only [near3l, l]; cj_push; rw [cj_divr _ h12]; cj_push

theorem cLi4S_conj {u : ℝ} (hS : S.Lit u) (p z4 c1 c2 : ℚ) {m : ℕ} (cs : Vector ℚ (m + 2)) (fin : Cx (R S) → Cx (R S) → R S → Cx (R S))
    (hf : ∀ w r s, fin (cj w) (cj r) s = cj (fin w r s))
    (z : Cx (R S)) (hz : z.toC.im ≠ 0) : cLi4S p z4 c1 c2 cs fin (cj z) = cj (cLi4S p z4 c1 c2 cs fin z) := by
  unfold cLi4S
  refine cLiShape_conj hS _ _ _ _ (fun w hw => ?_) (fun w => ?_) (fun w l => ?_) z hz
  · have h6 := lit_ne hS 6 (q := 6) (by norm_num) (by norm_num) (by norm_num)
    have l : posLog (∸(cj w)) = cj (posLog (∸w)) := by rw [← cj_neg, cj_posLog hS (neg_im_ne hw)]
    simp only [l]; cj_push; rw [cj_divr _ h6]; cj_push
  · rw [← hf, cj_zero hS]
  · rw [← hf]; cj_push

theorem cLi5S_conj {u : ℝ} (hS : S.Lit u) (p z5 c1 c2 c3 : ℚ) {m : ℕ} (cs : Vector ℚ (m + 2)) (fin : Cx (R S) → Cx (R S) → Cx (R S))
    (hf : ∀ w r, fin (cj w) (cj r) = cj (fin w r))
    (z : Cx (R S)) (hz : z.toC.im ≠ 0) : cLi5S p z5 c1 c2 c3 cs fin (cj z) = cj (cLi5S p z5 c1 c2 c3 cs fin z) := by
  unfold cLi5S
  refine cLiShape_conj hS _ _ _ _ (fun w hw => ?_) (fun w => ?_) (fun w l => ?_) z hz
  · have h6 := lit_ne hS 24 (q := 24) (by norm_num) (by norm_num) (by norm_num)
    have l : posLog (∸(cj w)) = cj (posLog (∸w)) := by rw [← cj_neg, cj_posLog hS (neg_im_ne hw)]
    simp only [l]; cj_push; rw [cj_divr _ h6]; cj_push
  · rw [← hf, cj_zero hS]
  · rw [← hf]; cj_push

theorem cLi6S_conj {u : ℝ} (hS : S.Lit u) (p z6 c1 c2 c3 c4 : ℚ) {m : ℕ} (cs : Vector ℚ (m + 2)) (fin : Cx (R S) → Cx (R S) → R S → Cx (R S))
    (hf : ∀ w r s, fin (cj w) (cj r) s = cj (fin w r s))
    (z : Cx (R S)) (hz : z.toC.im ≠ 0) : cLi6S p z6 c1 c2 c3 c4 cs fin (cj z) = cj (cLi6S p z6 c1 c2 c3 c4 cs fin z) := by
  unfold cLi6S
  refine cLiShape_conj hS _ _ _ _ (fun w hw => ?_) (fun w => ?_) (fun w l => ?_) z hz
  · have h6 := lit_ne hS 120 (q := 120) (by norm_num) (by norm_num) (by norm_num)
    have l : posLog (∸(cj w)) = cj (posLog (∸w)) := by rw [← cj_neg, cj_posLog hS (neg_im_ne hw)]
    simp only [l]; cj_push; rw [cj_divr _ h6]; cj_push
  · rw [← hf, cj_zero hS]
  · rw [← hf]; cj_push

theorem cj_ne (z : Cx (R S)) (hz : z.toC.im ≠ 0) : (cj z).toC.im ≠ 0 := by rw [cj_toC]; simpa using hz

section
variable {u : ℝ} (hS : S.Lit u) (z : Cx (R S)) (hz : z.toC.im ≠ 0)
include hS hz
theorem cLi2d_cj : cLi2d (cj z) = cj (cLi2d z) := cLi2Gen_conj hS _ _ _ z hz
theorem cLi3d_cj : cLi3d (cj z) = cj (cLi3d z) := by
  simp only [cLi3d_eq, im_eq0 hS.zero hz, im_eq0 hS.zero (cj_ne z hz), Bool.false_eq_true, if_false]
  exact cLi3S_conj hS _ _ _ _ (near3d_conj hS _ _ _) (fin18_conj _) z hz
theorem cLi3l_cj {n m : ℕ} (bf : Vector ℚ (n + 2)) (cs : Vector ℚ (m + 2)) : cLi3l bf cs (cj z) = cj (cLi3l bf cs z) := by
  simp only [cLi3l_eq, im_eq0 hS.zero hz, im_eq0 hS.zero (cj_ne z hz), Bool.false_and, Bool.false_eq_true, if_false]
  exact cLi3S_conj hS _ _ _ _ (near3l_conj hS _ _ _) (fun w r => by cj_push) z hz
theorem cLi4d_cj : cLi4d (cj z) = cj (cLi4d z) := by
  simp only [cLi4d_eq, im_eq0 hS.zero hz, im_eq0 hS.zero (cj_ne z hz), Bool.false_eq_true, if_false]
  exact cLi4S_conj hS _ _ _ _ _ _ (fin18s_conj _) z hz
theorem cLi4l_cj {n m : ℕ} (bf : Vector ℚ (n + 2)) (cs : Vector ℚ (m + 2)) : cLi4l bf cs (cj z) = cj (cLi4l bf cs z) := by
  simp only [cLi4l_eq, im_eq0 hS.zero hz, im_eq0 hS.zero (cj_ne z hz), Bool.false_and, Bool.false_eq_true, if_false]
  exact cLi4S_conj hS _ _ _ _ _ _ (fun w r s => by cj_push) z hz
theorem cLi5d_cj : cLi5d (cj z) = cj (cLi5d z) := by
  simp only [cLi5d_eq, im_eq0 hS.zero hz, im_eq0 hS.zero (cj_ne z hz), Bool.false_and, Bool.false_eq_true, if_false]
  exact cLi5S_conj hS _ _ _ _ _ _ _ (fin19_conj _) z hz
theorem cLi5l_cj {n m : ℕ} (bf : Vector ℚ (n + 2)) (cs : Vector ℚ (m + 2)) : cLi5l bf cs (cj z) = cj (cLi5l bf cs z) := by
  simp only [cLi5l_eq, im_eq0 hS.zero hz, im_eq0 hS.zero (cj_ne z hz), Bool.false_and, Bool.false_eq_true, if_false]
  exact cLi5S_conj hS _ _ _ _ _ _ _ (fun w r => by cj_push) z hz
theorem cLi6d_cj : cLi6d (cj z) = cj (cLi6d z) := by
  simp only [cLi6d_eq, im_eq0 hS.zero hz, im_eq0 hS.zero (cj_ne z hz), Bool.false_and, Bool.false_eq_true, if_false]
  exact cLi6S_conj hS _ _ _ _ _ _ _ _ (fin18s_conj _) z hz
theorem cLi6l_cj {n m : ℕ} (bf : Vector ℚ (n + 2)) (cs : Vector ℚ (m + 2)) : cLi6l bf cs (cj z) = cj (cLi6l bf cs z) := by
  simp only [cLi6l_eq, im_eq0 hS.zero hz, im_eq0 hS.zero (cj_ne z hz), Bool.false_and, Bool.false_eq_true, if_false]
  exact cLi6S_conj hS _ _ _ _ _ _ _ _ (fun w r s => by cj_push) z hz
end

/-- **C27**, complex `Li3`, ..., `Li6`, double and long double (both coefficient sets) -/
theorem C27_Li3456 {u : ℝ} (hS : S.Lit u) (z : ℂ) (hz : z.im ≠ 0) :
    ((cLi3d (ofC S (conj z))).toC = conj (cLi3d (ofC S z)).toC ∧ (cLi3l18 (ofC S (conj z))).toC = conj (cLi3l18 (ofC S z)).toC ∧
      (cLi3l36 (ofC S (conj z))).toC = conj (cLi3l36 (ofC S z)).toC) ∧
    ((cLi4d (ofC S (conj z))).toC = conj (cLi4d (ofC S z)).toC ∧ (cLi4l18 (ofC S (conj z))).toC = conj (cLi4l18 (ofC S z)).toC ∧
      (cLi4l36 (ofC S (conj z))).toC = conj (cLi4l36 (ofC S z)).toC) ∧
    ((cLi5d (ofC S (conj z))).toC = conj (cLi5d (ofC S z)).toC ∧ (cLi5l18 (ofC S (conj z))).toC = conj (cLi5l18 (ofC S z)).toC ∧
      (cLi5l36 (ofC S (conj z))).toC = conj (cLi5l36 (ofC S z)).toC) ∧
    ((cLi6d (ofC S (conj z))).toC = conj (cLi6d (ofC S z)).toC ∧ (cLi6l18 (ofC S (conj z))).toC = conj (cLi6l18 (ofC S z)).toC ∧
      (cLi6l36 (ofC S (conj z))).toC = conj (cLi6l36 (ofC S z)).toC) := by
  have h : ∀ f : Cx (R S) → Cx (R S), f (cj (ofC S z)) = cj (f (ofC S z)) → (f (ofC S (conj z))).toC = conj (f (ofC S z)).toC := by
    intro f hf
    rw [show ofC S (conj z) = cj (ofC S z) from rfl, hf, cj_toC]
  exact ⟨⟨h _ (cLi3d_cj hS (ofC S z) hz), h _ (cLi3l_cj hS (ofC S z) hz _ _), h _ (cLi3l_cj hS (ofC S z) hz _ _)⟩,
    ⟨h _ (cLi4d_cj hS (ofC S z) hz), h _ (cLi4l_cj hS (ofC S z) hz _ _), h _ (cLi4l_cj hS (ofC S z) hz _ _)⟩,
    ⟨h _ (cLi5d_cj hS (ofC S z) hz), h _ (cLi5l_cj hS (ofC S z) hz _ _), h _ (cLi5l_cj hS (ofC S z) hz _ _)⟩,
    ⟨h _ (cLi6d_cj hS (ofC S z) hz), h _ (cLi6l_cj hS (ofC S z) hz _ _), h _ (cLi6l_cj hS (ofC S z) hz _ _)⟩⟩

/-! ### `Li(n, z)` -/

theorem cj_clog {u : ℝ} (hS : S.Lit u) {z : Cx (R S)} (hz : z.toC.im ≠ 0) : clog (cj z) = cj (clog z) := by
  simp only [clog, im_eq0 hS.zero hz, im_eq0 hS.zero (cj_ne z hz), Bool.false_and, Bool.false_eq_true, if_false]
  exact cj_log hz

theorem cj_beq (a b : Cx (R S)) : Cx.beq (cj a) (cj b) = Cx.beq a b := by
  rw [beq_R, beq_R, decide_eq_decide, cj_toC, cj_toC]
  exact (starRingEnd ℂ).injective.eq_iff

theorem cj_sqrt {z : Cx (R S)} (hz : z.toC.im ≠ 0) : Cx.sqrt (cj z) = cj (Cx.sqrt z) := by
  refine toC_inj ?_
  rw [toC_sqrt, cj_toC, cj_toC, toC_sqrt, Complex.conj_cpow _ _ (fun h => hz (Complex.arg_eq_pi_iff.mp h).2)]
  have : conj (1 / 2 : ℂ) = 1 / 2 := by rw [map_div₀, map_one, map_ofNat]
  rw [this]

theorem sqrt_im_ne {z : Cx (R S)} (hz : z.toC.im ≠ 0) : (Cx.sqrt z).toC.im ≠ 0 := by
  rw [toC_sqrt]
  intro h
  have h1 : (z.toC ^ (1 / 2 : ℂ)) ^ 2 = z.toC := by
    rw [← Complex.cpow_nat_mul]; simp
  apply hz
  rw [← h1, sq, Complex.mul_im, h]; ring

theorem cj_pow {z : Cx (R S)} (h0 : z.toC ≠ 0) (n : ℤ) : Cx.pow (cj z) n = cj (Cx.pow z n) := by
  refine toC_inj ?_
  rw [cj_toC, toC_pow (Or.inl h0), toC_pow (Or.inl (by rw [cj_toC]; simpa using h0)), cj_toC, map_zpow₀]

theorem clog_im_ne {u : ℝ} (hS : S.Lit u) {z : Cx (R S)} (hz : z.toC.im ≠ 0) : (clog z).toC.im ≠ 0 := by
  have : clog z = (⟨FOps.log (FOps.hypot z.re z.im), Cx.arg z⟩ : Cx (R S)) := by
    simp only [clog, im_eq0 hS.zero hz, Bool.false_and, Bool.false_eq_true, if_false]
  rw [this]
  exact arg_ne hz

theorem liSeriesLoop_cj (n : ℤ) (z : Cx (R S)) : ∀ (fuel : ℕ) (k : ℤ) (s p : Cx (R S)),
    liSeriesLoop n (cj z) fuel k (cj s) (cj p) = cj (liSeriesLoop n z fuel k s p) := by
  have hfin : ∀ p : Cx (R S), cisFinite p = true := fun p => by simp [cisFinite, isfinite_R]
  intro fuel
  induction fuel with
  | zero =>
    intro k s p
    unfold liSeriesLoop
    simp only [hfin, Bool.not_true, Bool.false_eq_true, if_false, ← cj_add, Cx.bne, cj_beq]
    split_ifs <;> simp only [*, if_true, Bool.false_eq_true, if_false]
  | succ fuel ih =>
    intro k s p
    unfold liSeriesLoop
    simp only [hfin, Bool.not_true, Bool.false_eq_true, if_false, ← cj_add, ← cj_mulr, ← cj_mul, Cx.bne, cj_beq, ih]
    split_ifs <;> simp only [*, if_true, Bool.false_eq_true, if_false]

theorem liSeries_cj {u : ℝ} (hS : S.Lit u) (n : ℤ) (z : Cx (R S)) : liSeries n (cj z) = cj (liSeries n z) := by
  unfold liSeries
  rw [← liSeriesLoop_cj, cj_zero hS]

theorem ofInt_ne {k : ℤ} (hk : k ≠ 0) : ofR (FOps.ofInt k : R S) ≠ 0 := by rw [ofR_ofInt]; exact_mod_cast hk

/-- conjugation of the value of a computation -/
def cjM (a : M (Cx (R S))) : M (Cx (R S)) := a >>= fun v => pure (cj v)

theorem cjM_bind {α : Type} (a : M α) (f : α → M (Cx (R S))) : cjM (a >>= f) = a >>= fun v => cjM (f v) := by
  unfold cjM; cases a <;> rfl

theorem cjM_pure (a : Cx (R S)) : cjM (pure a) = pure (cj a) := rfl
theorem cjM_ite (c : Prop) [Decidable c] (a b : M (Cx (R S))) : cjM (if c then a else b) = if c then cjM a else cjM b := by split <;> rfl
theorem cjM_if (c : Prop) [i1 : Decidable c] [i2 : Decidable c] {a b a' b' : M (Cx (R S))} (h1 : c → a = cjM a') (h2 : ¬c → b = cjM b') :
    @ite _ c i1 a b = cjM (@ite _ c i2 a' b') := by
  by_cases h : c
  · rw [if_pos h, if_pos h, h1 h]
  · rw [if_neg h, if_neg h, h2 h]
theorem cjM_throw (e : Fault) : cjM (throw e : M (Cx (R S))) = throw e := rfl

theorem liUnityPosLoop1_cj (n : ℤ) (l : Cx (R S)) : ∀ (fuel : ℕ) (j : ℤ) (s p : Cx (R S)), 1 ≤ j →
    liUnityPosLoop1 n (cj l) fuel j (cj s) (cj p) = liUnityPosLoop1 n l fuel j s p >>= fun r => pure (cj r.1, cj r.2) := by
  intro fuel
  induction fuel with
  | zero => intro j s p _; rfl
  | succ fuel ih =>
    intro j s p hj
    unfold liUnityPosLoop1
    rw [← cj_divr _ (ofInt_ne (by omega)), ← cj_mul]
    simp only [bind_assoc]
    congr 1; funext a; congr 1; funext b
    rw [← cj_rmul, ← cj_add, ih _ _ _ (by omega)]

theorem liUnityPosLoop2_cj (n : ℤ) (l : Cx (R S)) : ∀ (fuel : ℕ) (j : ℤ) (s p : Cx (R S)), 2 ≤ j →
    liUnityPosLoop2 n (cj l) fuel j (cj s) (cj p) = cjM (liUnityPosLoop2 n l fuel j s p) := by
  intro fuel
  induction fuel with
  | zero => intro j s p _; rfl
  | succ fuel ih =>
    intro j s p hj
    unfold liUnityPosLoop2
    split_ifs
    · simp only [cjM_bind]
      have h1 : ∀ v, i64sub j 1 = .ok v → v = j - 1 := fun v h => by
        unfold i64sub i64 at h; split_ifs at h; exact (Except.ok.inj h).symm
      rcases hv : i64sub j 1 with e | v
      · rfl
      rw [h1 v hv]
      simp only [bind_ok]
      have h2 : ∀ w, i64mul (j - 1) j = .ok w → w = (j - 1) * j := fun w h => by
        unfold i64mul i64 at h; split_ifs at h; exact (Except.ok.inj h).symm
      rcases hw : i64mul (j - 1) j with e | w
      · rfl
      have hw0 : w ≠ 0 := by
        rw [h2 w hw]; exact mul_ne_zero (by omega) (by omega)
      simp only [bind_ok]
      congr 1; funext a; congr 1; funext b
      rw [← cj_divr _ (ofInt_ne hw0), ← cj_mul, ← cj_rmul, ← cj_add, cj_beq, cjM_ite, cjM_pure, cjM_bind]
      split_ifs
      · rfl
      · rcases hx : i64add j 2 with e | x
        · rfl
        simp only [bind_ok]
        refine ih _ _ _ ?_
        have : x = j + 2 := by
          unfold i64add i64 at hx; split_ifs at hx; exact (Except.ok.inj hx).symm
        omega
    · rfl

theorem i64_val {v w : ℤ} (h : i64 v = .ok w) : w = v := by
  unfold i64 at h; split_ifs at h; exact (Except.ok.inj h).symm

theorem liUnityPos_cj {u : ℝ} (hS : S.Lit u) (n : ℤ) (hn : 7 ≤ n) (z : Cx (R S)) (hz : z.toC.im ≠ 0) :
    liUnityPos n (cj z) = cjM (liUnityPos n z) := by
  have hl := cj_clog hS hz
  have hl2 : clog (∸(cj (clog z))) = cj (clog (∸(clog z))) := by
    rw [← cj_neg, cj_clog hS (neg_im_ne (clog_im_ne hS hz))]
  unfold liUnityPos
  simp only [cjM_bind, hl, hl2]
  rcases (zeta n : M (R S)) with e | zn
  · rfl
  rcases h1 : i64sub n 1 with e | n1
  · rfl
  have hn1 : n1 = n - 1 := i64_val h1
  simp only [bind_ok]
  have c1 : ∀ x : R S, cj (⟨x, FOps.lit 0⟩ : Cx (R S)) = ⟨x, FOps.lit 0⟩ := fun x => cj_ofReal hS x
  have hL := liUnityPosLoop1_cj n (clog z) (n1 - 1).toNat 1 ⟨zn, FOps.lit 0⟩ ⟨FOps.lit 1, FOps.lit 0⟩ le_rfl
  rw [c1, c1] at hL
  rw [hL]
  simp only [bind_assoc, pure_bind]
  congr 1; funext sp
  rcases (harmonic n1 : M (R S)) with e | h
  · rfl
  rcases (zeta 0 : M (R S)) with e | z0
  · rfl
  rcases ha : i64add n 1 with e | na
  · rfl
  have hna : na = n + 1 := i64_val ha
  rcases (zeta (-1) : M (R S)) with e | zm1
  · rfl
  rcases h3 : i64add n 3 with e | j
  · rfl
  have hj : j = n + 3 := i64_val h3
  simp only [bind_ok]
  rw [← cj_divr (clog z) (ofInt_ne (k := n1) (by omega)), ← cj_divr (clog z) (ofInt_ne (k := n) (by omega)),
    ← cj_divr (clog z) (ofInt_ne (k := na) (by omega))]
  simp only [← cj_mul, ← cj_rmul, ← cj_rsub, ← cj_add]
  exact liUnityPosLoop2_cj n _ _ _ _ _ (by omega)

theorem powi_zpow_R {x : R S} (hx : ofR x ≠ 0) (n : ℤ) : ofR (powi x n) = ofR x ^ n := by
  show realPow S.powJ (ofR x) ((n : ℤ) : ℝ) = _
  unfold realPow
  split_ifs with h1 h2 h3 h4
  · exact Real.rpow_intCast _ _
  · exact absurd h2.1 hx
  · rw [Int.floor_intCast]
  · exact absurd ⟨hx, n, rfl⟩ h3
  · exact absurd ⟨hx, n, rfl⟩ h3

theorem stablePow_cj {u : ℝ} (hS : S.Lit u) (n : ℤ) (z : Cx (R S)) (hz : z.toC.im ≠ 0) : stablePow (cj z) n = cjM (stablePow z n) := by
  have hz' : ofR z.im ≠ 0 := hz
  have hm : ofR (∸z.im) ≠ 0 := by rw [ofR_neg]; simpa using hz'
  unfold stablePow
  simp only [im_eq0 hS.zero hz, im_eq0 hS.zero (cj_ne z hz), Bool.false_eq_true, if_false]
  have ev : n.tmod 2 = 0 → powi (∸z.im) n = powi z.im n := fun h => by
    have : ofR (powi (∸z.im) n) = ofR (powi z.im n) := by
      rw [powi_zpow_R hm, powi_zpow_R hz', ofR_neg, Even.neg_zpow (even_iff_two_dvd.mpr (Int.dvd_of_tmod_eq_zero h))]
    exact this
  have od : n.tmod 2 ≠ 0 → powi (∸z.im) n = ∸(powi z.im n) := fun h => by
    have : ofR (powi (∸z.im) n) = ofR (∸(powi z.im n)) := by
      rw [powi_zpow_R hm, ofR_neg, ofR_neg, powi_zpow_R hz', Odd.neg_zpow (by rw [← Int.not_even_iff_odd, even_iff_two_dvd]; exact fun h' => h (Int.tmod_eq_zero_of_dvd h'))]
    exact this
  have n0 : (∸(FOps.lit 0 : R S)) = FOps.lit 0 := by
    show -((S.rho 0 : ℚ) : ℝ) = ((S.rho 0 : ℚ) : ℝ)
    rw [hS.zero]; simp
  rcases h1 : (z.re ==. (FOps.lit 0 : R S)) with _ | _
  · have h1' : ((cj z).re ==. (FOps.lit 0 : R S)) = false := h1
    simp only [h1, h1', Bool.false_eq_true, if_false, cjM_pure, cj_pow (toC_ne hz)]
  · have h1' : ((cj z).re ==. (FOps.lit 0 : R S)) = true := h1
    simp only [h1, h1', if_true]
    rw [show (cj z).im = ∸z.im from rfl]
    split_ifs with h2 h3
    · rw [cjM_pure, cj_mk, ev (Int.tmod_eq_zero_of_dvd (Dvd.dvd.trans (by norm_num) (Int.dvd_of_tmod_eq_zero h2))), n0]
    · rw [cjM_pure, cj_mk, ev h3, n0]
    · rw [cjM_bind]
      congr 1; funext n1
      rw [cjM_ite, cjM_pure, cjM_pure, cj_mk, cj_mk, od h3]

theorem liUnityNegLoop_cj (n : ℤ) (l : Cx (R S)) : ∀ (fuel : ℕ) (k : ℤ) (s p : Cx (R S)),
    liUnityNegLoop n (cj l) fuel k (cj s) (cj p) = cjM (liUnityNegLoop n l fuel k s p) := by
  have hfin : ∀ p : Cx (R S), cisFinite p = true := fun p => by simp [cisFinite, isfinite_R]
  intro fuel
  induction fuel with
  | zero => intro k s p; rfl
  | succ fuel ih =>
    intro k s p
    unfold liUnityNegLoop
    simp only [hfin, Bool.not_true, Bool.false_eq_true, if_false, cjM_bind, ← cj_rmul, ← cj_add, ← cj_mul, Cx.bne, cj_beq, ih]
    congr 1; funext a; congr 1; funext b; congr 1; funext c; congr 1; funext d
    split <;> simp only [*, if_true, if_false, Bool.false_eq_true, cjM_pure]

theorem liUnityNeg_cj {u : ℝ} (hS : S.Lit u) (n : ℤ) (z : Cx (R S)) (hz : z.toC.im ≠ 0) : liUnityNeg n (cj z) = cjM (liUnityNeg n z) := by
  have hl := cj_clog hS hz
  have hl2 := neg_im_ne (clog_im_ne hS hz)
  unfold liUnityNeg
  simp only [cjM_bind, hl, ← cj_neg, stablePow_cj hS _ _ hl2, cjM_ite]
  congr 1; funext n1
  rw [cjM, bind_assoc]
  congr 1; funext sp
  simp only [pure_bind]
  congr 1; funext n2
  simp only [← cj_mul, ← cj_rmul, ← cj_addr, liUnityNegLoop_cj]

theorem liRestLoop_cj {u : ℝ} (hS : S.Lit u) (n : ℤ) (l : Cx (R S)) : ∀ (k : ℕ) (s p : Cx (R S)),
    liRestLoop n (cj l) k (cj s) (cj p) = liRestLoop n l k s p >>= fun r => pure (r.1.map cj, cj r.2.1, cj r.2.2) := by
  intro k
  induction k with
  | zero => intro s p; rfl
  | succ k ih =>
    intro s p
    unfold liRestLoop
    simp only [bind_assoc]
    congr 1; funext a; congr 1; funext b; congr 1; funext c
    rw [← cj_zero hS]
    simp only [← cj_rmul, ← cj_add, ← cj_mul, cj_beq, ih]
    rw [cj_zero hS]
    split_ifs
    · rfl
    · simp only [bind_assoc]
      congr 1; funext d
      split_ifs <;> rfl

theorem liRest_cj {u : ℝ} (hS : S.Lit u) (n : ℤ) (z : Cx (R S)) (hz : z.toC.im ≠ 0) : liRest n (cj z) = cjM (liRest n z) := by
  have hl : clog (∸(cj z)) = cj (clog (∸z)) := by rw [← cj_neg, cj_clog hS (neg_im_ne hz)]
  unfold liRest
  have hp : (if isEven n then (Cx.ofReal (FOps.lit 1) : Cx (R S)) else cj (clog (∸z))) = cj (if isEven n then Cx.ofReal (FOps.lit 1) else clog (∸z)) := by
    split <;> simp only [cj_ofReal hS]
  simp only [hl, hp, ← cj_mul, cjM_bind]
  rw [← cj_zero hS, liRestLoop_cj hS, cj_zero hS]
  simp only [bind_assoc, pure_bind]
  congr 1; funext r
  rcases hr : r.1 with _ | v
  · simp only [Option.map_none, cjM_bind, cjM_pure, ← cj_mulr, ← cj_rmul, ← cj_sub]
  · rfl

theorem beqr_false {u : ℝ} (hS : S.Lit u) {z : Cx (R S)} (hz : z.toC.im ≠ 0) (x : R S) : Cx.beqr z x = false := by
  simp only [Cx.beqr, im_eq0 hS.zero hz, Bool.and_false]

theorem rsub_im_ne {z : Cx (R S)} (hz : z.toC.im ≠ 0) (x : R S) : (x -. z).toC.im ≠ 0 := by
  rw [toC_rsub]; simpa using hz

theorem Li_cj {u : ℝ} (hS : S.Lit u) (n : ℤ) : ∀ (fuel : ℕ) (z : Cx (R S)), z.toC.im ≠ 0 → Li fuel n (cj z) = cjM (Li fuel n z) := by
  have key : ∀ (z : Cx (R S)), z.toC.im ≠ 0 → ∀ X Y : M (Cx (R S)), X = cjM Y → 
      (if n < -1 then (if (FOps.lit 4 : R S) *. (FOps.lit 3.1415926535897932 : R S) *. (FOps.lit 3.1415926535897932 : R S) *. Cx.norm (cj z) <. Cx.norm (clog (cj z)) then pure (liSeries n (cj z))
        else if Cx.norm (clog (cj z)) <. (FOps.lit 0.512 : R S) *. (FOps.lit 0.512 : R S) *. (FOps.lit 4 : R S) *. (FOps.lit 3.1415926535897932 : R S) *. (FOps.lit 3.1415926535897932 : R S) then liUnityNeg n (cj z) else X)
        else if n = -1 then pure (cj z /. (((FOps.lit 1 : R S) -. cj z) *. ((FOps.lit 1 : R S) -. cj z)))
  else if n = 0 then pure (cj z /. ((FOps.lit 1 : R S) -. cj z))
  else if n = 1 then pure (∸(clog ((FOps.lit 1 : R S) -. cj z)))
  else if n = 2 then pure (cLi2d (cj z))
  else if n = 3 then pure (cLi3d (cj z))
  else if n = 4 then pure (cLi4d (cj z))
  else if n = 5 then pure (cLi5d (cj z))
  else if n = 6 then pure (cLi6d (cj z))
  else if Cx.norm (cj z) <=. (FOps.lit 0.75 : R S) *. (FOps.lit 0.75 : R S) then pure (liSeries n (cj z))
  else if Cx.norm (cj z) >=. (FOps.lit 1.4 : R S) *. (FOps.lit 1.4 : R S) then do
    let r ← liRest n (cj z)
    pure ((if isEven n then ∸(FOps.lit 1 : R S) else FOps.lit 1) *. liSeries n ((FOps.lit 1 : R S) /. cj z) +. r)
  else liUnityPos n (cj z)) = cjM
      (if n < -1 then (if (FOps.lit 4 : R S) *. (FOps.lit 3.1415926535897932 : R S) *. (FOps.lit 3.1415926535897932 : R S) *. Cx.norm z <. Cx.norm (clog z) then pure (liSeries n z)
        else if Cx.norm (clog z) <. (FOps.lit 0.512 : R S) *. (FOps.lit 0.512 : R S) *. (FOps.lit 4 : R S) *. (FOps.lit 3.1415926535897932 : R S) *. (FOps.lit 3.1415926535897932 : R S) then liUnityNeg n z else Y)
        else if n = -1 then pure (z /. (((FOps.lit 1 : R S) -. z) *. ((FOps.lit 1 : R S) -. z)))
  else if n = 0 then pure (z /. ((FOps.lit 1 : R S) -. z))
  else if n = 1 then pure (∸(clog ((FOps.lit 1 : R S) -. z)))
  else if n = 2 then pure (cLi2d z)
  else if n = 3 then pure (cLi3d z)
  else if n = 4 then pure (cLi4d z)
  else if n = 5 then pure (cLi5d z)
  else if n = 6 then pure (cLi6d z)
  else if Cx.norm z <=. (FOps.lit 0.75 : R S) *. (FOps.lit 0.75 : R S) then pure (liSeries n z)
  else if Cx.norm z >=. (FOps.lit 1.4 : R S) *. (FOps.lit 1.4 : R S) then do
    let r ← liRest n z
    pure ((if isEven n then ∸(FOps.lit 1 : R S) else FOps.lit 1) *. liSeries n ((FOps.lit 1 : R S) /. z) +. r)
  else liUnityPos n z) := by
    intro z hz X Y hXY
    have h1 := rsub_im_ne hz (FOps.lit 1 : R S)
    have h2 : ((FOps.lit 1 : R S) -. z).toC ≠ 0 := toC_ne h1
    have h3 : (((FOps.lit 1 : R S) -. z) *. ((FOps.lit 1 : R S) -. z)).toC ≠ 0 := by rw [toC_mul]; exact mul_ne_zero h2 h2
    have hn1 : Cx.norm (clog (cj z)) = Cx.norm (clog z) := by rw [cj_clog hS hz, cj_norm]
    rw [hn1, cj_norm]
    refine cjM_if _ (fun _ => ?_) (fun _ => ?_)
    · refine cjM_if _ (fun _ => ?_) (fun _ => cjM_if _ (fun _ => ?_) (fun _ => hXY))
      · rw [liSeries_cj hS]; rfl
      · exact liUnityNeg_cj hS n z hz
    refine cjM_if _ (fun _ => ?_) (fun _ => ?_)
    · rw [← cj_rsub, ← cj_mul, ← cj_div _ h3]; rfl
    refine cjM_if _ (fun _ => ?_) (fun _ => ?_)
    · rw [← cj_rsub, ← cj_div _ h2]; rfl
    refine cjM_if _ (fun _ => ?_) (fun _ => ?_)
    · rw [← cj_rsub, cj_clog hS h1, ← cj_neg]; rfl
    refine cjM_if _ (fun _ => ?_) (fun _ => ?_)
    · rw [cLi2d_cj hS z hz]; rfl
    refine cjM_if _ (fun _ => ?_) (fun _ => ?_)
    · rw [cLi3d_cj hS z hz]; rfl
    refine cjM_if _ (fun _ => ?_) (fun _ => ?_)
    · rw [cLi4d_cj hS z hz]; rfl
    refine cjM_if _ (fun _ => ?_) (fun _ => ?_)
    · rw [cLi5d_cj hS z hz]; rfl
    refine cjM_if _ (fun _ => ?_) (fun _ => ?_)
    · rw [cLi6d_cj hS z hz]; rfl
    refine cjM_if _ (fun _ => ?_) (fun _ => ?_)
    · rw [liSeries_cj hS]; rfl
    refine cjM_if _ (fun _ => ?_) (fun _ => ?_)
    · rw [liRest_cj hS n z hz, ← cj_rdiv hS.zero _ (toC_ne hz), liSeries_cj hS]
      simp only [cjM, bind_assoc, pure_bind, cj_add, cj_rmul]
    · exact liUnityPos_cj hS n (by omega) z hz
  intro fuel
  induction fuel with
  | zero =>
    intro z hz
    unfold Li
    simp only [isnan_R, isinf_R, Bool.or_self, Bool.false_eq_true, if_false, beqr_false hS hz, beqr_false hS (cj_ne z hz)]
    exact key z hz _ _ rfl
  | succ fuel ih =>
    intro z hz
    unfold Li
    simp only [isnan_R, isinf_R, Bool.or_self, Bool.false_eq_true, if_false, beqr_false hS hz, beqr_false hS (cj_ne z hz)]
    refine key z hz _ _ ?_
    have hs := sqrt_im_ne hz
    rw [cj_sqrt hz, ← cj_neg, ih _ hs, ih _ (neg_im_ne hs)]
    simp only [cjM_bind, cjM_pure]
    congr 1; funext n1
    rcases Li fuel n (Cx.sqrt z) with e | a
    · rfl
    rcases Li fuel n (∸(Cx.sqrt z)) with e | b
    · rfl
    show Except.ok _ = Except.ok _
    rw [cj_rmul, cj_add]

/-- **C27**, the general `Li(n, z)`: for every integer `n`, every `z` off the real axis and every recursion budget, the call at the
conjugate argument succeeds exactly when the call at `z` does (it has the same fault otherwise), and returns the conjugate value. -/
theorem C27_Li {u : ℝ} (hS : S.Lit u) (fuel : ℕ) (n : ℤ) (z : ℂ) (hz : z.im ≠ 0) :
    (∀ w, Li fuel n (ofC S z) = .ok w → ∃ w', Li fuel n (ofC S (conj z)) = .ok w' ∧ w'.toC = conj w.toC) ∧
    (∀ e, Li fuel n (ofC S z) = .error e → Li fuel n (ofC S (conj z)) = .error e) := by
  have h := Li_cj hS n fuel (ofC S z) hz
  constructor
  · intro w hw
    refine ⟨cj w, ?_, cj_toC w⟩
    rw [show ofC S (conj z) = cj (ofC S z) from rfl, h, hw]; rfl
  · intro e he
    rw [show ofC S (conj z) = cj (ofC S z) from rfl, h, he]; rfl

/-- the hypotheses are met, e.g. by `i` and by `-2 - 3i` -/
example : (Complex.I).im ≠ 0 ∧ (⟨-2, -3⟩ : ℂ).im ≠ 0 := by norm_num

end Polylog
