import Verif.Props.Li2Real
import Verif.Proofs.CutIm
import Verif.Proofs.BserVals
import Verif.Proofs.CoefCert
import Verif.Proofs.LogRegion

/-! # C17, C33: the complex dilogarithm -/

noncomputable section
namespace Polylog
open Complex Finset

variable {S : RealSem}

section
variable {F : Type} [FOps F]
local notation:max "♯" q:max => (FOps.lit (q : ℚ) : F)

/-- common shape of the complex dilogarithms (used in proofs only) -/
def cLi2Gen (PI : F) (Li2r : F → F) {n : Nat} (bf : Vector ℚ (n + 2)) (z : Cx F) : Cx F :=
  let rz := z.re
  let iz := z.im
  if iz ==. ♯0 then
    if rz <=. ♯1 then ⟨(Li2r rz), iz⟩
    else ⟨(Li2r rz), ∸PI *. (xlog rz)⟩
  else
    let nz := (Cx.norm z)
    if nz <. FOps.eps then z *. (♯1 +. ♯0.25 *. z)
    else
      let fin (u rest : Cx F) (sgn : F) : Cx F :=
        let u2 := u *. u
        sgn *. (u +. u2 *. (♯(bf[0]) +. u *. (hornerC 1 u2 bf))) +. rest
      if rz <=. ♯0.5 then
        if nz >. ♯1 then
          let lz := (xlog (∸z))
          fin (∸(clog1p (∸♯1 /. z))) (∸♯0.5 *. lz *. lz -. PI *. PI /. ♯6) ∸♯1
        else
          fin (∸(clog1p (∸z))) (Cx.ofReal ♯0) ♯1
      else
        if nz <=. ♯2 *. rz then
          let u := ∸(xlog z)
          fin u (u *. (clog1p (∸z)) +. PI *. PI /. ♯6) ∸♯1
        else
          let lz := (xlog (∸z))
          fin (∸(clog1p (∸♯1 /. z))) (∸♯0.5 *. lz *. lz -. PI *. PI /. ♯6) ∸♯1

theorem cLi2f_gen (z : Cx F) : cLi2f z = cLi2Gen ♯3.14159265 Li2f cli2fBf z := rfl
theorem cLi2d_gen (z : Cx F) : cLi2d z = cLi2Gen ♯3.1415926535897932 Li2d cli2dBf z := rfl
theorem cLi2l_gen (Li2r : F → F) {n : Nat} (bf : Vector ℚ (n + 2)) (z : Cx F) :
    cLi2l Li2r bf z = cLi2Gen ♯3.14159265358979323846264338327950288 Li2r bf z := rfl
end

/-- the table `bf` as the coefficient list of a polynomial in `u` -/
def bfT {n : ℕ} (bf : Vector ℚ (n + 2)) : List ℚ :=
  (List.range (2 * (n + 2))).map fun k : ℕ =>
    if k = 0 then 1 else if k = 1 then bf[0] else if k % 2 = 0 then bf.toList.getD (k / 2) 0 else 0

theorem sum_range_pairs {M : Type*} [AddCommMonoid M] (f : ℕ → M) (m : ℕ) :
    ∑ k ∈ range (2 * m), f k = ∑ i ∈ range m, (f (2 * i) + f (2 * i + 1)) := by
  induction m with
  | zero => simp
  | succ m ih => rw [mul_add, mul_one, sum_range_succ, sum_range_succ, ih, sum_range_succ, add_assoc]

theorem bfT_get {n : ℕ} (bf : Vector ℚ (n + 2)) (k : ℕ) (hk : k < 2 * (n + 2)) : (bfT bf).getD k 0 =
    if k = 0 then (1 : ℚ) else if k = 1 then bf[0] else if k % 2 = 0 then bf.toList.getD (k / 2) 0 else 0 := by
  rw [List.getD_eq_getElem _ _ (by simpa [bfT] using hk)]
  simp [bfT]

theorem fin_poly {u : ℝ} (hS : S.Lit u) {n : ℕ} (hn : 1 ≤ n) (bf : Vector ℚ (n + 2)) (w : Cx (R S)) :
    (w +. (w *. w) *. ((FOps.lit bf[0] : R S) +. w *. (hornerC 1 (w *. w) bf))).toC =
      w.toC * ∑ k ∈ range (2 * (n + 2)), (((S.rho ((bfT bf).getD k 0) : ℚ) : ℝ) : ℂ) * w.toC ^ k := by
  have h1 := C06_hornerC 1 hn (w *. w) bf
  rw [toC_add, toC_mul, toC_mul, toC_radd, toC_mul, h1, toC_mul, ofR_lit, sum_range_pairs, sum_range_succ', Finset.sum_filter,
    Fin.sum_univ_succ]
  simp only [Fin.val_zero, Fin.val_succ]
  simp only [show ¬ (1 ≤ 0) by omega, if_false, Nat.le_add_left, if_true, add_tsub_cancel_right, zero_add, mul_zero, pow_zero, mul_one, pow_one]
  rw [bfT_get bf 0 (by omega), if_pos rfl, bfT_get bf 1 (by omega), if_neg one_ne_zero, if_pos rfl, hS.one]
  have e : ∀ i ∈ range (n + 1), (((S.rho ((bfT bf).getD (2 * (i + 1)) 0) : ℚ) : ℝ) : ℂ) * w.toC ^ (2 * (i + 1))
      + (((S.rho ((bfT bf).getD (2 * (i + 1) + 1) 0) : ℚ) : ℝ) : ℂ) * w.toC ^ (2 * (i + 1) + 1)
      = (((S.rho (bf.toList.getD (i + 1) 0) : ℚ) : ℝ) : ℂ) * (w.toC ^ 2 * (w.toC * w.toC) ^ i) := by
    intro i hi
    rw [mem_range] at hi
    rw [bfT_get bf _ (by omega), bfT_get bf _ (by omega), if_neg (by omega), if_neg (by omega), if_pos (by omega),
      if_neg (by omega), if_neg (by omega), if_neg (by omega), hS.zero, show 2 * (i + 1) / 2 = i + 1 by omega]
    push_cast; ring
  rw [Finset.sum_congr rfl e, Finset.sum_range]
  have e2 : ∀ i : Fin (n + 1), bf.toList.getD (i.1 + 1) 0 = bf[i.1 + 1] := by
    intro i
    rw [List.getD_eq_getElem _ _ (by simp; omega)]; simp
  simp only [e2]
  rw [Finset.sum_congr rfl (fun (i : Fin (n + 1)) _ => mul_left_comm _ (w.toC ^ 2) _), ← Finset.mul_sum]
  push_cast; ring

/-- the documented special argument of the series: on the unit disc about 1, right of `1/2` -/
theorem bser_tab {u : ℝ} (hS : S.Lit u) {n : ℕ} (hn : 1 ≤ n) (bf : Vector ℚ (n + 2)) (hl : 2 * (n + 2) ≤ 64) {A B : ℤ}
    (hA : perr (11/10) 64 (bfT bf) bserT1 ≤ A) (hB : psize (11/10) 64 (bfT bf) ≤ B) (w : Cx (R S)) (hw : ‖w.toC‖ ≤ 1.1) :
    ‖(w +. (w *. w) *. ((FOps.lit bf[0] : R S) +. w *. (hornerC 1 (w *. w) bf))).toC - w.toC * psum (bserC 1) w.toC‖
      ≤ 1.1 * (A / 10 ^ 60 + 1e-46 + u * (B / 10 ^ 60)) := by
  rw [fin_poly hS hn, ← mul_sub, norm_mul]
  refine mul_le_mul hw ?_ (norm_nonneg _) (by norm_num)
  rw [norm_sub_rev]
  have h := coef_cert (a := bserC 1) (e := 0) (C := 4 ^ 1) hS.u_nonneg (R := 11/10) (t := bfT bf) (q := bserT1) (K := 64)
    (T := fun k => ((S.rho ((bfT bf).getD k 0) : ℚ) : ℝ)) (bserC_bound 1) (by norm_num) (by norm_num)
    (by simpa [bfT] using hl) (fun k hk => by rw [bserT1_eq.2 k hk, bserC, sub_self, norm_zero]) (fun k => hS.rel _)
    (z := w.toC) (by push_cast; linarith) (N := 2 * (n + 2)) (by simp [bfT])
  refine h.trans ?_
  have hA' : (perr (11/10) 64 (bfT bf) bserT1 : ℝ) ≤ A := by exact_mod_cast hA
  have hB' : (psize (11/10) 64 (bfT bf) : ℝ) ≤ B := by exact_mod_cast hB
  have h3 : u * ((psize (11/10) 64 (bfT bf) : ℝ) / 10 ^ 60) ≤ u * (B / 10 ^ 60) :=
    mul_le_mul_of_nonneg_left (by gcongr) hS.u_nonneg
  have h4 : (perr (11/10) 64 (bfT bf) bserT1 : ℝ) / 10 ^ 60 ≤ A / 10 ^ 60 := by gcongr
  have h5 : (4:ℝ) ^ 1 * (((11/10 : ℚ) : ℝ) / 6.28) ^ 64 / (1 - ((11/10 : ℚ) : ℝ) / 6.28) ≤ 1e-46 := by
    push_cast; norm_num
  linarith

/-- the error of `z (1 + z/4)` for small `z` -/
theorem li2_small {z : ℂ} (hz : ‖z‖ ≤ 1 / 100) : ‖z * (1 + 0.25 * z) - pLi 2 z‖ ≤ ‖z‖ ^ 3 := by
  have h := pLi_hasSum 0 z (by linarith)
  have h2 := ((hasSum_nat_add_iff' 2).mpr h)
  simp only [sum_range_succ, range_zero, sum_empty, zero_add] at h2
  have e : pLi 2 z - (z ^ 1 / ((0:ℕ) + 1 : ℂ) ^ 2 + z ^ (1 + 1) / ((1:ℕ) + 1 : ℂ) ^ 2) = -(z * (1 + 0.25 * z) - pLi 2 z) := by
    push_cast; ring
  rw [e] at h2
  rw [← norm_neg]
  have hg : HasSum (fun k : ℕ => ‖z‖ ^ 3 / 9 * (1/100 : ℝ) ^ k) (‖z‖ ^ 3 / 9 * (1 - 1/100)⁻¹) :=
    (hasSum_geometric_of_lt_one (by norm_num) (by norm_num)).mul_left _
  refine (h2.norm_le_of_bounded hg fun k => ?_).trans ?_
  · rw [norm_div, norm_pow, norm_pow]
    have e1 : ‖(((k + 2 : ℕ) : ℂ) + 1)‖ = (k:ℝ) + 3 := by
      rw [show (((k + 2 : ℕ) : ℂ) + 1) = ((k + 3 : ℕ) : ℂ) by push_cast; ring, Complex.norm_natCast]; push_cast; ring
    rw [e1, show k + 2 + 1 = 3 + k by ring, pow_add, div_mul_eq_mul_div]
    have h3 : ‖z‖ ^ k ≤ (1/100 : ℝ) ^ k := pow_le_pow_left₀ (norm_nonneg _) hz k
    have h4 : (9:ℝ) ≤ ((k:ℝ) + 3) ^ 2 := by nlinarith [(Nat.cast_nonneg k : (0:ℝ) ≤ k)]
    gcongr
  · have := pow_nonneg (norm_nonneg z) 3
    norm_num
    linarith

/-- which of the four expansions is used, and its argument `u`, for `z` off the real axis -/
theorem li2_region {z : ℂ} (hz : z.im ≠ 0) :
    (z.re ≤ 1 / 2 → 1 < normSq z → ‖log (1 - 1 / z)‖ ≤ 1.1) ∧
    (z.re ≤ 1 / 2 → normSq z ≤ 1 → ‖log (1 - z)‖ ≤ 1.1) ∧
    (1 / 2 < z.re → normSq z ≤ 2 * z.re → ‖log z‖ ≤ 1.1) ∧
    (1 / 2 < z.re → 2 * z.re < normSq z → ‖log (1 - 1 / z)‖ ≤ 1.1) := by
  have z0 : z ≠ 0 := fun h => hz (by rw [h, zero_im])
  have hn0 : 0 < normSq z := normSq_pos.mpr z0
  have hinv : (1 - 1 / z).re = 1 - z.re / normSq z := by simp [Complex.inv_re]
  have hinvn : ‖1 - (1 - 1 / z)‖ = 1 / ‖z‖ := by rw [sub_sub_cancel, norm_div, norm_one]
  refine ⟨fun h1 h2 => ?_, fun h1 h2 => ?_, fun h1 h2 => ?_, fun h1 h2 => ?_⟩
  · refine norm_log_right ?_ ?_
    · rw [hinv]
      have : z.re / normSq z ≤ 1 / 2 := by rw [div_le_iff₀ hn0]; linarith
      linarith
    · rw [hinvn, div_le_one (norm_pos_iff.mpr z0)]
      rw [normSq_eq_norm_sq] at h2
      nlinarith [norm_nonneg z]
  · refine norm_log_right (by simp; linarith) ?_
    rw [sub_sub_cancel]
    rw [normSq_eq_norm_sq] at h2
    nlinarith [norm_nonneg z]
  · refine norm_log_right h1.le ?_
    have := norm_one_sub_sq z
    rw [← normSq_eq_norm_sq z] at this
    nlinarith [norm_nonneg (1 - z)]
  · refine norm_log_right ?_ ?_
    · rw [hinv]
      have : z.re / normSq z ≤ 1 / 2 := by rw [div_le_iff₀ hn0]; linarith
      linarith
    · rw [hinvn, div_le_one (norm_pos_iff.mpr z0)]
      rw [normSq_eq_norm_sq] at h2
      nlinarith [norm_nonneg z]

/-- accuracy off the real axis -/
theorem cLi2Gen_accuracy {u : ℝ} (hS : S.Lit u) (PI : R S) (Li2r : R S → R S) {n : ℕ} (hn : 1 ≤ n) (bf : Vector ℚ (n + 2))
    (hl : 2 * (n + 2) ≤ 64) {A B : ℤ} (hA : perr (11/10) 64 (bfT bf) bserT1 ≤ A) (hB : psize (11/10) 64 (bfT bf) ≤ B)
    {P E : ℝ} (hP : |ofR PI ^ 2 - Real.pi ^ 2| / 3 ≤ P) (hE : S.eps ≤ E ^ 2) (hE0 : 0 ≤ E) (hE1 : E ≤ 1 / 100)
    (z : ℂ) (hz : z.im ≠ 0) :
    ‖(cLi2Gen PI Li2r bf (ofC S z)).toC - pLi 2 z‖ ≤ max (E ^ 3) (1.1 * (A / 10 ^ 60 + 1e-46 + u * (B / 10 ^ 60)) + P / 2) := by
  have z0 : z ≠ 0 := fun h => hz (by rw [h, zero_im])
  have hzc : z ∈ cutPlane := by rw [mem_cutPlane]; right; exact hz
  have hzt : z ∈ twoCut := by rw [mem_twoCut]; right; exact hz
  have hzn : z ∈ negPlane := by rw [mem_negPlane]; right; exact hz
  have e5 : ((S.rho 0.5 : ℚ) : ℝ) = 1 / 2 := by rw [hS.half]; norm_num
  have e25 : ((S.rho 0.25 : ℚ) : ℝ) = 1 / 4 := by
    rw [hS.dy 0.25 1 2 (by norm_num) (by norm_num) (by norm_num)]; norm_num
  have hP0 : 0 ≤ P := le_trans (by positivity) hP
  obtain ⟨r1, r2, r3, r4⟩ := li2_region hz
  have hpi := Real.pi_gt_d2
  have hPI : ∀ s : ℝ, |s| = 1 → ‖((s * (ofR PI ^ 2 / 6 - Real.pi ^ 2 / 6) : ℝ) : ℂ)‖ ≤ P / 2 := by
    intro s hs
    rw [Complex.norm_real, Real.norm_eq_abs, abs_mul, hs, one_mul, ← sub_div, abs_div, abs_of_pos (show (0:ℝ) < 6 by norm_num)]
    linarith
  -- the series
  have hser : ∀ (w : Cx (R S)), ‖w.toC‖ ≤ 1.1 → ‖(w +. (w *. w) *. ((FOps.lit bf[0] : R S) +. w *. (hornerC 1 (w *. w) bf))).toC - w.toC * psum (bserC 1) w.toC‖
      ≤ 1.1 * (A / 10 ^ 60 + 1e-46 + u * (B / 10 ^ 60)) := fun w hw => bser_tab hS hn bf hl hA hB w hw
  set D := 1.1 * (A / 10 ^ 60 + 1e-46 + u * (B / 10 ^ 60) : ℝ) with hD
  have hD0 : 0 ≤ D := le_trans (norm_nonneg _) (hser (ofC S 0) (by rw [toC_ofC, norm_zero]; norm_num))
  -- inversion
  have hinv : ∀ w : Cx (R S), w.toC = -log (1 - 1 / z) → ‖log (1 - 1 / z)‖ ≤ 1.1 →
      ‖((∸(FOps.lit 1 : R S)) *. (w +. (w *. w) *. ((FOps.lit bf[0] : R S) +. w *. (hornerC 1 (w *. w) bf)))
        +. (∸(FOps.lit 0.5 : R S) *. (xlog (∸(ofC S z))) *. (xlog (∸(ofC S z))) -. PI *. PI /. (FOps.lit 6 : R S))).toC - pLi 2 z‖ ≤ D + P / 2 := by
    intro w hw hw2
    have hm := hser w (by rw [hw, norm_neg]; exact hw2)
    have hic : 1 / z ∈ cutPlane := by rw [one_div]; exact negPlane_cut (negPlane_inv hzn)
    have hb := pLi_bser_log 1 hic (by linarith)
    rw [← hw] at hb
    have hI := pLi_inversion_neg 2 z hzn
    rw [appell_two, ← one_div] at hI
    rw [toC_add, toC_subr, toC_mul, toC_rmul, toC_rmul, toC_log (by rw [toC_neg, toC_ofC]; exact neg_ne_zero.mpr z0), toC_neg, toC_ofC,
      ofR_div (by simp [rsem, hS.six]), ofR_mul, ofR_neg, ofR_neg, ofR_lit, ofR_lit, ofR_lit, hS.one, hS.six, e5]
    set V := (w +. (w *. w) *. ((FOps.lit bf[0] : R S) +. w *. (hornerC 1 (w *. w) bf))).toC
    have e : ((-((1:ℚ):ℝ) : ℝ) : ℂ) * V + (((-(1 / 2 : ℝ) : ℝ) : ℂ) * log (-z) * log (-z) - ((ofR PI * ofR PI / ((6:ℚ):ℝ) : ℝ) : ℂ)) - pLi 2 z
        = -(V - w.toC * psum (bserC 1) w.toC) + (((-1) * (ofR PI ^ 2 / 6 - Real.pi ^ 2 / 6) : ℝ) : ℂ) := by
      have : pLi 2 z = -log (-z) ^ 2 / 2 - (Real.pi:ℂ) ^ 2 / 6 - w.toC * psum (bserC 1) w.toC := by
        rw [← hb, ← hI]; ring
      rw [this]; push_cast; ring
    rw [e]
    refine (norm_add_le _ _).trans (add_le_add ?_ (hPI (-1) (by simp)))
    rw [norm_neg]; exact hm
  have hu1 : (∸(clog1p ((∸(FOps.lit 1 : R S)) /. (ofC S z)))).toC = -log (1 - 1 / z) := by
    have e1 : ((∸(FOps.lit 1 : R S)) /. (ofC S z) : Cx (R S)).toC = -1 / z := by
      rw [toC_rdiv hS.zero (by simpa using z0), ofR_neg, ofR_lit, hS.one, toC_ofC]; push_cast; rfl
    rw [toC_neg, C07_log1p hS _ (by
      rw [e1]; intro h
      rw [div_eq_iff z0] at h
      apply hz
      have : z = 1 := by linear_combination h
      rw [this, one_im]), e1]
    rw [neg_div, ← sub_eq_add_neg]
  have hlz1 : (clog1p (∸(ofC S z))).toC = log (1 - z) := by
    rw [C07_log1p hS _ (by
      rw [toC_neg, toC_ofC]; intro h
      apply hz
      have : z = 1 := by linear_combination -h
      rw [this, one_im]), toC_neg, toC_ofC, ← sub_eq_add_neg]
  unfold cLi2Gen
  simp only [lt_R, le_R, eq_R, gt_R, decide_eq_true_eq]
  simp only [rsem, hS.zero, hS.one, e5, e25, hS.two, Rat.cast_zero, Rat.cast_one, Rat.cast_ofNat]
  rw [if_neg hz]
  by_cases hsm : normSq z < S.eps
  · rw [if_pos hsm]
    refine le_trans ?_ (le_max_left _ _)
    have hzE : ‖z‖ ≤ E := by
      rw [normSq_eq_norm_sq] at hsm
      nlinarith [norm_nonneg z]
    have h1 := li2_small (z := z) (by linarith)
    have h2 : ‖z‖ ^ 3 ≤ E ^ 3 := pow_le_pow_left₀ (norm_nonneg _) hzE 3
    refine le_trans (le_of_eq ?_) (h1.trans h2)
    congr 1; push_cast; norm_num
  rw [if_neg hsm]
  refine le_trans ?_ (le_max_right _ _)
  by_cases h1 : z.re ≤ 1 / 2
  · rw [if_pos h1]
    by_cases h2 : 1 < normSq z
    · rw [if_pos h2]
      have := hinv _ hu1 (r1 h1 h2)
      simpa only [rsem, hS.zero, hS.one, e5, e25, hS.two, Rat.cast_zero, Rat.cast_one] using this
    · rw [if_neg h2]
      have hw := r2 h1 (not_lt.mp h2)
      have hm := hser (∸(clog1p (∸(ofC S z)))) (by rw [toC_neg, norm_neg, hlz1]; exact hw)
      have hb := pLi_bser_log 1 hzc (by linarith)
      have ew : (∸(clog1p (∸(ofC S z)))).toC = -log (1 - z) := by rw [toC_neg, hlz1]
      rw [ew, ← hb] at hm
      simp only [rsem] at hm ⊢
      push_cast at hm ⊢
      rw [one_mul, add_zero]
      linarith
  · rw [if_neg h1]
    push Not at h1
    by_cases h2 : normSq z ≤ 2 * z.re
    · rw [if_pos h2]
      have hw := r3 h1 h2
      have ew : (∸(xlog (ofC S z))).toC = -log z := by
        rw [toC_neg, toC_log (by simpa using z0), toC_ofC]
      have hm := hser (∸(xlog (ofC S z))) (by rw [ew, norm_neg]; exact hw)
      have h1c : 1 - z ∈ cutPlane := by rw [mem_cutPlane]; right; simpa using hz
      have hb := pLi_bser_log 1 h1c (by rw [sub_sub_cancel]; linarith)
      rw [sub_sub_cancel] at hb
      have hR := pLi_two_refl hzt
      set V := (∸(xlog (ofC S z)) +. (∸(xlog (ofC S z)) *. ∸(xlog (ofC S z))) *. ((FOps.lit bf[0] : R S) +. ∸(xlog (ofC S z)) *. (hornerC 1 (∸(xlog (ofC S z)) *. ∸(xlog (ofC S z))) bf))).toC with hV
      have : ‖(-1 : ℂ) * V + (-log z * log (1 - z) + ((ofR PI * ofR PI / 6 : ℝ) : ℂ)) - pLi 2 z‖ ≤ D + P / 2 := by
        have e : (-1 : ℂ) * V + (-log z * log (1 - z) + ((ofR PI * ofR PI / 6 : ℝ) : ℂ)) - pLi 2 z
          = -(V - (-log z) * psum (bserC 1) (-log z)) + ((1 * (ofR PI ^ 2 / 6 - Real.pi ^ 2 / 6) : ℝ) : ℂ) := by
          have : pLi 2 z = (Real.pi:ℂ) ^ 2 / 6 - log z * log (1 - z) - (-log z) * psum (bserC 1) (-log z) := by
            rw [← hb, ← hR]; ring
          rw [this]; push_cast; ring
        rw [e]
        refine (norm_add_le _ _).trans (add_le_add ?_ (hPI 1 (by simp)))
        rw [norm_neg, ← ew]; exact hm
      rw [hV] at this
      have h6 : ofR (PI *. PI /. (FOps.lit 6 : R S)) = ofR PI * ofR PI / 6 := by
        rw [ofR_div (by simp [rsem, hS.six])]; simp [rsem, hS.six]
      have hl2 : (xlog (ofC S z)).toC = log z := by rw [toC_log (by simpa using z0), toC_ofC]
      simp only [rsem, hlz1, hl2, h6] at this ⊢
      push_cast at this ⊢
      exact this
    · rw [if_neg h2]
      have := hinv _ hu1 (r4 h1 (not_le.mp h2))
      simpa only [rsem, hS.zero, hS.one, e5, e25, hS.two, Rat.cast_zero, Rat.cast_one] using this

theorem litpi_abs {u e : ℝ} (hS : S.Lit u) (q : ℚ) (hq0 : 0 ≤ q) (hq : q ≤ 3.15) (he : |(q : ℝ) - Real.pi| ≤ e) :
    |((S.rho q : ℚ) : ℝ) - Real.pi| ≤ e + 3.15 * u := by
  have h1 := hS.rel q
  have hq' : (q : ℝ) ≤ 3.15 := by
    have := (Rat.cast_le (K := ℝ)).mpr hq; push_cast at this; exact this
  have hq0' : (0:ℝ) ≤ q := by exact_mod_cast hq0
  rw [abs_of_nonneg hq0'] at h1
  have := mul_le_mul_of_nonneg_left hq' hS.u_nonneg
  calc _ ≤ |((S.rho q : ℚ) : ℝ) - q| + |(q : ℝ) - Real.pi| := abs_sub_le _ _ _
    _ ≤ _ := by linarith

/-- the real axis: the value is that of the real function, with the standard imaginary part on the cut -/
theorem cLi2Gen_real {u : ℝ} (hS : S.Lit u) (PI : R S) (Li2r : R S → R S) {n : ℕ} (bf : Vector ℚ (n + 2)) (z : ℂ) (hz : z.im = 0) :
    (cLi2Gen PI Li2r bf (ofC S z)).toC = ⟨ofR (Li2r (toR S z.re)), if z.re ≤ 1 then 0 else -(ofR PI * Real.log z.re)⟩ := by
  unfold cLi2Gen
  simp only [lt_R, le_R, eq_R, gt_R, decide_eq_true_eq]
  rw [if_pos (by simpa [rsem, hS.zero] using hz)]
  have h1 : ofR (FOps.lit 1 : R S) = 1 := by simp [rsem, hS.one]
  have h2 : ofR (ofC S z).re = z.re := rfl
  rw [h1, h2]
  by_cases h : z.re ≤ 1
  · rw [if_pos h, if_pos h, toC_mk]
    refine Complex.ext rfl ?_
    exact hz
  · rw [if_neg h, if_neg h, toC_mk, ofR_mul, ofR_neg, xlog_R, ofR_log (by rw [h2]; linarith), h2]
    refine Complex.ext rfl ?_
    ring

theorem cLi2Gen_accuracy_real {u : ℝ} (hS : S.Lit u) (PI : R S) (Li2r : R S → R S) {n : ℕ} (bf : Vector ℚ (n + 2))
    {r e : ℝ} (hr : ∀ x : ℝ, |ofR (Li2r (toR S x)) - (pLi 2 (x : ℂ)).re| ≤ r) (he : |ofR PI - Real.pi| ≤ e) (z : ℂ) (hz : z.im = 0) :
    ‖(cLi2Gen PI Li2r bf (ofC S z)).toC - pLi 2 z‖ ≤ r + e * |Real.log ‖z‖| := by
  rw [cLi2Gen_real hS PI Li2r bf z hz]
  have hzr : z = (z.re : ℂ) := Complex.ext rfl (by simp [hz])
  have hnz : Real.log ‖z‖ = Real.log z.re := by
    conv_lhs => rw [hzr]
    rw [Complex.norm_real, Real.norm_eq_abs, Real.log_abs]
  have hre := hr z.re
  rw [← hzr] at hre
  have he0 : 0 ≤ e := le_trans (abs_nonneg _) he
  refine (Complex.norm_le_abs_re_add_abs_im _).trans (add_le_add (by simpa using hre) ?_)
  rw [Complex.sub_im]
  by_cases h : z.re ≤ 1
  · have : (pLi 2 z).im = 0 := by
      rw [hzr]
      rcases h.lt_or_eq with h | h
      · exact pLi_im_le_one 2 h
      · rw [h]; exact pLi_im_one 0
    simp only [this, if_pos h, sub_zero, abs_zero]
    positivity
  · have h1 : (pLi 2 z).im = -Real.pi * Real.log z.re := by
      have := pLi_im_cut 1 z.re (not_le.mp h)
      rw [hzr]; simpa using this
    simp only [h1, if_neg h]
    rw [hnz, show -(ofR PI * Real.log z.re) - -Real.pi * Real.log z.re = -((ofR PI - Real.pi) * Real.log z.re) by ring, abs_neg, abs_mul]
    exact mul_le_mul_of_nonneg_right he (abs_nonneg _)

theorem bf_certs :
    (perr (11/10) 64 (bfT cli2fBf) bserT1 ≤ 202 * 10 ^ 51 ∧ psize (11/10) 64 (bfT cli2fBf) ≤ 131 * 10 ^ 58) ∧
    (perr (11/10) 64 (bfT cli2dBf) bserT1 ≤ 717 * 10 ^ 41 ∧ psize (11/10) 64 (bfT cli2dBf) ≤ 131 * 10 ^ 58) ∧
    (perr (11/10) 64 (bfT cli2l18Bf) bserT1 ≤ 201 * 10 ^ 40 ∧ psize (11/10) 64 (bfT cli2l18Bf) ≤ 131 * 10 ^ 58) ∧
    (perr (11/10) 64 (bfT cli2l36Bf) bserT1 ≤ 676 * 10 ^ 21 ∧ psize (11/10) 64 (bfT cli2l36Bf) ≤ 131 * 10 ^ 58) := by
  decide +kernel

/-- **C17**, float: the complex dilogarithm on the whole plane.  Off the real axis the error is at most `2.3e-7 + 5 u`;
on the cut the imaginary part carries the relative error of the constant `PI`. -/
theorem C17_Li2f {u : ℝ} (hS : S.Lit u) (hu : u ≤ 1 / 1000) (heps : S.eps ≤ 2 ^ (-23 : ℤ)) (z : ℂ) :
    ‖(cLi2f (ofC S z)).toC - pLi 2 z‖ ≤ 2.3e-7 + 17 * u + (if z.im = 0 then (3.6e-9 + 3.15 * u) * |Real.log ‖z‖| else 0) := by
  have hu0 := hS.u_nonneg
  rw [cLi2f_gen]
  have he : |((3.14159265 : ℚ) : ℝ) - Real.pi| ≤ ((3.6e-9 : ℚ) : ℝ) := pi_lit _ _ (by decide +kernel)
  split_ifs with hz
  · have h2 := litpi_abs hS 3.14159265 (by norm_num) (by norm_num) he
    refine (cLi2Gen_accuracy_real hS _ _ _ (C08_Li2f hS hu) (e := 3.6e-9 + 3.15 * u) (by rw [ofR_lit]; push_cast at h2; exact h2) z hz).trans ?_
    linarith
  · have h2 := litpi_err hS 3.14159265 (by norm_num) (by norm_num) he (by norm_num) hu
    push_cast at h2
    refine (cLi2Gen_accuracy hS _ Li2f (by norm_num) cli2fBf (by norm_num) bf_certs.1.1 bf_certs.1.2
      h2 (E := 3.46e-4) (heps.trans (by norm_num)) (by norm_num) (by norm_num) z hz).trans ?_
    push_cast
    rw [max_le_iff]
    constructor <;> linarith

/-- **C17**, double: error at most `1.21e-16 + 76 u` off the cut. -/
theorem C17_Li2d {u : ℝ} (hS : S.Lit u) (hu : u ≤ 1 / 1000) (heps : S.eps ≤ 2 ^ (-52 : ℤ)) (z : ℂ) :
    ‖(cLi2d (ofC S z)).toC - pLi 2 z‖ ≤ 1.21e-16 + (if z.im = 0 then 76 * u + (3.85e-17 + 3.15 * u) * |Real.log ‖z‖| else 5 * u) := by
  have hu0 := hS.u_nonneg
  rw [cLi2d_gen]
  have he : |((3.1415926535897932 : ℚ) : ℝ) - Real.pi| ≤ ((3.85e-17 : ℚ) : ℝ) := pi_lit _ _ (by decide +kernel)
  split_ifs with hz
  · have h2 := litpi_abs hS 3.1415926535897932 (by norm_num) (by norm_num) he
    refine (cLi2Gen_accuracy_real hS _ _ _ (C09_Li2d hS hu) (e := 3.85e-17 + 3.15 * u) (by rw [ofR_lit]; push_cast at h2; exact h2) z hz).trans ?_
    linarith
  · have h2 := litpi_err hS 3.1415926535897932 (by norm_num) (by norm_num) he (by norm_num) hu
    push_cast at h2
    refine (cLi2Gen_accuracy hS _ Li2d (by norm_num) cli2dBf (by norm_num) bf_certs.2.1.1 bf_certs.2.1.2
      h2 (E := 1.5e-8) (heps.trans (by norm_num)) (by norm_num) (by norm_num) z hz).trans ?_
    push_cast
    rw [max_le_iff]
    constructor <;> linarith

/-- **C17**, long double, `LDBL_DIG <= 18`: error at most `2.3e-18 + 5 u` off the real axis (the series is truncated
at `u^22`, so the truncation dominates the rounding unit `5e-20` near `|u| = 1`). -/
theorem C17_Li2l18 {u : ℝ} (hS : S.Lit u) (hu : u ≤ 1 / 1000) (heps : S.eps ≤ 2 ^ (-63 : ℤ)) (z : ℂ) :
    ‖(cLi2l18 (ofC S z)).toC - pLi 2 z‖ ≤ 2.3e-18 + (if z.im = 0 then 56 * u + (4.2e-36 + 3.15 * u) * |Real.log ‖z‖| else 5 * u) := by
  have hu0 := hS.u_nonneg
  rw [cLi2l18, cLi2l_gen]
  have he : |((3.14159265358979323846264338327950288 : ℚ) : ℝ) - Real.pi| ≤ ((4.2e-36 : ℚ) : ℝ) := pi_lit _ _ (by decide +kernel)
  split_ifs with hz
  · have h2 := litpi_abs hS 3.14159265358979323846264338327950288 (by norm_num) (by norm_num) he
    refine (cLi2Gen_accuracy_real hS _ _ _ (C10_Li2l18 hS hu) (e := 4.2e-36 + 3.15 * u) (by rw [ofR_lit]; push_cast at h2; exact h2) z hz).trans ?_
    linarith
  · have h2 := litpi_err hS 3.14159265358979323846264338327950288 (by norm_num) (by norm_num) he (by norm_num) hu
    push_cast at h2
    refine (cLi2Gen_accuracy hS _ Li2l18 (by norm_num) cli2l18Bf (by norm_num) bf_certs.2.2.1.1 bf_certs.2.2.1.2
      h2 (E := 3.3e-10) (heps.trans (by norm_num)) (by norm_num) (by norm_num) z hz).trans ?_
    push_cast
    rw [max_le_iff]
    constructor <;> linarith

/-- **C17**, long double, `LDBL_DIG > 18`: error at most `1.2e-35` (plus the error of the literals). -/
theorem C17_Li2l36 {u : ℝ} (hS : S.Lit u) (hu : u ≤ 1 / 1000) (heps : S.eps ≤ 2 ^ (-112 : ℤ)) (z : ℂ) :
    ‖(cLi2l36 (ofC S z)).toC - pLi 2 z‖ ≤ 1.2e-35 + (if z.im = 0 then 810 * u + (4.2e-36 + 3.15 * u) * |Real.log ‖z‖| else 5 * u) := by
  have hu0 := hS.u_nonneg
  rw [cLi2l36, cLi2l_gen]
  have he : |((3.14159265358979323846264338327950288 : ℚ) : ℝ) - Real.pi| ≤ ((4.2e-36 : ℚ) : ℝ) := pi_lit _ _ (by decide +kernel)
  split_ifs with hz
  · have h2 := litpi_abs hS 3.14159265358979323846264338327950288 (by norm_num) (by norm_num) he
    refine (cLi2Gen_accuracy_real hS _ _ _ (C10_Li2l36 hS hu) (e := 4.2e-36 + 3.15 * u) (by rw [ofR_lit]; push_cast at h2; exact h2) z hz).trans ?_
    linarith
  · have h2 := litpi_err hS 3.14159265358979323846264338327950288 (by norm_num) (by norm_num) he (by norm_num) hu
    push_cast at h2
    refine (cLi2Gen_accuracy hS _ Li2l36 (by norm_num) cli2l36Bf (by norm_num) bf_certs.2.2.2.1 bf_certs.2.2.2.2
      h2 (E := 1.4e-17) (heps.trans (by norm_num)) (by norm_num) (by norm_num) z hz).trans ?_
    push_cast
    rw [max_le_iff]
    constructor <;> linarith

/-- **C33.** Off the real axis the complex dilogarithm is a polynomial `F` (the truncated Bernoulli series) of an
argument `u` with `|u| ≤ 1.1` plus elementary terms, with `u = -log(1-z)`, `-log(1-1/z)` or `-log z`
(unless `|z|² < epsilon`, where it is `z(1+z/4)`). -/
theorem C33_Li2_argument {u : ℝ} (hS : S.Lit u) (PI : R S) (Li2r : R S → R S) {n : ℕ} (bf : Vector ℚ (n + 2)) (z : ℂ) (hz : z.im ≠ 0)
    (hsm : S.eps ≤ normSq z) :
    ∃ w rest : Cx (R S), ∃ sgn : R S, ‖w.toC‖ ≤ 1.1 ∧
      (w.toC = -log (1 - z) ∨ w.toC = -log (1 - 1 / z) ∨ w.toC = -log z) ∧ (ofR sgn = 1 ∨ ofR sgn = -1) ∧
      cLi2Gen PI Li2r bf (ofC S z) =
        sgn *. (w +. (w *. w) *. ((FOps.lit bf[0] : R S) +. w *. (hornerC 1 (w *. w) bf))) +. rest := by
  have z0 : z ≠ 0 := fun h => hz (by rw [h, zero_im])
  obtain ⟨r1, r2, r3, r4⟩ := li2_region hz
  have e5 : ((S.rho 0.5 : ℚ) : ℝ) = 1 / 2 := by rw [hS.half]; norm_num
  have z1 : z ≠ 1 := fun h => hz (by rw [h, one_im])
  have hu1 : (∸(clog1p ((∸(FOps.lit 1 : R S)) /. (ofC S z)))).toC = -log (1 - 1 / z) := by
    have e1 : ((∸(FOps.lit 1 : R S)) /. (ofC S z) : Cx (R S)).toC = -1 / z := by
      rw [toC_rdiv hS.zero (by simpa using z0), ofR_neg, ofR_lit, hS.one, toC_ofC]; push_cast; rfl
    rw [toC_neg, C07_log1p hS _ (by
      rw [e1]; intro h
      rw [div_eq_iff z0] at h
      exact z1 (by linear_combination h)), e1]
    rw [neg_div, ← sub_eq_add_neg]
  have hlz1 : (∸(clog1p (∸(ofC S z)))).toC = -log (1 - z) := by
    rw [toC_neg, C07_log1p hS _ (by
      rw [toC_neg, toC_ofC]; intro h
      exact z1 (by linear_combination -h)), toC_neg, toC_ofC, ← sub_eq_add_neg]
  have hlz : (∸(xlog (ofC S z))).toC = -log z := by
    rw [toC_neg, toC_log (by simpa using z0), toC_ofC]
  have hone : ofR (FOps.lit 1 : R S) = 1 := by rw [ofR_lit, hS.one]; norm_num
  have hmone : ofR (∸(FOps.lit 1 : R S)) = -1 := by rw [ofR_neg, hone]
  have c1 : ofR (ofC S z).im = z.im := rfl
  have c2 : ofR (ofC S z).re = z.re := rfl
  unfold cLi2Gen
  simp only [lt_R, le_R, eq_R, gt_R, decide_eq_true_eq]
  rw [if_neg (by rw [c1, ofR_lit, hS.zero]; simpa using hz), if_neg (by rw [ofR_norm, ofR_eps, toC_ofC]; exact not_lt.mpr hsm)]
  by_cases h1 : z.re ≤ 1 / 2
  · rw [if_pos (by rw [c2, ofR_lit, e5]; exact h1)]
    by_cases h2 : 1 < normSq z
    · rw [if_pos (by rw [hone, ofR_norm, toC_ofC]; exact h2)]
      exact ⟨_, _, _, by rw [hu1, norm_neg]; exact r1 h1 h2, Or.inr (Or.inl hu1), Or.inr hmone, rfl⟩
    · rw [if_neg (by rw [hone, ofR_norm, toC_ofC]; exact h2)]
      exact ⟨_, _, _, by rw [hlz1, norm_neg]; exact r2 h1 (not_lt.mp h2), Or.inl hlz1, Or.inl hone, rfl⟩
  · rw [if_neg (by rw [c2, ofR_lit, e5]; exact h1)]
    have e2 : ofR ((FOps.lit 2 : R S) *. (ofC S z).re) = 2 * z.re := by rw [ofR_mul, c2, ofR_lit, hS.two]; norm_num
    by_cases h2 : normSq z ≤ 2 * z.re
    · rw [if_pos (by rw [e2, ofR_norm, toC_ofC]; exact h2)]
      exact ⟨_, _, _, by rw [hlz, norm_neg]; exact r3 (not_le.mp h1) h2, Or.inr (Or.inr hlz), Or.inr hmone, rfl⟩
    · rw [if_neg (by rw [e2, ofR_norm, toC_ofC]; exact h2)]
      exact ⟨_, _, _, by rw [hu1, norm_neg]; exact r4 (not_le.mp h1) (not_le.mp h2), Or.inr (Or.inl hu1), Or.inr hmone, rfl⟩

/-- non-vacuity: decimal literals, `epsilon = 0`, a point in the upper half plane -/
example : ‖(cLi2d (ofC RealSem.dec (3 + 4 * I))).toC - pLi 2 (3 + 4 * I)‖ ≤ 1.21e-16 := by
  have := C17_Li2d RealSem.dec_lit (by norm_num) (by simp [RealSem.dec]) (3 + 4 * I)
  simpa using this

end Polylog
