import Verif.Props.Li2Cx
import Verif.Props.ZetaVals
import Verif.Proofs.UnityCut

/-! # Common part of the complex Li3, Li4, Li5, Li6 -/

noncomputable section
namespace Polylog
open Complex Finset

variable {S : RealSem}

section
variable {F : Type} [FOps F]
local notation:max "♯" q:max => (FOps.lit (q : ℚ) : F)

/-- common shape of the complex polylogarithms `Li3` ... `Li6` (used in proofs only) -/
def cLiShape (PI : F) (near fin1 : Cx F → Cx F) (finI : Cx F → Cx F → Cx F) (z : Cx F) : Cx F :=
  let nz := (Cx.abs z)
  let pz := (Cx.arg z)
  let lnz := (xlog nz)
  if lnz *. lnz +. pz *. pz <. ♯1 then near ⟨lnz, pz⟩
  else if nz <=. ♯1 then fin1 (∸(clog1p (∸z)))
  else finI (∸(clog1p (∸♯1 /. z))) ⟨lnz, if pz >. ♯0 then pz -. PI else pz +. PI⟩
end

/-! ## truncated exponential -/

/-- `∑_{m ≤ n} x^m/m!` -/
def expN (n : ℕ) (x : ℝ) : ℝ := ∑ m ∈ range (n + 1), x ^ m / m.factorial

theorem expN_nonneg (n : ℕ) {x : ℝ} (hx : 0 ≤ x) : 0 ≤ expN n x := Finset.sum_nonneg fun m _ => by positivity

theorem expN_add_le (n : ℕ) {x y : ℝ} (hx : 0 ≤ x) (hy : 0 ≤ y) : expN n (x + y) ≤ expN n x * expN n y := by
  have h : ∀ m, (x + y) ^ m / (m.factorial : ℝ) = ∑ k ∈ range (m + 1), x ^ k / k.factorial * (y ^ (m - k) / (m - k).factorial) := by
    intro m
    rw [add_pow, Finset.sum_div]
    refine Finset.sum_congr rfl fun k hk => ?_
    rw [Nat.cast_choose ℝ (Nat.lt_succ_iff.mp (mem_range.mp hk))]
    have := Nat.factorial_ne_zero m
    field_simp
  rw [expN, Finset.sum_congr rfl fun m _ => h m,
    Finset.sum_range_diag_flip (n + 1) (fun k j => x ^ k / (k.factorial : ℝ) * (y ^ j / j.factorial)), expN, Finset.sum_mul]
  refine Finset.sum_le_sum fun k hk => ?_
  rw [← Finset.mul_sum, expN]
  refine mul_le_mul_of_nonneg_left ?_ (by positivity)
  exact Finset.sum_le_sum_of_subset_of_nonneg (Finset.range_subset_range.mpr (by omega)) fun i _ _ => by positivity

theorem expN_le (n : ℕ) {x : ℝ} (h0 : 0 ≤ x) (h1 : x ≤ 1 / 10) : expN n x ≤ 10 / 9 := by
  have h : expN n x ≤ ∑ m ∈ range (n + 1), x ^ m := by
    refine Finset.sum_le_sum fun m _ => div_le_self (by positivity) ?_
    exact_mod_cast Nat.one_le_iff_ne_zero.mpr (Nat.factorial_ne_zero m)
  have hs := (hasSum_geometric_of_lt_one h0 (by linarith : x < 1))
  have := sum_le_hasSum (range (n + 1)) (fun m _ => by positivity) hs
  refine (h.trans this).trans ?_
  rw [inv_eq_one_div, div_le_div_iff₀ (by linarith) (by norm_num)]
  linarith

theorem pow_sub_pow_le (m : ℕ) {a b : ℂ} {L : ℝ} (ha : ‖a‖ ≤ L) (hb : ‖b‖ ≤ L) : ‖a ^ m - b ^ m‖ ≤ m * L ^ (m - 1) * ‖a - b‖ := by
  have hL : 0 ≤ L := (norm_nonneg _).trans ha
  induction m with
  | zero => simp
  | succ m ih =>
    have e : a ^ (m + 1) - b ^ (m + 1) = a * (a ^ m - b ^ m) + (a - b) * b ^ m := by ring
    rw [e]
    refine (norm_add_le _ _).trans ?_
    rw [norm_mul, norm_mul, norm_pow]
    have h1 : ‖a‖ * ‖a ^ m - b ^ m‖ ≤ L * (m * L ^ (m - 1) * ‖a - b‖) := mul_le_mul ha ih (norm_nonneg _) hL
    have h2 : ‖a - b‖ * ‖b‖ ^ m ≤ ‖a - b‖ * L ^ m :=
      mul_le_mul_of_nonneg_left (pow_le_pow_left₀ (norm_nonneg _) hb m) (norm_nonneg _)
    have h3 : L * (m * L ^ (m - 1) * ‖a - b‖) = m * L ^ m * ‖a - b‖ := by
      cases m with
      | zero => simp
      | succ m => rw [Nat.add_sub_cancel, pow_succ]; ring
    rw [Nat.add_sub_cancel]
    push_cast
    linarith

/-- effect of errors in the coefficients and in the argument of the inversion polynomial -/
theorem appell_pert (n : ℕ) {p a : ℕ → ℂ} {l l' : ℂ} {η δ A : ℝ} (hp : ∀ j ≤ n, ‖p j - a j‖ ≤ η) (hA : ∀ j ≤ n, ‖p j‖ ≤ A)
    (hl : ‖l - l'‖ ≤ δ) (hδ : δ ≤ 1 / 10) :
    ‖appell p n l - appell a n l'‖ ≤ (η + 10 / 9 * A * δ) * expN n ‖l'‖ := by
  have hδ0 : 0 ≤ δ := (norm_nonneg _).trans hl
  have hA0 : 0 ≤ A := (norm_nonneg _).trans (hA 0 (Nat.zero_le _))
  have hη0 : 0 ≤ η := (norm_nonneg _).trans (hp 0 (Nat.zero_le _))
  set L := ‖l'‖ with hLd
  have hL0 : 0 ≤ L := norm_nonneg _
  have hl2 : ‖l‖ ≤ L + δ := by
    calc ‖l‖ = ‖l' + (l - l')‖ := by congr 1; ring
      _ ≤ _ := (norm_add_le _ _).trans (by linarith)
  have e : appell p n l - appell a n l' = (∑ j ∈ range (n + 1), (p j - a j) * (l' ^ (n - j) / (n - j).factorial))
      + ∑ j ∈ range (n + 1), p j * ((l ^ (n - j) - l' ^ (n - j)) / (n - j).factorial) := by
    rw [appell, appell, ← Finset.sum_sub_distrib, ← Finset.sum_add_distrib]
    exact Finset.sum_congr rfl fun j _ => by ring
  have hE : ∑ j ∈ range (n + 1), L ^ (n - j) / ((n - j).factorial : ℝ) = expN n L := by
    rw [expN]
    conv_rhs => rw [← Finset.sum_range_reflect]
    exact Finset.sum_congr rfl fun j _ => by rw [show n + 1 - 1 - j = n - j by omega]
  have h1 : ‖∑ j ∈ range (n + 1), (p j - a j) * (l' ^ (n - j) / (n - j).factorial)‖ ≤ η * expN n L := by
    rw [← hE, Finset.mul_sum]
    refine (norm_sum_le _ _).trans (Finset.sum_le_sum fun j hj => ?_)
    rw [norm_mul, norm_div, norm_pow, Complex.norm_natCast]
    exact mul_le_mul_of_nonneg_right (hp j (Nat.lt_succ_iff.mp (mem_range.mp hj))) (by positivity)
  have h2 : ‖∑ j ∈ range (n + 1), p j * ((l ^ (n - j) - l' ^ (n - j)) / (n - j).factorial)‖ ≤ A * δ * expN n (L + δ) := by
    have hE2 : ∑ j ∈ range (n + 1), (((n - j : ℕ) : ℝ) * (L + δ) ^ (n - j - 1) / ((n - j).factorial : ℝ)) ≤ expN n (L + δ) := by
      have : ∑ j ∈ range (n + 1), (((n - j : ℕ) : ℝ) * (L + δ) ^ (n - j - 1) / ((n - j).factorial : ℝ))
          = ∑ m ∈ range (n + 1), ((m : ℝ) * (L + δ) ^ (m - 1) / (m.factorial : ℝ)) := by
        conv_rhs => rw [← Finset.sum_range_reflect]
        exact Finset.sum_congr rfl fun j _ => by rw [show n + 1 - 1 - j = n - j by omega]
      rw [this, Finset.sum_range_succ', expN, Finset.sum_range_succ]
      have e2 : ∀ k ∈ range n, ((k + 1 : ℕ) : ℝ) * (L + δ) ^ (k + 1 - 1) / ((k + 1).factorial : ℝ) = (L + δ) ^ k / k.factorial := by
        intro k _
        rw [Nat.add_sub_cancel, Nat.factorial_succ]
        have : (k.factorial : ℝ) ≠ 0 := by exact_mod_cast Nat.factorial_ne_zero k
        have : ((k:ℝ) + 1) ≠ 0 := by positivity
        push_cast
        field_simp
      rw [Finset.sum_congr rfl e2]
      have : 0 ≤ (L + δ) ^ n / (n.factorial : ℝ) := by positivity
      simp only [Nat.cast_zero, zero_mul, zero_div]
      linarith
    refine le_trans ?_ (mul_le_mul_of_nonneg_left hE2 (by positivity))
    rw [Finset.mul_sum]
    refine (norm_sum_le _ _).trans (Finset.sum_le_sum fun j hj => ?_)
    rw [norm_mul, norm_div, Complex.norm_natCast]
    have h3 := pow_sub_pow_le (n - j) hl2 (show ‖l'‖ ≤ L + δ by linarith)
    have h4 : ‖l ^ (n - j) - l' ^ (n - j)‖ ≤ ((n - j : ℕ) : ℝ) * (L + δ) ^ (n - j - 1) * δ :=
      h3.trans (mul_le_mul_of_nonneg_left hl (by positivity))
    calc _ ≤ A * ((((n - j : ℕ) : ℝ) * (L + δ) ^ (n - j - 1) * δ) / ((n - j).factorial : ℝ)) :=
        mul_le_mul (hA j (Nat.lt_succ_iff.mp (mem_range.mp hj))) (by gcongr) (by positivity) hA0
      _ = _ := by ring
  have h3 : expN n (L + δ) ≤ expN n L * (10 / 9) :=
    (expN_add_le n hL0 hδ0).trans (mul_le_mul_of_nonneg_left (expN_le n hδ0 hδ) (expN_nonneg n hL0))
  rw [e]
  refine (norm_add_le _ _).trans ((add_le_add h1 (h2.trans (mul_le_mul_of_nonneg_left h3 (by positivity)))).trans (le_of_eq ?_))
  ring

/-! ## the logarithm of `-z` from that of `z` -/

theorem log_neg_im {z : ℂ} (h0 : z ≠ 0) : (Complex.log (-z)).im = if 0 < Complex.arg z then Complex.arg z - Real.pi else Complex.arg z + Real.pi := by
  rw [Complex.log_im]
  have hpi := Real.pi_pos
  rcases lt_trichotomy z.im 0 with h | h | h
  · have h1 : Complex.arg z < 0 := Complex.arg_neg_iff.mpr h
    rw [if_neg h1.not_gt, Complex.arg_neg_eq_arg_add_pi_of_im_neg h]
  · have hz : z = (z.re : ℂ) := Complex.ext rfl (by simp [h])
    have hr : z.re ≠ 0 := fun h' => h0 (by rw [hz, h', ofReal_zero])
    rcases lt_or_gt_of_ne hr with h' | h'
    · rw [hz, Complex.arg_ofReal_of_neg h', if_pos hpi, ← ofReal_neg, Complex.arg_ofReal_of_nonneg (by linarith)]; ring
    · rw [hz, Complex.arg_ofReal_of_nonneg h'.le, if_neg (lt_irrefl _), ← ofReal_neg, Complex.arg_ofReal_of_neg (by linarith)]; ring
  · have h1 : 0 < Complex.arg z := by
      rcases lt_or_eq_of_le (Complex.arg_nonneg_iff.mpr h.le) with h2 | h2
      · exact h2
      · have := Complex.arg_eq_zero_iff.mp h2.symm
        exact absurd this.2 h.ne'
    rw [if_pos h1, Complex.arg_neg_eq_arg_sub_pi_of_im_pos h]

/-! ## accuracy of the common shape -/

theorem cLiShape_accuracy {u : ℝ} (hS : S.Lit u) (ν : ℕ) (PI : R S) (near fin1 : Cx (R S) → Cx (R S)) (finI : Cx (R S) → Cx (R S) → Cx (R S))
    (p : ℕ → ℂ) {εA εB η δ A : ℝ}
    (hnear : ∀ w : Cx (R S), w.toC ≠ 0 → ‖w.toC‖ ≤ 1 →
      ‖(near w).toC - (psum (zcoef ((ν + 1 : ℕ) : ℤ)) w.toC + singU ν w.toC)‖ ≤ εA)
    (hfin1 : ∀ w : Cx (R S), ‖w.toC‖ ≤ 1.1 → ‖(fin1 w).toC - w.toC * psum (bserC ν) w.toC‖ ≤ εB)
    (hfinI : ∀ w l : Cx (R S), ‖w.toC‖ ≤ 1.1 →
      ‖(finI w l).toC - (appell p (ν + 1) l.toC - (-1) ^ (ν + 1) * (w.toC * psum (bserC ν) w.toC))‖ ≤ εB)
    (hp : ∀ j ≤ ν + 1, ‖p j - invC j‖ ≤ η) (hA : ∀ j ≤ ν + 1, ‖p j‖ ≤ A) (hPI : |ofR PI - Real.pi| ≤ δ) (hδ : δ ≤ 1 / 10)
    (hAB : εA ≤ εB) (z : ℂ) (h0 : z ≠ 0) (h1 : z ≠ 1) :
    ‖(cLiShape PI near fin1 finI (ofC S z)).toC - pLi (ν + 1) z‖ ≤
      εB + (if ‖z‖ ≤ 1 then 0 else (η + 10 / 9 * A * δ) * expN (ν + 1) ‖Complex.log (-z)‖) := by
  have hA0 : 0 ≤ A := (norm_nonneg _).trans (hA 0 (Nat.zero_le _))
  have hη0 : 0 ≤ η := (norm_nonneg _).trans (hp 0 (Nat.zero_le _))
  have hδ0 : 0 ≤ δ := (abs_nonneg _).trans hPI
  have hpi := Real.pi_gt_three
  have hrest : 0 ≤ (if ‖z‖ ≤ 1 then 0 else (η + 10 / 9 * A * δ) * expN (ν + 1) ‖Complex.log (-z)‖) := by
    split
    · exact le_rfl
    · exact mul_nonneg (by positivity) (expN_nonneg _ (norm_nonneg _))
  have hn : ofR (Cx.abs (ofC S z)) = ‖z‖ := by rw [ofR_abs, toC_ofC]
  have ha : ofR (Cx.arg (ofC S z)) = Complex.arg z := by rw [ofR_arg (by simpa using h0), toC_ofC]
  have hl : ofR (xlog (Cx.abs (ofC S z)) : R S) = Real.log ‖z‖ := by
    rw [xlog_R, ofR_log (by rw [hn]; exact norm_pos_iff.mpr h0), hn]
  have hone : ofR (FOps.lit 1 : R S) = 1 := by rw [ofR_lit, hS.one]; norm_num
  have hzero : ofR (FOps.lit 0 : R S) = 0 := by rw [ofR_lit, hS.zero]; norm_num
  have hlz : (Cx.mk (xlog (Cx.abs (ofC S z)) : R S) (Cx.arg (ofC S z))).toC = Complex.log z := by
    rw [toC_mk, hl, ha]; exact Complex.ext (Complex.log_re z).symm (Complex.log_im z).symm
  have hsq : ofR ((xlog (Cx.abs (ofC S z)) : R S) *. xlog (Cx.abs (ofC S z)) +. Cx.arg (ofC S z) *. Cx.arg (ofC S z)) = ‖Complex.log z‖ ^ 2 := by
    rw [ofR_add, ofR_mul, ofR_mul, hl, ha, norm_log_sq, sq_abs]; ring
  have hm1 : ofR (∸(FOps.lit 1 : R S)) = -1 := by rw [ofR_neg, hone]
  unfold cLiShape
  simp only [lt_R, le_R, gt_R, decide_eq_true_eq]
  rw [hsq, hone, hn]
  by_cases hA1 : ‖Complex.log z‖ ^ 2 < 1
  · rw [if_pos hA1]
    have hlt : ‖Complex.log z‖ ≤ 1 := by nlinarith [norm_nonneg (Complex.log z)]
    have hl0 : Complex.log z ≠ 0 := by
      intro h
      have := Complex.exp_log h0
      rw [h, Complex.exp_zero] at this
      exact h1 this.symm
    have := hnear _ (by rw [hlz]; exact hl0) (by rw [hlz]; exact hlt)
    rw [hlz, ← pLi_unity ν h0 h1 (by linarith)] at this
    linarith
  rw [if_neg hA1]
  have hge : 1 ≤ ‖Complex.log z‖ := by
    by_contra h
    exact hA1 (by nlinarith [norm_nonneg (Complex.log z)])
  by_cases hB : ‖z‖ ≤ 1
  · rw [if_pos hB, if_pos hB]
    have hw : (∸(clog1p (∸(ofC S z)))).toC = -Complex.log (1 - z) := by
      rw [toC_neg, C07_log1p hS _ (by
        rw [toC_neg, toC_ofC]; intro h
        exact h1 (by linear_combination -h)), toC_neg, toC_ofC, ← sub_eq_add_neg]
    have hb := norm_log_one_sub hB hge h1
    have hcut : z ∈ cutPlane := by
      rw [mem_cutPlane]
      by_contra hcon
      push Not at hcon
      have hz : z = (z.re : ℂ) := Complex.ext rfl (by simp [hcon.2])
      rw [hz, Complex.norm_real, Real.norm_eq_abs, abs_of_pos (by linarith)] at hB
      exact h1 (by rw [hz, le_antisymm hB hcon.1, ofReal_one])
    have := hfin1 (∸(clog1p (∸(ofC S z)))) (by rw [hw, norm_neg]; exact hb)
    rw [hw, ← pLi_bser_log ν hcut (by linarith)] at this
    linarith
  · rw [if_neg hB, if_neg hB]
    push Not at hB
    have hi0 : 1 / z ≠ 0 := one_div_ne_zero h0
    have hi1 : 1 / z ≠ 1 := fun h => h1 (by rw [div_eq_iff h0] at h; rw [← one_mul z]; exact h.symm)
    have hin : ‖1 / z‖ < 1 := by rw [norm_div, norm_one, div_lt_one (by linarith)]; exact hB
    have hig : 1 ≤ ‖Complex.log (1 / z)‖ := by
      have : ‖Complex.log (1 / z)‖ ^ 2 = ‖Complex.log z‖ ^ 2 := by
        rw [norm_log_sq, norm_log_sq, one_div, norm_inv, Real.log_inv, Complex.abs_arg_inv]; ring
      nlinarith [norm_nonneg (Complex.log (1 / z))]
    have hb := norm_log_one_sub hin.le hig hi1
    have e1 : ((∸(FOps.lit 1 : R S)) /. (ofC S z) : Cx (R S)).toC = -1 / z := by
      rw [toC_rdiv hS.zero (by simpa using h0), hm1, toC_ofC]; push_cast; rfl
    have hw : (∸(clog1p ((∸(FOps.lit 1 : R S)) /. (ofC S z)))).toC = -Complex.log (1 - 1 / z) := by
      rw [toC_neg, C07_log1p hS _ (by
        rw [e1]; intro h
        rw [div_eq_iff h0] at h
        exact h1 (by linear_combination h)), e1, neg_div, ← sub_eq_add_neg]
    have hcut : 1 / z ∈ cutPlane := by
      rw [mem_cutPlane]; left
      exact lt_of_le_of_lt (Complex.re_le_norm _) hin
    set lm : Cx (R S) := ⟨xlog (Cx.abs (ofC S z)), if ofR (FOps.lit 0 : R S) < ofR (Cx.arg (ofC S z)) then Cx.arg (ofC S z) -. PI else Cx.arg (ofC S z) +. PI⟩ with hlm
    have hlmd : ‖lm.toC - Complex.log (-z)‖ ≤ δ := by
      have e2 : lm.toC - Complex.log (-z) = ((if 0 < Complex.arg z then -(ofR PI - Real.pi) else ofR PI - Real.pi : ℝ) : ℂ) * I := by
        apply Complex.ext
        · rw [hlm, toC_mk, Complex.sub_re, hl, Complex.log_re, norm_neg]; simp
        · rw [hlm, toC_mk, Complex.sub_im, log_neg_im h0, hzero, ha]
          simp only [Complex.mul_im, Complex.ofReal_re, Complex.I_im, Complex.ofReal_im, Complex.I_re, mul_one, mul_zero, add_zero]
          split
          · rw [ofR_sub, ha]; ring
          · rw [ofR_add, ha]; ring
      rw [e2, norm_mul, Complex.norm_I, mul_one, Complex.norm_real, Real.norm_eq_abs]
      split
      · rw [abs_neg]; exact hPI
      · exact hPI
    have hf := hfinI (∸(clog1p ((∸(FOps.lit 1 : R S)) /. (ofC S z)))) lm (by rw [hw, norm_neg]; exact hb)
    rw [hw, ← pLi_bser_log ν hcut (by linarith)] at hf
    have hI := pLi_inversion_out ν hB
    rw [← one_div] at hI
    have hP := appell_pert (ν + 1) hp hA hlmd hδ
    have e3 : (finI (∸(clog1p ((∸(FOps.lit 1 : R S)) /. (ofC S z)))) lm).toC - pLi (ν + 1) z
        = ((finI (∸(clog1p ((∸(FOps.lit 1 : R S)) /. (ofC S z)))) lm).toC - (appell p (ν + 1) lm.toC - (-1) ^ (ν + 1) * pLi (ν + 1) (1 / z)))
          + (appell p (ν + 1) lm.toC - appell invC (ν + 1) (Complex.log (-z))) := by
      rw [← hI]; ring
    rw [e3]
    exact (norm_add_le _ _).trans (add_le_add hf hP)

/-! ## the expansion about `z = 1` -/

/-- `zeta(2)`, ..., `zeta(6)` to 45 digits, at positions 2, ..., 6 -/
def zA : List ℚ := [0, 0, 1.644934066848226436472415166646025189218949901, 1.202056903159594285399738161511449990764986292,
  1.082323233711138191516003696541167902774750951, 1.036927755143369926331365486457034168057080919, 1.017343061984449139714517929790920527901817490]

theorem zA_cert : ∀ n : Fin 5, |zA.getD (n.1 + 2) 0 - zQ n.1| ≤ 4e-42 := by decide +kernel

theorem zA_approx (n : ℕ) (hn : n < 5) : |reLi (n + 2) 1 - ((zA.getD (n + 2) 0 : ℚ) : ℝ)| ≤ 6e-42 := by
  have h1 := zQ_approx n (by omega)
  have h2 := (Rat.cast_le (K := ℝ)).mpr (zA_cert ⟨n, hn⟩)
  push_cast at h2
  rw [abs_sub_comm] at h2
  calc _ ≤ _ := abs_sub_le _ ((zQ n : ℚ) : ℝ) _
    _ ≤ 2e-42 + 4e-42 := add_le_add h1 h2
    _ = _ := by norm_num

/-- the first 64 coefficients of the expansion of `Li_{ν+1}(e^u)` about `u = 0` (those involving `zeta(2)`, ..., to 41 digits) -/
def zcQ (ν : ℕ) : List ℚ := (List.range 64).map fun k : ℕ =>
  if k < ν then zA.getD (ν + 1 - k) 0 / k.factorial else if k = ν then 0 else
    (-1) ^ (k - ν - 1) * bernT.getD (k - ν) 0 * ((k - ν - 1).factorial / k.factorial)

theorem zcQ_approx (ν : ℕ) (hν : ν ≤ 5) (k : ℕ) (hk : k < 64) : ‖zcoef ((ν + 1 : ℕ) : ℤ) k - (((zcQ ν).getD k 0 : ℚ) : ℂ)‖ ≤ 6e-42 := by
  have hf : (1:ℝ) ≤ k.factorial := by exact_mod_cast Nat.one_le_iff_ne_zero.mpr (Nat.factorial_ne_zero k)
  rw [List.getD_eq_getElem _ _ (by simpa [zcQ] using hk)]
  simp only [zcQ, List.getElem_map, List.getElem_range]
  rcases lt_trichotomy k ν with h | h | h
  · rw [if_pos h, zcoef, if_neg (by push_cast; omega)]
    obtain ⟨i, hi⟩ : ∃ i, ν + 1 - k = i + 2 := ⟨ν - 1 - k, by omega⟩
    have e1 : ((((ν + 1 : ℕ) : ℤ) - (k:ℤ) : ℤ) : ℂ) = (i : ℂ) + 2 := by
      have : ((ν + 1 : ℕ) : ℤ) - (k:ℤ) = (i:ℤ) + 2 := by omega
      rw [this]; push_cast; rfl
    rw [e1, ← reLi_one_eq_zeta, hi]
    have h2 := zA_approx i (by omega)
    have e2 : ((reLi (i + 2) 1 : ℝ) : ℂ) / (k.factorial : ℂ) - ((zA.getD (i + 2) 0 / (k.factorial : ℚ) : ℚ) : ℂ)
        = (((reLi (i + 2) 1 - ((zA.getD (i + 2) 0 : ℚ) : ℝ)) / (k.factorial : ℝ) : ℝ) : ℂ) := by
      push_cast; ring
    rw [e2, Complex.norm_real, Real.norm_eq_abs, abs_div, Nat.abs_cast]
    exact (div_le_self (abs_nonneg _) hf).trans h2
  · rw [if_neg (by omega), if_pos h, zcoef, if_pos (by push_cast; omega)]
    norm_num
  · rw [if_neg (by omega), if_neg (by omega), zcoef, if_neg (by push_cast; omega)]
    obtain ⟨m, rfl⟩ : ∃ m, k = ν + 1 + m := ⟨k - ν - 1, by omega⟩
    have e1 : ((((ν + 1 : ℕ) : ℤ) - ((ν + 1 + m : ℕ) : ℤ) : ℤ) : ℂ) = -(m:ℂ) := by push_cast; ring
    rw [e1, riemannZeta_neg_nat_eq_bernoulli, show ν + 1 + m - ν - 1 = m by omega, show ν + 1 + m - ν = m + 1 by omega,
      bernT_eq (m + 1) (by omega), Nat.factorial_succ]
    have h1 : (m.factorial : ℂ) ≠ 0 := by exact_mod_cast Nat.factorial_ne_zero m
    have h2 : ((m:ℂ) + 1) ≠ 0 := by exact_mod_cast Nat.succ_ne_zero m
    have h3 : ((ν + 1 + m).factorial : ℂ) ≠ 0 := by exact_mod_cast Nat.factorial_ne_zero _
    have e2 : (-1 : ℂ) ^ m * (bernoulli (m + 1) : ℂ) / ((m:ℂ) + 1) / ((ν + 1 + m).factorial : ℂ)
        - (((-1) ^ m * (bernoulli (m + 1) / (((m + 1) * m.factorial : ℕ) : ℚ)) * ((m.factorial : ℚ) / ((ν + 1 + m).factorial : ℚ)) : ℚ) : ℂ) = 0 := by
      push_cast
      field_simp
      ring
    rw [e2]; norm_num

/-- coefficient list of the near-one polynomial: `zs` at `u^0, ...`, nothing at `u^ν`, `-1/(2 (ν+1)!)` at `u^{ν+1}`, `cs` at `u^{ν+2}, u^{ν+4}, ...` -/
def nearT (ν : ℕ) (zs : List ℚ) {m : ℕ} (cs : Vector ℚ m) : List ℚ := (List.range (ν + 2 + 2 * m)).map fun k : ℕ =>
  if k < ν then zs.getD k 0 else if k = ν then 0 else if k = ν + 1 then -1 / (2 * (ν + 1).factorial)
  else if (k - ν) % 2 = 0 then cs.toList.getD ((k - ν) / 2 - 1) 0 else 0

theorem nearT_get (ν : ℕ) (zs : List ℚ) {m : ℕ} (cs : Vector ℚ m) (k : ℕ) (hk : k < ν + 2 + 2 * m) : (nearT ν zs cs).getD k 0 =
    if k < ν then zs.getD k 0 else if k = ν then 0 else if k = ν + 1 then -1 / (2 * (ν + 1).factorial : ℚ)
      else if (k - ν) % 2 = 0 then cs.toList.getD ((k - ν) / 2 - 1) 0 else 0 := by
  rw [List.getD_eq_getElem _ _ (by simpa [nearT] using hk)]
  simp [nearT]

theorem near_acc {u : ℝ} (hS : S.Lit u) (ν : ℕ) (hν : ν ≤ 5) (zs : List ℚ) {m : ℕ} (cs : Vector ℚ m) (hl : ν + 2 + 2 * m ≤ 64)
    {A B : ℤ} (hA : perr 1 64 (nearT ν zs cs) (zcQ ν) ≤ A) (hB : psize 1 64 (nearT ν zs cs) ≤ B) {w V : ℂ} (hw : ‖w‖ ≤ 1)
    (hV : V = (∑ i ∈ range ν, (((S.rho (zs.getD i 0) : ℚ) : ℝ) : ℂ) * w ^ i) - w ^ (ν + 1) / (2 * (ν + 1).factorial)
      + w ^ (ν + 2) * (∑ i : Fin m, (((S.rho cs[i.1] : ℚ) : ℝ) : ℂ) * (w * w) ^ i.1) + singU ν w) :
    ‖V - (psum (zcoef ((ν + 1 : ℕ) : ℤ)) w + singU ν w)‖ ≤ A / 10 ^ 60 + 1e-39 + u * (B / 10 ^ 60) := by
  set T : ℕ → ℝ := fun k => if k = ν + 1 then -1 / (2 * (ν + 1).factorial) else ((S.rho ((nearT ν zs cs).getD k 0) : ℚ) : ℝ) with hT
  have hsum : ∑ k ∈ range (ν + 2 + 2 * m), (T k : ℂ) * w ^ k =
      (∑ i ∈ range ν, (((S.rho (zs.getD i 0) : ℚ) : ℝ) : ℂ) * w ^ i) - w ^ (ν + 1) / (2 * (ν + 1).factorial)
      + w ^ (ν + 2) * (∑ i : Fin m, (((S.rho cs[i.1] : ℚ) : ℝ) : ℂ) * (w * w) ^ i.1) := by
    rw [Finset.sum_range_add, Finset.sum_range_succ, Finset.sum_range_succ, sum_range_pairs]
    have e1 : ∀ k ∈ range ν, (T k : ℂ) * w ^ k = (((S.rho (zs.getD k 0) : ℚ) : ℝ) : ℂ) * w ^ k := by
      intro k hk
      rw [mem_range] at hk
      simp only [hT]
      rw [if_neg (by omega), nearT_get _ _ _ _ (by omega), if_pos hk]
    have e2 : T ν = 0 := by
      simp only [hT]
      rw [if_neg (by omega), nearT_get _ _ _ _ (by omega), if_neg (by omega), if_pos rfl, hS.zero, Rat.cast_zero]
    have e3 : T (ν + 1) = -1 / (2 * (ν + 1).factorial) := by simp only [hT, if_true]
    have e4 : ∀ i ∈ range m, (T (ν + 2 + 2 * i) : ℂ) * w ^ (ν + 2 + 2 * i) + (T (ν + 2 + (2 * i + 1)) : ℂ) * w ^ (ν + 2 + (2 * i + 1))
        = w ^ (ν + 2) * ((((S.rho (cs.toList.getD i 0) : ℚ) : ℝ) : ℂ) * (w * w) ^ i) := by
      intro i hi
      rw [mem_range] at hi
      simp only [hT]
      rw [if_neg (by omega), if_neg (by omega), nearT_get _ _ _ _ (by omega), nearT_get _ _ _ _ (by omega), if_neg (by omega), if_neg (by omega),
        if_neg (by omega), if_pos (by omega), if_neg (by omega), if_neg (by omega), if_neg (by omega), if_neg (by omega), hS.zero,
        show (ν + 2 + 2 * i - ν) / 2 - 1 = i by omega, Rat.cast_zero, ofReal_zero, zero_mul, add_zero, pow_add, pow_mul, sq]
      ring
    have e5 : ∑ i ∈ range m, (((S.rho (cs.toList.getD i 0) : ℚ) : ℝ) : ℂ) * (w * w) ^ i = ∑ i : Fin m, (((S.rho cs[i.1] : ℚ) : ℝ) : ℂ) * (w * w) ^ i.1 := by
      rw [Finset.sum_range]
      refine Finset.sum_congr rfl fun i _ => ?_
      rw [List.getD_eq_getElem _ _ (by simp)]; simp
    rw [Finset.sum_congr rfl e1, e2, e3, Finset.sum_congr rfl e4, ← Finset.mul_sum, e5]
    push_cast; ring
  have hC : CoefBound (zcoef ((ν + 1 : ℕ) : ℤ)) (2 * Real.pi) ((2 * Real.pi) ^ (ν + 1)) := zcoef_bound (ν + 1)
  have h := coef_cert (e := 6e-42) hS.u_nonneg (R := 1) (t := nearT ν zs cs) (q := zcQ ν) (K := 64) (T := T) hC (by norm_num) (by norm_num)
    (by simpa [nearT] using hl) (fun k hk => zcQ_approx ν hν k hk) (fun k => by
      simp only [hT]
      split
      · rename_i hk
        rw [nearT_get _ _ _ _ (by omega), if_neg (by omega), if_neg (by omega), if_pos hk]
        push_cast
        rw [sub_self, abs_zero]
        exact mul_nonneg hS.u_nonneg (abs_nonneg _)
      · exact hS.rel _)
    (z := w) (by push_cast; linarith) (N := ν + 2 + 2 * m) (by simp [nearT])
  have e : V - (psum (zcoef ((ν + 1 : ℕ) : ℤ)) w + singU ν w) = -(psum (zcoef ((ν + 1 : ℕ) : ℤ)) w - ∑ k ∈ range (ν + 2 + 2 * m), (T k : ℂ) * w ^ k) := by
    rw [hsum, hV]; ring
  rw [e, norm_neg]
  refine h.trans ?_
  have hA' : (perr 1 64 (nearT ν zs cs) (zcQ ν) : ℝ) ≤ A := by exact_mod_cast hA
  have hB' : (psize 1 64 (nearT ν zs cs) : ℝ) ≤ B := by exact_mod_cast hB
  have h3 : u * ((psize 1 64 (nearT ν zs cs) : ℝ) / 10 ^ 60) ≤ u * (B / 10 ^ 60) :=
    mul_le_mul_of_nonneg_left (by gcongr) hS.u_nonneg
  have h4 : (perr 1 64 (nearT ν zs cs) (zcQ ν) : ℝ) / 10 ^ 60 ≤ A / 10 ^ 60 := by gcongr
  have h5 : (6e-42 : ℝ) * ∑ k ∈ range 64, (((1 : ℚ) : ℝ)) ^ k ≤ 3.9e-40 := by
    simp; norm_num
  have h6 : (2 * Real.pi) ^ (ν + 1) * (((1 : ℚ) : ℝ) / 6.28) ^ 64 / (1 - ((1 : ℚ) : ℝ) / 6.28) ≤ 1e-40 := by
    have hp : (2 * Real.pi) ^ (ν + 1) ≤ 7 ^ 6 := by
      have h7 : 2 * Real.pi ≤ 7 := by linarith [Real.pi_lt_d2]
      calc (2 * Real.pi) ^ (ν + 1) ≤ 7 ^ (ν + 1) := pow_le_pow_left₀ (by positivity) h7 _
        _ ≤ 7 ^ 6 := pow_le_pow_right₀ (by norm_num) (by omega)
    calc _ ≤ 7 ^ 6 * (((1 : ℚ) : ℝ) / 6.28) ^ 64 / (1 - ((1 : ℚ) : ℝ) / 6.28) := by
          apply div_le_div_of_nonneg_right _ (by push_cast; norm_num)
          exact mul_le_mul_of_nonneg_right hp (by push_cast; positivity)
      _ ≤ 1e-40 := by push_cast; norm_num
  linarith

/-! ## the Bernoulli-type series -/

theorem bser_acc {u : ℝ} (hS : S.Lit u) (ν : ℕ) (hν : ν ≤ 5) {bsT : List ℚ} (hbs : ∀ k < 64, bsT.getD k 0 = bserQ ν k) {m : ℕ} (bf : Vector ℚ m) (hl : m ≤ 64)
    {A B : ℤ} (hA : perr (11/10) 64 bf.toList bsT ≤ A) (hB : psize (11/10) 64 bf.toList ≤ B) {w : ℂ} (hw : ‖w‖ ≤ 1.1) :
    ‖w * (∑ i : Fin m, (((S.rho bf[i.1] : ℚ) : ℝ) : ℂ) * w ^ i.1) - w * psum (bserC ν) w‖ ≤ 1.1 * (A / 10 ^ 60 + 1e-44 + u * (B / 10 ^ 60)) := by
  rw [← mul_sub, norm_mul]
  refine mul_le_mul hw ?_ (norm_nonneg _) (by norm_num)
  have h := coef_cert (a := bserC ν) (e := 0) (C := 4 ^ ν) hS.u_nonneg (R := 11/10) (t := bf.toList) (q := bsT) (K := 64)
    (T := fun k => ((S.rho (bf.toList.getD k 0) : ℚ) : ℝ)) (bserC_bound ν) (by norm_num) (by norm_num)
    (by simpa using hl) (fun k hk => by rw [hbs k hk, bserC, sub_self, norm_zero]) (fun k => hS.rel _)
    (z := w) (by push_cast; linarith) (N := m) (by simp)
  have e : ∑ k ∈ range m, (((S.rho (bf.toList.getD k 0) : ℚ) : ℝ) : ℂ) * w ^ k = ∑ i : Fin m, (((S.rho bf[i.1] : ℚ) : ℝ) : ℂ) * w ^ i.1 := by
    rw [Finset.sum_range]
    refine Finset.sum_congr rfl fun i _ => ?_
    rw [List.getD_eq_getElem _ _ (by simp)]; simp
  rw [e] at h
  rw [norm_sub_rev]
  refine h.trans ?_
  have hA' : (perr (11/10) 64 bf.toList bsT : ℝ) ≤ A := by exact_mod_cast hA
  have hB' : (psize (11/10) 64 bf.toList : ℝ) ≤ B := by exact_mod_cast hB
  have h3 : u * ((psize (11/10) 64 bf.toList : ℝ) / 10 ^ 60) ≤ u * (B / 10 ^ 60) :=
    mul_le_mul_of_nonneg_left (by gcongr) hS.u_nonneg
  have h4 : (perr (11/10) 64 bf.toList bsT : ℝ) / 10 ^ 60 ≤ A / 10 ^ 60 := by gcongr
  have h5 : (4:ℝ) ^ ν * (((11/10 : ℚ) : ℝ) / 6.28) ^ 64 / (1 - ((11/10 : ℚ) : ℝ) / 6.28) ≤ 1e-44 := by
    have : (4:ℝ) ^ ν ≤ 4 ^ 5 := pow_le_pow_right₀ (by norm_num) hν
    calc _ ≤ (4:ℝ) ^ 5 * (((11/10 : ℚ) : ℝ) / 6.28) ^ 64 / (1 - ((11/10 : ℚ) : ℝ) / 6.28) := by
          apply div_le_div_of_nonneg_right _ (by push_cast; norm_num)
          exact mul_le_mul_of_nonneg_right this (by push_cast; positivity)
      _ ≤ 1e-44 := by push_cast; norm_num
  linarith

/-! ## constants of the inversion formula -/

theorem pLi_zeta_neg_one (n : ℕ) : pLi (n + 2) (-1) = -(1 - (1 / 2) ^ (n + 1)) * riemannZeta ((n : ℂ) + 2) := by
  have h := pLi_real_of_abs_le n (x := -1) (by simp)
  have h2 := reLi_neg_one_eq n
  rw [← reLi_one_eq_zeta]
  have e : ((-1 : ℝ) : ℂ) = -1 := by push_cast; rfl
  rw [e] at h
  rw [h, h2]
  push_cast; ring

theorem invC_zero : invC 0 = -1 := by simp [invC, pLi]; norm_num
theorem invC_one : invC 1 = 0 := by simp [invC]
theorem invC_two : invC 2 = -((Real.pi ^ 2 / 6 : ℝ) : ℂ) := by
  rw [invC, if_pos (by decide), pLi_two_neg_one]; push_cast; ring
theorem invC_three : invC 3 = 0 := by rw [invC, if_neg (by decide)]
theorem invC_four : invC 4 = -((7 * Real.pi ^ 4 / 360 : ℝ) : ℂ) := by
  rw [invC, if_pos (by decide), pLi_zeta_neg_one 2]
  have : riemannZeta (((2 : ℕ) : ℂ) + 2) = Real.pi ^ 4 / 90 := by
    rw [← riemannZeta_four]; norm_num
  rw [this]; push_cast; ring
theorem invC_five : invC 5 = 0 := by rw [invC, if_neg (by decide)]
theorem invC_six : invC 6 = -((31 * Real.pi ^ 6 / 15120 : ℝ) : ℂ) := by
  rw [invC, if_pos (by decide), pLi_zeta_neg_one 4]
  have h6 : bernoulli 6 = 1 / 42 := by
    have := bernT_eq 6 (by norm_num)
    have h2 : bernT.getD 6 0 = 1 / 30240 := by decide +kernel
    rw [h2, eq_div_iff (by norm_num [Nat.factorial])] at this
    rw [← this]; norm_num [Nat.factorial]
  have : riemannZeta (((4 : ℕ) : ℂ) + 2) = Real.pi ^ 6 / 945 := by
    have := riemannZeta_two_mul_nat (k := 3) (by norm_num)
    rw [show (2 * ((3:ℕ):ℂ)) = ((4 : ℕ) : ℂ) + 2 by norm_num] at this
    rw [this, show 2 * 3 = 6 by norm_num, h6]
    norm_num [Nat.factorial]
    ring
  rw [this]; push_cast; ring

end Polylog
