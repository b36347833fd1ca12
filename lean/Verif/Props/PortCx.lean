import Verif.Props.LiCxInv
import Verif.Model.CLog

/-! # C37, C38: tools for the complex functions of the C and Fortran ports

The ports evaluate `pos_clog(1 - z)` where the C++ code evaluates `log1p(-z)`, and their `pos_clog` contains a literal for `pi` where the C++
code has `4*atan(1)`. -/

noncomputable section
namespace Polylog
open Complex Finset

variable {S : RealSem}

section
variable {F : Type} [FOps F]
local notation:max "♯" q:max => (FOps.lit (q : ℚ) : F)

/-- `pos_clog` with the literal `p` for `pi` (proof device) -/
def posLogP (p : ℚ) (z : Cx F) : Cx F :=
  if z.im ==. ♯0 && z.re >. ♯0 then ⟨xlog z.re, ♯0⟩
  else if z.im ==. ♯0 then ⟨xlog (∸z.re), ♯p⟩
  else xlog z

/-- common shape of the complex functions of the ports (proof device) -/
def portShape (PL : Cx F → Cx F) (PI : F) (near fin1 : Cx F → Cx F) (finI : Cx F → Cx F → Cx F) (z : Cx F) : Cx F :=
  let nz := (FOps.hypot z.re z.im)
  let pz := (FOps.atan2 z.im z.re)
  let lnz := (xlog nz)
  if lnz *. lnz +. pz *. pz <. ♯1 then near ⟨lnz, pz⟩
  else if nz <=. ♯1 then fin1 (∸(PL (♯1 -. z)))
  else finI (∸(PL (♯1 -. ♯1 /. z))) ⟨lnz, if pz >. ♯0 then pz -. PI else pz +. PI⟩
end

theorem cx_ext {a b : Cx (R S)} (h : a.toC = b.toC) : a = b := by
  rw [← ofC_toC a, ← ofC_toC b, h]

theorem posLogP_eq {u : ℝ} (hS : S.Lit u) (p : ℚ) (z : Cx (R S)) (hz : z.toC ≠ 0) :
    (posLogP p z).toC = if z.toC.im = 0 ∧ z.toC.re < 0
      then Complex.log z.toC + ((((S.rho p : ℚ) : ℝ) - Real.pi : ℝ) : ℂ) * I else Complex.log z.toC := by
  unfold posLogP
  split
  · rename_i h
    simp only [rsem, hS.zero, Bool.and_eq_true, decide_eq_true_eq, Rat.cast_zero] at h
    rw [if_neg (by rintro ⟨_, h'⟩; linarith [h.2])]
    have e : z.toC = (z.toC.re : ℂ) := Complex.ext rfl (by simp [h.1])
    rw [toC_mk, xlog_R, ofR_log (by simpa [rsem] using h.2), ofR_re, ofR_lit, hS.zero]
    rw [e]; simp only [Complex.ofReal_re]
    rw [← Complex.ofReal_log h.2.le]
    apply Complex.ext <;> simp
  · split
    · rename_i h1 h
      simp only [rsem, hS.zero, Bool.and_eq_true, decide_eq_true_eq, Rat.cast_zero, not_and, not_lt] at h h1
      have hre : z.toC.re < 0 := lt_of_le_of_ne (h1 h) (fun h0 => hz (Complex.ext h0 h))
      have e : z.toC = (z.toC.re : ℂ) := Complex.ext rfl (by simp [h])
      rw [if_pos ⟨h, hre⟩, toC_mk, xlog_R, ofR_log (by simpa [rsem] using hre), ofR_neg, ofR_re, ofR_lit]
      apply Complex.ext
      · rw [Complex.add_re, Complex.log_re, e]; simp [abs_of_neg hre]
      · rw [Complex.add_im, Complex.log_im, e, Complex.arg_ofReal_of_neg hre]
        simp
    · rename_i h1 h
      simp only [rsem, hS.zero, decide_eq_true_eq, Rat.cast_zero] at h
      rw [if_neg (by rintro ⟨h', _⟩; exact h h')]
      exact toC_log hz

theorem posLogP_off {u : ℝ} (hS : S.Lit u) (p : ℚ) (z : Cx (R S)) (h : 0 ≤ z.toC.re) (hz : z.toC ≠ 0) :
    (posLogP p z).toC = Complex.log z.toC := by
  rw [posLogP_eq hS p z hz, if_neg (by rintro ⟨_, h'⟩; linarith)]

/-- away from 0 and 1, the logarithms of the ports are those of the C++ code -/
theorem portShape_eq {u : ℝ} (hS : S.Lit u) (p : ℚ) (PI : R S) (near fin1 : Cx (R S) → Cx (R S)) (finI : Cx (R S) → Cx (R S) → Cx (R S))
    (z : ℂ) (h0 : z ≠ 0) (h1 : z ≠ 1) :
    portShape (posLogP p) PI near fin1 finI (ofC S z) = cLiShape PI near fin1 finI (ofC S z) := by
  have l1 : ofR (FOps.lit 1 : R S) = 1 := by rw [ofR_lit, hS.one]; norm_num
  have e : portShape (posLogP p) PI near fin1 finI (ofC S z) =
      (let nz := (Cx.abs (ofC S z))
       let pz := (Cx.arg (ofC S z))
       let lnz := (xlog nz)
       if lnz *. lnz +. pz *. pz <. (FOps.lit 1 : R S) then near ⟨lnz, pz⟩
       else if nz <=. (FOps.lit 1 : R S) then fin1 (∸(posLogP p ((FOps.lit 1 : R S) -. ofC S z)))
       else finI (∸(posLogP p ((FOps.lit 1 : R S) -. (FOps.lit 1 : R S) /. ofC S z))) ⟨lnz, if pz >. (FOps.lit 0 : R S) then pz -. PI else pz +. PI⟩) := rfl
  rw [e, cLiShape]
  dsimp only
  split
  · rfl
  split
  · rename_i h
    rw [le_R, ofR_abs, l1, toC_ofC, decide_eq_true_eq] at h
    congr 2
    apply cx_ext
    have hn : ((FOps.lit 1 : R S) -. ofC S z : Cx (R S)).toC = 1 - z := by rw [toC_rsub, l1, toC_ofC, ofReal_one]
    have hne : (1 : ℂ) - z ≠ 0 := fun h => h1 (by linear_combination -h)
    rw [posLogP_off hS p _ (by rw [hn]; simpa using (Complex.re_le_norm z).trans h) (by rw [hn]; exact hne), hn, C07_log1p hS _ (by rw [toC_neg, toC_ofC]; simpa using h1), toC_neg, toC_ofC, sub_eq_add_neg]
  · rename_i h
    rw [le_R, ofR_abs, l1, toC_ofC, decide_eq_true_eq, not_le] at h
    congr 2
    apply cx_ext
    have hd : ((FOps.lit 1 : R S) /. ofC S z : Cx (R S)).toC = 1 / z := by rw [toC_rdiv hS.zero (by rw [toC_ofC]; exact h0), l1, toC_ofC, ofReal_one]
    have hd2 : (∸(FOps.lit 1 : R S) /. ofC S z : Cx (R S)).toC = -(1 / z) := by rw [toC_rdiv hS.zero (by rw [toC_ofC]; exact h0), ofR_neg, l1, toC_ofC, ofReal_neg, ofReal_one, neg_div]
    have hn : ((FOps.lit 1 : R S) -. (FOps.lit 1 : R S) /. ofC S z : Cx (R S)).toC = 1 - 1 / z := by rw [toC_rsub, l1, hd, ofReal_one]
    have hne : (1 : ℂ) - 1 / z ≠ 0 := by
      intro h
      field_simp at h
      exact h1 (by linear_combination h)
    have hle : (1 / z).re ≤ 1 := by
      refine (Complex.re_le_norm _).trans ?_
      rw [norm_div, norm_one, div_le_one (by linarith)]
      exact h.le
    rw [posLogP_off hS p _ (by rw [hn]; simpa using hle) (by rw [hn]; exact hne), hn, C07_log1p hS _ ?_, hd2, sub_eq_add_neg]
    rw [hd2]
    intro h
    exact h1 (by field_simp at h; linear_combination h)

/-- The effect of the literal `p` for `pi`: nothing unless `z` is real and `1 < z < e`. -/
theorem portShape_cmp {u : ℝ} (hS : S.Lit u) (p : ℚ) (PI : R S) (near near' fin1 fin1' : Cx (R S) → Cx (R S)) (finI finI' : Cx (R S) → Cx (R S) → Cx (R S))
    (ν : ℕ) (κ : ℝ)
    (hnear : ∀ w : Cx (R S), w.toC ≠ 0 → (near w).toC = (near' w).toC - κ * w.toC ^ ν * ((posLogP p (∸w)).toC - (posLog (∸w)).toC))
    (h1' : ∀ w, (fin1 w).toC = (fin1' w).toC) (hI : ∀ w l, (finI w l).toC = (finI' w l).toC)
    (z : ℂ) (h0 : z ≠ 0) (h1 : z ≠ 1) :
    (portShape (posLogP p) PI near fin1 finI (ofC S z)).toC = (cLiShape PI near' fin1' finI' (ofC S z)).toC
      - if z.im = 0 ∧ 1 < z.re ∧ z.re < Real.exp 1 then ((κ * Real.log z.re ^ ν * (((S.rho p : ℚ) : ℝ) - Real.pi) : ℝ) : ℂ) * I else 0 := by
  have l1 : ofR (FOps.lit 1 : R S) = 1 := by rw [ofR_lit, hS.one]; norm_num
  have l0 : ofR (FOps.lit 0 : R S) = 0 := by rw [ofR_lit, hS.zero]; norm_num
  have hn0 : 0 < ‖z‖ := norm_pos_iff.mpr h0
  rw [portShape_eq hS p PI near fin1 finI z h0 h1]
  simp only [cLiShape]
  have hlog : ofR (xlog (Cx.abs (ofC S z)) : R S) = Real.log ‖z‖ := by
    rw [xlog_R, ofR_log (by rw [ofR_abs, toC_ofC]; exact hn0), ofR_abs, toC_ofC]
  have harg : ofR (Cx.arg (ofC S z)) = Complex.arg z := by rw [ofR_arg (by rw [toC_ofC]; exact h0), toC_ofC]
  have hw : (⟨xlog (Cx.abs (ofC S z)), Cx.arg (ofC S z)⟩ : Cx (R S)).toC = Complex.log z := by
    rw [toC_mk, hlog, harg]; exact Complex.ext (Complex.log_re z).symm (Complex.log_im z).symm
  have hw0 : Complex.log z ≠ 0 := by
    intro h
    exact h1 (by rw [← Complex.exp_log h0, h, Complex.exp_zero])
  split
  · rename_i hc
    rw [lt_R, ofR_add, ofR_mul, ofR_mul, hlog, harg, l1, decide_eq_true_eq] at hc
    rw [hnear _ (by rw [hw]; exact hw0), hw]
    congr 1
    have hng : (∸(⟨xlog (Cx.abs (ofC S z)), Cx.arg (ofC S z)⟩ : Cx (R S))).toC = -Complex.log z := by rw [toC_neg, hw]
    rw [posLogP_eq hS p _ (by rw [hng]; exact neg_ne_zero.mpr hw0), C07_pos_log hS _ (by rw [hng]; exact neg_ne_zero.mpr hw0), hng]
    by_cases hz : z.im = 0 ∧ 1 < z.re ∧ z.re < Real.exp 1
    · have ez : z = (z.re : ℂ) := Complex.ext rfl (by simp [hz.1])
      have el : Complex.log z = ((Real.log z.re : ℝ) : ℂ) := by
        rw [ofReal_log (by linarith [hz.2.1]), ← ez]
      have hlp : 0 < Real.log z.re := Real.log_pos hz.2.1
      rw [if_pos hz, if_pos ⟨by rw [el]; simp, by rw [el]; simpa using hlp⟩, el]
      push_cast
      ring
    · rw [if_neg hz, if_neg]
      · ring
      · rintro ⟨hi, hr⟩
        apply hz
        rw [Complex.neg_im, Complex.log_im, neg_eq_zero] at hi
        rw [Complex.neg_re, Complex.log_re, neg_lt_zero] at hr
        have hh := Complex.arg_eq_zero_iff.mp hi
        have ez : z = (z.re : ℂ) := Complex.ext rfl (by simp [hh.2])
        have en : ‖z‖ = z.re := by rw [ez, Complex.norm_real, Real.norm_eq_abs, ofReal_re, abs_of_nonneg hh.1]
        rw [en] at hr hc
        rw [hi] at hc
        have hz1 : 1 < z.re := by
          by_contra hle
          exact absurd hr (not_lt.mpr (Real.log_nonpos hh.1 (not_lt.mp hle)))
        refine ⟨hh.2, hz1, ?_⟩
        have : Real.log z.re < 1 := by nlinarith
        rwa [Real.log_lt_iff_lt_exp (by linarith)] at this
  · rename_i hc
    have hno : ¬ (z.im = 0 ∧ 1 < z.re ∧ z.re < Real.exp 1) := by
      rintro ⟨hi, h2, h3⟩
      apply hc
      have ez : z = (z.re : ℂ) := Complex.ext rfl (by simp [hi])
      have en : ‖z‖ = z.re := by rw [ez, Complex.norm_real, Real.norm_eq_abs, ofReal_re, abs_of_nonneg (by linarith)]
      have ha : Complex.arg z = 0 := Complex.arg_eq_zero_iff.mpr ⟨by linarith, hi⟩
      rw [lt_R, ofR_add, ofR_mul, ofR_mul, hlog, harg, l1, decide_eq_true_eq, en, ha]
      have h4 := Real.log_pos h2
      have h5 : Real.log z.re < 1 := by rwa [Real.log_lt_iff_lt_exp (by linarith)]
      nlinarith
    rw [if_neg hno, sub_zero]
    split
    · exact h1' _
    · exact hI _ _

/-! ## the summation loops of the C port -/

theorem sumLoop_eq {u : ℝ} (_hS : S.Lit u) {N : ℕ} (m : ℕ) (z : Cx (R S)) (c : Vector ℚ N) : ∀ (k : ℕ) (hk : k ≤ N) (s : Cx (R S)),
    (C.sumLoop m z c k hk s).toC = (∑ i ∈ (univ : Finset (Fin k)).filter (fun i => m ≤ i.1),
      ((S.rho (c[i.1]'(by omega)) : ℝ) : ℂ) * z.toC ^ (i.1 - m + 1)) + z.toC ^ (k - m) * s.toC := by
  intro k
  induction k with
  | zero => intro hk s; simp [C.sumLoop]
  | succ k ih =>
    intro hk s
    rw [C.sumLoop]
    by_cases h : m ≤ k
    · rw [if_pos h, ih]
      simp only [Finset.sum_filter]
      rw [Fin.sum_univ_castSucc]
      simp only [Fin.val_castSucc, Fin.val_last, if_pos h, toC_mul, toC_radd, ofR_lit]
      rw [show k + 1 - m = (k - m) + 1 by omega]
      ring
    · rw [if_neg h]
      have : (univ : Finset (Fin (k + 1))).filter (fun i => m ≤ i.1) = ∅ := by
        ext i; simp; omega
      rw [this, Finset.sum_empty, show k + 1 - m = 0 by omega]; simp

theorem csum_eq {u : ℝ} (hS : S.Lit u) {N : ℕ} (m : ℕ) (z : Cx (R S)) (c : Vector ℚ N) :
    (C.csum m z c).toC = z.toC * ∑ i ∈ (univ : Finset (Fin N)).filter (fun i => m ≤ i.1), ((S.rho c[i.1] : ℝ) : ℂ) * z.toC ^ (i.1 - m) := by
  rw [C.csum, sumLoop_eq hS]
  have : (Cx.ofReal (FOps.lit 0 : R S)).toC = 0 := by rw [toC_ofReal hS.zero, ofR_lit, hS.zero]; simp
  rw [this, mul_zero, add_zero, Finset.mul_sum]
  exact Finset.sum_congr rfl fun i _ => by rw [pow_succ]; ring

end Polylog
