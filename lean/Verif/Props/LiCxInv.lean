import Verif.Props.LiCxGen

/-! # Inversion coefficients and literals for the complex Li3, ..., Li6 -/

noncomputable section
namespace Polylog
open Complex Finset
variable {S : RealSem}

/-- coefficients of the inversion polynomials with an approximation `P` of `π` -/
def pInv (P : ℝ) (j : ℕ) : ℂ :=
  if j = 0 then -1 else if j = 2 then -((P ^ 2 / 6 : ℝ) : ℂ) else if j = 4 then -((7 * P ^ 4 / 360 : ℝ) : ℂ)
  else if j = 6 then -((31 * P ^ 6 / 15120 : ℝ) : ℂ) else 0

theorem abs_pow_sub_pi {P δ : ℝ} (h : |P - Real.pi| ≤ δ) (hδ : δ ≤ 1 / 100) (k : ℕ) : |P ^ k - Real.pi ^ k| ≤ k * 3.152 ^ (k - 1) * δ := by
  have hp := Real.pi_gt_d2
  have hp2 := Real.pi_lt_d6
  have hP := abs_le.mp h
  have := pow_sub_pow_le k (a := (P : ℂ)) (b := (Real.pi : ℂ)) (L := 3.152)
    (by rw [Complex.norm_real, Real.norm_eq_abs, abs_le]; constructor <;> linarith)
    (by rw [Complex.norm_real, Real.norm_eq_abs, abs_le]; constructor <;> linarith)
  rw [← ofReal_pow, ← ofReal_pow, ← ofReal_sub, ← ofReal_sub, Complex.norm_real, Complex.norm_real, Real.norm_eq_abs, Real.norm_eq_abs] at this
  exact this.trans (mul_le_mul_of_nonneg_left h (by positivity))

theorem pInv_err {P δ : ℝ} (h : |P - Real.pi| ≤ δ) (hδ : δ ≤ 1 / 100) (j : ℕ) (hj : j ≤ 6) : ‖pInv P j - invC j‖ ≤ 4 * δ := by
  have hδ0 : 0 ≤ δ := (abs_nonneg _).trans h
  have key : ∀ (c : ℝ) (k : ℕ), 0 ≤ c → c * (k * 3.152 ^ (k - 1)) ≤ 4 → ‖-((c * P ^ k : ℝ) : ℂ) - -((c * Real.pi ^ k : ℝ) : ℂ)‖ ≤ 4 * δ := by
    intro c k hc hk
    rw [← ofReal_neg, ← ofReal_neg, ← ofReal_sub, Complex.norm_real, Real.norm_eq_abs, show -(c * P ^ k) - -(c * Real.pi ^ k) = -(c * (P ^ k - Real.pi ^ k)) by ring,
      abs_neg, abs_mul, abs_of_nonneg hc]
    calc _ ≤ c * (k * 3.152 ^ (k - 1) * δ) := mul_le_mul_of_nonneg_left (abs_pow_sub_pi h hδ k) hc
      _ = c * (k * 3.152 ^ (k - 1)) * δ := by ring
      _ ≤ _ := mul_le_mul_of_nonneg_right hk hδ0
  interval_cases j
  · simp only [pInv, invC_zero, if_true, sub_self, norm_zero]; positivity
  · rw [invC_one]; simp [pInv]; positivity
  · rw [invC_two, show pInv P 2 = -((P ^ 2 / 6 : ℝ) : ℂ) by simp [pInv], div_eq_inv_mul, div_eq_inv_mul]
    exact key _ 2 (by norm_num) (by norm_num)
  · rw [invC_three]; simp [pInv]; positivity
  · rw [invC_four, show pInv P 4 = -((7 * P ^ 4 / 360 : ℝ) : ℂ) by simp [pInv], mul_div_right_comm, mul_div_right_comm]
    exact key _ 4 (by norm_num) (by norm_num)
  · rw [invC_five]; simp [pInv]; positivity
  · rw [invC_six, show pInv P 6 = -((31 * P ^ 6 / 15120 : ℝ) : ℂ) by simp [pInv], mul_div_right_comm, mul_div_right_comm]
    exact key _ 6 (by norm_num) (by norm_num)

theorem pInv_le {P δ : ℝ} (h : |P - Real.pi| ≤ δ) (hδ : δ ≤ 1 / 100) (j : ℕ) : ‖pInv P j‖ ≤ 2.1 := by
  have hp := Real.pi_gt_d2
  have hp2 := Real.pi_lt_d6
  have hP := abs_le.mp h
  have key : ∀ (c : ℝ) (k : ℕ), 0 ≤ c → c * 3.152 ^ k ≤ 2.1 → ‖-((c * P ^ k : ℝ) : ℂ)‖ ≤ 2.1 := by
    intro c k hc hk
    rw [norm_neg, Complex.norm_real, Real.norm_eq_abs, abs_of_nonneg (mul_nonneg hc (pow_nonneg (by linarith) _))]
    exact (mul_le_mul_of_nonneg_left (pow_le_pow_left₀ (by linarith) (by linarith) k) hc).trans hk
  unfold pInv
  split_ifs
  · rw [norm_neg, norm_one]; norm_num
  · rw [div_eq_inv_mul]; exact key _ 2 (by norm_num) (by norm_num)
  · rw [mul_div_right_comm]; exact key _ 4 (by norm_num) (by norm_num)
  · rw [mul_div_right_comm]; exact key _ 6 (by norm_num) (by norm_num)
  · rw [norm_zero]; norm_num

/-! ### literals -/

theorem lit_of {u : ℝ} (hS : S.Lit u) (n : ℕ) {q : ℚ} (hq : q = n) (hn : n < 2 ^ 24) : ofR (FOps.lit q : R S) = n := by
  rw [ofR_lit, hq, hS.nat n hn]; push_cast; rfl

theorem toC_divlit {u : ℝ} (hS : S.Lit u) (n : ℕ) {q : ℚ} (hq : q = n) (hn : n < 2 ^ 24) (h0 : n ≠ 0) (x : Cx (R S)) :
    (x /. (FOps.lit q : R S)).toC = x.toC / n := by
  have h := lit_of hS n hq hn
  rw [toC_divr (by rw [h]; exact_mod_cast h0), h]; push_cast; rfl

theorem ofR_divlit {u : ℝ} (hS : S.Lit u) (n : ℕ) {q : ℚ} (hq : q = n) (hn : n < 2 ^ 24) (h0 : n ≠ 0) (x : R S) :
    ofR (x /. (FOps.lit q : R S)) = ofR x / n := by
  have h := lit_of hS n hq hn
  rw [ofR_div (by rw [h]; exact_mod_cast h0), h]

/-- error of a tabulated zeta value -/
theorem zlit_err {u : ℝ} (hS : S.Lit u) (n : ℕ) (hn : n < 5) (q : ℚ) {e : ℚ} (he : |zA.getD (n + 2) 0 - q| + 6e-42 ≤ e) (hq : |q| ≤ 2) :
    |((S.rho q : ℚ) : ℝ) - reLi (n + 2) 1| ≤ e + 2 * u := by
  have h1 := zA_approx n hn
  have h2 := (Rat.cast_le (K := ℝ)).mpr he
  have h3 := (Rat.cast_le (K := ℝ)).mpr hq
  have h4 := hS.rel q
  have hu := hS.u_nonneg
  push_cast at h2 h3
  have h5 : u * |(q:ℝ)| ≤ u * 2 := mul_le_mul_of_nonneg_left h3 hu
  have e1 : ((S.rho q : ℚ) : ℝ) - reLi (n + 2) 1 = (((S.rho q : ℚ) : ℝ) - q) - (((zA.getD (n + 2) 0 : ℚ) : ℝ) - q) - (reLi (n + 2) 1 - ((zA.getD (n + 2) 0 : ℚ) : ℝ)) := by ring
  rw [e1]
  have h6 := abs_sub (((S.rho q : ℚ) : ℝ) - q - (((zA.getD (n + 2) 0 : ℚ) : ℝ) - q)) (reLi (n + 2) 1 - ((zA.getD (n + 2) 0 : ℚ) : ℝ))
  have h7 := abs_sub (((S.rho q : ℚ) : ℝ) - q) (((zA.getD (n + 2) 0 : ℚ) : ℝ) - q)
  linarith

theorem pLi_one_re (n : ℕ) : pLi (n + 2) 1 = (reLi (n + 2) 1 : ℂ) := by
  have := pLi_real_of_abs_le n (x := 1) (by simp)
  simpa using this
theorem pLi_neg_one_re (n : ℕ) : pLi (n + 2) (-1) = ((-(1 - (1 / 2) ^ (n + 1)) * reLi (n + 2) 1 : ℝ) : ℂ) := by
  rw [pLi_zeta_neg_one, ← reLi_one_eq_zeta]; push_cast; ring

theorem expN_one_le (n : ℕ) {x : ℝ} (hx : 0 ≤ x) : 1 ≤ expN n x := by
  rw [expN, Finset.sum_range_succ']
  have : 0 ≤ ∑ k ∈ range n, x ^ (k + 1) / ((k + 1).factorial : ℝ) := Finset.sum_nonneg fun m _ => by positivity
  simp; linarith

section
variable {F : Type} [FOps F]
local notation:max "♯" q:max => (FOps.lit (q : ℚ) : F)
/-- the polynomial of 18 coefficients as evaluated in the complex Li4 and Li6 (proof device) -/
def fin18s (bf : Vector ℚ 18) (u rest : Cx F) (sgn : F) : Cx F :=
        let u2 := u *. u
        let u4 := u2 *. u2
        let u8 := u4 *. u4
        rest +. sgn *. (u *. ♯(bf[0]) +. u2 *. (♯(bf[1]) +. u *. ♯(bf[2])) +. u4 *. (♯(bf[3]) +. u *. ♯(bf[4]) +. u2 *. (♯(bf[5]) +. u *. ♯(bf[6]))) +. u8 *. (♯(bf[7]) +. u *. ♯(bf[8]) +. u2 *. (♯(bf[9]) +. u *. ♯(bf[10])) +. u4 *. (♯(bf[11]) +. u *. ♯(bf[12]) +. u2 *. (♯(bf[13]) +. u *. ♯(bf[14])))) +. u8 *. u8 *. (♯(bf[15]) +. u *. ♯(bf[16]) +. u2 *. ♯(bf[17])))
end

theorem fin18s_eq (bf : Vector ℚ 18) (w r : Cx (R S)) (s : R S) :
    (fin18s bf w r s).toC = r.toC + ofR s * (w.toC * ∑ i : Fin 18, (((S.rho bf[i.1] : ℚ) : ℝ) : ℂ) * w.toC ^ i.1) := by
  have : ∀ (g : ℕ → ℂ) , ∑ i : Fin 18, g i.1 * w.toC ^ i.1 = g 0 + g 1 * w.toC + g 2 * w.toC ^ 2 + g 3 * w.toC ^ 3 + g 4 * w.toC ^ 4 + g 5 * w.toC ^ 5 + g 6 * w.toC ^ 6 + g 7 * w.toC ^ 7 + g 8 * w.toC ^ 8 + g 9 * w.toC ^ 9 + g 10 * w.toC ^ 10 + g 11 * w.toC ^ 11 + g 12 * w.toC ^ 12 + g 13 * w.toC ^ 13 + g 14 * w.toC ^ 14 + g 15 * w.toC ^ 15 + g 16 * w.toC ^ 16 + g 17 * w.toC ^ 17 := by
    intro g
    rw [Fin.sum_univ_eq_sum_range (fun i => g i * w.toC ^ i) 18]
    simp only [Finset.sum_range_succ, Finset.sum_range_zero]
    ring
  have h2 := this (fun i => if h : i < 18 then (((S.rho bf[i] : ℚ) : ℝ) : ℂ) else 0)
  have h3 : ∑ i : Fin 18, (if h : i.1 < 18 then (((S.rho bf[i.1] : ℚ) : ℝ) : ℂ) else 0) * w.toC ^ i.1 = ∑ i : Fin 18, (((S.rho bf[i.1] : ℚ) : ℝ) : ℂ) * w.toC ^ i.1 :=
    Finset.sum_congr rfl fun i _ => by rw [dif_pos i.2]
  rw [← h3, h2]
  simp only [Nat.reduceLT, dite_true, fin18s, rsem]
  ring

theorem finHs_eq {n : ℕ} (bf : Vector ℚ (n + 2)) (w r : Cx (R S)) (s : R S) :
    (r +. s *. w *. (hornerC 0 w bf)).toC = r.toC + ofR s * (w.toC * ∑ i : Fin (n + 2), (((S.rho bf[i.1] : ℚ) : ℝ) : ℂ) * w.toC ^ i.1) := by
  rw [toC_add, toC_mul, toC_rmul, C06_hornerC 0 (Nat.zero_le _)]
  simp [mul_assoc]

theorem finH_eq {n : ℕ} (bf : Vector ℚ (n + 2)) (w r : Cx (R S)) :
    (r +. w *. (hornerC 0 w bf)).toC = r.toC + w.toC * ∑ i : Fin (n + 2), (((S.rho bf[i.1] : ℚ) : ℝ) : ℂ) * w.toC ^ i.1 := by
  rw [toC_add, toC_mul, C06_hornerC 0 (Nat.zero_le _)]
  simp

theorem cLiN_fin {u e0 c d : ℝ} {z : ℂ} (hu0 : 0 ≤ u) (he0 : 0 ≤ e0) (hc : 0 ≤ c) (hd : 0 ≤ d) (n : ℕ) :
    e0 + c * u ≤ e0 + c * u + if ‖z‖ ≤ 1 then 0 else (d + 20.2 * u) * expN n ‖Complex.log (-z)‖ := by
  have := expN_nonneg n (norm_nonneg (Complex.log (-z)))
  split_ifs
  · linarith
  · have : 0 ≤ (d + 20.2 * u) * expN n ‖Complex.log (-z)‖ := by positivity
    linarith

/-- the chain of special points `0, 1, -1` -/
theorem special_chain {u : ℝ} (hS : S.Lit u) (n : ℕ) (z : ℂ) (v1 vm : R S) (body : Cx (R S)) {E : ℝ} (hE : 0 ≤ E)
    (hv1 : |ofR v1 - reLi (n + 2) 1| ≤ E) (hvm : |ofR vm - (-(1 - (1 / 2) ^ (n + 1)) * reLi (n + 2) 1)| ≤ E)
    (hb : z ≠ 0 → z ≠ 1 → z ≠ -1 → ‖body.toC - pLi (n + 2) z‖ ≤ E) :
    ‖(if (ofC S z).im ==. FOps.lit 0 && (ofC S z).re ==. FOps.lit 0 then (⟨(ofC S z).re, (ofC S z).im⟩ : Cx (R S))
      else if (ofC S z).im ==. FOps.lit 0 && (ofC S z).re ==. FOps.lit 1 then ⟨v1, (ofC S z).im⟩
      else if (ofC S z).im ==. FOps.lit 0 && (ofC S z).re ==. ∸(FOps.lit 1 : R S) then ⟨vm, (ofC S z).im⟩ else body).toC - pLi (n + 2) z‖ ≤ E := by
  have key : ∀ (x : ℝ) (v : R S) (r : ℝ), pLi (n + 2) (x : ℂ) = (r : ℂ) → |ofR v - r| ≤ E → z.im = 0 → z.re = x →
      ‖(⟨v, (ofC S z).im⟩ : Cx (R S)).toC - pLi (n + 2) z‖ ≤ E := by
    intro x v r h1 h2 h3 h4
    have hz : z = (x : ℂ) := Complex.ext (by simpa using h4) (by simpa using h3)
    have e : (⟨v, (ofC S z).im⟩ : Cx (R S)).toC = (ofR v : ℂ) := by
      rw [toC_mk]
      exact Complex.ext rfl (by rw [ofR_im, toC_ofC]; simpa using h3)
    rw [e, hz, h1, ← ofReal_sub, Complex.norm_real]
    exact h2
  simp only [rsem, hS.zero, hS.one, Bool.and_eq_true, decide_eq_true_eq, Rat.cast_zero, Rat.cast_one]
  split_ifs with c1 c2 c3
  · have hz : z = 0 := Complex.ext c1.2 c1.1
    rw [hz, pLi_zero_right, sub_zero, show (⟨(0:ℂ).re, (0:ℂ).im⟩ : ℂ) = 0 from rfl, norm_zero]; exact hE
  · have := key 1 v1 (reLi (n + 2) 1) (by push_cast; exact pLi_one_re n) hv1 c2.1 c2.2
    simpa only [rsem] using this
  · have := key (-1) vm _ (by push_cast; rw [pLi_neg_one_re]; push_cast; rfl) hvm c3.1 c3.2
    simpa only [rsem] using this
  · refine hb (fun h => c1 ?_) (fun h => c2 ?_) (fun h => c3 ?_) <;> subst h <;> simp

end Polylog
