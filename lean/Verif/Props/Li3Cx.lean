import Verif.Props.LiCxInv
import Verif.Model.Li3

/-! # C18: complex Li3 -/

noncomputable section
namespace Polylog
open Complex Finset

variable {S : RealSem}

section
variable {F : Type} [FOps F]
local notation:max "♯" q:max => (FOps.lit (q : ℚ) : F)

/-- body of the complex Li3 away from the special points (proof device) -/
def cLi3S (p z2 : ℚ) (near : Cx F → Cx F) (fin : Cx F → Cx F → Cx F) (z : Cx F) : Cx F :=
  cLiShape ♯p near (fun u => fin u ⟨♯0, ♯0⟩) (fun u lmz => fin u (∸lmz *. (lmz *. lmz /. ♯6 +. ♯z2))) z

def fin18 (bf : Vector ℚ 18) (u rest : Cx F) : Cx F :=
        let u2 := u *. u
        let u4 := u2 *. u2
        let u8 := u4 *. u4
        rest +. u *. ♯(bf[0]) +. u2 *. (♯(bf[1]) +. u *. ♯(bf[2])) +. u4 *. (♯(bf[3]) +. u *. ♯(bf[4]) +. u2 *. (♯(bf[5]) +. u *. ♯(bf[6]))) +. u8 *. (♯(bf[7]) +. u *. ♯(bf[8]) +. u2 *. (♯(bf[9]) +. u *. ♯(bf[10])) +. u4 *. (♯(bf[11]) +. u *. ♯(bf[12]) +. u2 *. (♯(bf[13]) +. u *. ♯(bf[14])))) +. u8 *. u8 *. (♯(bf[15]) +. u *. ♯(bf[16]) +. u2 *. ♯(bf[17]))

def near3d (z3 z2 : ℚ) (cs : Vector ℚ 7) (u : Cx F) : Cx F :=
  let u2 := u *. u
  let u4 := u2 *. u2
  let u8 := u4 *. u4
  let c0 := ♯z3 +. u *. (♯z2 -. u2 /. ♯12)
  let c1 := ♯0.25 *. (♯3 -. ♯2 *. (posLog (∸u)))
  c0 +. c1 *. u2 +. u4 *. (♯(cs[0]) +. u2 *. ♯(cs[1])) +. u8 *. (♯(cs[2]) +. u2 *. ♯(cs[3]) +. u4 *. (♯(cs[4]) +. u2 *. ♯(cs[5]))) +. u8 *. u8 *. ♯(cs[6])

def near3l (z3 z2 : ℚ) {m : ℕ} (cs : Vector ℚ (m + 2)) (u : Cx F) : Cx F :=
  let u2 := u *. u
  let c0 := ♯z3 +. u *. (♯z2 -. u2 /. ♯12)
  let c1 := ♯0.25 *. (♯3 -. ♯2 *. (posLog (∸u)))
  c0 +. u2 *. (c1 +. u2 *. (hornerC 0 u2 cs))

theorem cLi3d_eq (z : Cx F) : cLi3d z =
    if z.im ==. ♯0 then
      (if z.re <=. ♯1 then ⟨Li3d z.re, z.im⟩ else ⟨Li3d z.re, ∸♯0.5 *. ♯3.1415926535897932 *. xlog z.re *. xlog z.re⟩)
    else cLi3S 3.1415926535897932 1.6449340668482264 (near3d 1.2020569031595943 1.6449340668482264 cli3dCs) (fin18 cli3dBf) z := rfl

theorem cLi3l_eq {n m : ℕ} (bf : Vector ℚ (n + 2)) (cs : Vector ℚ (m + 2)) (z : Cx F) : cLi3l bf cs z =
    if z.im ==. ♯0 && z.re ==. ♯0 then ⟨z.re, z.im⟩
    else if z.im ==. ♯0 && z.re ==. ♯1 then ⟨♯1.20205690315959428539973816151144999, z.im⟩
    else if z.im ==. ♯0 && z.re ==. ∸♯1 then ⟨∸♯0.75 *. ♯1.20205690315959428539973816151144999, z.im⟩
    else if z.im ==. ♯0 && z.re ==. ♯0.5 then ⟨♯0.537213193608040200940623225594965827, z.im⟩
    else cLi3S 3.14159265358979323846264338327950288 1.64493406684822643647241516664602519 (near3l 1.20205690315959428539973816151144999 1.64493406684822643647241516664602519 cs) (fun u rest => rest +. u *. (hornerC 0 u bf)) z := rfl
end

theorem fin18_eq (bf : Vector ℚ 18) (w r : Cx (R S)) :
    (fin18 bf w r).toC = r.toC + w.toC * ∑ i : Fin 18, (((S.rho bf[i.1] : ℚ) : ℝ) : ℂ) * w.toC ^ i.1 := by
  have : ∀ (g : ℕ → ℂ) , ∑ i : Fin 18, g i.1 * w.toC ^ i.1 = g 0 + g 1 * w.toC + g 2 * w.toC ^ 2 + g 3 * w.toC ^ 3 + g 4 * w.toC ^ 4 + g 5 * w.toC ^ 5 + g 6 * w.toC ^ 6 + g 7 * w.toC ^ 7 + g 8 * w.toC ^ 8 + g 9 * w.toC ^ 9 + g 10 * w.toC ^ 10 + g 11 * w.toC ^ 11 + g 12 * w.toC ^ 12 + g 13 * w.toC ^ 13 + g 14 * w.toC ^ 14 + g 15 * w.toC ^ 15 + g 16 * w.toC ^ 16 + g 17 * w.toC ^ 17 := by
    intro g
    rw [Fin.sum_univ_eq_sum_range (fun i => g i * w.toC ^ i) 18]
    simp only [Finset.sum_range_succ, Finset.sum_range_zero]
    ring
  have h2 := this (fun i => if h : i < 18 then (((S.rho bf[i] : ℚ) : ℝ) : ℂ) else 0)
  have h3 : ∑ i : Fin 18, (if h : i.1 < 18 then (((S.rho bf[i.1] : ℚ) : ℝ) : ℂ) else 0) * w.toC ^ i.1 = ∑ i : Fin 18, (((S.rho bf[i.1] : ℚ) : ℝ) : ℂ) * w.toC ^ i.1 :=
    Finset.sum_congr rfl fun i _ => by rw [dif_pos i.2]
  rw [← h3, h2]
  simp only [Nat.reduceLT, dite_true, fin18, rsem]
  ring

theorem near3_aux {u : ℝ} (hS : S.Lit u) (z3 z2 : ℚ) {m : ℕ} (cs : Vector ℚ m) (hl : 4 + 2 * m ≤ 64) {A B : ℤ}
    (hA : perr 1 64 (nearT 2 [z3, z2] cs) (zcQ 2) ≤ A) (hB : psize 1 64 (nearT 2 [z3, z2] cs) ≤ B) {w V : ℂ} (hw : ‖w‖ ≤ 1)
    (hV : V = (((S.rho z3 : ℚ) : ℝ) : ℂ) + w * ((((S.rho z2 : ℚ) : ℝ) : ℂ) - w * w / 12) + 1 / 4 * (3 - 2 * Complex.log (-w)) * (w * w)
      + w ^ 4 * ∑ i : Fin m, (((S.rho cs[i.1] : ℚ) : ℝ) : ℂ) * (w * w) ^ i.1) :
    ‖V - (psum (zcoef ((2 + 1 : ℕ) : ℤ)) w + singU 2 w)‖ ≤ A / 10 ^ 60 + 1e-39 + u * (B / 10 ^ 60) := by
  refine near_acc hS 2 (by norm_num) [z3, z2] cs hl hA hB hw ?_
  rw [hV]
  generalize (∑ i : Fin m, (((S.rho cs[i.1] : ℚ) : ℝ) : ℂ) * (w * w) ^ i.1) = X
  simp only [Finset.sum_range_succ, Finset.sum_range_zero, List.getD_cons_zero, List.getD_cons_succ, singU]
  norm_num [Nat.factorial, harmonic, Finset.sum_range_succ]
  ring

theorem rho_quarter {u : ℝ} (hS : S.Lit u) : ((S.rho 0.25 : ℚ) : ℝ) = 1 / 4 := by
  rw [hS.dy 0.25 1 2 (by norm_num) (by norm_num) (by norm_num)]; norm_num

theorem near3l_eq {u : ℝ} (hS : S.Lit u) (z3 z2 : ℚ) {m : ℕ} (cs : Vector ℚ (m + 2)) (w : Cx (R S)) (hw0 : w.toC ≠ 0) : (near3l z3 z2 cs w).toC =
    (((S.rho z3 : ℚ) : ℝ) : ℂ) + w.toC * ((((S.rho z2 : ℚ) : ℝ) : ℂ) - w.toC * w.toC / 12) + 1 / 4 * (3 - 2 * Complex.log (-w.toC)) * (w.toC * w.toC)
      + w.toC ^ 4 * ∑ i : Fin (m + 2), (((S.rho cs[i.1] : ℚ) : ℝ) : ℂ) * (w.toC * w.toC) ^ i.1 := by
  have hpl : (posLog (∸w)).toC = Complex.log (-w.toC) := by rw [C07_pos_log hS _ (by rw [toC_neg]; exact neg_ne_zero.mpr hw0), toC_neg]
  have hh := C06_hornerC 0 (Nat.zero_le _) (w *. w) cs
  simp only [rsem, Nat.zero_le, Finset.filter_true, Nat.sub_zero] at hh
  have c12 := toC_divlit hS 12 (q := 12) (by norm_num) (by norm_num) (by norm_num)
  have l2 := lit_of hS 2 (q := 2) (by norm_num) (by norm_num)
  have l3 := lit_of hS 3 (q := 3) (by norm_num) (by norm_num)
  generalize (∑ i : Fin (m + 2), (((S.rho cs[i.1] : ℚ) : ℝ) : ℂ) * (w.toC * w.toC) ^ i.1) = X at hh ⊢
  simp only [near3l, toC_add, toC_radd, toC_mul, toC_rmul, toC_rsub, hpl, hh, c12, l2, l3, ofR_lit, rho_quarter hS]
  push_cast
  ring

theorem near3d_eq {u : ℝ} (hS : S.Lit u) (z3 z2 : ℚ) (cs : Vector ℚ 7) (w : Cx (R S)) (hw0 : w.toC ≠ 0) : (near3d z3 z2 cs w).toC =
    (((S.rho z3 : ℚ) : ℝ) : ℂ) + w.toC * ((((S.rho z2 : ℚ) : ℝ) : ℂ) - w.toC * w.toC / 12) + 1 / 4 * (3 - 2 * Complex.log (-w.toC)) * (w.toC * w.toC)
      + w.toC ^ 4 * ∑ i : Fin 7, (((S.rho cs[i.1] : ℚ) : ℝ) : ℂ) * (w.toC * w.toC) ^ i.1 := by
  have hpl : (posLog (∸w)).toC = Complex.log (-w.toC) := by rw [C07_pos_log hS _ (by rw [toC_neg]; exact neg_ne_zero.mpr hw0), toC_neg]
  have : ∀ (g : ℕ → ℂ) (y : ℂ), ∑ i : Fin 7, g i.1 * y ^ i.1 = g 0 + g 1 * y + g 2 * y ^ 2 + g 3 * y ^ 3 + g 4 * y ^ 4 + g 5 * y ^ 5 + g 6 * y ^ 6 := by
    intro g y
    rw [Fin.sum_univ_eq_sum_range (fun i => g i * y ^ i) 7]
    simp only [Finset.sum_range_succ, Finset.sum_range_zero]
    ring
  have h2 := this (fun i => if h : i < 7 then (((S.rho cs[i] : ℚ) : ℝ) : ℂ) else 0) (w.toC * w.toC)
  have h3 : ∑ i : Fin 7, (if h : i.1 < 7 then (((S.rho cs[i.1] : ℚ) : ℝ) : ℂ) else 0) * (w.toC * w.toC) ^ i.1 = ∑ i : Fin 7, (((S.rho cs[i.1] : ℚ) : ℝ) : ℂ) * (w.toC * w.toC) ^ i.1 :=
    Finset.sum_congr rfl fun i _ => by rw [dif_pos i.2]
  rw [← h3, h2]
  have c12 := toC_divlit hS 12 (q := 12) (by norm_num) (by norm_num) (by norm_num)
  have l2 := lit_of hS 2 (q := 2) (by norm_num) (by norm_num)
  have l3 := lit_of hS 3 (q := 3) (by norm_num) (by norm_num)
  simp only [Nat.reduceLT, dite_true, near3d, toC_add, toC_radd, toC_mul, toC_mulr, toC_rmul, toC_rsub, hpl, c12, l2, l3, ofR_lit, rho_quarter hS]
  push_cast
  ring

/-- coefficients of the inversion polynomial of Li3 with an approximation of `zeta(2)` -/
def pInv3 (Z : ℝ) (j : ℕ) : ℂ := if j = 0 then -1 else if j = 2 then -(Z : ℂ) else 0

theorem cLi3S_accuracy {u : ℝ} (hS : S.Lit u) (p z2 : ℚ) {n : ℕ} (near : Cx (R S) → Cx (R S)) (bf : Vector ℚ n) (hn : n ≤ 64)
    (fin : Cx (R S) → Cx (R S) → Cx (R S))
    (hfin : ∀ w r, (fin w r).toC = r.toC + w.toC * ∑ i : Fin n, (((S.rho bf[i.1] : ℚ) : ℝ) : ℂ) * w.toC ^ i.1)
    {A' B' : ℤ} {δ ε : ℝ} (hp : |((S.rho p : ℚ) : ℝ) - Real.pi| ≤ δ) (hδ : δ ≤ 1 / 100) (hz2 : |((S.rho z2 : ℚ) : ℝ) - Real.pi ^ 2 / 6| ≤ 4 * δ)
    (hnear : ∀ w : Cx (R S), w.toC ≠ 0 → ‖w.toC‖ ≤ 1 → ‖(near w).toC - (psum (zcoef ((2 + 1 : ℕ) : ℤ)) w.toC + singU 2 w.toC)‖ ≤ ε)
    (hA' : perr (11/10) 64 bf.toList bserT2 ≤ A') (hB' : psize (11/10) 64 bf.toList ≤ B')
    (hε' : 1.1 * (A' / 10 ^ 60 + 1e-44 + u * (B' / 10 ^ 60)) ≤ ε) (z : ℂ) (h0 : z ≠ 0) (h1 : z ≠ 1) :
    ‖(cLi3S p z2 near fin (ofC S z)).toC - pLi 3 z‖ ≤ ε + if ‖z‖ ≤ 1 then 0 else 6.4 * δ * expN 3 ‖Complex.log (-z)‖ := by
  have c6 := toC_divlit hS 6 (q := 6) (by norm_num) (by norm_num) (by norm_num)
  have l0 := lit_of hS 0 (q := 0) (by norm_num) (by norm_num)
  have hδ0 : 0 ≤ δ := (abs_nonneg _).trans hp
  have hp' : |ofR (FOps.lit p : R S) - Real.pi| ≤ δ := by rw [ofR_lit]; exact hp
  rw [cLi3S]
  refine le_trans (cLiShape_accuracy hS 2 (FOps.lit p) _ _ _ (pInv3 (ofR (FOps.lit z2 : R S))) (εA := ε) (εB := ε) (η := 4 * δ) (δ := δ) (A := 2.1)
    hnear ?_ ?_ ?_ ?_ hp' (by linarith) le_rfl z h0 h1) ?_
  rotate_right
  · split_ifs
    · exact le_rfl
    · have h2 := expN_nonneg 3 (norm_nonneg (Complex.log (-z)))
      have h3 : 4 * δ + 10 / 9 * 2.1 * δ ≤ 6.4 * δ := by linarith [(abs_nonneg _).trans hp]
      have := mul_le_mul_of_nonneg_right h3 h2
      linarith
  · intro w hw
    refine le_trans (le_of_eq ?_) ((bser_acc hS 2 (by norm_num) bserT2_eq.2 bf hn hA' hB' hw).trans hε')
    rw [hfin, toC_mk, l0, show (⟨((0:ℕ):ℝ), ((0:ℕ):ℝ)⟩ : ℂ) = 0 by simp [Complex.ext_iff], zero_add]
  · intro w l hw
    refine le_trans (le_of_eq ?_) ((bser_acc hS 2 (by norm_num) bserT2_eq.2 bf hn hA' hB' hw).trans hε')
    rw [hfin]
    congr 1
    generalize (∑ i : Fin n, (((S.rho bf[i.1] : ℚ) : ℝ) : ℂ) * w.toC ^ i.1) = X
    generalize psum (bserC 2) w.toC = Y
    simp only [toC_mul, toC_addr, toC_neg, c6]
    simp only [appell, Finset.sum_range_succ, Finset.sum_range_zero, pInv3]
    norm_num [Nat.factorial]
    ring
  · intro j hj
    interval_cases j
    · rw [invC_zero]; simp [pInv3]; exact hδ0
    · rw [invC_one]; simp [pInv3]; exact hδ0
    · rw [invC_two, show pInv3 (ofR (FOps.lit z2 : R S)) 2 = -((ofR (FOps.lit z2 : R S) : ℝ) : ℂ) by simp [pInv3], ← ofReal_neg, ← ofReal_neg, ← ofReal_sub, Complex.norm_real,
        Real.norm_eq_abs, ← abs_neg, ofR_lit]
      refine le_trans (le_of_eq ?_) hz2
      congr 1; ring
    · rw [invC_three]; simp [pInv3]; exact hδ0
  · intro j hj
    unfold pInv3
    split_ifs
    · rw [norm_neg, norm_one]; norm_num
    · rw [norm_neg, Complex.norm_real, Real.norm_eq_abs, ofR_lit, abs_le]
      have := abs_le.mp hz2
      have h3 := Real.pi_gt_three
      have h4 := Real.pi_lt_d2
      constructor <;> nlinarith
    · rw [norm_zero]; norm_num

theorem cli3_certs :
    (perr 1 64 (nearT 2 [1.2020569031595943, 1.6449340668482264] cli3dCs) (zcQ 2) ≤ 122 * 10 ^ 42
      ∧ psize 1 64 (nearT 2 [1.2020569031595943, 1.6449340668482264] cli3dCs) ≤ 294 * 10 ^ 58
      ∧ perr (11/10) 64 cli3dBf.toList bserT2 ≤ 507 * 10 ^ 43 ∧ psize (11/10) 64 cli3dBf.toList ≤ 152 * 10 ^ 58) ∧
    (perr 1 64 (nearT 2 [1.20205690315959428539973816151144999, 1.64493406684822643647241516664602519] cli3l18Cs) (zcQ 2) ≤ 25 * 10 ^ 39
      ∧ psize 1 64 (nearT 2 [1.20205690315959428539973816151144999, 1.64493406684822643647241516664602519] cli3l18Cs) ≤ 294 * 10 ^ 58
      ∧ perr (11/10) 64 cli3l18Bf.toList bserT2 ≤ 432 * 10 ^ 40 ∧ psize (11/10) 64 cli3l18Bf.toList ≤ 152 * 10 ^ 58) ∧
    (perr 1 64 (nearT 2 [1.20205690315959428539973816151144999, 1.64493406684822643647241516664602519] cli3l36Cs) (zcQ 2) ≤ 156 * 10 ^ 22
      ∧ psize 1 64 (nearT 2 [1.20205690315959428539973816151144999, 1.64493406684822643647241516664602519] cli3l36Cs) ≤ 294 * 10 ^ 58
      ∧ perr (11/10) 64 cli3l36Bf.toList bserT2 ≤ 822 * 10 ^ 22 ∧ psize (11/10) 64 cli3l36Bf.toList ≤ 152 * 10 ^ 58) := by
  decide +kernel

theorem cli3_minus_one {u : ℝ} (hS : S.Lit u) (q : ℚ) {ε : ℝ} (h : |((S.rho q : ℚ) : ℝ) - reLi (1 + 2) 1| ≤ ε) :
    |ofR (∸(FOps.lit 0.75 : R S) *. (FOps.lit q : R S) : R S) - (-(1 - (1 / 2) ^ (1 + 1)) * reLi (1 + 2) 1)| ≤ ε := by
  have e1 : ((S.rho 0.75 : ℚ) : ℝ) = 3 / 4 := by
    rw [hS.dy 0.75 3 2 (by norm_num) (by norm_num) (by norm_num)]; norm_num
  rw [ofR_mul, ofR_neg, ofR_lit, ofR_lit, e1]
  have e : -(3 / 4 : ℝ) * ((S.rho q : ℚ) : ℝ) - (-(1 - (1 / 2) ^ (1 + 1)) * reLi (1 + 2) 1) = -(3 / 4) * (((S.rho q : ℚ) : ℝ) - reLi (1 + 2) 1) := by
    ring
  rw [e, abs_mul]
  have := abs_nonneg (((S.rho q : ℚ) : ℝ) - reLi (1 + 2) 1)
  rw [show |(-(3 / 4) : ℝ)| = 3 / 4 by norm_num [abs_of_nonneg]]
  linarith

theorem li3_half_cert : |pevQ (liL 3 (10 ^ 60) 150) (1/2) / 10 ^ 60 * (1 / 2) - 0.537213193608040200940623225594965827| ≤ 5e-37 := by decide +kernel

theorem reLi_three_half : |reLi (1 + 2) (1 / 2) - ((0.537213193608040200940623225594965827 : ℚ) : ℝ)| ≤ 6e-37 := by
  have h := reLi_taylor 1 (M := 10 ^ 60) (K := 150) (by norm_num) (y := 1 / 2) (X := 1 / 2) (by norm_num) (by rw [abs_of_nonneg] <;> norm_num) (by norm_num)
  have h2 := (Rat.cast_le (K := ℝ)).mpr li3_half_cert
  have h3 : pev (liL 3 (10 ^ 60) 150) (1 / 2 : ℝ) = ((pevQ (liL 3 (10 ^ 60) 150) (1/2) : ℚ) : ℝ) := by
    rw [← pev_rat]; push_cast; rfl
  rw [show 1 + 2 = 3 from rfl, h3] at h
  generalize pevQ (liL 3 (10 ^ 60) 150) (1/2) = Q at h h2
  rw [show 1 + 2 = 3 from rfl]
  push_cast at h h2 ⊢
  rw [abs_le] at h h2 ⊢
  norm_num at h h2 ⊢
  constructor <;> linarith [h.1, h.2, h2.1, h2.2]

/-- **C18**, `Li3`, double, off the real axis. -/
theorem C18_Li3d_offaxis {u : ℝ} (hS : S.Lit u) (hu : u ≤ 1 / 1000) (z : ℂ) (hz : z.im ≠ 0) :
    ‖(cLi3d (ofC S z)).toC - pLi 3 z‖ ≤ 5.6e-15 + 3 * u + if ‖z‖ ≤ 1 then 0 else (2.5e-16 + 20.2 * u) * expN 3 ‖Complex.log (-z)‖ := by
  have hu0 := hS.u_nonneg
  rw [cLi3d_eq]
  have he : |((3.1415926535897932 : ℚ) : ℝ) - Real.pi| ≤ ((3.85e-17 : ℚ) : ℝ) := pi_lit _ _ (by decide +kernel)
  have h2 := litpi_abs hS 3.1415926535897932 (by norm_num) (by norm_num) he
  have hz2 := zlit_err hS 0 (by norm_num) 1.6449340668482264 (e := 5e-17) (by decide +kernel) (by norm_num)
  push_cast at h2 hz2
  rw [reLi_two_one] at hz2
  have h0 : z ≠ 0 := fun h => hz (by rw [h]; rfl)
  have h1 : z ≠ 1 := fun h => hz (by rw [h]; rfl)
  rw [if_neg (by simpa only [rsem, hS.zero, decide_eq_true_eq, Rat.cast_zero] using hz)]
  refine (cLi3S_accuracy hS _ _ _ cli3dBf (by norm_num) _ (fin18_eq cli3dBf) h2 (by linarith) (hz2.trans (by linarith))
    (fun w hw0 hw => (near3_aux hS 1.2020569031595943 1.6449340668482264 cli3dCs (by norm_num) cli3_certs.1.1 cli3_certs.1.2.1 hw (near3d_eq hS _ _ cli3dCs w hw0)).trans (show _ ≤ 5.6e-15 + 3 * u by push_cast; linarith))
    cli3_certs.1.2.2.1 cli3_certs.1.2.2.2 (by push_cast; linarith) z h0 h1).trans ?_
  gcongr
  split_ifs
  · exact le_rfl
  · exact mul_le_mul_of_nonneg_right (by linarith) (expN_nonneg 3 (norm_nonneg _))

/-- **C18**, `Li3`, long double, `LDBL_DIG <= 18`. -/
theorem C18_Li3l18 {u : ℝ} (hS : S.Lit u) (hu : u ≤ 1 / 1000) (z : ℂ) :
    ‖(cLi3l18 (ofC S z)).toC - pLi 3 z‖ ≤ 4.8e-18 + 3 * u + if ‖z‖ ≤ 1 then 0 else (2.7e-35 + 20.2 * u) * expN 3 ‖Complex.log (-z)‖ := by
  have hu0 := hS.u_nonneg
  rw [cLi3l18, cLi3l_eq]
  have he : |((3.14159265358979323846264338327950288 : ℚ) : ℝ) - Real.pi| ≤ ((4.2e-36 : ℚ) : ℝ) := pi_lit _ _ (by decide +kernel)
  have h2 := litpi_abs hS 3.14159265358979323846264338327950288 (by norm_num) (by norm_num) he
  have hz2 := zlit_err hS 0 (by norm_num) 1.64493406684822643647241516664602519 (e := 6e-36) (by decide +kernel) (by norm_num)
  push_cast at h2 hz2
  rw [reLi_two_one] at hz2
  have hz5 := zlit_err hS 1 (by norm_num) 1.20205690315959428539973816151144999 (e := 6e-36) (by decide +kernel) (by norm_num)
  push_cast at hz5
  have hE := cLiN_fin (z := z) hu0 (by norm_num : (0:ℝ) ≤ 4.8e-18) (by norm_num : (0:ℝ) ≤ 3) (by norm_num : (0:ℝ) ≤ 2.7e-35) 3
  have hz5' := hz5.trans ((show _ ≤ 4.8e-18 + 3 * u by linarith).trans hE)
  refine special_chain hS 1 z _ _ _ ((by positivity : (0:ℝ) ≤ 4.8e-18 + 3 * u).trans hE) (by rw [ofR_lit]; exact hz5') (cli3_minus_one hS _ hz5') fun h0 h1 _ => ?_
  split
  · rename_i hc
    simp only [rsem, hS.zero, hS.half, Bool.and_eq_true, decide_eq_true_eq, Rat.cast_zero] at hc
    have hz : z = ((1 / 2 : ℝ) : ℂ) := Complex.ext (by rw [ofReal_re, hc.2]; norm_num) (by rw [ofReal_im, hc.1])
    have e : (⟨FOps.lit 0.537213193608040200940623225594965827, (ofC S z).im⟩ : Cx (R S)).toC = (((S.rho 0.537213193608040200940623225594965827 : ℚ) : ℝ) : ℂ) := by
      rw [toC_mk]
      exact Complex.ext rfl (by rw [ofR_im, toC_ofC]; simpa using hc.1)
    rw [e, hz, pLi_real_of_abs_le 1 (by rw [abs_of_nonneg] <;> norm_num), ← ofReal_sub, Complex.norm_real, Real.norm_eq_abs]
    rw [← hz]
    refine le_trans ?_ hE
    have h3 := reLi_three_half
    have h4 := hS.rel 0.537213193608040200940623225594965827
    rw [abs_sub_comm] at h3
    refine (abs_sub_le _ _ _).trans ((add_le_add h4 h3).trans ?_)
    push_cast
    rw [abs_of_nonneg (by norm_num)]
    linarith
  · refine (cLi3S_accuracy hS _ _ _ cli3l18Bf (by norm_num) _ (finH_eq cli3l18Bf) h2 (by linarith) (hz2.trans (by linarith))
      (fun w hw0 hw => (near3_aux hS 1.20205690315959428539973816151144999 1.64493406684822643647241516664602519 cli3l18Cs (by norm_num) cli3_certs.2.1.1 cli3_certs.2.1.2.1 hw (near3l_eq hS _ _ cli3l18Cs w hw0)).trans (show _ ≤ 4.8e-18 + 3 * u by push_cast; linarith))
      cli3_certs.2.1.2.2.1 cli3_certs.2.1.2.2.2 (by push_cast; linarith) z h0 h1).trans ?_
    gcongr
    split_ifs
    · exact le_rfl
    · exact mul_le_mul_of_nonneg_right (by linarith) (expN_nonneg 3 (norm_nonneg _))

/-- **C18**, `Li3`, long double, `LDBL_DIG > 18`. -/
theorem C18_Li3l36 {u : ℝ} (hS : S.Lit u) (hu : u ≤ 1 / 1000) (z : ℂ) :
    ‖(cLi3l36 (ofC S z)).toC - pLi 3 z‖ ≤ 9.1e-36 + 3 * u + if ‖z‖ ≤ 1 then 0 else (2.7e-35 + 20.2 * u) * expN 3 ‖Complex.log (-z)‖ := by
  have hu0 := hS.u_nonneg
  rw [cLi3l36, cLi3l_eq]
  have he : |((3.14159265358979323846264338327950288 : ℚ) : ℝ) - Real.pi| ≤ ((4.2e-36 : ℚ) : ℝ) := pi_lit _ _ (by decide +kernel)
  have h2 := litpi_abs hS 3.14159265358979323846264338327950288 (by norm_num) (by norm_num) he
  have hz2 := zlit_err hS 0 (by norm_num) 1.64493406684822643647241516664602519 (e := 6e-36) (by decide +kernel) (by norm_num)
  push_cast at h2 hz2
  rw [reLi_two_one] at hz2
  have hz5 := zlit_err hS 1 (by norm_num) 1.20205690315959428539973816151144999 (e := 6e-36) (by decide +kernel) (by norm_num)
  push_cast at hz5
  have hE := cLiN_fin (z := z) hu0 (by norm_num : (0:ℝ) ≤ 9.1e-36) (by norm_num : (0:ℝ) ≤ 3) (by norm_num : (0:ℝ) ≤ 2.7e-35) 3
  have hz5' := hz5.trans ((show _ ≤ 9.1e-36 + 3 * u by linarith).trans hE)
  refine special_chain hS 1 z _ _ _ ((by positivity : (0:ℝ) ≤ 9.1e-36 + 3 * u).trans hE) (by rw [ofR_lit]; exact hz5') (cli3_minus_one hS _ hz5') fun h0 h1 _ => ?_
  split
  · rename_i hc
    simp only [rsem, hS.zero, hS.half, Bool.and_eq_true, decide_eq_true_eq, Rat.cast_zero] at hc
    have hz : z = ((1 / 2 : ℝ) : ℂ) := Complex.ext (by rw [ofReal_re, hc.2]; norm_num) (by rw [ofReal_im, hc.1])
    have e : (⟨FOps.lit 0.537213193608040200940623225594965827, (ofC S z).im⟩ : Cx (R S)).toC = (((S.rho 0.537213193608040200940623225594965827 : ℚ) : ℝ) : ℂ) := by
      rw [toC_mk]
      exact Complex.ext rfl (by rw [ofR_im, toC_ofC]; simpa using hc.1)
    rw [e, hz, pLi_real_of_abs_le 1 (by rw [abs_of_nonneg] <;> norm_num), ← ofReal_sub, Complex.norm_real, Real.norm_eq_abs]
    rw [← hz]
    refine le_trans ?_ hE
    have h3 := reLi_three_half
    have h4 := hS.rel 0.537213193608040200940623225594965827
    rw [abs_sub_comm] at h3
    refine (abs_sub_le _ _ _).trans ((add_le_add h4 h3).trans ?_)
    push_cast
    rw [abs_of_nonneg (by norm_num)]
    linarith
  · refine (cLi3S_accuracy hS _ _ _ cli3l36Bf (by norm_num) _ (finH_eq cli3l36Bf) h2 (by linarith) (hz2.trans (by linarith))
      (fun w hw0 hw => (near3_aux hS 1.20205690315959428539973816151144999 1.64493406684822643647241516664602519 cli3l36Cs (by norm_num) cli3_certs.2.2.1 cli3_certs.2.2.2.1 hw (near3l_eq hS _ _ cli3l36Cs w hw0)).trans (show _ ≤ 9.1e-36 + 3 * u by push_cast; linarith))
      cli3_certs.2.2.2.2.1 cli3_certs.2.2.2.2.2 (by push_cast; linarith) z h0 h1).trans ?_
    gcongr
    split_ifs
    · exact le_rfl
    · exact mul_le_mul_of_nonneg_right (by linarith) (expN_nonneg 3 (norm_nonneg _))

/-! ### the hypotheses are met -/

example := C18_Li3d_offaxis RealSem.dec_lit (by norm_num) (3 + 4 * I) (by simp)
example := C18_Li3l18 RealSem.dec_lit (by norm_num) (3 + 4 * I)
example := C18_Li3l36 RealSem.dec_lit (by norm_num) (3 + 4 * I)

end Polylog
