import Verif.Props.CCx
import Verif.Props.FLi2Cx
import Verif.Props.LiAxis
import Verif.Model.FLi3
import Verif.Model.FLi4
import Verif.Model.FLi5
import Verif.Model.FLi6

/-! # C38: the complex Li3, Li4, Li5, Li6 of the Fortran port, in exact arithmetic

The powers of `pi` are separate literals in Fortran. -/

noncomputable section
namespace Polylog
open Complex Finset

variable {S : RealSem}

/-- coefficients of the inversion polynomial, with separate literals for the powers of `pi` -/
def pInvF (P2 P4 P6 : ℝ) (j : ℕ) : ℂ :=
  if j = 0 then -1 else if j = 2 then -((P2 / 6 : ℝ) : ℂ) else if j = 4 then -((7 * P4 / 360 : ℝ) : ℂ)
  else if j = 6 then -((31 * P6 / 15120 : ℝ) : ℂ) else 0

theorem pInvF_eq (P : ℝ) : pInvF (P ^ 2) (P ^ 4) (P ^ 6) = pInv P := rfl

theorem pInvF_sub {P2 P4 P6 δ P : ℝ} (h2 : |P2 - P ^ 2| ≤ 6 * δ) (h4 : |P4 - P ^ 4| ≤ 51 * δ) (h6 : |P6 - P ^ 6| ≤ 487 * δ) (j : ℕ) :
    ‖pInvF P2 P4 P6 j - pInv P j‖ ≤ δ := by
  have hδ : 0 ≤ δ := by have := abs_nonneg (P2 - P ^ 2); linarith
  have key : ∀ {c a b k : ℝ}, 0 ≤ c → |a - b| ≤ k * δ → c * k ≤ 1 → ‖-((c * a : ℝ) : ℂ) - -((c * b : ℝ) : ℂ)‖ ≤ δ := by
    intro c a b k hc hab hck
    rw [← ofReal_neg, ← ofReal_neg, ← ofReal_sub, Complex.norm_real, Real.norm_eq_abs, show -(c * a) - -(c * b) = -(c * (a - b)) by ring, abs_neg, abs_mul, abs_of_nonneg hc]
    calc _ ≤ c * (k * δ) := mul_le_mul_of_nonneg_left hab hc
      _ = c * k * δ := by ring
      _ ≤ 1 * δ := mul_le_mul_of_nonneg_right hck hδ
      _ = δ := one_mul _
  unfold pInvF pInv
  split_ifs
  · rw [sub_self, norm_zero]; exact hδ
  · rw [div_eq_inv_mul, div_eq_inv_mul]; exact key (by norm_num) h2 (by norm_num)
  · rw [mul_div_right_comm, mul_div_right_comm]; exact key (by norm_num) h4 (by norm_num)
  · rw [mul_div_right_comm, mul_div_right_comm]; exact key (by norm_num) h6 (by norm_num)
  · rw [sub_self, norm_zero]; exact hδ

/-- a power of `pi` as a literal -/
theorem pipow_lit {u : ℝ} (hS : S.Lit u) (q : ℚ) (k : ℕ) (hk : k ≤ 6) {e c : ℚ} (h : |q - piQ ^ k| + 1 / 10 ^ 45 ≤ e) (hc : |q| ≤ c) :
    |((S.rho q : ℚ) : ℝ) - Real.pi ^ k| ≤ e + c * u := by
  have h1 := hS.rel q
  have hu0 := hS.u_nonneg
  have hp : |((piQ : ℚ) : ℝ) - Real.pi| ≤ ((1 / 10 ^ 49 : ℚ) : ℝ) := pi_lit piQ _ (by simp)
  have hk2 : |((piQ : ℚ) : ℝ) ^ k - Real.pi ^ k| ≤ 1 / 10 ^ 45 := by
    refine (abs_pow_sub_pi hp (by norm_num) k).trans ?_
    interval_cases k <;> norm_num
  have h3 : |((q : ℚ) : ℝ) - ((piQ : ℚ) : ℝ) ^ k| + 1 / 10 ^ 45 ≤ (e : ℝ) := by
    have := (Rat.cast_le (K := ℝ)).2 h
    push_cast at this
    exact this
  have hc' : |((q : ℚ) : ℝ)| ≤ (c : ℝ) := by
    have := (Rat.cast_le (K := ℝ)).2 hc
    push_cast at this
    exact this
  have h4 : u * |((q : ℚ) : ℝ)| ≤ c * u := by rw [mul_comm]; exact mul_le_mul_of_nonneg_right hc' hu0
  have e1 : ((S.rho q : ℚ) : ℝ) - Real.pi ^ k = (((S.rho q : ℚ) : ℝ) - ((q : ℚ) : ℝ)) + ((((q : ℚ) : ℝ) - ((piQ : ℚ) : ℝ) ^ k) + (((piQ : ℚ) : ℝ) ^ k - Real.pi ^ k)) := by ring
  rw [e1]
  refine (abs_add_le _ _).trans ?_
  have h5 := abs_add_le (((q : ℚ) : ℝ) - ((piQ : ℚ) : ℝ) ^ k) (((piQ : ℚ) : ℝ) ^ k - Real.pi ^ k)
  linarith

theorem pInvF_err {u : ℝ} (hS : S.Lit u) (hu : u ≤ 1 / 1000) (j : ℕ) (hj : j ≤ 6) :
    ‖pInvF (ofR (FOps.lit 9.8696044010893586 : R S)) (ofR (FOps.lit 97.409091034002437 : R S)) (ofR (FOps.lit 961.38919357530444 : R S)) j - invC j‖ ≤ 4 * (3.85e-17 + 3.15 * u)
    ∧ ‖pInvF (ofR (FOps.lit 9.8696044010893586 : R S)) (ofR (FOps.lit 97.409091034002437 : R S)) (ofR (FOps.lit 961.38919357530444 : R S)) j‖ ≤ 2.1 := by
  have hu0 := hS.u_nonneg
  have a2 := pipow_lit hS 9.8696044010893586 2 (by norm_num) (e := 2e-17) (c := 10) (by decide +kernel) (by decide +kernel)
  have a4 := pipow_lit hS 97.409091034002437 4 (by norm_num) (e := 3e-16) (c := 98) (by decide +kernel) (by decide +kernel)
  have a6 := pipow_lit hS 961.38919357530444 6 (by norm_num) (e := 4e-15) (c := 962) (by decide +kernel) (by decide +kernel)
  push_cast at a2 a4 a6
  have d := pInvF_sub (δ := 1e-17 + 2 * u) (P := Real.pi) (a2.trans (by linarith)) (a4.trans (by linarith)) (a6.trans (by linarith)) j
  have d2 := pInv_err (P := Real.pi) (δ := 0) (by simp) (by norm_num) j hj
  have d3 : ‖invC j‖ ≤ 2.09 := by
    have e1 : invC j = pInv Real.pi j := by
      have : ‖pInv Real.pi j - invC j‖ = 0 := le_antisymm (by simpa using d2) (norm_nonneg _)
      exact (sub_eq_zero.mp (norm_eq_zero.mp this)).symm
    rw [e1]
    have hpi := Real.pi_lt_d6
    have hpi0 := Real.pi_pos
    have key : ∀ (c : ℝ) (k : ℕ), 0 ≤ c → c * 3.141593 ^ k ≤ 2.09 → ‖-((c * Real.pi ^ k : ℝ) : ℂ)‖ ≤ 2.09 := by
      intro c k hc hk
      rw [norm_neg, Complex.norm_real, Real.norm_eq_abs, abs_of_nonneg (mul_nonneg hc (pow_nonneg (by linarith) _))]
      exact (mul_le_mul_of_nonneg_left (pow_le_pow_left₀ (by linarith) (by linarith) k) hc).trans hk
    unfold pInv
    split_ifs
    · rw [norm_neg, norm_one]; norm_num
    · rw [div_eq_inv_mul]; exact key _ 2 (by norm_num) (by norm_num)
    · rw [mul_div_right_comm]; exact key _ 4 (by norm_num) (by norm_num)
    · rw [mul_div_right_comm]; exact key _ 6 (by norm_num) (by norm_num)
    · rw [norm_zero]; norm_num
  have d4 : ‖pInvF (ofR (FOps.lit 9.8696044010893586 : R S)) (ofR (FOps.lit 97.409091034002437 : R S)) (ofR (FOps.lit 961.38919357530444 : R S)) j - invC j‖ ≤ 1e-17 + 2 * u := by
    refine le_trans (norm_sub_le_norm_sub_add_norm_sub _ (pInv Real.pi j) _) ?_
    simp only [ofR_lit]
    linarith
  refine ⟨d4.trans (by linarith), ?_⟩
  have := norm_sub_norm_le (pInvF (ofR (FOps.lit 9.8696044010893586 : R S)) (ofR (FOps.lit 97.409091034002437 : R S)) (ofR (FOps.lit 961.38919357530444 : R S)) j) (invC j)
  linarith

section
variable {F : Type} [FOps F]
local notation:max "♯" q:max => (FOps.lit (q : ℚ) : F)

/-- `cdli4` away from the real axis, `posLog` for `pos_cdlog` (proof device) -/
def cLi4F (p z4 c1 c2 : ℚ) {m : ℕ} (cs : Vector ℚ (m + 2)) (fin : Cx F → Cx F → F → Cx F) (z : Cx F) : Cx F :=
  cLiShape ♯p (fun u =>
      let c3 := (♯11 /. ♯6 -. (posLog (∸u))) /. ♯6
      let c4 : F := ∸♯1 /. ♯48
      let u2 := u *. u
      ♯z4 +. u2 *. (♯c2 +. u2 *. c4) +. u *. (♯c1 +. u2 *. (c3 +. u2 *. (hornerC 0 u2 cs))))
    (fun u => fin u ⟨♯0, ♯0⟩ ♯1)
    (fun u lmz => fin u ((∸(♯7 *. ♯97.409091034002437) +. (Fortran.ipow2 lmz) *. (∸(♯30 *. ♯9.8696044010893586) -. ♯15 *. (Fortran.ipow2 lmz))) /. ♯360) ∸♯1) z

/-- `cdli5` away from the special points (proof device) -/
def cLi5F (p z5 c1 c2 c3 : ℚ) {m : ℕ} (cs : Vector ℚ (m + 2)) (fin : Cx F → Cx F → Cx F) (z : Cx F) : Cx F :=
  cLiShape ♯p (fun u =>
      let c4 := (♯25 /. ♯12 -. (posLog (∸u))) /. ♯24
      let c5 : F := ∸♯1 /. ♯240
      let u2 := u *. u
      ♯z5 +. u *. ♯c1 +. u2 *. (♯c2 +. u *. ♯c3 +. u2 *. (c4 +. u *. c5 +. u2 *. (hornerC 0 u2 cs))))
    (fun u => fin u ⟨♯0, ♯0⟩)
    (fun u lmz => fin u (∸(lmz *. (♯7 *. ♯97.409091034002437 +. (Fortran.ipow2 lmz) *. (♯10 *. ♯9.8696044010893586 +. ♯3 *. (Fortran.ipow2 lmz))) /. ♯360))) z

/-- `cdli6` away from the special points (proof device) -/
def cLi6F (p z6 c1 c2 c3 c4 : ℚ) {m : ℕ} (cs : Vector ℚ (m + 2)) (fin : Cx F → Cx F → F → Cx F) (z : Cx F) : Cx F :=
  cLiShape ♯p (fun u =>
      let c5 := (♯137 /. ♯60 -. (posLog (∸u))) /. ♯120
      let c6 : F := ∸♯1 /. ♯1440
      let u2 := u *. u
      ♯z6 +. u *. ♯c1 +. u2 *. (♯c2 +. u *. ♯c3 +. u2 *. (♯c4 +. u *. c5 +. u2 *. (c6 +. u *. (hornerC 0 u2 cs)))))
    (fun u => fin u ⟨♯0, ♯0⟩ ♯1)
    (fun u lmz => fin u (∸(♯31 *. ♯961.38919357530444 /. ♯15120) +. (Fortran.ipow2 lmz) *. (∸(♯7 *. ♯97.409091034002437 /. ♯720) +. (Fortran.ipow2 lmz) *. (∸(♯9.8696044010893586 /. ♯144) -. (Fortran.ipow2 lmz) /. ♯720))) ∸♯1) z

def fnear4 (p z4 c1 c2 : ℚ) (c4 : F) (cs : Vector ℚ 7) (u : Cx F) : Cx F :=
  let u2 := Fortran.ipow2 u
  let u4 := Fortran.ipow2 u2
  let u8 := Fortran.ipow2 u4
  let c3 := (♯11 /. ♯6 -. (posLogP p (∸u))) /. ♯6
  ♯z4 +. u2 *. (♯c2 +. u2 *. c4) +. u *. (♯c1 +. c3 *. u2 +. u4 *. (♯(cs[0]) +. u2 *. ♯(cs[1])) +. u8 *. (♯(cs[2]) +. u2 *. ♯(cs[3]) +. u4 *. (♯(cs[4]) +. u2 *. ♯(cs[5]))) +. u8 *. u8 *. ♯(cs[6]))

def fnear5 (p z5 c1 c2 c3 : ℚ) (c5 : F) (cs : Vector ℚ 6) (u : Cx F) : Cx F :=
  let u2 := Fortran.ipow2 u
  let c4 := (♯25 /. ♯12 -. (posLogP p (∸u))) /. ♯24
  ♯z5 +. u *. ♯c1 +. u2 *. (♯c2 +. u *. ♯c3 +. u2 *. (c4 +. u *. c5 +. u2 *. (♯(cs[0]) +. u2 *. (♯(cs[1]) +. u2 *. (♯(cs[2]) +. u2 *. (♯(cs[3]) +. u2 *. (♯(cs[4]) +. u2 *. (♯(cs[5])))))))))

def fnear6 (p z6 c1 c2 c3 c4 : ℚ) (c6 : F) (cs : Vector ℚ 5) (u : Cx F) : Cx F :=
  let u2 := Fortran.ipow2 u
  let c5 := (♯137 /. ♯60 -. (posLogP p (∸u))) /. ♯120
  ♯z6 +. u *. ♯c1 +. u2 *. (♯c2 +. u *. ♯c3 +. u2 *. (♯c4 +. u *. c5 +. u2 *. (c6 +. u *. (♯(cs[0]) +. u2 *. (♯(cs[1]) +. u2 *. (♯(cs[2]) +. u2 *. (♯(cs[3]) +. u2 *. (♯(cs[4])))))))))

theorem cdli3_eq (z : Cx F) : Fortran.cdli3 z =
    if z.im ==. ♯0 then
      (if z.re <=. ♯1 then ⟨Fortran.dli3 z.re, z.im⟩ else ⟨Fortran.dli3 z.re, ∸(♯0.5 *. ♯3.1415926535897932 *. (Fortran.ipow2 (xlog z.re)))⟩)
    else portShape (posLogP 3.14159265358979324) ♯3.1415926535897932 (cnear3d 3.14159265358979324 1.2020569031595943 1.6449340668482264 cli3dCs) (fun u => fin18 cli3dBf u ⟨♯0, ♯0⟩)
      (fun u lmz => fin18 cli3dBf u (∸(lmz *. ((Fortran.ipow2 lmz) /. ♯6 +. ♯1.6449340668482264)))) z := rfl

theorem cdli4_eq (z : Cx F) : Fortran.cdli4 z =
    if z.im ==. ♯0 then
      (if z.re <=. ♯1 then ⟨(Fortran.dli4 z.re).value, z.im⟩ else ⟨(Fortran.dli4 z.re).value, ∸(♯1 /. ♯6 *. ♯3.1415926535897932 *. (Fortran.ipow3 (xlog z.re)))⟩)
    else portShape (posLogP 3.14159265358979324) ♯3.1415926535897932 (fnear4 3.14159265358979324 1.0823232337111382 1.2020569031595943 0.82246703342411322 (∸(♯1 /. ♯48)) cli4dCs) (fun u => fin18s cli4dBf u ⟨♯0, ♯0⟩ ♯1)
      (fun u lmz => fin18s cli4dBf u ((∸(♯7 *. ♯97.409091034002437) +. (Fortran.ipow2 lmz) *. (∸(♯30 *. ♯9.8696044010893586) -. ♯15 *. (Fortran.ipow2 lmz))) /. ♯360) ∸♯1) z := rfl

theorem cdli5_eq (z : Cx F) : Fortran.cdli5 z =
    if z.im ==. ♯0 && z.re ==. ♯0 then ⟨z.re, z.im⟩
    else if z.im ==. ♯0 && z.re ==. ♯1 then ⟨♯1.0369277551433699, z.im⟩
    else if z.im ==. ♯0 && z.re ==. ∸♯1 then ⟨∸(♯15 *. ♯1.0369277551433699 /. ♯16), z.im⟩
    else portShape (posLogP 3.14159265358979324) ♯3.1415926535897932 (fnear5 3.14159265358979324 1.0369277551433699 1.0823232337111382 0.60102845157979714 0.27415567780803774 (∸(♯1 /. ♯240)) cli5dCs) (fun u => fin19 cli5dBf u ⟨♯0, ♯0⟩)
      (fun u lmz => fin19 cli5dBf u (∸(lmz *. (♯7 *. ♯97.409091034002437 +. (Fortran.ipow2 lmz) *. (♯10 *. ♯9.8696044010893586 +. ♯3 *. (Fortran.ipow2 lmz))) /. ♯360))) z := rfl

theorem cdli6_eq (z : Cx F) : Fortran.cdli6 z =
    if z.im ==. ♯0 && z.re ==. ♯0 then ⟨z.re, z.im⟩
    else if z.im ==. ♯0 && z.re ==. ♯1 then ⟨♯1.0173430619844491, z.im⟩
    else if z.im ==. ♯0 && z.re ==. ∸♯1 then ⟨∸(♯31 *. ♯1.0173430619844491 /. ♯32), z.im⟩
    else portShape (posLogP 3.14159265358979324) ♯3.1415926535897932 (fnear6 3.14159265358979324 1.0173430619844491 1.0369277551433699 0.54116161685556910 0.20034281719326571 0.068538919452009435 (∸(♯1 /. ♯1440)) cli6dCs) (fun u => fin18s cli6dBf u ⟨♯0, ♯0⟩ ♯1)
      (fun u lmz => fin18s cli6dBf u (∸(♯31 *. ♯961.38919357530444 /. ♯15120) +. (Fortran.ipow2 lmz) *. (∸(♯7 *. ♯97.409091034002437 /. ♯720) +. (Fortran.ipow2 lmz) *. (∸(♯9.8696044010893586 /. ♯144) -. (Fortran.ipow2 lmz) /. ♯720))) ∸♯1) z := rfl
end

theorem cLi4F_accuracy {u : ℝ} (hS : S.Lit u) (hu : u ≤ 1 / 1000) (p z4 c1 c2 : ℚ) {m n : ℕ} (cs : Vector ℚ (m + 2)) (hm : m ≤ 26) (bf : Vector ℚ n) (hn : n ≤ 64)
    (fin : Cx (R S) → Cx (R S) → R S → Cx (R S))
    (hfin : ∀ w r s, (fin w r s).toC = r.toC + ofR s * (w.toC * ∑ i : Fin n, (((S.rho bf[i.1] : ℚ) : ℝ) : ℂ) * w.toC ^ i.1))
    {A B A' B' : ℤ} {ε : ℝ} (hp : |((S.rho p : ℚ) : ℝ) - Real.pi| ≤ 3.85e-17 + 3.15 * u)
    (hA : perr 1 64 (nearT 3 [z4, c1, c2] cs) (zcQ 3) ≤ A) (hB : psize 1 64 (nearT 3 [z4, c1, c2] cs) ≤ B)
    (hA' : perr (11/10) 64 bf.toList bserT3 ≤ A') (hB' : psize (11/10) 64 bf.toList ≤ B')
    (hε : A / 10 ^ 60 + 1e-39 + u * (B / 10 ^ 60) ≤ ε) (hε' : 1.1 * (A' / 10 ^ 60 + 1e-44 + u * (B' / 10 ^ 60)) ≤ ε) (z : ℂ) (h0 : z ≠ 0) (h1 : z ≠ 1) :
    ‖(cLi4F p z4 c1 c2 cs fin (ofC S z)).toC - pLi 4 z‖ ≤ ε + if ‖z‖ ≤ 1 then 0 else (2.5e-16 + 20.2 * u) * expN 4 ‖Complex.log (-z)‖ := by
  have d6 := ofR_divlit hS 6 (q := 6) (by norm_num) (by norm_num) (by norm_num)
  have d48 := ofR_divlit hS 48 (q := 48) (by norm_num) (by norm_num) (by norm_num)
  have d360 := toC_divlit hS 360 (q := 360) (by norm_num) (by norm_num) (by norm_num)
  have c6 := toC_divlit hS 6 (q := 6) (by norm_num) (by norm_num) (by norm_num)
  have l0 := lit_of hS 0 (q := 0) (by norm_num) (by norm_num)
  have l1 := lit_of hS 1 (q := 1) (by norm_num) (by norm_num)
  have l7 := lit_of hS 7 (q := 7) (by norm_num) (by norm_num)
  have l11 := lit_of hS 11 (q := 11) (by norm_num) (by norm_num)
  have l15 := lit_of hS 15 (q := 15) (by norm_num) (by norm_num)
  have l30 := lit_of hS 30 (q := 30) (by norm_num) (by norm_num)
  have hu0 := hS.u_nonneg
  have hp' : |ofR (FOps.lit p : R S) - Real.pi| ≤ 3.85e-17 + 3.15 * u := by rw [ofR_lit]; exact hp
  rw [cLi4F]
  refine le_trans (cLiShape_accuracy hS 3 (FOps.lit p) _ _ _ (pInvF (ofR (FOps.lit 9.8696044010893586 : R S)) (ofR (FOps.lit 97.409091034002437 : R S)) (ofR (FOps.lit 961.38919357530444 : R S))) (εA := ε) (εB := ε) (η := 4 * (3.85e-17 + 3.15 * u)) (δ := 3.85e-17 + 3.15 * u) (A := 2.1)
    ?_ ?_ ?_ (fun j hj => (pInvF_err hS hu j (by omega)).1) (fun j hj => (pInvF_err hS hu j (by omega)).2) hp' (by linarith) le_rfl z h0 h1) ?_
  rotate_right
  · split_ifs
    · exact le_rfl
    · have h2 := expN_nonneg 4 (norm_nonneg (Complex.log (-z)))
      have h3 : 4 * (3.85e-17 + 3.15 * u) + 10 / 9 * 2.1 * (3.85e-17 + 3.15 * u) ≤ 2.5e-16 + 20.2 * u := by linarith
      have := mul_le_mul_of_nonneg_right h3 h2
      linarith
  · intro w hw0 hw
    refine (near_acc hS 3 (by norm_num) [z4, c1, c2] cs (by omega) hA hB hw ?_).trans hε
    have hpl : (posLog (∸w)).toC = Complex.log (-w.toC) := by rw [C07_pos_log hS _ (by rw [toC_neg]; exact neg_ne_zero.mpr hw0), toC_neg]
    have hh := C06_hornerC 0 (Nat.zero_le _) (w *. w) cs
    simp only [rsem, Nat.zero_le, Finset.filter_true, Nat.sub_zero] at hh
    simp only [toC_add, toC_radd, toC_mul, toC_mulr, toC_rsub, ofR_neg, hpl, hh, d6, d48, c6, l1, l11, ofR_lit]
    simp only [Finset.sum_range_succ, Finset.sum_range_zero, List.getD_cons_zero, List.getD_cons_succ, singU]
    norm_num [Nat.factorial, harmonic, Finset.sum_range_succ]
    ring
  · intro w hw
    refine le_trans (le_of_eq ?_) ((bser_acc hS 3 (by norm_num) bserT3_eq.2 bf hn hA' hB' hw).trans hε')
    rw [hfin, toC_mk, l0, l1, show (⟨((0:ℕ):ℝ), ((0:ℕ):ℝ)⟩ : ℂ) = 0 by simp [Complex.ext_iff], zero_add, Nat.cast_one, ofReal_one, one_mul]
  · intro w l hw
    refine le_trans (le_of_eq ?_) ((bser_acc hS 3 (by norm_num) bserT3_eq.2 bf hn hA' hB' hw).trans hε')
    rw [hfin, ← norm_neg]
    congr 1
    generalize (∑ i : Fin n, (((S.rho bf[i.1] : ℚ) : ℝ) : ℂ) * w.toC ^ i.1) = X
    generalize psum (bserC 3) w.toC = Y
    simp only [toC_rmul, toC_mul, toC_radd, toC_rsub, ofR_neg, ofR_mul, toC_neg, toC_addr, toC_subr, toC_radd, toC_rsub, toC_add, toC_sub, Fortran.ipow2, d360, l1, l7, l15, l30]
    simp only [appell, Finset.sum_range_succ, Finset.sum_range_zero, pInvF]
    norm_num [Nat.factorial]
    ring

theorem cLi5F_accuracy {u : ℝ} (hS : S.Lit u) (hu : u ≤ 1 / 1000) (p z5 c1 c2 c3 : ℚ) {m n : ℕ} (cs : Vector ℚ (m + 2)) (hm : m ≤ 27) (bf : Vector ℚ n) (hn : n ≤ 64)
    (fin : Cx (R S) → Cx (R S) → Cx (R S))
    (hfin : ∀ w r, (fin w r).toC = r.toC + w.toC * ∑ i : Fin n, (((S.rho bf[i.1] : ℚ) : ℝ) : ℂ) * w.toC ^ i.1)
    {A B A' B' : ℤ} {ε : ℝ} (hp : |((S.rho p : ℚ) : ℝ) - Real.pi| ≤ 3.85e-17 + 3.15 * u)
    (hA : perr 1 64 (nearT 4 [z5, c1, c2, c3] cs) (zcQ 4) ≤ A) (hB : psize 1 64 (nearT 4 [z5, c1, c2, c3] cs) ≤ B)
    (hA' : perr (11/10) 64 bf.toList bserT4 ≤ A') (hB' : psize (11/10) 64 bf.toList ≤ B')
    (hε : A / 10 ^ 60 + 1e-39 + u * (B / 10 ^ 60) ≤ ε) (hε' : 1.1 * (A' / 10 ^ 60 + 1e-44 + u * (B' / 10 ^ 60)) ≤ ε) (z : ℂ) (h0 : z ≠ 0) (h1 : z ≠ 1) :
    ‖(cLi5F p z5 c1 c2 c3 cs fin (ofC S z)).toC - pLi 5 z‖ ≤ ε + if ‖z‖ ≤ 1 then 0 else (2.5e-16 + 20.2 * u) * expN 5 ‖Complex.log (-z)‖ := by
  have d12 := ofR_divlit hS 12 (q := 12) (by norm_num) (by norm_num) (by norm_num)
  have d24 := toC_divlit hS 24 (q := 24) (by norm_num) (by norm_num) (by norm_num)
  have d240 := ofR_divlit hS 240 (q := 240) (by norm_num) (by norm_num) (by norm_num)
  have d360 := toC_divlit hS 360 (q := 360) (by norm_num) (by norm_num) (by norm_num)
  have l0 := lit_of hS 0 (q := 0) (by norm_num) (by norm_num)
  have l1 := lit_of hS 1 (q := 1) (by norm_num) (by norm_num)
  have l3 := lit_of hS 3 (q := 3) (by norm_num) (by norm_num)
  have l7 := lit_of hS 7 (q := 7) (by norm_num) (by norm_num)
  have l10 := lit_of hS 10 (q := 10) (by norm_num) (by norm_num)
  have l25 := lit_of hS 25 (q := 25) (by norm_num) (by norm_num)
  have hu0 := hS.u_nonneg
  have hp' : |ofR (FOps.lit p : R S) - Real.pi| ≤ 3.85e-17 + 3.15 * u := by rw [ofR_lit]; exact hp
  rw [cLi5F]
  refine le_trans (cLiShape_accuracy hS 4 (FOps.lit p) _ _ _ (pInvF (ofR (FOps.lit 9.8696044010893586 : R S)) (ofR (FOps.lit 97.409091034002437 : R S)) (ofR (FOps.lit 961.38919357530444 : R S))) (εA := ε) (εB := ε) (η := 4 * (3.85e-17 + 3.15 * u)) (δ := 3.85e-17 + 3.15 * u) (A := 2.1)
    ?_ ?_ ?_ (fun j hj => (pInvF_err hS hu j (by omega)).1) (fun j hj => (pInvF_err hS hu j (by omega)).2) hp' (by linarith) le_rfl z h0 h1) ?_
  rotate_right
  · split_ifs
    · exact le_rfl
    · have h2 := expN_nonneg 5 (norm_nonneg (Complex.log (-z)))
      have h3 : 4 * (3.85e-17 + 3.15 * u) + 10 / 9 * 2.1 * (3.85e-17 + 3.15 * u) ≤ 2.5e-16 + 20.2 * u := by linarith
      have := mul_le_mul_of_nonneg_right h3 h2
      linarith
  · intro w hw0 hw
    refine (near_acc hS 4 (by norm_num) [z5, c1, c2, c3] cs (by omega) hA hB hw ?_).trans hε
    have hpl : (posLog (∸w)).toC = Complex.log (-w.toC) := by rw [C07_pos_log hS _ (by rw [toC_neg]; exact neg_ne_zero.mpr hw0), toC_neg]
    have hh := C06_hornerC 0 (Nat.zero_le _) (w *. w) cs
    simp only [rsem, Nat.zero_le, Finset.filter_true, Nat.sub_zero] at hh
    simp only [toC_add, toC_radd, toC_mul, toC_mulr, toC_rsub, d24, ofR_neg, d12, d240, hpl, hh, l1, l25, ofR_lit]
    simp only [Finset.sum_range_succ, Finset.sum_range_zero, List.getD_cons_zero, List.getD_cons_succ, singU]
    norm_num [Nat.factorial, harmonic, Finset.sum_range_succ]
    ring
  · intro w hw
    refine le_trans (le_of_eq ?_) ((bser_acc hS 4 (by norm_num) bserT4_eq.2 bf hn hA' hB' hw).trans hε')
    rw [hfin, toC_mk, l0]
    congr 2
    simp [Complex.ext_iff]
  · intro w l hw
    refine le_trans (le_of_eq ?_) ((bser_acc hS 4 (by norm_num) bserT4_eq.2 bf hn hA' hB' hw).trans hε')
    rw [hfin]
    congr 1
    generalize (∑ i : Fin n, (((S.rho bf[i.1] : ℚ) : ℝ) : ℂ) * w.toC ^ i.1) = X
    generalize psum (bserC 4) w.toC = Y
    simp only [toC_rmul, toC_mul, toC_radd, ofR_neg, ofR_mul, toC_neg, toC_addr, toC_subr, toC_radd, toC_rsub, toC_add, toC_sub, Fortran.ipow2, d360, l1, l7, l10, l3]
    simp only [appell, Finset.sum_range_succ, Finset.sum_range_zero, pInvF]
    norm_num [Nat.factorial]
    ring

theorem cLi6F_accuracy {u : ℝ} (hS : S.Lit u) (hu : u ≤ 1 / 1000) (p z6 c1 c2 c3 c4 : ℚ) {m n : ℕ} (cs : Vector ℚ (m + 2)) (hm : m ≤ 26) (bf : Vector ℚ n) (hn : n ≤ 64)
    (fin : Cx (R S) → Cx (R S) → R S → Cx (R S))
    (hfin : ∀ w r s, (fin w r s).toC = r.toC + ofR s * (w.toC * ∑ i : Fin n, (((S.rho bf[i.1] : ℚ) : ℝ) : ℂ) * w.toC ^ i.1))
    {A B A' B' : ℤ} {ε : ℝ} (hp : |((S.rho p : ℚ) : ℝ) - Real.pi| ≤ 3.85e-17 + 3.15 * u)
    (hA : perr 1 64 (nearT 5 [z6, c1, c2, c3, c4] cs) (zcQ 5) ≤ A) (hB : psize 1 64 (nearT 5 [z6, c1, c2, c3, c4] cs) ≤ B)
    (hA' : perr (11/10) 64 bf.toList bserT5 ≤ A') (hB' : psize (11/10) 64 bf.toList ≤ B')
    (hε : A / 10 ^ 60 + 1e-39 + u * (B / 10 ^ 60) ≤ ε) (hε' : 1.1 * (A' / 10 ^ 60 + 1e-44 + u * (B' / 10 ^ 60)) ≤ ε) (z : ℂ) (h0 : z ≠ 0) (h1 : z ≠ 1) :
    ‖(cLi6F p z6 c1 c2 c3 c4 cs fin (ofC S z)).toC - pLi 6 z‖ ≤ ε + if ‖z‖ ≤ 1 then 0 else (2.5e-16 + 20.2 * u) * expN 6 ‖Complex.log (-z)‖ := by
  have d60 := ofR_divlit hS 60 (q := 60) (by norm_num) (by norm_num) (by norm_num)
  have d1440 := ofR_divlit hS 1440 (q := 1440) (by norm_num) (by norm_num) (by norm_num)
  have d15120 := ofR_divlit hS 15120 (q := 15120) (by norm_num) (by norm_num) (by norm_num)
  have d720 := ofR_divlit hS 720 (q := 720) (by norm_num) (by norm_num) (by norm_num)
  have d144 := ofR_divlit hS 144 (q := 144) (by norm_num) (by norm_num) (by norm_num)
  have e720 := toC_divlit hS 720 (q := 720) (by norm_num) (by norm_num) (by norm_num)
  have c120 := toC_divlit hS 120 (q := 120) (by norm_num) (by norm_num) (by norm_num)
  have l0 := lit_of hS 0 (q := 0) (by norm_num) (by norm_num)
  have l1 := lit_of hS 1 (q := 1) (by norm_num) (by norm_num)
  have l7 := lit_of hS 7 (q := 7) (by norm_num) (by norm_num)
  have l31 := lit_of hS 31 (q := 31) (by norm_num) (by norm_num)
  have l137 := lit_of hS 137 (q := 137) (by norm_num) (by norm_num)
  have hu0 := hS.u_nonneg
  have hp' : |ofR (FOps.lit p : R S) - Real.pi| ≤ 3.85e-17 + 3.15 * u := by rw [ofR_lit]; exact hp
  rw [cLi6F]
  refine le_trans (cLiShape_accuracy hS 5 (FOps.lit p) _ _ _ (pInvF (ofR (FOps.lit 9.8696044010893586 : R S)) (ofR (FOps.lit 97.409091034002437 : R S)) (ofR (FOps.lit 961.38919357530444 : R S))) (εA := ε) (εB := ε) (η := 4 * (3.85e-17 + 3.15 * u)) (δ := 3.85e-17 + 3.15 * u) (A := 2.1)
    ?_ ?_ ?_ (fun j hj => (pInvF_err hS hu j (by omega)).1) (fun j hj => (pInvF_err hS hu j (by omega)).2) hp' (by linarith) le_rfl z h0 h1) ?_
  rotate_right
  · split_ifs
    · exact le_rfl
    · have h2 := expN_nonneg 6 (norm_nonneg (Complex.log (-z)))
      have h3 : 4 * (3.85e-17 + 3.15 * u) + 10 / 9 * 2.1 * (3.85e-17 + 3.15 * u) ≤ 2.5e-16 + 20.2 * u := by linarith
      have := mul_le_mul_of_nonneg_right h3 h2
      linarith
  · intro w hw0 hw
    refine (near_acc hS 5 (by norm_num) [z6, c1, c2, c3, c4] cs (by omega) hA hB hw ?_).trans hε
    have hpl : (posLog (∸w)).toC = Complex.log (-w.toC) := by rw [C07_pos_log hS _ (by rw [toC_neg]; exact neg_ne_zero.mpr hw0), toC_neg]
    have hh := C06_hornerC 0 (Nat.zero_le _) (w *. w) cs
    simp only [rsem, Nat.zero_le, Finset.filter_true, Nat.sub_zero] at hh
    simp only [toC_add, toC_radd, toC_mul, toC_mulr, toC_rsub, ofR_neg, hpl, hh, d60, d1440, c120, l1, l137, ofR_lit]
    simp only [Finset.sum_range_succ, Finset.sum_range_zero, List.getD_cons_zero, List.getD_cons_succ, singU]
    norm_num [Nat.factorial, harmonic, Finset.sum_range_succ]
    ring
  · intro w hw
    refine le_trans (le_of_eq ?_) ((bser_acc hS 5 (by norm_num) bserT5_eq.2 bf hn hA' hB' hw).trans hε')
    rw [hfin, toC_mk, l0, l1, show (⟨((0:ℕ):ℝ), ((0:ℕ):ℝ)⟩ : ℂ) = 0 by simp [Complex.ext_iff], zero_add, Nat.cast_one, ofReal_one, one_mul]
  · intro w l hw
    refine le_trans (le_of_eq ?_) ((bser_acc hS 5 (by norm_num) bserT5_eq.2 bf hn hA' hB' hw).trans hε')
    rw [hfin, ← norm_neg]
    congr 1
    generalize (∑ i : Fin n, (((S.rho bf[i.1] : ℚ) : ℝ) : ℂ) * w.toC ^ i.1) = X
    generalize psum (bserC 5) w.toC = Y
    simp only [toC_rmul, toC_mul, toC_radd, toC_rsub, ofR_neg, ofR_mul, toC_neg, toC_addr, toC_subr, toC_radd, toC_rsub, toC_add, toC_sub, Fortran.ipow2, d15120, e720, d720, d144, l1, l7, l31]
    simp only [appell, Finset.sum_range_succ, Finset.sum_range_zero, pInvF]
    norm_num [Nat.factorial]
    ring

end Polylog
