import Verif.Props.LiCxInv
import Verif.Model.Li5

/-! # C18: complex Li5 -/

noncomputable section
namespace Polylog
open Complex Finset

variable {S : RealSem}

section
variable {F : Type} [FOps F]
local notation:max "♯" q:max => (FOps.lit (q : ℚ) : F)

/-- body of the complex Li5 away from the special points (proof device) -/
def cLi5S (p z5 c1 c2 c3 : ℚ) {m : ℕ} (cs : Vector ℚ (m + 2)) (fin : Cx F → Cx F → Cx F) (z : Cx F) : Cx F :=
  let PI : F := ♯p
  let PI2 := PI *. PI
  let PI4 := PI2 *. PI2
  cLiShape PI (fun u =>
      let c4 := (♯25 /. ♯12 -. (posLog (∸u))) /. ♯24
      let c5 : F := ∸♯1 /. ♯240
      let u2 := u *. u
      ♯z5 +. u *. ♯c1 +. u2 *. (♯c2 +. u *. ♯c3 +. u2 *. (c4 +. u *. c5 +. u2 *. (hornerC 0 u2 cs))))
    (fun u => fin u ⟨♯0, ♯0⟩)
    (fun u lmz => let lmz2 := lmz *. lmz
      fin u (∸♯1 /. ♯360 *. lmz *. (♯7 *. PI4 +. lmz2 *. (♯10 *. PI2 +. ♯3 *. lmz2)))) z

def fin19 (bf : Vector ℚ 19) (u rest : Cx F) : Cx F :=
        let u2 := u *. u
        let u4 := u2 *. u2
        let u8 := u4 *. u4
        rest +. u *. ♯(bf[0]) +. u2 *. (♯(bf[1]) +. u *. ♯(bf[2])) +. u4 *. (♯(bf[3]) +. u *. ♯(bf[4]) +. u2 *. (♯(bf[5]) +. u *. ♯(bf[6]))) +. u8 *. (♯(bf[7]) +. u *. ♯(bf[8]) +. u2 *. (♯(bf[9]) +. u *. ♯(bf[10])) +. u4 *. (♯(bf[11]) +. u *. ♯(bf[12]) +. u2 *. (♯(bf[13]) +. u *. ♯(bf[14])))) +. u8 *. u8 *. (♯(bf[15]) +. u *. ♯(bf[16]) +. u2 *. (♯(bf[17]) +. u *. ♯(bf[18])))

theorem cLi5d_eq (z : Cx F) : cLi5d z =
    if z.im ==. ♯0 && z.re ==. ♯0 then ⟨z.re, z.im⟩
    else if z.im ==. ♯0 && z.re ==. ♯1 then ⟨♯1.0369277551433699, z.im⟩
    else if z.im ==. ♯0 && z.re ==. ∸♯1 then ⟨∸♯15 *. ♯1.0369277551433699 /. ♯16, z.im⟩
    else cLi5S 3.1415926535897932 1.0369277551433699 1.0823232337111382 0.60102845157979714 0.27415567780803774 cli5dCs (fin19 cli5dBf) z := rfl

theorem cLi5l_eq {n m : ℕ} (bf : Vector ℚ (n + 2)) (cs : Vector ℚ (m + 2)) (z : Cx F) : cLi5l bf cs z =
    if z.im ==. ♯0 && z.re ==. ♯0 then ⟨z.re, z.im⟩
    else if z.im ==. ♯0 && z.re ==. ♯1 then ⟨♯1.03692775514336992633136548645703417, z.im⟩
    else if z.im ==. ♯0 && z.re ==. ∸♯1 then ⟨∸♯15 *. ♯1.03692775514336992633136548645703417 /. ♯16, z.im⟩
    else cLi5S 3.14159265358979323846264338327950288 1.03692775514336992633136548645703417 1.08232323371113819151600369654116790 0.601028451579797142699869080755724995
      0.274155677808037739412069194441004198 cs (fun u rest => rest +. u *. (hornerC 0 u bf)) z := rfl
end

theorem fin19_eq (bf : Vector ℚ 19) (w r : Cx (R S)) :
    (fin19 bf w r).toC = r.toC + w.toC * ∑ i : Fin 19, (((S.rho bf[i.1] : ℚ) : ℝ) : ℂ) * w.toC ^ i.1 := by
  have : ∀ (g : ℕ → ℂ) , ∑ i : Fin 19, g i.1 * w.toC ^ i.1 = g 0 + g 1 * w.toC + g 2 * w.toC ^ 2 + g 3 * w.toC ^ 3 + g 4 * w.toC ^ 4 + g 5 * w.toC ^ 5 + g 6 * w.toC ^ 6 + g 7 * w.toC ^ 7 + g 8 * w.toC ^ 8 + g 9 * w.toC ^ 9 + g 10 * w.toC ^ 10 + g 11 * w.toC ^ 11 + g 12 * w.toC ^ 12 + g 13 * w.toC ^ 13 + g 14 * w.toC ^ 14 + g 15 * w.toC ^ 15 + g 16 * w.toC ^ 16 + g 17 * w.toC ^ 17 + g 18 * w.toC ^ 18 := by
    intro g
    rw [Fin.sum_univ_eq_sum_range (fun i => g i * w.toC ^ i) 19]
    simp only [Finset.sum_range_succ, Finset.sum_range_zero]
    ring
  have h2 := this (fun i => if h : i < 19 then (((S.rho bf[i] : ℚ) : ℝ) : ℂ) else 0)
  have h3 : ∑ i : Fin 19, (if h : i.1 < 19 then (((S.rho bf[i.1] : ℚ) : ℝ) : ℂ) else 0) * w.toC ^ i.1 = ∑ i : Fin 19, (((S.rho bf[i.1] : ℚ) : ℝ) : ℂ) * w.toC ^ i.1 :=
    Finset.sum_congr rfl fun i _ => by rw [dif_pos i.2]
  rw [← h3, h2]
  simp only [Nat.reduceLT, dite_true, fin19, rsem]
  ring

theorem cLi5S_accuracy {u : ℝ} (hS : S.Lit u) (p z5 c1 c2 c3 : ℚ) {m n : ℕ} (cs : Vector ℚ (m + 2)) (hm : m ≤ 27) (bf : Vector ℚ n) (hn : n ≤ 64)
    (fin : Cx (R S) → Cx (R S) → Cx (R S))
    (hfin : ∀ w r, (fin w r).toC = r.toC + w.toC * ∑ i : Fin n, (((S.rho bf[i.1] : ℚ) : ℝ) : ℂ) * w.toC ^ i.1)
    {A B A' B' : ℤ} {δ ε : ℝ} (hp : |((S.rho p : ℚ) : ℝ) - Real.pi| ≤ δ) (hδ : δ ≤ 1 / 100)
    (hA : perr 1 64 (nearT 4 [z5, c1, c2, c3] cs) (zcQ 4) ≤ A) (hB : psize 1 64 (nearT 4 [z5, c1, c2, c3] cs) ≤ B)
    (hA' : perr (11/10) 64 bf.toList bserT4 ≤ A') (hB' : psize (11/10) 64 bf.toList ≤ B')
    (hε : A / 10 ^ 60 + 1e-39 + u * (B / 10 ^ 60) ≤ ε) (hε' : 1.1 * (A' / 10 ^ 60 + 1e-44 + u * (B' / 10 ^ 60)) ≤ ε) (z : ℂ) (h0 : z ≠ 0) (h1 : z ≠ 1) :
    ‖(cLi5S p z5 c1 c2 c3 cs fin (ofC S z)).toC - pLi 5 z‖ ≤ ε + if ‖z‖ ≤ 1 then 0 else 6.4 * δ * expN 5 ‖Complex.log (-z)‖ := by
  have d12 := ofR_divlit hS 12 (q := 12) (by norm_num) (by norm_num) (by norm_num)
  have d24 := toC_divlit hS 24 (q := 24) (by norm_num) (by norm_num) (by norm_num)
  have d240 := ofR_divlit hS 240 (q := 240) (by norm_num) (by norm_num) (by norm_num)
  have d360 := ofR_divlit hS 360 (q := 360) (by norm_num) (by norm_num) (by norm_num)
  have l0 := lit_of hS 0 (q := 0) (by norm_num) (by norm_num)
  have l1 := lit_of hS 1 (q := 1) (by norm_num) (by norm_num)
  have l3 := lit_of hS 3 (q := 3) (by norm_num) (by norm_num)
  have l7 := lit_of hS 7 (q := 7) (by norm_num) (by norm_num)
  have l10 := lit_of hS 10 (q := 10) (by norm_num) (by norm_num)
  have l25 := lit_of hS 25 (q := 25) (by norm_num) (by norm_num)
  have hp' : |ofR (FOps.lit p : R S) - Real.pi| ≤ δ := by rw [ofR_lit]; exact hp
  rw [cLi5S]
  refine le_trans (cLiShape_accuracy hS 4 (FOps.lit p) _ _ _ (pInv (ofR (FOps.lit p : R S))) (εA := ε) (εB := ε) (η := 4 * δ) (δ := δ) (A := 2.1)
    ?_ ?_ ?_ (fun j hj => pInv_err hp' hδ j (by omega)) (fun j _ => pInv_le hp' hδ j) hp' (by linarith) le_rfl z h0 h1) ?_
  rotate_right
  · split_ifs
    · exact le_rfl
    · have h2 := expN_nonneg 5 (norm_nonneg (Complex.log (-z)))
      have h3 : 4 * δ + 10 / 9 * 2.1 * δ ≤ 6.4 * δ := by linarith [(abs_nonneg _).trans hp]
      have := mul_le_mul_of_nonneg_right h3 h2
      linarith
  · intro w hw0 hw
    refine (near_acc hS 4 (by norm_num) [z5, c1, c2, c3] cs (by omega) hA hB hw ?_).trans hε
    have hpl : (posLog (∸w)).toC = Complex.log (-w.toC) := by rw [C07_pos_log hS _ (by rw [toC_neg]; exact neg_ne_zero.mpr hw0), toC_neg]
    have hh := C06_hornerC 0 (Nat.zero_le _) (w *. w) cs
    simp only [rsem, Nat.zero_le, Finset.filter_true, Nat.sub_zero] at hh
    simp only [toC_add, toC_radd, toC_mul, toC_mulr, toC_rsub, d24, ofR_neg, d12, d240, hpl, hh, l1, l25, ofR_lit]
    simp only [Finset.sum_range_succ, Finset.sum_range_zero, List.getD_cons_zero, List.getD_cons_succ, singU]
    norm_num [Nat.factorial, harmonic, Finset.sum_range_succ]
    ring
  · intro w hw
    refine le_trans (le_of_eq ?_) ((bser_acc hS 4 (by norm_num) bserT4_eq.2 bf hn hA' hB' hw).trans hε')
    rw [hfin, toC_mk, l0]
    congr 2
    simp [Complex.ext_iff]
  · intro w l hw
    refine le_trans (le_of_eq ?_) ((bser_acc hS 4 (by norm_num) bserT4_eq.2 bf hn hA' hB' hw).trans hε')
    rw [hfin]
    congr 1
    generalize (∑ i : Fin n, (((S.rho bf[i.1] : ℚ) : ℝ) : ℂ) * w.toC ^ i.1) = X
    generalize psum (bserC 4) w.toC = Y
    simp only [toC_rmul, toC_mul, toC_radd, ofR_neg, ofR_mul, d360, l1, l7, l10, l3]
    simp only [appell, Finset.sum_range_succ, Finset.sum_range_zero, pInv]
    norm_num [Nat.factorial]
    ring

theorem cli5_certs :
    (perr 1 64 (nearT 4 [1.0369277551433699, 1.0823232337111382, 0.60102845157979714, 0.27415567780803774] cli5dCs) (zcQ 4) ≤ 52 * 10 ^ 42
      ∧ psize 1 64 (nearT 4 [1.0369277551433699, 1.0823232337111382, 0.60102845157979714, 0.27415567780803774] cli5dCs) ≤ 3 * 10 ^ 60
      ∧ perr (11/10) 64 cli5dBf.toList bserT4 ≤ 201 * 10 ^ 42 ∧ psize (11/10) 64 cli5dBf.toList ≤ 174 * 10 ^ 58) ∧
    (perr 1 64 (nearT 4 [1.03692775514336992633136548645703417, 1.08232323371113819151600369654116790, 0.601028451579797142699869080755724995, 0.274155677808037739412069194441004198] cli5l18Cs) (zcQ 4) ≤ 19 * 10 ^ 40
      ∧ psize 1 64 (nearT 4 [1.03692775514336992633136548645703417, 1.08232323371113819151600369654116790, 0.601028451579797142699869080755724995, 0.274155677808037739412069194441004198] cli5l18Cs) ≤ 3 * 10 ^ 60
      ∧ perr (11/10) 64 cli5l18Bf.toList bserT4 ≤ 865 * 10 ^ 40 ∧ psize (11/10) 64 cli5l18Bf.toList ≤ 174 * 10 ^ 58) ∧
    (perr 1 64 (nearT 4 [1.03692775514336992633136548645703417, 1.08232323371113819151600369654116790, 0.601028451579797142699869080755724995, 0.274155677808037739412069194441004198] cli5l36Cs) (zcQ 4) ≤ 54 * 10 ^ 23
      ∧ psize 1 64 (nearT 4 [1.03692775514336992633136548645703417, 1.08232323371113819151600369654116790, 0.601028451579797142699869080755724995, 0.274155677808037739412069194441004198] cli5l36Cs) ≤ 3 * 10 ^ 60
      ∧ perr (11/10) 64 cli5l36Bf.toList bserT4 ≤ 138 * 10 ^ 23 ∧ psize (11/10) 64 cli5l36Bf.toList ≤ 174 * 10 ^ 58) := by
  decide +kernel

theorem cli5_minus_one {u : ℝ} (hS : S.Lit u) (q : ℚ) {ε : ℝ} (h : |((S.rho q : ℚ) : ℝ) - reLi (3 + 2) 1| ≤ ε) :
    |ofR ((∸(FOps.lit 15 : R S) *. (FOps.lit q : R S)) /. (FOps.lit 16 : R S) : R S) - (-(1 - (1 / 2) ^ (3 + 1)) * reLi (3 + 2) 1)| ≤ ε := by
  have d16 := ofR_divlit hS 16 (q := 16) (by norm_num) (by norm_num) (by norm_num)
  have l15 := lit_of hS 15 (q := 15) (by norm_num) (by norm_num)
  rw [d16, ofR_mul, ofR_neg, l15, ofR_lit]
  have e : -((15 : ℕ) : ℝ) * ((S.rho q : ℚ) : ℝ) / ((16 : ℕ) : ℝ) - (-(1 - (1 / 2) ^ (3 + 1)) * reLi (3 + 2) 1) = -(15 / 16) * (((S.rho q : ℚ) : ℝ) - reLi (3 + 2) 1) := by
    push_cast; ring
  rw [e, abs_mul]
  have := abs_nonneg (((S.rho q : ℚ) : ℝ) - reLi (3 + 2) 1)
  rw [show |(-(15 / 16) : ℝ)| = 15 / 16 by rw [abs_neg, abs_of_nonneg] <;> norm_num]
  linarith

/-- **C18**, `Li5`, double: for every complex `z` (including the cut) the error is at most `2.3e-16 + 3u` for `|z| ≤ 1`; for `|z| > 1` the
errors of `PI` enter multiplied by the terms of the inversion polynomial in `log(-z)`. -/
theorem C18_Li5d {u : ℝ} (hS : S.Lit u) (hu : u ≤ 1 / 1000) (z : ℂ) :
    ‖(cLi5d (ofC S z)).toC - pLi 5 z‖ ≤ 2.3e-16 + 3 * u + if ‖z‖ ≤ 1 then 0 else (2.5e-16 + 20.2 * u) * expN 5 ‖Complex.log (-z)‖ := by
  have hu0 := hS.u_nonneg
  rw [cLi5d_eq]
  have he : |((3.1415926535897932 : ℚ) : ℝ) - Real.pi| ≤ ((3.85e-17 : ℚ) : ℝ) := pi_lit _ _ (by decide +kernel)
  have h2 := litpi_abs hS 3.1415926535897932 (by norm_num) (by norm_num) he
  have hz5 := zlit_err hS 3 (by norm_num) 1.0369277551433699 (e := 5e-17) (by decide +kernel) (by norm_num)
  push_cast at h2 hz5
  have hE := cLiN_fin (z := z) hu0 (by norm_num : (0:ℝ) ≤ 2.3e-16) (by norm_num : (0:ℝ) ≤ 3) (by norm_num : (0:ℝ) ≤ 2.5e-16) 5
  have hz5' := hz5.trans ((show _ ≤ 2.3e-16 + 3 * u by linarith).trans hE)
  refine special_chain hS 3 z _ _ _ ((by positivity : (0:ℝ) ≤ 2.3e-16 + 3 * u).trans hE) (by rw [ofR_lit]; exact hz5') (cli5_minus_one hS _ hz5') fun h0 h1 _ => ?_
  refine (cLi5S_accuracy hS _ _ _ _ _ cli5dCs (by norm_num) cli5dBf (by norm_num) _ (fin19_eq cli5dBf) h2 (by linarith)
    cli5_certs.1.1 cli5_certs.1.2.1 cli5_certs.1.2.2.1 cli5_certs.1.2.2.2 (ε := 2.3e-16 + 3 * u) (by push_cast; linarith) (by push_cast; linarith) z h0 h1).trans ?_
  gcongr
  split_ifs
  · exact le_rfl
  · exact mul_le_mul_of_nonneg_right (by linarith) (expN_nonneg 5 (norm_nonneg _))

/-- **C18**, `Li5`, long double, `LDBL_DIG <= 18`. -/
theorem C18_Li5l18 {u : ℝ} (hS : S.Lit u) (hu : u ≤ 1 / 1000) (z : ℂ) :
    ‖(cLi5l18 (ofC S z)).toC - pLi 5 z‖ ≤ 9.6e-18 + 3 * u + if ‖z‖ ≤ 1 then 0 else (2.7e-35 + 20.2 * u) * expN 5 ‖Complex.log (-z)‖ := by
  have hu0 := hS.u_nonneg
  rw [cLi5l18, cLi5l_eq]
  have he : |((3.14159265358979323846264338327950288 : ℚ) : ℝ) - Real.pi| ≤ ((4.2e-36 : ℚ) : ℝ) := pi_lit _ _ (by decide +kernel)
  have h2 := litpi_abs hS 3.14159265358979323846264338327950288 (by norm_num) (by norm_num) he
  have hz5 := zlit_err hS 3 (by norm_num) 1.03692775514336992633136548645703417 (e := 6e-36) (by decide +kernel) (by norm_num)
  push_cast at h2 hz5
  have hE := cLiN_fin (z := z) hu0 (by norm_num : (0:ℝ) ≤ 9.6e-18) (by norm_num : (0:ℝ) ≤ 3) (by norm_num : (0:ℝ) ≤ 2.7e-35) 5
  have hz5' := hz5.trans ((show _ ≤ 9.6e-18 + 3 * u by linarith).trans hE)
  refine special_chain hS 3 z _ _ _ ((by positivity : (0:ℝ) ≤ 9.6e-18 + 3 * u).trans hE) (by rw [ofR_lit]; exact hz5') (cli5_minus_one hS _ hz5') fun h0 h1 _ => ?_
  refine (cLi5S_accuracy hS _ _ _ _ _ cli5l18Cs (by norm_num) cli5l18Bf (by norm_num) _ (finH_eq cli5l18Bf) h2 (by linarith)
    cli5_certs.2.1.1 cli5_certs.2.1.2.1 cli5_certs.2.1.2.2.1 cli5_certs.2.1.2.2.2 (ε := 9.6e-18 + 3 * u) (by push_cast; linarith) (by push_cast; linarith) z h0 h1).trans ?_
  gcongr
  split_ifs
  · exact le_rfl
  · exact mul_le_mul_of_nonneg_right (by linarith) (expN_nonneg 5 (norm_nonneg _))

/-- **C18**, `Li5`, long double, `LDBL_DIG > 18`. -/
theorem C18_Li5l36 {u : ℝ} (hS : S.Lit u) (hu : u ≤ 1 / 1000) (z : ℂ) :
    ‖(cLi5l36 (ofC S z)).toC - pLi 5 z‖ ≤ 1.6e-35 + 3 * u + if ‖z‖ ≤ 1 then 0 else (2.7e-35 + 20.2 * u) * expN 5 ‖Complex.log (-z)‖ := by
  have hu0 := hS.u_nonneg
  rw [cLi5l36, cLi5l_eq]
  have he : |((3.14159265358979323846264338327950288 : ℚ) : ℝ) - Real.pi| ≤ ((4.2e-36 : ℚ) : ℝ) := pi_lit _ _ (by decide +kernel)
  have h2 := litpi_abs hS 3.14159265358979323846264338327950288 (by norm_num) (by norm_num) he
  have hz5 := zlit_err hS 3 (by norm_num) 1.03692775514336992633136548645703417 (e := 6e-36) (by decide +kernel) (by norm_num)
  push_cast at h2 hz5
  have hE := cLiN_fin (z := z) hu0 (by norm_num : (0:ℝ) ≤ 1.6e-35) (by norm_num : (0:ℝ) ≤ 3) (by norm_num : (0:ℝ) ≤ 2.7e-35) 5
  have hz5' := hz5.trans ((show _ ≤ 1.6e-35 + 3 * u by linarith).trans hE)
  refine special_chain hS 3 z _ _ _ ((by positivity : (0:ℝ) ≤ 1.6e-35 + 3 * u).trans hE) (by rw [ofR_lit]; exact hz5') (cli5_minus_one hS _ hz5') fun h0 h1 _ => ?_
  refine (cLi5S_accuracy hS _ _ _ _ _ cli5l36Cs (by norm_num) cli5l36Bf (by norm_num) _ (finH_eq cli5l36Bf) h2 (by linarith)
    cli5_certs.2.2.1 cli5_certs.2.2.2.1 cli5_certs.2.2.2.2.1 cli5_certs.2.2.2.2.2 (ε := 1.6e-35 + 3 * u) (by push_cast; linarith) (by push_cast; linarith) z h0 h1).trans ?_
  gcongr
  split_ifs
  · exact le_rfl
  · exact mul_le_mul_of_nonneg_right (by linarith) (expN_nonneg 5 (norm_nonneg _))

/-! ### the hypotheses are met -/

example := C18_Li5d RealSem.dec_lit (by norm_num) (3 + 4 * I)
example := C18_Li5l18 RealSem.dec_lit (by norm_num) (3 + 4 * I)
example := C18_Li5l36 RealSem.dec_lit (by norm_num) (3 + 4 * I)

end Polylog
