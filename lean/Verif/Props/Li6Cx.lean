import Verif.Props.LiCxInv
import Verif.Model.Li6

/-! # C18: complex Li6 -/

noncomputable section
namespace Polylog
open Complex Finset

variable {S : RealSem}

section
variable {F : Type} [FOps F]
local notation:max "♯" q:max => (FOps.lit (q : ℚ) : F)

/-- body of the complex Li6 away from the special points (proof device) -/
def cLi6S (p z6 c1 c2 c3 c4 : ℚ) {m : ℕ} (cs : Vector ℚ (m + 2)) (fin : Cx F → Cx F → F → Cx F) (z : Cx F) : Cx F :=
  let PI : F := ♯p
  let PI2 := PI *. PI
  let PI4 := PI2 *. PI2
  let PI6 := PI2 *. PI4
  cLiShape PI (fun u =>
      let c5 := (♯137 /. ♯60 -. (posLog (∸u))) /. ♯120
      let c6 : F := ∸♯1 /. ♯1440
      let u2 := u *. u
      ♯z6 +. u *. ♯c1 +. u2 *. (♯c2 +. u *. ♯c3 +. u2 *. (♯c4 +. u *. c5 +. u2 *. (c6 +. u *. (hornerC 0 u2 cs)))))
    (fun u => fin u ⟨♯0, ♯0⟩ ♯1)
    (fun u lmz => let lmz2 := lmz *. lmz
      fin u (∸♯31 *. PI6 /. ♯15120 +. lmz2 *. (∸♯7 /. ♯720 *. PI4 +. lmz2 *. (∸♯1 /. ♯144 *. PI2 -. ♯1 /. ♯720 *. lmz2))) ∸♯1) z

theorem cLi6d_eq (z : Cx F) : cLi6d z =
    if z.im ==. ♯0 && z.re ==. ♯0 then ⟨z.re, z.im⟩
    else if z.im ==. ♯0 && z.re ==. ♯1 then ⟨♯1.0173430619844491, z.im⟩
    else if z.im ==. ♯0 && z.re ==. ∸♯1 then ⟨∸♯31 *. ♯1.0173430619844491 /. ♯32, z.im⟩
    else cLi6S 3.1415926535897932 1.0173430619844491 1.0369277551433699 0.54116161685556910 0.20034281719326571 0.068538919452009435 cli6dCs (fin18s cli6dBf) z := rfl

theorem cLi6l_eq {n m : ℕ} (bf : Vector ℚ (n + 2)) (cs : Vector ℚ (m + 2)) (z : Cx F) : cLi6l bf cs z =
    if z.im ==. ♯0 && z.re ==. ♯0 then ⟨z.re, z.im⟩
    else if z.im ==. ♯0 && z.re ==. ♯1 then ⟨♯1.01734306198444913971451792979092053, z.im⟩
    else if z.im ==. ♯0 && z.re ==. ∸♯1 then ⟨∸♯31 *. ♯1.01734306198444913971451792979092053 /. ♯32, z.im⟩
    else cLi6S 3.14159265358979323846264338327950288 1.01734306198444913971451792979092053 1.03692775514336992633136548645703417 0.541161616855569095758001848270583951 0.200342817193265714233289693585241665 0.0685389194520094348530172986102510496 cs (fun u rest sgn => rest +. sgn *. u *. (hornerC 0 u bf)) z := rfl
end

theorem cLi6S_accuracy {u : ℝ} (hS : S.Lit u) (p z6 c1 c2 c3 c4 : ℚ) {m n : ℕ} (cs : Vector ℚ (m + 2)) (hm : m ≤ 26) (bf : Vector ℚ n) (hn : n ≤ 64)
    (fin : Cx (R S) → Cx (R S) → R S → Cx (R S))
    (hfin : ∀ w r s, (fin w r s).toC = r.toC + ofR s * (w.toC * ∑ i : Fin n, (((S.rho bf[i.1] : ℚ) : ℝ) : ℂ) * w.toC ^ i.1))
    {A B A' B' : ℤ} {δ ε : ℝ} (hp : |((S.rho p : ℚ) : ℝ) - Real.pi| ≤ δ) (hδ : δ ≤ 1 / 100)
    (hA : perr 1 64 (nearT 5 [z6, c1, c2, c3, c4] cs) (zcQ 5) ≤ A) (hB : psize 1 64 (nearT 5 [z6, c1, c2, c3, c4] cs) ≤ B)
    (hA' : perr (11/10) 64 bf.toList bserT5 ≤ A') (hB' : psize (11/10) 64 bf.toList ≤ B')
    (hε : A / 10 ^ 60 + 1e-39 + u * (B / 10 ^ 60) ≤ ε) (hε' : 1.1 * (A' / 10 ^ 60 + 1e-44 + u * (B' / 10 ^ 60)) ≤ ε) (z : ℂ) (h0 : z ≠ 0) (h1 : z ≠ 1) :
    ‖(cLi6S p z6 c1 c2 c3 c4 cs fin (ofC S z)).toC - pLi 6 z‖ ≤ ε + if ‖z‖ ≤ 1 then 0 else 6.4 * δ * expN 6 ‖Complex.log (-z)‖ := by
  have d60 := ofR_divlit hS 60 (q := 60) (by norm_num) (by norm_num) (by norm_num)
  have d1440 := ofR_divlit hS 1440 (q := 1440) (by norm_num) (by norm_num) (by norm_num)
  have d15120 := ofR_divlit hS 15120 (q := 15120) (by norm_num) (by norm_num) (by norm_num)
  have d720 := ofR_divlit hS 720 (q := 720) (by norm_num) (by norm_num) (by norm_num)
  have d144 := ofR_divlit hS 144 (q := 144) (by norm_num) (by norm_num) (by norm_num)
  have c120 := toC_divlit hS 120 (q := 120) (by norm_num) (by norm_num) (by norm_num)
  have l0 := lit_of hS 0 (q := 0) (by norm_num) (by norm_num)
  have l1 := lit_of hS 1 (q := 1) (by norm_num) (by norm_num)
  have l7 := lit_of hS 7 (q := 7) (by norm_num) (by norm_num)
  have l31 := lit_of hS 31 (q := 31) (by norm_num) (by norm_num)
  have l137 := lit_of hS 137 (q := 137) (by norm_num) (by norm_num)
  have hp' : |ofR (FOps.lit p : R S) - Real.pi| ≤ δ := by rw [ofR_lit]; exact hp
  rw [cLi6S]
  refine le_trans (cLiShape_accuracy hS 5 (FOps.lit p) _ _ _ (pInv (ofR (FOps.lit p : R S))) (εA := ε) (εB := ε) (η := 4 * δ) (δ := δ) (A := 2.1)
    ?_ ?_ ?_ (fun j hj => pInv_err hp' hδ j (by omega)) (fun j _ => pInv_le hp' hδ j) hp' (by linarith) le_rfl z h0 h1) ?_
  rotate_right
  · split_ifs
    · exact le_rfl
    · have h2 := expN_nonneg 6 (norm_nonneg (Complex.log (-z)))
      have h3 : 4 * δ + 10 / 9 * 2.1 * δ ≤ 6.4 * δ := by linarith [(abs_nonneg _).trans hp]
      have := mul_le_mul_of_nonneg_right h3 h2
      linarith
  · intro w hw0 hw
    refine (near_acc hS 5 (by norm_num) [z6, c1, c2, c3, c4] cs (by omega) hA hB hw ?_).trans hε
    have hpl : (posLog (∸w)).toC = Complex.log (-w.toC) := by rw [C07_pos_log hS _ (by rw [toC_neg]; exact neg_ne_zero.mpr hw0), toC_neg]
    have hh := C06_hornerC 0 (Nat.zero_le _) (w *. w) cs
    simp only [rsem, Nat.zero_le, Finset.filter_true, Nat.sub_zero] at hh
    simp only [toC_add, toC_radd, toC_mul, toC_mulr, toC_rsub, ofR_neg, hpl, hh, d60, d1440, c120, l1, l137, ofR_lit]
    simp only [Finset.sum_range_succ, Finset.sum_range_zero, List.getD_cons_zero, List.getD_cons_succ, singU]
    norm_num [Nat.factorial, harmonic, Finset.sum_range_succ]
    ring
  · intro w hw
    refine le_trans (le_of_eq ?_) ((bser_acc hS 5 (by norm_num) bserT5_eq.2 bf hn hA' hB' hw).trans hε')
    rw [hfin, toC_mk, l0, l1, show (⟨((0:ℕ):ℝ), ((0:ℕ):ℝ)⟩ : ℂ) = 0 by simp [Complex.ext_iff], zero_add, Nat.cast_one, ofReal_one, one_mul]
  · intro w l hw
    refine le_trans (le_of_eq ?_) ((bser_acc hS 5 (by norm_num) bserT5_eq.2 bf hn hA' hB' hw).trans hε')
    rw [hfin, ← norm_neg]
    congr 1
    generalize (∑ i : Fin n, (((S.rho bf[i.1] : ℚ) : ℝ) : ℂ) * w.toC ^ i.1) = X
    generalize psum (bserC 5) w.toC = Y
    simp only [toC_rmul, toC_mul, toC_radd, toC_rsub, ofR_neg, ofR_mul, d15120, d720, d144, l1, l7, l31]
    simp only [appell, Finset.sum_range_succ, Finset.sum_range_zero, pInv]
    norm_num [Nat.factorial]
    ring

theorem cli6_certs :
    (perr 1 64 (nearT 5 [1.0173430619844491, 1.0369277551433699, 0.54116161685556910, 0.20034281719326571, 0.068538919452009435] cli6dCs) (zcQ 5) ≤ 135 * 10 ^ 42
      ∧ psize 1 64 (nearT 5 [1.0173430619844491, 1.0369277551433699, 0.54116161685556910, 0.20034281719326571, 0.068538919452009435] cli6dCs) ≤ 287 * 10 ^ 58
      ∧ perr (11/10) 64 cli6dBf.toList bserT5 ≤ 745 * 10 ^ 42 ∧ psize (11/10) 64 cli6dBf.toList ≤ 178 * 10 ^ 58) ∧
    (perr 1 64 (nearT 5 [1.01734306198444913971451792979092053, 1.03692775514336992633136548645703417, 0.541161616855569095758001848270583951, 0.200342817193265714233289693585241665, 0.0685389194520094348530172986102510496] cli6l18Cs) (zcQ 5) ≤ 7 * 10 ^ 41
      ∧ psize 1 64 (nearT 5 [1.01734306198444913971451792979092053, 1.03692775514336992633136548645703417, 0.541161616855569095758001848270583951, 0.200342817193265714233289693585241665, 0.0685389194520094348530172986102510496] cli6l18Cs) ≤ 287 * 10 ^ 58
      ∧ perr (11/10) 64 cli6l18Bf.toList bserT5 ≤ 173 * 10 ^ 40 ∧ psize (11/10) 64 cli6l18Bf.toList ≤ 178 * 10 ^ 58) ∧
    (perr 1 64 (nearT 5 [1.01734306198444913971451792979092053, 1.03692775514336992633136548645703417, 0.541161616855569095758001848270583951, 0.200342817193265714233289693585241665, 0.0685389194520094348530172986102510496] cli6l36Cs) (zcQ 5) ≤ 47 * 10 ^ 23
      ∧ psize 1 64 (nearT 5 [1.01734306198444913971451792979092053, 1.03692775514336992633136548645703417, 0.541161616855569095758001848270583951, 0.200342817193265714233289693585241665, 0.0685389194520094348530172986102510496] cli6l36Cs) ≤ 287 * 10 ^ 58
      ∧ perr (11/10) 64 cli6l36Bf.toList bserT5 ≤ 242 * 10 ^ 22 ∧ psize (11/10) 64 cli6l36Bf.toList ≤ 178 * 10 ^ 58) := by
  decide +kernel

theorem cli6_minus_one {u : ℝ} (hS : S.Lit u) (q : ℚ) {ε : ℝ} (h : |((S.rho q : ℚ) : ℝ) - reLi (4 + 2) 1| ≤ ε) :
    |ofR ((∸(FOps.lit 31 : R S) *. (FOps.lit q : R S)) /. (FOps.lit 32 : R S) : R S) - (-(1 - (1 / 2) ^ (4 + 1)) * reLi (4 + 2) 1)| ≤ ε := by
  have d32 := ofR_divlit hS 32 (q := 32) (by norm_num) (by norm_num) (by norm_num)
  have l31 := lit_of hS 31 (q := 31) (by norm_num) (by norm_num)
  rw [d32, ofR_mul, ofR_neg, l31, ofR_lit]
  have e : -((31 : ℕ) : ℝ) * ((S.rho q : ℚ) : ℝ) / ((32 : ℕ) : ℝ) - (-(1 - (1 / 2) ^ (4 + 1)) * reLi (4 + 2) 1) = -(31 / 32) * (((S.rho q : ℚ) : ℝ) - reLi (4 + 2) 1) := by
    push_cast; ring
  rw [e, abs_mul]
  have := abs_nonneg (((S.rho q : ℚ) : ℝ) - reLi (4 + 2) 1)
  rw [show |(-(31 / 32) : ℝ)| = 31 / 32 by norm_num [abs_of_nonneg]]
  linarith

/-- **C18**, `Li6`, double. -/
theorem C18_Li6d {u : ℝ} (hS : S.Lit u) (hu : u ≤ 1 / 1000) (z : ℂ) :
    ‖(cLi6d (ofC S z)).toC - pLi 6 z‖ ≤ 8.3e-16 + 3 * u + if ‖z‖ ≤ 1 then 0 else (2.5e-16 + 20.2 * u) * expN 6 ‖Complex.log (-z)‖ := by
  have hu0 := hS.u_nonneg
  rw [cLi6d_eq]
  have he : |((3.1415926535897932 : ℚ) : ℝ) - Real.pi| ≤ ((3.85e-17 : ℚ) : ℝ) := pi_lit _ _ (by decide +kernel)
  have h2 := litpi_abs hS 3.1415926535897932 (by norm_num) (by norm_num) he
  push_cast at h2
  have hz5 := zlit_err hS 4 (by norm_num) 1.0173430619844491 (e := 5e-17) (by decide +kernel) (by norm_num)
  push_cast at hz5
  have hE := cLiN_fin (z := z) hu0 (by norm_num : (0:ℝ) ≤ 8.3e-16) (by norm_num : (0:ℝ) ≤ 3) (by norm_num : (0:ℝ) ≤ 2.5e-16) 6
  have hz5' := hz5.trans ((show _ ≤ 8.3e-16 + 3 * u by linarith).trans hE)
  refine special_chain hS 4 z _ _ _ ((by positivity : (0:ℝ) ≤ 8.3e-16 + 3 * u).trans hE) (by rw [ofR_lit]; exact hz5') (cli6_minus_one hS _ hz5') fun h0 h1 _ => ?_
  refine (cLi6S_accuracy hS _ _ _ _ _ _ cli6dCs (by norm_num) cli6dBf (by norm_num) _ (fin18s_eq cli6dBf) h2 (by linarith)
    cli6_certs.1.1 cli6_certs.1.2.1 cli6_certs.1.2.2.1 cli6_certs.1.2.2.2 (ε := 8.3e-16 + 3 * u) (by push_cast; linarith) (by push_cast; linarith) z h0 h1).trans ?_
  gcongr
  split_ifs
  · exact le_rfl
  · exact mul_le_mul_of_nonneg_right (by linarith) (expN_nonneg 6 (norm_nonneg _))

/-- **C18**, `Li6`, long double, `LDBL_DIG <= 18`. -/
theorem C18_Li6l18 {u : ℝ} (hS : S.Lit u) (hu : u ≤ 1 / 1000) (z : ℂ) :
    ‖(cLi6l18 (ofC S z)).toC - pLi 6 z‖ ≤ 2e-18 + 3 * u + if ‖z‖ ≤ 1 then 0 else (2.7e-35 + 20.2 * u) * expN 6 ‖Complex.log (-z)‖ := by
  have hu0 := hS.u_nonneg
  rw [cLi6l18, cLi6l_eq]
  have he : |((3.14159265358979323846264338327950288 : ℚ) : ℝ) - Real.pi| ≤ ((4.2e-36 : ℚ) : ℝ) := pi_lit _ _ (by decide +kernel)
  have h2 := litpi_abs hS 3.14159265358979323846264338327950288 (by norm_num) (by norm_num) he
  push_cast at h2
  have hz5 := zlit_err hS 4 (by norm_num) 1.01734306198444913971451792979092053 (e := 4e-36) (by decide +kernel) (by norm_num)
  push_cast at hz5
  have hE := cLiN_fin (z := z) hu0 (by norm_num : (0:ℝ) ≤ 2e-18) (by norm_num : (0:ℝ) ≤ 3) (by norm_num : (0:ℝ) ≤ 2.7e-35) 6
  have hz5' := hz5.trans ((show _ ≤ 2e-18 + 3 * u by linarith).trans hE)
  refine special_chain hS 4 z _ _ _ ((by positivity : (0:ℝ) ≤ 2e-18 + 3 * u).trans hE) (by rw [ofR_lit]; exact hz5') (cli6_minus_one hS _ hz5') fun h0 h1 _ => ?_
  refine (cLi6S_accuracy hS _ _ _ _ _ _ cli6l18Cs (by norm_num) cli6l18Bf (by norm_num) _ (finHs_eq cli6l18Bf) h2 (by linarith)
    cli6_certs.2.1.1 cli6_certs.2.1.2.1 cli6_certs.2.1.2.2.1 cli6_certs.2.1.2.2.2 (ε := 2e-18 + 3 * u) (by push_cast; linarith) (by push_cast; linarith) z h0 h1).trans ?_
  gcongr
  split_ifs
  · exact le_rfl
  · exact mul_le_mul_of_nonneg_right (by linarith) (expN_nonneg 6 (norm_nonneg _))

/-- **C18**, `Li6`, long double, `LDBL_DIG > 18`. -/
theorem C18_Li6l36 {u : ℝ} (hS : S.Lit u) (hu : u ≤ 1 / 1000) (z : ℂ) :
    ‖(cLi6l36 (ofC S z)).toC - pLi 6 z‖ ≤ 4.8e-36 + 3 * u + if ‖z‖ ≤ 1 then 0 else (2.7e-35 + 20.2 * u) * expN 6 ‖Complex.log (-z)‖ := by
  have hu0 := hS.u_nonneg
  rw [cLi6l36, cLi6l_eq]
  have he : |((3.14159265358979323846264338327950288 : ℚ) : ℝ) - Real.pi| ≤ ((4.2e-36 : ℚ) : ℝ) := pi_lit _ _ (by decide +kernel)
  have h2 := litpi_abs hS 3.14159265358979323846264338327950288 (by norm_num) (by norm_num) he
  push_cast at h2
  have hz5 := zlit_err hS 4 (by norm_num) 1.01734306198444913971451792979092053 (e := 4e-36) (by decide +kernel) (by norm_num)
  push_cast at hz5
  have hE := cLiN_fin (z := z) hu0 (by norm_num : (0:ℝ) ≤ 4.8e-36) (by norm_num : (0:ℝ) ≤ 3) (by norm_num : (0:ℝ) ≤ 2.7e-35) 6
  have hz5' := hz5.trans ((show _ ≤ 4.8e-36 + 3 * u by linarith).trans hE)
  refine special_chain hS 4 z _ _ _ ((by positivity : (0:ℝ) ≤ 4.8e-36 + 3 * u).trans hE) (by rw [ofR_lit]; exact hz5') (cli6_minus_one hS _ hz5') fun h0 h1 _ => ?_
  refine (cLi6S_accuracy hS _ _ _ _ _ _ cli6l36Cs (by norm_num) cli6l36Bf (by norm_num) _ (finHs_eq cli6l36Bf) h2 (by linarith)
    cli6_certs.2.2.1 cli6_certs.2.2.2.1 cli6_certs.2.2.2.2.1 cli6_certs.2.2.2.2.2 (ε := 4.8e-36 + 3 * u) (by push_cast; linarith) (by push_cast; linarith) z h0 h1).trans ?_
  gcongr
  split_ifs
  · exact le_rfl
  · exact mul_le_mul_of_nonneg_right (by linarith) (expN_nonneg 6 (norm_nonneg _))

/-! ### the hypotheses are met -/

example := C18_Li6d RealSem.dec_lit (by norm_num) (3 + 4 * I)
example := C18_Li6l18 RealSem.dec_lit (by norm_num) (3 + 4 * I)
example := C18_Li6l36 RealSem.dec_lit (by norm_num) (3 + 4 * I)

end Polylog
