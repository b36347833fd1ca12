import Verif.Props.LiCxInv
import Verif.Model.Li4

/-! # C18: complex Li4 -/

noncomputable section
namespace Polylog
open Complex Finset

variable {S : RealSem}

section
variable {F : Type} [FOps F]
local notation:max "♯" q:max => (FOps.lit (q : ℚ) : F)

/-- body of the complex Li4 away from the special points (proof device) -/
def cLi4S (p z4 c1 c2 : ℚ) {m : ℕ} (cs : Vector ℚ (m + 2)) (fin : Cx F → Cx F → F → Cx F) (z : Cx F) : Cx F :=
  let PI : F := ♯p
  let PI2 := PI *. PI
  let PI4 := PI2 *. PI2
  cLiShape PI (fun u =>
      let c3 := (♯11 /. ♯6 -. (posLog (∸u))) /. ♯6
      let c4 : F := ∸♯1 /. ♯48
      let u2 := u *. u
      ♯z4 +. u2 *. (♯c2 +. u2 *. c4) +. u *. (♯c1 +. u2 *. (c3 +. u2 *. (hornerC 0 u2 cs))))
    (fun u => fin u ⟨♯0, ♯0⟩ ♯1)
    (fun u lmz => let lmz2 := lmz *. lmz
      fin u (♯1 /. ♯360 *. (∸♯7 *. PI4 +. lmz2 *. (∸♯30 *. PI2 -. ♯15 *. lmz2))) ∸♯1) z

theorem cLi4d_eq (z : Cx F) : cLi4d z =
    if z.im ==. ♯0 then
      (if z.re <=. ♯1 then ⟨Li4d z.re, z.im⟩ else ⟨Li4d z.re, ∸♯1 /. ♯6 *. ♯3.1415926535897932 *. xlog z.re *. xlog z.re *. xlog z.re⟩)
    else cLi4S 3.1415926535897932 1.0823232337111382 1.2020569031595943 0.82246703342411322 cli4dCs (fin18s cli4dBf) z := rfl

theorem cLi4l_eq {n m : ℕ} (bf : Vector ℚ (n + 2)) (cs : Vector ℚ (m + 2)) (z : Cx F) : cLi4l bf cs z =
    if z.im ==. ♯0 && z.re ==. ♯0 then ⟨z.re, z.im⟩
    else if z.im ==. ♯0 && z.re ==. ♯1 then ⟨♯1.08232323371113819151600369654116790, z.im⟩
    else if z.im ==. ♯0 && z.re ==. ∸♯1 then ⟨∸♯7 *. (♯3.14159265358979323846264338327950288 *. ♯3.14159265358979323846264338327950288 *. (♯3.14159265358979323846264338327950288 *. ♯3.14159265358979323846264338327950288)) /. ♯720, z.im⟩
    else cLi4S 3.14159265358979323846264338327950288 1.08232323371113819151600369654116790 1.20205690315959428539973816151144999 0.822467033424113218236207583323012595 cs (fun u rest sgn => rest +. sgn *. u *. (hornerC 0 u bf)) z := rfl
end

theorem cLi4S_accuracy {u : ℝ} (hS : S.Lit u) (p z4 c1 c2 : ℚ) {m n : ℕ} (cs : Vector ℚ (m + 2)) (hm : m ≤ 26) (bf : Vector ℚ n) (hn : n ≤ 64)
    (fin : Cx (R S) → Cx (R S) → R S → Cx (R S))
    (hfin : ∀ w r s, (fin w r s).toC = r.toC + ofR s * (w.toC * ∑ i : Fin n, (((S.rho bf[i.1] : ℚ) : ℝ) : ℂ) * w.toC ^ i.1))
    {A B A' B' : ℤ} {δ ε : ℝ} (hp : |((S.rho p : ℚ) : ℝ) - Real.pi| ≤ δ) (hδ : δ ≤ 1 / 100)
    (hA : perr 1 64 (nearT 3 [z4, c1, c2] cs) (zcQ 3) ≤ A) (hB : psize 1 64 (nearT 3 [z4, c1, c2] cs) ≤ B)
    (hA' : perr (11/10) 64 bf.toList bserT3 ≤ A') (hB' : psize (11/10) 64 bf.toList ≤ B')
    (hε : A / 10 ^ 60 + 1e-39 + u * (B / 10 ^ 60) ≤ ε) (hε' : 1.1 * (A' / 10 ^ 60 + 1e-44 + u * (B' / 10 ^ 60)) ≤ ε) (z : ℂ) (h0 : z ≠ 0) (h1 : z ≠ 1) :
    ‖(cLi4S p z4 c1 c2 cs fin (ofC S z)).toC - pLi 4 z‖ ≤ ε + if ‖z‖ ≤ 1 then 0 else 6.4 * δ * expN 4 ‖Complex.log (-z)‖ := by
  have d6 := ofR_divlit hS 6 (q := 6) (by norm_num) (by norm_num) (by norm_num)
  have d48 := ofR_divlit hS 48 (q := 48) (by norm_num) (by norm_num) (by norm_num)
  have d360 := ofR_divlit hS 360 (q := 360) (by norm_num) (by norm_num) (by norm_num)
  have c6 := toC_divlit hS 6 (q := 6) (by norm_num) (by norm_num) (by norm_num)
  have l0 := lit_of hS 0 (q := 0) (by norm_num) (by norm_num)
  have l1 := lit_of hS 1 (q := 1) (by norm_num) (by norm_num)
  have l7 := lit_of hS 7 (q := 7) (by norm_num) (by norm_num)
  have l11 := lit_of hS 11 (q := 11) (by norm_num) (by norm_num)
  have l15 := lit_of hS 15 (q := 15) (by norm_num) (by norm_num)
  have l30 := lit_of hS 30 (q := 30) (by norm_num) (by norm_num)
  have hp' : |ofR (FOps.lit p : R S) - Real.pi| ≤ δ := by rw [ofR_lit]; exact hp
  rw [cLi4S]
  refine le_trans (cLiShape_accuracy hS 3 (FOps.lit p) _ _ _ (pInv (ofR (FOps.lit p : R S))) (εA := ε) (εB := ε) (η := 4 * δ) (δ := δ) (A := 2.1)
    ?_ ?_ ?_ (fun j hj => pInv_err hp' hδ j (by omega)) (fun j _ => pInv_le hp' hδ j) hp' (by linarith) le_rfl z h0 h1) ?_
  rotate_right
  · split_ifs
    · exact le_rfl
    · have h2 := expN_nonneg 4 (norm_nonneg (Complex.log (-z)))
      have h3 : 4 * δ + 10 / 9 * 2.1 * δ ≤ 6.4 * δ := by linarith [(abs_nonneg _).trans hp]
      have := mul_le_mul_of_nonneg_right h3 h2
      linarith
  · intro w hw0 hw
    refine (near_acc hS 3 (by norm_num) [z4, c1, c2] cs (by omega) hA hB hw ?_).trans hε
    have hpl : (posLog (∸w)).toC = Complex.log (-w.toC) := by rw [C07_pos_log hS _ (by rw [toC_neg]; exact neg_ne_zero.mpr hw0), toC_neg]
    have hh := C06_hornerC 0 (Nat.zero_le _) (w *. w) cs
    simp only [rsem, Nat.zero_le, Finset.filter_true, Nat.sub_zero] at hh
    simp only [toC_add, toC_radd, toC_mul, toC_mulr, toC_rsub, ofR_neg, hpl, hh, d6, d48, c6, l1, l11, ofR_lit]
    simp only [Finset.sum_range_succ, Finset.sum_range_zero, List.getD_cons_zero, List.getD_cons_succ, singU]
    norm_num [Nat.factorial, harmonic, Finset.sum_range_succ]
    ring
  · intro w hw
    refine le_trans (le_of_eq ?_) ((bser_acc hS 3 (by norm_num) bserT3_eq.2 bf hn hA' hB' hw).trans hε')
    rw [hfin, toC_mk, l0, l1, show (⟨((0:ℕ):ℝ), ((0:ℕ):ℝ)⟩ : ℂ) = 0 by simp [Complex.ext_iff], zero_add, Nat.cast_one, ofReal_one, one_mul]
  · intro w l hw
    refine le_trans (le_of_eq ?_) ((bser_acc hS 3 (by norm_num) bserT3_eq.2 bf hn hA' hB' hw).trans hε')
    rw [hfin, ← norm_neg]
    congr 1
    generalize (∑ i : Fin n, (((S.rho bf[i.1] : ℚ) : ℝ) : ℂ) * w.toC ^ i.1) = X
    generalize psum (bserC 3) w.toC = Y
    simp only [toC_rmul, toC_mul, toC_radd, toC_rsub, ofR_neg, ofR_mul, d360, l1, l7, l15, l30]
    simp only [appell, Finset.sum_range_succ, Finset.sum_range_zero, pInv]
    norm_num [Nat.factorial]
    ring

theorem cli4_certs :
    (perr 1 64 (nearT 3 [1.0823232337111382, 1.2020569031595943, 0.82246703342411322] cli4dCs) (zcQ 3) ≤ 29 * 10 ^ 42
      ∧ psize 1 64 (nearT 3 [1.0823232337111382, 1.2020569031595943, 0.82246703342411322] cli4dCs) ≤ 313 * 10 ^ 58
      ∧ perr (11/10) 64 cli4dBf.toList bserT3 ≤ 369 * 10 ^ 43 ∧ psize (11/10) 64 cli4dBf.toList ≤ 166 * 10 ^ 58) ∧
    (perr 1 64 (nearT 3 [1.08232323371113819151600369654116790, 1.20205690315959428539973816151144999, 0.822467033424113218236207583323012595] cli4l18Cs) (zcQ 3) ≤ 61 * 10 ^ 39
      ∧ psize 1 64 (nearT 3 [1.08232323371113819151600369654116790, 1.20205690315959428539973816151144999, 0.822467033424113218236207583323012595] cli4l18Cs) ≤ 313 * 10 ^ 58
      ∧ perr (11/10) 64 cli4l18Bf.toList bserT3 ≤ 217 * 10 ^ 40 ∧ psize (11/10) 64 cli4l18Bf.toList ≤ 166 * 10 ^ 58) ∧
    (perr 1 64 (nearT 3 [1.08232323371113819151600369654116790, 1.20205690315959428539973816151144999, 0.822467033424113218236207583323012595] cli4l36Cs) (zcQ 3) ≤ 4 * 10 ^ 24
      ∧ psize 1 64 (nearT 3 [1.08232323371113819151600369654116790, 1.20205690315959428539973816151144999, 0.822467033424113218236207583323012595] cli4l36Cs) ≤ 313 * 10 ^ 58
      ∧ perr (11/10) 64 cli4l36Bf.toList bserT3 ≤ 176 * 10 ^ 23 ∧ psize (11/10) 64 cli4l36Bf.toList ≤ 166 * 10 ^ 58) := by
  decide +kernel

theorem reLi_22_one : reLi (2 + 2) 1 = Real.pi ^ 4 / 90 := by
  have h := reLi_one_eq_zeta 2
  have : riemannZeta (((2 : ℕ) : ℂ) + 2) = ((Real.pi ^ 4 / 90 : ℝ) : ℂ) := by
    push_cast; rw [← riemannZeta_four]; norm_num
  rw [this] at h
  exact_mod_cast h

theorem cli4_minus_one {u : ℝ} (hS : S.Lit u) (p : ℚ) {δ : ℝ} (h : |((S.rho p : ℚ) : ℝ) - Real.pi| ≤ δ) (hδ : δ ≤ 1 / 100) :
    |ofR ((∸(FOps.lit 7 : R S) *. ((FOps.lit p : R S) *. (FOps.lit p : R S) *. ((FOps.lit p : R S) *. (FOps.lit p : R S)))) /. (FOps.lit 720 : R S) : R S)
      - (-(1 - (1 / 2) ^ (2 + 1)) * reLi (2 + 2) 1)| ≤ 1.23 * δ := by
  have d720 := ofR_divlit hS 720 (q := 720) (by norm_num) (by norm_num) (by norm_num)
  have l7 := lit_of hS 7 (q := 7) (by norm_num) (by norm_num)
  have h4 := abs_pow_sub_pi h hδ 4
  rw [d720, ofR_mul, ofR_neg, l7, ofR_mul, ofR_mul, ofR_lit, reLi_22_one]
  generalize ((S.rho p : ℚ) : ℝ) = P at h h4 ⊢
  have e : -((7 : ℕ) : ℝ) * (P * P * (P * P)) / ((720 : ℕ) : ℝ) - (-(1 - (1 / 2) ^ (2 + 1)) * (Real.pi ^ 4 / 90)) = -(7 / 720) * (P ^ 4 - Real.pi ^ 4) := by
    push_cast; ring
  rw [e, abs_mul, show |(-(7 / 720) : ℝ)| = 7 / 720 by norm_num [abs_of_nonneg]]
  norm_num at h4
  linarith [(abs_nonneg _).trans h]

/-- **C18**, `Li4`, double, off the real axis. -/
theorem C18_Li4d_offaxis {u : ℝ} (hS : S.Lit u) (hu : u ≤ 1 / 1000) (z : ℂ) (hz : z.im ≠ 0) :
    ‖(cLi4d (ofC S z)).toC - pLi 4 z‖ ≤ 4.1e-15 + 4 * u + if ‖z‖ ≤ 1 then 0 else (2.5e-16 + 20.2 * u) * expN 4 ‖Complex.log (-z)‖ := by
  have hu0 := hS.u_nonneg
  rw [cLi4d_eq]
  have he : |((3.1415926535897932 : ℚ) : ℝ) - Real.pi| ≤ ((3.85e-17 : ℚ) : ℝ) := pi_lit _ _ (by decide +kernel)
  have h2 := litpi_abs hS 3.1415926535897932 (by norm_num) (by norm_num) he
  push_cast at h2
  have h0 : z ≠ 0 := fun h => hz (by rw [h]; rfl)
  have h1 : z ≠ 1 := fun h => hz (by rw [h]; rfl)
  rw [if_neg (by simpa only [rsem, hS.zero, decide_eq_true_eq, Rat.cast_zero] using hz)]
  refine (cLi4S_accuracy hS _ _ _ _ cli4dCs (by norm_num) cli4dBf (by norm_num) _ (fin18s_eq cli4dBf) h2 (by linarith)
    cli4_certs.1.1 cli4_certs.1.2.1 cli4_certs.1.2.2.1 cli4_certs.1.2.2.2 (ε := 4.1e-15 + 4 * u) (by push_cast; linarith) (by push_cast; linarith) z h0 h1).trans ?_
  gcongr
  split_ifs
  · exact le_rfl
  · exact mul_le_mul_of_nonneg_right (by linarith) (expN_nonneg 4 (norm_nonneg _))

/-- **C18**, `Li4`, long double, `LDBL_DIG <= 18`. -/
theorem C18_Li4l18 {u : ℝ} (hS : S.Lit u) (hu : u ≤ 1 / 1000) (z : ℂ) :
    ‖(cLi4l18 (ofC S z)).toC - pLi 4 z‖ ≤ 2.4e-18 + 4 * u + if ‖z‖ ≤ 1 then 0 else (2.7e-35 + 20.2 * u) * expN 4 ‖Complex.log (-z)‖ := by
  have hu0 := hS.u_nonneg
  rw [cLi4l18, cLi4l_eq]
  have he : |((3.14159265358979323846264338327950288 : ℚ) : ℝ) - Real.pi| ≤ ((4.2e-36 : ℚ) : ℝ) := pi_lit _ _ (by decide +kernel)
  have h2 := litpi_abs hS 3.14159265358979323846264338327950288 (by norm_num) (by norm_num) he
  push_cast at h2
  have hz5 := zlit_err hS 2 (by norm_num) 1.08232323371113819151600369654116790 (e := 6e-36) (by decide +kernel) (by norm_num)
  push_cast at hz5
  have hE := cLiN_fin (z := z) hu0 (by norm_num : (0:ℝ) ≤ 2.4e-18) (by norm_num : (0:ℝ) ≤ 4) (by norm_num : (0:ℝ) ≤ 2.7e-35) 4
  have hz5' := hz5.trans ((show _ ≤ 2.4e-18 + 4 * u by linarith).trans hE)
  refine special_chain hS 2 z _ _ _ ((by positivity : (0:ℝ) ≤ 2.4e-18 + 4 * u).trans hE) (by rw [ofR_lit]; exact hz5') ((cli4_minus_one hS _ h2 (by linarith)).trans (le_trans (by linarith) hE)) fun h0 h1 _ => ?_
  refine (cLi4S_accuracy hS _ _ _ _ cli4l18Cs (by norm_num) cli4l18Bf (by norm_num) _ (finHs_eq cli4l18Bf) h2 (by linarith)
    cli4_certs.2.1.1 cli4_certs.2.1.2.1 cli4_certs.2.1.2.2.1 cli4_certs.2.1.2.2.2 (ε := 2.4e-18 + 4 * u) (by push_cast; linarith) (by push_cast; linarith) z h0 h1).trans ?_
  gcongr
  split_ifs
  · exact le_rfl
  · exact mul_le_mul_of_nonneg_right (by linarith) (expN_nonneg 4 (norm_nonneg _))

/-- **C18**, `Li4`, long double, `LDBL_DIG > 18`. -/
theorem C18_Li4l36 {u : ℝ} (hS : S.Lit u) (hu : u ≤ 1 / 1000) (z : ℂ) :
    ‖(cLi4l36 (ofC S z)).toC - pLi 4 z‖ ≤ 2e-35 + 4 * u + if ‖z‖ ≤ 1 then 0 else (2.7e-35 + 20.2 * u) * expN 4 ‖Complex.log (-z)‖ := by
  have hu0 := hS.u_nonneg
  rw [cLi4l36, cLi4l_eq]
  have he : |((3.14159265358979323846264338327950288 : ℚ) : ℝ) - Real.pi| ≤ ((4.2e-36 : ℚ) : ℝ) := pi_lit _ _ (by decide +kernel)
  have h2 := litpi_abs hS 3.14159265358979323846264338327950288 (by norm_num) (by norm_num) he
  push_cast at h2
  have hz5 := zlit_err hS 2 (by norm_num) 1.08232323371113819151600369654116790 (e := 6e-36) (by decide +kernel) (by norm_num)
  push_cast at hz5
  have hE := cLiN_fin (z := z) hu0 (by norm_num : (0:ℝ) ≤ 2e-35) (by norm_num : (0:ℝ) ≤ 4) (by norm_num : (0:ℝ) ≤ 2.7e-35) 4
  have hz5' := hz5.trans ((show _ ≤ 2e-35 + 4 * u by linarith).trans hE)
  refine special_chain hS 2 z _ _ _ ((by positivity : (0:ℝ) ≤ 2e-35 + 4 * u).trans hE) (by rw [ofR_lit]; exact hz5') ((cli4_minus_one hS _ h2 (by linarith)).trans (le_trans (by linarith) hE)) fun h0 h1 _ => ?_
  refine (cLi4S_accuracy hS _ _ _ _ cli4l36Cs (by norm_num) cli4l36Bf (by norm_num) _ (finHs_eq cli4l36Bf) h2 (by linarith)
    cli4_certs.2.2.1 cli4_certs.2.2.2.1 cli4_certs.2.2.2.2.1 cli4_certs.2.2.2.2.2 (ε := 2e-35 + 4 * u) (by push_cast; linarith) (by push_cast; linarith) z h0 h1).trans ?_
  gcongr
  split_ifs
  · exact le_rfl
  · exact mul_le_mul_of_nonneg_right (by linarith) (expN_nonneg 4 (norm_nonneg _))

/-! ### the hypotheses are met -/

example := C18_Li4d_offaxis RealSem.dec_lit (by norm_num) (3 + 4 * I) (by simp)
example := C18_Li4l18 RealSem.dec_lit (by norm_num) (3 + 4 * I)
example := C18_Li4l36 RealSem.dec_lit (by norm_num) (3 + 4 * I)

end Polylog
