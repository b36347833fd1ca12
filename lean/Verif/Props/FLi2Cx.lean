import Verif.Props.FPNan
import Verif.Props.CLi2Cx
import Verif.Props.FLiReal
import Verif.Props.Li2Cx

/-! # C38, C39: the complex dilogarithm of the Fortran port -/

noncomputable section
namespace Polylog
open Complex Finset

variable {S : RealSem}

theorem cneg_mulR (a : R S) (b : Cx (R S)) : ∸(a *. b) = ∸a *. b := by
  apply cx_ext
  simp only [toC_neg, toC_rmul, ofR_neg, ofReal_neg]; ring

theorem cmul_assocR (a : R S) (b c : Cx (R S)) : a *. (b *. c) = a *. b *. c := by
  apply cx_ext
  simp only [toC_mul, toC_rmul]; ring

theorem cneg_inv {u : ℝ} (hS : S.Lit u) {z : ℂ} (h : z ≠ 0) : ∸((FOps.lit 1 : R S) /. ofC S z) = ∸(FOps.lit 1 : R S) /. ofC S z := by
  apply cx_ext
  rw [toC_neg, toC_rdiv hS.zero (by rwa [toC_ofC]), toC_rdiv hS.zero (by rwa [toC_ofC]), ofR_neg, ofReal_neg, neg_div]

/-- `cdli2` has the shape of the C++ function, with a different literal for `pi` -/
theorem cdli2_gen {u : ℝ} (hS : S.Lit u) (junk : Cx (R S)) (z : ℂ) :
    Fortran.cdli2 junk (ofC S z) = cLi2Gen (FOps.lit 3.14159265358979324 : R S) Fortran.dli2 cli2dBf (ofC S z) := by
  have hfin : ∀ (w r : Cx (R S)) (s : R S), cfin2d cli2dBf w r s = fin2 (n := 8) cli2dBf w r s := fun w r s => cfin2d_eq w r s _
  have key : ∀ (w r w' r' : Cx (R S)) (s : R S), w = w' → r = r' → cfin2d cli2dBf w r s = fin2 (n := 8) cli2dBf w' r' s := by
    rintro w r _ _ s rfl rfl; exact hfin w r s
  simp only [Fortran.cdli2, cLi2Gen]
  split_ifs with c1 c2 c3 c4 c5 c6 c7 c8 c9 c10
  · rfl
  · rw [neg_mulR]
  · exfalso
    change ¬((_ <. _) = true) at c3
    rw [le_R, decide_eq_true_eq] at c2
    rw [lt_R, decide_eq_true_eq] at c3
    exact c2 (not_lt.mp c3)
  all_goals try first | rfl | contradiction
  all_goals
    have hz : z ≠ 0 := by
      rintro rfl
      exact c1 (by simp only [rsem, hS.zero, decide_eq_true_eq, Rat.cast_zero]; rfl)
  · exact key _ _ _ _ _ (by rw [cneg_inv hS hz]; rfl) (by rw [cneg_mulR, Fortran.ipow2, Fortran.ipow2, cmul_assocR])
  · exact hfin _ _ _
  · exact hfin _ _ _
  · exact key _ _ _ _ _ (by rw [cneg_inv hS hz]; rfl) (by rw [cneg_mulR, Fortran.ipow2, Fortran.ipow2, cmul_assocR])

/-- **C38**, `cdli2`: method error at most `1.21e-16` for every `z`, plus the effect of the rounded literals. -/
theorem C38_cdli2 {u : ℝ} (hS : S.Lit u) (hu : u ≤ 1 / 1000) (heps : S.eps ≤ 2 ^ (-52 : ℤ)) (junk : Cx (R S)) (z : ℂ) :
    ‖(Fortran.cdli2 junk (ofC S z)).toC - pLi 2 z‖ ≤ 1.21e-16 + (if z.im = 0 then 76 * u + (1.6e-18 + 3.15 * u) * |Real.log ‖z‖| else 5 * u) := by
  have hu0 := hS.u_nonneg
  rw [cdli2_gen hS]
  have he : |((3.14159265358979324 : ℚ) : ℝ) - Real.pi| ≤ ((1.6e-18 : ℚ) : ℝ) := pi_lit _ _ (by decide +kernel)
  split_ifs with hz
  · have h2 := litpi_abs hS 3.14159265358979324 (by norm_num) (by norm_num) he
    refine (cLi2Gen_accuracy_real hS _ _ _ (C38_dli2 hS hu) (e := 1.6e-18 + 3.15 * u) (by rw [ofR_lit]; push_cast at h2; exact h2) z hz).trans ?_
    linarith
  · have h2 := litpi_err hS 3.14159265358979324 (by norm_num) (by norm_num) he (by norm_num) hu
    push_cast at h2
    refine (cLi2Gen_accuracy hS _ Fortran.dli2 (by norm_num) cli2dBf (by norm_num) bf_certs.2.1.1 bf_certs.2.1.2
      h2 (E := 1.5e-8) (heps.trans (by norm_num)) (by norm_num) (by norm_num) z hz).trans ?_
    push_cast
    rw [max_le_iff]
    constructor <;> linarith

/-- **C39**, `cdli2`, every arithmetic: if the imaginary part is zero and the real part is unordered with 1 (a NaN), no assignment to the
result is executed: the result is whatever the result variable contained before. -/
theorem C39_cdli2_unassigned {F : Type} [FOps F] (junk z : Cx F) (h0 : (z.im ==. (FOps.lit 0 : F)) = true)
    (h1 : (z.re <=. (FOps.lit 1 : F)) = false) (h2 : (z.re >. (FOps.lit 1 : F)) = false) : Fortran.cdli2 junk z = junk := by
  simp [Fortran.cdli2, h0, h1, h2]

/-- **C39**, `cdli2` in IEEE arithmetic, every format and library: for `NaN + 0i` the result is never assigned. -/
theorem C39_cdli2_nan (φ : Fmt) (L : Lib) (junk : Cx (FP φ L)) : Fortran.cdli2 junk ⟨FOps.nan, FOps.lit 0⟩ = junk := by
  refine C39_cdli2_unassigned junk _ ?_ (fn_le _) (fn_gt _)
  show FV.eq (rndQ φ 0) (rndQ φ 0) = true
  rw [rndQ_zero]
  rfl

end Polylog
