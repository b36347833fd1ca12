import Verif.Props.FLiCx

/-! # C38: accuracy of `cdli3` ... `cdli6` of the Fortran port, in exact arithmetic -/

noncomputable section
namespace Polylog
open Complex Finset

variable {S : RealSem}

theorem lit_ne {u : ℝ} (hS : S.Lit u) (n : ℕ) {q : ℚ} (hq : q = n) (h1 : n < 2 ^ 24) (h0 : n ≠ 0) : ofR (FOps.lit q : R S) ≠ 0 := by
  rw [lit_of hS n hq h1]
  exact_mod_cast h0

theorem fnear4_eq {u : ℝ} (hS : S.Lit u) (p z4 c1 c2 : ℚ) (cs : Vector ℚ 7) (w : Cx (R S)) :
    fnear4 p z4 c1 c2 (∸((FOps.lit 1 : R S) /. (FOps.lit 48 : R S))) cs w = cnear4d p z4 c1 c2 cs w := by
  rw [neg_divR (lit_ne hS 48 (by norm_num) (by norm_num) (by norm_num))]
  rfl

theorem fnear5_eq {u : ℝ} (hS : S.Lit u) (p z5 c1 c2 c3 : ℚ) (cs : Vector ℚ 6) (w : Cx (R S)) :
    fnear5 p z5 c1 c2 c3 (∸((FOps.lit 1 : R S) /. (FOps.lit 240 : R S))) cs w = cnear5d p z5 c1 c2 c3 cs w := by
  rw [neg_divR (lit_ne hS 240 (by norm_num) (by norm_num) (by norm_num))]
  rfl

theorem fnear6_eq {u : ℝ} (hS : S.Lit u) (p z6 c1 c2 c3 c4 : ℚ) (cs : Vector ℚ 5) (w : Cx (R S)) :
    fnear6 p z6 c1 c2 c3 c4 (∸((FOps.lit 1 : R S) /. (FOps.lit 1440 : R S))) cs w = cnear6d p z6 c1 c2 c3 c4 cs w := by
  rw [neg_divR (lit_ne hS 1440 (by norm_num) (by norm_num) (by norm_num))]
  rfl

/-- size of the effect of the literal for `pi` in the logarithm of the ports -/
theorem port_corr {p κ δ : ℝ} (ν : ℕ) (hκ : 0 ≤ κ) (h : |p - Real.pi| ≤ δ) (z : ℂ) :
    ‖(if z.im = 0 ∧ 1 < z.re ∧ z.re < Real.exp 1 then ((κ * Real.log z.re ^ ν * (p - Real.pi) : ℝ) : ℂ) * I else 0 : ℂ)‖ ≤ κ * δ := by
  have hδ := (abs_nonneg _).trans h
  split_ifs with hz
  · have h1 := Real.log_pos hz.2.1
    have h2 : Real.log z.re ≤ 1 := (Real.log_le_iff_le_exp (by linarith [hz.2.1])).2 hz.2.2.le
    have h3 : Real.log z.re ^ ν ≤ 1 := pow_le_one₀ h1.le h2
    have h4 : 0 ≤ Real.log z.re ^ ν := pow_nonneg h1.le _
    rw [norm_mul, Complex.norm_I, mul_one, Complex.norm_real, Real.norm_eq_abs, abs_mul, abs_of_nonneg (mul_nonneg hκ h4)]
    exact mul_le_mul (mul_le_of_le_one_right hκ h3) h (abs_nonneg _) hκ
  · rw [norm_zero]; positivity

theorem lpi_port {u : ℝ} (hS : S.Lit u) : |((S.rho 3.14159265358979324 : ℚ) : ℝ) - Real.pi| ≤ 1.6e-18 + 3.15 * u := by
  have he : |((3.14159265358979324 : ℚ) : ℝ) - Real.pi| ≤ ((1.6e-18 : ℚ) : ℝ) := pi_lit _ _ (by decide +kernel)
  have h := litpi_abs hS 3.14159265358979324 (by norm_num) (by norm_num) he
  push_cast at h
  linarith [hS.u_nonneg]

theorem lpi_li {u : ℝ} (hS : S.Lit u) : |((S.rho 3.1415926535897932 : ℚ) : ℝ) - Real.pi| ≤ 3.85e-17 + 3.15 * u := by
  have he : |((3.1415926535897932 : ℚ) : ℝ) - Real.pi| ≤ ((3.85e-17 : ℚ) : ℝ) := pi_lit _ _ (by decide +kernel)
  have h := litpi_abs hS 3.1415926535897932 (by norm_num) (by norm_num) he
  push_cast at h
  linarith [hS.u_nonneg]

theorem lpi_l {u : ℝ} (hS : S.Lit u) : |((S.rho 3.14159265358979323846264338327950288 : ℚ) : ℝ) - Real.pi| ≤ 4.2e-36 + 3.15 * u := by
  have he : |((3.14159265358979323846264338327950288 : ℚ) : ℝ) - Real.pi| ≤ ((4.2e-36 : ℚ) : ℝ) := pi_lit _ _ (by decide +kernel)
  have h := litpi_abs hS 3.14159265358979323846264338327950288 (by norm_num) (by norm_num) he
  push_cast at h
  linarith [hS.u_nonneg]

/-- **C38**, `cdli3`: the Fortran function returns the value of the C++ function for every `z`. -/
theorem C38_cdli3 {u : ℝ} (hS : S.Lit u) (z : ℂ) : Fortran.cdli3 (ofC S z) = cLi3d (ofC S z) := by
  rw [cdli3_eq, cLi3d_eq, C38_dli3 hS]
  split
  · split
    · rfl
    · simp only [Fortran.ipow2, neg_mulR, mul_assocR]
  · rename_i hz
    simp only [rsem, hS.zero, decide_eq_true_eq, Rat.cast_zero] at hz
    have h0 : z ≠ 0 := fun h => hz (by rw [h]; rfl)
    have h1 : z ≠ 1 := fun h => hz (by rw [h]; rfl)
    apply cx_ext
    rw [cLi3S, portShape_cmp hS _ _ _ _ _ _ _ _ 2 (1 / 2) (fun w _ => cnear3d_eq hS _ _ _ _ w) (fun _ => rfl) ?_ z h0 h1, if_neg (fun h => hz h.1), sub_zero]
    intro w l
    rw [fin18_eq, fin18_eq]
    congr 1
    simp only [toC_neg, toC_mul, toC_addr, Fortran.ipow2]
    ring

theorem C38_cdli3_accuracy {u : ℝ} (hS : S.Lit u) (hu : u ≤ 1 / 1000) (z : ℂ) :
    ‖(Fortran.cdli3 (ofC S z)).toC - pLi 3 z‖ ≤ 5.6e-15 + 75 * u + if ‖z‖ ≤ 1 then 0 else (2.5e-16 + 20.2 * u) * expN 3 ‖Complex.log (-z)‖ := by
  rw [C38_cdli3 hS]
  exact C18_Li3d hS hu z

/-- **C38**, `cdli4`. -/
theorem C38_cdli4_axis {u : ℝ} (hS : S.Lit u) (z : ℂ) (hz : z.im = 0) : Fortran.cdli4 (ofC S z) = cLi4d (ofC S z) := by
  have h6 := lit_ne hS 6 (q := 6) (by norm_num) (by norm_num) (by norm_num)
  rw [cdli4_eq, cLi4d_eq, C38_dli4 hS]
  split
  · split
    · rfl
    · simp only [Fortran.ipow3, neg_mulR, mul_assocR, neg_divR h6]
  · rename_i h
    exact absurd hz (by simpa only [rsem, hS.zero, decide_eq_true_eq, Rat.cast_zero] using h)

theorem C38_cdli4 {u : ℝ} (hS : S.Lit u) (hu : u ≤ 1 / 10000) (z : ℂ) :
    ‖(Fortran.cdli4 (ofC S z)).toC - pLi 4 z‖ ≤ 4.1e-15 + 3310 * u + if ‖z‖ ≤ 1 then 0 else (2.5e-16 + 20.2 * u) * expN 4 ‖Complex.log (-z)‖ := by
  by_cases hz : z.im = 0
  · rw [C38_cdli4_axis hS z hz]
    exact C18_Li4d hS hu z
  have hu0 := hS.u_nonneg
  have h0 : z ≠ 0 := fun h => hz (by rw [h]; rfl)
  have h1 : z ≠ 1 := fun h => hz (by rw [h]; rfl)
  rw [cdli4_eq, if_neg (by simpa only [rsem, hS.zero, decide_eq_true_eq, Rat.cast_zero] using hz)]
  rw [portShape_cmp hS _ _ _ _ _ _ _ _ 3 (1 / 6) (fun w _ => (congrArg Cx.toC (fnear4_eq hS _ _ _ _ _ w)).trans (cnear4d_eq hS _ _ _ _ _ w)) (fun _ => rfl) (fun _ _ => rfl) z h0 h1,
    if_neg (fun h => hz h.1), sub_zero]
  refine (cLi4F_accuracy hS (by linarith) 3.1415926535897932 _ _ _ cli4dCs (by norm_num) cli4dBf (by norm_num) _ (fin18s_eq cli4dBf) (lpi_li hS)
    cli4_certs.1.1 cli4_certs.1.2.1 cli4_certs.1.2.2.1 cli4_certs.1.2.2.2 (ε := 4.1e-15 + 4 * u) (by push_cast; linarith) (by push_cast; linarith) z h0 h1).trans ?_
  gcongr
  norm_num

/-- **C38**, `cdli5`. -/
theorem C38_cdli5 {u : ℝ} (hS : S.Lit u) (hu : u ≤ 1 / 1000) (z : ℂ) :
    ‖(Fortran.cdli5 (ofC S z)).toC - pLi 5 z‖ ≤ 2.4e-16 + 4 * u + if ‖z‖ ≤ 1 then 0 else (2.5e-16 + 20.2 * u) * expN 5 ‖Complex.log (-z)‖ := by
  have hu0 := hS.u_nonneg
  rw [cdli5_eq, neg_divR (lit_ne hS 16 (by norm_num) (by norm_num) (by norm_num)), neg_mulR]
  have hz5 := zlit_err hS 3 (by norm_num) 1.0369277551433699 (e := 5e-17) (by decide +kernel) (by norm_num)
  push_cast at hz5
  have hE := cLiN_fin (z := z) hu0 (by norm_num : (0:ℝ) ≤ 2.4e-16) (by norm_num : (0:ℝ) ≤ 4) (by norm_num : (0:ℝ) ≤ 2.5e-16) 5
  have hz5' := hz5.trans ((show _ ≤ 2.4e-16 + 4 * u by linarith).trans hE)
  refine special_chain hS 3 z _ _ _ ((by positivity : (0:ℝ) ≤ 2.4e-16 + 4 * u).trans hE) (by rw [ofR_lit]; exact hz5') (cli5_minus_one hS _ hz5') fun h0 h1 _ => ?_
  rw [portShape_cmp hS _ _ _ _ _ _ _ _ 4 (1 / 24) (fun w _ => (congrArg Cx.toC (fnear5_eq hS _ _ _ _ _ _ w)).trans (cnear5d_eq hS _ _ _ _ _ _ w)) (fun _ => rfl) (fun _ _ => rfl) z h0 h1]
  have hc := port_corr 4 (by norm_num : (0:ℝ) ≤ 1 / 24) (lpi_port hS) z
  have hb := cLi5F_accuracy hS hu 3.1415926535897932 _ _ _ _ cli5dCs (by norm_num) cli5dBf (by norm_num) _ (fin19_eq cli5dBf) (lpi_li hS)
    cli5_certs.1.1 cli5_certs.1.2.1 cli5_certs.1.2.2.1 cli5_certs.1.2.2.2 (ε := 2.3e-16 + 3 * u) (by push_cast; linarith) (by push_cast; linarith) z h0 h1
  rw [sub_right_comm]
  refine (norm_sub_le _ _).trans ((add_le_add hb hc).trans ?_)
  linarith

/-- **C38**, `cdli6`. -/
theorem C38_cdli6 {u : ℝ} (hS : S.Lit u) (hu : u ≤ 1 / 1000) (z : ℂ) :
    ‖(Fortran.cdli6 (ofC S z)).toC - pLi 6 z‖ ≤ 8.4e-16 + 4 * u + if ‖z‖ ≤ 1 then 0 else (2.5e-16 + 20.2 * u) * expN 6 ‖Complex.log (-z)‖ := by
  have hu0 := hS.u_nonneg
  rw [cdli6_eq, neg_divR (lit_ne hS 32 (by norm_num) (by norm_num) (by norm_num)), neg_mulR]
  have hz5 := zlit_err hS 4 (by norm_num) 1.0173430619844491 (e := 5e-17) (by decide +kernel) (by norm_num)
  push_cast at hz5
  have hE := cLiN_fin (z := z) hu0 (by norm_num : (0:ℝ) ≤ 8.4e-16) (by norm_num : (0:ℝ) ≤ 4) (by norm_num : (0:ℝ) ≤ 2.5e-16) 6
  have hz5' := hz5.trans ((show _ ≤ 8.4e-16 + 4 * u by linarith).trans hE)
  refine special_chain hS 4 z _ _ _ ((by positivity : (0:ℝ) ≤ 8.4e-16 + 4 * u).trans hE) (by rw [ofR_lit]; exact hz5') (cli6_minus_one hS _ hz5') fun h0 h1 _ => ?_
  rw [portShape_cmp hS _ _ _ _ _ _ _ _ 5 (1 / 120) (fun w _ => (congrArg Cx.toC (fnear6_eq hS _ _ _ _ _ _ _ w)).trans (cnear6d_eq hS _ _ _ _ _ _ _ w)) (fun _ => rfl) (fun _ _ => rfl) z h0 h1]
  have hc := port_corr 5 (by norm_num : (0:ℝ) ≤ 1 / 120) (lpi_port hS) z
  have hb := cLi6F_accuracy hS hu 3.1415926535897932 _ _ _ _ _ cli6dCs (by norm_num) cli6dBf (by norm_num) _ (fin18s_eq cli6dBf) (lpi_li hS)
    cli6_certs.1.1 cli6_certs.1.2.1 cli6_certs.1.2.2.1 cli6_certs.1.2.2.2 (ε := 8.3e-16 + 3 * u) (by push_cast; linarith) (by push_cast; linarith) z h0 h1
  rw [sub_right_comm]
  refine (norm_sub_le _ _).trans ((add_le_add hb hc).trans ?_)
  linarith

/-! ### the hypotheses are met -/

example := C38_cdli3 RealSem.dec_lit (3 + 4 * I)
example := C38_cdli3_accuracy RealSem.dec_lit (by norm_num) (3 + 4 * I)
example := C38_cdli4 RealSem.dec_lit (by norm_num) (3 + 4 * I)
example := C38_cdli5 RealSem.dec_lit (by norm_num) (3 + 4 * I)
example := C38_cdli6 RealSem.dec_lit (by norm_num) (3 + 4 * I)

end Polylog
