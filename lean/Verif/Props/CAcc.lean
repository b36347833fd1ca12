import Verif.Props.FLiCxMain
import Verif.Props.CClReal
import Verif.Props.CLi2Cx
import Verif.Props.C13
import Verif.Props.C14

/-! # C37: accuracy of the functions of the C port in exact arithmetic (generated from the statements for the C++ functions) -/

noncomputable section
namespace Polylog
open Complex Finset

variable {S : RealSem}

/-- **C37**, accuracy of `li2f`. -/
theorem C37_li2f_accuracy {u : ℝ} (hS : S.Lit u) (hu : u ≤ 1 / 1000) (x : ℝ) :
    |ofR (C.li2f (toR S x)) - (pLi 2 (x : ℂ)).re| ≤ 1.3e-7 + 17 * u := by
  rw [C36_li2f]
  exact C08_Li2f hS hu x

/-- **C37**, accuracy of `li2`. -/
theorem C37_li2_accuracy {u : ℝ} (hS : S.Lit u) (hu : u ≤ 1 / 1000) (x : ℝ) :
    |ofR (C.li2 (toR S x)) - (pLi 2 (x : ℂ)).re| ≤ 1.2e-16 + 76 * u := by
  rw [C36_li2]
  exact C09_Li2d hS hu x

/-- **C37**, accuracy of `li2l18`. -/
theorem C37_li2l18_accuracy {u : ℝ} (hS : S.Lit u) (hu : u ≤ 1 / 1000) (x : ℝ) :
    |ofR (C.li2l18 (toR S x)) - (pLi 2 (x : ℂ)).re| ≤ 1.1e-20 + 56 * u := by
  rw [C37_li2l18 hS]
  exact C10_Li2l18 hS hu x

/-- **C37**, accuracy of `li2l36`. -/
theorem C37_li2l36_accuracy {u : ℝ} (hS : S.Lit u) (hu : u ≤ 1 / 1000) (x : ℝ) :
    |ofR (C.li2l36 (toR S x)) - (pLi 2 (x : ℂ)).re| ≤ 1.2e-35 + 810 * u := by
  rw [C37_li2l36 hS]
  exact C10_Li2l36 hS hu x

/-- **C37**, accuracy of `li3`. -/
theorem C37_li3_accuracy {u : ℝ} (hS : S.Lit u) (hu : u ≤ 1 / 1000) (x : ℝ) :
    |ofR (C.li3 (toR S x)) - (pLi 3 (x : ℂ)).re| ≤ 1.2e-16 + 75 * u + (9e-17 + 4 * u) * Real.log (max 1 |x|) := by
  rw [C36_li3]
  exact C11_Li3d hS hu x

/-- **C37**, accuracy of `li4`. -/
theorem C37_li4_accuracy {u : ℝ} (hS : S.Lit u) (hu : u ≤ 1 / 10000) (x : ℝ) :
    |ofR (C.li4 (toR S x)) - (pLi 4 (x : ℂ)).re| ≤ 4e-17 + 3310 * u + (4.4e-17 + 2 * u) * Real.log (max 1 |x|) ^ 2 := by
  rw [C36_li4]
  exact C12_Li4d hS hu x

/-- **C37**, accuracy of `cl2`. -/
theorem C37_cl2_accuracy {u : ℝ} (hS : S.Lit u) (hu : u ≤ 1e-6) (x : ℝ)
    (hw : wrap (ofR (FOps.lit 3.14159265358979324 : R S)) x ≤ 6.28125 + ofR (FOps.lit 0.0019353071795864769253 : R S)) :
    |ofR (C.cl2 (toR S x)) - clausen 2 x| ≤ 11e-18 + 14 * u + (31e-18 + 609e-1 * u) * |x| := by
  rw [C36_cl2]
  exact C13_Cl2 hS hu x hw

/-- **C37**, accuracy of `cl3`. -/
theorem C37_cl3_accuracy {u : ℝ} (hS : S.Lit u) (hu : u ≤ 1e-6) (x : ℝ)
    (hw : wrap (ofR (FOps.lit 3.14159265358979324 : R S)) x ≤ 6.28125 + ofR (FOps.lit 0.0019353071795864769253 : R S)) :
    |ofR (C.cl3 (toR S x)) - clausen 3 x| ≤ 524e-19 + 14 * u + (107e-20 + 21e-1 * u) * |x| := by
  rw [C37_cl3 hS]
  exact C13_Cl3 hS hu x hw

/-- **C37**, accuracy of `cl4`. -/
theorem C37_cl4_accuracy {u : ℝ} (hS : S.Lit u) (hu : u ≤ 1e-6) (x : ℝ)
    (hw : wrap (ofR (FOps.lit 3.14159265358979324 : R S)) x ≤ 6.28125 + ofR (FOps.lit 0.0019353071795864769253 : R S)) :
    |ofR (C.cl4 (toR S x)) - clausen 4 x| ≤ 431e-19 + 18 * u + (107e-20 + 21e-1 * u) * |x| := by
  rw [C37_cl4 hS]
  exact C13_Cl4 hS hu x hw

/-- **C37**, accuracy of `cl5`. -/
theorem C37_cl5_accuracy {u : ℝ} (hS : S.Lit u) (hu : u ≤ 1e-6) (x : ℝ)
    (hw : wrap (ofR (FOps.lit 3.14159265358979324 : R S)) x ≤ 6.28125 + ofR (FOps.lit 0.0019353071795864769253 : R S)) :
    |ofR (C.cl5 (toR S x)) - clausen 5 x| ≤ 302e-19 + 16 * u + (107e-20 + 21e-1 * u) * |x| := by
  rw [C36_cl5]
  exact C13_Cl5 hS hu x hw

/-- **C37**, accuracy of `cl6`. -/
theorem C37_cl6_accuracy {u : ℝ} (hS : S.Lit u) (hu : u ≤ 1e-6) (x : ℝ)
    (hw : wrap (ofR (FOps.lit 3.14159265358979324 : R S)) x ≤ 6.28125 + ofR (FOps.lit 0.0019353071795864769253 : R S)) :
    |ofR (C.cl6 (toR S x)) - clausen 6 x| ≤ 412e-18 + 19 * u + (107e-20 + 21e-1 * u) * |x| := by
  rw [C36_cl6]
  exact C13_Cl6 hS hu x hw

/-- **C37**, accuracy of `cl2l`. -/
theorem C37_cl2l_accuracy {u : ℝ} (hS : S.Lit u) (hu : u ≤ 1e-6) (x : ℝ)
    (hw : wrap (ofR (FOps.lit 3.14159265358979323846264338327950288 : R S)) x ≤ 6.28125 + ofR (FOps.lit 0.0019353071795864769252867665590057683943 : R S)) :
    |ofR (C.cl2l (toR S x)) - clausen 2 x| ≤ 416e-38 + 30 * u + (139e-36 + 104 * u) * |x| := by
  rw [C36_cl2l]
  exact C14_Cl2 hS hu x hw

/-- **C37**, accuracy of `cl3l`. -/
theorem C37_cl3l_accuracy {u : ℝ} (hS : S.Lit u) (hu : u ≤ 1e-6) (x : ℝ)
    (hw : wrap (ofR (FOps.lit 3.14159265358979323846264338327950288 : R S)) x ≤ 6.28125 + ofR (FOps.lit 0.0019353071795864769252867665590057683943 : R S)) :
    |ofR (C.cl3l (toR S x)) - clausen 3 x| ≤ 173e-28 + 1141 * u + (28e-37 + 21e-1 * u) * |x| := by
  rw [C37_cl3l hS]
  exact C14_Cl3 hS hu x hw

/-- **C37**, accuracy of `cl4l`. -/
theorem C37_cl4l_accuracy {u : ℝ} (hS : S.Lit u) (hu : u ≤ 1e-6) (x : ℝ)
    (hw : wrap (ofR (FOps.lit 3.14159265358979323846264338327950288 : R S)) x ≤ 6.28125 + ofR (FOps.lit 0.0019353071795864769252867665590057683943 : R S)) :
    |ofR (C.cl4l (toR S x)) - clausen 4 x| ≤ 27e-27 + 150 * u + (28e-37 + 21e-1 * u) * |x| := by
  rw [C37_cl4l hS]
  exact C14_Cl4 hS hu x hw

/-- **C37**, accuracy of `cl5l`. -/
theorem C37_cl5l_accuracy {u : ℝ} (hS : S.Lit u) (hu : u ≤ 1e-6) (x : ℝ)
    (hw : wrap (ofR (FOps.lit 3.14159265358979323846264338327950288 : R S)) x ≤ 6.28125 + ofR (FOps.lit 0.0019353071795864769252867665590057683943 : R S)) :
    |ofR (C.cl5l (toR S x)) - clausen 5 x| ≤ 313e-28 + 1531 * u + (28e-37 + 21e-1 * u) * |x| := by
  rw [C36_cl5l]
  exact C14_Cl5 hS hu x hw

/-- **C37**, accuracy of `cl6l`. -/
theorem C37_cl6l_accuracy {u : ℝ} (hS : S.Lit u) (hu : u ≤ 1e-6) (x : ℝ)
    (hw : wrap (ofR (FOps.lit 3.14159265358979323846264338327950288 : R S)) x ≤ 6.28125 + ofR (FOps.lit 0.0019353071795864769252867665590057683943 : R S)) :
    |ofR (C.cl6l (toR S x)) - clausen 6 x| ≤ 302e-28 + 2231 * u + (28e-37 + 21e-1 * u) * |x| := by
  rw [C36_cl6l]
  exact C14_Cl6 hS hu x hw

/-- **C37**, accuracy of `cli2f`. -/
theorem C37_cli2f_accuracy {u : ℝ} (hS : S.Lit u) (hu : u ≤ 1 / 1000) (heps : S.eps ≤ 2 ^ (-23 : ℤ)) (z : ℂ) :
    ‖(C.cli2f (ofC S z)).toC - pLi 2 z‖ ≤ 2.3e-7 + 17 * u + (if z.im = 0 then (3.6e-9 + 3.15 * u) * |Real.log ‖z‖| else 0) := by
  rw [C37_cli2f hS]
  exact C17_Li2f hS hu heps z

/-- **C37**, accuracy of `cli2`. -/
theorem C37_cli2_accuracy {u : ℝ} (hS : S.Lit u) (hu : u ≤ 1 / 1000) (heps : S.eps ≤ 2 ^ (-52 : ℤ)) (z : ℂ) :
    ‖(C.cli2 (ofC S z)).toC - pLi 2 z‖ ≤ 1.21e-16 + (if z.im = 0 then 76 * u + (3.85e-17 + 3.15 * u) * |Real.log ‖z‖| else 5 * u) := by
  rw [C37_cli2 hS]
  exact C17_Li2d hS hu heps z

/-- **C37**, accuracy of `cli2l18`. -/
theorem C37_cli2l18_accuracy {u : ℝ} (hS : S.Lit u) (hu : u ≤ 1 / 1000) (heps : S.eps ≤ 2 ^ (-63 : ℤ)) (z : ℂ) :
    ‖(C.cli2l18 (ofC S z)).toC - pLi 2 z‖ ≤ 2.3e-18 + (if z.im = 0 then 56 * u + (4.2e-36 + 3.15 * u) * |Real.log ‖z‖| else 5 * u) := by
  rw [C37_cli2l18 hS]
  exact C17_Li2l18 hS hu heps z

/-- **C37**, accuracy of `cli2l36`. -/
theorem C37_cli2l36_accuracy {u : ℝ} (hS : S.Lit u) (hu : u ≤ 1 / 1000) (heps : S.eps ≤ 2 ^ (-112 : ℤ)) (z : ℂ) :
    ‖(C.cli2l36 (ofC S z)).toC - pLi 2 z‖ ≤ 1.2e-35 + (if z.im = 0 then 810 * u + (4.2e-36 + 3.15 * u) * |Real.log ‖z‖| else 5 * u) := by
  rw [C37_cli2l36 hS]
  exact C17_Li2l36 hS hu heps z

/-- **C37**, accuracy of `cli3`. -/
theorem C37_cli3_accuracy {u : ℝ} (hS : S.Lit u) (hu : u ≤ 1 / 1000) (z : ℂ) :
    ‖(C.cli3 (ofC S z)).toC - pLi 3 z‖ ≤ 5.6e-15 + 75 * u + if ‖z‖ ≤ 1 then 0 else (2.5e-16 + 20.2 * u) * expN 3 ‖Complex.log (-z)‖ := by
  rw [C37_cli3 hS]
  exact C18_Li3d hS hu z

/-- **C37**, accuracy of `cli4`. -/
theorem C37_cli4_accuracy {u : ℝ} (hS : S.Lit u) (hu : u ≤ 1 / 10000) (z : ℂ) :
    ‖(C.cli4 (ofC S z)).toC - pLi 4 z‖ ≤ 4.1e-15 + 3310 * u + if ‖z‖ ≤ 1 then 0 else (2.5e-16 + 20.2 * u) * expN 4 ‖Complex.log (-z)‖ := by
  rw [C37_cli4 hS]
  exact C18_Li4d hS hu z

/-- **C37**, accuracy of `cli3l18`. -/
theorem C37_cli3l18_accuracy {u : ℝ} (hS : S.Lit u) (hu : u ≤ 1 / 1000) (z : ℂ) :
    ‖(C.cli3l18 (ofC S z)).toC - pLi 3 z‖ ≤ 4.9e-18 + 5 * u + if ‖z‖ ≤ 1 then 0 else (2.7e-35 + 20.2 * u) * expN 3 ‖Complex.log (-z)‖ := by
  have hu0 := hS.u_nonneg
  rw [C37_cli3l18 hS, sub_right_comm]
  refine (norm_sub_le _ _).trans ((add_le_add (C18_Li3l18 hS hu z) (port_corr 2 (by norm_num : (0:ℝ) ≤ 1 / 2) (lpi_l hS) z)).trans ?_)
  linarith

/-- **C37**, accuracy of `cli3l36`. -/
theorem C37_cli3l36_accuracy {u : ℝ} (hS : S.Lit u) (hu : u ≤ 1 / 1000) (z : ℂ) :
    ‖(C.cli3l36 (ofC S z)).toC - pLi 3 z‖ ≤ 1.2e-35 + 5 * u + if ‖z‖ ≤ 1 then 0 else (2.7e-35 + 20.2 * u) * expN 3 ‖Complex.log (-z)‖ := by
  have hu0 := hS.u_nonneg
  rw [C37_cli3l36 hS, sub_right_comm]
  refine (norm_sub_le _ _).trans ((add_le_add (C18_Li3l36 hS hu z) (port_corr 2 (by norm_num : (0:ℝ) ≤ 1 / 2) (lpi_l hS) z)).trans ?_)
  linarith

/-- **C37**, accuracy of `cli4l18`. -/
theorem C37_cli4l18_accuracy {u : ℝ} (hS : S.Lit u) (hu : u ≤ 1 / 1000) (z : ℂ) :
    ‖(C.cli4l18 (ofC S z)).toC - pLi 4 z‖ ≤ 2.5e-18 + 5 * u + if ‖z‖ ≤ 1 then 0 else (2.7e-35 + 20.2 * u) * expN 4 ‖Complex.log (-z)‖ := by
  have hu0 := hS.u_nonneg
  rw [C37_cli4l18 hS, sub_right_comm]
  refine (norm_sub_le _ _).trans ((add_le_add (C18_Li4l18 hS hu z) (port_corr 3 (by norm_num : (0:ℝ) ≤ 1 / 6) (lpi_l hS) z)).trans ?_)
  linarith

/-- **C37**, accuracy of `cli4l36`. -/
theorem C37_cli4l36_accuracy {u : ℝ} (hS : S.Lit u) (hu : u ≤ 1 / 1000) (z : ℂ) :
    ‖(C.cli4l36 (ofC S z)).toC - pLi 4 z‖ ≤ 2.1e-35 + 5 * u + if ‖z‖ ≤ 1 then 0 else (2.7e-35 + 20.2 * u) * expN 4 ‖Complex.log (-z)‖ := by
  have hu0 := hS.u_nonneg
  rw [C37_cli4l36 hS, sub_right_comm]
  refine (norm_sub_le _ _).trans ((add_le_add (C18_Li4l36 hS hu z) (port_corr 3 (by norm_num : (0:ℝ) ≤ 1 / 6) (lpi_l hS) z)).trans ?_)
  linarith

/-- **C37**, accuracy of `cli5`. -/
theorem C37_cli5_accuracy {u : ℝ} (hS : S.Lit u) (hu : u ≤ 1 / 1000) (z : ℂ) :
    ‖(C.cli5 (ofC S z)).toC - pLi 5 z‖ ≤ 2.4e-16 + 4 * u + if ‖z‖ ≤ 1 then 0 else (2.5e-16 + 20.2 * u) * expN 5 ‖Complex.log (-z)‖ := by
  have hu0 := hS.u_nonneg
  rw [C37_cli5 hS, sub_right_comm]
  refine (norm_sub_le _ _).trans ((add_le_add (C18_Li5d hS hu z) (port_corr 4 (by norm_num : (0:ℝ) ≤ 1 / 24) (lpi_li hS) z)).trans ?_)
  linarith

/-- **C37**, accuracy of `cli5l18`. -/
theorem C37_cli5l18_accuracy {u : ℝ} (hS : S.Lit u) (hu : u ≤ 1 / 1000) (z : ℂ) :
    ‖(C.cli5l18 (ofC S z)).toC - pLi 5 z‖ ≤ 9.7e-18 + 4 * u + if ‖z‖ ≤ 1 then 0 else (2.7e-35 + 20.2 * u) * expN 5 ‖Complex.log (-z)‖ := by
  have hu0 := hS.u_nonneg
  rw [C37_cli5l18 hS, sub_right_comm]
  refine (norm_sub_le _ _).trans ((add_le_add (C18_Li5l18 hS hu z) (port_corr 4 (by norm_num : (0:ℝ) ≤ 1 / 24) (lpi_l hS) z)).trans ?_)
  linarith

/-- **C37**, accuracy of `cli5l36`. -/
theorem C37_cli5l36_accuracy {u : ℝ} (hS : S.Lit u) (hu : u ≤ 1 / 1000) (z : ℂ) :
    ‖(C.cli5l36 (ofC S z)).toC - pLi 5 z‖ ≤ 1.7e-35 + 4 * u + if ‖z‖ ≤ 1 then 0 else (2.7e-35 + 20.2 * u) * expN 5 ‖Complex.log (-z)‖ := by
  have hu0 := hS.u_nonneg
  rw [C37_cli5l36 hS, sub_right_comm]
  refine (norm_sub_le _ _).trans ((add_le_add (C18_Li5l36 hS hu z) (port_corr 4 (by norm_num : (0:ℝ) ≤ 1 / 24) (lpi_l hS) z)).trans ?_)
  linarith

/-- **C37**, accuracy of `cli6`. -/
theorem C37_cli6_accuracy {u : ℝ} (hS : S.Lit u) (hu : u ≤ 1 / 1000) (z : ℂ) :
    ‖(C.cli6 (ofC S z)).toC - pLi 6 z‖ ≤ 8.4e-16 + 4 * u + if ‖z‖ ≤ 1 then 0 else (2.5e-16 + 20.2 * u) * expN 6 ‖Complex.log (-z)‖ := by
  have hu0 := hS.u_nonneg
  rw [C37_cli6 hS, sub_right_comm]
  refine (norm_sub_le _ _).trans ((add_le_add (C18_Li6d hS hu z) (port_corr 5 (by norm_num : (0:ℝ) ≤ 1 / 120) (lpi_li hS) z)).trans ?_)
  linarith

/-- **C37**, accuracy of `cli6l18`. -/
theorem C37_cli6l18_accuracy {u : ℝ} (hS : S.Lit u) (hu : u ≤ 1 / 1000) (z : ℂ) :
    ‖(C.cli6l18 (ofC S z)).toC - pLi 6 z‖ ≤ 2.1e-18 + 4 * u + if ‖z‖ ≤ 1 then 0 else (2.7e-35 + 20.2 * u) * expN 6 ‖Complex.log (-z)‖ := by
  have hu0 := hS.u_nonneg
  rw [C37_cli6l18 hS, sub_right_comm]
  refine (norm_sub_le _ _).trans ((add_le_add (C18_Li6l18 hS hu z) (port_corr 5 (by norm_num : (0:ℝ) ≤ 1 / 120) (lpi_l hS) z)).trans ?_)
  linarith

/-- **C37**, accuracy of `cli6l36`. -/
theorem C37_cli6l36_accuracy {u : ℝ} (hS : S.Lit u) (hu : u ≤ 1 / 1000) (z : ℂ) :
    ‖(C.cli6l36 (ofC S z)).toC - pLi 6 z‖ ≤ 4.9e-36 + 4 * u + if ‖z‖ ≤ 1 then 0 else (2.7e-35 + 20.2 * u) * expN 6 ‖Complex.log (-z)‖ := by
  have hu0 := hS.u_nonneg
  rw [C37_cli6l36 hS, sub_right_comm]
  refine (norm_sub_le _ _).trans ((add_le_add (C18_Li6l36 hS hu z) (port_corr 5 (by norm_num : (0:ℝ) ≤ 1 / 120) (lpi_l hS) z)).trans ?_)
  linarith

/-! ### the hypotheses are met -/

example := C37_li2_accuracy RealSem.dec_lit (by norm_num) (-3)
example := C37_li3_accuracy RealSem.dec_lit (by norm_num) (-3)
example := C37_cli3_accuracy RealSem.dec_lit (by norm_num) (3 + 4 * I)
example := C37_cli3l18_accuracy RealSem.dec_lit (by norm_num) (3 + 4 * I)
example := C37_cli3l36_accuracy RealSem.dec_lit (by norm_num) (3 + 4 * I)
example := C37_cli4_accuracy RealSem.dec_lit (by norm_num) (3 + 4 * I)
example := C37_cli4l18_accuracy RealSem.dec_lit (by norm_num) (3 + 4 * I)
example := C37_cli4l36_accuracy RealSem.dec_lit (by norm_num) (3 + 4 * I)
example := C37_cli5_accuracy RealSem.dec_lit (by norm_num) (3 + 4 * I)
example := C37_cli5l18_accuracy RealSem.dec_lit (by norm_num) (3 + 4 * I)
example := C37_cli5l36_accuracy RealSem.dec_lit (by norm_num) (3 + 4 * I)
example := C37_cli6_accuracy RealSem.dec_lit (by norm_num) (3 + 4 * I)
example := C37_cli6l18_accuracy RealSem.dec_lit (by norm_num) (3 + 4 * I)
example := C37_cli6l36_accuracy RealSem.dec_lit (by norm_num) (3 + 4 * I)

end Polylog
