import Verif.Props.CReal
import Verif.Props.PortCx
import Verif.Model.FCl

/-! # C37, C38: the Clausen functions of the C and Fortran ports, in exact arithmetic -/

noncomputable section
namespace Polylog

variable {S : RealSem}

theorem div2_eq {u : ℝ} (hS : S.Lit u) (a : R S) : a /. (FOps.lit 2 : R S) = (FOps.lit 0.5 : R S) *. a := by
  show ofR (a /. (FOps.lit 2 : R S)) = ofR ((FOps.lit 0.5 : R S) *. a)
  rw [ofR_div (by rw [ofR_lit, hS.two]; norm_num), ofR_mul, ofR_lit, ofR_lit, hS.two, hS.half]
  push_cast; ring

theorem div6_eq {u : ℝ} (hS : S.Lit u) (a : R S) : a /. (FOps.lit 6 : R S) = (FOps.lit 1 : R S) /. (FOps.lit 6 : R S) *. a := by
  show ofR (a /. (FOps.lit 6 : R S)) = ofR ((FOps.lit 1 : R S) /. (FOps.lit 6 : R S) *. a)
  have h6 : ofR (FOps.lit 6 : R S) = 6 := by rw [ofR_lit, hS.six]; norm_num
  rw [ofR_mul, ofR_div (by rw [h6]; norm_num), ofR_div (by rw [h6]; norm_num), h6, ofR_lit, hS.one]
  push_cast; ring

/-- **C37**, `cl3`: the value of the C++ function. -/
theorem C37_cl3 {u : ℝ} (hS : S.Lit u) (x : R S) : C.cl3 x = Cl3d x := by
  simp only [C.cl3, div2_eq hS (xlog _)]
  rfl

/-- **C37**, `cl3l`. -/
theorem C37_cl3l {u : ℝ} (hS : S.Lit u) (x : R S) : C.cl3l x = Cl3l x := by
  simp only [C.cl3l, div2_eq hS (xlog _)]
  rfl

/-- **C37**, `cl4`. -/
theorem C37_cl4 {u : ℝ} (hS : S.Lit u) (x : R S) : C.cl4 x = Cl4d x := by
  simp only [C.cl4, div6_eq hS (xlog _)]
  rfl

/-- **C37**, `cl4l`. -/
theorem C37_cl4l {u : ℝ} (hS : S.Lit u) (x : R S) : C.cl4l x = Cl4l x := by
  simp only [C.cl4l, div6_eq hS (xlog _)]
  rfl

end Polylog
