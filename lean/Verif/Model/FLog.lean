import Verif.Model.Ops

/-! # `src/fortran/log.f90`, integer powers, and functions that change their argument

Fortran passes arguments by reference.  `dli4`, `dcl2` ... `dcl6` assign to their dummy argument `x`, which has no `intent` attribute,
so the variable passed by the caller is changed.  These functions are modelled as functions from the value of the argument to the
result and the final value of the argument (`Ret`).  `x**2` and `x**3` are products. -/

namespace Polylog.Fortran

/-- result of a Fortran function that modifies its argument: the function value and the final value of the argument variable -/
structure Ret (F : Type) where
  value : F
  arg : F

section
variable {F : Type} [FOps F]

/-- numeric literal -/
local notation:max "♯" q:max => (FOps.lit (q : ℚ) : F)

/-- `x**2`, real or complex -/
def ipow2 {α : Type} [XMul α α α] (x : α) : α := x *. x
/-- `x**3`, real or complex -/
def ipow3 {α : Type} [XMul α α α] (x : α) : α := x *. x *. x

/-- `double complex function cdlog1p(z)` (log.f90 13-31) -/
def cdlog1p (z : Cx F) : Cx F :=
  let u : Cx F := ♯1 +. z
  let re := u.re
  let im := u.im
  if re ==. ♯1 && im ==. ♯0 then z
  else if re <=. ♯0 then (xlog u)
  else (xlog u) *. (z /. (u -. ♯1))

/-- `double complex function pos_cdlog(z)` (log.f90 41-56) -/
def pos_cdlog (z : Cx F) : Cx F :=
  let re := z.re
  let im := z.im
  if im ==. ♯0 && re >. ♯0 then ⟨(xlog re), ♯0⟩
  else if im ==. ♯0 then ⟨(xlog (∸re)), ♯3.14159265358979324⟩
  else (xlog z)

end
end Polylog.Fortran
