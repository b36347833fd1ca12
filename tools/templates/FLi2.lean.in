import Verif.Model.FLog

/-! # `src/fortran/Li2.f90` -/

namespace Polylog.Fortran

/-- `cp` (Li2.f90 23-29) -/
def dli2P : Vector ℚ @@ARRN fortran/Li2.f90 23 29@@ :=
  @@ARR fortran/Li2.f90 23 29@@

/-- `cq` (Li2.f90 30-37) -/
def dli2Q : Vector ℚ @@ARRN fortran/Li2.f90 30 37@@ :=
  @@ARR fortran/Li2.f90 30 37@@

/-- `bf` (Li2.f90 101-111) -/
def cdli2Bf : Vector ℚ @@ARRN fortran/Li2.f90 101 111@@ :=
  @@ARR fortran/Li2.f90 101 111@@

section
variable {F : Type} [FOps F]

/-- numeric literal -/
local notation:max "♯" q:max => (FOps.lit (q : ℚ) : F)

%src fortran/Li2.f90 77 84
%arr @cp dli2P
%arr @cq dli2Q
/-- final part of `dli2`: rational function of `y`, result `r + s*y*p/q` (Li2.f90 77-84) -/
def dli2Fin (y r s : F) : F :=
  let y2 := ⟪y*y⟫
  let y4 := ⟪y2*y2⟫
  let p := ⟪cp(1) + y * cp(2) + y2 * (cp(3) + y * cp(4)) +      &
      y4 * (cp(5) + y * cp(6))⟫
  let q := ⟪cq(1) + y * cq(2) + y2 * (cq(3) + y * cq(4)) +      &
      y4 * (cq(5) + y * cq(6) + y2 * cq(7))⟫
  ⟪r + s*y*p/q⟫

%src fortran/Li2.f90 19 86
/-- `double precision function dli2(x)` (Li2.f90 19-86); `dli2Fin` is the final rational approximation -/
def dli2 (x : F) : F :=
  let PI : F := ⟪3.14159265358979324D0⟫
  if ⟪x .lt. -1⟫ then
    let l := ⟪log(1 - x)⟫
    dli2Fin (⟪1/(1 - x)⟫) (⟪-PI**2/6 + l*(0.5D0*l - log(-x))⟫) ♯1
  else if ⟪x .eq. -1⟫ then ⟪-PI**2/12⟫
  else if ⟪x .lt. 0⟫ then
    dli2Fin (⟪x/(x - 1)⟫) (⟪-0.5D0*log(1 - x)**2⟫) ∸♯1
  else if ⟪x .eq. 0⟫ then x
  else if ⟪x .lt. 0.5D0⟫ then dli2Fin x ♯0 ♯1
  else if ⟪x .lt. 1⟫ then
    let y := ⟪1 - x⟫
    dli2Fin y (⟪PI**2/6 - log(x)*log(y)⟫) ∸♯1
  else if ⟪x .eq. 1⟫ then ⟪PI**2/6⟫
  else if ⟪x .lt. 2⟫ then
    let l := ⟪log(x)⟫
    let y := ⟪1 - 1/x⟫
    dli2Fin y (⟪PI**2/6 - l*(log(y) + 0.5D0*l)⟫) ♯1
  else
    dli2Fin (⟪1/x⟫) (⟪PI**2/3 - 0.5D0*log(x)**2⟫) ∸♯1

%src fortran/Li2.f90 96 168
%arr @bf cdli2Bf
%arr dli2 dli2
%arr PI PI
/-- `double complex function cdli2(z)` (Li2.f90 96-168).
The `u`, `rest`, `sgn` set in the branches are passed to `fin`, the final assignment to the result.
`junk` is the content of the result variable before any assignment: the two `if` statements in the special case `iz .eq. 0`
(Li2.f90 118-119) do not cover a NaN `rz`. -/
def cdli2 (junk z : Cx F) : Cx F :=
  let PI : F := ⟪3.14159265358979324D0⟫
  let rz := z.re
  let iz := z.im
  if ⟪iz .eq. 0⟫ then
    if ⟪rz .le. 1⟫ then ⟨⟪dli2(rz)⟫, iz⟩
    else if ⟪rz .gt. 1⟫ then ⟨⟪dli2(rz)⟫, ⟪-PI*log(rz)⟫⟩
    else junk
  else
    let nz := ⟪rz**2 + iz**2⟫
    if nz <. FOps.eps then ⟪z*(1 + 0.25D0*z)⟫
    else
      let fin (u rest : Cx F) (sgn : F) : Cx F :=
        let u2 := ⟪u**2⟫
        let u4 := ⟪u2**2⟫
        let sum := ⟪u +                                                   &
     u2 * (bf(1) +                                         &
     u  * (bf(2) +                                         &
     u2 * (                                                &
         bf(3) +                                           &
         u2*bf(4) +                                        &
         u4*(bf(5) + u2*bf(6)) +                           &
         u4*u4*(bf(7) + u2*bf(8) + u4*(bf(9) + u2*bf(10))) &
     )))⟫
        ⟪sgn*sum + rest⟫
      if ⟪rz .le. 0.5D0⟫ then
        if ⟪nz .gt. 1⟫ then
          fin (⟪-cdlog1p(-1/z)⟫) (⟪-0.5D0*log(-z)**2 - PI**2/6⟫) ∸♯1
        else
          fin (⟪-cdlog1p(-z)⟫) (Cx.ofReal ♯0) ♯1
      else
        if ⟪nz .le. 2*rz⟫ then
          let u := ⟪-log(z)⟫
          fin u (⟪u*cdlog1p(-z) + PI**2/6⟫) ∸♯1
        else
          fin (⟪-cdlog1p(-1/z)⟫) (⟪-0.5D0*log(-z)**2 - PI**2/6⟫) ∸♯1

end
end Polylog.Fortran
