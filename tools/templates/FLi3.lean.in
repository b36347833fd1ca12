import Verif.Model.FLog

/-! # `src/fortran/Li3.f90` -/

namespace Polylog.Fortran

/-- `cp of dli3_neg` (Li3.f90 12-15) -/
def dli3negP : Vector ℚ @@ARRN fortran/Li3.f90 12 15@@ :=
  @@ARR fortran/Li3.f90 12 15@@

/-- `cq of dli3_neg` (Li3.f90 16-20) -/
def dli3negQ : Vector ℚ @@ARRN fortran/Li3.f90 16 20@@ :=
  @@ARR fortran/Li3.f90 16 20@@

/-- `cp of dli3_pos` (Li3.f90 38-41) -/
def dli3posP : Vector ℚ @@ARRN fortran/Li3.f90 38 41@@ :=
  @@ARR fortran/Li3.f90 38 41@@

/-- `cq of dli3_pos` (Li3.f90 42-46) -/
def dli3posQ : Vector ℚ @@ARRN fortran/Li3.f90 42 46@@ :=
  @@ARR fortran/Li3.f90 42 46@@

/-- `bf` (Li3.f90 117-126) -/
def cdli3Bf : Vector ℚ @@ARRN fortran/Li3.f90 117 126@@ :=
  @@ARR fortran/Li3.f90 117 126@@

/-- `cs` (Li3.f90 127-131) -/
def cdli3Cs : Vector ℚ @@ARRN fortran/Li3.f90 127 131@@ :=
  @@ARR fortran/Li3.f90 127 131@@

section
variable {F : Type} [FOps F]

/-- numeric literal -/
local notation:max "♯" q:max => (FOps.lit (q : ℚ) : F)

%src fortran/Li3.f90 9 31
%arr @cp dli3negP
%arr @cq dli3negQ
/-- `dli3_neg`: Li_3(x) for x in [-1,0] (Li3.f90 9-31) -/
def dli3_neg (x : F) : F :=
  let x2 := ⟪x*x⟫
  let x4 := ⟪x2*x2⟫
  let p := ⟪cp(1) + x*cp(2) + x2*(cp(3) + x*cp(4)) +             &
      x4*(cp(5) + x*cp(6))⟫
  let q := ⟪cq(1) + x*cq(2) + x2*(cq(3) + x*cq(4)) +             &
      x4*(cq(5) + x*cq(6) + x2*cq(7))⟫
  ⟪x*p/q⟫

%src fortran/Li3.f90 35 57
%arr @cp dli3posP
%arr @cq dli3posQ
/-- `dli3_pos`: Li_3(x) for x in [0,1/2] (Li3.f90 35-57) -/
def dli3_pos (x : F) : F :=
  let x2 := ⟪x*x⟫
  let x4 := ⟪x2*x2⟫
  let p := ⟪cp(1) + x*cp(2) + x2*(cp(3) + x*cp(4)) +             &
      x4*(cp(5) + x*cp(6))⟫
  let q := ⟪cq(1) + x*cq(2) + x2*(cq(3) + x*cq(4)) +             &
      x4*(cq(5) + x*cq(6) + x2*cq(7))⟫
  ⟪x*p/q⟫

%src fortran/Li3.f90 66 101
/-- `double precision function dli3(x)` (Li3.f90 66-101) -/
def dli3 (x : F) : F :=
  let zeta2 : F := ⟪1.6449340668482264D0⟫
  let zeta3 : F := ⟪1.2020569031595943D0⟫
  if ⟪x .lt. -1⟫ then
    let l := ⟪log(-x)⟫
    ⟪dli3_neg(1/x) - l*(zeta2 + 1.0D0/6*l**2)⟫
  else if ⟪x .eq. -1⟫ then ⟪-0.75D0*zeta3⟫
  else if ⟪x .lt. 0⟫ then ⟪dli3_neg(x)⟫
  else if ⟪x .eq. 0⟫ then x
  else if ⟪x .lt. 0.5D0⟫ then ⟪dli3_pos(x)⟫
  else if ⟪x .eq. 0.5D0⟫ then ⟪0.53721319360804020D0⟫
  else if ⟪x .lt. 1⟫ then
    let l := ⟪log(x)⟫
    ⟪-dli3_neg(1 - 1/x) - dli3_pos(1 - x) + &
          zeta3 + l*(zeta2 + l*(-0.5D0*log(1 - x) + 1.0D0/6*l))⟫
  else if ⟪x .eq. 1⟫ then zeta3
  else if ⟪x .lt. 2⟫ then
    let l := ⟪log(x)⟫
    ⟪-dli3_neg(1 - x) - dli3_pos(1 - 1/x) + &
          zeta3 + l*(zeta2 + l*(-0.5D0*log(x - 1) + 1.0D0/6*l))⟫
  else
    let l := ⟪log(x)⟫
    ⟪dli3_pos(1/x) + l*(2*zeta2 - 1.0D0/6*l**2)⟫

%src fortran/Li3.f90 110 194
%arr @bf cdli3Bf
%arr @cs cdli3Cs
%arr dli3 dli3
/-- `double complex function cdli3(z)` (Li3.f90 110-194); the `u`, `rest` set in the branches are passed to `fin` -/
def cdli3 (z : Cx F) : Cx F :=
  let PI : F := ⟪3.1415926535897932D0⟫
  let zeta2 : F := ⟪1.6449340668482264D0⟫
  let zeta3 : F := ⟪1.2020569031595943D0⟫
  let rz := z.re
  let iz := z.im
  if ⟪iz .eq. 0⟫ then
    if ⟪rz .le. 1⟫ then ⟨⟪dli3(rz)⟫, iz⟩
    else
      let lnz := ⟪log(rz)⟫
      ⟨⟪dli3(rz)⟫, ⟪-0.5D0*PI*lnz**2⟫⟩
  else
    let nz := ⟪hypot(rz, iz)⟫
    let pz := ⟪datan2(iz, rz)⟫
    let lnz := ⟪log(nz)⟫
    if ⟪lnz**2 + pz**2 .lt. 1⟫ then
      let u : Cx F := ⟨lnz, pz⟩
      let u2 := ⟪u**2⟫
      let u4 := ⟪u2**2⟫
      let u8 := ⟪u4**2⟫
      let c0 := ⟪zeta3 + u*(zeta2 - u2/12)⟫
      let c1 := ⟪0.25D0*(3 - 2*pos_cdlog(-u))⟫
      ⟪c0 +                                            &
         c1*u2 +                                         &
         u4*(cs(1) + u2*cs(2)) +                         &
         u8*(cs(3) + u2*cs(4) + u4*(cs(5) + u2*cs(6))) + &
         u8*u8*cs(7)⟫
    else
      let fin (u rest : Cx F) : Cx F :=
        let u2 := ⟪u**2⟫
        let u4 := ⟪u2**2⟫
        let u8 := ⟪u4**2⟫
        ⟪rest +                                                 &
      u*bf(1) +                                              &
      u2*(bf(2) + u*bf(3)) +                                 &
      u4*(bf(4) + u*bf(5) + u2*(bf(6) + u*bf(7))) +          &
      u8*(bf(8) + u*bf(9) + u2*(bf(10) + u*bf(11)) +         &
          u4*(bf(12) + u*bf(13) + u2*(bf(14) + u*bf(15)))) + &
      u8*u8*(bf(16) + u*bf(17) + u2*bf(18))⟫
      if ⟪nz .le. 1⟫ then fin (⟪-pos_cdlog(1 - z)⟫) (Cx.ofReal ♯0)
      else
        let arg := if ⟪pz .gt. 0⟫ then ⟪pz - PI⟫ else ⟪pz + PI⟫
        let lmz : Cx F := ⟨lnz, arg⟩
        fin (⟪-pos_cdlog(1 - 1/z)⟫) (⟪-lmz*(lmz**2/6 + zeta2)⟫)

end
end Polylog.Fortran
