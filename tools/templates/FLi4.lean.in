import Verif.Model.FLog

/-! # `src/fortran/Li4.f90` -/

namespace Polylog.Fortran

/-- `cp of dli4_neg` (Li4.f90 12-15) -/
def dli4negP : Vector ℚ @@ARRN fortran/Li4.f90 12 15@@ :=
  @@ARR fortran/Li4.f90 12 15@@

/-- `cq of dli4_neg` (Li4.f90 16-20) -/
def dli4negQ : Vector ℚ @@ARRN fortran/Li4.f90 16 20@@ :=
  @@ARR fortran/Li4.f90 16 20@@

/-- `cp of dli4_half` (Li4.f90 38-41) -/
def dli4halfP : Vector ℚ @@ARRN fortran/Li4.f90 38 41@@ :=
  @@ARR fortran/Li4.f90 38 41@@

/-- `cq of dli4_half` (Li4.f90 42-45) -/
def dli4halfQ : Vector ℚ @@ARRN fortran/Li4.f90 42 45@@ :=
  @@ARR fortran/Li4.f90 42 45@@

/-- `cp of dli4_mid` (Li4.f90 63-67) -/
def dli4midP : Vector ℚ @@ARRN fortran/Li4.f90 63 67@@ :=
  @@ARR fortran/Li4.f90 63 67@@

/-- `cq of dli4_mid` (Li4.f90 68-72) -/
def dli4midQ : Vector ℚ @@ARRN fortran/Li4.f90 68 72@@ :=
  @@ARR fortran/Li4.f90 68 72@@

/-- `bf` (Li4.f90 176-185) -/
def cdli4Bf : Vector ℚ @@ARRN fortran/Li4.f90 176 185@@ :=
  @@ARR fortran/Li4.f90 176 185@@

/-- `cs` (Li4.f90 186-190) -/
def cdli4Cs : Vector ℚ @@ARRN fortran/Li4.f90 186 190@@ :=
  @@ARR fortran/Li4.f90 186 190@@

section
variable {F : Type} [FOps F]

/-- numeric literal -/
local notation:max "♯" q:max => (FOps.lit (q : ℚ) : F)

%src fortran/Li4.f90 9 31
%arr @cp dli4negP
%arr @cq dli4negQ
/-- `dli4_neg`: Li_4(x) for x in [-1,0] (Li4.f90 9-31) -/
def dli4_neg (x : F) : F :=
  let x2 := ⟪x*x⟫
  let x4 := ⟪x2*x2⟫
  let p := ⟪cp(1) + x*cp(2) + x2*(cp(3) + x*cp(4)) +             &
      x4*(cp(5) + x*cp(6))⟫
  let q := ⟪cq(1) + x*cq(2) + x2*(cq(3) + x*cq(4)) +             &
      x4*(cq(5) + x*cq(6) + x2*cq(7))⟫
  ⟪x*p/q⟫

%src fortran/Li4.f90 35 56
%arr @cp dli4halfP
%arr @cq dli4halfQ
/-- `dli4_half`: Li_4(x) for x in [0,1/2] (Li4.f90 35-56) -/
def dli4_half (x : F) : F :=
  let x2 := ⟪x*x⟫
  let x4 := ⟪x2*x2⟫
  let p := ⟪cp(1) + x*cp(2) + x2*(cp(3) + x*cp(4)) +             &
      x4*(cp(5) + x*cp(6))⟫
  let q := ⟪cq(1) + x*cq(2) + x2*(cq(3) + x*cq(4)) +             &
      x4*(cq(5) + x*cq(6))⟫
  ⟪x*p/q⟫

%src fortran/Li4.f90 60 83
%arr @cp dli4midP
%arr @cq dli4midQ
/-- `dli4_mid`: Li_4(x) for x in [1/2,8/10] (Li4.f90 60-83) -/
def dli4_mid (x : F) : F :=
  let x2 := ⟪x*x⟫
  let x4 := ⟪x2*x2⟫
  let p := ⟪cp(1) + x*cp(2) + x2*(cp(3) + x*cp(4)) +             &
      x4*(cp(5) + x*cp(6) + x2*cp(7))⟫
  let q := ⟪cq(1) + x*cq(2) + x2*(cq(3) + x*cq(4)) +             &
      x4*(cq(5) + x*cq(6) + x2*cq(7))⟫
  ⟪p/q⟫

%src fortran/Li4.f90 87 101
/-- `dli4_one`: Li_4(x) for x in [8/10,1] (Li4.f90 87-101) -/
def dli4_one (x : F) : F :=
  let zeta2 : F := ⟪1.6449340668482264D0⟫
  let zeta3 : F := ⟪1.2020569031595943D0⟫
  let zeta4 : F := ⟪1.0823232337111382D0⟫
  let l := ⟪log(x)⟫
  let l2 := ⟪l**2⟫
  ⟪zeta4 + l*(zeta3 + l*(0.5D0*zeta2 + l*(11.0D0/36 &
     - 1.0D0/6*log(-l) + l*(-1.0D0/48 + l*(-1.0D0/1440        &
     + l2*(1.0D0/604800 - 1.0D0/91445760*l2))))))⟫

%src fortran/Li4.f90 144 154
%arr dli4_neg dli4_neg
%arr dli4_half dli4_half
%arr dli4_mid dli4_mid
%arr dli4_one dli4_one
/-- second part of `dli4`: choice of the approximation and final sum (Li4.f90 144-154) -/
def dli4Fin (x rest sgn : F) : F :=
  let app := if ⟪x .lt. 0⟫ then ⟪dli4_neg(x)⟫
    else if ⟪x .lt. 0.5D0⟫ then ⟪dli4_half(x)⟫
    else if ⟪x .lt. 0.8D0⟫ then ⟪dli4_mid(x)⟫
    else ⟪dli4_one(x)⟫
  ⟪rest + sgn*app⟫

%src fortran/Li4.f90 110 156
/-- `double precision function dli4(x)` (Li4.f90 110-156), which assigns to `x` (lines 121, 138) -/
def dli4 (x : F) : Ret F :=
  let zeta2 : F := ⟪1.6449340668482264D0⟫
  let zeta4 : F := ⟪1.0823232337111382D0⟫
  if ⟪x .lt. -1⟫ then
    let l := ⟪log(-x)⟫
    let l2 := ⟪l**2⟫
    let x := ⟪1/x⟫
    ⟨dli4Fin x (⟪-7.0D0/4*zeta4 + l2*(-0.5D0*zeta2 - 1.0D0/24*l2)⟫) ∸♯1, x⟩
  else if ⟪x .eq. -1⟫ then ⟨⟪-7.0D0/8*zeta4⟫, x⟩
  else if ⟪x .eq. 0⟫ then ⟨x, x⟩
  else if ⟪x .lt. 1⟫ then ⟨dli4Fin x ♯0 ♯1, x⟩
  else if ⟪x .eq. 1⟫ then ⟨zeta4, x⟩
  else
    let l := ⟪log(x)⟫
    let l2 := ⟪l**2⟫
    let x := ⟪1/x⟫
    ⟨dli4Fin x (⟪2*zeta4 + l2*(zeta2 - 1.0D0/24*l2)⟫) ∸♯1, x⟩

%src fortran/Li4.f90 165 257
%arr @bf cdli4Bf
%arr @cs cdli4Cs
/-- `double complex function cdli4(z)` (Li4.f90 165-257); the `u`, `r`, `sgn` set in the branches are passed to `fin` -/
def cdli4 (z : Cx F) : Cx F :=
  let PI : F := ⟪3.1415926535897932D0⟫
  let PI2 : F := ⟪9.8696044010893586D0⟫
  let PI4 : F := ⟪97.409091034002437D0⟫
  let zeta4 : F := ⟪1.0823232337111382D0⟫
  let c1 : F := ⟪1.2020569031595943D0⟫
  let c2 : F := ⟪0.82246703342411322D0⟫
  let c4 : F := ⟪-1D0/48D0⟫
  let rz := z.re
  let iz := z.im
  if ⟪iz .eq. 0⟫ then
    if ⟪rz .le. 1⟫ then ⟨(dli4 rz).value, iz⟩
    else
      let lnz := ⟪log(rz)⟫
      ⟨(dli4 rz).value, ⟪-1D0/6D0*PI*lnz**3⟫⟩
  else
    let nz := ⟪hypot(rz, iz)⟫
    let pz := ⟪datan2(iz, rz)⟫
    let lnz := ⟪log(nz)⟫
    if ⟪lnz**2 + pz**2 .lt. 1⟫ then
      let u : Cx F := ⟨lnz, pz⟩
      let u2 := ⟪u**2⟫
      let u4 := ⟪u2**2⟫
      let u8 := ⟪u4**2⟫
      let c3 := ⟪(11D0/6 - pos_cdlog(-u))/6⟫
      ⟪zeta4 + u2 * (c2 + u2 * c4) +                   &
          u * (                                               &
              c1 +                                            &
              c3*u2 +                                         &
              u4*(cs(1) + u2*cs(2)) +                         &
              u8*(cs(3) + u2*cs(4) + u4*(cs(5) + u2*cs(6))) + &
              u8*u8*cs(7)                                     &
          )⟫
    else
      let fin (u r : Cx F) (sgn : F) : Cx F :=
        let u2 := ⟪u**2⟫
        let u4 := ⟪u2**2⟫
        let u8 := ⟪u4**2⟫
        ⟪r + sgn * (                                               &
      u*bf(1) +                                              &
      u2*(bf(2) + u*bf(3)) +                                 &
      u4*(bf(4) + u*bf(5) + u2*(bf(6) + u*bf(7))) +          &
      u8*(bf(8) + u*bf(9) + u2*(bf(10) + u*bf(11)) +         &
          u4*(bf(12) + u*bf(13) + u2*(bf(14) + u*bf(15)))) + &
      u8*u8*(bf(16) + u*bf(17) + u2*bf(18)) &
 )⟫
      if ⟪nz .le. 1⟫ then fin (⟪-pos_cdlog(1 - z)⟫) (Cx.ofReal ♯0) ♯1
      else
        let arg := if ⟪pz .gt. 0⟫ then ⟪pz - PI⟫ else ⟪pz + PI⟫
        let lmz : Cx F := ⟨lnz, arg⟩
        fin (⟪-pos_cdlog(1 - 1/z)⟫) (⟪(-7*PI4 + lmz**2*(-30*PI2 - 15*lmz**2))/360⟫) ∸♯1

end
end Polylog.Fortran
