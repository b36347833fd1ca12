import Verif.Model.FLog

/-! # `src/fortran/Li6.f90` -/

namespace Polylog.Fortran

/-- `bf` (Li6.f90 28-37) -/
def cdli6Bf : Vector ℚ @@ARRN fortran/Li6.f90 28 37@@ :=
  @@ARR fortran/Li6.f90 28 37@@

/-- `cs` (Li6.f90 38-41) -/
def cdli6Cs : Vector ℚ @@ARRN fortran/Li6.f90 38 41@@ :=
  @@ARR fortran/Li6.f90 38 41@@

section
variable {F : Type} [FOps F]

/-- numeric literal -/
local notation:max "♯" q:max => (FOps.lit (q : ℚ) : F)

%src fortran/Li6.f90 14 111
%arr @bf cdli6Bf
%arr @cs cdli6Cs
/-- `double complex function cdli6(z)` (Li6.f90 14-111); the `u`, `r`, `sgn` set in the branches are passed to `fin` -/
def cdli6 (z : Cx F) : Cx F :=
  let PI : F := ⟪3.1415926535897932D0⟫
  let PI2 : F := ⟪9.8696044010893586D0⟫
  let PI4 : F := ⟪97.409091034002437D0⟫
  let PI6 : F := ⟪961.38919357530444D0⟫
  let zeta6 : F := ⟪1.0173430619844491D0⟫
  let c1 : F := ⟪1.0369277551433699D0⟫
  let c2 : F := ⟪0.54116161685556910D0⟫
  let c3 : F := ⟪0.20034281719326571D0⟫
  let c4 : F := ⟪0.068538919452009435D0⟫
  let c6 : F := ⟪-1D0/1440⟫
  let rz := z.re
  let iz := z.im
  if ⟪iz .eq. 0⟫ && ⟪rz .eq. 0⟫ then ⟨rz, iz⟩
  else if ⟪iz .eq. 0⟫ && ⟪rz .eq. 1⟫ then ⟨zeta6, iz⟩
  else if ⟪iz .eq. 0⟫ && ⟪rz .eq. -1⟫ then ⟨⟪-31*zeta6/32⟫, iz⟩
  else
    let nz := ⟪hypot(rz, iz)⟫
    let pz := ⟪datan2(iz, rz)⟫
    let lnz := ⟪log(nz)⟫
    if ⟪lnz**2 + pz**2 .lt. 1⟫ then
      let u : Cx F := ⟨lnz, pz⟩
      let u2 := ⟪u**2⟫
      let c5 := ⟪(137D0/60 - pos_cdlog(-u))/120⟫
      ⟪zeta6 + u * c1 + &
         u2 * (c2 + u * c3 +   &
         u2 * (c4 + u * c5 +   &
         u2 * (c6 +            &
         u * (cs(1) +          &
         u2 * (cs(2) +         &
         u2 * (cs(3) +         &
         u2 * (cs(4) +         &
         u2 * (cs(5)))))))))⟫
    else
      let fin (u r : Cx F) (sgn : F) : Cx F :=
        let u2 := ⟪u**2⟫
        let u4 := ⟪u2**2⟫
        let u8 := ⟪u4**2⟫
        ⟪r + sgn * (                                               &
      u*bf(1) +                                              &
      u2*(bf(2) + u*bf(3)) +                                 &
      u4*(bf(4) + u*bf(5) + u2*(bf(6) + u*bf(7))) +          &
      u8*(bf(8) + u*bf(9) + u2*(bf(10) + u*bf(11)) +         &
          u4*(bf(12) + u*bf(13) + u2*(bf(14) + u*bf(15)))) + &
      u8*u8*(bf(16) + u*bf(17) + u2*bf(18)) &
 )⟫
      if ⟪nz .le. 1⟫ then fin (⟪-pos_cdlog(1 - z)⟫) (Cx.ofReal ♯0) ♯1
      else
        let arg := if ⟪pz .gt. 0⟫ then ⟪pz - PI⟫ else ⟪pz + PI⟫
        let lmz : Cx F := ⟨lnz, arg⟩
        fin (⟪-pos_cdlog(1 - 1/z)⟫) (⟪-31*PI6/15120 + lmz**2*(-7*PI4/720 + lmz**2*(-PI2/144 - lmz**2/720))⟫) ∸♯1

end
end Polylog.Fortran
