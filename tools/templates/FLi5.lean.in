import Verif.Model.FLog

/-! # `src/fortran/Li5.f90` -/

namespace Polylog.Fortran

/-- `bf` (Li5.f90 26-36) -/
def cdli5Bf : Vector ℚ @@ARRN fortran/Li5.f90 26 36@@ :=
  @@ARR fortran/Li5.f90 26 36@@

/-- `cs` (Li5.f90 37-40) -/
def cdli5Cs : Vector ℚ @@ARRN fortran/Li5.f90 37 40@@ :=
  @@ARR fortran/Li5.f90 37 40@@

section
variable {F : Type} [FOps F]

/-- numeric literal -/
local notation:max "♯" q:max => (FOps.lit (q : ℚ) : F)

%src fortran/Li5.f90 14 108
%arr @bf cdli5Bf
%arr @cs cdli5Cs
/-- `double complex function cdli5(z)` (Li5.f90 14-108); the `u`, `rest` set in the branches are passed to `fin` -/
def cdli5 (z : Cx F) : Cx F :=
  let PI : F := ⟪3.1415926535897932D0⟫
  let PI2 : F := ⟪9.8696044010893586D0⟫
  let PI4 : F := ⟪97.409091034002437D0⟫
  let zeta5 : F := ⟪1.0369277551433699D0⟫
  let c1 : F := ⟪1.0823232337111382D0⟫
  let c2 : F := ⟪0.60102845157979714D0⟫
  let c3 : F := ⟪0.27415567780803774D0⟫
  let c5 : F := ⟪-1D0/240⟫
  let rz := z.re
  let iz := z.im
  if ⟪iz .eq. 0⟫ && ⟪rz .eq. 0⟫ then ⟨rz, iz⟩
  else if ⟪iz .eq. 0⟫ && ⟪rz .eq. 1⟫ then ⟨zeta5, iz⟩
  else if ⟪iz .eq. 0⟫ && ⟪rz .eq. -1⟫ then ⟨⟪-15*zeta5/16⟫, iz⟩
  else
    let nz := ⟪hypot(rz, iz)⟫
    let pz := ⟪datan2(iz, rz)⟫
    let lnz := ⟪log(nz)⟫
    if ⟪lnz**2 + pz**2 .lt. 1⟫ then
      let u : Cx F := ⟨lnz, pz⟩
      let u2 := ⟪u**2⟫
      let c4 := ⟪(25D0/12 - pos_cdlog(-u))/24⟫
      ⟪zeta5 + u * c1 +    &
         u2 * (c2 + u * c3 + &
         u2 * (c4 + u * c5 + &
         u2 * (cs(1) +       &
         u2 * (cs(2) +       &
         u2 * (cs(3) +       &
         u2 * (cs(4) +       &
         u2 * (cs(5) +       &
         u2 * (cs(6)))))))))⟫
    else
      let fin (u rest : Cx F) : Cx F :=
        let u2 := ⟪u**2⟫
        let u4 := ⟪u2**2⟫
        let u8 := ⟪u4**2⟫
        ⟪rest +                                                 &
      u*bf(1) +                                              &
      u2*(bf(2) + u*bf(3)) +                                 &
      u4*(bf(4) + u*bf(5) + u2*(bf(6) + u*bf(7))) +          &
      u8*(bf(8) + u*bf(9) + u2*(bf(10) + u*bf(11)) +         &
          u4*(bf(12) + u*bf(13) + u2*(bf(14) + u*bf(15)))) + &
      u8*u8*(bf(16) + u*bf(17) + u2*(bf(18) + u*bf(19)))⟫
      if ⟪nz .le. 1⟫ then fin (⟪-pos_cdlog(1 - z)⟫) (Cx.ofReal ♯0)
      else
        let arg := if ⟪pz .gt. 0⟫ then ⟪pz - PI⟫ else ⟪pz + PI⟫
        let lmz : Cx F := ⟨lnz, arg⟩
        fin (⟪-pos_cdlog(1 - 1/z)⟫) (⟪-lmz*(7*PI4 + lmz**2*(10*PI2 + 3*lmz**2))/360⟫)

end
end Polylog.Fortran
