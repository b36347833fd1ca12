import Verif.Model.FLog

/-! # `src/fortran/Li5.f90` -/

namespace Polylog.Fortran

/-- `bf` (Li5.f90 26-36) -/
def cdli5Bf : Vector ℚ 19 :=
  #v[
    1, -15 / 32, 1.3953189300411523e-1, -2.8633777006172840e-2, 4.0317412551440329e-3,
    -3.3985018004115226e-4, 4.5445184621617666e-6, 2.3916808048569012e-6, -1.2762692600122747e-7,
    -3.1628984306505932e-8, 3.2848118445335192e-9, 4.7613713995660579e-10, -8.0846898171909830e-11,
    -7.2387648587737207e-12, 1.9439760115173968e-12, 1.0256978405977236e-13,
    -4.6180551009884830e-14, -1.1535857196470580e-15, 1.0903545401333394e-15]

/-- `cs` (Li5.f90 37-40) -/
def cdli5Cs : Vector ℚ 6 :=
  #v[
    -1.1574074074074074e-4, 2.0667989417989418e-7, -1.0935444136502338e-9, 8.6986487449450412e-12,
    -8.6899587861588824e-14, 1.0081254080218813e-15]

section
variable {F : Type} [FOps F]

/-- numeric literal -/
local notation:max "♯" q:max => (FOps.lit (q : ℚ) : F)

/-- `double complex function cdli5(z)` (Li5.f90 14-108); the `u`, `rest` set in the branches are passed to `fin` -/
def cdli5 (z : Cx F) : Cx F :=
  let PI : F := ♯3.1415926535897932
  let PI2 : F := ♯9.8696044010893586
  let PI4 : F := ♯97.409091034002437
  let zeta5 : F := ♯1.0369277551433699
  let c1 : F := ♯1.0823232337111382
  let c2 : F := ♯0.60102845157979714
  let c3 : F := ♯0.27415567780803774
  let c5 : F := ∸(♯1 /. ♯240)
  let rz := z.re
  let iz := z.im
  if iz ==. ♯0 && rz ==. ♯0 then ⟨rz, iz⟩
  else if iz ==. ♯0 && rz ==. ♯1 then ⟨zeta5, iz⟩
  else if iz ==. ♯0 && rz ==. ∸♯1 then ⟨∸(♯15 *. zeta5 /. ♯16), iz⟩
  else
    let nz := (FOps.hypot rz iz)
    let pz := (FOps.atan2 iz rz)
    let lnz := (xlog nz)
    if (ipow2 lnz) +. (ipow2 pz) <. ♯1 then
      let u : Cx F := ⟨lnz, pz⟩
      let u2 := (ipow2 u)
      let c4 := (♯25 /. ♯12 -. (pos_cdlog (∸u))) /. ♯24
      zeta5 +. u *. c1 +. u2 *. (c2 +. u *. c3 +. u2 *. (c4 +. u *. c5 +. u2 *. (♯(cdli5Cs[0]) +. u2 *. (♯(cdli5Cs[1]) +. u2 *. (♯(cdli5Cs[2]) +. u2 *. (♯(cdli5Cs[3]) +. u2 *. (♯(cdli5Cs[4]) +. u2 *. (♯(cdli5Cs[5])))))))))
    else
      let fin (u rest : Cx F) : Cx F :=
        let u2 := (ipow2 u)
        let u4 := (ipow2 u2)
        let u8 := (ipow2 u4)
        rest +. u *. ♯(cdli5Bf[0]) +. u2 *. (♯(cdli5Bf[1]) +. u *. ♯(cdli5Bf[2])) +. u4 *. (♯(cdli5Bf[3]) +. u *. ♯(cdli5Bf[4]) +. u2 *. (♯(cdli5Bf[5]) +. u *. ♯(cdli5Bf[6]))) +. u8 *. (♯(cdli5Bf[7]) +. u *. ♯(cdli5Bf[8]) +. u2 *. (♯(cdli5Bf[9]) +. u *. ♯(cdli5Bf[10])) +. u4 *. (♯(cdli5Bf[11]) +. u *. ♯(cdli5Bf[12]) +. u2 *. (♯(cdli5Bf[13]) +. u *. ♯(cdli5Bf[14])))) +. u8 *. u8 *. (♯(cdli5Bf[15]) +. u *. ♯(cdli5Bf[16]) +. u2 *. (♯(cdli5Bf[17]) +. u *. ♯(cdli5Bf[18])))
      if nz <=. ♯1 then fin (∸((pos_cdlog (♯1 -. z)))) (Cx.ofReal ♯0)
      else
        let arg := if pz >. ♯0 then pz -. PI else pz +. PI
        let lmz : Cx F := ⟨lnz, arg⟩
        fin (∸((pos_cdlog (♯1 -. ♯1 /. z)))) (∸(lmz *. (♯7 *. PI4 +. (ipow2 lmz) *. (♯10 *. PI2 +. ♯3 *. (ipow2 lmz))) /. ♯360))

end
end Polylog.Fortran
