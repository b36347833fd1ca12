import Verif.Model.FLog

/-! # `src/fortran/Li6.f90` -/

namespace Polylog.Fortran

/-- `bf` (Li6.f90 28-37) -/
def cdli6Bf : Vector ℚ 18 :=
  #v[
    1, -31 / 64, 1.5241340877914952e-1, -3.4365555877057613e-2, 5.7174797239368999e-3,
    -6.8180453746570645e-4, 4.9960361948734493e-5, -4.9166051196039048e-7, -3.0632975161302164e-7,
    1.4414599270849095e-8, 3.7272438230924107e-9, -3.7300867345487607e-10, -5.1246526816085832e-11,
    9.0541930956636683e-12, 6.7381882615512517e-13, -2.1215831150303135e-13,
    -6.8408811719011698e-15, 4.8691178462005581e-15]

/-- `cs` (Li6.f90 38-41) -/
def cdli6Cs : Vector ℚ 5 :=
  #v[
    -1.6534391534391534e-5, 2.2964432686654909e-8, -9.9413128513657614e-11, 6.6912682653423394e-13,
    -5.7933058574392549e-15]

section
variable {F : Type} [FOps F]

/-- numeric literal -/
local notation:max "♯" q:max => (FOps.lit (q : ℚ) : F)

/-- `double complex function cdli6(z)` (Li6.f90 14-111); the `u`, `r`, `sgn` set in the branches are passed to `fin` -/
def cdli6 (z : Cx F) : Cx F :=
  let PI : F := ♯3.1415926535897932
  let PI2 : F := ♯9.8696044010893586
  let PI4 : F := ♯97.409091034002437
  let PI6 : F := ♯961.38919357530444
  let zeta6 : F := ♯1.0173430619844491
  let c1 : F := ♯1.0369277551433699
  let c2 : F := ♯0.54116161685556910
  let c3 : F := ♯0.20034281719326571
  let c4 : F := ♯0.068538919452009435
  let c6 : F := ∸(♯1 /. ♯1440)
  let rz := z.re
  let iz := z.im
  if iz ==. ♯0 && rz ==. ♯0 then ⟨rz, iz⟩
  else if iz ==. ♯0 && rz ==. ♯1 then ⟨zeta6, iz⟩
  else if iz ==. ♯0 && rz ==. ∸♯1 then ⟨∸(♯31 *. zeta6 /. ♯32), iz⟩
  else
    let nz := (FOps.hypot rz iz)
    let pz := (FOps.atan2 iz rz)
    let lnz := (xlog nz)
    if (ipow2 lnz) +. (ipow2 pz) <. ♯1 then
      let u : Cx F := ⟨lnz, pz⟩
      let u2 := (ipow2 u)
      let c5 := (♯137 /. ♯60 -. (pos_cdlog (∸u))) /. ♯120
      zeta6 +. u *. c1 +. u2 *. (c2 +. u *. c3 +. u2 *. (c4 +. u *. c5 +. u2 *. (c6 +. u *. (♯(cdli6Cs[0]) +. u2 *. (♯(cdli6Cs[1]) +. u2 *. (♯(cdli6Cs[2]) +. u2 *. (♯(cdli6Cs[3]) +. u2 *. (♯(cdli6Cs[4])))))))))
    else
      let fin (u r : Cx F) (sgn : F) : Cx F :=
        let u2 := (ipow2 u)
        let u4 := (ipow2 u2)
        let u8 := (ipow2 u4)
        r +. sgn *. (u *. ♯(cdli6Bf[0]) +. u2 *. (♯(cdli6Bf[1]) +. u *. ♯(cdli6Bf[2])) +. u4 *. (♯(cdli6Bf[3]) +. u *. ♯(cdli6Bf[4]) +. u2 *. (♯(cdli6Bf[5]) +. u *. ♯(cdli6Bf[6]))) +. u8 *. (♯(cdli6Bf[7]) +. u *. ♯(cdli6Bf[8]) +. u2 *. (♯(cdli6Bf[9]) +. u *. ♯(cdli6Bf[10])) +. u4 *. (♯(cdli6Bf[11]) +. u *. ♯(cdli6Bf[12]) +. u2 *. (♯(cdli6Bf[13]) +. u *. ♯(cdli6Bf[14])))) +. u8 *. u8 *. (♯(cdli6Bf[15]) +. u *. ♯(cdli6Bf[16]) +. u2 *. ♯(cdli6Bf[17])))
      if nz <=. ♯1 then fin (∸((pos_cdlog (♯1 -. z)))) (Cx.ofReal ♯0) ♯1
      else
        let arg := if pz >. ♯0 then pz -. PI else pz +. PI
        let lmz : Cx F := ⟨lnz, arg⟩
        fin (∸((pos_cdlog (♯1 -. ♯1 /. z)))) (∸(♯31 *. PI6 /. ♯15120) +. (ipow2 lmz) *. (∸(♯7 *. PI4 /. ♯720) +. (ipow2 lmz) *. (∸(PI2 /. ♯144) -. (ipow2 lmz) /. ♯720))) ∸♯1

end
end Polylog.Fortran
