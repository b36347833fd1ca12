import Verif.Model.FLog

/-! # `src/fortran/Li4.f90` -/

namespace Polylog.Fortran

/-- `cp of dli4_neg` (Li4.f90 12-15) -/
def dli4negP : Vector ℚ 6 :=
  #v[
    0.9999999999999999952, -1.8532099956062184217, 1.1937642574034898249,
    -3.1817912243893560382e-1, 3.2268284189261624841e-2, -8.3773570305913850724e-4]

/-- `cq of dli4_neg` (Li4.f90 16-20) -/
def dli4negQ : Vector ℚ 7 :=
  #v[
    1, -1.9157099956062165688, 1.3011504531166486419, -3.7975653506939627186e-1,
    4.5822723996558783670e-2, -1.8023912938765272341e-3, 1.0199621542882314929e-5]

/-- `cp of dli4_half` (Li4.f90 38-41) -/
def dli4halfP : Vector ℚ 6 :=
  #v[
    1.0000000000000000414, -2.0588072418045364525, 1.4713328756794826579,
    -4.2608608613069811474e-1, 4.2975084278851543150e-2, -6.8314031819918920802e-4]

/-- `cq of dli4_half` (Li4.f90 42-45) -/
def dli4halfQ : Vector ℚ 6 :=
  #v[
    1, -2.1213072418045207223, 1.5915688992789175941, -5.0327641401677265813e-1,
    6.1467217495127095177e-2, -1.9061294280193280330e-3]

/-- `cp of dli4_mid` (Li4.f90 63-67) -/
def dli4midP : Vector ℚ 7 :=
  #v[
    3.2009826406098890447e-9, 9.9999994634837574160e-1, -2.9144851228299341318,
    3.1891031447462342009, -1.6009125158511117090, 3.5397747039432351193e-1,
    -2.5230024124741454735e-2]

/-- `cq of dli4_mid` (Li4.f90 68-72) -/
def dli4midQ : Vector ℚ 7 :=
  #v[
    1, -2.9769855248411488460, 3.3628208295110572579, -1.7782471949702788393,
    4.3364007973198649921e-1, -3.9535592340362510549e-2, 5.7373431535336755591e-4]

/-- `bf` (Li4.f90 176-185) -/
def cdli4Bf : Vector ℚ 18 :=
  #v[
    1, -7 / 16, 1.1651234567901235e-1, -1.9820601851851852e-2, 1.9279320987654321e-3,
    -3.1057098765432099e-5, -1.5624009114857835e-5, 8.4851235467732066e-7, 2.2909616603189711e-7,
    -2.1832614218526917e-8, -3.8828248791720156e-9, 5.4462921032203321e-10, 6.9608052106827254e-11,
    -1.3375737686445215e-11, -1.2784852685266572e-12, 3.2605628580248922e-13,
    2.3647571168618257e-14, -7.9231351220311617e-15]

/-- `cs` (Li4.f90 186-190) -/
def cdli4Cs : Vector ℚ 7 :=
  #v[
    -6.9444444444444444e-4, 1.6534391534391534e-6, -1.0935444136502338e-8, 1.0438378493934049e-10,
    -1.2165942300622435e-12, 1.6130006528350101e-14, -2.3428810452879340e-16]

section
variable {F : Type} [FOps F]

/-- numeric literal -/
local notation:max "♯" q:max => (FOps.lit (q : ℚ) : F)

/-- `dli4_neg`: Li_4(x) for x in [-1,0] (Li4.f90 9-31) -/
def dli4_neg (x : F) : F :=
  let x2 := x *. x
  let x4 := x2 *. x2
  let p := ♯(dli4negP[0]) +. x *. ♯(dli4negP[1]) +. x2 *. (♯(dli4negP[2]) +. x *. ♯(dli4negP[3])) +. x4 *. (♯(dli4negP[4]) +. x *. ♯(dli4negP[5]))
  let q := ♯(dli4negQ[0]) +. x *. ♯(dli4negQ[1]) +. x2 *. (♯(dli4negQ[2]) +. x *. ♯(dli4negQ[3])) +. x4 *. (♯(dli4negQ[4]) +. x *. ♯(dli4negQ[5]) +. x2 *. ♯(dli4negQ[6]))
  x *. p /. q

/-- `dli4_half`: Li_4(x) for x in [0,1/2] (Li4.f90 35-56) -/
def dli4_half (x : F) : F :=
  let x2 := x *. x
  let x4 := x2 *. x2
  let p := ♯(dli4halfP[0]) +. x *. ♯(dli4halfP[1]) +. x2 *. (♯(dli4halfP[2]) +. x *. ♯(dli4halfP[3])) +. x4 *. (♯(dli4halfP[4]) +. x *. ♯(dli4halfP[5]))
  let q := ♯(dli4halfQ[0]) +. x *. ♯(dli4halfQ[1]) +. x2 *. (♯(dli4halfQ[2]) +. x *. ♯(dli4halfQ[3])) +. x4 *. (♯(dli4halfQ[4]) +. x *. ♯(dli4halfQ[5]))
  x *. p /. q

/-- `dli4_mid`: Li_4(x) for x in [1/2,8/10] (Li4.f90 60-83) -/
def dli4_mid (x : F) : F :=
  let x2 := x *. x
  let x4 := x2 *. x2
  let p := ♯(dli4midP[0]) +. x *. ♯(dli4midP[1]) +. x2 *. (♯(dli4midP[2]) +. x *. ♯(dli4midP[3])) +. x4 *. (♯(dli4midP[4]) +. x *. ♯(dli4midP[5]) +. x2 *. ♯(dli4midP[6]))
  let q := ♯(dli4midQ[0]) +. x *. ♯(dli4midQ[1]) +. x2 *. (♯(dli4midQ[2]) +. x *. ♯(dli4midQ[3])) +. x4 *. (♯(dli4midQ[4]) +. x *. ♯(dli4midQ[5]) +. x2 *. ♯(dli4midQ[6]))
  p /. q

/-- `dli4_one`: Li_4(x) for x in [8/10,1] (Li4.f90 87-101) -/
def dli4_one (x : F) : F :=
  let zeta2 : F := ♯1.6449340668482264
  let zeta3 : F := ♯1.2020569031595943
  let zeta4 : F := ♯1.0823232337111382
  let l := (xlog x)
  let l2 := (ipow2 l)
  zeta4 +. l *. (zeta3 +. l *. (♯0.5 *. zeta2 +. l *. (♯11 /. ♯36 -. ♯1 /. ♯6 *. (xlog (∸l)) +. l *. (∸(♯1 /. ♯48) +. l *. (∸(♯1 /. ♯1440) +. l2 *. (♯1 /. ♯604800 -. ♯1 /. ♯91445760 *. l2))))))

/-- second part of `dli4`: choice of the approximation and final sum (Li4.f90 144-154) -/
def dli4Fin (x rest sgn : F) : F :=
  let app := if x <. ♯0 then (dli4_neg x)
    else if x <. ♯0.5 then (dli4_half x)
    else if x <. ♯0.8 then (dli4_mid x)
    else (dli4_one x)
  rest +. sgn *. app

/-- `double precision function dli4(x)` (Li4.f90 110-156), which assigns to `x` (lines 121, 138) -/
def dli4 (x : F) : Ret F :=
  let zeta2 : F := ♯1.6449340668482264
  let zeta4 : F := ♯1.0823232337111382
  if x <. ∸♯1 then
    let l := (xlog (∸x))
    let l2 := (ipow2 l)
    let x := ♯1 /. x
    ⟨dli4Fin x (∸(♯7 /. ♯4 *. zeta4) +. l2 *. (∸(♯0.5 *. zeta2) -. ♯1 /. ♯24 *. l2)) ∸♯1, x⟩
  else if x ==. ∸♯1 then ⟨∸(♯7 /. ♯8 *. zeta4), x⟩
  else if x ==. ♯0 then ⟨x, x⟩
  else if x <. ♯1 then ⟨dli4Fin x ♯0 ♯1, x⟩
  else if x ==. ♯1 then ⟨zeta4, x⟩
  else
    let l := (xlog x)
    let l2 := (ipow2 l)
    let x := ♯1 /. x
    ⟨dli4Fin x (♯2 *. zeta4 +. l2 *. (zeta2 -. ♯1 /. ♯24 *. l2)) ∸♯1, x⟩

/-- `double complex function cdli4(z)` (Li4.f90 165-257); the `u`, `r`, `sgn` set in the branches are passed to `fin` -/
def cdli4 (z : Cx F) : Cx F :=
  let PI : F := ♯3.1415926535897932
  let PI2 : F := ♯9.8696044010893586
  let PI4 : F := ♯97.409091034002437
  let zeta4 : F := ♯1.0823232337111382
  let c1 : F := ♯1.2020569031595943
  let c2 : F := ♯0.82246703342411322
  let c4 : F := ∸(♯1 /. ♯48)
  let rz := z.re
  let iz := z.im
  if iz ==. ♯0 then
    if rz <=. ♯1 then ⟨(dli4 rz).value, iz⟩
    else
      let lnz := (xlog rz)
      ⟨(dli4 rz).value, ∸(♯1 /. ♯6 *. PI *. (ipow3 lnz))⟩
  else
    let nz := (FOps.hypot rz iz)
    let pz := (FOps.atan2 iz rz)
    let lnz := (xlog nz)
    if (ipow2 lnz) +. (ipow2 pz) <. ♯1 then
      let u : Cx F := ⟨lnz, pz⟩
      let u2 := (ipow2 u)
      let u4 := (ipow2 u2)
      let u8 := (ipow2 u4)
      let c3 := (♯11 /. ♯6 -. (pos_cdlog (∸u))) /. ♯6
      zeta4 +. u2 *. (c2 +. u2 *. c4) +. u *. (c1 +. c3 *. u2 +. u4 *. (♯(cdli4Cs[0]) +. u2 *. ♯(cdli4Cs[1])) +. u8 *. (♯(cdli4Cs[2]) +. u2 *. ♯(cdli4Cs[3]) +. u4 *. (♯(cdli4Cs[4]) +. u2 *. ♯(cdli4Cs[5]))) +. u8 *. u8 *. ♯(cdli4Cs[6]))
    else
      let fin (u r : Cx F) (sgn : F) : Cx F :=
        let u2 := (ipow2 u)
        let u4 := (ipow2 u2)
        let u8 := (ipow2 u4)
        r +. sgn *. (u *. ♯(cdli4Bf[0]) +. u2 *. (♯(cdli4Bf[1]) +. u *. ♯(cdli4Bf[2])) +. u4 *. (♯(cdli4Bf[3]) +. u *. ♯(cdli4Bf[4]) +. u2 *. (♯(cdli4Bf[5]) +. u *. ♯(cdli4Bf[6]))) +. u8 *. (♯(cdli4Bf[7]) +. u *. ♯(cdli4Bf[8]) +. u2 *. (♯(cdli4Bf[9]) +. u *. ♯(cdli4Bf[10])) +. u4 *. (♯(cdli4Bf[11]) +. u *. ♯(cdli4Bf[12]) +. u2 *. (♯(cdli4Bf[13]) +. u *. ♯(cdli4Bf[14])))) +. u8 *. u8 *. (♯(cdli4Bf[15]) +. u *. ♯(cdli4Bf[16]) +. u2 *. ♯(cdli4Bf[17])))
      if nz <=. ♯1 then fin (∸((pos_cdlog (♯1 -. z)))) (Cx.ofReal ♯0) ♯1
      else
        let arg := if pz >. ♯0 then pz -. PI else pz +. PI
        let lmz : Cx F := ⟨lnz, arg⟩
        fin (∸((pos_cdlog (♯1 -. ♯1 /. z)))) ((∸(♯7 *. PI4) +. (ipow2 lmz) *. (∸(♯30 *. PI2) -. ♯15 *. (ipow2 lmz))) /. ♯360) ∸♯1

end
end Polylog.Fortran
