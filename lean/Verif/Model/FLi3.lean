import Verif.Model.FLog

/-! # `src/fortran/Li3.f90` -/

namespace Polylog.Fortran

/-- `cp of dli3_neg` (Li3.f90 12-15) -/
def dli3negP : Vector ℚ 6 :=
  #v[
    0.9999999999999999795, -2.0281801754117129576, 1.4364029887561718540,
    -4.2240680435713030268e-1, 4.7296746450884096877e-2, -1.3453536579918419568e-3]

/-- `cq of dli3_neg` (Li3.f90 16-20) -/
def dli3negQ : Vector ℚ 7 :=
  #v[
    1, -2.1531801754117049035, 1.6685134736461140517, -5.6684857464584544310e-1,
    8.1999463370623961084e-2, -4.0756048502924149389e-3, 3.4316398489103212699e-5]

/-- `cp of dli3_pos` (Li3.f90 38-41) -/
def dli3posP : Vector ℚ 6 :=
  #v[
    0.9999999999999999893, -2.5224717303769789628, 2.3204919140887894133,
    -9.3980973288965037869e-1, 1.5728950200990509052e-1, -7.5485193983677071129e-3]

/-- `cq of dli3_pos` (Li3.f90 42-46) -/
def dli3posQ : Vector ℚ 7 :=
  #v[
    1, -2.6474717303769836244, 2.6143888433492184741, -1.1841788297857667038,
    2.4184938524793651120e-1, -1.8220900115898156346e-2, 2.4927971540017376759e-4]

/-- `bf` (Li3.f90 117-126) -/
def cdli3Bf : Vector ℚ 18 :=
  #v[
    1, -3 / 8, 17 / 216, -5 / 576, 1.2962962962962963e-4, 8.1018518518518519e-5,
    -3.4193571608537595e-6, -1.3286564625850340e-6, 8.6608717561098513e-8, 2.5260875955320400e-8,
    -2.1446944683640648e-9, -5.1401106220129789e-10, 5.2495821146008294e-11,
    1.0887754406636318e-11, -1.2779396094493695e-12, -2.3698241773087452e-13,
    3.1043578879654623e-14, 5.2617586299125061e-15]

/-- `cs` (Li3.f90 127-131) -/
def cdli3Cs : Vector ℚ 7 :=
  #v[
    -3.4722222222222222e-3, 1.1574074074074074e-5, -9.8418997228521038e-8, 1.1482216343327454e-9,
    -1.5815724990809166e-11, 2.4195009792525152e-13, -3.9828977769894877e-15]

section
variable {F : Type} [FOps F]

/-- numeric literal -/
local notation:max "♯" q:max => (FOps.lit (q : ℚ) : F)

/-- `dli3_neg`: Li_3(x) for x in [-1,0] (Li3.f90 9-31) -/
def dli3_neg (x : F) : F :=
  let x2 := x *. x
  let x4 := x2 *. x2
  let p := ♯(dli3negP[0]) +. x *. ♯(dli3negP[1]) +. x2 *. (♯(dli3negP[2]) +. x *. ♯(dli3negP[3])) +. x4 *. (♯(dli3negP[4]) +. x *. ♯(dli3negP[5]))
  let q := ♯(dli3negQ[0]) +. x *. ♯(dli3negQ[1]) +. x2 *. (♯(dli3negQ[2]) +. x *. ♯(dli3negQ[3])) +. x4 *. (♯(dli3negQ[4]) +. x *. ♯(dli3negQ[5]) +. x2 *. ♯(dli3negQ[6]))
  x *. p /. q

/-- `dli3_pos`: Li_3(x) for x in [0,1/2] (Li3.f90 35-57) -/
def dli3_pos (x : F) : F :=
  let x2 := x *. x
  let x4 := x2 *. x2
  let p := ♯(dli3posP[0]) +. x *. ♯(dli3posP[1]) +. x2 *. (♯(dli3posP[2]) +. x *. ♯(dli3posP[3])) +. x4 *. (♯(dli3posP[4]) +. x *. ♯(dli3posP[5]))
  let q := ♯(dli3posQ[0]) +. x *. ♯(dli3posQ[1]) +. x2 *. (♯(dli3posQ[2]) +. x *. ♯(dli3posQ[3])) +. x4 *. (♯(dli3posQ[4]) +. x *. ♯(dli3posQ[5]) +. x2 *. ♯(dli3posQ[6]))
  x *. p /. q

/-- `double precision function dli3(x)` (Li3.f90 66-101) -/
def dli3 (x : F) : F :=
  let zeta2 : F := ♯1.6449340668482264
  let zeta3 : F := ♯1.2020569031595943
  if x <. ∸♯1 then
    let l := (xlog (∸x))
    (dli3_neg (♯1 /. x)) -. l *. (zeta2 +. ♯1 /. ♯6 *. (ipow2 l))
  else if x ==. ∸♯1 then ∸(♯0.75 *. zeta3)
  else if x <. ♯0 then (dli3_neg x)
  else if x ==. ♯0 then x
  else if x <. ♯0.5 then (dli3_pos x)
  else if x ==. ♯0.5 then ♯0.53721319360804020
  else if x <. ♯1 then
    let l := (xlog x)
    ∸((dli3_neg (♯1 -. ♯1 /. x))) -. (dli3_pos (♯1 -. x)) +. zeta3 +. l *. (zeta2 +. l *. (∸(♯0.5 *. (xlog (♯1 -. x))) +. ♯1 /. ♯6 *. l))
  else if x ==. ♯1 then zeta3
  else if x <. ♯2 then
    let l := (xlog x)
    ∸((dli3_neg (♯1 -. x))) -. (dli3_pos (♯1 -. ♯1 /. x)) +. zeta3 +. l *. (zeta2 +. l *. (∸(♯0.5 *. (xlog (x -. ♯1))) +. ♯1 /. ♯6 *. l))
  else
    let l := (xlog x)
    (dli3_pos (♯1 /. x)) +. l *. (♯2 *. zeta2 -. ♯1 /. ♯6 *. (ipow2 l))

/-- `double complex function cdli3(z)` (Li3.f90 110-194); the `u`, `rest` set in the branches are passed to `fin` -/
def cdli3 (z : Cx F) : Cx F :=
  let PI : F := ♯3.1415926535897932
  let zeta2 : F := ♯1.6449340668482264
  let zeta3 : F := ♯1.2020569031595943
  let rz := z.re
  let iz := z.im
  if iz ==. ♯0 then
    if rz <=. ♯1 then ⟨(dli3 rz), iz⟩
    else
      let lnz := (xlog rz)
      ⟨(dli3 rz), ∸(♯0.5 *. PI *. (ipow2 lnz))⟩
  else
    let nz := (FOps.hypot rz iz)
    let pz := (FOps.atan2 iz rz)
    let lnz := (xlog nz)
    if (ipow2 lnz) +. (ipow2 pz) <. ♯1 then
      let u : Cx F := ⟨lnz, pz⟩
      let u2 := (ipow2 u)
      let u4 := (ipow2 u2)
      let u8 := (ipow2 u4)
      let c0 := zeta3 +. u *. (zeta2 -. u2 /. ♯12)
      let c1 := ♯0.25 *. (♯3 -. ♯2 *. (pos_cdlog (∸u)))
      c0 +. c1 *. u2 +. u4 *. (♯(cdli3Cs[0]) +. u2 *. ♯(cdli3Cs[1])) +. u8 *. (♯(cdli3Cs[2]) +. u2 *. ♯(cdli3Cs[3]) +. u4 *. (♯(cdli3Cs[4]) +. u2 *. ♯(cdli3Cs[5]))) +. u8 *. u8 *. ♯(cdli3Cs[6])
    else
      let fin (u rest : Cx F) : Cx F :=
        let u2 := (ipow2 u)
        let u4 := (ipow2 u2)
        let u8 := (ipow2 u4)
        rest +. u *. ♯(cdli3Bf[0]) +. u2 *. (♯(cdli3Bf[1]) +. u *. ♯(cdli3Bf[2])) +. u4 *. (♯(cdli3Bf[3]) +. u *. ♯(cdli3Bf[4]) +. u2 *. (♯(cdli3Bf[5]) +. u *. ♯(cdli3Bf[6]))) +. u8 *. (♯(cdli3Bf[7]) +. u *. ♯(cdli3Bf[8]) +. u2 *. (♯(cdli3Bf[9]) +. u *. ♯(cdli3Bf[10])) +. u4 *. (♯(cdli3Bf[11]) +. u *. ♯(cdli3Bf[12]) +. u2 *. (♯(cdli3Bf[13]) +. u *. ♯(cdli3Bf[14])))) +. u8 *. u8 *. (♯(cdli3Bf[15]) +. u *. ♯(cdli3Bf[16]) +. u2 *. ♯(cdli3Bf[17]))
      if nz <=. ♯1 then fin (∸((pos_cdlog (♯1 -. z)))) (Cx.ofReal ♯0)
      else
        let arg := if pz >. ♯0 then pz -. PI else pz +. PI
        let lmz : Cx F := ⟨lnz, arg⟩
        fin (∸((pos_cdlog (♯1 -. ♯1 /. z)))) (∸(lmz *. ((ipow2 lmz) /. ♯6 +. zeta2)))

end
end Polylog.Fortran
