import Verif.Model.CLog

/-! # `src/c/Li4.c` -/

namespace Polylog.C

/-! ## Coefficient tables -/

/-- `cp of li4_neg` (Li4.c 15-19) -/
def li4negP : Vector ℚ 6 :=
  #v[
    0.9999999999999999952, -1.8532099956062184217, 1.1937642574034898249,
    -3.1817912243893560382e-1, 3.2268284189261624841e-2, -8.3773570305913850724e-4]

/-- `cq of li4_neg` (Li4.c 20-25) -/
def li4negQ : Vector ℚ 7 :=
  #v[
    1, -1.9157099956062165688, 1.3011504531166486419, -3.7975653506939627186e-1,
    4.5822723996558783670e-2, -1.8023912938765272341e-3, 1.0199621542882314929e-5]

/-- `cp of li4_half` (Li4.c 40-44) -/
def li4halfP : Vector ℚ 6 :=
  #v[
    1.0000000000000000414, -2.0588072418045364525, 1.4713328756794826579,
    -4.2608608613069811474e-1, 4.2975084278851543150e-2, -6.8314031819918920802e-4]

/-- `cq of li4_half` (Li4.c 45-49) -/
def li4halfQ : Vector ℚ 6 :=
  #v[
    1, -2.1213072418045207223, 1.5915688992789175941, -5.0327641401677265813e-1,
    6.1467217495127095177e-2, -1.9061294280193280330e-3]

/-- `cp of li4_mid` (Li4.c 64-69) -/
def li4midP : Vector ℚ 7 :=
  #v[
    3.2009826406098890447e-9, 9.9999994634837574160e-1, -2.9144851228299341318,
    3.1891031447462342009, -1.6009125158511117090, 3.5397747039432351193e-1,
    -2.5230024124741454735e-2]

/-- `cq of li4_mid` (Li4.c 70-75) -/
def li4midQ : Vector ℚ 7 :=
  #v[
    1, -2.9769855248411488460, 3.3628208295110572579, -1.7782471949702788393,
    4.3364007973198649921e-1, -3.9535592340362510549e-2, 5.7373431535336755591e-4]

/-- `bf` (Li4.c 168-178) -/
def cli4dBf : Vector ℚ 18 :=
  #v[
    1, -7 / 16, 1.1651234567901235e-1, -1.9820601851851852e-2, 1.9279320987654321e-3,
    -3.1057098765432099e-5, -1.5624009114857835e-5, 8.4851235467732066e-7, 2.2909616603189711e-7,
    -2.1832614218526917e-8, -3.8828248791720156e-9, 5.4462921032203321e-10, 6.9608052106827254e-11,
    -1.3375737686445215e-11, -1.2784852685266572e-12, 3.2605628580248922e-13,
    2.3647571168618257e-14, -7.9231351220311617e-15]

/-- `cs` (Li4.c 206-211) -/
def cli4dCs : Vector ℚ 7 :=
  #v[
    -6.9444444444444444e-4, 1.6534391534391534e-6, -1.0935444136502338e-8, 1.0438378493934049e-10,
    -1.2165942300622435e-12, 1.6130006528350101e-14, -2.3428810452879340e-16]

/-- `bf` (Li4.c 265-313, LDBL_DIG <= 18) -/
def cli4l18Bf : Vector ℚ 22 :=
  #v[
    1, -7 / 16, 1.16512345679012345679012345679012346e-1,
    -1.98206018518518518518518518518518519e-2, 1.92793209876543209876543209876543210e-3,
    -3.10570987654320987654320987654320988e-5, -1.56240091148578352983924736435264456e-5,
    8.48512354677320663715221538350790051e-7, 2.29096166031897114453593835470042743e-7,
    -2.18326142185269169396153523137650122e-8, -3.88282487917201557228066203807765146e-9,
    5.44629210322033211825798588082320063e-10, 6.96080521068272540787723341341208120e-11,
    -1.33757376864452151995780722036345205e-11, -1.27848526852665716041462463615741700e-12,
    3.26056285802489224287884181782170918e-13, 2.36475711686182573623095048124390137e-14,
    -7.92313512203116170242999007113724954e-15, -4.34529157099841872504973716264753844e-16,
    1.92362700625359201161268755267526042e-16, 7.81241433319595467072229389687370732e-18,
    -4.67180384480365552031762824287222012e-18]

/-- `cs` (Li4.c 342-364, LDBL_DIG <= 18) -/
def cli4l18Cs : Vector ℚ 8 :=
  #v[
    -6.94444444444444444444444444444444444e-4, 1.65343915343915343915343915343915344e-6,
    -1.09354441365023375605386187396769407e-8, 1.04383784939340494896050451606007162e-10,
    -1.21659423006224353025699827046628393e-12, 1.61300065283501012968488467709998678e-14,
    -2.34288104528793396933245465250860001e-16, 3.64387716752943634635168923207929405e-18]

/-- `bf` (Li4.c 265-313, LDBL_DIG > 18) -/
def cli4l36Bf : Vector ℚ 45 :=
  #v[
    1, -7 / 16, 1.16512345679012345679012345679012346e-1,
    -1.98206018518518518518518518518518519e-2, 1.92793209876543209876543209876543210e-3,
    -3.10570987654320987654320987654320988e-5, -1.56240091148578352983924736435264456e-5,
    8.48512354677320663715221538350790051e-7, 2.29096166031897114453593835470042743e-7,
    -2.18326142185269169396153523137650122e-8, -3.88282487917201557228066203807765146e-9,
    5.44629210322033211825798588082320063e-10, 6.96080521068272540787723341341208120e-11,
    -1.33757376864452151995780722036345205e-11, -1.27848526852665716041462463615741700e-12,
    3.26056285802489224287884181782170918e-13, 2.36475711686182573623095048124390137e-14,
    -7.92313512203116170242999007113724954e-15, -4.34529157099841872504973716264753844e-16,
    1.92362700625359201161268755267526042e-16, 7.81241433319595467072229389687370732e-18,
    -4.67180384480365552031762824287222012e-18, -1.34353443298128478562602226758937243e-19,
    1.13568268513473432447646983759384846e-19, 2.11527562024325868475059834141917946e-21,
    -2.76420263347465173882817292537310280e-21, -2.70681766082400642561090595581950049e-23,
    6.73720448286285721432671612656264303e-23, 1.32872654566838229758180090450125398e-25,
    -1.64437730563678264678167631148886630e-24, 8.28360589993393411098296734003488096e-27,
    4.01908484950693506997093150076214959e-26, -4.57571384448487903823597343465369976e-28,
    -9.83641090946151277583209749821167124e-28, 1.69003395560378510677295231219028521e-29,
    2.41048055630598085046649041649017179e-29, -5.42661270567141825013250340589290005e-31,
    -5.91424295887417678643375999669283147e-31, 1.62321109010873707727111761439681785e-32,
    1.45275954377402759461325873161579478e-32, -4.65389937002573704417216829815072974e-34,
    -3.57238626244413318154616242379067282e-34, 1.29761714880310295825962542732877943e-35,
    8.79357407773938851103685229710271214e-36, -3.54800202048240308911663975982519909e-37]

/-- `cs` (Li4.c 342-364, LDBL_DIG > 18) -/
def cli4l36Cs : Vector ℚ 19 :=
  #v[
    -6.94444444444444444444444444444444444e-4, 1.65343915343915343915343915343915344e-6,
    -1.09354441365023375605386187396769407e-8, 1.04383784939340494896050451606007162e-10,
    -1.21659423006224353025699827046628393e-12, 1.61300065283501012968488467709998678e-14,
    -2.34288104528793396933245465250860001e-16, 3.64387716752943634635168923207929405e-18,
    -5.97748681166655845456412242441216036e-20, 1.02337130555150662198452683223504513e-21,
    -1.81455956138347480737900283560680332e-23, 3.31302580384912709893344878064186841e-25,
    -6.20097932653619404041449128072466986e-27, 1.18564508541733498204388623842798096e-28,
    -2.30933574895902885743620757867807721e-30, 4.57154846962710278621075406449501719e-32,
    -9.18043553394696104844086650056356358e-34, 1.86724930429686274238904009267803247e-35,
    -3.84151865355610606630482668147264051e-37]

section
variable {F : Type} [FOps F]

/-- numeric literal -/
local notation:max "♯" q:max => (FOps.lit (q : ℚ) : F)

/-- `li4_neg`: Li_4(x) for x in [-1,0] (Li4.c 13-35) -/
def li4_neg (x : F) : F :=
  let x2 := x *. x
  let x4 := x2 *. x2
  let p := ♯(li4negP[0]) +. x *. ♯(li4negP[1]) +. x2 *. (♯(li4negP[2]) +. x *. ♯(li4negP[3])) +. x4 *. (♯(li4negP[4]) +. x *. ♯(li4negP[5]))
  let q := ♯(li4negQ[0]) +. x *. ♯(li4negQ[1]) +. x2 *. (♯(li4negQ[2]) +. x *. ♯(li4negQ[3])) +. x4 *. (♯(li4negQ[4]) +. x *. ♯(li4negQ[5]) +. x2 *. ♯(li4negQ[6]))
  x *. p /. q

/-- `li4_half`: Li_4(x) for x in [0,1/2] (Li4.c 38-59) -/
def li4_half (x : F) : F :=
  let x2 := x *. x
  let x4 := x2 *. x2
  let p := ♯(li4halfP[0]) +. x *. ♯(li4halfP[1]) +. x2 *. (♯(li4halfP[2]) +. x *. ♯(li4halfP[3])) +. x4 *. (♯(li4halfP[4]) +. x *. ♯(li4halfP[5]))
  let q := ♯(li4halfQ[0]) +. x *. ♯(li4halfQ[1]) +. x2 *. (♯(li4halfQ[2]) +. x *. ♯(li4halfQ[3])) +. x4 *. (♯(li4halfQ[4]) +. x *. ♯(li4halfQ[5]))
  x *. p /. q

/-- `li4_mid`: Li_4(x) for x in [1/2,8/10] (Li4.c 62-85) -/
def li4_mid (x : F) : F :=
  let x2 := x *. x
  let x4 := x2 *. x2
  let p := ♯(li4midP[0]) +. x *. ♯(li4midP[1]) +. x2 *. (♯(li4midP[2]) +. x *. ♯(li4midP[3])) +. x4 *. (♯(li4midP[4]) +. x *. ♯(li4midP[5]) +. x2 *. ♯(li4midP[6]))
  let q := ♯(li4midQ[0]) +. x *. ♯(li4midQ[1]) +. x2 *. (♯(li4midQ[2]) +. x *. ♯(li4midQ[3])) +. x4 *. (♯(li4midQ[4]) +. x *. ♯(li4midQ[5]) +. x2 *. ♯(li4midQ[6]))
  p /. q

/-- `li4_one`: Li_4(x) for x in [8/10,1] (Li4.c 88-103) -/
def li4_one (x : F) : F :=
  let zeta2 : F := ♯1.6449340668482264
  let zeta3 : F := ♯1.2020569031595943
  let zeta4 : F := ♯1.0823232337111382
  let l := (xlog x)
  let l2 := l *. l
  zeta4 +. l *. (zeta3 +. l *. (♯0.5 *. zeta2 +. l *. (♯11 /. ♯36 -. ♯1 /. ♯6 *. (xlog (∸l)) +. l *. (∸♯1 /. ♯48 +. l *. (∸♯1 /. ♯1440 +. l2 *. (♯1 /. ♯604800 -. ♯1 /. ♯91445760 *. l2))))))

/-- second part of `Li4(double)`: choice of the approximation and final sum (Li4.c 142-152) -/
def li4dFin (x rest sgn : F) : F :=
  let app :=
    if x <. ♯0 then li4_neg x
    else if x <. ♯0.5 then li4_half x
    else if x <. ♯0.8 then li4_mid x
    else li4_one x
  rest +. sgn *. app

/-- `double li4(double x)` (Li4.c 111-153) -/
def li4 (x : F) : F :=
  let zeta2 : F := ♯1.6449340668482264
  let zeta4 : F := ♯1.0823232337111382
  if x <. ∸♯1 then
    let l := (xlog (∸x))
    let l2 := l *. l
    li4dFin (♯1 /. x) (∸♯7 /. ♯4 *. zeta4 +. l2 *. (∸♯0.5 *. zeta2 -. ♯1 /. ♯24 *. l2)) ∸♯1
  else if x ==. ∸♯1 then ∸♯7 /. ♯8 *. zeta4
  else if x ==. ♯0 then x
  else if x <. ♯1 then li4dFin x ♯0 ♯1
  else if x ==. ♯1 then zeta4
  else
    let l := (xlog x)
    let l2 := l *. l
    li4dFin (♯1 /. x) (♯2 *. zeta4 +. l2 *. (zeta2 -. ♯1 /. ♯24 *. l2)) ∸♯1

/-- `double _Complex cli4(double _Complex z)` (Li4.c 162-250) -/
def cli4 (z : Cx F) : Cx F :=
  let PI : F := ♯3.1415926535897932
  let PI2 := PI *. PI
  let PI4 := PI2 *. PI2
  let zeta4 : F := ♯1.0823232337111382
  let rz := z.re
  let iz := z.im
  if iz ==. ♯0 then
    if rz <=. ♯1 then ⟨(li4 rz), iz⟩
    else
      let l := (xlog rz)
      ⟨(li4 rz), ∸♯1 /. ♯6 *. PI *. l *. l *. l⟩
  else
    let nz := (FOps.hypot rz iz)
    let pz := (FOps.atan2 iz rz)
    let lnz := (xlog nz)
    if lnz *. lnz +. pz *. pz <. ♯1 then
      let u : Cx F := ⟨lnz, pz⟩
      let c1 : F := ♯1.2020569031595943
      let c2 : F := ♯0.82246703342411322
      let c3 := (♯11 /. ♯6 -. (pos_clog (∸u))) /. ♯6
      let c4 : F := ∸♯1 /. ♯48
      let u2 := u *. u
      let u4 := u2 *. u2
      let u8 := u4 *. u4
      zeta4 +. u2 *. (c2 +. u2 *. c4) +. u *. (c1 +. c3 *. u2 +. u4 *. (♯(cli4dCs[0]) +. u2 *. ♯(cli4dCs[1])) +. u8 *. (♯(cli4dCs[2]) +. u2 *. ♯(cli4dCs[3]) +. u4 *. (♯(cli4dCs[4]) +. u2 *. ♯(cli4dCs[5]))) +. u8 *. u8 *. ♯(cli4dCs[6]))
    else
      let fin (u r : Cx F) (sgn : F) : Cx F :=
        let u2 := u *. u
        let u4 := u2 *. u2
        let u8 := u4 *. u4
        r +. sgn *. (u *. ♯(cli4dBf[0]) +. u2 *. (♯(cli4dBf[1]) +. u *. ♯(cli4dBf[2])) +. u4 *. (♯(cli4dBf[3]) +. u *. ♯(cli4dBf[4]) +. u2 *. (♯(cli4dBf[5]) +. u *. ♯(cli4dBf[6]))) +. u8 *. (♯(cli4dBf[7]) +. u *. ♯(cli4dBf[8]) +. u2 *. (♯(cli4dBf[9]) +. u *. ♯(cli4dBf[10])) +. u4 *. (♯(cli4dBf[11]) +. u *. ♯(cli4dBf[12]) +. u2 *. (♯(cli4dBf[13]) +. u *. ♯(cli4dBf[14])))) +. u8 *. u8 *. (♯(cli4dBf[15]) +. u *. ♯(cli4dBf[16]) +. u2 *. ♯(cli4dBf[17])))
      if nz <=. ♯1 then fin (∸(pos_clog (♯1 -. z))) ⟨♯0, ♯0⟩ ♯1
      else
        let arg := if pz >. ♯0 then pz -. PI else pz +. PI
        let lmz : Cx F := ⟨lnz, arg⟩
        let lmz2 := lmz *. lmz
        fin (∸(pos_clog (♯1 -. ♯1 /. z))) (♯1 /. ♯360 *. (∸♯7 *. PI4 +. lmz2 *. (∸♯30 *. PI2 -. ♯15 *. lmz2))) ∸♯1

/-- `long double _Complex cli4l(long double _Complex z)` (Li4.c 259-397) -/
def cli4l {n m : Nat} (bf : Vector ℚ n) (cs : Vector ℚ m) (z : Cx F) : Cx F :=
  let PI : F := ♯3.14159265358979323846264338327950288
  let PI2 := PI *. PI
  let PI4 := PI2 *. PI2
  let zeta4 : F := ♯1.08232323371113819151600369654116790
  let rz := z.re
  let iz := z.im
  if iz ==. ♯0 && rz ==. ♯0 then ⟨rz, iz⟩
  else if iz ==. ♯0 && rz ==. ♯1 then ⟨zeta4, iz⟩
  else if iz ==. ♯0 && rz ==. ∸♯1 then ⟨∸♯7 *. PI4 /. ♯720, iz⟩
  else
    let nz := (FOps.hypot rz iz)
    let pz := (FOps.atan2 iz rz)
    let lnz := (xlog nz)
    if lnz *. lnz +. pz *. pz <. ♯1 then
      let u : Cx F := ⟨lnz, pz⟩
      let c1 : F := ♯1.20205690315959428539973816151144999
      let c2 : F := ♯0.822467033424113218236207583323012595
      let c3 := (♯11 /. ♯6 -. (pos_clogl (∸u))) /. ♯6
      let c4 : F := ∸♯1 /. ♯48
      let u2 := u *. u
      let sum := csum 0 u2 cs
      zeta4 +. u2 *. (c2 +. u2 *. c4) +. u *. (c1 +. u2 *. (c3 +. sum))
    else
      let fin (u r : Cx F) (sgn : F) : Cx F :=
        let sum := csum 0 u bf
        sgn *. sum +. r
      if nz <=. ♯1 then fin (∸(pos_clogl (♯1 -. z))) ⟨♯0, ♯0⟩ ♯1
      else
        let arg := if pz >. ♯0 then pz -. PI else pz +. PI
        let lmz : Cx F := ⟨lnz, arg⟩
        let lmz2 := lmz *. lmz
        fin (∸(pos_clogl (♯1 -. ♯1 /. z))) (♯1 /. ♯360 *. (∸♯7 *. PI4 +. lmz2 *. (∸♯30 *. PI2 -. ♯15 *. lmz2))) ∸♯1

/-- `cli4l`, LDBL_DIG <= 18 (Li4.c 259-397) -/
def cli4l18 (z : Cx F) : Cx F := cli4l cli4l18Bf cli4l18Cs z
/-- `cli4l`, LDBL_DIG > 18 (Li4.c 259-397) -/
def cli4l36 (z : Cx F) : Cx F := cli4l cli4l36Bf cli4l36Cs z

end
end Polylog.C
