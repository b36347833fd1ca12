import Verif.Model.CLog

/-! # `src/c/Li2.c` -/

namespace Polylog.C

/-! ## Coefficient tables -/

/-- `P` of the float version (Li2.c 34-34) -/
def li2fP : Vector ℚ 3 :=
  #v[
    1.00000020, -0.780790946, 0.0648256871]

/-- `Q` of the float version (Li2.c 35-35) -/
def li2fQ : Vector ℚ 3 :=
  #v[
    1, -1.03077545, 0.211216710]

/-- `P` of the double version (Li2.c 96-103) -/
def li2dP : Vector ℚ 6 :=
  #v[
    0.9999999999999999502, -2.6883926818565423430, 2.6477222699473109692, -1.1538559607887416355,
    2.0886077795020607837e-1, -1.0859777134152463084e-2]

/-- `Q` of the double version (Li2.c 104-112) -/
def li2dQ : Vector ℚ 7 :=
  #v[
    1, -2.9383926818565635485, 3.2712093293018635389, -1.7076702173954289421,
    4.1596017228400603836e-1, -3.9801343754084482956e-2, 8.2743668974466659035e-4]

/-- `P` of the long double version, LDBL_DIG <= 18 (Li2.c 179-189) -/
def li2l18P : Vector ℚ 9 :=
  #v[
    1.07061055633093042767673531395124630, -5.25056559620492749887983310693176896,
    1.03934845791141763662532570563508185e1, -1.06275187429164237285280053453630651e1,
    5.95754800847361224707276004888482457, -1.78704147549824083632603474038547305,
    2.56952343145676978700222949739349644e-1, -1.33237248124034497789318026957526440e-2,
    7.91217309833196694976662068263629735e-5]

/-- `Q` of the long double version, LDBL_DIG <= 18 (Li2.c 190-200) -/
def li2l18Q : Vector ℚ 9 :=
  #v[
    1, -5.20360694854541370154051736496901638, 1.10984640257222420881180161591516337e1,
    -1.24997590867514516374467903875677930e1, 7.97919868560471967115958363930214958,
    -2.87732383715218390800075864637472768, 5.49210416881086355164851972523370137e-1,
    -4.73366369162599860878254400521224717e-2, 1.23136575793833628711851523557950417e-3]

/-- `P` of the long double version, LDBL_DIG > 18 (Li2.c 202-220) -/
def li2l36P : Vector ℚ 17 :=
  #v[
    1.0706105563309304276767353139512463033, -1.0976999936495889694316759019749736514e1,
    5.0926847456521671435598196295391041399e1, -1.4137651316583179225403308056234710093e2,
    2.6167438966024905838946321639772104746e2, -3.4058684964478756354428571563597134889e2,
    3.2038320769322335817541819891481680235e2, -2.2042602382067574460998180123431383994e2,
    1.1098617775200190748144566197068215051e2, -4.0511655788875306581280201485439376229e1,
    1.0505482055068989911823839054507173824e1, -1.8711701614474515075977773430379529915,
    2.1700009060344649725726270289240541652e-1, -1.5030137964245010798524220531488795883e-2,
    5.3441650657913964794668981233490297624e-4, -7.0813883289232115572593407126124042503e-6,
    9.9037749983459843207756017329825486520e-9]

/-- `Q` of the long double version, LDBL_DIG > 18 (Li2.c 221-239) -/
def li2l36Q : Vector ℚ 17 :=
  #v[
    1, -1.0552362671556327276432317611336360654e1, 5.0559576537049301822461383847757604795e1,
    -1.4554341156550484644439941130107249144e2, 2.8070530313005385434963768448877956414e2,
    -3.8295927403204227055447294669165437162e2, 3.8034123327297619837621395664129395552e2,
    -2.7878320883603471098333035075019703189e2, 1.5127204204944666467295435798726892255e2,
    -6.0401294167088266781532200159750431265e1, 1.7480717870136655299932069333598290551e1,
    -3.5731199220918363429317367913920234597, 4.9537900060585746351429453828993042241e-1,
    -4.3750415383481013167382471956794084257e-2, 2.2234568413141078158637017098109483650e-3,
    -5.4149527323164210917629185927908003034e-5, 4.1629116823949062782848730828350635143e-7]

/-- `bf` of the complex float version; the quotients of small integers are correctly rounded quotients (Li2.c 303-308) -/
def cli2fBf : Vector ℚ 4 :=
  #v[
    -1 / 4, 1 / 36, -1 / 3600, 1 / 211680]

/-- `bf` of the complex double version (Li2.c 378-389) -/
def cli2dBf : Vector ℚ 10 :=
  #v[
    -1 / 4, 1 / 36, -1 / 3600, 1 / 211680, -1 / 10886400, 1 / 526901760, -4.0647616451442255e-11,
    8.9216910204564526e-13, -1.9939295860721076e-14, 4.5189800296199182e-16]

/-- `bf` of the complex long double version (Li2.c 468-494, LDBL_DIG <= 18) -/
def cli2l18Bf : Vector ℚ 11 :=
  #v[
    -1 / 4, 1 / 36, -1 / 3600, 1 / 211680, -1 / 10886400, 1 / 526901760,
    -4.06476164514422552680590938629196667e-11, 8.92169102045645255521798731675274885e-13,
    -1.99392958607210756872364434779378971e-14, 4.51898002961991819165047655285559323e-16,
    -1.03565176121812470144834115422186567e-17]

/-- `bf` of the complex long double version (Li2.c 468-494, LDBL_DIG > 18) -/
def cli2l36Bf : Vector ℚ 23 :=
  #v[
    -1 / 4, 1 / 36, -1 / 3600, 1 / 211680, -1 / 10886400, 1 / 526901760,
    -4.06476164514422552680590938629196667e-11, 8.92169102045645255521798731675274885e-13,
    -1.99392958607210756872364434779378971e-14, 4.51898002961991819165047655285559323e-16,
    -1.03565176121812470144834115422186567e-17, 2.39521862102618674574028374300098038e-19,
    -5.58178587432500933628307450562541991e-21, 1.30915075541832128581230739918659230e-22,
    -3.08741980242674029324227976486646243e-24, 7.31597565270220342035790560925214859e-26,
    -1.74084565723400074098905514775970255e-27, 4.15763564461389971961789962077522667e-29,
    -9.96214848828462210319400670245583885e-31, 2.39403442489616530052116798789374956e-32,
    -5.76834735536739008429179316187765424e-34, 1.39317947964700797782788660391154833e-35,
    -3.37212196548508947046847363525493096e-37]

section
variable {F : Type} [FOps F]

/-- numeric literal -/
local notation:max "♯" q:max => (FOps.lit (q : ℚ) : F)

/-- final part of Li2: rational function of `y`, result `r + s*y*p/q` (Li2.c 76-80) -/
def li2fFin (y r s : F) : F :=
  let y2 := y *. y
  let p := ♯(li2fP[0]) +. y *. ♯(li2fP[1]) +. y2 *. ♯(li2fP[2])
  let q := ♯(li2fQ[0]) +. y *. ♯(li2fQ[1]) +. y2 *. ♯(li2fQ[2])
  r +. s *. y *. p /. q

/-- `float li2f(float x)` (Li2.c 31-81); `li2fFin` is the final rational approximation -/
def li2f (x : F) : F :=
  let PI : F := ♯3.14159265
  if x <. ∸♯1 then
    let l := (xlog (♯1 -. x))
    li2fFin (♯1 /. (♯1 -. x)) (∸PI *. PI /. ♯6 +. l *. (♯0.5 *. l -. (xlog (∸x)))) ♯1
  else if x ==. ∸♯1 then ∸PI *. PI /. ♯12
  else if x <. ♯0 then
    let l := (FOps.log1p (∸x))
    li2fFin (x /. (x -. ♯1)) (∸♯0.5 *. l *. l) ∸♯1
  else if x ==. ♯0 then x
  else if x <. ♯0.5 then li2fFin x ♯0 ♯1
  else if x <. ♯1 then
    li2fFin (♯1 -. x) (PI *. PI /. ♯6 -. (xlog x) *. (FOps.log1p (∸x))) ∸♯1
  else if x ==. ♯1 then PI *. PI /. ♯6
  else if x <. ♯2 then
    let l := (xlog x)
    let y := ♯1 -. ♯1 /. x
    li2fFin y (PI *. PI /. ♯6 -. l *. ((xlog y) +. ♯0.5 *. l)) ♯1
  else
    let l := (xlog x)
    li2fFin (♯1 /. x) (PI *. PI /. ♯3 -. ♯0.5 *. l *. l) ∸♯1

/-- final part of Li2: rational function of `y`, result `r + s*y*p/q` (Li2.c 153-160) -/
def li2dFin (y r s : F) : F :=
  let y2 := y *. y
  let y4 := y2 *. y2
  let p := ♯(li2dP[0]) +. y *. ♯(li2dP[1]) +. y2 *. (♯(li2dP[2]) +. y *. ♯(li2dP[3])) +. y4 *. (♯(li2dP[4]) +. y *. ♯(li2dP[5]))
  let q := ♯(li2dQ[0]) +. y *. ♯(li2dQ[1]) +. y2 *. (♯(li2dQ[2]) +. y *. ♯(li2dQ[3])) +. y4 *. (♯(li2dQ[4]) +. y *. ♯(li2dQ[5]) +. y2 *. ♯(li2dQ[6]))
  r +. s *. y *. p /. q

/-- `double li2(double x)` (Li2.c 93-161); `li2dFin` is the final rational approximation -/
def li2 (x : F) : F :=
  let PI : F := ♯3.1415926535897932
  if x <. ∸♯1 then
    let l := (xlog (♯1 -. x))
    li2dFin (♯1 /. (♯1 -. x)) (∸PI *. PI /. ♯6 +. l *. (♯0.5 *. l -. (xlog (∸x)))) ♯1
  else if x ==. ∸♯1 then ∸PI *. PI /. ♯12
  else if x <. ♯0 then
    let l := (FOps.log1p (∸x))
    li2dFin (x /. (x -. ♯1)) (∸♯0.5 *. l *. l) ∸♯1
  else if x ==. ♯0 then x
  else if x <. ♯0.5 then li2dFin x ♯0 ♯1
  else if x <. ♯1 then
    li2dFin (♯1 -. x) (PI *. PI /. ♯6 -. (xlog x) *. (FOps.log1p (∸x))) ∸♯1
  else if x ==. ♯1 then PI *. PI /. ♯6
  else if x <. ♯2 then
    let l := (xlog x)
    let y := ♯1 -. ♯1 /. x
    li2dFin y (PI *. PI /. ♯6 -. l *. ((xlog y) +. ♯0.5 *. l)) ♯1
  else
    let l := (xlog x)
    li2dFin (♯1 /. x) (PI *. PI /. ♯3 -. ♯0.5 *. l *. l) ∸♯1

/-- final part of Li2: rational function of `y`, result `r + s*y*p/q` (Li2.c 281-286) -/
def li2lFin {n m : Nat} (P : Vector ℚ n) (Q : Vector ℚ m) (y r s : F) : F :=
  let z := y -. ♯0.25
  let p := hornerl z P
  let q := hornerl z Q
  r +. s *. y *. p /. q

/-- `long double li2l(long double x)` (Li2.c 174-287); `li2lFin P Q` is the final rational approximation -/
def li2l {n m : Nat} (P : Vector ℚ n) (Q : Vector ℚ m) (x : F) : F :=
  let PI : F := ♯3.14159265358979323846264338327950288
  if x <. ∸♯1 then
    let l := (xlog (♯1 -. x))
    li2lFin P Q (♯1 /. (♯1 -. x)) (∸PI *. PI /. ♯6 +. l *. (♯0.5 *. l -. (xlog (∸x)))) ♯1
  else if x ==. ∸♯1 then ∸PI *. PI /. ♯12
  else if x <. ♯0 then
    let l := (FOps.log1p (∸x))
    li2lFin P Q (x /. (x -. ♯1)) (∸♯0.5 *. l *. l) ∸♯1
  else if x ==. ♯0 then x
  else if x <. ♯0.5 then li2lFin P Q x ♯0 ♯1
  else if x <. ♯1 then
    li2lFin P Q (♯1 -. x) (PI *. PI /. ♯6 -. (xlog x) *. (FOps.log1p (∸x))) ∸♯1
  else if x ==. ♯1 then PI *. PI /. ♯6
  else if x <. ♯2 then
    let l := (xlog x)
    let y := ♯1 -. ♯1 /. x
    li2lFin P Q y (PI *. PI /. ♯6 -. l *. ((xlog y) +. ♯0.5 *. l)) ♯1
  else
    let l := (xlog x)
    li2lFin P Q (♯1 /. x) (PI *. PI /. ♯3 -. ♯0.5 *. l *. l) ∸♯1

/-- `li2l` compiled with LDBL_DIG <= 18 (Li2.c 178-200) -/
def li2l18 (x : F) : F := li2l li2l18P li2l18Q x
/-- `li2l` compiled with LDBL_DIG > 18 (Li2.c 201-240) -/
def li2l36 (x : F) : F := li2l li2l36P li2l36Q x

/-- `float _Complex cli2f(float _Complex z)` (Li2.c 298-361).
The `u`, `rest`, `sgn` set in the branches are passed to `fin`, the final `return`. -/
def cli2f (z : Cx F) : Cx F :=
  let PI : F := ♯3.14159265
  let rz := z.re
  let iz := z.im
  if iz ==. ♯0 then
    if rz <=. ♯1 then ⟨(li2f rz), iz⟩
    else ⟨(li2f rz), ∸PI *. (xlog rz)⟩
  else
    let nz := rz *. rz +. iz *. iz
    if nz <. FOps.eps then z *. (♯1 +. ♯0.25 *. z)
    else
      let fin (u rest : Cx F) (sgn : F) : Cx F :=
        let u2 := u *. u
        let sum := u +. u2 *. (♯(cli2fBf[0]) +. u *. (♯(cli2fBf[1]) +. u2 *. (♯(cli2fBf[2]) +. u2 *. ♯(cli2fBf[3]))))
        sgn *. sum +. rest
      if rz <=. ♯0.5 then
        if nz >. ♯1 then
          let lz := (xlog (∸z))
          fin (∸(xlog (♯1 -. ♯1 /. z))) (∸♯0.5 *. lz *. lz -. PI *. PI /. ♯6) ∸♯1
        else
          fin (∸(xlog (♯1 -. z))) (Cx.ofReal ♯0) ♯1
      else
        if nz <=. ♯2 *. rz then
          let u := ∸(xlog z)
          fin u (u *. (xlog (♯1 -. z)) +. PI *. PI /. ♯6) ∸♯1
        else
          let lz := (xlog (∸z))
          fin (∸(xlog (♯1 -. ♯1 /. z))) (∸♯0.5 *. lz *. lz -. PI *. PI /. ♯6) ∸♯1

/-- `double _Complex cli2(double _Complex z)` (Li2.c 372-451).
The `u`, `rest`, `sgn` set in the branches are passed to `fin`, the final `return`. -/
def cli2 (z : Cx F) : Cx F :=
  let PI : F := ♯3.1415926535897932
  let rz := z.re
  let iz := z.im
  if iz ==. ♯0 then
    if rz <=. ♯1 then ⟨(li2 rz), iz⟩
    else ⟨(li2 rz), ∸PI *. (xlog rz)⟩
  else
    let nz := rz *. rz +. iz *. iz
    if nz <. FOps.eps then z *. (♯1 +. ♯0.25 *. z)
    else
      let fin (u rest : Cx F) (sgn : F) : Cx F :=
        let u2 := u *. u
        let u4 := u2 *. u2
        let sum := u +. u2 *. (♯(cli2dBf[0]) +. u *. (♯(cli2dBf[1]) +. u2 *. (♯(cli2dBf[2]) +. u2 *. ♯(cli2dBf[3]) +. u4 *. (♯(cli2dBf[4]) +. u2 *. ♯(cli2dBf[5])) +. u4 *. u4 *. (♯(cli2dBf[6]) +. u2 *. ♯(cli2dBf[7]) +. u4 *. (♯(cli2dBf[8]) +. u2 *. ♯(cli2dBf[9]))))))
        sgn *. sum +. rest
      if rz <=. ♯0.5 then
        if nz >. ♯1 then
          let lz := (xlog (∸z))
          fin (∸(clog1p (∸♯1 /. z))) (∸♯0.5 *. lz *. lz -. PI *. PI /. ♯6) ∸♯1
        else
          fin (∸(clog1p (∸z))) (Cx.ofReal ♯0) ♯1
      else
        if nz <=. ♯2 *. rz then
          let u := ∸(xlog z)
          fin u (u *. (clog1p (∸z)) +. PI *. PI /. ♯6) ∸♯1
        else
          let lz := (xlog (∸z))
          fin (∸(clog1p (∸♯1 /. z))) (∸♯0.5 *. lz *. lz -. PI *. PI /. ♯6) ∸♯1

/-- `long double _Complex cli2l(long double _Complex z)` (Li2.c 462-554).
The `u`, `rest`, `sgn` set in the branches are passed to `fin`, the final `return`. -/
def cli2l (Li2r : F → F) {n : Nat} (bf : Vector ℚ (n + 2)) (z : Cx F) : Cx F :=
  let PI : F := ♯3.14159265358979323846264338327950288
  let rz := z.re
  let iz := z.im
  if iz ==. ♯0 then
    if rz <=. ♯1 then ⟨(Li2r rz), iz⟩
    else ⟨(Li2r rz), ∸PI *. (xlog rz)⟩
  else
    let nz := rz *. rz +. iz *. iz
    if nz <. FOps.eps then z *. (♯1 +. ♯0.25 *. z)
    else
      let fin (u rest : Cx F) (sgn : F) : Cx F :=
        let u2 := u *. u
        let sum := csum 2 u2 bf
        let sum := u +. u2 *. (♯(bf[0]) +. u *. (♯(bf[1]) +. sum))
        sgn *. sum +. rest
      if rz <=. ♯0.5 then
        if nz >. ♯1 then
          let lz := (xlog (∸z))
          fin (∸(clog1p (∸♯1 /. z))) (∸♯0.5 *. lz *. lz -. PI *. PI /. ♯6) ∸♯1
        else
          fin (∸(clog1p (∸z))) (Cx.ofReal ♯0) ♯1
      else
        if nz <=. ♯2 *. rz then
          let u := ∸(xlog z)
          fin u (u *. (clog1p (∸z)) +. PI *. PI /. ♯6) ∸♯1
        else
          let lz := (xlog (∸z))
          fin (∸(clog1p (∸♯1 /. z))) (∸♯0.5 *. lz *. lz -. PI *. PI /. ♯6) ∸♯1

/-- `cli2l` for LDBL_DIG <= 18 (Li2.c 462-554) -/
def cli2l18 (z : Cx F) : Cx F := cli2l li2l18 cli2l18Bf z
/-- `cli2l` for LDBL_DIG > 18 (Li2.c 462-554) -/
def cli2l36 (z : Cx F) : Cx F := cli2l li2l36 cli2l36Bf z

end
end Polylog.C
