import Verif.Model.ClReduce

/-! # `Cl4.cpp` -/

namespace Polylog

/-! ## Coefficient tables -/

/-- `P` (Cl4.cpp 51-54) -/
def cl4dloP : Vector ℚ 4 :=
  #v[
    -3.0555555555555556e-1, 6.0521392328447206e-3, -1.9587493942041528e-5, -3.1137343767030358e-8]

/-- `Q` (Cl4.cpp 55-58) -/
def cl4dloQ : Vector ℚ 4 :=
  #v[
    1, -2.2079728398400851e-2, 1.0887447112236682e-4, -6.1847621370547954e-8]

/-- `P` (Cl4.cpp 65-69) -/
def cl4dhiP : Vector ℚ 6 :=
  #v[
    7.6223911686491336e-1, -2.4339587368267260e-1, 2.8715364937979943e-2, -1.5368612510964667e-3,
    3.6261044225761673e-5, -2.8557977333851308e-7]

/-- `Q` (Cl4.cpp 70-74) -/
def cl4dhiQ : Vector ℚ 6 :=
  #v[
    1, -1.7465715261403233e-1, 9.5439417991615653e-3, -1.7325070821666274e-4,
    5.9283675098376635e-7, 9.4127575773361230e-10]

/-- `P` (Cl4.cpp 128-138) -/
def cl4lloP : Vector ℚ 9 :=
  #v[
    -3.064148293902562247016704418203843255123e-1, 2.505569295848759195239609343375835160555e-2,
    -8.092489304915887233846804452184668671559e-4, 1.306550392088097227871332697836673781161e-5,
    -1.091861195748019042041801413413722149520e-7, 4.290976258123337917062729924440640694818e-10,
    -4.827057875035942039653217415564619613330e-13, -7.817994926896706571532523150572289005814e-16,
    1.005354194675259498587105145642652708124e-18]

/-- `Q` (Cl4.cpp 139-149) -/
def cl4lloQ : Vector ℚ 9 :=
  #v[
    1, -8.405033099067044445000733863730421988529e-2, 2.827113467192315016976789998041672862170e-3,
    -4.865778884542162517878400745754972885997e-5, 4.544079814149520679837030712405877787979e-7,
    -2.246626075063535176123041843073598887706e-9, 5.278103491358313047352307496085513128432e-12,
    -4.503548404587830179829476685164670510929e-15, 5.683277279497885707083902179699889410498e-19]

/-- `P` (Cl4.cpp 162-176) -/
def cl4lhiP : Vector ℚ 13 :=
  #v[
    7.622391168649133627869594744879702180493e-1, -1.010231891148264580184081150011868846220,
    5.593311843617106683456367723756675040735e-1, -1.750142535337254911463918175625637736546e-1,
    3.444639642923636356477676643239523643873e-2, -4.467089630163625626375503936549208950240e-3,
    3.886778570388940085712534905298979385012e-4, -2.267243475184570369108265113505191140730e-5,
    8.702335438867849048873191203867941600263e-7, -2.109129915929703527128733018891419256495e-8,
    2.988467123764362417450870076317332442258e-10, -2.133050389878217363160872116919842900528e-12,
    5.379728143941033611125864127082270782090e-15]

/-- `Q` (Cl4.cpp 177-191) -/
def cl4lhiQ : Vector ℚ 13 :=
  #v[
    1, -1.180687938097183154430487264715729257263, 5.601395009696004947928229952758353602894e-1,
    -1.452335710129900283499882062220239913044e-1, 2.262139281960755856101092904992480836291e-2,
    -2.192073007443907755835491584063761368816e-3, 1.329216132182395210305478468336390325445e-4,
    -4.948002266894020612513545634482271857510e-6, 1.075239424448883617918347989934070034554e-7,
    -1.231942925472515536287130721129266117605e-9, 5.987816416306400663411961902200439505519e-12,
    -6.217050327376472635914508068068185584426e-15, -3.160114789318241107017689802541627876077e-18]

section
variable {F : Type} [FOps F]

/-- numeric literal -/
local notation:max "♯" q:max => (FOps.lit (q : ℚ) : F)

/-- `double Cl4(double x)` (Cl4.cpp 19-87) -/
def Cl4d (x : F) : F :=
  let PI : F := ♯3.14159265358979324
  let PIH := PI /. ♯2
  let PI28 := PI *. PI /. ♯8
  let zeta3 : F := ♯1.2020569031595943
  let xs := reduceSgn PI ♯0.0019353071795864769253 x
  let x := xs.1
  let sgn := xs.2
  if x ==. ♯0 then x
  else if x ==. PI then ♯0
  else if x <. PIH then
    let y := x *. x
    let y2 := y *. y
    let p := ♯(cl4dloP[0]) +. y *. ♯(cl4dloP[1]) +. y2 *. (♯(cl4dloP[2]) +. y *. ♯(cl4dloP[3]))
    let q := ♯(cl4dloQ[0]) +. y *. ♯(cl4dloQ[1]) +. y2 *. (♯(cl4dloQ[2]) +. y *. ♯(cl4dloQ[3]))
    let h := x *. (zeta3 +. y *. (p /. q +. ♯1 /. ♯6 *. (xlog x)))
    sgn *. h
  else
    let y := PI -. x
    let z := y *. y -. PI28
    let z2 := z *. z
    let z4 := z2 *. z2
    let p := ♯(cl4dhiP[0]) +. z *. ♯(cl4dhiP[1]) +. z2 *. (♯(cl4dhiP[2]) +. z *. ♯(cl4dhiP[3])) +. z4 *. (♯(cl4dhiP[4]) +. z *. ♯(cl4dhiP[5]))
    let q := ♯(cl4dhiQ[0]) +. z *. ♯(cl4dhiQ[1]) +. z2 *. (♯(cl4dhiQ[2]) +. z *. ♯(cl4dhiQ[3])) +. z4 *. (♯(cl4dhiQ[4]) +. z *. ♯(cl4dhiQ[5]))
    let h := y *. p /. q
    sgn *. h

/-- `long double Cl4(long double x)` (Cl4.cpp 96-208) -/
def Cl4l (x : F) : F :=
  let PI : F := ♯3.14159265358979323846264338327950288
  let PIH := PI /. ♯2
  let PI28 := PI *. PI /. ♯8
  let zeta3 : F := ♯1.2020569031595942853997381615114499908
  let xs := reduceSgn PI ♯0.0019353071795864769252867665590057683943 x
  let x := xs.1
  let sgn := xs.2
  if x ==. ♯0 then x
  else if x ==. PI then ♯0
  else if x <. PIH then
    let y := x *. x
    let z := y -. PI28
    let z2 := z *. z
    let z4 := z2 *. z2
    let z8 := z4 *. z4
    let p := ♯(cl4lloP[0]) +. z *. ♯(cl4lloP[1]) +. z2 *. (♯(cl4lloP[2]) +. z *. ♯(cl4lloP[3])) +. z4 *. (♯(cl4lloP[4]) +. z *. ♯(cl4lloP[5]) +. z2 *. (♯(cl4lloP[6]) +. z *. ♯(cl4lloP[7]))) +. z8 *. ♯(cl4lloP[8])
    let q := ♯(cl4lloQ[0]) +. z *. ♯(cl4lloQ[1]) +. z2 *. (♯(cl4lloQ[2]) +. z *. ♯(cl4lloQ[3])) +. z4 *. (♯(cl4lloQ[4]) +. z *. ♯(cl4lloQ[5]) +. z2 *. (♯(cl4lloQ[6]) +. z *. ♯(cl4lloQ[7]))) +. z8 *. ♯(cl4lloQ[8])
    let h := x *. (zeta3 +. y *. (p /. q +. ♯1 /. ♯6 *. (xlog x)))
    sgn *. h
  else
    let y := PI -. x
    let z := y *. y -. PI28
    let z2 := z *. z
    let z4 := z2 *. z2
    let z8 := z4 *. z4
    let p := ♯(cl4lhiP[0]) +. z *. ♯(cl4lhiP[1]) +. z2 *. (♯(cl4lhiP[2]) +. z *. ♯(cl4lhiP[3])) +. z4 *. (♯(cl4lhiP[4]) +. z *. ♯(cl4lhiP[5]) +. z2 *. (♯(cl4lhiP[6]) +. z *. ♯(cl4lhiP[7]))) +. z8 *. (♯(cl4lhiP[8]) +. z *. ♯(cl4lhiP[9]) +. z2 *. (♯(cl4lhiP[10]) +. z *. ♯(cl4lhiP[11])) +. z4 *. ♯(cl4lhiP[12]))
    let q := ♯(cl4lhiQ[0]) +. z *. ♯(cl4lhiQ[1]) +. z2 *. (♯(cl4lhiQ[2]) +. z *. ♯(cl4lhiQ[3])) +. z4 *. (♯(cl4lhiQ[4]) +. z *. ♯(cl4lhiQ[5]) +. z2 *. (♯(cl4lhiQ[6]) +. z *. ♯(cl4lhiQ[7]))) +. z8 *. (♯(cl4lhiQ[8]) +. z *. ♯(cl4lhiQ[9]) +. z2 *. (♯(cl4lhiQ[10]) +. z *. ♯(cl4lhiQ[11])) +. z4 *. ♯(cl4lhiQ[12]))
    let h := y *. p /. q
    sgn *. h

end
end Polylog
