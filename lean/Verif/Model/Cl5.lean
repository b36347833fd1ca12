import Verif.Model.ClReduce

/-! # `Cl5.cpp` -/

namespace Polylog

/-! ## Coefficient tables -/

/-- `P` (Cl5.cpp 46-49) -/
def cl5dloP : Vector ℚ 4 :=
  #v[
    1.0369277551433699, -6.1354800479984468e-1, 9.4076401395712763e-2, -9.4056155866704436e-4]

/-- `Q` (Cl5.cpp 50-54) -/
def cl5dloQ : Vector ℚ 5 :=
  #v[
    1, -1.2073698633244778e-2, 1.3703409625482991e-5, -1.9701280330628469e-9,
    2.1944550184416500e-11]

/-- `P` (Cl5.cpp 61-65) -/
def cl5dhiP : Vector ℚ 6 :=
  #v[
    -4.5930112735784898e-1, 4.3720705508867954e-1, -7.5895226486465095e-2, 5.2244176912488065e-3,
    -1.5677716622013956e-4, 1.6641624171748576e-6]

/-- `Q` (Cl5.cpp 66-70) -/
def cl5dhiQ : Vector ℚ 6 :=
  #v[
    1, -1.2211486825401188e-1, 3.8940070749313620e-3, -2.2674805547074318e-5,
    -7.4383354448335299e-8, -3.4131758392216437e-10]

/-- `P` (Cl5.cpp 119-129) -/
def cl5lloP : Vector ℚ 9 :=
  #v[
    1.036927755143369926331365486457034168059, -6.658415657850437630906494266561003007593e-1,
    1.259003016280956661310195617144355854188e-1, -6.212244855421374019684377914106722032147e-3,
    1.306904675086766776780752497454855872743e-4, -1.301122318938781794973397940423670888074e-6,
    5.717682046130944699740232163126766430315e-9, -7.166730647779603072734193853044478650519e-12,
    -6.221283541257953085130453147995995181367e-15]

/-- `Q` (Cl5.cpp 130-140) -/
def cl5lloQ : Vector ℚ 9 :=
  #v[
    1, -6.250494683333583907004116232413530782665e-2, 1.473096513856482450087316982512306280017e-3,
    -1.623646824927319203504705952432918456484e-5, 8.353119806924927286335397331658035078824e-8,
    -1.681466989589289789440503472880056217026e-10, 6.148805322164900432117190884093933333085e-14,
    -5.433659481969077686644650549730628882111e-18, 2.805294177992899924191150639021652374105e-20]

/-- `P` (Cl5.cpp 151-174) -/
def cl5lhiP : Vector ℚ 22 :=
  #v[
    -4.593011273578489831122037919180632756992e-1, 1.401498550034362701805821755409735004849,
    -1.982304363064711766557880680480142023754, 1.759256162035262108299985791199116650552,
    -1.107291973389099556880709229657630417009, 5.268325404326907430154018183034221801285e-1,
    -1.965358651607522994714557697339746608190e-1, 5.871957972979889275145683305566978199622e-2,
    -1.420949697005558567627555469736533751386e-2, 2.796107583559495331461649354270877844625e-3,
    -4.465744740639093809792128449171996370363e-4, 5.748894292163274399653883756491192329322e-5,
    -5.896839706071169994406762984593861583644e-6, 4.744162040470895539630087398826359252082e-7,
    -2.935072474912184831415614463651445914914e-8, 1.362917540308020844217793474829589045233e-9,
    -4.607334782488962303281676898176385641774e-11, 1.088416571921417630560594614106156147693e-12,
    -1.693492466827010829186922354118958201170e-14, 1.579743944918170026644416986681028224058e-16,
    -7.454416400034827845657507019398034188457e-19, 1.198637161245584739862544324830094607612e-21]

/-- `Q` (Cl5.cpp 175-198) -/
def cl5lhiQ : Vector ℚ 22 :=
  #v[
    1, -2.221590435607426981424381339809382952069, 2.412461871413914536986570795505245816684,
    -1.694345897219170542301900522084726731706, 8.583400353918575152767736792978326398967e-1,
    -3.312119064957463423272973014087119757079e-1, 1.002294898527499697641480925721728343179e-1,
    -2.413139952253300495006378204579804376275e-2, 4.641991091392426345416434800383383313512e-3,
    -7.106571006177041202150584409076882380159e-4, 8.561490223086549530320523664905653696096e-5,
    -7.967787445964202721461699361010303143885e-6, 5.582421743796253821134150677212091680429e-7,
    -2.848005320309192458445894966140050403870e-8, 1.014286757743366612938336036904920512828e-9,
    -2.385238633505776782528334863036613070815e-11, 3.420301781310778564389954330829757801274e-13,
    -2.629398993349212252716804572483435975360e-15, 8.429482185232205831230867081060289901658e-18,
    -5.246319511505491796737303878146128855864e-21, -7.761839321681147483054193372291436641588e-25,
    2.417533650811564066454166411668509913721e-27]

section
variable {F : Type} [FOps F]

/-- numeric literal -/
local notation:max "♯" q:max => (FOps.lit (q : ℚ) : F)

/-- `double Cl5(double x)` (Cl5.cpp 19-83) -/
def Cl5d (x : F) : F :=
  let PI : F := ♯3.14159265358979324
  let PIH := PI /. ♯2
  let PI28 := PI *. PI /. ♯8
  let zeta5 : F := ♯1.0369277551433699
  let x := reduceAbs PI ♯0.0019353071795864769253 x
  if x ==. ♯0 then zeta5
  else if x <. PIH then
    let y := x *. x
    let y2 := y *. y
    let p := ♯(cl5dloP[0]) +. y *. ♯(cl5dloP[1]) +. y2 *. (♯(cl5dloP[2]) +. y *. ♯(cl5dloP[3]))
    let q := ♯(cl5dloQ[0]) +. y *. ♯(cl5dloQ[1]) +. y2 *. (♯(cl5dloQ[2]) +. y *. ♯(cl5dloQ[3]) +. y2 *. ♯(cl5dloQ[4]))
    p /. q -. ♯1 /. ♯24 *. y2 *. (xlog x)
  else
    let y := PI -. x
    let z := y *. y -. PI28
    let z2 := z *. z
    let z4 := z2 *. z2
    let p := ♯(cl5dhiP[0]) +. z *. ♯(cl5dhiP[1]) +. z2 *. (♯(cl5dhiP[2]) +. z *. ♯(cl5dhiP[3])) +. z4 *. (♯(cl5dhiP[4]) +. z *. ♯(cl5dhiP[5]))
    let q := ♯(cl5dhiQ[0]) +. z *. ♯(cl5dhiQ[1]) +. z2 *. (♯(cl5dhiQ[2]) +. z *. ♯(cl5dhiQ[3])) +. z4 *. (♯(cl5dhiQ[4]) +. z *. ♯(cl5dhiQ[5]))
    p /. q

/-- `long double Cl5(long double x)` (Cl5.cpp 92-221) -/
def Cl5l (x : F) : F :=
  let PI : F := ♯3.14159265358979323846264338327950288
  let PIH := PI /. ♯2
  let PI28 := PI *. PI /. ♯8
  let zeta5 : F := ♯1.036927755143369926331365486457034168057
  let x := reduceAbs PI ♯0.0019353071795864769252867665590057683943 x
  if x ==. ♯0 then zeta5
  else if x <. PIH then
    let y := x *. x
    let y2 := y *. y
    let y4 := y2 *. y2
    let y8 := y4 *. y4
    let p := ♯(cl5lloP[0]) +. y *. ♯(cl5lloP[1]) +. y2 *. (♯(cl5lloP[2]) +. y *. ♯(cl5lloP[3])) +. y4 *. (♯(cl5lloP[4]) +. y *. ♯(cl5lloP[5]) +. y2 *. (♯(cl5lloP[6]) +. y *. ♯(cl5lloP[7]))) +. y8 *. ♯(cl5lloP[8])
    let q := ♯(cl5lloQ[0]) +. y *. ♯(cl5lloQ[1]) +. y2 *. (♯(cl5lloQ[2]) +. y *. ♯(cl5lloQ[3])) +. y4 *. (♯(cl5lloQ[4]) +. y *. ♯(cl5lloQ[5]) +. y2 *. (♯(cl5lloQ[6]) +. y *. ♯(cl5lloQ[7]))) +. y8 *. ♯(cl5lloQ[8])
    p /. q -. ♯1 /. ♯24 *. y2 *. (xlog x)
  else
    let y := PI -. x
    let z := y *. y -. PI28
    let z2 := z *. z
    let z4 := z2 *. z2
    let z8 := z4 *. z4
    let z16 := z8 *. z8
    let p := ♯(cl5lhiP[0]) +. z *. ♯(cl5lhiP[1]) +. z2 *. (♯(cl5lhiP[2]) +. z *. ♯(cl5lhiP[3])) +. z4 *. (♯(cl5lhiP[4]) +. z *. ♯(cl5lhiP[5]) +. z2 *. (♯(cl5lhiP[6]) +. z *. ♯(cl5lhiP[7]))) +. z8 *. (♯(cl5lhiP[8]) +. z *. ♯(cl5lhiP[9]) +. z2 *. (♯(cl5lhiP[10]) +. z *. ♯(cl5lhiP[11])) +. z4 *. (♯(cl5lhiP[12]) +. z *. ♯(cl5lhiP[13]) +. z2 *. (♯(cl5lhiP[14]) +. z *. ♯(cl5lhiP[15])))) +. z16 *. (♯(cl5lhiP[16]) +. z *. ♯(cl5lhiP[17]) +. z2 *. (♯(cl5lhiP[18]) +. z *. ♯(cl5lhiP[19])) +. z4 *. (♯(cl5lhiP[20]) +. z *. ♯(cl5lhiP[21])))
    let q := ♯(cl5lhiQ[0]) +. z *. ♯(cl5lhiQ[1]) +. z2 *. (♯(cl5lhiQ[2]) +. z *. ♯(cl5lhiQ[3])) +. z4 *. (♯(cl5lhiQ[4]) +. z *. ♯(cl5lhiQ[5]) +. z2 *. (♯(cl5lhiQ[6]) +. z *. ♯(cl5lhiQ[7]))) +. z8 *. (♯(cl5lhiQ[8]) +. z *. ♯(cl5lhiQ[9]) +. z2 *. (♯(cl5lhiQ[10]) +. z *. ♯(cl5lhiQ[11])) +. z4 *. (♯(cl5lhiQ[12]) +. z *. ♯(cl5lhiQ[13]) +. z2 *. (♯(cl5lhiQ[14]) +. z *. ♯(cl5lhiQ[15])))) +. z16 *. (♯(cl5lhiQ[16]) +. z *. ♯(cl5lhiQ[17]) +. z2 *. (♯(cl5lhiQ[18]) +. z *. ♯(cl5lhiQ[19])) +. z4 *. (♯(cl5lhiQ[20]) +. z *. ♯(cl5lhiQ[21])))
    p /. q

end
end Polylog
