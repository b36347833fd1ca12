import Verif.Model.CReduce

/-! # `src/c/Cl3.c` -/

namespace Polylog.C

/-! ## Coefficient tables -/

/-- `P` (Cl3.c 43-46) -/
def cl3dloP : Vector ℚ 4 :=
  #v[
    -7.5000000000000001e-1, 1.5707637881835541e-2, -3.5426736843494423e-5, -2.4408931585123682e-7]

/-- `Q` (Cl3.c 47-50) -/
def cl3dloQ : Vector ℚ 4 :=
  #v[
    1, -2.5573146805410089e-2, 1.5019774853075050e-4, -1.0648552418111624e-7]

/-- `P` (Cl3.c 57-61) -/
def cl3dhiP : Vector ℚ 6 :=
  #v[
    -4.9017024647634973e-1, 4.1559155224660940e-1, -7.9425531417806701e-2, 5.9420152260602943e-3,
    -1.8302227163540190e-4, 1.8027408929418533e-6]

/-- `Q` (Cl3.c 62-66) -/
def cl3dhiQ : Vector ℚ 6 :=
  #v[
    1, -1.9495887541644712e-1, 1.2059410236484074e-2, -2.5235889467301620e-4,
    1.0199322763377861e-6, 1.9612106499469264e-9]

/-- `P` (Cl3.c 115-125) -/
def cl3lloP : Vector ℚ 9 :=
  #v[
    -7.543014859124236086513359303676733979191e-1, 6.402301836868117230156416581268033099875e-2,
    -2.127896098530218208963041584986434591351e-3, 3.463165731182357705183279540808782152120e-5,
    -2.754862729116033380287404534774919686497e-7, 8.052538909862304289974104174276673516832e-10,
    1.346114649676610056675054469405688579693e-12, -9.624573206929882592200009480606020302094e-15,
    8.275206821858140239162250779757575466957e-18]

/-- `Q` (Cl3.c 126-136) -/
def cl3lloQ : Vector ℚ 9 :=
  #v[
    1, -8.951892304715004068142060061380434166813e-2, 3.220693717342225233144437822487371940443e-3,
    -5.958192714621426181787114562889325229941e-5, 6.014846196895560469030445734629791881016e-7,
    -3.236076181461994705051496031602571907271e-9, 8.340438662048507021623726184074556662658e-12,
    -7.892956808623089379250167198187183753861e-15, 1.129224149808716947279552120998699589829e-18]

/-- `P` (Cl3.c 149-173) -/
def cl3lhiP : Vector ℚ 23 :=
  #v[
    -4.901702464763497295023867883920487195585e-1, 1.383627100551763417738051599449773818178,
    -1.844002682148364621305380083013461847933, 1.563880808732850065996446127297492925273,
    -9.527454451278452672142805742734474223237e-1, 4.444304509117015442253289733308961077770e-1,
    -1.647875030685306314220378800538115071507e-1, 4.967825071601030726970818647842992410835e-2,
    -1.233860796084952133261104412894436518532e-2, 2.541279038266908987516674931803683131910e-3,
    -4.345955367166196341753615932772484893528e-4, 6.151865219319515057283373610462827653393e-5,
    -7.156818018509654192384040775515653410043e-6, 6.767889054848634496309672687089961659404e-7,
    -5.125309226510821380097226378219650957199e-8, 3.048859537856972635577813264215347682070e-9,
    -1.389976271585941361238252210621219258086e-10, 4.704164267289991379740337499442804533393e-12,
    -1.132342670092216676813702977101988168170e-13, 1.824345098049373687569378456747139377638e-15,
    -1.791641454777807114948357142007867857930e-17, 9.108765355959209109895175829397816299966e-20,
    -1.660401736402055166724718838052384514483e-22]

/-- `Q` (Cl3.c 174-198) -/
def cl3lhiQ : Vector ℚ 23 :=
  #v[
    1, -2.169855465456334109398757427681231252557, 2.322591192513290976964726281913672818074,
    -1.625275527588871360012554245669893880287, 8.307827568524387115453112563337808771609e-1,
    -3.283520342971423622595752570043633453066e-1, 1.036112385177655663181226022787541960128e-1,
    -2.658049675854302301943410969110308213449e-2, 5.594232916811019674312451829387056772971e-3,
    -9.682117420514440669170644446720530951119e-4, 1.373775076479943342597652514135717056402e-4,
    -1.585377827830451443222728940538258932617e-5, 1.469487119911154060364041910223012615302e-6,
    -1.075235400618754592467376790070172663512e-7, 6.072406717259994215240055677751661462408e-9,
    -2.571318839166908430254322849495115672150e-10, 7.860204435599274911316716981969539571217e-12,
    -1.647194263529074575838983448164465153777e-13, 2.194513208755261829948257460166939183883e-15,
    -1.645669178927884807010050119309005828655e-17, 5.496854459511181731052565995680338061501e-20,
    -4.060391001681163801807157030538815464753e-23, -1.500455700173452211389785169624351996026e-26]

section
variable {F : Type} [FOps F]

/-- numeric literal -/
local notation:max "♯" q:max => (FOps.lit (q : ℚ) : F)

/-- `double cl3(double x)` (Cl3.c 16-79) -/
def cl3 (x : F) : F :=
  let PI : F := ♯3.14159265358979324
  let PIH := PI /. ♯2
  let PI28 := PI *. PI /. ♯8
  let zeta3 : F := ♯1.2020569031595943
  let x := reduceAbs PI ♯0.0019353071795864769253 x
  if x ==. ♯0 then zeta3
  else if x <. PIH then
    let y := x *. x
    let y2 := y *. y
    let p := ♯(cl3dloP[0]) +. y *. ♯(cl3dloP[1]) +. y2 *. (♯(cl3dloP[2]) +. y *. ♯(cl3dloP[3]))
    let q := ♯(cl3dloQ[0]) +. y *. ♯(cl3dloQ[1]) +. y2 *. (♯(cl3dloQ[2]) +. y *. ♯(cl3dloQ[3]))
    zeta3 +. y *. (p /. q +. (xlog x) /. ♯2)
  else
    let y := PI -. x
    let z := y *. y -. PI28
    let z2 := z *. z
    let z4 := z2 *. z2
    let p := ♯(cl3dhiP[0]) +. z *. ♯(cl3dhiP[1]) +. z2 *. (♯(cl3dhiP[2]) +. z *. ♯(cl3dhiP[3])) +. z4 *. (♯(cl3dhiP[4]) +. z *. ♯(cl3dhiP[5]))
    let q := ♯(cl3dhiQ[0]) +. z *. ♯(cl3dhiQ[1]) +. z2 *. (♯(cl3dhiQ[2]) +. z *. ♯(cl3dhiQ[3])) +. z4 *. (♯(cl3dhiQ[4]) +. z *. ♯(cl3dhiQ[5]))
    p /. q

/-- `long double cl3l(long double x)` (Cl3.c 88-221) -/
def cl3l (x : F) : F :=
  let PI : F := ♯3.14159265358979323846264338327950288
  let PIH := PI /. ♯2
  let PI28 := PI *. PI /. ♯8
  let zeta3 : F := ♯1.2020569031595942853997381615114499908
  let x := reduceAbs PI ♯0.0019353071795864769252867665590057683943 x
  if x ==. ♯0 then zeta3
  else if x <. PIH then
    let y := x *. x
    let z := y -. PI28
    let z2 := z *. z
    let z4 := z2 *. z2
    let z8 := z4 *. z4
    let p := ♯(cl3lloP[0]) +. z *. ♯(cl3lloP[1]) +. z2 *. (♯(cl3lloP[2]) +. z *. ♯(cl3lloP[3])) +. z4 *. (♯(cl3lloP[4]) +. z *. ♯(cl3lloP[5]) +. z2 *. (♯(cl3lloP[6]) +. z *. ♯(cl3lloP[7]))) +. z8 *. ♯(cl3lloP[8])
    let q := ♯(cl3lloQ[0]) +. z *. ♯(cl3lloQ[1]) +. z2 *. (♯(cl3lloQ[2]) +. z *. ♯(cl3lloQ[3])) +. z4 *. (♯(cl3lloQ[4]) +. z *. ♯(cl3lloQ[5]) +. z2 *. (♯(cl3lloQ[6]) +. z *. ♯(cl3lloQ[7]))) +. z8 *. ♯(cl3lloQ[8])
    zeta3 +. y *. (p /. q +. (xlog x) /. ♯2)
  else
    let y := PI -. x
    let z := y *. y -. PI28
    let z2 := z *. z
    let z4 := z2 *. z2
    let z8 := z4 *. z4
    let z16 := z8 *. z8
    let p := ♯(cl3lhiP[0]) +. z *. ♯(cl3lhiP[1]) +. z2 *. (♯(cl3lhiP[2]) +. z *. ♯(cl3lhiP[3])) +. z4 *. (♯(cl3lhiP[4]) +. z *. ♯(cl3lhiP[5]) +. z2 *. (♯(cl3lhiP[6]) +. z *. ♯(cl3lhiP[7]))) +. z8 *. (♯(cl3lhiP[8]) +. z *. ♯(cl3lhiP[9]) +. z2 *. (♯(cl3lhiP[10]) +. z *. ♯(cl3lhiP[11])) +. z4 *. (♯(cl3lhiP[12]) +. z *. ♯(cl3lhiP[13]) +. z2 *. (♯(cl3lhiP[14]) +. z *. ♯(cl3lhiP[15])))) +. z16 *. (♯(cl3lhiP[16]) +. z *. ♯(cl3lhiP[17]) +. z2 *. (♯(cl3lhiP[18]) +. z *. ♯(cl3lhiP[19])) +. z4 *. (♯(cl3lhiP[20]) +. z *. ♯(cl3lhiP[21]) +. z2 *. ♯(cl3lhiP[22])))
    let q := ♯(cl3lhiQ[0]) +. z *. ♯(cl3lhiQ[1]) +. z2 *. (♯(cl3lhiQ[2]) +. z *. ♯(cl3lhiQ[3])) +. z4 *. (♯(cl3lhiQ[4]) +. z *. ♯(cl3lhiQ[5]) +. z2 *. (♯(cl3lhiQ[6]) +. z *. ♯(cl3lhiQ[7]))) +. z8 *. (♯(cl3lhiQ[8]) +. z *. ♯(cl3lhiQ[9]) +. z2 *. (♯(cl3lhiQ[10]) +. z *. ♯(cl3lhiQ[11])) +. z4 *. (♯(cl3lhiQ[12]) +. z *. ♯(cl3lhiQ[13]) +. z2 *. (♯(cl3lhiQ[14]) +. z *. ♯(cl3lhiQ[15])))) +. z16 *. (♯(cl3lhiQ[16]) +. z *. ♯(cl3lhiQ[17]) +. z2 *. (♯(cl3lhiQ[18]) +. z *. ♯(cl3lhiQ[19])) +. z4 *. (♯(cl3lhiQ[20]) +. z *. ♯(cl3lhiQ[21]) +. z2 *. ♯(cl3lhiQ[22])))
    p /. q

end
end Polylog.C
