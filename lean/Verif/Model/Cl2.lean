import Verif.Model.ClReduce

/-! # `Cl2.cpp` -/

namespace Polylog

/-! ## Coefficient tables -/

/-- `P` (Cl2.cpp 50-53) -/
def cl2dloP : Vector ℚ 4 :=
  #v[
    1.3888888888888889e-2, -4.3286930203743071e-4, 3.2779814789973427e-6, -3.6001540369575084e-9]

/-- `Q` (Cl2.cpp 54-57) -/
def cl2dloQ : Vector ℚ 4 :=
  #v[
    1, -3.6166589746694121e-2, 3.6015827281202639e-4, -8.3646182842184428e-7]

/-- `P` (Cl2.cpp 65-69) -/
def cl2dhiP : Vector ℚ 6 :=
  #v[
    6.4005702446195512e-1, -2.0641655351338783e-1, 2.4175305223497718e-2, -1.2355955287855728e-3,
    2.5649833551291124e-5, -1.4783829128773320e-7]

/-- `Q` (Cl2.cpp 70-74) -/
def cl2dhiQ : Vector ℚ 6 :=
  #v[
    1, -2.5299102015666356e-1, 2.2148751048467057e-2, -7.8183920462457496e-4,
    9.5432542196310670e-6, -1.8184302880448247e-8]

/-- `P` (Cl2.cpp 131-141) -/
def cl2lloP : Vector ℚ 9 :=
  #v[
    1.397578291120963523206040867955323306427e-2, -1.352264019891065415863834380176236559873e-3,
    5.292882735889014643812912154970234565053e-5, -1.073753987723414895538739538414225390109e-6,
    1.200707648340635046555652744163248062266e-8, -7.252858952718044684640648391665783926850e-11,
    2.140267450520462605982610727277758328875e-13, -2.396401118613241903411604342093433593468e-16,
    4.441828690926415235588391389499684215009e-20]

/-- `Q` (Cl2.cpp 142-152) -/
def cl2lloQ : Vector ℚ 9 :=
  #v[
    1, -1.018694323414614410071369720193716012304e-1, 4.248408782245281612900840467370146443889e-3,
    -9.337710301347963985908084056584187570954e-5, 1.159379163193822053103946363960603543601e-6,
    -8.083352720393357000801675734774176899515e-9, 2.949313240431512997069808854213308209519e-11,
    -4.742700419624204182400715964695278593777e-14, 2.158380636740175386190809152807629331877e-17]

/-- `P` (Cl2.cpp 165-179) -/
def cl2lhiP : Vector ℚ 13 :=
  #v[
    6.400570244619551220929428522356830562481e-1, -4.651631624886004423703445967760673575997e-1,
    1.487130845262105644024901814213146749895e-1, -2.749665174801454303884783494225610407035e-2,
    3.251522465413666561950482170352156048203e-3, -2.567438381297475310848635518657180974512e-4,
    1.372076105130164861564020074178493529151e-5, -4.924179093673498700461153483531075799113e-7,
    1.153267936031337440182387313169828395860e-8, -1.667578310677508029208023423625588832295e-10,
    1.348437292247918547169070120217729056878e-12, -5.052245092698477071447850656280954693011e-15,
    5.600638109466570497480415519182233229048e-18]

/-- `Q` (Cl2.cpp 180-194) -/
def cl2lhiQ : Vector ℚ 13 :=
  #v[
    1, -6.572465772185054284667746526549393897676e-1, 1.886234634096976582977630140163583172173e-1,
    -3.103347567899737687117030083178445406132e-2, 3.230860399291224478336071920154030050234e-3,
    -2.216546569335921728108984951507368387512e-4, 1.011949972138985643994631167412420906088e-5,
    -3.033400935206767852937290458763547850384e-7, 5.748454611964843057644023468691231929690e-9,
    -6.408350048413952604351408631173781906861e-11, 3.678584366662951864267349037579031493395e-13,
    -8.240439699357036167611014086997683837396e-16, 3.041049046123062158788159773779755292771e-19]

section
variable {F : Type} [FOps F]

/-- numeric literal -/
local notation:max "♯" q:max => (FOps.lit (q : ℚ) : F)

/-- `double Cl2(double x)` (Cl2.cpp 19-88) -/
def Cl2d (x : F) : F :=
  let PI : F := ♯3.14159265358979324
  let PIH := PI /. ♯2
  let PI28 := PI *. PI /. ♯8
  let xs := reduceSgn PI ♯0.0019353071795864769253 x
  let x := xs.1
  let sgn := xs.2
  if x ==. ♯0 then x
  else if x ==. PI then ♯0
  else if x <. PIH then
    let y := x *. x
    let y2 := y *. y
    let p := ♯(cl2dloP[0]) +. y *. ♯(cl2dloP[1]) +. y2 *. (♯(cl2dloP[2]) +. y *. ♯(cl2dloP[3]))
    let q := ♯(cl2dloQ[0]) +. y *. ♯(cl2dloQ[1]) +. y2 *. (♯(cl2dloQ[2]) +. y *. ♯(cl2dloQ[3]))
    let h := x *. (♯1 -. (xlog x) +. y *. p /. q)
    sgn *. h
  else
    let y := PI -. x
    let z := y *. y -. PI28
    let z2 := z *. z
    let z4 := z2 *. z2
    let p := ♯(cl2dhiP[0]) +. z *. ♯(cl2dhiP[1]) +. z2 *. (♯(cl2dhiP[2]) +. z *. ♯(cl2dhiP[3])) +. z4 *. (♯(cl2dhiP[4]) +. z *. ♯(cl2dhiP[5]))
    let q := ♯(cl2dhiQ[0]) +. z *. ♯(cl2dhiQ[1]) +. z2 *. (♯(cl2dhiQ[2]) +. z *. ♯(cl2dhiQ[3])) +. z4 *. (♯(cl2dhiQ[4]) +. z *. ♯(cl2dhiQ[5]))
    let h := y *. p /. q
    sgn *. h

/-- `long double Cl2(long double x)` (Cl2.cpp 101-211) -/
def Cl2l (x : F) : F :=
  let PI : F := ♯3.14159265358979323846264338327950288
  let PIH := PI /. ♯2
  let PI28 := PI *. PI /. ♯8
  let xs := reduceSgn PI ♯0.0019353071795864769252867665590057683943 x
  let x := xs.1
  let sgn := xs.2
  if x ==. ♯0 then x
  else if x ==. PI then ♯0
  else if x <. PIH then
    let y := x *. x
    let z := y -. PI28
    let z2 := z *. z
    let z4 := z2 *. z2
    let z8 := z4 *. z4
    let p := ♯(cl2lloP[0]) +. z *. ♯(cl2lloP[1]) +. z2 *. (♯(cl2lloP[2]) +. z *. ♯(cl2lloP[3])) +. z4 *. (♯(cl2lloP[4]) +. z *. ♯(cl2lloP[5]) +. z2 *. (♯(cl2lloP[6]) +. z *. ♯(cl2lloP[7]))) +. z8 *. ♯(cl2lloP[8])
    let q := ♯(cl2lloQ[0]) +. z *. ♯(cl2lloQ[1]) +. z2 *. (♯(cl2lloQ[2]) +. z *. ♯(cl2lloQ[3])) +. z4 *. (♯(cl2lloQ[4]) +. z *. ♯(cl2lloQ[5]) +. z2 *. (♯(cl2lloQ[6]) +. z *. ♯(cl2lloQ[7]))) +. z8 *. ♯(cl2lloQ[8])
    let h := x *. (♯1 -. (xlog x) +. y *. p /. q)
    sgn *. h
  else
    let y := PI -. x
    let z := y *. y -. PI28
    let z2 := z *. z
    let z4 := z2 *. z2
    let z8 := z4 *. z4
    let p := ♯(cl2lhiP[0]) +. z *. ♯(cl2lhiP[1]) +. z2 *. (♯(cl2lhiP[2]) +. z *. ♯(cl2lhiP[3])) +. z4 *. (♯(cl2lhiP[4]) +. z *. ♯(cl2lhiP[5]) +. z2 *. (♯(cl2lhiP[6]) +. z *. ♯(cl2lhiP[7]))) +. z8 *. (♯(cl2lhiP[8]) +. z *. ♯(cl2lhiP[9]) +. z2 *. (♯(cl2lhiP[10]) +. z *. ♯(cl2lhiP[11])) +. z4 *. ♯(cl2lhiP[12]))
    let q := ♯(cl2lhiQ[0]) +. z *. ♯(cl2lhiQ[1]) +. z2 *. (♯(cl2lhiQ[2]) +. z *. ♯(cl2lhiQ[3])) +. z4 *. (♯(cl2lhiQ[4]) +. z *. ♯(cl2lhiQ[5]) +. z2 *. (♯(cl2lhiQ[6]) +. z *. ♯(cl2lhiQ[7]))) +. z8 *. (♯(cl2lhiQ[8]) +. z *. ♯(cl2lhiQ[9]) +. z2 *. (♯(cl2lhiQ[10]) +. z *. ♯(cl2lhiQ[11])) +. z4 *. ♯(cl2lhiQ[12]))
    let h := y *. p /. q
    sgn *. h

end
end Polylog
