import Verif.Model.ClReduce

/-! # `Cl6.cpp` -/

namespace Polylog

/-! ## Coefficient tables -/

/-- `P` (Cl6.cpp 50-53) -/
def cl6dloP : Vector ℚ 4 :=
  #v[
    1.0369277551433699, -2.087195444107175e-1, 2.0652251045312954e-2, -1.383438138256840e-4]

/-- `Q` (Cl6.cpp 54-57) -/
def cl6dloQ : Vector ℚ 4 :=
  #v[
    1, -8.0784096827362542e-3, 5.8074568862993102e-6, -5.1960620033050114e-10]

/-- `P` (Cl6.cpp 64-68) -/
def cl6dhiP : Vector ℚ 5 :=
  #v[
    7.9544504578027050e-1, -1.9255025309738589e-1, 1.5805208288846591e-2, -5.4175380521534706e-4,
    6.7577493541009068e-6]

/-- `Q` (Cl6.cpp 69-73) -/
def cl6dhiQ : Vector ℚ 6 :=
  #v[
    1, -7.0798422394109274e-2, 7.1744189715634762e-4, 3.9098747334347093e-6, 3.5669441618295266e-8,
    2.5315391843409925e-10]

/-- `P` (Cl6.cpp 126-135) -/
def cl6lloP : Vector ℚ 8 :=
  #v[
    1.036927755143369926331365486457034168065, -2.660560946045374649259428347964066528011e-1,
    3.329570271230632447915886341952627002426e-2, -1.510595936295153930344410647448777133733e-3,
    3.131533341760691526435978423292286070924e-5, -3.182202696889770889861949924913754657738e-7,
    1.502154861660275591001686250751888925088e-9, -2.530301425170917471647697924032269884340e-12]

/-- `Q` (Cl6.cpp 136-146) -/
def cl6lloQ : Vector ℚ 9 :=
  #v[
    1, -6.337305283354669272645114902626308743354e-2, 1.515620531828504731765511986731389626117e-3,
    -1.701012841394302177981550973231789765121e-5, 9.012790948792709615665799862069582273389e-8,
    -1.955750290547090446555264920849355913809e-10, 1.125635205633553699806475976092388993586e-13,
    -3.414909518610593288941467030106839852619e-17, 2.731334891221423274951783991445121711509e-20]

/-- `P` (Cl6.cpp 157-181) -/
def cl6lhiP : Vector ℚ 23 :=
  #v[
    7.954450457802705032518570844852029808415e-1, -1.979654488543484542796423982466857472184,
    2.434867838946397357375315454192170616124, -1.964425998279360367244413531701686788004,
    1.163493279389496220127087149386609481819, -5.364077005864988957572986042062186039135e-1,
    1.991451450604170643782194918551652235412e-1, -6.075285910357297275594322567072299864962e-2,
    1.540382986766113987053539678403427170024e-2, -3.262283827598416962628772540178344338003e-3,
    5.770138838748397202025797274794204575025e-4, -8.484414959829259817085085809443855753227e-5,
    1.028090385459798495867863677951863946204e-5, -1.013685169455150840547824060456243954836e-6,
    7.999945234418244274075829768407844359782e-8, -4.952891486250932501218801565751739529817e-9,
    2.348815233867171539009806063660356488830e-10, -8.290157415183592261669982284003187521338e-12,
    2.099356902503040843690329973355214193519e-13, -3.624780995036058134427748307780059725260e-15,
    3.942847910228622725482057878552182375210e-17, -2.345906560814244916985213074113978675514e-19,
    5.497397893599040802663932665275542828208e-22]

/-- `Q` (Cl6.cpp 182-206) -/
def cl6lhiQ : Vector ℚ 23 :=
  #v[
    1, -2.317470577719543024485753572740604958739, 2.657078821297694611895446031834996152906,
    -1.998173132007341993679896448865948292346, 1.101652499108299120694677562656808297062,
    -4.714605359562262375267465521671001054303e-1, 1.617420872947402588595250105881596491551e-1,
    -4.529168129075646577813431788905728209674e-2, 1.044157981053687467828669325295558925061e-2,
    -1.984415953027051010511439725524140293510e-3, 3.093087663153734127422305801345643761966e-4,
    -3.908979880746900739955710393100816436543e-5, 3.932920430793276196786510478170661211424e-6,
    -3.069947838220881985252402565106441299447e-7, 1.796593245006812188327588557650112423621e-8,
    -7.547660787922061824124166989056610198020e-10, 2.154298038494995924762486242481055338867e-11,
    -3.878728177963117873055418445714408964957e-13, 3.933225726003866890018525083062372496392e-15,
    -1.816273280755794317176857308245737055922e-17, 1.999376255104830360180352396370413061880e-20,
    1.409076511280851323909957285090860978867e-23, 1.442619469440665628791395058095914522784e-26]

section
variable {F : Type} [FOps F]

/-- numeric literal -/
local notation:max "♯" q:max => (FOps.lit (q : ℚ) : F)

/-- `double Cl6(double x)` (Cl6.cpp 19-86) -/
def Cl6d (x : F) : F :=
  let PI : F := ♯3.14159265358979324
  let PIH := PI /. ♯2
  let PI28 := PI *. PI /. ♯8
  let xs := reduceSgn PI ♯0.0019353071795864769253 x
  let x := xs.1
  let sgn := xs.2
  if x ==. ♯0 then x
  else if x ==. PI then ♯0
  else if x <. PIH then
    let y := x *. x
    let y2 := y *. y
    let p := ♯(cl6dloP[0]) +. y *. ♯(cl6dloP[1]) +. y2 *. (♯(cl6dloP[2]) +. y *. ♯(cl6dloP[3]))
    let q := ♯(cl6dloQ[0]) +. y *. ♯(cl6dloQ[1]) +. y2 *. (♯(cl6dloQ[2]) +. y *. ♯(cl6dloQ[3]))
    let h := x *. (p /. q -. ♯1 /. ♯120 *. y2 *. (xlog x))
    sgn *. h
  else
    let y := PI -. x
    let z := y *. y -. PI28
    let z2 := z *. z
    let z4 := z2 *. z2
    let p := ♯(cl6dhiP[0]) +. z *. ♯(cl6dhiP[1]) +. z2 *. (♯(cl6dhiP[2]) +. z *. ♯(cl6dhiP[3])) +. z4 *. ♯(cl6dhiP[4])
    let q := ♯(cl6dhiQ[0]) +. z *. ♯(cl6dhiQ[1]) +. z2 *. (♯(cl6dhiQ[2]) +. z *. ♯(cl6dhiQ[3])) +. z4 *. (♯(cl6dhiQ[4]) +. z *. ♯(cl6dhiQ[5]))
    let h := y *. p /. q
    sgn *. h

/-- `long double Cl6(long double x)` (Cl6.cpp 95-229) -/
def Cl6l (x : F) : F :=
  let PI : F := ♯3.14159265358979323846264338327950288
  let PIH := PI /. ♯2
  let PI28 := PI *. PI /. ♯8
  let xs := reduceSgn PI ♯0.0019353071795864769252867665590057683943 x
  let x := xs.1
  let sgn := xs.2
  if x ==. ♯0 then x
  else if x ==. PI then ♯0
  else if x <. PIH then
    let y := x *. x
    let y2 := y *. y
    let y4 := y2 *. y2
    let y8 := y4 *. y4
    let p := ♯(cl6lloP[0]) +. y *. ♯(cl6lloP[1]) +. y2 *. (♯(cl6lloP[2]) +. y *. ♯(cl6lloP[3])) +. y4 *. (♯(cl6lloP[4]) +. y *. ♯(cl6lloP[5]) +. y2 *. (♯(cl6lloP[6]) +. y *. ♯(cl6lloP[7])))
    let q := ♯(cl6lloQ[0]) +. y *. ♯(cl6lloQ[1]) +. y2 *. (♯(cl6lloQ[2]) +. y *. ♯(cl6lloQ[3])) +. y4 *. (♯(cl6lloQ[4]) +. y *. ♯(cl6lloQ[5]) +. y2 *. (♯(cl6lloQ[6]) +. y *. ♯(cl6lloQ[7]))) +. y8 *. ♯(cl6lloQ[8])
    let h := x *. (p /. q -. ♯1 /. ♯120 *. y2 *. (xlog x))
    sgn *. h
  else
    let y := PI -. x
    let z := y *. y -. PI28
    let z2 := z *. z
    let z4 := z2 *. z2
    let z8 := z4 *. z4
    let z16 := z8 *. z8
    let p := ♯(cl6lhiP[0]) +. z *. ♯(cl6lhiP[1]) +. z2 *. (♯(cl6lhiP[2]) +. z *. ♯(cl6lhiP[3])) +. z4 *. (♯(cl6lhiP[4]) +. z *. ♯(cl6lhiP[5]) +. z2 *. (♯(cl6lhiP[6]) +. z *. ♯(cl6lhiP[7]))) +. z8 *. (♯(cl6lhiP[8]) +. z *. ♯(cl6lhiP[9]) +. z2 *. (♯(cl6lhiP[10]) +. z *. ♯(cl6lhiP[11])) +. z4 *. (♯(cl6lhiP[12]) +. z *. ♯(cl6lhiP[13]) +. z2 *. (♯(cl6lhiP[14]) +. z *. ♯(cl6lhiP[15])))) +. z16 *. (♯(cl6lhiP[16]) +. z *. ♯(cl6lhiP[17]) +. z2 *. (♯(cl6lhiP[18]) +. z *. ♯(cl6lhiP[19])) +. z4 *. (♯(cl6lhiP[20]) +. z *. ♯(cl6lhiP[21]) +. z2 *. ♯(cl6lhiP[22])))
    let q := ♯(cl6lhiQ[0]) +. z *. ♯(cl6lhiQ[1]) +. z2 *. (♯(cl6lhiQ[2]) +. z *. ♯(cl6lhiQ[3])) +. z4 *. (♯(cl6lhiQ[4]) +. z *. ♯(cl6lhiQ[5]) +. z2 *. (♯(cl6lhiQ[6]) +. z *. ♯(cl6lhiQ[7]))) +. z8 *. (♯(cl6lhiQ[8]) +. z *. ♯(cl6lhiQ[9]) +. z2 *. (♯(cl6lhiQ[10]) +. z *. ♯(cl6lhiQ[11])) +. z4 *. (♯(cl6lhiQ[12]) +. z *. ♯(cl6lhiQ[13]) +. z2 *. (♯(cl6lhiQ[14]) +. z *. ♯(cl6lhiQ[15])))) +. z16 *. (♯(cl6lhiQ[16]) +. z *. ♯(cl6lhiQ[17]) +. z2 *. (♯(cl6lhiQ[18]) +. z *. ♯(cl6lhiQ[19])) +. z4 *. (♯(cl6lhiQ[20]) +. z *. ♯(cl6lhiQ[21]) +. z2 *. ♯(cl6lhiQ[22])))
    let h := y *. p /. q
    sgn *. h

end
end Polylog
