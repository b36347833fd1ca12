import Verif.Model.FLog

/-! # `src/fortran/Cl2.f90` ... `src/fortran/Cl6.f90` -/

namespace Polylog.Fortran

/-- `cp` (Cl2.f90 20-24) -/
def dcl2cp : Vector ℚ 4 :=
  #v[
    1.3888888888888889e-2, -4.3286930203743071e-4, 3.2779814789973427e-6, -3.6001540369575084e-9]

/-- `cq` (Cl2.f90 25-29) -/
def dcl2cq : Vector ℚ 4 :=
  #v[
    1, -3.6166589746694121e-2, 3.6015827281202639e-4, -8.3646182842184428e-7]

/-- `cr` (Cl2.f90 30-36) -/
def dcl2cr : Vector ℚ 6 :=
  #v[
    6.4005702446195512e-1, -2.0641655351338783e-1, 2.4175305223497718e-2, -1.2355955287855728e-3,
    2.5649833551291124e-5, -1.4783829128773320e-7]

/-- `cs` (Cl2.f90 37-43) -/
def dcl2cs : Vector ℚ 6 :=
  #v[
    1, -2.5299102015666356e-1, 2.2148751048467057e-2, -7.8183920462457496e-4,
    9.5432542196310670e-6, -1.8184302880448247e-8]

/-- `cp` (Cl3.f90 21-25) -/
def dcl3cp : Vector ℚ 4 :=
  #v[
    -7.5000000000000001e-1, 1.5707637881835541e-2, -3.5426736843494423e-5, -2.4408931585123682e-7]

/-- `cq` (Cl3.f90 26-30) -/
def dcl3cq : Vector ℚ 4 :=
  #v[
    1, -2.5573146805410089e-2, 1.5019774853075050e-4, -1.0648552418111624e-7]

/-- `cr` (Cl3.f90 31-37) -/
def dcl3cr : Vector ℚ 6 :=
  #v[
    -4.9017024647634973e-1, 4.1559155224660940e-1, -7.9425531417806701e-2, 5.9420152260602943e-3,
    -1.8302227163540190e-4, 1.8027408929418533e-6]

/-- `cs` (Cl3.f90 38-44) -/
def dcl3cs : Vector ℚ 6 :=
  #v[
    1, -1.9495887541644712e-1, 1.2059410236484074e-2, -2.5235889467301620e-4,
    1.0199322763377861e-6, 1.9612106499469264e-9]

/-- `cp` (Cl4.f90 21-25) -/
def dcl4cp : Vector ℚ 4 :=
  #v[
    -3.0555555555555556e-1, 6.0521392328447206e-3, -1.9587493942041528e-5, -3.1137343767030358e-8]

/-- `cq` (Cl4.f90 26-30) -/
def dcl4cq : Vector ℚ 4 :=
  #v[
    1, -2.2079728398400851e-2, 1.0887447112236682e-4, -6.1847621370547954e-8]

/-- `cr` (Cl4.f90 31-37) -/
def dcl4cr : Vector ℚ 6 :=
  #v[
    7.6223911686491336e-1, -2.4339587368267260e-1, 2.8715364937979943e-2, -1.5368612510964667e-3,
    3.6261044225761673e-5, -2.8557977333851308e-7]

/-- `cs` (Cl4.f90 38-44) -/
def dcl4cs : Vector ℚ 6 :=
  #v[
    1, -1.7465715261403233e-1, 9.5439417991615653e-3, -1.7325070821666274e-4,
    5.9283675098376635e-7, 9.4127575773361230e-10]

/-- `cp` (Cl5.f90 21-25) -/
def dcl5cp : Vector ℚ 4 :=
  #v[
    1.0369277551433699, -6.1354800479984468e-1, 9.4076401395712763e-2, -9.4056155866704436e-4]

/-- `cq` (Cl5.f90 26-31) -/
def dcl5cq : Vector ℚ 5 :=
  #v[
    1, -1.2073698633244778e-2, 1.3703409625482991e-5, -1.9701280330628469e-9,
    2.1944550184416500e-11]

/-- `cr` (Cl5.f90 32-38) -/
def dcl5cr : Vector ℚ 6 :=
  #v[
    -4.5930112735784898e-1, 4.3720705508867954e-1, -7.5895226486465095e-2, 5.2244176912488065e-3,
    -1.5677716622013956e-4, 1.6641624171748576e-6]

/-- `cs` (Cl5.f90 39-45) -/
def dcl5cs : Vector ℚ 6 :=
  #v[
    1, -1.2211486825401188e-1, 3.8940070749313620e-3, -2.2674805547074318e-5,
    -7.4383354448335299e-8, -3.4131758392216437e-10]

/-- `cp` (Cl6.f90 21-25) -/
def dcl6cp : Vector ℚ 4 :=
  #v[
    1.0369277551433699, -2.0871954441071750e-1, 2.0652251045312954e-2, -1.3834381382568400e-4]

/-- `cq` (Cl6.f90 26-30) -/
def dcl6cq : Vector ℚ 4 :=
  #v[
    1, -8.0784096827362542e-3, 5.8074568862993102e-6, -5.1960620033050114e-10]

/-- `cr` (Cl6.f90 31-36) -/
def dcl6cr : Vector ℚ 5 :=
  #v[
    7.9544504578027050e-1, -1.9255025309738589e-1, 1.5805208288846591e-2, -5.4175380521534706e-4,
    6.7577493541009068e-6]

/-- `cs` (Cl6.f90 37-43) -/
def dcl6cs : Vector ℚ 6 :=
  #v[
    1, -7.0798422394109274e-2, 7.1744189715634762e-4, 3.9098747334347093e-6, 3.5669441618295266e-8,
    2.5315391843409925e-10]

section
variable {F : Type} [FOps F]

/-- numeric literal -/
local notation:max "♯" q:max => (FOps.lit (q : ℚ) : F)

/-- Range reduction without sign (Cl3.f90 45-57, Cl5.f90 46-58): the final value of the argument variable -/
def reduceAbs (PI p1 x : F) : F :=
  let PI2 := ♯2 *. PI
  let x := if x <. ♯0 then ∸x else x
  let x := if x >=. PI2 then FOps.fmod x PI2 else x
  if x >. PI then (♯6.28125 -. x) +. p1 else x

/-- Range reduction with sign (Cl2.f90 44-61, Cl4.f90 45-62, Cl6.f90 44-61): the final value of the argument variable, and `sgn` -/
def reduceSgn (PI p1 x : F) : F × F :=
  let PI2 := ♯2 *. PI
  let xs : F × F := if x <. ♯0 then (∸x, ∸♯1) else (x, ♯1)
  let x := xs.1
  let sgn := xs.2
  let x := if x >=. PI2 then FOps.fmod x PI2 else x
  if x >. PI then ((♯6.28125 -. x) +. p1, ∸sgn) else (x, sgn)

/-- `double precision function dcl2(x)` (Cl2.f90 15-85): the value and the final value of the variable `x` -/
def dcl2 (x : F) : Ret F :=
  let PI : F := ♯3.14159265358979324
  let PIH := PI /. ♯2
  let PI28 := PI *. PI /. ♯8
  let xs := reduceSgn PI ♯0.0019353071795864769253 x
  let x := xs.1
  let sgn := xs.2
  if x ==. ♯0 then ⟨x, x⟩
  else if x ==. PI then ⟨♯0, x⟩
  else if x <. PIH then
    let y := x *. x
    let z := y *. y
    let p := ♯(dcl2cp[0]) +. y *. ♯(dcl2cp[1]) +. z *. (♯(dcl2cp[2]) +. y *. ♯(dcl2cp[3]))
    let q := ♯(dcl2cq[0]) +. y *. ♯(dcl2cq[1]) +. z *. (♯(dcl2cq[2]) +. y *. ♯(dcl2cq[3]))
    ⟨sgn *. x *. (♯1 -. (xlog x) +. y *. p /. q), x⟩
  else
    let y := PI -. x
    let z := y *. y -. PI28
    let z2 := z *. z
    let z4 := z2 *. z2
    let p := ♯(dcl2cr[0]) +. z *. ♯(dcl2cr[1]) +. z2 *. (♯(dcl2cr[2]) +. z *. ♯(dcl2cr[3])) +. z4 *. (♯(dcl2cr[4]) +. z *. ♯(dcl2cr[5]))
    let q := ♯(dcl2cs[0]) +. z *. ♯(dcl2cs[1]) +. z2 *. (♯(dcl2cs[2]) +. z *. ♯(dcl2cs[3])) +. z4 *. (♯(dcl2cs[4]) +. z *. ♯(dcl2cs[5]))
    ⟨sgn *. y *. p /. q, x⟩

/-- `double precision function dcl3(x)` (Cl3.f90 15-80): the value and the final value of the variable `x` -/
def dcl3 (x : F) : Ret F :=
  let PI : F := ♯3.14159265358979324
  let PIH := PI /. ♯2
  let PI28 := PI *. PI /. ♯8
  let zeta3 : F := ♯1.2020569031595943
  let x := reduceAbs PI ♯0.0019353071795864769253 x
  if x ==. ♯0 then ⟨zeta3, x⟩
  else if x <. PIH then
    let y := x *. x
    let z := y *. y
    let p := ♯(dcl3cp[0]) +. y *. ♯(dcl3cp[1]) +. z *. (♯(dcl3cp[2]) +. y *. ♯(dcl3cp[3]))
    let q := ♯(dcl3cq[0]) +. y *. ♯(dcl3cq[1]) +. z *. (♯(dcl3cq[2]) +. y *. ♯(dcl3cq[3]))
    ⟨zeta3 +. y *. (p /. q +. (xlog x) /. ♯2), x⟩
  else
    let y := PI -. x
    let z := y *. y -. PI28
    let z2 := z *. z
    let z4 := z2 *. z2
    let p := ♯(dcl3cr[0]) +. z *. ♯(dcl3cr[1]) +. z2 *. (♯(dcl3cr[2]) +. z *. ♯(dcl3cr[3])) +. z4 *. (♯(dcl3cr[4]) +. z *. ♯(dcl3cr[5]))
    let q := ♯(dcl3cs[0]) +. z *. ♯(dcl3cs[1]) +. z2 *. (♯(dcl3cs[2]) +. z *. ♯(dcl3cs[3])) +. z4 *. (♯(dcl3cs[4]) +. z *. ♯(dcl3cs[5]))
    ⟨p /. q, x⟩

/-- `double precision function dcl4(x)` (Cl4.f90 15-86): the value and the final value of the variable `x` -/
def dcl4 (x : F) : Ret F :=
  let PI : F := ♯3.14159265358979324
  let PIH := PI /. ♯2
  let PI28 := PI *. PI /. ♯8
  let zeta3 : F := ♯1.2020569031595943
  let xs := reduceSgn PI ♯0.0019353071795864769253 x
  let x := xs.1
  let sgn := xs.2
  if x ==. ♯0 then ⟨x, x⟩
  else if x ==. PI then ⟨♯0, x⟩
  else if x <. PIH then
    let y := x *. x
    let z := y *. y
    let p := ♯(dcl4cp[0]) +. y *. ♯(dcl4cp[1]) +. z *. (♯(dcl4cp[2]) +. y *. ♯(dcl4cp[3]))
    let q := ♯(dcl4cq[0]) +. y *. ♯(dcl4cq[1]) +. z *. (♯(dcl4cq[2]) +. y *. ♯(dcl4cq[3]))
    ⟨sgn *. x *. (zeta3 +. y *. (p /. q +. (xlog x) /. ♯6)), x⟩
  else
    let y := PI -. x
    let z := y *. y -. PI28
    let z2 := z *. z
    let z4 := z2 *. z2
    let p := ♯(dcl4cr[0]) +. z *. ♯(dcl4cr[1]) +. z2 *. (♯(dcl4cr[2]) +. z *. ♯(dcl4cr[3])) +. z4 *. (♯(dcl4cr[4]) +. z *. ♯(dcl4cr[5]))
    let q := ♯(dcl4cs[0]) +. z *. ♯(dcl4cs[1]) +. z2 *. (♯(dcl4cs[2]) +. z *. ♯(dcl4cs[3])) +. z4 *. (♯(dcl4cs[4]) +. z *. ♯(dcl4cs[5]))
    ⟨sgn *. y *. p /. q, x⟩

/-- `double precision function dcl5(x)` (Cl5.f90 15-81): the value and the final value of the variable `x` -/
def dcl5 (x : F) : Ret F :=
  let PI : F := ♯3.14159265358979324
  let PIH := PI /. ♯2
  let PI28 := PI *. PI /. ♯8
  let zeta5 : F := ♯1.0369277551433699
  let x := reduceAbs PI ♯0.0019353071795864769253 x
  if x ==. ♯0 then ⟨zeta5, x⟩
  else if x <. PIH then
    let y := x *. x
    let z := y *. y
    let p := ♯(dcl5cp[0]) +. y *. ♯(dcl5cp[1]) +. z *. (♯(dcl5cp[2]) +. y *. ♯(dcl5cp[3]))
    let q := ♯(dcl5cq[0]) +. y *. ♯(dcl5cq[1]) +. z *. (♯(dcl5cq[2]) +. y *. ♯(dcl5cq[3]) +. z *. ♯(dcl5cq[4]))
    ⟨p /. q -. ♯1 /. ♯24 *. z *. (xlog x), x⟩
  else
    let y := PI -. x
    let z := y *. y -. PI28
    let z2 := z *. z
    let z4 := z2 *. z2
    let p := ♯(dcl5cr[0]) +. z *. ♯(dcl5cr[1]) +. z2 *. (♯(dcl5cr[2]) +. z *. ♯(dcl5cr[3])) +. z4 *. (♯(dcl5cr[4]) +. z *. ♯(dcl5cr[5]))
    let q := ♯(dcl5cs[0]) +. z *. ♯(dcl5cs[1]) +. z2 *. (♯(dcl5cs[2]) +. z *. ♯(dcl5cs[3])) +. z4 *. (♯(dcl5cs[4]) +. z *. ♯(dcl5cs[5]))
    ⟨p /. q, x⟩

/-- `double precision function dcl6(x)` (Cl6.f90 15-85): the value and the final value of the variable `x` -/
def dcl6 (x : F) : Ret F :=
  let PI : F := ♯3.14159265358979324
  let PIH := PI /. ♯2
  let PI28 := PI *. PI /. ♯8
  let xs := reduceSgn PI ♯0.0019353071795864769253 x
  let x := xs.1
  let sgn := xs.2
  if x ==. ♯0 then ⟨x, x⟩
  else if x ==. PI then ⟨♯0, x⟩
  else if x <. PIH then
    let y := x *. x
    let z := y *. y
    let p := ♯(dcl6cp[0]) +. y *. ♯(dcl6cp[1]) +. z *. (♯(dcl6cp[2]) +. y *. ♯(dcl6cp[3]))
    let q := ♯(dcl6cq[0]) +. y *. ♯(dcl6cq[1]) +. z *. (♯(dcl6cq[2]) +. y *. ♯(dcl6cq[3]))
    ⟨sgn *. x *. (p /. q -. ♯1 /. ♯120 *. z *. (xlog x)), x⟩
  else
    let y := PI -. x
    let z := y *. y -. PI28
    let z2 := z *. z
    let z4 := z2 *. z2
    let p := ♯(dcl6cr[0]) +. z *. ♯(dcl6cr[1]) +. z2 *. (♯(dcl6cr[2]) +. z *. ♯(dcl6cr[3])) +. z4 *. ♯(dcl6cr[4])
    let q := ♯(dcl6cs[0]) +. z *. ♯(dcl6cs[1]) +. z2 *. (♯(dcl6cs[2]) +. z *. ♯(dcl6cs[3])) +. z4 *. (♯(dcl6cs[4]) +. z *. ♯(dcl6cs[5]))
    ⟨sgn *. y *. p /. q, x⟩

end
end Polylog.Fortran
