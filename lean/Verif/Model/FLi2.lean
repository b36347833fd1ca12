import Verif.Model.FLog

/-! # `src/fortran/Li2.f90` -/

namespace Polylog.Fortran

/-- `cp` (Li2.f90 23-29) -/
def dli2P : Vector ℚ 6 :=
  #v[
    0.9999999999999999502, -2.6883926818565423430, 2.6477222699473109692, -1.1538559607887416355,
    2.0886077795020607837e-1, -1.0859777134152463084e-2]

/-- `cq` (Li2.f90 30-37) -/
def dli2Q : Vector ℚ 7 :=
  #v[
    1, -2.9383926818565635485, 3.2712093293018635389, -1.7076702173954289421,
    4.1596017228400603836e-1, -3.9801343754084482956e-2, 8.2743668974466659035e-4]

/-- `bf` (Li2.f90 101-111) -/
def cdli2Bf : Vector ℚ 10 :=
  #v[
    -1 / 4, 1 / 36, -1 / 3600, 1 / 211680, -1 / 10886400, 1 / 526901760, -4.0647616451442255e-11,
    8.9216910204564526e-13, -1.9939295860721076e-14, 4.5189800296199182e-16]

section
variable {F : Type} [FOps F]

/-- numeric literal -/
local notation:max "♯" q:max => (FOps.lit (q : ℚ) : F)

/-- final part of `dli2`: rational function of `y`, result `r + s*y*p/q` (Li2.f90 77-84) -/
def dli2Fin (y r s : F) : F :=
  let y2 := y *. y
  let y4 := y2 *. y2
  let p := ♯(dli2P[0]) +. y *. ♯(dli2P[1]) +. y2 *. (♯(dli2P[2]) +. y *. ♯(dli2P[3])) +. y4 *. (♯(dli2P[4]) +. y *. ♯(dli2P[5]))
  let q := ♯(dli2Q[0]) +. y *. ♯(dli2Q[1]) +. y2 *. (♯(dli2Q[2]) +. y *. ♯(dli2Q[3])) +. y4 *. (♯(dli2Q[4]) +. y *. ♯(dli2Q[5]) +. y2 *. ♯(dli2Q[6]))
  r +. s *. y *. p /. q

/-- `double precision function dli2(x)` (Li2.f90 19-86); `dli2Fin` is the final rational approximation -/
def dli2 (x : F) : F :=
  let PI : F := ♯3.14159265358979324
  if x <. ∸♯1 then
    let l := (xlog (♯1 -. x))
    dli2Fin (♯1 /. (♯1 -. x)) (∸((ipow2 PI) /. ♯6) +. l *. (♯0.5 *. l -. (xlog (∸x)))) ♯1
  else if x ==. ∸♯1 then ∸((ipow2 PI) /. ♯12)
  else if x <. ♯0 then
    dli2Fin (x /. (x -. ♯1)) (∸(♯0.5 *. (ipow2 (xlog (♯1 -. x))))) ∸♯1
  else if x ==. ♯0 then x
  else if x <. ♯0.5 then dli2Fin x ♯0 ♯1
  else if x <. ♯1 then
    let y := ♯1 -. x
    dli2Fin y ((ipow2 PI) /. ♯6 -. (xlog x) *. (xlog y)) ∸♯1
  else if x ==. ♯1 then (ipow2 PI) /. ♯6
  else if x <. ♯2 then
    let l := (xlog x)
    let y := ♯1 -. ♯1 /. x
    dli2Fin y ((ipow2 PI) /. ♯6 -. l *. ((xlog y) +. ♯0.5 *. l)) ♯1
  else
    dli2Fin (♯1 /. x) ((ipow2 PI) /. ♯3 -. ♯0.5 *. (ipow2 (xlog x))) ∸♯1

/-- `double complex function cdli2(z)` (Li2.f90 96-168).
The `u`, `rest`, `sgn` set in the branches are passed to `fin`, the final assignment to the result.
`junk` is the content of the result variable before any assignment: the two `if` statements in the special case `iz .eq. 0`
(Li2.f90 118-119) do not cover a NaN `rz`. -/
def cdli2 (junk z : Cx F) : Cx F :=
  let PI : F := ♯3.14159265358979324
  let rz := z.re
  let iz := z.im
  if iz ==. ♯0 then
    if rz <=. ♯1 then ⟨(dli2 rz), iz⟩
    else if rz >. ♯1 then ⟨(dli2 rz), ∸(PI *. (xlog rz))⟩
    else junk
  else
    let nz := (ipow2 rz) +. (ipow2 iz)
    if nz <. FOps.eps then z *. (♯1 +. ♯0.25 *. z)
    else
      let fin (u rest : Cx F) (sgn : F) : Cx F :=
        let u2 := (ipow2 u)
        let u4 := (ipow2 u2)
        let sum := u +. u2 *. (♯(cdli2Bf[0]) +. u *. (♯(cdli2Bf[1]) +. u2 *. (♯(cdli2Bf[2]) +. u2 *. ♯(cdli2Bf[3]) +. u4 *. (♯(cdli2Bf[4]) +. u2 *. ♯(cdli2Bf[5])) +. u4 *. u4 *. (♯(cdli2Bf[6]) +. u2 *. ♯(cdli2Bf[7]) +. u4 *. (♯(cdli2Bf[8]) +. u2 *. ♯(cdli2Bf[9]))))))
        sgn *. sum +. rest
      if rz <=. ♯0.5 then
        if nz >. ♯1 then
          fin (∸((cdlog1p (∸(♯1 /. z))))) (∸(♯0.5 *. (ipow2 (xlog (∸z)))) -. (ipow2 PI) /. ♯6) ∸♯1
        else
          fin (∸((cdlog1p (∸z)))) (Cx.ofReal ♯0) ♯1
      else
        if nz <=. ♯2 *. rz then
          let u := ∸((xlog z))
          fin u (u *. (cdlog1p (∸z)) +. (ipow2 PI) /. ♯6) ∸♯1
        else
          fin (∸((cdlog1p (∸(♯1 /. z))))) (∸(♯0.5 *. (ipow2 (xlog (∸z)))) -. (ipow2 PI) /. ♯6) ∸♯1

end
end Polylog.Fortran
