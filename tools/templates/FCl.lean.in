import Verif.Model.FLog

/-! # `src/fortran/Cl2.f90` ... `src/fortran/Cl6.f90` -/

namespace Polylog.Fortran

/-- `cp` (Cl2.f90 20-24) -/
def dcl2cp : Vector ℚ @@ARRN fortran/Cl2.f90 20 24@@ :=
  @@ARR fortran/Cl2.f90 20 24@@

/-- `cq` (Cl2.f90 25-29) -/
def dcl2cq : Vector ℚ @@ARRN fortran/Cl2.f90 25 29@@ :=
  @@ARR fortran/Cl2.f90 25 29@@

/-- `cr` (Cl2.f90 30-36) -/
def dcl2cr : Vector ℚ @@ARRN fortran/Cl2.f90 30 36@@ :=
  @@ARR fortran/Cl2.f90 30 36@@

/-- `cs` (Cl2.f90 37-43) -/
def dcl2cs : Vector ℚ @@ARRN fortran/Cl2.f90 37 43@@ :=
  @@ARR fortran/Cl2.f90 37 43@@

/-- `cp` (Cl3.f90 21-25) -/
def dcl3cp : Vector ℚ @@ARRN fortran/Cl3.f90 21 25@@ :=
  @@ARR fortran/Cl3.f90 21 25@@

/-- `cq` (Cl3.f90 26-30) -/
def dcl3cq : Vector ℚ @@ARRN fortran/Cl3.f90 26 30@@ :=
  @@ARR fortran/Cl3.f90 26 30@@

/-- `cr` (Cl3.f90 31-37) -/
def dcl3cr : Vector ℚ @@ARRN fortran/Cl3.f90 31 37@@ :=
  @@ARR fortran/Cl3.f90 31 37@@

/-- `cs` (Cl3.f90 38-44) -/
def dcl3cs : Vector ℚ @@ARRN fortran/Cl3.f90 38 44@@ :=
  @@ARR fortran/Cl3.f90 38 44@@

/-- `cp` (Cl4.f90 21-25) -/
def dcl4cp : Vector ℚ @@ARRN fortran/Cl4.f90 21 25@@ :=
  @@ARR fortran/Cl4.f90 21 25@@

/-- `cq` (Cl4.f90 26-30) -/
def dcl4cq : Vector ℚ @@ARRN fortran/Cl4.f90 26 30@@ :=
  @@ARR fortran/Cl4.f90 26 30@@

/-- `cr` (Cl4.f90 31-37) -/
def dcl4cr : Vector ℚ @@ARRN fortran/Cl4.f90 31 37@@ :=
  @@ARR fortran/Cl4.f90 31 37@@

/-- `cs` (Cl4.f90 38-44) -/
def dcl4cs : Vector ℚ @@ARRN fortran/Cl4.f90 38 44@@ :=
  @@ARR fortran/Cl4.f90 38 44@@

/-- `cp` (Cl5.f90 21-25) -/
def dcl5cp : Vector ℚ @@ARRN fortran/Cl5.f90 21 25@@ :=
  @@ARR fortran/Cl5.f90 21 25@@

/-- `cq` (Cl5.f90 26-31) -/
def dcl5cq : Vector ℚ @@ARRN fortran/Cl5.f90 26 31@@ :=
  @@ARR fortran/Cl5.f90 26 31@@

/-- `cr` (Cl5.f90 32-38) -/
def dcl5cr : Vector ℚ @@ARRN fortran/Cl5.f90 32 38@@ :=
  @@ARR fortran/Cl5.f90 32 38@@

/-- `cs` (Cl5.f90 39-45) -/
def dcl5cs : Vector ℚ @@ARRN fortran/Cl5.f90 39 45@@ :=
  @@ARR fortran/Cl5.f90 39 45@@

/-- `cp` (Cl6.f90 21-25) -/
def dcl6cp : Vector ℚ @@ARRN fortran/Cl6.f90 21 25@@ :=
  @@ARR fortran/Cl6.f90 21 25@@

/-- `cq` (Cl6.f90 26-30) -/
def dcl6cq : Vector ℚ @@ARRN fortran/Cl6.f90 26 30@@ :=
  @@ARR fortran/Cl6.f90 26 30@@

/-- `cr` (Cl6.f90 31-36) -/
def dcl6cr : Vector ℚ @@ARRN fortran/Cl6.f90 31 36@@ :=
  @@ARR fortran/Cl6.f90 31 36@@

/-- `cs` (Cl6.f90 37-43) -/
def dcl6cs : Vector ℚ @@ARRN fortran/Cl6.f90 37 43@@ :=
  @@ARR fortran/Cl6.f90 37 43@@

section
variable {F : Type} [FOps F]

/-- numeric literal -/
local notation:max "♯" q:max => (FOps.lit (q : ℚ) : F)

/-- Range reduction without sign (Cl3.f90 45-57, Cl5.f90 46-58): the final value of the argument variable -/
def reduceAbs (PI p1 x : F) : F :=
  let PI2 := ♯2 *. PI
  let x := if x <. ♯0 then ∸x else x
  let x := if x >=. PI2 then FOps.fmod x PI2 else x
  if x >. PI then (♯6.28125 -. x) +. p1 else x

/-- Range reduction with sign (Cl2.f90 44-61, Cl4.f90 45-62, Cl6.f90 44-61): the final value of the argument variable, and `sgn` -/
def reduceSgn (PI p1 x : F) : F × F :=
  let PI2 := ♯2 *. PI
  let xs : F × F := if x <. ♯0 then (∸x, ∸♯1) else (x, ♯1)
  let x := xs.1
  let sgn := xs.2
  let x := if x >=. PI2 then FOps.fmod x PI2 else x
  if x >. PI then ((♯6.28125 -. x) +. p1, ∸sgn) else (x, sgn)

%src fortran/Cl2.f90 15 85
%arr @cp dcl2cp
%arr @cq dcl2cq
%arr @cr dcl2cr
%arr @cs dcl2cs
/-- `double precision function dcl2(x)` (Cl2.f90 15-85): the value and the final value of the variable `x` -/
def dcl2 (x : F) : Ret F :=
  let PI : F := ⟪3.14159265358979324D0⟫
  let PIH := ⟪PI/2⟫
  let PI28 := ⟪PI*PI/8⟫
  let xs := reduceSgn PI ⟪0.0019353071795864769253D0⟫ x
  let x := xs.1
  let sgn := xs.2
  if ⟪x .eq. 0⟫ then ⟨x, x⟩
  else if ⟪x .eq. PI⟫ then ⟨♯0, x⟩
  else if ⟪x .lt. PIH⟫ then
    let y := ⟪x*x⟫
    let z := ⟪y*y⟫
    let p := ⟪cp(1) + y * cp(2) + z * (cp(3) + y * cp(4))⟫
    let q := ⟪cq(1) + y * cq(2) + z * (cq(3) + y * cq(4))⟫
    ⟨⟪sgn*x*(1 - log(x) + y*p/q)⟫, x⟩
  else
    let y := ⟪PI - x⟫
    let z := ⟪y*y - PI28⟫
    let z2 := ⟪z*z⟫
    let z4 := ⟪z2*z2⟫
    let p := ⟪cr(1) + z * cr(2) + z2 * (cr(3) + z * cr(4)) + &
         z4 * (cr(5) + z * cr(6))⟫
    let q := ⟪cs(1) + z * cs(2) + z2 * (cs(3) + z * cs(4)) + &
         z4 * (cs(5) + z * cs(6))⟫
    ⟨⟪sgn*y*p/q⟫, x⟩

%src fortran/Cl3.f90 15 80
%arr @cp dcl3cp
%arr @cq dcl3cq
%arr @cr dcl3cr
%arr @cs dcl3cs
/-- `double precision function dcl3(x)` (Cl3.f90 15-80): the value and the final value of the variable `x` -/
def dcl3 (x : F) : Ret F :=
  let PI : F := ⟪3.14159265358979324D0⟫
  let PIH := ⟪PI/2⟫
  let PI28 := ⟪PI*PI/8⟫
  let zeta3 : F := ⟪1.2020569031595943D0⟫
  let x := reduceAbs PI ⟪0.0019353071795864769253D0⟫ x
  if ⟪x .eq. 0⟫ then ⟨zeta3, x⟩
  else if ⟪x .lt. PIH⟫ then
    let y := ⟪x*x⟫
    let z := ⟪y*y⟫
    let p := ⟪cp(1) + y * cp(2) + z * (cp(3) + y * cp(4))⟫
    let q := ⟪cq(1) + y * cq(2) + z * (cq(3) + y * cq(4))⟫
    ⟨⟪zeta3 + y*(p/q + log(x)/2)⟫, x⟩
  else
    let y := ⟪PI - x⟫
    let z := ⟪y*y - PI28⟫
    let z2 := ⟪z*z⟫
    let z4 := ⟪z2*z2⟫
    let p := ⟪cr(1) + z * cr(2) + z2 * (cr(3) + z * cr(4)) + &
         z4 * (cr(5) + z * cr(6))⟫
    let q := ⟪cs(1) + z * cs(2) + z2 * (cs(3) + z * cs(4)) + &
         z4 * (cs(5) + z * cs(6))⟫
    ⟨⟪p/q⟫, x⟩

%src fortran/Cl4.f90 15 86
%arr @cp dcl4cp
%arr @cq dcl4cq
%arr @cr dcl4cr
%arr @cs dcl4cs
/-- `double precision function dcl4(x)` (Cl4.f90 15-86): the value and the final value of the variable `x` -/
def dcl4 (x : F) : Ret F :=
  let PI : F := ⟪3.14159265358979324D0⟫
  let PIH := ⟪PI/2⟫
  let PI28 := ⟪PI*PI/8⟫
  let zeta3 : F := ⟪1.2020569031595943D0⟫
  let xs := reduceSgn PI ⟪0.0019353071795864769253D0⟫ x
  let x := xs.1
  let sgn := xs.2
  if ⟪x .eq. 0⟫ then ⟨x, x⟩
  else if ⟪x .eq. PI⟫ then ⟨♯0, x⟩
  else if ⟪x .lt. PIH⟫ then
    let y := ⟪x*x⟫
    let z := ⟪y*y⟫
    let p := ⟪cp(1) + y * cp(2) + z * (cp(3) + y * cp(4))⟫
    let q := ⟪cq(1) + y * cq(2) + z * (cq(3) + y * cq(4))⟫
    ⟨⟪sgn*x*(zeta3 + y*(p/q + log(x)/6))⟫, x⟩
  else
    let y := ⟪PI - x⟫
    let z := ⟪y*y - PI28⟫
    let z2 := ⟪z*z⟫
    let z4 := ⟪z2*z2⟫
    let p := ⟪cr(1) + z * cr(2) + z2 * (cr(3) + z * cr(4)) + &
         z4 * (cr(5) + z * cr(6))⟫
    let q := ⟪cs(1) + z * cs(2) + z2 * (cs(3) + z * cs(4)) + &
         z4 * (cs(5) + z * cs(6))⟫
    ⟨⟪sgn*y*p/q⟫, x⟩

%src fortran/Cl5.f90 15 81
%arr @cp dcl5cp
%arr @cq dcl5cq
%arr @cr dcl5cr
%arr @cs dcl5cs
/-- `double precision function dcl5(x)` (Cl5.f90 15-81): the value and the final value of the variable `x` -/
def dcl5 (x : F) : Ret F :=
  let PI : F := ⟪3.14159265358979324D0⟫
  let PIH := ⟪PI/2⟫
  let PI28 := ⟪PI*PI/8⟫
  let zeta5 : F := ⟪1.0369277551433699D0⟫
  let x := reduceAbs PI ⟪0.0019353071795864769253D0⟫ x
  if ⟪x .eq. 0⟫ then ⟨zeta5, x⟩
  else if ⟪x .lt. PIH⟫ then
    let y := ⟪x*x⟫
    let z := ⟪y*y⟫
    let p := ⟪cp(1) + y * cp(2) + z * (cp(3) + y * cp(4))⟫
    let q := ⟪cq(1) + y * cq(2) + z * (cq(3) + y * cq(4) + z * cq(5))⟫
    ⟨⟪p/q - 1.0D0/24*z*log(x)⟫, x⟩
  else
    let y := ⟪PI - x⟫
    let z := ⟪y*y - PI28⟫
    let z2 := ⟪z*z⟫
    let z4 := ⟪z2*z2⟫
    let p := ⟪cr(1) + z * cr(2) + z2 * (cr(3) + z * cr(4)) + &
         z4 * (cr(5) + z * cr(6))⟫
    let q := ⟪cs(1) + z * cs(2) + z2 * (cs(3) + z * cs(4)) + &
         z4 * (cs(5) + z * cs(6))⟫
    ⟨⟪p/q⟫, x⟩

%src fortran/Cl6.f90 15 85
%arr @cp dcl6cp
%arr @cq dcl6cq
%arr @cr dcl6cr
%arr @cs dcl6cs
/-- `double precision function dcl6(x)` (Cl6.f90 15-85): the value and the final value of the variable `x` -/
def dcl6 (x : F) : Ret F :=
  let PI : F := ⟪3.14159265358979324D0⟫
  let PIH := ⟪PI/2⟫
  let PI28 := ⟪PI*PI/8⟫
  let xs := reduceSgn PI ⟪0.0019353071795864769253D0⟫ x
  let x := xs.1
  let sgn := xs.2
  if ⟪x .eq. 0⟫ then ⟨x, x⟩
  else if ⟪x .eq. PI⟫ then ⟨♯0, x⟩
  else if ⟪x .lt. PIH⟫ then
    let y := ⟪x*x⟫
    let z := ⟪y*y⟫
    let p := ⟪cp(1) + y * cp(2) + z * (cp(3) + y * cp(4))⟫
    let q := ⟪cq(1) + y * cq(2) + z * (cq(3) + y * cq(4))⟫
    ⟨⟪sgn*x*(p/q - 1.0D0/120*z*log(x))⟫, x⟩
  else
    let y := ⟪PI - x⟫
    let z := ⟪y*y - PI28⟫
    let z2 := ⟪z*z⟫
    let z4 := ⟪z2*z2⟫
    let p := ⟪cr(1) + z * cr(2) + z2 * (cr(3) + z * cr(4)) + &
         z4 * cr(5)⟫
    let q := ⟪cs(1) + z * cs(2) + z2 * (cs(3) + z * cs(4)) + &
         z4 * (cs(5) + z * cs(6))⟫
    ⟨⟪sgn*y*p/q⟫, x⟩

end
end Polylog.Fortran
