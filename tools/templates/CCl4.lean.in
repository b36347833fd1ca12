import Verif.Model.CReduce

/-! # `src/c/Cl4.c` -/

namespace Polylog.C

/-! ## Coefficient tables -/

/-- `P` (Cl4.c 48-51) -/
def cl4dloP : Vector ℚ @@ARRN c/Cl4.c 48 51@@ :=
  @@ARR c/Cl4.c 48 51@@

/-- `Q` (Cl4.c 52-55) -/
def cl4dloQ : Vector ℚ @@ARRN c/Cl4.c 52 55@@ :=
  @@ARR c/Cl4.c 52 55@@

/-- `P` (Cl4.c 63-67) -/
def cl4dhiP : Vector ℚ @@ARRN c/Cl4.c 63 67@@ :=
  @@ARR c/Cl4.c 63 67@@

/-- `Q` (Cl4.c 68-72) -/
def cl4dhiQ : Vector ℚ @@ARRN c/Cl4.c 68 72@@ :=
  @@ARR c/Cl4.c 68 72@@

/-- `P` (Cl4.c 127-137) -/
def cl4lloP : Vector ℚ @@ARRN c/Cl4.c 127 137@@ :=
  @@ARR c/Cl4.c 127 137@@

/-- `Q` (Cl4.c 138-148) -/
def cl4lloQ : Vector ℚ @@ARRN c/Cl4.c 138 148@@ :=
  @@ARR c/Cl4.c 138 148@@

/-- `P` (Cl4.c 161-175) -/
def cl4lhiP : Vector ℚ @@ARRN c/Cl4.c 161 175@@ :=
  @@ARR c/Cl4.c 161 175@@

/-- `Q` (Cl4.c 176-190) -/
def cl4lhiQ : Vector ℚ @@ARRN c/Cl4.c 176 190@@ :=
  @@ARR c/Cl4.c 176 190@@

section
variable {F : Type} [FOps F]

/-- numeric literal -/
local notation:max "♯" q:max => (FOps.lit (q : ℚ) : F)

%src c/Cl4.c 16 86
%arr P cl4dloP
%arr Q cl4dloQ
/-- `double cl4(double x)` (Cl4.c 16-86) -/
def cl4 (x : F) : F :=
  let PI : F := ⟪3.14159265358979324⟫
  let PIH := ⟪PI/2⟫
  let PI28 := ⟪PI*PI/8⟫
  let zeta3 : F := ⟪1.2020569031595943⟫
  let xs := reduceSgn PI ⟪0.0019353071795864769253⟫ x
  let x := xs.1
  let sgn := xs.2
  if ⟪x == 0⟫ then x
  else if ⟪x == PI⟫ then ♯0
  else if ⟪x < PIH⟫ then
    let y := ⟪x*x⟫
    let y2 := ⟪y*y⟫
    let p := ⟪P[0] + y * P[1] + y2 * (P[2] + y * P[3])⟫
    let q := ⟪Q[0] + y * Q[1] + y2 * (Q[2] + y * Q[3])⟫
    let h := ⟪x*(zeta3 + y*(p/q + log(x)/6))⟫
    ⟪sgn*h⟫
%arr P cl4dhiP
%arr Q cl4dhiQ
  else
    let y := ⟪PI - x⟫
    let z := ⟪y*y - PI28⟫
    let z2 := ⟪z*z⟫
    let z4 := ⟪z2*z2⟫
    let p := ⟪P[0] + z * P[1] + z2 * (P[2] + z * P[3]) +
         z4 * (P[4] + z * P[5])⟫
    let q := ⟪Q[0] + z * Q[1] + z2 * (Q[2] + z * Q[3]) +
         z4 * (Q[4] + z * Q[5])⟫
    let h := ⟪y*p/q⟫
    ⟪sgn*h⟫

%src c/Cl4.c 95 207
%arr P cl4lloP
%arr Q cl4lloQ
/-- `long double cl4l(long double x)` (Cl4.c 95-207) -/
def cl4l (x : F) : F :=
  let PI : F := ⟪3.14159265358979323846264338327950288L⟫
  let PIH := ⟪PI/2⟫
  let PI28 := ⟪PI*PI/8⟫
  let zeta3 : F := ⟪1.2020569031595942853997381615114499908L⟫
  let xs := reduceSgn PI ⟪0.0019353071795864769252867665590057683943L⟫ x
  let x := xs.1
  let sgn := xs.2
  if ⟪x == 0⟫ then x
  else if ⟪x == PI⟫ then ♯0
  else if ⟪x < PIH⟫ then
    let y := ⟪x*x⟫
    let z := ⟪y - PI28⟫
    let z2 := ⟪z*z⟫
    let z4 := ⟪z2*z2⟫
    let z8 := ⟪z4*z4⟫
    let p := ⟪P[0] + z * P[1] + z2 * (P[2] + z * P[3]) +
         z4 * (P[4] + z * P[5] + z2 * (P[6] + z * P[7])) + z8 * P[8]⟫
    let q := ⟪Q[0] + z * Q[1] + z2 * (Q[2] + z * Q[3]) +
         z4 * (Q[4] + z * Q[5] + z2 * (Q[6] + z * Q[7])) + z8 * Q[8]⟫
    let h := ⟪x*(zeta3 + y*(p/q + logl(x)/6))⟫
    ⟪sgn*h⟫
%arr P cl4lhiP
%arr Q cl4lhiQ
  else
    let y := ⟪PI - x⟫
    let z := ⟪y*y - PI28⟫
    let z2 := ⟪z*z⟫
    let z4 := ⟪z2*z2⟫
    let z8 := ⟪z4*z4⟫
    let p := ⟪P[0] + z * P[1] + z2 * (P[2] + z * P[3]) +
         z4 * (P[4] + z * P[5] + z2 * (P[6] + z * P[7])) +
         z8 * (P[8] + z * P[9] + z2 * (P[10] + z * P[11]) + z4 * P[12])⟫
    let q := ⟪Q[0] + z * Q[1] + z2 * (Q[2] + z * Q[3]) +
         z4 * (Q[4] + z * Q[5] + z2 * (Q[6] + z * Q[7])) +
         z8 * (Q[8] + z * Q[9] + z2 * (Q[10] + z * Q[11]) + z4 * Q[12])⟫
    let h := ⟪y*p/q⟫
    ⟪sgn*h⟫

end
end Polylog.C
