import Verif.Model.ClReduce

/-! # `Cl2.cpp` -/

namespace Polylog

/-! ## Coefficient tables -/

/-- `P` (Cl2.cpp 50-53) -/
def cl2dloP : Vector ℚ @@ARRN cpp/Cl2.cpp 50 53@@ :=
  @@ARR cpp/Cl2.cpp 50 53@@

/-- `Q` (Cl2.cpp 54-57) -/
def cl2dloQ : Vector ℚ @@ARRN cpp/Cl2.cpp 54 57@@ :=
  @@ARR cpp/Cl2.cpp 54 57@@

/-- `P` (Cl2.cpp 65-69) -/
def cl2dhiP : Vector ℚ @@ARRN cpp/Cl2.cpp 65 69@@ :=
  @@ARR cpp/Cl2.cpp 65 69@@

/-- `Q` (Cl2.cpp 70-74) -/
def cl2dhiQ : Vector ℚ @@ARRN cpp/Cl2.cpp 70 74@@ :=
  @@ARR cpp/Cl2.cpp 70 74@@

/-- `P` (Cl2.cpp 131-141) -/
def cl2lloP : Vector ℚ @@ARRN cpp/Cl2.cpp 131 141@@ :=
  @@ARR cpp/Cl2.cpp 131 141@@

/-- `Q` (Cl2.cpp 142-152) -/
def cl2lloQ : Vector ℚ @@ARRN cpp/Cl2.cpp 142 152@@ :=
  @@ARR cpp/Cl2.cpp 142 152@@

/-- `P` (Cl2.cpp 165-179) -/
def cl2lhiP : Vector ℚ @@ARRN cpp/Cl2.cpp 165 179@@ :=
  @@ARR cpp/Cl2.cpp 165 179@@

/-- `Q` (Cl2.cpp 180-194) -/
def cl2lhiQ : Vector ℚ @@ARRN cpp/Cl2.cpp 180 194@@ :=
  @@ARR cpp/Cl2.cpp 180 194@@

section
variable {F : Type} [FOps F]

/-- numeric literal -/
local notation:max "♯" q:max => (FOps.lit (q : ℚ) : F)

%src cpp/Cl2.cpp 19 88
%arr P cl2dloP
%arr Q cl2dloQ
/-- `double Cl2(double x)` (Cl2.cpp 19-88) -/
def Cl2d (x : F) : F :=
  let PI : F := ⟪3.14159265358979324⟫
  let PIH := ⟪PI/2⟫
  let PI28 := ⟪PI*PI/8⟫
  let xs := reduceSgn PI ⟪0.0019353071795864769253⟫ x
  let x := xs.1
  let sgn := xs.2
  if ⟪x == 0⟫ then x
  else if ⟪x == PI⟫ then ♯0
  else if ⟪x < PIH⟫ then
    let y := ⟪x*x⟫
    let y2 := ⟪y*y⟫
    let p := ⟪P[0] + y * P[1] + y2 * (P[2] + y * P[3])⟫
    let q := ⟪Q[0] + y * Q[1] + y2 * (Q[2] + y * Q[3])⟫
    let h := ⟪x*(1 - std::log(x) + y*p/q)⟫
    ⟪sgn*h⟫
%arr P cl2dhiP
%arr Q cl2dhiQ
  else
    let y := ⟪PI - x⟫
    let z := ⟪y*y - PI28⟫
    let z2 := ⟪z*z⟫
    let z4 := ⟪z2*z2⟫
    let p := ⟪P[0] + z * P[1] + z2 * (P[2] + z * P[3]) +
         z4 * (P[4] + z * P[5])⟫
    let q := ⟪Q[0] + z * Q[1] + z2 * (Q[2] + z * Q[3]) +
         z4 * (Q[4] + z * Q[5])⟫
    let h := ⟪y*p/q⟫
    ⟪sgn*h⟫

%src cpp/Cl2.cpp 101 211
%arr P cl2lloP
%arr Q cl2lloQ
/-- `long double Cl2(long double x)` (Cl2.cpp 101-211) -/
def Cl2l (x : F) : F :=
  let PI : F := ⟪3.14159265358979323846264338327950288L⟫
  let PIH := ⟪PI/2⟫
  let PI28 := ⟪PI*PI/8⟫
  let xs := reduceSgn PI ⟪0.0019353071795864769252867665590057683943L⟫ x
  let x := xs.1
  let sgn := xs.2
  if ⟪x == 0⟫ then x
  else if ⟪x == PI⟫ then ♯0
  else if ⟪x < PIH⟫ then
    let y := ⟪x*x⟫
    let z := ⟪y - PI28⟫
    let z2 := ⟪z*z⟫
    let z4 := ⟪z2*z2⟫
    let z8 := ⟪z4*z4⟫
    let p := ⟪P[0] + z * P[1] + z2 * (P[2] + z * P[3]) +
         z4 * (P[4] + z * P[5] + z2 * (P[6] + z * P[7])) + z8 * P[8]⟫
    let q := ⟪Q[0] + z * Q[1] + z2 * (Q[2] + z * Q[3]) +
         z4 * (Q[4] + z * Q[5] + z2 * (Q[6] + z * Q[7])) + z8 * Q[8]⟫
    let h := ⟪x*(1 - std::log(x) + y*p/q)⟫
    ⟪sgn*h⟫
%arr P cl2lhiP
%arr Q cl2lhiQ
  else
    let y := ⟪PI - x⟫
    let z := ⟪y*y - PI28⟫
    let z2 := ⟪z*z⟫
    let z4 := ⟪z2*z2⟫
    let z8 := ⟪z4*z4⟫
    let p := ⟪P[0] + z * P[1] + z2 * (P[2] + z * P[3]) +
         z4 * (P[4] + z * P[5] + z2 * (P[6] + z * P[7])) +
         z8 * (P[8] + z * P[9] + z2 * (P[10] + z * P[11]) + z4 * P[12])⟫
    let q := ⟪Q[0] + z * Q[1] + z2 * (Q[2] + z * Q[3]) +
         z4 * (Q[4] + z * Q[5] + z2 * (Q[6] + z * Q[7])) +
         z8 * (Q[8] + z * Q[9] + z2 * (Q[10] + z * Q[11]) + z4 * Q[12])⟫
    let h := ⟪y*p/q⟫
    ⟪sgn*h⟫

end
end Polylog
