import Verif.Model.ClReduce

/-! # `Cl4.cpp` -/

namespace Polylog

/-! ## Coefficient tables -/

/-- `P` (Cl4.cpp 51-54) -/
def cl4dloP : Vector ℚ @@ARRN cpp/Cl4.cpp 51 54@@ :=
  @@ARR cpp/Cl4.cpp 51 54@@

/-- `Q` (Cl4.cpp 55-58) -/
def cl4dloQ : Vector ℚ @@ARRN cpp/Cl4.cpp 55 58@@ :=
  @@ARR cpp/Cl4.cpp 55 58@@

/-- `P` (Cl4.cpp 65-69) -/
def cl4dhiP : Vector ℚ @@ARRN cpp/Cl4.cpp 65 69@@ :=
  @@ARR cpp/Cl4.cpp 65 69@@

/-- `Q` (Cl4.cpp 70-74) -/
def cl4dhiQ : Vector ℚ @@ARRN cpp/Cl4.cpp 70 74@@ :=
  @@ARR cpp/Cl4.cpp 70 74@@

/-- `P` (Cl4.cpp 128-138) -/
def cl4lloP : Vector ℚ @@ARRN cpp/Cl4.cpp 128 138@@ :=
  @@ARR cpp/Cl4.cpp 128 138@@

/-- `Q` (Cl4.cpp 139-149) -/
def cl4lloQ : Vector ℚ @@ARRN cpp/Cl4.cpp 139 149@@ :=
  @@ARR cpp/Cl4.cpp 139 149@@

/-- `P` (Cl4.cpp 162-176) -/
def cl4lhiP : Vector ℚ @@ARRN cpp/Cl4.cpp 162 176@@ :=
  @@ARR cpp/Cl4.cpp 162 176@@

/-- `Q` (Cl4.cpp 177-191) -/
def cl4lhiQ : Vector ℚ @@ARRN cpp/Cl4.cpp 177 191@@ :=
  @@ARR cpp/Cl4.cpp 177 191@@

section
variable {F : Type} [FOps F]

/-- numeric literal -/
local notation:max "♯" q:max => (FOps.lit (q : ℚ) : F)

%src cpp/Cl4.cpp 19 87
%arr P cl4dloP
%arr Q cl4dloQ
/-- `double Cl4(double x)` (Cl4.cpp 19-87) -/
def Cl4d (x : F) : F :=
  let PI : F := ⟪3.14159265358979324⟫
  let PIH := ⟪PI/2⟫
  let PI28 := ⟪PI*PI/8⟫
  let zeta3 : F := ⟪1.2020569031595943⟫
  let xs := reduceSgn PI ⟪0.0019353071795864769253⟫ x
  let x := xs.1
  let sgn := xs.2
  if ⟪x == 0⟫ then x
  else if ⟪x == PI⟫ then ♯0
  else if ⟪x < PIH⟫ then
    let y := ⟪x*x⟫
    let y2 := ⟪y*y⟫
    let p := ⟪P[0] + y * P[1] + y2 * (P[2] + y * P[3])⟫
    let q := ⟪Q[0] + y * Q[1] + y2 * (Q[2] + y * Q[3])⟫
    let h := ⟪x*(zeta3 + y*(p/q + 1./6*std::log(x)))⟫
    ⟪sgn*h⟫
%arr P cl4dhiP
%arr Q cl4dhiQ
  else
    let y := ⟪PI - x⟫
    let z := ⟪y*y - PI28⟫
    let z2 := ⟪z*z⟫
    let z4 := ⟪z2*z2⟫
    let p := ⟪P[0] + z * P[1] + z2 * (P[2] + z * P[3]) +
         z4 * (P[4] + z * P[5])⟫
    let q := ⟪Q[0] + z * Q[1] + z2 * (Q[2] + z * Q[3]) +
         z4 * (Q[4] + z * Q[5])⟫
    let h := ⟪y*p/q⟫
    ⟪sgn*h⟫

%src cpp/Cl4.cpp 96 208
%arr P cl4lloP
%arr Q cl4lloQ
/-- `long double Cl4(long double x)` (Cl4.cpp 96-208) -/
def Cl4l (x : F) : F :=
  let PI : F := ⟪3.14159265358979323846264338327950288L⟫
  let PIH := ⟪PI/2⟫
  let PI28 := ⟪PI*PI/8⟫
  let zeta3 : F := ⟪1.2020569031595942853997381615114499908L⟫
  let xs := reduceSgn PI ⟪0.0019353071795864769252867665590057683943L⟫ x
  let x := xs.1
  let sgn := xs.2
  if ⟪x == 0⟫ then x
  else if ⟪x == PI⟫ then ♯0
  else if ⟪x < PIH⟫ then
    let y := ⟪x*x⟫
    let z := ⟪y - PI28⟫
    let z2 := ⟪z*z⟫
    let z4 := ⟪z2*z2⟫
    let z8 := ⟪z4*z4⟫
    let p := ⟪P[0] + z * P[1] + z2 * (P[2] + z * P[3]) +
         z4 * (P[4] + z * P[5] + z2 * (P[6] + z * P[7])) + z8 * P[8]⟫
    let q := ⟪Q[0] + z * Q[1] + z2 * (Q[2] + z * Q[3]) +
         z4 * (Q[4] + z * Q[5] + z2 * (Q[6] + z * Q[7])) + z8 * Q[8]⟫
    let h := ⟪x*(zeta3 + y*(p/q + 1.0L/6*std::log(x)))⟫
    ⟪sgn*h⟫
%arr P cl4lhiP
%arr Q cl4lhiQ
  else
    let y := ⟪PI - x⟫
    let z := ⟪y*y - PI28⟫
    let z2 := ⟪z*z⟫
    let z4 := ⟪z2*z2⟫
    let z8 := ⟪z4*z4⟫
    let p := ⟪P[0] + z * P[1] + z2 * (P[2] + z * P[3]) +
         z4 * (P[4] + z * P[5] + z2 * (P[6] + z * P[7])) +
         z8 * (P[8] + z * P[9] + z2 * (P[10] + z * P[11]) + z4 * P[12])⟫
    let q := ⟪Q[0] + z * Q[1] + z2 * (Q[2] + z * Q[3]) +
         z4 * (Q[4] + z * Q[5] + z2 * (Q[6] + z * Q[7])) +
         z8 * (Q[8] + z * Q[9] + z2 * (Q[10] + z * Q[11]) + z4 * Q[12])⟫
    let h := ⟪y*p/q⟫
    ⟪sgn*h⟫

end
end Polylog
