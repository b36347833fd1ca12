import Verif.Model.ClReduce

/-! # `Cl6.cpp` -/

namespace Polylog

/-! ## Coefficient tables -/

/-- `P` (Cl6.cpp 50-53) -/
def cl6dloP : Vector ℚ @@ARRN cpp/Cl6.cpp 50 53@@ :=
  @@ARR cpp/Cl6.cpp 50 53@@

/-- `Q` (Cl6.cpp 54-57) -/
def cl6dloQ : Vector ℚ @@ARRN cpp/Cl6.cpp 54 57@@ :=
  @@ARR cpp/Cl6.cpp 54 57@@

/-- `P` (Cl6.cpp 64-68) -/
def cl6dhiP : Vector ℚ @@ARRN cpp/Cl6.cpp 64 68@@ :=
  @@ARR cpp/Cl6.cpp 64 68@@

/-- `Q` (Cl6.cpp 69-73) -/
def cl6dhiQ : Vector ℚ @@ARRN cpp/Cl6.cpp 69 73@@ :=
  @@ARR cpp/Cl6.cpp 69 73@@

/-- `P` (Cl6.cpp 126-135) -/
def cl6lloP : Vector ℚ @@ARRN cpp/Cl6.cpp 126 135@@ :=
  @@ARR cpp/Cl6.cpp 126 135@@

/-- `Q` (Cl6.cpp 136-146) -/
def cl6lloQ : Vector ℚ @@ARRN cpp/Cl6.cpp 136 146@@ :=
  @@ARR cpp/Cl6.cpp 136 146@@

/-- `P` (Cl6.cpp 157-181) -/
def cl6lhiP : Vector ℚ @@ARRN cpp/Cl6.cpp 157 181@@ :=
  @@ARR cpp/Cl6.cpp 157 181@@

/-- `Q` (Cl6.cpp 182-206) -/
def cl6lhiQ : Vector ℚ @@ARRN cpp/Cl6.cpp 182 206@@ :=
  @@ARR cpp/Cl6.cpp 182 206@@

section
variable {F : Type} [FOps F]

/-- numeric literal -/
local notation:max "♯" q:max => (FOps.lit (q : ℚ) : F)

%src cpp/Cl6.cpp 19 86
%arr P cl6dloP
%arr Q cl6dloQ
/-- `double Cl6(double x)` (Cl6.cpp 19-86) -/
def Cl6d (x : F) : F :=
  let PI : F := ⟪3.14159265358979324⟫
  let PIH := ⟪PI/2⟫
  let PI28 := ⟪PI*PI/8⟫
  let xs := reduceSgn PI ⟪0.0019353071795864769253⟫ x
  let x := xs.1
  let sgn := xs.2
  if ⟪x == 0⟫ then x
  else if ⟪x == PI⟫ then ♯0
  else if ⟪x < PIH⟫ then
    let y := ⟪x*x⟫
    let y2 := ⟪y*y⟫
    let p := ⟪P[0] + y * P[1] + y2 * (P[2] + y * P[3])⟫
    let q := ⟪Q[0] + y * Q[1] + y2 * (Q[2] + y * Q[3])⟫
    let h := ⟪x*(p/q - 1./120*y2*std::log(x))⟫
    ⟪sgn*h⟫
%arr P cl6dhiP
%arr Q cl6dhiQ
  else
    let y := ⟪PI - x⟫
    let z := ⟪y*y - PI28⟫
    let z2 := ⟪z*z⟫
    let z4 := ⟪z2*z2⟫
    let p := ⟪P[0] + z * P[1] + z2 * (P[2] + z * P[3]) +
         z4 * P[4]⟫
    let q := ⟪Q[0] + z * Q[1] + z2 * (Q[2] + z * Q[3]) +
         z4 * (Q[4] + z * Q[5])⟫
    let h := ⟪y*p/q⟫
    ⟪sgn*h⟫

%src cpp/Cl6.cpp 95 229
%arr P cl6lloP
%arr Q cl6lloQ
/-- `long double Cl6(long double x)` (Cl6.cpp 95-229) -/
def Cl6l (x : F) : F :=
  let PI : F := ⟪3.14159265358979323846264338327950288L⟫
  let PIH := ⟪PI/2⟫
  let PI28 := ⟪PI*PI/8⟫
  let xs := reduceSgn PI ⟪0.0019353071795864769252867665590057683943L⟫ x
  let x := xs.1
  let sgn := xs.2
  if ⟪x == 0⟫ then x
  else if ⟪x == PI⟫ then ♯0
  else if ⟪x < PIH⟫ then
    let y := ⟪x*x⟫
    let y2 := ⟪y*y⟫
    let y4 := ⟪y2*y2⟫
    let y8 := ⟪y4*y4⟫
    let p := ⟪P[0] + y * P[1] + y2 * (P[2] + y * P[3]) +
         y4 * (P[4] + y * P[5] + y2 * (P[6] + y * P[7]))⟫
    let q := ⟪Q[0] + y * Q[1] + y2 * (Q[2] + y * Q[3]) +
         y4 * (Q[4] + y * Q[5] + y2 * (Q[6] + y * Q[7])) + y8 * Q[8]⟫
    let h := ⟪x*(p/q - 1.0L/120*y2*std::log(x))⟫
    ⟪sgn*h⟫
%arr P cl6lhiP
%arr Q cl6lhiQ
  else
    let y := ⟪PI - x⟫
    let z := ⟪y*y - PI28⟫
    let z2 := ⟪z*z⟫
    let z4 := ⟪z2*z2⟫
    let z8 := ⟪z4*z4⟫
    let z16 := ⟪z8*z8⟫
    let p := ⟪P[0] + z*P[1] + z2*(P[2] + z*P[3]) +
         z4*(P[4] + z*P[5] + z2*(P[6] + z*P[7])) +
         z8*(P[8] + z*P[9] + z2*(P[10] + z*P[11]) +
             z4*(P[12] + z*P[13] + z2*(P[14] + z*P[15]))) +
         z16*(P[16] + z*P[17] + z2*(P[18] + z*P[19]) +
              z4*(P[20] + z*P[21] + z2*P[22]))⟫
    let q := ⟪Q[0] + z*Q[1] + z2*(Q[2] + z*Q[3]) +
         z4*(Q[4] + z*Q[5] + z2*(Q[6] + z*Q[7])) +
         z8*(Q[8] + z*Q[9] + z2*(Q[10] + z*Q[11]) +
             z4*(Q[12] + z*Q[13] + z2*(Q[14] + z*Q[15]))) +
         z16*(Q[16] + z*Q[17] + z2*(Q[18] + z*Q[19]) +
              z4*(Q[20] + z*Q[21] + z2*Q[22]))⟫
    let h := ⟪y*p/q⟫
    ⟪sgn*h⟫

end
end Polylog
