import Verif.Model.ClReduce

/-! # `Cl3.cpp` -/

namespace Polylog

/-! ## Coefficient tables -/

/-- `P` (Cl3.cpp 46-49) -/
def cl3dloP : Vector ℚ @@ARRN cpp/Cl3.cpp 46 49@@ :=
  @@ARR cpp/Cl3.cpp 46 49@@

/-- `Q` (Cl3.cpp 50-53) -/
def cl3dloQ : Vector ℚ @@ARRN cpp/Cl3.cpp 50 53@@ :=
  @@ARR cpp/Cl3.cpp 50 53@@

/-- `P` (Cl3.cpp 60-64) -/
def cl3dhiP : Vector ℚ @@ARRN cpp/Cl3.cpp 60 64@@ :=
  @@ARR cpp/Cl3.cpp 60 64@@

/-- `Q` (Cl3.cpp 65-69) -/
def cl3dhiQ : Vector ℚ @@ARRN cpp/Cl3.cpp 65 69@@ :=
  @@ARR cpp/Cl3.cpp 65 69@@

/-- `P` (Cl3.cpp 118-128) -/
def cl3lloP : Vector ℚ @@ARRN cpp/Cl3.cpp 118 128@@ :=
  @@ARR cpp/Cl3.cpp 118 128@@

/-- `Q` (Cl3.cpp 129-139) -/
def cl3lloQ : Vector ℚ @@ARRN cpp/Cl3.cpp 129 139@@ :=
  @@ARR cpp/Cl3.cpp 129 139@@

/-- `P` (Cl3.cpp 152-176) -/
def cl3lhiP : Vector ℚ @@ARRN cpp/Cl3.cpp 152 176@@ :=
  @@ARR cpp/Cl3.cpp 152 176@@

/-- `Q` (Cl3.cpp 177-201) -/
def cl3lhiQ : Vector ℚ @@ARRN cpp/Cl3.cpp 177 201@@ :=
  @@ARR cpp/Cl3.cpp 177 201@@

section
variable {F : Type} [FOps F]

/-- numeric literal -/
local notation:max "♯" q:max => (FOps.lit (q : ℚ) : F)

%src cpp/Cl3.cpp 19 82
%arr P cl3dloP
%arr Q cl3dloQ
/-- `double Cl3(double x)` (Cl3.cpp 19-82) -/
def Cl3d (x : F) : F :=
  let PI : F := ⟪3.14159265358979324⟫
  let PIH := ⟪PI/2⟫
  let PI28 := ⟪PI*PI/8⟫
  let zeta3 : F := ⟪1.2020569031595943⟫
  let x := reduceAbs PI ⟪0.0019353071795864769253⟫ x
  if ⟪x == 0⟫ then zeta3
  else if ⟪x < PIH⟫ then
    let y := ⟪x*x⟫
    let y2 := ⟪y*y⟫
    let p := ⟪P[0] + y * P[1] + y2 * (P[2] + y * P[3])⟫
    let q := ⟪Q[0] + y * Q[1] + y2 * (Q[2] + y * Q[3])⟫
    ⟪zeta3 + y*(p/q + 0.5*std::log(x))⟫
%arr P cl3dhiP
%arr Q cl3dhiQ
  else
    let y := ⟪PI - x⟫
    let z := ⟪y*y - PI28⟫
    let z2 := ⟪z*z⟫
    let z4 := ⟪z2*z2⟫
    let p := ⟪P[0] + z * P[1] + z2 * (P[2] + z * P[3]) +
         z4 * (P[4] + z * P[5])⟫
    let q := ⟪Q[0] + z * Q[1] + z2 * (Q[2] + z * Q[3]) +
         z4 * (Q[4] + z * Q[5])⟫
    ⟪p/q⟫

%src cpp/Cl3.cpp 91 224
%arr P cl3lloP
%arr Q cl3lloQ
/-- `long double Cl3(long double x)` (Cl3.cpp 91-224) -/
def Cl3l (x : F) : F :=
  let PI : F := ⟪3.14159265358979323846264338327950288L⟫
  let PIH := ⟪PI/2⟫
  let PI28 := ⟪PI*PI/8⟫
  let zeta3 : F := ⟪1.2020569031595942853997381615114499908L⟫
  let x := reduceAbs PI ⟪0.0019353071795864769252867665590057683943L⟫ x
  if ⟪x == 0⟫ then zeta3
  else if ⟪x < PIH⟫ then
    let y := ⟪x*x⟫
    let z := ⟪y - PI28⟫
    let z2 := ⟪z*z⟫
    let z4 := ⟪z2*z2⟫
    let z8 := ⟪z4*z4⟫
    let p := ⟪P[0] + z * P[1] + z2 * (P[2] + z * P[3]) +
         z4 * (P[4] + z * P[5] + z2 * (P[6] + z * P[7])) + z8 * P[8]⟫
    let q := ⟪Q[0] + z * Q[1] + z2 * (Q[2] + z * Q[3]) +
         z4 * (Q[4] + z * Q[5] + z2 * (Q[6] + z * Q[7])) + z8 * Q[8]⟫
    ⟪zeta3 + y*(p/q + 0.5*std::log(x))⟫
%arr P cl3lhiP
%arr Q cl3lhiQ
  else
    let y := ⟪PI - x⟫
    let z := ⟪y*y - PI28⟫
    let z2 := ⟪z*z⟫
    let z4 := ⟪z2*z2⟫
    let z8 := ⟪z4*z4⟫
    let z16 := ⟪z8*z8⟫
    let p := ⟪P[0] + z*P[1] + z2*(P[2] + z*P[3]) +
         z4*(P[4] + z*P[5] + z2*(P[6] + z*P[7])) +
         z8*(P[8] + z*P[9] + z2*(P[10] + z*P[11]) +
             z4*(P[12] + z*P[13] + z2*(P[14] + z*P[15]))) +
         z16*(P[16] + z*P[17] + z2*(P[18] + z*P[19]) +
              z4*(P[20] + z*P[21] + z2*P[22]))⟫
    let q := ⟪Q[0] + z*Q[1] + z2*(Q[2] + z*Q[3]) +
         z4*(Q[4] + z*Q[5] + z2*(Q[6] + z*Q[7])) +
         z8*(Q[8] + z*Q[9] + z2*(Q[10] + z*Q[11]) +
             z4*(Q[12] + z*Q[13] + z2*(Q[14] + z*Q[15]))) +
         z16*(Q[16] + z*Q[17] + z2*(Q[18] + z*Q[19]) +
              z4*(Q[20] + z*Q[21] + z2*Q[22]))⟫
    ⟪p/q⟫

end
end Polylog
