import Verif.Model.ClReduce

/-! # `Cl5.cpp` -/

namespace Polylog

/-! ## Coefficient tables -/

/-- `P` (Cl5.cpp 46-49) -/
def cl5dloP : Vector ℚ @@ARRN cpp/Cl5.cpp 46 49@@ :=
  @@ARR cpp/Cl5.cpp 46 49@@

/-- `Q` (Cl5.cpp 50-54) -/
def cl5dloQ : Vector ℚ @@ARRN cpp/Cl5.cpp 50 54@@ :=
  @@ARR cpp/Cl5.cpp 50 54@@

/-- `P` (Cl5.cpp 61-65) -/
def cl5dhiP : Vector ℚ @@ARRN cpp/Cl5.cpp 61 65@@ :=
  @@ARR cpp/Cl5.cpp 61 65@@

/-- `Q` (Cl5.cpp 66-70) -/
def cl5dhiQ : Vector ℚ @@ARRN cpp/Cl5.cpp 66 70@@ :=
  @@ARR cpp/Cl5.cpp 66 70@@

/-- `P` (Cl5.cpp 119-129) -/
def cl5lloP : Vector ℚ @@ARRN cpp/Cl5.cpp 119 129@@ :=
  @@ARR cpp/Cl5.cpp 119 129@@

/-- `Q` (Cl5.cpp 130-140) -/
def cl5lloQ : Vector ℚ @@ARRN cpp/Cl5.cpp 130 140@@ :=
  @@ARR cpp/Cl5.cpp 130 140@@

/-- `P` (Cl5.cpp 151-174) -/
def cl5lhiP : Vector ℚ @@ARRN cpp/Cl5.cpp 151 174@@ :=
  @@ARR cpp/Cl5.cpp 151 174@@

/-- `Q` (Cl5.cpp 175-198) -/
def cl5lhiQ : Vector ℚ @@ARRN cpp/Cl5.cpp 175 198@@ :=
  @@ARR cpp/Cl5.cpp 175 198@@

section
variable {F : Type} [FOps F]

/-- numeric literal -/
local notation:max "♯" q:max => (FOps.lit (q : ℚ) : F)

%src cpp/Cl5.cpp 19 83
%arr P cl5dloP
%arr Q cl5dloQ
/-- `double Cl5(double x)` (Cl5.cpp 19-83) -/
def Cl5d (x : F) : F :=
  let PI : F := ⟪3.14159265358979324⟫
  let PIH := ⟪PI/2⟫
  let PI28 := ⟪PI*PI/8⟫
  let zeta5 : F := ⟪1.0369277551433699⟫
  let x := reduceAbs PI ⟪0.0019353071795864769253⟫ x
  if ⟪x == 0⟫ then zeta5
  else if ⟪x < PIH⟫ then
    let y := ⟪x*x⟫
    let y2 := ⟪y*y⟫
    let p := ⟪P[0] + y * P[1] + y2 * (P[2] + y * P[3])⟫
    let q := ⟪Q[0] + y * Q[1] + y2 * (Q[2] + y * Q[3] + y2 * Q[4])⟫
    ⟪p/q - 1./24*y2*std::log(x)⟫
%arr P cl5dhiP
%arr Q cl5dhiQ
  else
    let y := ⟪PI - x⟫
    let z := ⟪y*y - PI28⟫
    let z2 := ⟪z*z⟫
    let z4 := ⟪z2*z2⟫
    let p := ⟪P[0] + z * P[1] + z2 * (P[2] + z * P[3]) +
         z4 * (P[4] + z * P[5])⟫
    let q := ⟪Q[0] + z * Q[1] + z2 * (Q[2] + z * Q[3]) +
         z4 * (Q[4] + z * Q[5])⟫
    ⟪p/q⟫

%src cpp/Cl5.cpp 92 221
%arr P cl5lloP
%arr Q cl5lloQ
/-- `long double Cl5(long double x)` (Cl5.cpp 92-221) -/
def Cl5l (x : F) : F :=
  let PI : F := ⟪3.14159265358979323846264338327950288L⟫
  let PIH := ⟪PI/2⟫
  let PI28 := ⟪PI*PI/8⟫
  let zeta5 : F := ⟪1.036927755143369926331365486457034168057L⟫
  let x := reduceAbs PI ⟪0.0019353071795864769252867665590057683943L⟫ x
  if ⟪x == 0⟫ then zeta5
  else if ⟪x < PIH⟫ then
    let y := ⟪x*x⟫
    let y2 := ⟪y*y⟫
    let y4 := ⟪y2*y2⟫
    let y8 := ⟪y4*y4⟫
    let p := ⟪P[0] + y * P[1] + y2 * (P[2] + y * P[3]) +
         y4 * (P[4] + y * P[5] + y2 * (P[6] + y * P[7])) + y8 * P[8]⟫
    let q := ⟪Q[0] + y * Q[1] + y2 * (Q[2] + y * Q[3]) +
         y4 * (Q[4] + y * Q[5] + y2 * (Q[6] + y * Q[7])) + y8 * Q[8]⟫
    ⟪p/q - 1.0L/24*y2*std::log(x)⟫
%arr P cl5lhiP
%arr Q cl5lhiQ
  else
    let y := ⟪PI - x⟫
    let z := ⟪y*y - PI28⟫
    let z2 := ⟪z*z⟫
    let z4 := ⟪z2*z2⟫
    let z8 := ⟪z4*z4⟫
    let z16 := ⟪z8*z8⟫
    let p := ⟪P[0] + z*P[1] + z2*(P[2] + z*P[3]) +
         z4*(P[4] + z*P[5] + z2*(P[6] + z*P[7])) +
         z8*(P[8] + z*P[9] + z2*(P[10] + z*P[11]) +
             z4*(P[12] + z*P[13] + z2*(P[14] + z*P[15]))) +
         z16*(P[16] + z*P[17] + z2*(P[18] + z*P[19]) +
              z4*(P[20] + z*P[21]))⟫
    let q := ⟪Q[0] + z*Q[1] + z2*(Q[2] + z*Q[3]) +
         z4*(Q[4] + z*Q[5] + z2*(Q[6] + z*Q[7])) +
         z8*(Q[8] + z*Q[9] + z2*(Q[10] + z*Q[11]) +
             z4*(Q[12] + z*Q[13] + z2*(Q[14] + z*Q[15]))) +
         z16*(Q[16] + z*Q[17] + z2*(Q[18] + z*Q[19]) +
              z4*(Q[20] + z*Q[21]))⟫
    ⟪p/q⟫

end
end Polylog
