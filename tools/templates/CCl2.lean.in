import Verif.Model.CReduce

/-! # `src/c/Cl2.c` -/

namespace Polylog.C

/-! ## Coefficient tables -/

/-- `P` (Cl2.c 47-50) -/
def cl2dloP : Vector ℚ @@ARRN c/Cl2.c 47 50@@ :=
  @@ARR c/Cl2.c 47 50@@

/-- `Q` (Cl2.c 51-54) -/
def cl2dloQ : Vector ℚ @@ARRN c/Cl2.c 51 54@@ :=
  @@ARR c/Cl2.c 51 54@@

/-- `P` (Cl2.c 62-66) -/
def cl2dhiP : Vector ℚ @@ARRN c/Cl2.c 62 66@@ :=
  @@ARR c/Cl2.c 62 66@@

/-- `Q` (Cl2.c 67-71) -/
def cl2dhiQ : Vector ℚ @@ARRN c/Cl2.c 67 71@@ :=
  @@ARR c/Cl2.c 67 71@@

/-- `P` (Cl2.c 128-138) -/
def cl2lloP : Vector ℚ @@ARRN c/Cl2.c 128 138@@ :=
  @@ARR c/Cl2.c 128 138@@

/-- `Q` (Cl2.c 139-149) -/
def cl2lloQ : Vector ℚ @@ARRN c/Cl2.c 139 149@@ :=
  @@ARR c/Cl2.c 139 149@@

/-- `P` (Cl2.c 162-176) -/
def cl2lhiP : Vector ℚ @@ARRN c/Cl2.c 162 176@@ :=
  @@ARR c/Cl2.c 162 176@@

/-- `Q` (Cl2.c 177-191) -/
def cl2lhiQ : Vector ℚ @@ARRN c/Cl2.c 177 191@@ :=
  @@ARR c/Cl2.c 177 191@@

section
variable {F : Type} [FOps F]

/-- numeric literal -/
local notation:max "♯" q:max => (FOps.lit (q : ℚ) : F)

%src c/Cl2.c 16 85
%arr P cl2dloP
%arr Q cl2dloQ
/-- `double cl2(double x)` (Cl2.c 16-85) -/
def cl2 (x : F) : F :=
  let PI : F := ⟪3.14159265358979324⟫
  let PIH := ⟪PI/2⟫
  let PI28 := ⟪PI*PI/8⟫
  let xs := reduceSgn PI ⟪0.0019353071795864769253⟫ x
  let x := xs.1
  let sgn := xs.2
  if ⟪x == 0⟫ then x
  else if ⟪x == PI⟫ then ♯0
  else if ⟪x < PIH⟫ then
    let y := ⟪x*x⟫
    let y2 := ⟪y*y⟫
    let p := ⟪P[0] + y * P[1] + y2 * (P[2] + y * P[3])⟫
    let q := ⟪Q[0] + y * Q[1] + y2 * (Q[2] + y * Q[3])⟫
    let h := ⟪x*(1 - log(x) + y*p/q)⟫
    ⟪sgn*h⟫
%arr P cl2dhiP
%arr Q cl2dhiQ
  else
    let y := ⟪PI - x⟫
    let z := ⟪y*y - PI28⟫
    let z2 := ⟪z*z⟫
    let z4 := ⟪z2*z2⟫
    let p := ⟪P[0] + z * P[1] + z2 * (P[2] + z * P[3]) +
         z4 * (P[4] + z * P[5])⟫
    let q := ⟪Q[0] + z * Q[1] + z2 * (Q[2] + z * Q[3]) +
         z4 * (Q[4] + z * Q[5])⟫
    let h := ⟪y*p/q⟫
    ⟪sgn*h⟫

%src c/Cl2.c 98 208
%arr P cl2lloP
%arr Q cl2lloQ
/-- `long double cl2l(long double x)` (Cl2.c 98-208) -/
def cl2l (x : F) : F :=
  let PI : F := ⟪3.14159265358979323846264338327950288L⟫
  let PIH := ⟪PI/2⟫
  let PI28 := ⟪PI*PI/8⟫
  let xs := reduceSgn PI ⟪0.0019353071795864769252867665590057683943L⟫ x
  let x := xs.1
  let sgn := xs.2
  if ⟪x == 0⟫ then x
  else if ⟪x == PI⟫ then ♯0
  else if ⟪x < PIH⟫ then
    let y := ⟪x*x⟫
    let z := ⟪y - PI28⟫
    let z2 := ⟪z*z⟫
    let z4 := ⟪z2*z2⟫
    let z8 := ⟪z4*z4⟫
    let p := ⟪P[0] + z * P[1] + z2 * (P[2] + z * P[3]) +
         z4 * (P[4] + z * P[5] + z2 * (P[6] + z * P[7])) + z8 * P[8]⟫
    let q := ⟪Q[0] + z * Q[1] + z2 * (Q[2] + z * Q[3]) +
         z4 * (Q[4] + z * Q[5] + z2 * (Q[6] + z * Q[7])) + z8 * Q[8]⟫
    let h := ⟪x*(1 - logl(x) + y*p/q)⟫
    ⟪sgn*h⟫
%arr P cl2lhiP
%arr Q cl2lhiQ
  else
    let y := ⟪PI - x⟫
    let z := ⟪y*y - PI28⟫
    let z2 := ⟪z*z⟫
    let z4 := ⟪z2*z2⟫
    let z8 := ⟪z4*z4⟫
    let p := ⟪P[0] + z * P[1] + z2 * (P[2] + z * P[3]) +
         z4 * (P[4] + z * P[5] + z2 * (P[6] + z * P[7])) +
         z8 * (P[8] + z * P[9] + z2 * (P[10] + z * P[11]) + z4 * P[12])⟫
    let q := ⟪Q[0] + z * Q[1] + z2 * (Q[2] + z * Q[3]) +
         z4 * (Q[4] + z * Q[5] + z2 * (Q[6] + z * Q[7])) +
         z8 * (Q[8] + z * Q[9] + z2 * (Q[10] + z * Q[11]) + z4 * Q[12])⟫
    let h := ⟪y*p/q⟫
    ⟪sgn*h⟫

end
end Polylog.C
