import Verif.Model.CLog

/-! # `src/c/Li2.c` -/

namespace Polylog.C

/-! ## Coefficient tables -/

/-- `P` of the float version (Li2.c 34-34) -/
def li2fP : Vector ℚ @@ARRN c/Li2.c 34 34@@ :=
  @@ARR c/Li2.c 34 34@@

/-- `Q` of the float version (Li2.c 35-35) -/
def li2fQ : Vector ℚ @@ARRN c/Li2.c 35 35@@ :=
  @@ARR c/Li2.c 35 35@@

/-- `P` of the double version (Li2.c 96-103) -/
def li2dP : Vector ℚ @@ARRN c/Li2.c 96 103@@ :=
  @@ARR c/Li2.c 96 103@@

/-- `Q` of the double version (Li2.c 104-112) -/
def li2dQ : Vector ℚ @@ARRN c/Li2.c 104 112@@ :=
  @@ARR c/Li2.c 104 112@@

/-- `P` of the long double version, LDBL_DIG <= 18 (Li2.c 179-189) -/
def li2l18P : Vector ℚ @@ARRN c/Li2.c 179 189@@ :=
  @@ARR c/Li2.c 179 189@@

/-- `Q` of the long double version, LDBL_DIG <= 18 (Li2.c 190-200) -/
def li2l18Q : Vector ℚ @@ARRN c/Li2.c 190 200@@ :=
  @@ARR c/Li2.c 190 200@@

/-- `P` of the long double version, LDBL_DIG > 18 (Li2.c 202-220) -/
def li2l36P : Vector ℚ @@ARRN c/Li2.c 202 220@@ :=
  @@ARR c/Li2.c 202 220@@

/-- `Q` of the long double version, LDBL_DIG > 18 (Li2.c 221-239) -/
def li2l36Q : Vector ℚ @@ARRN c/Li2.c 221 239@@ :=
  @@ARR c/Li2.c 221 239@@

/-- `bf` of the complex float version; the quotients of small integers are correctly rounded quotients (Li2.c 303-308) -/
def cli2fBf : Vector ℚ @@ARRN c/Li2.c 303 308@@ :=
  @@ARR c/Li2.c 303 308@@

/-- `bf` of the complex double version (Li2.c 378-389) -/
def cli2dBf : Vector ℚ @@ARRN c/Li2.c 378 389@@ :=
  @@ARR c/Li2.c 378 389@@

/-- `bf` of the complex long double version (Li2.c 468-494, LDBL_DIG <= 18) -/
def cli2l18Bf : Vector ℚ @@ARRN c/Li2.c 468 494 LE18@@ :=
  @@ARR c/Li2.c 468 494 LE18@@

/-- `bf` of the complex long double version (Li2.c 468-494, LDBL_DIG > 18) -/
def cli2l36Bf : Vector ℚ @@ARRN c/Li2.c 468 494 GT18@@ :=
  @@ARR c/Li2.c 468 494 GT18@@

section
variable {F : Type} [FOps F]

/-- numeric literal -/
local notation:max "♯" q:max => (FOps.lit (q : ℚ) : F)

%src c/Li2.c 76 80
%arr P li2fP
%arr Q li2fQ
/-- final part of Li2: rational function of `y`, result `r + s*y*p/q` (Li2.c 76-80) -/
def li2fFin (y r s : F) : F :=
  let y2 := ⟪y*y⟫
  let p := ⟪P[0] + y * P[1] + y2 * P[2]⟫
  let q := ⟪Q[0] + y * Q[1] + y2 * Q[2]⟫
  ⟪r + s*y*p/q⟫

%src c/Li2.c 31 81
/-- `float li2f(float x)` (Li2.c 31-81); `li2fFin` is the final rational approximation -/
def li2f (x : F) : F :=
  let PI : F := ⟪3.14159265f⟫
  if ⟪x < -1⟫ then
    let l := ⟪logf(1 - x)⟫
    li2fFin (⟪1/(1 - x)⟫) (⟪-PI*PI/6 + l*(0.5f*l - logf(-x))⟫) ♯1
  else if ⟪x == -1⟫ then ⟪-PI*PI/12⟫
  else if ⟪x < 0⟫ then
    let l := ⟪log1pf(-x)⟫
    li2fFin (⟪x/(x - 1)⟫) (⟪-0.5f*l*l⟫) ∸♯1
  else if ⟪x == 0⟫ then x
  else if ⟪x < 0.5f⟫ then li2fFin x ♯0 ♯1
  else if ⟪x < 1⟫ then
    li2fFin (⟪1 - x⟫) (⟪PI*PI/6 - logf(x)*log1pf(-x)⟫) ∸♯1
  else if ⟪x == 1⟫ then ⟪PI*PI/6⟫
  else if ⟪x < 2⟫ then
    let l := ⟪logf(x)⟫
    let y := ⟪1 - 1/x⟫
    li2fFin y (⟪PI*PI/6 - l*(logf(y) + 0.5f*l)⟫) ♯1
  else
    let l := ⟪logf(x)⟫
    li2fFin (⟪1/x⟫) (⟪PI*PI/3 - 0.5f*l*l⟫) ∸♯1

%src c/Li2.c 153 160
%arr P li2dP
%arr Q li2dQ
/-- final part of Li2: rational function of `y`, result `r + s*y*p/q` (Li2.c 153-160) -/
def li2dFin (y r s : F) : F :=
  let y2 := ⟪y*y⟫
  let y4 := ⟪y2*y2⟫
  let p := ⟪P[0] + y * P[1] + y2 * (P[2] + y * P[3]) +
                    y4 * (P[4] + y * P[5])⟫
  let q := ⟪Q[0] + y * Q[1] + y2 * (Q[2] + y * Q[3]) +
                    y4 * (Q[4] + y * Q[5] + y2 * Q[6])⟫
  ⟪r + s*y*p/q⟫

%src c/Li2.c 93 161
/-- `double li2(double x)` (Li2.c 93-161); `li2dFin` is the final rational approximation -/
def li2 (x : F) : F :=
  let PI : F := ⟪3.1415926535897932⟫
  if ⟪x < -1⟫ then
    let l := ⟪log(1 - x)⟫
    li2dFin (⟪1/(1 - x)⟫) (⟪-PI*PI/6 + l*(0.5*l - log(-x))⟫) ♯1
  else if ⟪x == -1⟫ then ⟪-PI*PI/12⟫
  else if ⟪x < 0⟫ then
    let l := ⟪log1p(-x)⟫
    li2dFin (⟪x/(x - 1)⟫) (⟪-0.5*l*l⟫) ∸♯1
  else if ⟪x == 0⟫ then x
  else if ⟪x < 0.5⟫ then li2dFin x ♯0 ♯1
  else if ⟪x < 1⟫ then
    li2dFin (⟪1 - x⟫) (⟪PI*PI/6 - log(x)*log1p(-x)⟫) ∸♯1
  else if ⟪x == 1⟫ then ⟪PI*PI/6⟫
  else if ⟪x < 2⟫ then
    let l := ⟪log(x)⟫
    let y := ⟪1 - 1/x⟫
    li2dFin y (⟪PI*PI/6 - l*(log(y) + 0.5*l)⟫) ♯1
  else
    let l := ⟪log(x)⟫
    li2dFin (⟪1/x⟫) (⟪PI*PI/3 - 0.5*l*l⟫) ∸♯1

%src c/Li2.c 281 286
/-- final part of Li2: rational function of `y`, result `r + s*y*p/q` (Li2.c 281-286) -/
def li2lFin {n m : Nat} (P : Vector ℚ n) (Q : Vector ℚ m) (y r s : F) : F :=
  let z := ⟪y - 0.25L⟫
  let p := hornerl z P
  let q := hornerl z Q
  ⟪r + s*y*p/q⟫

%src c/Li2.c 174 287
/-- `long double li2l(long double x)` (Li2.c 174-287); `li2lFin P Q` is the final rational approximation -/
def li2l {n m : Nat} (P : Vector ℚ n) (Q : Vector ℚ m) (x : F) : F :=
  let PI : F := ⟪3.14159265358979323846264338327950288L⟫
  if ⟪x < -1⟫ then
    let l := ⟪logl(1 - x)⟫
    li2lFin P Q (⟪1/(1 - x)⟫) (⟪-PI*PI/6 + l*(0.5L*l - logl(-x))⟫) ♯1
  else if ⟪x == -1⟫ then ⟪-PI*PI/12⟫
  else if ⟪x < 0⟫ then
    let l := ⟪log1pl(-x)⟫
    li2lFin P Q (⟪x/(x - 1)⟫) (⟪-0.5L*l*l⟫) ∸♯1
  else if ⟪x == 0⟫ then x
  else if ⟪x < 0.5L⟫ then li2lFin P Q x ♯0 ♯1
  else if ⟪x < 1⟫ then
    li2lFin P Q (⟪1 - x⟫) (⟪PI*PI/6 - logl(x)*log1pl(-x)⟫) ∸♯1
  else if ⟪x == 1⟫ then ⟪PI*PI/6⟫
  else if ⟪x < 2⟫ then
    let l := ⟪logl(x)⟫
    let y := ⟪1 - 1/x⟫
    li2lFin P Q y (⟪PI*PI/6 - l*(logl(y) + 0.5L*l)⟫) ♯1
  else
    let l := ⟪logl(x)⟫
    li2lFin P Q (⟪1/x⟫) (⟪PI*PI/3 - 0.5L*l*l⟫) ∸♯1

/-- `li2l` compiled with LDBL_DIG <= 18 (Li2.c 178-200) -/
def li2l18 (x : F) : F := li2l li2l18P li2l18Q x
/-- `li2l` compiled with LDBL_DIG > 18 (Li2.c 201-240) -/
def li2l36 (x : F) : F := li2l li2l36P li2l36Q x

%src c/Li2.c 298 361
%arr bf cli2fBf
%arr li2f li2f
/-- `float _Complex cli2f(float _Complex z)` (Li2.c 298-361).
The `u`, `rest`, `sgn` set in the branches are passed to `fin`, the final `return`. -/
def cli2f (z : Cx F) : Cx F :=
  let PI : F := ⟪3.14159265f⟫
  let rz := z.re
  let iz := z.im
  if ⟪iz == 0.0f⟫ then
    if ⟪rz <= 1.0f⟫ then ⟨⟪li2f(rz)⟫, iz⟩
    else ⟨⟪li2f(rz)⟫, ⟪-PI*logf(rz)⟫⟩
  else
    let nz := ⟪rz*rz + iz*iz⟫
    if nz <. FOps.eps then ⟪z*(1.0f + 0.25f*z)⟫
    else
      let fin (u rest : Cx F) (sgn : F) : Cx F :=
        let u2 := ⟪u*u⟫
        let sum := ⟪u + u2*(bf[0] + u*(bf[1] + u2*(bf[2] + u2*bf[3])))⟫
        ⟪sgn*sum + rest⟫
      if ⟪rz <= 0.5f⟫ then
        if ⟪nz > 1.0f⟫ then
          let lz := ⟪clogf(-z)⟫
          fin (⟪-clogf(1.0f - 1.0f / z)⟫) (⟪-0.5f*lz*lz - PI*PI/6⟫) ∸♯1
        else
          fin (⟪-clogf(1.0f - z)⟫) (Cx.ofReal ♯0) ♯1
      else
        if ⟪nz <= 2*rz⟫ then
          let u := ⟪-clogf(z)⟫
          fin u (⟪u*clogf(1.0f - z) + PI*PI/6⟫) ∸♯1
        else
          let lz := ⟪clogf(-z)⟫
          fin (⟪-clogf(1.0f - 1.0f / z)⟫) (⟪-0.5f*lz*lz - PI*PI/6⟫) ∸♯1

%src c/Li2.c 372 451
%arr bf cli2dBf
%arr li2 li2
/-- `double _Complex cli2(double _Complex z)` (Li2.c 372-451).
The `u`, `rest`, `sgn` set in the branches are passed to `fin`, the final `return`. -/
def cli2 (z : Cx F) : Cx F :=
  let PI : F := ⟪3.1415926535897932⟫
  let rz := z.re
  let iz := z.im
  if ⟪iz == 0.0⟫ then
    if ⟪rz <= 1.0⟫ then ⟨⟪li2(rz)⟫, iz⟩
    else ⟨⟪li2(rz)⟫, ⟪-PI*log(rz)⟫⟩
  else
    let nz := ⟪rz*rz + iz*iz⟫
    if nz <. FOps.eps then ⟪z*(1.0 + 0.25*z)⟫
    else
      let fin (u rest : Cx F) (sgn : F) : Cx F :=
        let u2 := ⟪u*u⟫
        let u4 := ⟪u2*u2⟫
        let sum := ⟪u +
          u2 * (bf[0] +
          u  * (bf[1] +
          u2 * (
              bf[2] +
              u2*bf[3] +
              u4*(bf[4] + u2*bf[5]) +
              u4*u4*(bf[6] + u2*bf[7] + u4*(bf[8] + u2*bf[9]))
          )))⟫
        ⟪sgn*sum + rest⟫
      if ⟪rz <= 0.5⟫ then
        if ⟪nz > 1.0⟫ then
          let lz := ⟪clog(-z)⟫
          fin (⟪-clog1p(-1.0/z)⟫) (⟪-0.5*lz*lz - PI*PI/6⟫) ∸♯1
        else
          fin (⟪-clog1p(-z)⟫) (Cx.ofReal ♯0) ♯1
      else
        if ⟪nz <= 2*rz⟫ then
          let u := ⟪-clog(z)⟫
          fin u (⟪u*clog1p(-z) + PI*PI/6⟫) ∸♯1
        else
          let lz := ⟪clog(-z)⟫
          fin (⟪-clog1p(-1.0/z)⟫) (⟪-0.5*lz*lz - PI*PI/6⟫) ∸♯1

%src c/Li2.c 462 554
%arr bf bf
%arr li2l Li2r
/-- `long double _Complex cli2l(long double _Complex z)` (Li2.c 462-554).
The `u`, `rest`, `sgn` set in the branches are passed to `fin`, the final `return`. -/
def cli2l (Li2r : F → F) {n : Nat} (bf : Vector ℚ (n + 2)) (z : Cx F) : Cx F :=
  let PI : F := ⟪3.14159265358979323846264338327950288L⟫
  let rz := z.re
  let iz := z.im
  if ⟪iz == 0⟫ then
    if ⟪rz <= 1⟫ then ⟨⟪li2l(rz)⟫, iz⟩
    else ⟨⟪li2l(rz)⟫, ⟪-PI*logl(rz)⟫⟩
  else
    let nz := ⟪rz*rz + iz*iz⟫
    if nz <. FOps.eps then ⟪z*(1.0L + 0.25L*z)⟫
    else
      let fin (u rest : Cx F) (sgn : F) : Cx F :=
        let u2 := ⟪u*u⟫
        let sum := csum 2 u2 bf
        let sum := ⟪u + u2 * (bf[0] + u * (bf[1] + sum))⟫
        ⟪sgn*sum + rest⟫
      if ⟪rz <= 0.5L⟫ then
        if ⟪nz > 1.0L⟫ then
          let lz := ⟪clogl(-z)⟫
          fin (⟪-clog1pl(-1.0L/z)⟫) (⟪-0.5L*lz*lz - PI*PI/6⟫) ∸♯1
        else
          fin (⟪-clog1pl(-z)⟫) (Cx.ofReal ♯0) ♯1
      else
        if ⟪nz <= 2*rz⟫ then
          let u := ⟪-clogl(z)⟫
          fin u (⟪u*clog1pl(-z) + PI*PI/6⟫) ∸♯1
        else
          let lz := ⟪clogl(-z)⟫
          fin (⟪-clog1pl(-1.0L/z)⟫) (⟪-0.5L*lz*lz - PI*PI/6⟫) ∸♯1

/-- `cli2l` for LDBL_DIG <= 18 (Li2.c 462-554) -/
def cli2l18 (z : Cx F) : Cx F := cli2l li2l18 cli2l18Bf z
/-- `cli2l` for LDBL_DIG > 18 (Li2.c 462-554) -/
def cli2l36 (z : Cx F) : Cx F := cli2l li2l36 cli2l36Bf z

end
end Polylog.C
