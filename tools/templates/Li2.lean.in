import Verif.Model.Horner

/-! # `Li2.cpp` -/

namespace Polylog

/-! ## Coefficient tables -/

/-- `P` of the float version (Li2.cpp 29-29) -/
def li2fP : Vector ℚ @@ARRN cpp/Li2.cpp 29 29@@ :=
  @@ARR cpp/Li2.cpp 29 29@@

/-- `Q` of the float version (Li2.cpp 30-30) -/
def li2fQ : Vector ℚ @@ARRN cpp/Li2.cpp 30 30@@ :=
  @@ARR cpp/Li2.cpp 30 30@@

/-- `P` of the double version (Li2.cpp 91-98) -/
def li2dP : Vector ℚ @@ARRN cpp/Li2.cpp 91 98@@ :=
  @@ARR cpp/Li2.cpp 91 98@@

/-- `Q` of the double version (Li2.cpp 99-107) -/
def li2dQ : Vector ℚ @@ARRN cpp/Li2.cpp 99 107@@ :=
  @@ARR cpp/Li2.cpp 99 107@@

/-- `P` of the long double version, LDBL_DIG <= 18 (Li2.cpp 173-183) -/
def li2l18P : Vector ℚ @@ARRN cpp/Li2.cpp 173 183@@ :=
  @@ARR cpp/Li2.cpp 173 183@@

/-- `Q` of the long double version, LDBL_DIG <= 18 (Li2.cpp 184-194) -/
def li2l18Q : Vector ℚ @@ARRN cpp/Li2.cpp 184 194@@ :=
  @@ARR cpp/Li2.cpp 184 194@@

/-- `P` of the long double version, LDBL_DIG > 18 (Li2.cpp 196-214) -/
def li2l36P : Vector ℚ @@ARRN cpp/Li2.cpp 196 214@@ :=
  @@ARR cpp/Li2.cpp 196 214@@

/-- `Q` of the long double version, LDBL_DIG > 18 (Li2.cpp 215-233) -/
def li2l36Q : Vector ℚ @@ARRN cpp/Li2.cpp 215 233@@ :=
  @@ARR cpp/Li2.cpp 215 233@@

/-- `bf` of the complex float version; the quotients of small integers are correctly rounded quotients (Li2.cpp 296-301) -/
def cli2fBf : Vector ℚ @@ARRN cpp/Li2.cpp 296 301@@ :=
  @@ARR cpp/Li2.cpp 296 301@@

/-- `bf` of the complex double version (Li2.cpp 369-380) -/
def cli2dBf : Vector ℚ @@ARRN cpp/Li2.cpp 369 380@@ :=
  @@ARR cpp/Li2.cpp 369 380@@

/-- `bf` of the complex long double version (Li2.cpp 447-473, LDBL_DIG <= 18) -/
def cli2l18Bf : Vector ℚ @@ARRN cpp/Li2.cpp 447 473 LE18@@ :=
  @@ARR cpp/Li2.cpp 447 473 LE18@@

/-- `bf` of the complex long double version (Li2.cpp 447-473, LDBL_DIG > 18) -/
def cli2l36Bf : Vector ℚ @@ARRN cpp/Li2.cpp 447 473 GT18@@ :=
  @@ARR cpp/Li2.cpp 447 473 GT18@@

section
variable {F : Type} [FOps F]

/-- numeric literal -/
local notation:max "♯" q:max => (FOps.lit (q : ℚ) : F)

%src cpp/Li2.cpp 71 75
%arr P li2fP
%arr Q li2fQ
/-- final part of Li2: rational function of `y`, result `r + s*y*p/q` (Li2.cpp 71-75) -/
def li2fFin (y r s : F) : F :=
  let y2 := ⟪y*y⟫
  let p := ⟪P[0] + y * P[1] + y2 * P[2]⟫
  let q := ⟪Q[0] + y * Q[1] + y2 * Q[2]⟫
  ⟪r + s*y*p/q⟫

%src cpp/Li2.cpp 26 76
/-- `float Li2(float x)` (Li2.cpp 26-76); `li2fFin` is the final rational approximation -/
def Li2f (x : F) : F :=
  let PI : F := ⟪3.14159265f⟫
  if ⟪x < -1⟫ then
    let l := ⟪std::log(1 - x)⟫
    li2fFin (⟪1/(1 - x)⟫) (⟪-PI*PI/6 + l*(0.5f*l - std::log(-x))⟫) ♯1
  else if ⟪x == -1⟫ then ⟪-PI*PI/12⟫
  else if ⟪x < 0⟫ then
    let l := ⟪std::log1p(-x)⟫
    li2fFin (⟪x/(x - 1)⟫) (⟪-0.5f*l*l⟫) ∸♯1
  else if ⟪x == 0⟫ then x
  else if ⟪x < 0.5f⟫ then li2fFin x ♯0 ♯1
  else if ⟪x < 1⟫ then
    li2fFin (⟪1 - x⟫) (⟪PI*PI/6 - std::log(x)*std::log1p(-x)⟫) ∸♯1
  else if ⟪x == 1⟫ then ⟪PI*PI/6⟫
  else if ⟪x < 2⟫ then
    let l := ⟪std::log(x)⟫
    let y := ⟪1 - 1/x⟫
    li2fFin y (⟪PI*PI/6 - l*(std::log(y) + 0.5f*l)⟫) ♯1
  else
    let l := ⟪std::log(x)⟫
    li2fFin (⟪1/x⟫) (⟪PI*PI/3 - 0.5f*l*l⟫) ∸♯1

%src cpp/Li2.cpp 148 155
%arr P li2dP
%arr Q li2dQ
/-- final part of Li2: rational function of `y`, result `r + s*y*p/q` (Li2.cpp 148-155) -/
def li2dFin (y r s : F) : F :=
  let y2 := ⟪y*y⟫
  let y4 := ⟪y2*y2⟫
  let p := ⟪P[0] + y * P[1] + y2 * (P[2] + y * P[3]) +
                    y4 * (P[4] + y * P[5])⟫
  let q := ⟪Q[0] + y * Q[1] + y2 * (Q[2] + y * Q[3]) +
                    y4 * (Q[4] + y * Q[5] + y2 * Q[6])⟫
  ⟪r + s*y*p/q⟫

%src cpp/Li2.cpp 88 156
/-- `double Li2(double x)` (Li2.cpp 88-156); `li2dFin` is the final rational approximation -/
def Li2d (x : F) : F :=
  let PI : F := ⟪3.1415926535897932⟫
  if ⟪x < -1⟫ then
    let l := ⟪std::log(1 - x)⟫
    li2dFin (⟪1/(1 - x)⟫) (⟪-PI*PI/6 + l*(0.5*l - std::log(-x))⟫) ♯1
  else if ⟪x == -1⟫ then ⟪-PI*PI/12⟫
  else if ⟪x < 0⟫ then
    let l := ⟪std::log1p(-x)⟫
    li2dFin (⟪x/(x - 1)⟫) (⟪-0.5*l*l⟫) ∸♯1
  else if ⟪x == 0⟫ then x
  else if ⟪x < 0.5⟫ then li2dFin x ♯0 ♯1
  else if ⟪x < 1⟫ then
    li2dFin (⟪1 - x⟫) (⟪PI*PI/6 - std::log(x)*std::log1p(-x)⟫) ∸♯1
  else if ⟪x == 1⟫ then ⟪PI*PI/6⟫
  else if ⟪x < 2⟫ then
    let l := ⟪std::log(x)⟫
    let y := ⟪1 - 1/x⟫
    li2dFin y (⟪PI*PI/6 - l*(std::log(y) + 0.5*l)⟫) ♯1
  else
    let l := ⟪std::log(x)⟫
    li2dFin (⟪1/x⟫) (⟪PI*PI/3 - 0.5*l*l⟫) ∸♯1

%src cpp/Li2.cpp 275 280
/-- final part of Li2: rational function of `y`, result `r + s*y*p/q` (Li2.cpp 275-280) -/
def li2lFin {n m : Nat} (P : Vector ℚ (n + 1)) (Q : Vector ℚ (m + 1)) (y r s : F) : F :=
  let z := ⟪y - 0.25L⟫
  let p := horner z P
  let q := horner z Q
  ⟪r + s*y*p/q⟫

%src cpp/Li2.cpp 168 281
/-- `long double Li2(long double x)` (Li2.cpp 168-281); `li2lFin P Q` is the final rational approximation -/
def Li2l {n m : Nat} (P : Vector ℚ (n + 1)) (Q : Vector ℚ (m + 1)) (x : F) : F :=
  let PI : F := ⟪3.14159265358979323846264338327950288L⟫
  if ⟪x < -1⟫ then
    let l := ⟪std::log(1 - x)⟫
    li2lFin P Q (⟪1/(1 - x)⟫) (⟪-PI*PI/6 + l*(0.5L*l - std::log(-x))⟫) ♯1
  else if ⟪x == -1⟫ then ⟪-PI*PI/12⟫
  else if ⟪x < 0⟫ then
    let l := ⟪std::log1p(-x)⟫
    li2lFin P Q (⟪x/(x - 1)⟫) (⟪-0.5L*l*l⟫) ∸♯1
  else if ⟪x == 0⟫ then x
  else if ⟪x < 0.5L⟫ then li2lFin P Q x ♯0 ♯1
  else if ⟪x < 1⟫ then
    li2lFin P Q (⟪1 - x⟫) (⟪PI*PI/6 - std::log(x)*std::log1p(-x)⟫) ∸♯1
  else if ⟪x == 1⟫ then ⟪PI*PI/6⟫
  else if ⟪x < 2⟫ then
    let l := ⟪std::log(x)⟫
    let y := ⟪1 - 1/x⟫
    li2lFin P Q y (⟪PI*PI/6 - l*(std::log(y) + 0.5L*l)⟫) ♯1
  else
    let l := ⟪std::log(x)⟫
    li2lFin P Q (⟪1/x⟫) (⟪PI*PI/3 - 0.5L*l*l⟫) ∸♯1

/-- `Li2(long double)` compiled with LDBL_DIG <= 18 (Li2.cpp 172-194) -/
def Li2l18 (x : F) : F := Li2l li2l18P li2l18Q x
/-- `Li2(long double)` compiled with LDBL_DIG > 18 (Li2.cpp 195-234) -/
def Li2l36 (x : F) : F := Li2l li2l36P li2l36Q x

%src cpp/Li2.cpp 291 352
%arr bf cli2fBf
%arr Li2 Li2f
/-- `std::complex<float> Li2(const std::complex<float>& z)` (Li2.cpp 291-352).
The pair of `u`, `rest`, `sgn` set in the branches is passed to `fin`, the final `return`. -/
def cLi2f (z : Cx F) : Cx F :=
  let PI : F := ⟪3.14159265f⟫
  let rz := z.re
  let iz := z.im
  if ⟪iz == 0⟫ then
    if ⟪rz <= 1⟫ then ⟨⟪Li2(rz)⟫, iz⟩
    else ⟨⟪Li2(rz)⟫, ⟪-PI*std::log(rz)⟫⟩
  else
    let nz := ⟪std::norm(z)⟫
    if nz <. FOps.eps then ⟪z*(1.0f + 0.25f*z)⟫
    else
      let fin (u rest : Cx F) (sgn : F) : Cx F :=
        let u2 := u *. u
        ⟪sgn*(u + u2*(bf[0] + u*horner<1>(u2, bf))) + rest⟫
      if ⟪rz <= 0.5f⟫ then
        if ⟪nz > 1⟫ then
          let lz := ⟪std::log(-z)⟫
          fin (⟪-log1p(-1.0f/z)⟫) (⟪-0.5f*lz*lz - PI*PI/6⟫) ∸♯1
        else
          fin (⟪-log1p(-z)⟫) (Cx.ofReal ♯0) ♯1
      else
        if ⟪nz <= 2*rz⟫ then
          let u := ⟪-std::log(z)⟫
          fin u (⟪u*log1p(-z) + PI*PI/6⟫) ∸♯1
        else
          let lz := ⟪std::log(-z)⟫
          fin (⟪-log1p(-1.0f/z)⟫) (⟪-0.5f*lz*lz - PI*PI/6⟫) ∸♯1

%src cpp/Li2.cpp 363 431
%arr bf cli2dBf
%arr Li2 Li2d
/-- `std::complex<double> Li2(const std::complex<double>& z)` (Li2.cpp 363-431).
The pair of `u`, `rest`, `sgn` set in the branches is passed to `fin`, the final `return`. -/
def cLi2d (z : Cx F) : Cx F :=
  let PI : F := ⟪3.1415926535897932⟫
  let rz := z.re
  let iz := z.im
  if ⟪iz == 0⟫ then
    if ⟪rz <= 1⟫ then ⟨⟪Li2(rz)⟫, iz⟩
    else ⟨⟪Li2(rz)⟫, ⟪-PI*std::log(rz)⟫⟩
  else
    let nz := ⟪std::norm(z)⟫
    if nz <. FOps.eps then ⟪z*(1.0 + 0.25*z)⟫
    else
      let fin (u rest : Cx F) (sgn : F) : Cx F :=
        let u2 := u *. u
        ⟪sgn*(u + u2*(bf[0] + u*horner<1>(u2, bf))) + rest⟫
      if ⟪rz <= 0.5⟫ then
        if ⟪nz > 1⟫ then
          let lz := ⟪std::log(-z)⟫
          fin (⟪-log1p(-1.0/z)⟫) (⟪-0.5*lz*lz - PI*PI/6⟫) ∸♯1
        else
          fin (⟪-log1p(-z)⟫) (Cx.ofReal ♯0) ♯1
      else
        if ⟪nz <= 2*rz⟫ then
          let u := ⟪-std::log(z)⟫
          fin u (⟪u*log1p(-z) + PI*PI/6⟫) ∸♯1
        else
          let lz := ⟪std::log(-z)⟫
          fin (⟪-log1p(-1.0/z)⟫) (⟪-0.5*lz*lz - PI*PI/6⟫) ∸♯1

%src cpp/Li2.cpp 441 524
%arr bf bf
%arr Li2 Li2r
/-- `std::complex<long double> Li2(const std::complex<long double>& z)` (Li2.cpp 441-524).
The pair of `u`, `rest`, `sgn` set in the branches is passed to `fin`, the final `return`. -/
def cLi2l (Li2r : F → F) {n : Nat} (bf : Vector ℚ (n + 2)) (z : Cx F) : Cx F :=
  let PI : F := ⟪3.14159265358979323846264338327950288L⟫
  let rz := z.re
  let iz := z.im
  if ⟪iz == 0⟫ then
    if ⟪rz <= 1⟫ then ⟨⟪Li2(rz)⟫, iz⟩
    else ⟨⟪Li2(rz)⟫, ⟪-PI*std::log(rz)⟫⟩
  else
    let nz := ⟪std::norm(z)⟫
    if nz <. FOps.eps then ⟪z*(1.0L + 0.25L*z)⟫
    else
      let fin (u rest : Cx F) (sgn : F) : Cx F :=
        let u2 := u *. u
        ⟪sgn*(u + u2*(bf[0] + u*horner<1>(u2, bf))) + rest⟫
      if ⟪rz <= 0.5L⟫ then
        if ⟪nz > 1⟫ then
          let lz := ⟪std::log(-z)⟫
          fin (⟪-log1p(-1.0L/z)⟫) (⟪-0.5L*lz*lz - PI*PI/6⟫) ∸♯1
        else
          fin (⟪-log1p(-z)⟫) (Cx.ofReal ♯0) ♯1
      else
        if ⟪nz <= 2*rz⟫ then
          let u := ⟪-std::log(z)⟫
          fin u (⟪u*log1p(-z) + PI*PI/6⟫) ∸♯1
        else
          let lz := ⟪std::log(-z)⟫
          fin (⟪-log1p(-1.0L/z)⟫) (⟪-0.5L*lz*lz - PI*PI/6⟫) ∸♯1

/-- complex `Li2` for long double, LDBL_DIG <= 18 (Li2.cpp 447-458) -/
def cLi2l18 (z : Cx F) : Cx F := cLi2l Li2l18 cli2l18Bf z
/-- complex `Li2` for long double, LDBL_DIG > 18 (Li2.cpp 447-473) -/
def cLi2l36 (z : Cx F) : Cx F := cLi2l Li2l36 cli2l36Bf z

end
end Polylog
