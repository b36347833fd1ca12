import Verif.Model.Horner

/-! # `Li4.cpp` -/

namespace Polylog

/-! ## Coefficient tables -/

/-- `cp of li4_neg` (Li4.cpp 21-25) -/
def li4negP : Vector ℚ @@ARRN cpp/Li4.cpp 21 25@@ :=
  @@ARR cpp/Li4.cpp 21 25@@

/-- `cq of li4_neg` (Li4.cpp 26-31) -/
def li4negQ : Vector ℚ @@ARRN cpp/Li4.cpp 26 31@@ :=
  @@ARR cpp/Li4.cpp 26 31@@

/-- `cp of li4_half` (Li4.cpp 46-50) -/
def li4halfP : Vector ℚ @@ARRN cpp/Li4.cpp 46 50@@ :=
  @@ARR cpp/Li4.cpp 46 50@@

/-- `cq of li4_half` (Li4.cpp 51-55) -/
def li4halfQ : Vector ℚ @@ARRN cpp/Li4.cpp 51 55@@ :=
  @@ARR cpp/Li4.cpp 51 55@@

/-- `cp of li4_mid` (Li4.cpp 70-75) -/
def li4midP : Vector ℚ @@ARRN cpp/Li4.cpp 70 75@@ :=
  @@ARR cpp/Li4.cpp 70 75@@

/-- `cq of li4_mid` (Li4.cpp 76-81) -/
def li4midQ : Vector ℚ @@ARRN cpp/Li4.cpp 76 81@@ :=
  @@ARR cpp/Li4.cpp 76 81@@

/-- `bf` (Li4.cpp 175-185) -/
def cli4dBf : Vector ℚ @@ARRN cpp/Li4.cpp 175 185@@ :=
  @@ARR cpp/Li4.cpp 175 185@@

/-- `cs` (Li4.cpp 209-214) -/
def cli4dCs : Vector ℚ @@ARRN cpp/Li4.cpp 209 214@@ :=
  @@ARR cpp/Li4.cpp 209 214@@

/-- `bf` (Li4.cpp 262-310, LDBL_DIG <= 18) -/
def cli4l18Bf : Vector ℚ @@ARRN cpp/Li4.cpp 262 310 LE18@@ :=
  @@ARR cpp/Li4.cpp 262 310 LE18@@

/-- `cs` (Li4.cpp 337-359, LDBL_DIG <= 18) -/
def cli4l18Cs : Vector ℚ @@ARRN cpp/Li4.cpp 337 359 LE18@@ :=
  @@ARR cpp/Li4.cpp 337 359 LE18@@

/-- `bf` (Li4.cpp 262-310, LDBL_DIG > 18) -/
def cli4l36Bf : Vector ℚ @@ARRN cpp/Li4.cpp 262 310 GT18@@ :=
  @@ARR cpp/Li4.cpp 262 310 GT18@@

/-- `cs` (Li4.cpp 337-359, LDBL_DIG > 18) -/
def cli4l36Cs : Vector ℚ @@ARRN cpp/Li4.cpp 337 359 GT18@@ :=
  @@ARR cpp/Li4.cpp 337 359 GT18@@

section
variable {F : Type} [FOps F]

/-- numeric literal -/
local notation:max "♯" q:max => (FOps.lit (q : ℚ) : F)

%src cpp/Li4.cpp 19 41
%arr cp li4negP
%arr cq li4negQ
/-- `li4_neg`: Li_4(x) for x in [-1,0] (Li4.cpp 19-41) -/
def li4_neg (x : F) : F :=
  let x2 := ⟪x*x⟫
  let x4 := ⟪x2*x2⟫
  let p := ⟪cp[0] + x*cp[1] + x2*(cp[2] + x*cp[3]) +
         x4*(cp[4] + x*cp[5])⟫
  let q := ⟪cq[0] + x*cq[1] + x2*(cq[2] + x*cq[3]) +
         x4*(cq[4] + x*cq[5] + x2*cq[6])⟫
  ⟪x*p/q⟫

%src cpp/Li4.cpp 44 65
%arr cp li4halfP
%arr cq li4halfQ
/-- `li4_half`: Li_4(x) for x in [0,1/2] (Li4.cpp 44-65) -/
def li4_half (x : F) : F :=
  let x2 := ⟪x*x⟫
  let x4 := ⟪x2*x2⟫
  let p := ⟪cp[0] + x*cp[1] + x2*(cp[2] + x*cp[3]) +
         x4*(cp[4] + x*cp[5])⟫
  let q := ⟪cq[0] + x*cq[1] + x2*(cq[2] + x*cq[3]) +
         x4*(cq[4] + x*cq[5])⟫
  ⟪x*p/q⟫

%src cpp/Li4.cpp 68 91
%arr cp li4midP
%arr cq li4midQ
/-- `li4_mid`: Li_4(x) for x in [1/2,8/10] (Li4.cpp 68-91) -/
def li4_mid (x : F) : F :=
  let x2 := ⟪x*x⟫
  let x4 := ⟪x2*x2⟫
  let p := ⟪cp[0] + x*cp[1] + x2*(cp[2] + x*cp[3]) +
         x4*(cp[4] + x*cp[5] + x2*cp[6])⟫
  let q := ⟪cq[0] + x*cq[1] + x2*(cq[2] + x*cq[3]) +
         x4*(cq[4] + x*cq[5] + x2*cq[6])⟫
  ⟪p/q⟫

%src cpp/Li4.cpp 94 109
/-- `li4_one`: Li_4(x) for x in [8/10,1] (Li4.cpp 94-109) -/
def li4_one (x : F) : F :=
  let zeta2 : F := ⟪1.6449340668482264⟫
  let zeta3 : F := ⟪1.2020569031595943⟫
  let zeta4 : F := ⟪1.0823232337111382⟫
  let l := ⟪std::log(x)⟫
  let l2 := ⟪l*l⟫
  ⟪zeta4 +
         l*(zeta3 +
         l*(0.5*zeta2 +
         l*(11.0/36 - 1.0/6*std::log(-l) +
         l*(-1.0/48 +
         l*(-1.0/1440 +
         l2*(1.0/604800 - 1.0/91445760*l2))))))⟫

%src cpp/Li4.cpp 150 160
/-- second part of `Li4(double)`: choice of the approximation and final sum (Li4.cpp 150-160) -/
def li4dFin (x rest sgn : F) : F :=
  let app :=
    if ⟪x < 0⟫ then li4_neg x
    else if ⟪x < 0.5⟫ then li4_half x
    else if ⟪x < 0.8⟫ then li4_mid x
    else li4_one x
  ⟪rest + sgn*app⟫

%src cpp/Li4.cpp 119 161
/-- `double Li4(double x)` (Li4.cpp 119-161) -/
def Li4d (x : F) : F :=
  let zeta2 : F := ⟪1.6449340668482264⟫
  let zeta4 : F := ⟪1.0823232337111382⟫
  if ⟪x < -1⟫ then
    let l := ⟪std::log(-x)⟫
    let l2 := ⟪l*l⟫
    li4dFin (⟪1/x⟫) (⟪-7.0/4*zeta4 + l2*(-0.5*zeta2 - 1.0/24*l2)⟫) ∸♯1
  else if ⟪x == -1⟫ then ⟪-7.0/8*zeta4⟫
  else if ⟪x == 0⟫ then x
  else if ⟪x < 1⟫ then li4dFin x ♯0 ♯1
  else if ⟪x == 1⟫ then zeta4
  else
    let l := ⟪std::log(x)⟫
    let l2 := ⟪l*l⟫
    li4dFin (⟪1/x⟫) (⟪2*zeta4 + l2*(zeta2 - 1.0/24*l2)⟫) ∸♯1

%src cpp/Li4.cpp 169 248
%arr bf cli4dBf
%arr cs cli4dCs
%arr Li4 Li4d
/-- `std::complex<double> Li4(const std::complex<double>& z)` (Li4.cpp 169-248) -/
def cLi4d (z : Cx F) : Cx F :=
  let PI : F := ⟪3.1415926535897932⟫
  let PI2 := ⟪PI*PI⟫
  let PI4 := ⟪PI2*PI2⟫
  let zeta4 : F := ⟪1.0823232337111382⟫
  let rz := z.re
  let iz := z.im
  if ⟪iz == 0⟫ then
    if ⟪rz <= 1⟫ then ⟨⟪Li4(rz)⟫, iz⟩
    else
      let l := ⟪std::log(rz)⟫
      ⟨⟪Li4(rz)⟫, ⟪-1.0/6*PI*l*l*l⟫⟩
  else
    let nz := ⟪std::abs(z)⟫
    let pz := ⟪std::arg(z)⟫
    let lnz := ⟪std::log(nz)⟫
    if ⟪lnz*lnz + pz*pz < 1⟫ then
      let u : Cx F := ⟨lnz, pz⟩
      let c1 : F := ⟪1.2020569031595943⟫
      let c2 : F := ⟪0.82246703342411322⟫
      let c3 := ⟪(11.0/6.0 - pos_log(-u))/6.0⟫
      let c4 : F := ⟪-1.0/48.0⟫
      let u2 := ⟪u*u⟫
      ⟪zeta4 + u2*(c2 + u2*c4) +
         u*(c1 + u2*(c3 + u2*horner<0>(u2, cs)))⟫
    else
      let fin (u rest : Cx F) (sgn : F) : Cx F :=
        let u2 := ⟪u*u⟫
        let u4 := ⟪u2*u2⟫
        let u8 := ⟪u4*u4⟫
        ⟪rest + sgn * (
         u*bf[0] +
         u2*(bf[1] + u*bf[2]) +
         u4*(bf[3] + u*bf[4] + u2*(bf[5] + u*bf[6])) +
         u8*(bf[7] + u*bf[8] + u2*(bf[9] + u*bf[10]) +
             u4*(bf[11] + u*bf[12] + u2*(bf[13] + u*bf[14]))) +
         u8*u8*(bf[15] + u*bf[16] + u2*bf[17])
      )⟫
      if ⟪nz <= 1⟫ then fin (⟪-log1p(-z)⟫) ⟨♯0, ♯0⟩ ♯1
      else
        let arg := if ⟪pz > 0.0⟫ then ⟪pz - PI⟫ else ⟪pz + PI⟫
        let lmz : Cx F := ⟨lnz, arg⟩
        let lmz2 := ⟪lmz*lmz⟫
        fin (⟪-log1p(-1.0/z)⟫) (⟪1.0/360.0*(-7*PI4 + lmz2*(-30.0*PI2 - 15.0*lmz2))⟫) ∸♯1

%src cpp/Li4.cpp 256 381
/-- `std::complex<long double> Li4(const std::complex<long double>& z)` (Li4.cpp 256-381) -/
def cLi4l {n m : Nat} (bf : Vector ℚ (n + 2)) (cs : Vector ℚ (m + 2)) (z : Cx F) : Cx F :=
  let PI : F := ⟪3.14159265358979323846264338327950288L⟫
  let PI2 := ⟪PI*PI⟫
  let PI4 := ⟪PI2*PI2⟫
  let zeta4 : F := ⟪1.08232323371113819151600369654116790L⟫
  let rz := z.re
  let iz := z.im
  if ⟪iz == 0⟫ && ⟪rz == 0⟫ then ⟨rz, iz⟩
  else if ⟪iz == 0⟫ && ⟪rz == 1⟫ then ⟨zeta4, iz⟩
  else if ⟪iz == 0⟫ && ⟪rz == -1⟫ then ⟨⟪-7.0L*PI4/720.0L⟫, iz⟩
  else
    let nz := ⟪std::abs(z)⟫
    let pz := ⟪std::arg(z)⟫
    let lnz := ⟪std::log(nz)⟫
    if ⟪lnz*lnz + pz*pz < 1⟫ then
      let u : Cx F := ⟨lnz, pz⟩
      let c1 : F := ⟪1.20205690315959428539973816151144999L⟫
      let c2 : F := ⟪0.822467033424113218236207583323012595L⟫
      let c3 := ⟪(11.0L/6.0L - pos_log(-u))/6.0L⟫
      let c4 : F := ⟪-1.0L/48.0L⟫
      let u2 := ⟪u*u⟫
      ⟪zeta4 + u2*(c2 + u2*c4) +
         u*(c1 + u2*(c3 + u2*horner<0>(u2, cs)))⟫
    else
      let fin (u rest : Cx F) (sgn : F) : Cx F := ⟪rest + sgn*u*horner<0>(u, bf)⟫
      if ⟪nz <= 1⟫ then fin (⟪-log1p(-z)⟫) ⟨♯0, ♯0⟩ ♯1
      else
        let arg := if ⟪pz > 0.0⟫ then ⟪pz - PI⟫ else ⟪pz + PI⟫
        let lmz : Cx F := ⟨lnz, arg⟩
        let lmz2 := ⟪lmz*lmz⟫
        fin (⟪-log1p(-1.0L/z)⟫) (⟪1.0L/360.0L*(-7*PI4 + lmz2*(-30.0L*PI2 - 15.0L*lmz2))⟫) ∸♯1

/-- complex long double `Li4`, LDBL_DIG <= 18 (Li4.cpp 256-381) -/
def cLi4l18 (z : Cx F) : Cx F := cLi4l cli4l18Bf cli4l18Cs z
/-- complex long double `Li4`, LDBL_DIG > 18 (Li4.cpp 256-381) -/
def cLi4l36 (z : Cx F) : Cx F := cLi4l cli4l36Bf cli4l36Cs z

end
end Polylog
