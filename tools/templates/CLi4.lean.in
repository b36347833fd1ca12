import Verif.Model.CLog

/-! # `src/c/Li4.c` -/

namespace Polylog.C

/-! ## Coefficient tables -/

/-- `cp of li4_neg` (Li4.c 15-19) -/
def li4negP : Vector ℚ @@ARRN c/Li4.c 15 19@@ :=
  @@ARR c/Li4.c 15 19@@

/-- `cq of li4_neg` (Li4.c 20-25) -/
def li4negQ : Vector ℚ @@ARRN c/Li4.c 20 25@@ :=
  @@ARR c/Li4.c 20 25@@

/-- `cp of li4_half` (Li4.c 40-44) -/
def li4halfP : Vector ℚ @@ARRN c/Li4.c 40 44@@ :=
  @@ARR c/Li4.c 40 44@@

/-- `cq of li4_half` (Li4.c 45-49) -/
def li4halfQ : Vector ℚ @@ARRN c/Li4.c 45 49@@ :=
  @@ARR c/Li4.c 45 49@@

/-- `cp of li4_mid` (Li4.c 64-69) -/
def li4midP : Vector ℚ @@ARRN c/Li4.c 64 69@@ :=
  @@ARR c/Li4.c 64 69@@

/-- `cq of li4_mid` (Li4.c 70-75) -/
def li4midQ : Vector ℚ @@ARRN c/Li4.c 70 75@@ :=
  @@ARR c/Li4.c 70 75@@

/-- `bf` (Li4.c 168-178) -/
def cli4dBf : Vector ℚ @@ARRN c/Li4.c 168 178@@ :=
  @@ARR c/Li4.c 168 178@@

/-- `cs` (Li4.c 206-211) -/
def cli4dCs : Vector ℚ @@ARRN c/Li4.c 206 211@@ :=
  @@ARR c/Li4.c 206 211@@

/-- `bf` (Li4.c 265-313, LDBL_DIG <= 18) -/
def cli4l18Bf : Vector ℚ @@ARRN c/Li4.c 265 313 LE18@@ :=
  @@ARR c/Li4.c 265 313 LE18@@

/-- `cs` (Li4.c 342-364, LDBL_DIG <= 18) -/
def cli4l18Cs : Vector ℚ @@ARRN c/Li4.c 342 364 LE18@@ :=
  @@ARR c/Li4.c 342 364 LE18@@

/-- `bf` (Li4.c 265-313, LDBL_DIG > 18) -/
def cli4l36Bf : Vector ℚ @@ARRN c/Li4.c 265 313 GT18@@ :=
  @@ARR c/Li4.c 265 313 GT18@@

/-- `cs` (Li4.c 342-364, LDBL_DIG > 18) -/
def cli4l36Cs : Vector ℚ @@ARRN c/Li4.c 342 364 GT18@@ :=
  @@ARR c/Li4.c 342 364 GT18@@

section
variable {F : Type} [FOps F]

/-- numeric literal -/
local notation:max "♯" q:max => (FOps.lit (q : ℚ) : F)

%src c/Li4.c 13 35
%arr cp li4negP
%arr cq li4negQ
/-- `li4_neg`: Li_4(x) for x in [-1,0] (Li4.c 13-35) -/
def li4_neg (x : F) : F :=
  let x2 := ⟪x*x⟫
  let x4 := ⟪x2*x2⟫
  let p := ⟪cp[0] + x*cp[1] + x2*(cp[2] + x*cp[3]) +
         x4*(cp[4] + x*cp[5])⟫
  let q := ⟪cq[0] + x*cq[1] + x2*(cq[2] + x*cq[3]) +
         x4*(cq[4] + x*cq[5] + x2*cq[6])⟫
  ⟪x*p/q⟫

%src c/Li4.c 38 59
%arr cp li4halfP
%arr cq li4halfQ
/-- `li4_half`: Li_4(x) for x in [0,1/2] (Li4.c 38-59) -/
def li4_half (x : F) : F :=
  let x2 := ⟪x*x⟫
  let x4 := ⟪x2*x2⟫
  let p := ⟪cp[0] + x*cp[1] + x2*(cp[2] + x*cp[3]) +
         x4*(cp[4] + x*cp[5])⟫
  let q := ⟪cq[0] + x*cq[1] + x2*(cq[2] + x*cq[3]) +
         x4*(cq[4] + x*cq[5])⟫
  ⟪x*p/q⟫

%src c/Li4.c 62 85
%arr cp li4midP
%arr cq li4midQ
/-- `li4_mid`: Li_4(x) for x in [1/2,8/10] (Li4.c 62-85) -/
def li4_mid (x : F) : F :=
  let x2 := ⟪x*x⟫
  let x4 := ⟪x2*x2⟫
  let p := ⟪cp[0] + x*cp[1] + x2*(cp[2] + x*cp[3]) +
         x4*(cp[4] + x*cp[5] + x2*cp[6])⟫
  let q := ⟪cq[0] + x*cq[1] + x2*(cq[2] + x*cq[3]) +
         x4*(cq[4] + x*cq[5] + x2*cq[6])⟫
  ⟪p/q⟫

%src c/Li4.c 88 103
/-- `li4_one`: Li_4(x) for x in [8/10,1] (Li4.c 88-103) -/
def li4_one (x : F) : F :=
  let zeta2 : F := ⟪1.6449340668482264⟫
  let zeta3 : F := ⟪1.2020569031595943⟫
  let zeta4 : F := ⟪1.0823232337111382⟫
  let l := ⟪log(x)⟫
  let l2 := ⟪l*l⟫
  ⟪zeta4 +
         l*(zeta3 +
         l*(0.5*zeta2 +
         l*(11.0/36 - 1.0/6*log(-l) +
         l*(-1.0/48 +
         l*(-1.0/1440 +
         l2*(1.0/604800 - 1.0/91445760*l2))))))⟫

%src c/Li4.c 142 152
/-- second part of `Li4(double)`: choice of the approximation and final sum (Li4.c 142-152) -/
def li4dFin (x rest sgn : F) : F :=
  let app :=
    if ⟪x < 0⟫ then li4_neg x
    else if ⟪x < 0.5⟫ then li4_half x
    else if ⟪x < 0.8⟫ then li4_mid x
    else li4_one x
  ⟪rest + sgn*app⟫

%src c/Li4.c 111 153
/-- `double li4(double x)` (Li4.c 111-153) -/
def li4 (x : F) : F :=
  let zeta2 : F := ⟪1.6449340668482264⟫
  let zeta4 : F := ⟪1.0823232337111382⟫
  if ⟪x < -1⟫ then
    let l := ⟪log(-x)⟫
    let l2 := ⟪l*l⟫
    li4dFin (⟪1/x⟫) (⟪-7.0/4*zeta4 + l2*(-0.5*zeta2 - 1.0/24*l2)⟫) ∸♯1
  else if ⟪x == -1⟫ then ⟪-7.0/8*zeta4⟫
  else if ⟪x == 0⟫ then x
  else if ⟪x < 1⟫ then li4dFin x ♯0 ♯1
  else if ⟪x == 1⟫ then zeta4
  else
    let l := ⟪log(x)⟫
    let l2 := ⟪l*l⟫
    li4dFin (⟪1/x⟫) (⟪2*zeta4 + l2*(zeta2 - 1.0/24*l2)⟫) ∸♯1

%src c/Li4.c 162 250
%arr bf cli4dBf
%arr cs cli4dCs
%arr li4 li4
/-- `double _Complex cli4(double _Complex z)` (Li4.c 162-250) -/
def cli4 (z : Cx F) : Cx F :=
  let PI : F := ⟪3.1415926535897932⟫
  let PI2 := ⟪PI*PI⟫
  let PI4 := ⟪PI2*PI2⟫
  let zeta4 : F := ⟪1.0823232337111382⟫
  let rz := z.re
  let iz := z.im
  if ⟪iz == 0⟫ then
    if ⟪rz <= 1⟫ then ⟨⟪li4(rz)⟫, iz⟩
    else
      let l := ⟪log(rz)⟫
      ⟨⟪li4(rz)⟫, ⟪-1.0/6*PI*l*l*l⟫⟩
  else
    let nz := ⟪hypot(rz, iz)⟫
    let pz := ⟪atan2(iz, rz)⟫
    let lnz := ⟪log(nz)⟫
    if ⟪lnz*lnz + pz*pz < 1.0⟫ then
      let u : Cx F := ⟨lnz, pz⟩
      let c1 : F := ⟪1.2020569031595943⟫
      let c2 : F := ⟪0.82246703342411322⟫
      let c3 := ⟪(11.0/6.0 - pos_clog(-u))/6.0⟫
      let c4 : F := ⟪-1.0/48.0⟫
      let u2 := ⟪u*u⟫
      let u4 := ⟪u2*u2⟫
      let u8 := ⟪u4*u4⟫
      ⟪zeta4 + u2 * (c2 + u2 * c4) +
          u * (
              c1 +
              c3*u2 +
              u4*(cs[0] + u2*cs[1]) +
              u8*(cs[2] + u2*cs[3] + u4*(cs[4] + u2*cs[5])) +
              u8*u8*cs[6]
          )⟫
    else
      let fin (u r : Cx F) (sgn : F) : Cx F :=
        let u2 := ⟪u*u⟫
        let u4 := ⟪u2*u2⟫
        let u8 := ⟪u4*u4⟫
        ⟪r + sgn * (
         u*bf[0] +
         u2*(bf[1] + u*bf[2]) +
         u4*(bf[3] + u*bf[4] + u2*(bf[5] + u*bf[6])) +
         u8*(bf[7] + u*bf[8] + u2*(bf[9] + u*bf[10]) +
             u4*(bf[11] + u*bf[12] + u2*(bf[13] + u*bf[14]))) +
         u8*u8*(bf[15] + u*bf[16] + u2*bf[17])
      )⟫
      if ⟪nz <= 1.0⟫ then fin (⟪-pos_clog(1.0 - z)⟫) ⟨♯0, ♯0⟩ ♯1
      else
        let arg := if ⟪pz > 0.0⟫ then ⟪pz - PI⟫ else ⟪pz + PI⟫
        let lmz : Cx F := ⟨lnz, arg⟩
        let lmz2 := ⟪lmz*lmz⟫
        fin (⟪-pos_clog(1.0 - 1.0/z)⟫) (⟪1.0/360.0*(-7*PI4 + lmz2*(-30.0*PI2 - 15.0*lmz2))⟫) ∸♯1

%src c/Li4.c 259 397
/-- `long double _Complex cli4l(long double _Complex z)` (Li4.c 259-397) -/
def cli4l {n m : Nat} (bf : Vector ℚ n) (cs : Vector ℚ m) (z : Cx F) : Cx F :=
  let PI : F := ⟪3.14159265358979323846264338327950288L⟫
  let PI2 := ⟪PI*PI⟫
  let PI4 := ⟪PI2*PI2⟫
  let zeta4 : F := ⟪1.08232323371113819151600369654116790L⟫
  let rz := z.re
  let iz := z.im
  if ⟪iz == 0⟫ && ⟪rz == 0⟫ then ⟨rz, iz⟩
  else if ⟪iz == 0⟫ && ⟪rz == 1⟫ then ⟨zeta4, iz⟩
  else if ⟪iz == 0⟫ && ⟪rz == -1.0⟫ then ⟨⟪-7.0L*PI4/720.0L⟫, iz⟩
  else
    let nz := ⟪hypotl(rz, iz)⟫
    let pz := ⟪atan2l(iz, rz)⟫
    let lnz := ⟪logl(nz)⟫
    if ⟪lnz*lnz + pz*pz < 1.0L⟫ then
      let u : Cx F := ⟨lnz, pz⟩
      let c1 : F := ⟪1.20205690315959428539973816151144999L⟫
      let c2 : F := ⟪0.822467033424113218236207583323012595L⟫
      let c3 := ⟪(11.0L/6.0L - pos_clogl(-u))/6.0L⟫
      let c4 : F := ⟪-1.0L/48.0L⟫
      let u2 := ⟪u*u⟫
      let sum := csum 0 u2 cs
      ⟪zeta4 + u2 * (c2 + u2 * c4) + u * (c1 + u2 * (c3 + sum))⟫
    else
      let fin (u r : Cx F) (sgn : F) : Cx F :=
        let sum := csum 0 u bf
        ⟪sgn*sum + r⟫
      if ⟪nz <= 1.0L⟫ then fin (⟪-pos_clogl(1.0L - z)⟫) ⟨♯0, ♯0⟩ ♯1
      else
        let arg := if ⟪pz > 0.0⟫ then ⟪pz - PI⟫ else ⟪pz + PI⟫
        let lmz : Cx F := ⟨lnz, arg⟩
        let lmz2 := ⟪lmz*lmz⟫
        fin (⟪-pos_clogl(1.0L - 1.0L/z)⟫) (⟪1.0L/360.0L*(-7*PI4 + lmz2*(-30.0L*PI2 - 15.0L*lmz2))⟫) ∸♯1

/-- `cli4l`, LDBL_DIG <= 18 (Li4.c 259-397) -/
def cli4l18 (z : Cx F) : Cx F := cli4l cli4l18Bf cli4l18Cs z
/-- `cli4l`, LDBL_DIG > 18 (Li4.c 259-397) -/
def cli4l36 (z : Cx F) : Cx F := cli4l cli4l36Bf cli4l36Cs z

end
end Polylog.C
