import Verif.Model.CLog

/-! # `src/c/Li3.c` -/

namespace Polylog.C

/-! ## Coefficient tables -/

/-- `cp of li3_neg` (Li3.c 15-19) -/
def li3negP : Vector ℚ @@ARRN c/Li3.c 15 19@@ :=
  @@ARR c/Li3.c 15 19@@

/-- `cq of li3_neg` (Li3.c 20-25) -/
def li3negQ : Vector ℚ @@ARRN c/Li3.c 20 25@@ :=
  @@ARR c/Li3.c 20 25@@

/-- `cp of li3_pos` (Li3.c 40-44) -/
def li3posP : Vector ℚ @@ARRN c/Li3.c 40 44@@ :=
  @@ARR c/Li3.c 40 44@@

/-- `cq of li3_pos` (Li3.c 45-50) -/
def li3posQ : Vector ℚ @@ARRN c/Li3.c 45 50@@ :=
  @@ARR c/Li3.c 45 50@@

/-- `bf` (Li3.c 114-124) -/
def cli3dBf : Vector ℚ @@ARRN c/Li3.c 114 124@@ :=
  @@ARR c/Li3.c 114 124@@

/-- `cs` (Li3.c 150-155) -/
def cli3dCs : Vector ℚ @@ARRN c/Li3.c 150 155@@ :=
  @@ARR c/Li3.c 150 155@@

/-- `bf` (Li3.c 202-250, LDBL_DIG <= 18) -/
def cli3l18Bf : Vector ℚ @@ARRN c/Li3.c 202 250 LE18@@ :=
  @@ARR c/Li3.c 202 250 LE18@@

/-- `cs` (Li3.c 280-303, LDBL_DIG <= 18) -/
def cli3l18Cs : Vector ℚ @@ARRN c/Li3.c 280 303 LE18@@ :=
  @@ARR c/Li3.c 280 303 LE18@@

/-- `bf` (Li3.c 202-250, LDBL_DIG > 18) -/
def cli3l36Bf : Vector ℚ @@ARRN c/Li3.c 202 250 GT18@@ :=
  @@ARR c/Li3.c 202 250 GT18@@

/-- `cs` (Li3.c 280-303, LDBL_DIG > 18) -/
def cli3l36Cs : Vector ℚ @@ARRN c/Li3.c 280 303 GT18@@ :=
  @@ARR c/Li3.c 280 303 GT18@@

section
variable {F : Type} [FOps F]

/-- numeric literal -/
local notation:max "♯" q:max => (FOps.lit (q : ℚ) : F)

%src c/Li3.c 13 35
%arr cp li3negP
%arr cq li3negQ
/-- `li3_neg`: Li_3(x) for x in [-1,0] (Li3.c 13-35) -/
def li3_neg (x : F) : F :=
  let x2 := ⟪x*x⟫
  let x4 := ⟪x2*x2⟫
  let p := ⟪cp[0] + x*cp[1] + x2*(cp[2] + x*cp[3]) +
         x4*(cp[4] + x*cp[5])⟫
  let q := ⟪cq[0] + x*cq[1] + x2*(cq[2] + x*cq[3]) +
         x4*(cq[4] + x*cq[5] + x2*cq[6])⟫
  ⟪x*p/q⟫

%src c/Li3.c 38 60
%arr cp li3posP
%arr cq li3posQ
/-- `li3_pos`: Li_3(x) for x in [0,1/2] (Li3.c 38-60) -/
def li3_pos (x : F) : F :=
  let x2 := ⟪x*x⟫
  let x4 := ⟪x2*x2⟫
  let p := ⟪cp[0] + x*cp[1] + x2*(cp[2] + x*cp[3]) +
         x4*(cp[4] + x*cp[5])⟫
  let q := ⟪cq[0] + x*cq[1] + x2*(cq[2] + x*cq[3]) +
         x4*(cq[4] + x*cq[5] + x2*cq[6])⟫
  ⟪x*p/q⟫

%src c/Li3.c 68 101
/-- `double li3(double x)` (Li3.c 68-101) -/
def li3 (x : F) : F :=
  let zeta2 : F := ⟪1.6449340668482264⟫
  let zeta3 : F := ⟪1.2020569031595943⟫
  if ⟪x < -1⟫ then
    let l := ⟪log(-x)⟫
    ⟪li3_neg(1/x) - l*(zeta2 + 1.0/6*l*l)⟫
  else if ⟪x == -1⟫ then ⟪-0.75*zeta3⟫
  else if ⟪x < 0⟫ then ⟪li3_neg(x)⟫
  else if ⟪x == 0⟫ then x
  else if ⟪x < 0.5⟫ then ⟪li3_pos(x)⟫
  else if ⟪x == 0.5⟫ then ⟪0.53721319360804020⟫
  else if ⟪x < 1⟫ then
    let l := ⟪log(x)⟫
    ⟪-li3_neg(1 - 1/x) - li3_pos(1 - x)
         + zeta3 + l*(zeta2 + l*(-0.5*log1p(-x) + 1.0/6*l))⟫
  else if ⟪x == 1⟫ then zeta3
  else if ⟪x < 2⟫ then
    let l := ⟪log(x)⟫
    ⟪-li3_neg(1 - x) - li3_pos(1 - 1/x)
         + zeta3 + l*(zeta2 + l*(-0.5*log(x - 1) + 1.0/6*l))⟫
  else
    let l := ⟪log(x)⟫
    ⟪li3_pos(1/x) + l*(2*zeta2 - 1.0/6*l*l)⟫

%src c/Li3.c 109 188
%arr bf cli3dBf
%arr cs cli3dCs
%arr li3 li3
/-- `double _Complex cli3(double _Complex z)` (Li3.c 109-188) -/
def cli3 (z : Cx F) : Cx F :=
  let PI : F := ⟪3.1415926535897932⟫
  let zeta2 : F := ⟪1.6449340668482264⟫
  let zeta3 : F := ⟪1.2020569031595943⟫
  let rz := z.re
  let iz := z.im
  if ⟪iz == 0⟫ then
    if ⟪rz <= 1⟫ then ⟨⟪li3(rz)⟫, iz⟩
    else
      let l := ⟪log(rz)⟫
      ⟨⟪li3(rz)⟫, ⟪-0.5*PI*l*l⟫⟩
  else
    let nz := ⟪hypot(rz, iz)⟫
    let pz := ⟪atan2(iz, rz)⟫
    let lnz := ⟪log(nz)⟫
    if ⟪lnz*lnz + pz*pz < 1.0⟫ then
      let u : Cx F := ⟨lnz, pz⟩
      let u2 := ⟪u*u⟫
      let u4 := ⟪u2*u2⟫
      let u8 := ⟪u4*u4⟫
      let c0 := ⟪zeta3 + u*(zeta2 - u2/12.0)⟫
      let c1 := ⟪0.25 * (3.0 - 2.0*pos_clog(-u))⟫
      ⟪c0 +
         c1*u2 +
         u4*(cs[0] + u2*cs[1]) +
         u8*(cs[2] + u2*cs[3] + u4*(cs[4] + u2*cs[5])) +
         u8*u8*cs[6]⟫
    else
      let fin (u rest : Cx F) : Cx F :=
        let u2 := ⟪u*u⟫
        let u4 := ⟪u2*u2⟫
        let u8 := ⟪u4*u4⟫
        ⟪rest +
      u*bf[0] +
         u2*(bf[1] + u*bf[2]) +
         u4*(bf[3] + u*bf[4] + u2*(bf[5] + u*bf[6])) +
         u8*(bf[7] + u*bf[8] + u2*(bf[9] + u*bf[10]) +
             u4*(bf[11] + u*bf[12] + u2*(bf[13] + u*bf[14]))) +
         u8*u8*(bf[15] + u*bf[16] + u2*bf[17])⟫
      if ⟪nz <= 1.0⟫ then fin (⟪-pos_clog(1.0 - z)⟫) ⟨♯0, ♯0⟩
      else
        let arg := if ⟪pz > 0.0⟫ then ⟪pz - PI⟫ else ⟪pz + PI⟫
        let lmz : Cx F := ⟨lnz, arg⟩
        fin (⟪-pos_clog(1.0 - 1.0/z)⟫) (⟪-lmz*(lmz*lmz/6.0 + zeta2)⟫)

%src c/Li3.c 197 335
/-- `long double _Complex cli3l(long double _Complex z)` (Li3.c 197-335) -/
def cli3l {n m : Nat} (bf : Vector ℚ n) (cs : Vector ℚ m) (z : Cx F) : Cx F :=
  let PI : F := ⟪3.14159265358979323846264338327950288L⟫
  let zeta2 : F := ⟪1.64493406684822643647241516664602519L⟫
  let zeta3 : F := ⟪1.20205690315959428539973816151144999L⟫
  let rz := z.re
  let iz := z.im
  if ⟪iz == 0⟫ && ⟪rz == 0⟫ then ⟨rz, iz⟩
  else if ⟪iz == 0⟫ && ⟪rz == 1⟫ then ⟨zeta3, iz⟩
  else if ⟪iz == 0⟫ && ⟪rz == -1⟫ then ⟨⟪-0.75L*zeta3⟫, iz⟩
  else if ⟪iz == 0⟫ && ⟪rz == 0.5L⟫ then ⟨⟪0.537213193608040200940623225594965827L⟫, iz⟩
  else
    let nz := ⟪hypotl(rz, iz)⟫
    let pz := ⟪atan2l(iz, rz)⟫
    let lnz := ⟪logl(nz)⟫
    if ⟪lnz*lnz + pz*pz < 1.0L⟫ then
      let u : Cx F := ⟨lnz, pz⟩
      let u2 := ⟪u*u⟫
      let c0 := ⟪zeta3 + u*(zeta2 - u2/12.0L)⟫
      let c1 := ⟪0.25L * (3.0L - 2.0L*pos_clogl(-u))⟫
      let sum := csum 0 u2 cs
      ⟪c0 + u2 * (c1 + sum)⟫
    else
      let fin (u rest : Cx F) : Cx F :=
        let sum := csum 0 u bf
        ⟪rest + sum⟫
      if ⟪nz <= 1.0L⟫ then fin (⟪-pos_clogl(1.0L - z)⟫) ⟨♯0, ♯0⟩
      else
        let arg := if ⟪pz > 0.0L⟫ then ⟪pz - PI⟫ else ⟪pz + PI⟫
        let lmz : Cx F := ⟨lnz, arg⟩
        fin (⟪-pos_clogl(1.0L - 1.0L/z)⟫) (⟪-lmz*(lmz*lmz/6.0L + zeta2)⟫)

/-- `cli3l`, LDBL_DIG <= 18 (Li3.c 197-335) -/
def cli3l18 (z : Cx F) : Cx F := cli3l cli3l18Bf cli3l18Cs z
/-- `cli3l`, LDBL_DIG > 18 (Li3.c 197-335) -/
def cli3l36 (z : Cx F) : Cx F := cli3l cli3l36Bf cli3l36Cs z

end
end Polylog.C
