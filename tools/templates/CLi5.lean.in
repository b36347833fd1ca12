import Verif.Model.CLog

/-! # `src/c/Li5.c` -/

namespace Polylog.C

/-! ## Coefficient tables -/

/-- `bf` (Li5.c 25-36) -/
def cli5dBf : Vector ℚ @@ARRN c/Li5.c 25 36@@ :=
  @@ARR c/Li5.c 25 36@@

/-- `cs` (Li5.c 67-71) -/
def cli5dCs : Vector ℚ @@ARRN c/Li5.c 67 71@@ :=
  @@ARR c/Li5.c 67 71@@

/-- `bf` (Li5.c 123-171, LDBL_DIG <= 18) -/
def cli5l18Bf : Vector ℚ @@ARRN c/Li5.c 123 171 LE18@@ :=
  @@ARR c/Li5.c 123 171 LE18@@

/-- `cs` (Li5.c 202-223, LDBL_DIG <= 18) -/
def cli5l18Cs : Vector ℚ @@ARRN c/Li5.c 202 223 LE18@@ :=
  @@ARR c/Li5.c 202 223 LE18@@

/-- `bf` (Li5.c 123-171, LDBL_DIG > 18) -/
def cli5l36Bf : Vector ℚ @@ARRN c/Li5.c 123 171 GT18@@ :=
  @@ARR c/Li5.c 123 171 GT18@@

/-- `cs` (Li5.c 202-223, LDBL_DIG > 18) -/
def cli5l36Cs : Vector ℚ @@ARRN c/Li5.c 202 223 GT18@@ :=
  @@ARR c/Li5.c 202 223 GT18@@

section
variable {F : Type} [FOps F]

/-- numeric literal -/
local notation:max "♯" q:max => (FOps.lit (q : ℚ) : F)

%src c/Li5.c 19 108
%arr bf cli5dBf
%arr cs cli5dCs
/-- `double _Complex cli5(double _Complex z)` (Li5.c 19-108) -/
def cli5 (z : Cx F) : Cx F :=
  let PI : F := ⟪3.1415926535897932⟫
  let PI2 := ⟪PI*PI⟫
  let PI4 := ⟪PI2*PI2⟫
  let zeta5 : F := ⟪1.0369277551433699⟫
  let rz := z.re
  let iz := z.im
  if ⟪iz == 0⟫ && ⟪rz == 0⟫ then ⟨rz, iz⟩
  else if ⟪iz == 0⟫ && ⟪rz == 1⟫ then ⟨zeta5, iz⟩
  else if ⟪iz == 0⟫ && ⟪rz == -1⟫ then ⟨⟪-15.0*zeta5/16.0⟫, iz⟩
  else
    let nz := ⟪hypot(rz, iz)⟫
    let pz := ⟪atan2(iz, rz)⟫
    let lnz := ⟪log(nz)⟫
    if ⟪lnz*lnz + pz*pz < 1.0⟫ then
      let u : Cx F := ⟨lnz, pz⟩
      let c0 := zeta5
      let c1 : F := ⟪1.0823232337111382⟫
      let c2 : F := ⟪0.60102845157979714⟫
      let c3 : F := ⟪0.27415567780803774⟫
      let c4 := ⟪(25.0/12.0 - pos_clog(-u))/24.0⟫
      let c5 : F := ⟪-1.0/240.0⟫
      let u2 := ⟪u*u⟫
      ⟪c0 + u * c1 +
         u2 * (c2 + u * c3 +
         u2 * (c4 + u * c5 +
         u2 * (cs[0] +
         u2 * (cs[1] +
         u2 * (cs[2] +
         u2 * (cs[3] +
         u2 * (cs[4] +
         u2 * (cs[5]))))))))⟫
    else
      let fin (u rest : Cx F) : Cx F :=
        let u2 := ⟪u*u⟫
        let u4 := ⟪u2*u2⟫
        let u8 := ⟪u4*u4⟫
        ⟪rest +
      u*bf[0] +
         u2*(bf[1] + u*bf[2]) +
         u4*(bf[3] + u*bf[4] + u2*(bf[5] + u*bf[6])) +
         u8*(bf[7] + u*bf[8] + u2*(bf[9] + u*bf[10]) +
             u4*(bf[11] + u*bf[12] + u2*(bf[13] + u*bf[14]))) +
         u8*u8*(bf[15] + u*bf[16] + u2*(bf[17] + u*bf[18]))⟫
      if ⟪nz <= 1.0⟫ then fin (⟪-pos_clog(1.0 - z)⟫) ⟨♯0, ♯0⟩
      else
        let arg := if ⟪pz > 0.0⟫ then ⟪pz - PI⟫ else ⟪pz + PI⟫
        let lmz : Cx F := ⟨lnz, arg⟩
        let lmz2 := ⟪lmz*lmz⟫
        fin (⟪-pos_clog(1.0 - 1.0/z)⟫) (⟪-1.0/360.0*lmz*(7*PI4 + lmz2*(10.0*PI2 + 3.0*lmz2))⟫)

%src c/Li5.c 117 255
/-- `long double _Complex cli5l(long double _Complex z)` (Li5.c 117-255) -/
def cli5l {n m : Nat} (bf : Vector ℚ n) (cs : Vector ℚ m) (z : Cx F) : Cx F :=
  let PI : F := ⟪3.14159265358979323846264338327950288L⟫
  let PI2 := ⟪PI*PI⟫
  let PI4 := ⟪PI2*PI2⟫
  let zeta5 : F := ⟪1.03692775514336992633136548645703417L⟫
  let rz := z.re
  let iz := z.im
  if ⟪iz == 0⟫ && ⟪rz == 0⟫ then ⟨rz, iz⟩
  else if ⟪iz == 0⟫ && ⟪rz == 1⟫ then ⟨zeta5, iz⟩
  else if ⟪iz == 0⟫ && ⟪rz == -1⟫ then ⟨⟪-15.0L*zeta5/16.0L⟫, iz⟩
  else
    let nz := ⟪hypotl(rz, iz)⟫
    let pz := ⟪atan2l(iz, rz)⟫
    let lnz := ⟪logl(nz)⟫
    if ⟪lnz*lnz + pz*pz < 1.0L⟫ then
      let u : Cx F := ⟨lnz, pz⟩
      let c0 := zeta5
      let c1 : F := ⟪1.08232323371113819151600369654116790L⟫
      let c2 : F := ⟪0.601028451579797142699869080755724995L⟫
      let c3 : F := ⟪0.274155677808037739412069194441004198L⟫
      let c4 := ⟪(25.0L/12.0L - pos_clogl(-u))/24.0L⟫
      let c5 : F := ⟪-1.0L/240.0L⟫
      let u2 := ⟪u*u⟫
      let sum := csum 0 u2 cs
      ⟪c0 + u * c1 +
         u2 * (c2 + u * c3 +
         u2 * (c4 + u * c5 + sum))⟫
    else
      let fin (u rest : Cx F) : Cx F :=
        let sum := csum 0 u bf
        ⟪rest + sum⟫
      if ⟪nz <= 1.0L⟫ then fin (⟪-pos_clogl(1.0L - z)⟫) ⟨♯0, ♯0⟩
      else
        let arg := if ⟪pz > 0.0⟫ then ⟪pz - PI⟫ else ⟪pz + PI⟫
        let lmz : Cx F := ⟨lnz, arg⟩
        let lmz2 := ⟪lmz*lmz⟫
        fin (⟪-pos_clogl(1.0L - 1.0L/z)⟫) (⟪-1.0L/360.0L*lmz*(7*PI4 + lmz2*(10.0L*PI2 + 3.0L*lmz2))⟫)

/-- `cli5l`, LDBL_DIG <= 18 (Li5.c 117-255) -/
def cli5l18 (z : Cx F) : Cx F := cli5l cli5l18Bf cli5l18Cs z
/-- `cli5l`, LDBL_DIG > 18 (Li5.c 117-255) -/
def cli5l36 (z : Cx F) : Cx F := cli5l cli5l36Bf cli5l36Cs z

end
end Polylog.C
