import Verif.Model.CLog

/-! # `src/c/Li6.c` -/

namespace Polylog.C

/-! ## Coefficient tables -/

/-- `bf` (Li6.c 26-36) -/
def cli6dBf : Vector ℚ @@ARRN c/Li6.c 26 36@@ :=
  @@ARR c/Li6.c 26 36@@

/-- `cs` (Li6.c 68-72) -/
def cli6dCs : Vector ℚ @@ARRN c/Li6.c 68 72@@ :=
  @@ARR c/Li6.c 68 72@@

/-- `bf` (Li6.c 128-176, LDBL_DIG <= 18) -/
def cli6l18Bf : Vector ℚ @@ARRN c/Li6.c 128 176 LE18@@ :=
  @@ARR c/Li6.c 128 176 LE18@@

/-- `cs` (Li6.c 208-228, LDBL_DIG <= 18) -/
def cli6l18Cs : Vector ℚ @@ARRN c/Li6.c 208 228 LE18@@ :=
  @@ARR c/Li6.c 208 228 LE18@@

/-- `bf` (Li6.c 128-176, LDBL_DIG > 18) -/
def cli6l36Bf : Vector ℚ @@ARRN c/Li6.c 128 176 GT18@@ :=
  @@ARR c/Li6.c 128 176 GT18@@

/-- `cs` (Li6.c 208-228, LDBL_DIG > 18) -/
def cli6l36Cs : Vector ℚ @@ARRN c/Li6.c 208 228 GT18@@ :=
  @@ARR c/Li6.c 208 228 GT18@@

section
variable {F : Type} [FOps F]

/-- numeric literal -/
local notation:max "♯" q:max => (FOps.lit (q : ℚ) : F)

%src c/Li6.c 19 112
%arr bf cli6dBf
%arr cs cli6dCs
/-- `double _Complex cli6(double _Complex z)` (Li6.c 19-112) -/
def cli6 (z : Cx F) : Cx F :=
  let PI : F := ⟪3.1415926535897932⟫
  let PI2 := ⟪PI*PI⟫
  let PI4 := ⟪PI2*PI2⟫
  let PI6 := ⟪PI2*PI4⟫
  let zeta6 : F := ⟪1.0173430619844491⟫
  let rz := z.re
  let iz := z.im
  if ⟪iz == 0⟫ && ⟪rz == 0⟫ then ⟨rz, iz⟩
  else if ⟪iz == 0⟫ && ⟪rz == 1⟫ then ⟨zeta6, iz⟩
  else if ⟪iz == 0⟫ && ⟪rz == -1⟫ then ⟨⟪-31.0*zeta6/32.0⟫, iz⟩
  else
    let nz := ⟪hypot(rz, iz)⟫
    let pz := ⟪atan2(iz, rz)⟫
    let lnz := ⟪log(nz)⟫
    if ⟪lnz*lnz + pz*pz < 1.0⟫ then
      let u : Cx F := ⟨lnz, pz⟩
      let c0 := zeta6
      let c1 : F := ⟪1.0369277551433699⟫
      let c2 : F := ⟪0.54116161685556910⟫
      let c3 : F := ⟪0.20034281719326571⟫
      let c4 : F := ⟪0.068538919452009435⟫
      let c5 := ⟪(137.0/60.0 - pos_clog(-u))/120.0⟫
      let c6 : F := ⟪-1.0/1440.0⟫
      let u2 := ⟪u*u⟫
      ⟪c0 + u * c1 +
         u2 * (c2 + u * c3 +
         u2 * (c4 + u * c5 +
         u2 * (c6 +
         u * (cs[0] +
         u2 * (cs[1] +
         u2 * (cs[2] +
         u2 * (cs[3] +
         u2 * (cs[4]))))))))⟫
    else
      let fin (u r : Cx F) (sgn : F) : Cx F :=
        let u2 := ⟪u*u⟫
        let u4 := ⟪u2*u2⟫
        let u8 := ⟪u4*u4⟫
        ⟪r + sgn * (
         u*bf[0] +
         u2*(bf[1] + u*bf[2]) +
         u4*(bf[3] + u*bf[4] + u2*(bf[5] + u*bf[6])) +
         u8*(bf[7] + u*bf[8] + u2*(bf[9] + u*bf[10]) +
             u4*(bf[11] + u*bf[12] + u2*(bf[13] + u*bf[14]))) +
         u8*u8*(bf[15] + u*bf[16] + u2*bf[17])
      )⟫
      if ⟪nz <= 1.0⟫ then fin (⟪-pos_clog(1.0 - z)⟫) ⟨♯0, ♯0⟩ ♯1
      else
        let arg := if ⟪pz > 0.0⟫ then ⟪pz - PI⟫ else ⟪pz + PI⟫
        let lmz : Cx F := ⟨lnz, arg⟩
        let lmz2 := ⟪lmz*lmz⟫
        fin (⟪-pos_clog(1.0 - 1.0/z)⟫) (⟪-31.0*PI6/15120.0 + lmz2*(-7.0/720.0*PI4 + lmz2*(-1.0/144.0*PI2 - 1.0/720.0*lmz2))⟫) ∸♯1

%src c/Li6.c 121 269
/-- `long double _Complex cli6l(long double _Complex z)` (Li6.c 121-269) -/
def cli6l {n m : Nat} (bf : Vector ℚ n) (cs : Vector ℚ (m + 1)) (z : Cx F) : Cx F :=
  let PI : F := ⟪3.14159265358979323846264338327950288L⟫
  let PI2 := ⟪PI*PI⟫
  let PI4 := ⟪PI2*PI2⟫
  let PI6 := ⟪PI2*PI4⟫
  let zeta6 : F := ⟪1.01734306198444913971451792979092053L⟫
  let rz := z.re
  let iz := z.im
  if ⟪iz == 0⟫ && ⟪rz == 0⟫ then ⟨rz, iz⟩
  else if ⟪iz == 0⟫ && ⟪rz == 1⟫ then ⟨zeta6, iz⟩
  else if ⟪iz == 0⟫ && ⟪rz == -1⟫ then ⟨⟪-31.0L*zeta6/32.0L⟫, iz⟩
  else
    let nz := ⟪hypotl(rz, iz)⟫
    let pz := ⟪atan2l(iz, rz)⟫
    let lnz := ⟪logl(nz)⟫
    if ⟪lnz*lnz + pz*pz < 1.0L⟫ then
      let u : Cx F := ⟨lnz, pz⟩
      let c0 := zeta6
      let c1 : F := ⟪1.03692775514336992633136548645703417L⟫
      let c2 : F := ⟪0.541161616855569095758001848270583951L⟫
      let c3 : F := ⟪0.200342817193265714233289693585241665L⟫
      let c4 : F := ⟪0.0685389194520094348530172986102510496L⟫
      let c5 := ⟪(137.0L/60.0L - pos_clogl(-u))/120.0L⟫
      let c6 : F := ⟪-1.0L/1440.0L⟫
      let u2 := ⟪u*u⟫
      let sum := csum 1 u2 cs
      ⟪c0 + u * c1 +
         u2 * (c2 + u * c3 +
         u2 * (c4 + u * c5 +
         u2 * (c6 +
         u * (cs[0] + sum))))⟫
    else
      let fin (u r : Cx F) (sgn : F) : Cx F :=
        let sum := csum 0 u bf
        ⟪sgn*sum + r⟫
      if ⟪nz <= 1.0L⟫ then fin (⟪-pos_clogl(1.0L - z)⟫) ⟨♯0, ♯0⟩ ♯1
      else
        let arg := if ⟪pz > 0.0⟫ then ⟪pz - PI⟫ else ⟪pz + PI⟫
        let lmz : Cx F := ⟨lnz, arg⟩
        let lmz2 := ⟪lmz*lmz⟫
        fin (⟪-pos_clogl(1.0L - 1.0L/z)⟫) (⟪-31.0L*PI6/15120.0L + lmz2*(-7.0L/720.0L*PI4 + lmz2*(-1.0L/144.0L*PI2 - 1.0L/720.0L*lmz2))⟫) ∸♯1

/-- `cli6l`, LDBL_DIG <= 18 (Li6.c 121-269) -/
def cli6l18 (z : Cx F) : Cx F := cli6l cli6l18Bf cli6l18Cs z
/-- `cli6l`, LDBL_DIG > 18 (Li6.c 121-269) -/
def cli6l36 (z : Cx F) : Cx F := cli6l cli6l36Bf cli6l36Cs z

end
end Polylog.C
