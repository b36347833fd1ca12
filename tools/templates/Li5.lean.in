import Verif.Model.Horner

/-! # `Li5.cpp` -/

namespace Polylog

/-! ## Coefficient tables -/

/-- `bf` (Li5.cpp 28-39) -/
def cli5dBf : Vector ℚ @@ARRN cpp/Li5.cpp 28 39@@ :=
  @@ARR cpp/Li5.cpp 28 39@@

/-- `cs` (Li5.cpp 68-72) -/
def cli5dCs : Vector ℚ @@ARRN cpp/Li5.cpp 68 72@@ :=
  @@ARR cpp/Li5.cpp 68 72@@

/-- `bf` (Li5.cpp 119-167, LDBL_DIG <= 18) -/
def cli5l18Bf : Vector ℚ @@ARRN cpp/Li5.cpp 119 167 LE18@@ :=
  @@ARR cpp/Li5.cpp 119 167 LE18@@

/-- `cs` (Li5.cpp 196-217, LDBL_DIG <= 18) -/
def cli5l18Cs : Vector ℚ @@ARRN cpp/Li5.cpp 196 217 LE18@@ :=
  @@ARR cpp/Li5.cpp 196 217 LE18@@

/-- `bf` (Li5.cpp 119-167, LDBL_DIG > 18) -/
def cli5l36Bf : Vector ℚ @@ARRN cpp/Li5.cpp 119 167 GT18@@ :=
  @@ARR cpp/Li5.cpp 119 167 GT18@@

/-- `cs` (Li5.cpp 196-217, LDBL_DIG > 18) -/
def cli5l36Cs : Vector ℚ @@ARRN cpp/Li5.cpp 196 217 GT18@@ :=
  @@ARR cpp/Li5.cpp 196 217 GT18@@

section
variable {F : Type} [FOps F]

/-- numeric literal -/
local notation:max "♯" q:max => (FOps.lit (q : ℚ) : F)

%src cpp/Li5.cpp 22 105
%arr bf cli5dBf
%arr cs cli5dCs
/-- `std::complex<double> Li5(const std::complex<double>& z)` (Li5.cpp 22-105) -/
def cLi5d (z : Cx F) : Cx F :=
  let PI : F := ⟪3.1415926535897932⟫
  let PI2 := ⟪PI*PI⟫
  let PI4 := ⟪PI2*PI2⟫
  let zeta5 : F := ⟪1.0369277551433699⟫
  let rz := z.re
  let iz := z.im
  if ⟪iz == 0⟫ && ⟪rz == 0⟫ then ⟨rz, iz⟩
  else if ⟪iz == 0⟫ && ⟪rz == 1⟫ then ⟨zeta5, iz⟩
  else if ⟪iz == 0⟫ && ⟪rz == -1⟫ then ⟨⟪-15.0*zeta5/16.0⟫, iz⟩
  else
    let nz := ⟪std::abs(z)⟫
    let pz := ⟪std::arg(z)⟫
    let lnz := ⟪std::log(nz)⟫
    if ⟪lnz*lnz + pz*pz < 1⟫ then
      let u : Cx F := ⟨lnz, pz⟩
      let c0 := zeta5
      let c1 : F := ⟪1.0823232337111382⟫
      let c2 : F := ⟪0.60102845157979714⟫
      let c3 : F := ⟪0.27415567780803774⟫
      let c4 := ⟪(25.0/12.0 - pos_log(-u))/24.0⟫
      let c5 : F := ⟪-1.0/240.0⟫
      let u2 := ⟪u*u⟫
      ⟪c0 + u * c1 +
         u2 * (c2 + u * c3 +
         u2 * (c4 + u * c5 +
         u2 * horner<0>(u2, cs)))⟫
    else
      let fin (u rest : Cx F) : Cx F :=
        let u2 := ⟪u*u⟫
        let u4 := ⟪u2*u2⟫
        let u8 := ⟪u4*u4⟫
        ⟪rest +
      u*bf[0] +
         u2*(bf[1] + u*bf[2]) +
         u4*(bf[3] + u*bf[4] + u2*(bf[5] + u*bf[6])) +
         u8*(bf[7] + u*bf[8] + u2*(bf[9] + u*bf[10]) +
             u4*(bf[11] + u*bf[12] + u2*(bf[13] + u*bf[14]))) +
         u8*u8*(bf[15] + u*bf[16] + u2*(bf[17] + u*bf[18]))⟫
      if ⟪nz <= 1⟫ then fin (⟪-log1p(-z)⟫) ⟨♯0, ♯0⟩
      else
        let arg := if ⟪pz > 0.0⟫ then ⟪pz - PI⟫ else ⟪pz + PI⟫
        let lmz : Cx F := ⟨lnz, arg⟩
        let lmz2 := ⟪lmz*lmz⟫
        fin (⟪-log1p(-1.0/z)⟫) (⟪-1.0/360.0*lmz*(7*PI4 + lmz2*(10.0*PI2 + 3.0*lmz2))⟫)

%src cpp/Li5.cpp 113 239
/-- `std::complex<long double> Li5(const std::complex<long double>& z)` (Li5.cpp 113-239) -/
def cLi5l {n m : Nat} (bf : Vector ℚ (n + 2)) (cs : Vector ℚ (m + 2)) (z : Cx F) : Cx F :=
  let PI : F := ⟪3.14159265358979323846264338327950288L⟫
  let PI2 := ⟪PI*PI⟫
  let PI4 := ⟪PI2*PI2⟫
  let zeta5 : F := ⟪1.03692775514336992633136548645703417L⟫
  let rz := z.re
  let iz := z.im
  if ⟪iz == 0⟫ && ⟪rz == 0⟫ then ⟨rz, iz⟩
  else if ⟪iz == 0⟫ && ⟪rz == 1⟫ then ⟨zeta5, iz⟩
  else if ⟪iz == 0⟫ && ⟪rz == -1⟫ then ⟨⟪-15.0L*zeta5/16.0L⟫, iz⟩
  else
    let nz := ⟪std::abs(z)⟫
    let pz := ⟪std::arg(z)⟫
    let lnz := ⟪std::log(nz)⟫
    if ⟪lnz*lnz + pz*pz < 1⟫ then
      let u : Cx F := ⟨lnz, pz⟩
      let c0 := zeta5
      let c1 : F := ⟪1.08232323371113819151600369654116790L⟫
      let c2 : F := ⟪0.601028451579797142699869080755724995L⟫
      let c3 : F := ⟪0.274155677808037739412069194441004198L⟫
      let c4 := ⟪(25.0L/12.0L - pos_log(-u))/24.0L⟫
      let c5 : F := ⟪-1.0L/240.0L⟫
      let u2 := ⟪u*u⟫
      ⟪c0 + u * c1 +
         u2 * (c2 + u * c3 +
         u2 * (c4 + u * c5 +
         u2 * horner<0>(u2, cs)))⟫
    else
      let fin (u rest : Cx F) : Cx F := ⟪rest + u*horner<0>(u, bf)⟫
      if ⟪nz <= 1⟫ then fin (⟪-log1p(-z)⟫) ⟨♯0, ♯0⟩
      else
        let arg := if ⟪pz > 0.0⟫ then ⟪pz - PI⟫ else ⟪pz + PI⟫
        let lmz : Cx F := ⟨lnz, arg⟩
        let lmz2 := ⟪lmz*lmz⟫
        fin (⟪-log1p(-1.0L/z)⟫) (⟪-1.0L/360.0L*lmz*(7*PI4 + lmz2*(10.0L*PI2 + 3.0L*lmz2))⟫)

/-- complex long double `Li5`, LDBL_DIG <= 18 (Li5.cpp 113-239) -/
def cLi5l18 (z : Cx F) : Cx F := cLi5l cli5l18Bf cli5l18Cs z
/-- complex long double `Li5`, LDBL_DIG > 18 (Li5.cpp 113-239) -/
def cLi5l36 (z : Cx F) : Cx F := cLi5l cli5l36Bf cli5l36Cs z

end
end Polylog
