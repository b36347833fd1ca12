import Verif.Model.CLog

/-! # `src/c/Li5.c` -/

namespace Polylog.C

/-! ## Coefficient tables -/

/-- `bf` (Li5.c 25-36) -/
def cli5dBf : Vector ℚ 19 :=
  #v[
    1, -15 / 32, 1.3953189300411523e-1, -2.8633777006172840e-2, 4.0317412551440329e-3,
    -3.3985018004115226e-4, 4.5445184621617666e-6, 2.3916808048569012e-6, -1.2762692600122747e-7,
    -3.1628984306505932e-8, 3.2848118445335192e-9, 4.7613713995660579e-10, -8.0846898171909830e-11,
    -7.2387648587737207e-12, 1.9439760115173968e-12, 1.0256978405977236e-13,
    -4.6180551009884830e-14, -1.1535857196470580e-15, 1.0903545401333394e-15]

/-- `cs` (Li5.c 67-71) -/
def cli5dCs : Vector ℚ 6 :=
  #v[
    -1.1574074074074074e-4, 2.0667989417989418e-7, -1.0935444136502338e-9, 8.6986487449450412e-12,
    -8.6899587861588824e-14, 1.0081254080218813e-15]

/-- `bf` (Li5.c 123-171, LDBL_DIG <= 18) -/
def cli5l18Bf : Vector ℚ 21 :=
  #v[
    1, -15 / 32, 1.39531893004115226337448559670781893e-1,
    -2.86337770061728395061728395061728395e-2, 4.03174125514403292181069958847736626e-3,
    -3.39850180041152263374485596707818930e-4, 4.54451846216176664909446003743133026e-6,
    2.39168080485690118829088702752453967e-6, -1.27626926001227465885443518981747128e-7,
    -3.16289843065059324402567872795470007e-8, 3.28481184453351916215185742384719818e-9,
    4.76137139956605790483191328977324967e-10, -8.08468981719098302564602603623317490e-11,
    -7.23876485877372069468292158375897580e-12, 1.94397601151739684930556492093599766e-12,
    1.02569784059772359718813559433198981e-13, -4.61805510098848301805820862410656158e-14,
    -1.15358571964705800368425114834190972e-15, 1.09035454013333939879770883809662643e-15,
    2.31481363172925263940797103190091493e-18, -2.56699170432652921943348919933966693e-17]

/-- `cs` (Li5.c 202-223, LDBL_DIG <= 18) -/
def cli5l18Cs : Vector ℚ 7 :=
  #v[
    -1.15740740740740740740740740740740741e-4, 2.06679894179894179894179894179894180e-7,
    -1.09354441365023375605386187396769407e-9, 8.69864874494504124133753763383393013e-12,
    -8.68995878615888235897855907475917096e-14, 1.00812540802188133105305292318749173e-15,
    -1.30160058071551887185136369583811112e-17]

/-- `bf` (Li5.c 123-171, LDBL_DIG > 18) -/
def cli5l36Bf : Vector ℚ 45 :=
  #v[
    1, -15 / 32, 1.39531893004115226337448559670781893e-1,
    -2.86337770061728395061728395061728395e-2, 4.03174125514403292181069958847736626e-3,
    -3.39850180041152263374485596707818930e-4, 4.54451846216176664909446003743133026e-6,
    2.39168080485690118829088702752453967e-6, -1.27626926001227465885443518981747128e-7,
    -3.16289843065059324402567872795470007e-8, 3.28481184453351916215185742384719818e-9,
    4.76137139956605790483191328977324967e-10, -8.08468981719098302564602603623317490e-11,
    -7.23876485877372069468292158375897580e-12, 1.94397601151739684930556492093599766e-12,
    1.02569784059772359718813559433198981e-13, -4.61805510098848301805820862410656158e-14,
    -1.15358571964705800368425114834190972e-15, 1.09035454013333939879770883809662643e-15,
    2.31481363172925263940797103190091493e-18, -2.56699170432652921943348919933966693e-17,
    4.57086206073149690144959626860139115e-19, 6.03667796132057058823561033114107090e-19,
    -2.16776249440624129587941717218396578e-20, -1.41940966156001652983322668820112130e-20,
    7.50200095064138625532377521619527234e-22, 3.33870453950783971643715159254469304e-22,
    -2.30600404426203476825215151352586388e-23, -7.85817324568948189044990646315027350e-24,
    6.66834530437388085486513704613056895e-25, 1.85091565409252971894649796883651603e-25,
    -1.85915294451740855841031840576364891e-26, -4.36297464803458904472660817437095794e-27,
    5.06110760995292844822634895878109349e-28, 1.02919182497568782037888979300008731e-28,
    -1.35513912210183166156877853283041765e-29, -2.42940596129573826559241540956570701e-30,
    3.58519739665037052115164738053066333e-31, 5.73796581610397206400846538673280837e-32,
    -9.40035936245687345352774520389480989e-33, -1.35590280493486311500090284171223034e-33,
    2.44784384191528918377859141748058708e-34, 3.20528849130720958124170712217928968e-35,
    -6.33983878185254827964152375942174520e-36, -7.57925545801218291534870941639851689e-37]

/-- `cs` (Li5.c 202-223, LDBL_DIG > 18) -/
def cli5l36Cs : Vector ℚ 18 :=
  #v[
    -1.15740740740740740740740740740740741e-4, 2.06679894179894179894179894179894180e-7,
    -1.09354441365023375605386187396769407e-9, 8.69864874494504124133753763383393013e-12,
    -8.68995878615888235897855907475917096e-14, 1.00812540802188133105305292318749173e-15,
    -1.30160058071551887185136369583811112e-17, 1.82193858376471817317584461603964703e-19,
    -2.71703945984843566116551019291461834e-21, 4.26404710646461092493552846764602135e-23,
    -6.97907523609028772068847244464155123e-25, 1.18322350137468824961908885022923872e-26,
    -2.06699310884539801347149709357488995e-28, 3.70514089192917181888714449508744051e-30,
    -6.79216396752655546304766934905316826e-32, 1.26987457489641744061409835124861589e-33,
    -2.41590408788077922327391223699041147e-35, 4.66812326074215685597260023169508118e-37]

section
variable {F : Type} [FOps F]

/-- numeric literal -/
local notation:max "♯" q:max => (FOps.lit (q : ℚ) : F)

/-- `double _Complex cli5(double _Complex z)` (Li5.c 19-108) -/
def cli5 (z : Cx F) : Cx F :=
  let PI : F := ♯3.1415926535897932
  let PI2 := PI *. PI
  let PI4 := PI2 *. PI2
  let zeta5 : F := ♯1.0369277551433699
  let rz := z.re
  let iz := z.im
  if iz ==. ♯0 && rz ==. ♯0 then ⟨rz, iz⟩
  else if iz ==. ♯0 && rz ==. ♯1 then ⟨zeta5, iz⟩
  else if iz ==. ♯0 && rz ==. ∸♯1 then ⟨∸♯15 *. zeta5 /. ♯16, iz⟩
  else
    let nz := (FOps.hypot rz iz)
    let pz := (FOps.atan2 iz rz)
    let lnz := (xlog nz)
    if lnz *. lnz +. pz *. pz <. ♯1 then
      let u : Cx F := ⟨lnz, pz⟩
      let c0 := zeta5
      let c1 : F := ♯1.0823232337111382
      let c2 : F := ♯0.60102845157979714
      let c3 : F := ♯0.27415567780803774
      let c4 := (♯25 /. ♯12 -. (pos_clog (∸u))) /. ♯24
      let c5 : F := ∸♯1 /. ♯240
      let u2 := u *. u
      c0 +. u *. c1 +. u2 *. (c2 +. u *. c3 +. u2 *. (c4 +. u *. c5 +. u2 *. (♯(cli5dCs[0]) +. u2 *. (♯(cli5dCs[1]) +. u2 *. (♯(cli5dCs[2]) +. u2 *. (♯(cli5dCs[3]) +. u2 *. (♯(cli5dCs[4]) +. u2 *. (♯(cli5dCs[5])))))))))
    else
      let fin (u rest : Cx F) : Cx F :=
        let u2 := u *. u
        let u4 := u2 *. u2
        let u8 := u4 *. u4
        rest +. u *. ♯(cli5dBf[0]) +. u2 *. (♯(cli5dBf[1]) +. u *. ♯(cli5dBf[2])) +. u4 *. (♯(cli5dBf[3]) +. u *. ♯(cli5dBf[4]) +. u2 *. (♯(cli5dBf[5]) +. u *. ♯(cli5dBf[6]))) +. u8 *. (♯(cli5dBf[7]) +. u *. ♯(cli5dBf[8]) +. u2 *. (♯(cli5dBf[9]) +. u *. ♯(cli5dBf[10])) +. u4 *. (♯(cli5dBf[11]) +. u *. ♯(cli5dBf[12]) +. u2 *. (♯(cli5dBf[13]) +. u *. ♯(cli5dBf[14])))) +. u8 *. u8 *. (♯(cli5dBf[15]) +. u *. ♯(cli5dBf[16]) +. u2 *. (♯(cli5dBf[17]) +. u *. ♯(cli5dBf[18])))
      if nz <=. ♯1 then fin (∸(pos_clog (♯1 -. z))) ⟨♯0, ♯0⟩
      else
        let arg := if pz >. ♯0 then pz -. PI else pz +. PI
        let lmz : Cx F := ⟨lnz, arg⟩
        let lmz2 := lmz *. lmz
        fin (∸(pos_clog (♯1 -. ♯1 /. z))) (∸♯1 /. ♯360 *. lmz *. (♯7 *. PI4 +. lmz2 *. (♯10 *. PI2 +. ♯3 *. lmz2)))

/-- `long double _Complex cli5l(long double _Complex z)` (Li5.c 117-255) -/
def cli5l {n m : Nat} (bf : Vector ℚ n) (cs : Vector ℚ m) (z : Cx F) : Cx F :=
  let PI : F := ♯3.14159265358979323846264338327950288
  let PI2 := PI *. PI
  let PI4 := PI2 *. PI2
  let zeta5 : F := ♯1.03692775514336992633136548645703417
  let rz := z.re
  let iz := z.im
  if iz ==. ♯0 && rz ==. ♯0 then ⟨rz, iz⟩
  else if iz ==. ♯0 && rz ==. ♯1 then ⟨zeta5, iz⟩
  else if iz ==. ♯0 && rz ==. ∸♯1 then ⟨∸♯15 *. zeta5 /. ♯16, iz⟩
  else
    let nz := (FOps.hypot rz iz)
    let pz := (FOps.atan2 iz rz)
    let lnz := (xlog nz)
    if lnz *. lnz +. pz *. pz <. ♯1 then
      let u : Cx F := ⟨lnz, pz⟩
      let c0 := zeta5
      let c1 : F := ♯1.08232323371113819151600369654116790
      let c2 : F := ♯0.601028451579797142699869080755724995
      let c3 : F := ♯0.274155677808037739412069194441004198
      let c4 := (♯25 /. ♯12 -. (pos_clogl (∸u))) /. ♯24
      let c5 : F := ∸♯1 /. ♯240
      let u2 := u *. u
      let sum := csum 0 u2 cs
      c0 +. u *. c1 +. u2 *. (c2 +. u *. c3 +. u2 *. (c4 +. u *. c5 +. sum))
    else
      let fin (u rest : Cx F) : Cx F :=
        let sum := csum 0 u bf
        rest +. sum
      if nz <=. ♯1 then fin (∸(pos_clogl (♯1 -. z))) ⟨♯0, ♯0⟩
      else
        let arg := if pz >. ♯0 then pz -. PI else pz +. PI
        let lmz : Cx F := ⟨lnz, arg⟩
        let lmz2 := lmz *. lmz
        fin (∸(pos_clogl (♯1 -. ♯1 /. z))) (∸♯1 /. ♯360 *. lmz *. (♯7 *. PI4 +. lmz2 *. (♯10 *. PI2 +. ♯3 *. lmz2)))

/-- `cli5l`, LDBL_DIG <= 18 (Li5.c 117-255) -/
def cli5l18 (z : Cx F) : Cx F := cli5l cli5l18Bf cli5l18Cs z
/-- `cli5l`, LDBL_DIG > 18 (Li5.c 117-255) -/
def cli5l36 (z : Cx F) : Cx F := cli5l cli5l36Bf cli5l36Cs z

end
end Polylog.C
