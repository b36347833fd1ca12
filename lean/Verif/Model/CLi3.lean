import Verif.Model.CLog

/-! # `src/c/Li3.c` -/

namespace Polylog.C

/-! ## Coefficient tables -/

/-- `cp of li3_neg` (Li3.c 15-19) -/
def li3negP : Vector ℚ 6 :=
  #v[
    0.9999999999999999795, -2.0281801754117129576, 1.4364029887561718540,
    -4.2240680435713030268e-1, 4.7296746450884096877e-2, -1.3453536579918419568e-3]

/-- `cq of li3_neg` (Li3.c 20-25) -/
def li3negQ : Vector ℚ 7 :=
  #v[
    1, -2.1531801754117049035, 1.6685134736461140517, -5.6684857464584544310e-1,
    8.1999463370623961084e-2, -4.0756048502924149389e-3, 3.4316398489103212699e-5]

/-- `cp of li3_pos` (Li3.c 40-44) -/
def li3posP : Vector ℚ 6 :=
  #v[
    0.9999999999999999893, -2.5224717303769789628, 2.3204919140887894133,
    -9.3980973288965037869e-1, 1.5728950200990509052e-1, -7.5485193983677071129e-3]

/-- `cq of li3_pos` (Li3.c 45-50) -/
def li3posQ : Vector ℚ 7 :=
  #v[
    1, -2.6474717303769836244, 2.6143888433492184741, -1.1841788297857667038,
    2.4184938524793651120e-1, -1.8220900115898156346e-2, 2.4927971540017376759e-4]

/-- `bf` (Li3.c 114-124) -/
def cli3dBf : Vector ℚ 18 :=
  #v[
    1, -3 / 8, 17 / 216, -5 / 576, 1.2962962962962963e-4, 8.1018518518518519e-5,
    -3.4193571608537595e-6, -1.3286564625850340e-6, 8.6608717561098513e-8, 2.5260875955320400e-8,
    -2.1446944683640648e-9, -5.1401106220129789e-10, 5.2495821146008294e-11,
    1.0887754406636318e-11, -1.2779396094493695e-12, -2.3698241773087452e-13,
    3.1043578879654623e-14, 5.2617586299125061e-15]

/-- `cs` (Li3.c 150-155) -/
def cli3dCs : Vector ℚ 7 :=
  #v[
    -3.4722222222222222e-3, 1.1574074074074074e-5, -9.8418997228521038e-8, 1.1482216343327454e-9,
    -1.5815724990809166e-11, 2.4195009792525152e-13, -3.9828977769894877e-15]

/-- `bf` (Li3.c 202-250, LDBL_DIG <= 18) -/
def cli3l18Bf : Vector ℚ 22 :=
  #v[
    1, -3 / 8, 17 / 216, -5 / 576, 7 / 54000, 7 / 86400, -3.41935716085375949321527552820069827e-6,
    -1.32865646258503401360544217687074830e-6, 8.66087175610985134794658604182413706e-8,
    2.52608759553203997648442092886537331e-8, -2.14469446836406476093388507573649032e-9,
    -5.14011062201297891533581769272004962e-10, 5.24958211460082943639408880855807284e-11,
    1.08877544066363183753729715704249107e-11, -1.27793960944936953055818317540722120e-12,
    -2.36982417730874520997977788101244891e-13, 3.10435788796546229428475327046556211e-14,
    5.26175862991250608413183925112250061e-15, -7.53847954994926536599250143226771028e-16,
    -1.18623225777522852530825009512459322e-16, 1.83169799654913833820892731212815349e-17,
    2.70681710318373501514907347126169436e-18]

/-- `cs` (Li3.c 280-303, LDBL_DIG <= 18) -/
def cli3l18Cs : Vector ℚ 9 :=
  #v[
    -3.47222222222222222222222222222222222e-3, 1.15740740740740740740740740740740741e-5,
    -9.84189972285210380448475686570924666e-8, 1.14822163433274544385655496766607878e-9,
    -1.58157249908091658933409775160616911e-11, 2.41950097925251519452732701564998016e-13,
    -3.98289777698948774786517290926462002e-15, 6.92336661830592905806820954095065870e-17,
    -1.25527223044997727545846570912655367e-18]

/-- `bf` (Li3.c 202-250, LDBL_DIG > 18) -/
def cli3l36Bf : Vector ℚ 45 :=
  #v[
    1, -3 / 8, 17 / 216, -5 / 576, 7 / 54000, 7 / 86400, -3.41935716085375949321527552820069827e-6,
    -1.32865646258503401360544217687074830e-6, 8.66087175610985134794658604182413706e-8,
    2.52608759553203997648442092886537331e-8, -2.14469446836406476093388507573649032e-9,
    -5.14011062201297891533581769272004962e-10, 5.24958211460082943639408880855807284e-11,
    1.08877544066363183753729715704249107e-11, -1.27793960944936953055818317540722120e-12,
    -2.36982417730874520997977788101244891e-13, 3.10435788796546229428475327046556211e-14,
    5.26175862991250608413183925112250061e-15, -7.53847954994926536599250143226771028e-16,
    -1.18623225777522852530825009512459322e-16, 1.83169799654913833820892731212815349e-17,
    2.70681710318373501514907347126169436e-18, -4.45543389782963882643263099217632212e-19,
    -6.23754849225569465036532224739838641e-20, 1.08515215348745349131365609968642833e-20,
    1.44911748660360819307349049665275324e-21, -2.64663397544589903347408911861443741e-22,
    -3.38976534885101047219258165860814078e-23, 6.46404773360331088903253098219534234e-24,
    7.97583448960241242420922272590502795e-25, -1.58091787902874833559211176293826770e-25,
    -1.88614997296228681931102253988531956e-26, 3.87155366384184733039971271888313319e-27,
    4.48011750023456073048653898320511684e-28, -9.49303387191183612641753676027699150e-29,
    -1.06828138090773812240182143033807908e-29, 2.33044789361030518600785199019281371e-30,
    2.55607757265197540805635698286695865e-31, -5.72742160613725968447274458033057100e-32,
    -6.13471321379642358258549296897773326e-33, 1.40908086040689448401268688489421700e-33,
    1.47642223976665341443182801167106626e-34, -3.47010516489959160555004020312910903e-35,
    -3.56210662409746357967357370318293608e-36, 8.55369656823692105754731289124468101e-37]

/-- `cs` (Li3.c 280-303, LDBL_DIG > 18) -/
def cli3l36Cs : Vector ℚ 20 :=
  #v[
    -3.47222222222222222222222222222222222e-3, 1.15740740740740740740740740740740741e-5,
    -9.84189972285210380448475686570924666e-8, 1.14822163433274544385655496766607878e-9,
    -1.58157249908091658933409775160616911e-11, 2.41950097925251519452732701564998016e-13,
    -3.98289777698948774786517290926462002e-15, 6.92336661830592905806820954095065870e-17,
    -1.25527223044997727545846570912655367e-18, 2.35375400276846523056441171414060379e-20,
    -4.53639890345868701844750708901700830e-22, 8.94516967039264316712031170773304472e-24,
    -1.79828400469549627172020247141015426e-25, 3.67549976479373844433604733912674099e-27,
    -7.62080797156479522953948500963765478e-29, 1.60004196436948597517376392257325602e-30,
    -3.39676114756037558792312060520851852e-32, 7.28227228675776469531725636144432664e-34,
    -1.57502264795800348718497893940378261e-35, 3.43354009248058933588797212016527038e-37]

section
variable {F : Type} [FOps F]

/-- numeric literal -/
local notation:max "♯" q:max => (FOps.lit (q : ℚ) : F)

/-- `li3_neg`: Li_3(x) for x in [-1,0] (Li3.c 13-35) -/
def li3_neg (x : F) : F :=
  let x2 := x *. x
  let x4 := x2 *. x2
  let p := ♯(li3negP[0]) +. x *. ♯(li3negP[1]) +. x2 *. (♯(li3negP[2]) +. x *. ♯(li3negP[3])) +. x4 *. (♯(li3negP[4]) +. x *. ♯(li3negP[5]))
  let q := ♯(li3negQ[0]) +. x *. ♯(li3negQ[1]) +. x2 *. (♯(li3negQ[2]) +. x *. ♯(li3negQ[3])) +. x4 *. (♯(li3negQ[4]) +. x *. ♯(li3negQ[5]) +. x2 *. ♯(li3negQ[6]))
  x *. p /. q

/-- `li3_pos`: Li_3(x) for x in [0,1/2] (Li3.c 38-60) -/
def li3_pos (x : F) : F :=
  let x2 := x *. x
  let x4 := x2 *. x2
  let p := ♯(li3posP[0]) +. x *. ♯(li3posP[1]) +. x2 *. (♯(li3posP[2]) +. x *. ♯(li3posP[3])) +. x4 *. (♯(li3posP[4]) +. x *. ♯(li3posP[5]))
  let q := ♯(li3posQ[0]) +. x *. ♯(li3posQ[1]) +. x2 *. (♯(li3posQ[2]) +. x *. ♯(li3posQ[3])) +. x4 *. (♯(li3posQ[4]) +. x *. ♯(li3posQ[5]) +. x2 *. ♯(li3posQ[6]))
  x *. p /. q

/-- `double li3(double x)` (Li3.c 68-101) -/
def li3 (x : F) : F :=
  let zeta2 : F := ♯1.6449340668482264
  let zeta3 : F := ♯1.2020569031595943
  if x <. ∸♯1 then
    let l := (xlog (∸x))
    (li3_neg (♯1 /. x)) -. l *. (zeta2 +. ♯1 /. ♯6 *. l *. l)
  else if x ==. ∸♯1 then ∸♯0.75 *. zeta3
  else if x <. ♯0 then (li3_neg x)
  else if x ==. ♯0 then x
  else if x <. ♯0.5 then (li3_pos x)
  else if x ==. ♯0.5 then ♯0.53721319360804020
  else if x <. ♯1 then
    let l := (xlog x)
    ∸(li3_neg (♯1 -. ♯1 /. x)) -. (li3_pos (♯1 -. x)) +. zeta3 +. l *. (zeta2 +. l *. (∸♯0.5 *. (FOps.log1p (∸x)) +. ♯1 /. ♯6 *. l))
  else if x ==. ♯1 then zeta3
  else if x <. ♯2 then
    let l := (xlog x)
    ∸(li3_neg (♯1 -. x)) -. (li3_pos (♯1 -. ♯1 /. x)) +. zeta3 +. l *. (zeta2 +. l *. (∸♯0.5 *. (xlog (x -. ♯1)) +. ♯1 /. ♯6 *. l))
  else
    let l := (xlog x)
    (li3_pos (♯1 /. x)) +. l *. (♯2 *. zeta2 -. ♯1 /. ♯6 *. l *. l)

/-- `double _Complex cli3(double _Complex z)` (Li3.c 109-188) -/
def cli3 (z : Cx F) : Cx F :=
  let PI : F := ♯3.1415926535897932
  let zeta2 : F := ♯1.6449340668482264
  let zeta3 : F := ♯1.2020569031595943
  let rz := z.re
  let iz := z.im
  if iz ==. ♯0 then
    if rz <=. ♯1 then ⟨(li3 rz), iz⟩
    else
      let l := (xlog rz)
      ⟨(li3 rz), ∸♯0.5 *. PI *. l *. l⟩
  else
    let nz := (FOps.hypot rz iz)
    let pz := (FOps.atan2 iz rz)
    let lnz := (xlog nz)
    if lnz *. lnz +. pz *. pz <. ♯1 then
      let u : Cx F := ⟨lnz, pz⟩
      let u2 := u *. u
      let u4 := u2 *. u2
      let u8 := u4 *. u4
      let c0 := zeta3 +. u *. (zeta2 -. u2 /. ♯12)
      let c1 := ♯0.25 *. (♯3 -. ♯2 *. (pos_clog (∸u)))
      c0 +. c1 *. u2 +. u4 *. (♯(cli3dCs[0]) +. u2 *. ♯(cli3dCs[1])) +. u8 *. (♯(cli3dCs[2]) +. u2 *. ♯(cli3dCs[3]) +. u4 *. (♯(cli3dCs[4]) +. u2 *. ♯(cli3dCs[5]))) +. u8 *. u8 *. ♯(cli3dCs[6])
    else
      let fin (u rest : Cx F) : Cx F :=
        let u2 := u *. u
        let u4 := u2 *. u2
        let u8 := u4 *. u4
        rest +. u *. ♯(cli3dBf[0]) +. u2 *. (♯(cli3dBf[1]) +. u *. ♯(cli3dBf[2])) +. u4 *. (♯(cli3dBf[3]) +. u *. ♯(cli3dBf[4]) +. u2 *. (♯(cli3dBf[5]) +. u *. ♯(cli3dBf[6]))) +. u8 *. (♯(cli3dBf[7]) +. u *. ♯(cli3dBf[8]) +. u2 *. (♯(cli3dBf[9]) +. u *. ♯(cli3dBf[10])) +. u4 *. (♯(cli3dBf[11]) +. u *. ♯(cli3dBf[12]) +. u2 *. (♯(cli3dBf[13]) +. u *. ♯(cli3dBf[14])))) +. u8 *. u8 *. (♯(cli3dBf[15]) +. u *. ♯(cli3dBf[16]) +. u2 *. ♯(cli3dBf[17]))
      if nz <=. ♯1 then fin (∸(pos_clog (♯1 -. z))) ⟨♯0, ♯0⟩
      else
        let arg := if pz >. ♯0 then pz -. PI else pz +. PI
        let lmz : Cx F := ⟨lnz, arg⟩
        fin (∸(pos_clog (♯1 -. ♯1 /. z))) (∸lmz *. (lmz *. lmz /. ♯6 +. zeta2))

/-- `long double _Complex cli3l(long double _Complex z)` (Li3.c 197-335) -/
def cli3l {n m : Nat} (bf : Vector ℚ n) (cs : Vector ℚ m) (z : Cx F) : Cx F :=
  let PI : F := ♯3.14159265358979323846264338327950288
  let zeta2 : F := ♯1.64493406684822643647241516664602519
  let zeta3 : F := ♯1.20205690315959428539973816151144999
  let rz := z.re
  let iz := z.im
  if iz ==. ♯0 && rz ==. ♯0 then ⟨rz, iz⟩
  else if iz ==. ♯0 && rz ==. ♯1 then ⟨zeta3, iz⟩
  else if iz ==. ♯0 && rz ==. ∸♯1 then ⟨∸♯0.75 *. zeta3, iz⟩
  else if iz ==. ♯0 && rz ==. ♯0.5 then ⟨♯0.537213193608040200940623225594965827, iz⟩
  else
    let nz := (FOps.hypot rz iz)
    let pz := (FOps.atan2 iz rz)
    let lnz := (xlog nz)
    if lnz *. lnz +. pz *. pz <. ♯1 then
      let u : Cx F := ⟨lnz, pz⟩
      let u2 := u *. u
      let c0 := zeta3 +. u *. (zeta2 -. u2 /. ♯12)
      let c1 := ♯0.25 *. (♯3 -. ♯2 *. (pos_clogl (∸u)))
      let sum := csum 0 u2 cs
      c0 +. u2 *. (c1 +. sum)
    else
      let fin (u rest : Cx F) : Cx F :=
        let sum := csum 0 u bf
        rest +. sum
      if nz <=. ♯1 then fin (∸(pos_clogl (♯1 -. z))) ⟨♯0, ♯0⟩
      else
        let arg := if pz >. ♯0 then pz -. PI else pz +. PI
        let lmz : Cx F := ⟨lnz, arg⟩
        fin (∸(pos_clogl (♯1 -. ♯1 /. z))) (∸lmz *. (lmz *. lmz /. ♯6 +. zeta2))

/-- `cli3l`, LDBL_DIG <= 18 (Li3.c 197-335) -/
def cli3l18 (z : Cx F) : Cx F := cli3l cli3l18Bf cli3l18Cs z
/-- `cli3l`, LDBL_DIG > 18 (Li3.c 197-335) -/
def cli3l36 (z : Cx F) : Cx F := cli3l cli3l36Bf cli3l36Cs z

end
end Polylog.C
