import Verif.Model.CLog

/-! # `src/c/Li6.c` -/

namespace Polylog.C

/-! ## Coefficient tables -/

/-- `bf` (Li6.c 26-36) -/
def cli6dBf : Vector ℚ 18 :=
  #v[
    1, -31 / 64, 1.5241340877914952e-1, -3.4365555877057613e-2, 5.7174797239368999e-3,
    -6.8180453746570645e-4, 4.9960361948734493e-5, -4.9166051196039048e-7, -3.0632975161302164e-7,
    1.4414599270849095e-8, 3.7272438230924107e-9, -3.7300867345487607e-10, -5.1246526816085832e-11,
    9.0541930956636683e-12, 6.7381882615512517e-13, -2.1215831150303135e-13,
    -6.8408811719011698e-15, 4.8691178462005581e-15]

/-- `cs` (Li6.c 68-72) -/
def cli6dCs : Vector ℚ 5 :=
  #v[
    -1.6534391534391534e-5, 2.2964432686654909e-8, -9.9413128513657614e-11, 6.6912682653423394e-13,
    -5.7933058574392549e-15]

/-- `bf` (Li6.c 128-176, LDBL_DIG <= 18) -/
def cli6l18Bf : Vector ℚ 22 :=
  #v[
    1, -31 / 64, 1.52413408779149519890260631001371742e-1,
    -3.43655558770576131687242798353909465e-2, 5.71747972393689986282578875171467764e-3,
    -6.81804537465706447187928669410150892e-4, 4.99603619487344931145170169621327906e-5,
    -4.91660511960390477202530822164616726e-7, -3.06329751613021637853530304310404212e-7,
    1.44145992708490953612537421448012923e-8, 3.72724382309241065768599245664598825e-9,
    -3.73008673454876072077977229159261141e-10, -5.12465268160858324340087646115722592e-11,
    9.05419309566366828868797447620893807e-12, 6.73818826155125170776107544938009482e-13,
    -2.12158311503031353185279689296609530e-13, -6.84088117190116976639204518781909079e-15,
    4.86911784620055813206387586512917456e-15, -4.84398784998725041650889647473159420e-18,
    -1.10271048491074909370430302576046237e-16, 3.33537969169393816624889411840735964e-18,
    2.47353074886413529791540987487137046e-18]

/-- `cs` (Li6.c 208-228, LDBL_DIG <= 18) -/
def cli6l18Cs : Vector ℚ 6 :=
  #v[
    -1.65343915343915343915343915343915344e-5, 2.29644326866549088771310993533215755e-8,
    -9.94131285136576141867147158152449158e-11, 6.69126826534233941641349048756456164e-13,
    -5.79330585743925490598570604983944731e-15, 5.93014945895224312384148778345583373e-17]

/-- `bf` (Li6.c 128-176, LDBL_DIG > 18) -/
def cli6l36Bf : Vector ℚ 45 :=
  #v[
    1, -31 / 64, 1.52413408779149519890260631001371742e-1,
    -3.43655558770576131687242798353909465e-2, 5.71747972393689986282578875171467764e-3,
    -6.81804537465706447187928669410150892e-4, 4.99603619487344931145170169621327906e-5,
    -4.91660511960390477202530822164616726e-7, -3.06329751613021637853530304310404212e-7,
    1.44145992708490953612537421448012923e-8, 3.72724382309241065768599245664598825e-9,
    -3.73008673454876072077977229159261141e-10, -5.12465268160858324340087646115722592e-11,
    9.05419309566366828868797447620893807e-12, 6.73818826155125170776107544938009482e-13,
    -2.12158311503031353185279689296609530e-13, -6.84088117190116976639204518781909079e-15,
    4.86911784620055813206387586512917456e-15, -4.84398784998725041650889647473159420e-18,
    -1.10271048491074909370430302576046237e-16, 3.33537969169393816624889411840735964e-18,
    2.47353074886413529791540987487137046e-18, -1.43706164342324920216883687134737009e-19,
    -5.50471103350981180614826435059791109e-20, 4.74677139173272249791309840662617185e-21,
    1.21583871780681052243739817416294433e-21, -1.41075524035618500414240309078008657e-22,
    -2.66388312532683465965856437677118103e-23, 3.96676574286310079767900226081781935e-24,
    5.78216973585436153112366193481125963e-25, -1.07877780631642573172998876995922389e-25,
    -1.24073970867569098990147736977589145e-26, 2.87041179178936017042609524684092346e-27,
    2.62355535630293306165747520383606820e-28, -7.52294854657541272615881214134337672e-29,
    -5.44017883796246961820291930722306669e-30, 1.95025795325101663793862223381656999e-30,
    1.09784942822051879961178213597012971e-31, -5.01495835741630092074469585415763612e-32,
    -2.12867375043927610535633806917391780e-33, 1.28159440165221259409319852281486752e-33,
    3.87108447330479441622204568697607460e-35, -3.25941253155837592741689642881678163e-35,
    -6.25269198847740581093233860701356903e-37, 8.25794162051839801918004563317046685e-37]

/-- `cs` (Li6.c 208-228, LDBL_DIG > 18) -/
def cli6l36Cs : Vector ℚ 17 :=
  #v[
    -1.65343915343915343915343915343915344e-5, 2.29644326866549088771310993533215755e-8,
    -9.94131285136576141867147158152449158e-11, 6.69126826534233941641349048756456164e-13,
    -5.79330585743925490598570604983944731e-15, 5.93014945895224312384148778345583373e-17,
    -6.85052937218694143079665103072690062e-19, 8.67589801792722939607545055256974774e-21,
    -1.18132150428192854833283051865852971e-22, 1.70561884258584436997421138705840854e-24,
    -2.58484268003343989655128609060798194e-26, 4.08008103922306292972099603527323696e-28,
    -6.66771970595289681764999062443512889e-30, 1.12276996725126418754155893790528500e-31,
    -1.94061827643615870372790552830090522e-33, 3.43209344566599308274080635472598888e-35,
    -6.19462586636097236736900573587284992e-37]

section
variable {F : Type} [FOps F]

/-- numeric literal -/
local notation:max "♯" q:max => (FOps.lit (q : ℚ) : F)

/-- `double _Complex cli6(double _Complex z)` (Li6.c 19-112) -/
def cli6 (z : Cx F) : Cx F :=
  let PI : F := ♯3.1415926535897932
  let PI2 := PI *. PI
  let PI4 := PI2 *. PI2
  let PI6 := PI2 *. PI4
  let zeta6 : F := ♯1.0173430619844491
  let rz := z.re
  let iz := z.im
  if iz ==. ♯0 && rz ==. ♯0 then ⟨rz, iz⟩
  else if iz ==. ♯0 && rz ==. ♯1 then ⟨zeta6, iz⟩
  else if iz ==. ♯0 && rz ==. ∸♯1 then ⟨∸♯31 *. zeta6 /. ♯32, iz⟩
  else
    let nz := (FOps.hypot rz iz)
    let pz := (FOps.atan2 iz rz)
    let lnz := (xlog nz)
    if lnz *. lnz +. pz *. pz <. ♯1 then
      let u : Cx F := ⟨lnz, pz⟩
      let c0 := zeta6
      let c1 : F := ♯1.0369277551433699
      let c2 : F := ♯0.54116161685556910
      let c3 : F := ♯0.20034281719326571
      let c4 : F := ♯0.068538919452009435
      let c5 := (♯137 /. ♯60 -. (pos_clog (∸u))) /. ♯120
      let c6 : F := ∸♯1 /. ♯1440
      let u2 := u *. u
      c0 +. u *. c1 +. u2 *. (c2 +. u *. c3 +. u2 *. (c4 +. u *. c5 +. u2 *. (c6 +. u *. (♯(cli6dCs[0]) +. u2 *. (♯(cli6dCs[1]) +. u2 *. (♯(cli6dCs[2]) +. u2 *. (♯(cli6dCs[3]) +. u2 *. (♯(cli6dCs[4])))))))))
    else
      let fin (u r : Cx F) (sgn : F) : Cx F :=
        let u2 := u *. u
        let u4 := u2 *. u2
        let u8 := u4 *. u4
        r +. sgn *. (u *. ♯(cli6dBf[0]) +. u2 *. (♯(cli6dBf[1]) +. u *. ♯(cli6dBf[2])) +. u4 *. (♯(cli6dBf[3]) +. u *. ♯(cli6dBf[4]) +. u2 *. (♯(cli6dBf[5]) +. u *. ♯(cli6dBf[6]))) +. u8 *. (♯(cli6dBf[7]) +. u *. ♯(cli6dBf[8]) +. u2 *. (♯(cli6dBf[9]) +. u *. ♯(cli6dBf[10])) +. u4 *. (♯(cli6dBf[11]) +. u *. ♯(cli6dBf[12]) +. u2 *. (♯(cli6dBf[13]) +. u *. ♯(cli6dBf[14])))) +. u8 *. u8 *. (♯(cli6dBf[15]) +. u *. ♯(cli6dBf[16]) +. u2 *. ♯(cli6dBf[17])))
      if nz <=. ♯1 then fin (∸(pos_clog (♯1 -. z))) ⟨♯0, ♯0⟩ ♯1
      else
        let arg := if pz >. ♯0 then pz -. PI else pz +. PI
        let lmz : Cx F := ⟨lnz, arg⟩
        let lmz2 := lmz *. lmz
        fin (∸(pos_clog (♯1 -. ♯1 /. z))) (∸♯31 *. PI6 /. ♯15120 +. lmz2 *. (∸♯7 /. ♯720 *. PI4 +. lmz2 *. (∸♯1 /. ♯144 *. PI2 -. ♯1 /. ♯720 *. lmz2))) ∸♯1

/-- `long double _Complex cli6l(long double _Complex z)` (Li6.c 121-269) -/
def cli6l {n m : Nat} (bf : Vector ℚ n) (cs : Vector ℚ (m + 1)) (z : Cx F) : Cx F :=
  let PI : F := ♯3.14159265358979323846264338327950288
  let PI2 := PI *. PI
  let PI4 := PI2 *. PI2
  let PI6 := PI2 *. PI4
  let zeta6 : F := ♯1.01734306198444913971451792979092053
  let rz := z.re
  let iz := z.im
  if iz ==. ♯0 && rz ==. ♯0 then ⟨rz, iz⟩
  else if iz ==. ♯0 && rz ==. ♯1 then ⟨zeta6, iz⟩
  else if iz ==. ♯0 && rz ==. ∸♯1 then ⟨∸♯31 *. zeta6 /. ♯32, iz⟩
  else
    let nz := (FOps.hypot rz iz)
    let pz := (FOps.atan2 iz rz)
    let lnz := (xlog nz)
    if lnz *. lnz +. pz *. pz <. ♯1 then
      let u : Cx F := ⟨lnz, pz⟩
      let c0 := zeta6
      let c1 : F := ♯1.03692775514336992633136548645703417
      let c2 : F := ♯0.541161616855569095758001848270583951
      let c3 : F := ♯0.200342817193265714233289693585241665
      let c4 : F := ♯0.0685389194520094348530172986102510496
      let c5 := (♯137 /. ♯60 -. (pos_clogl (∸u))) /. ♯120
      let c6 : F := ∸♯1 /. ♯1440
      let u2 := u *. u
      let sum := csum 1 u2 cs
      c0 +. u *. c1 +. u2 *. (c2 +. u *. c3 +. u2 *. (c4 +. u *. c5 +. u2 *. (c6 +. u *. (♯(cs[0]) +. sum))))
    else
      let fin (u r : Cx F) (sgn : F) : Cx F :=
        let sum := csum 0 u bf
        sgn *. sum +. r
      if nz <=. ♯1 then fin (∸(pos_clogl (♯1 -. z))) ⟨♯0, ♯0⟩ ♯1
      else
        let arg := if pz >. ♯0 then pz -. PI else pz +. PI
        let lmz : Cx F := ⟨lnz, arg⟩
        let lmz2 := lmz *. lmz
        fin (∸(pos_clogl (♯1 -. ♯1 /. z))) (∸♯31 *. PI6 /. ♯15120 +. lmz2 *. (∸♯7 /. ♯720 *. PI4 +. lmz2 *. (∸♯1 /. ♯144 *. PI2 -. ♯1 /. ♯720 *. lmz2))) ∸♯1

/-- `cli6l`, LDBL_DIG <= 18 (Li6.c 121-269) -/
def cli6l18 (z : Cx F) : Cx F := cli6l cli6l18Bf cli6l18Cs z
/-- `cli6l`, LDBL_DIG > 18 (Li6.c 121-269) -/
def cli6l36 (z : Cx F) : Cx F := cli6l cli6l36Bf cli6l36Cs z

end
end Polylog.C
