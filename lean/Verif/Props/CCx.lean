import Verif.Props.PortCx
import Verif.Props.Li3Cx
import Verif.Props.Li4Cx
import Verif.Props.Li5Cx
import Verif.Props.Li6Cx
import Verif.Model.CLi3
import Verif.Model.CLi4
import Verif.Model.CLi5
import Verif.Model.CLi6
import Verif.Props.CReal

/-! # C37: the complex functions `cli3` ... `cli6l` of the C port

In exact arithmetic they return the value of the C++ functions, except for real `1 < z < e`, where the literal for `pi` in `pos_clog` changes
the imaginary part by `log(z)^(n-1)/(n-1)!` times the error of that literal. -/

noncomputable section
namespace Polylog
open Complex Finset

variable {S : RealSem}

section
variable {F : Type} [FOps F]
local notation:max "♯" q:max => (FOps.lit (q : ℚ) : F)

/-! ## the C functions in terms of `portShape` (proof devices; the equations hold by definition) -/

def cnear3d (p z3 z2 : ℚ) (cs : Vector ℚ 7) (u : Cx F) : Cx F :=
  let u2 := u *. u
  let u4 := u2 *. u2
  let u8 := u4 *. u4
  let c0 := ♯z3 +. u *. (♯z2 -. u2 /. ♯12)
  let c1 := ♯0.25 *. (♯3 -. ♯2 *. (posLogP p (∸u)))
  c0 +. c1 *. u2 +. u4 *. (♯(cs[0]) +. u2 *. ♯(cs[1])) +. u8 *. (♯(cs[2]) +. u2 *. ♯(cs[3]) +. u4 *. (♯(cs[4]) +. u2 *. ♯(cs[5]))) +. u8 *. u8 *. ♯(cs[6])

def cnear3l (p z3 z2 : ℚ) {m : ℕ} (cs : Vector ℚ m) (u : Cx F) : Cx F :=
  let u2 := u *. u
  let c0 := ♯z3 +. u *. (♯z2 -. u2 /. ♯12)
  let c1 := ♯0.25 *. (♯3 -. ♯2 *. (posLogP p (∸u)))
  c0 +. u2 *. (c1 +. C.csum 0 u2 cs)

def cnear4d (p z4 c1 c2 : ℚ) (cs : Vector ℚ 7) (u : Cx F) : Cx F :=
  let c3 := (♯11 /. ♯6 -. (posLogP p (∸u))) /. ♯6
  let c4 : F := ∸♯1 /. ♯48
  let u2 := u *. u
  let u4 := u2 *. u2
  let u8 := u4 *. u4
  ♯z4 +. u2 *. (♯c2 +. u2 *. c4) +. u *. (♯c1 +. c3 *. u2 +. u4 *. (♯(cs[0]) +. u2 *. ♯(cs[1])) +. u8 *. (♯(cs[2]) +. u2 *. ♯(cs[3]) +. u4 *. (♯(cs[4]) +. u2 *. ♯(cs[5]))) +. u8 *. u8 *. ♯(cs[6]))

def cnear4l (p z4 c1 c2 : ℚ) {m : ℕ} (cs : Vector ℚ m) (u : Cx F) : Cx F :=
  let c3 := (♯11 /. ♯6 -. (posLogP p (∸u))) /. ♯6
  let c4 : F := ∸♯1 /. ♯48
  let u2 := u *. u
  ♯z4 +. u2 *. (♯c2 +. u2 *. c4) +. u *. (♯c1 +. u2 *. (c3 +. C.csum 0 u2 cs))

def cnear5d (p z5 c1 c2 c3 : ℚ) (cs : Vector ℚ 6) (u : Cx F) : Cx F :=
  let c4 := (♯25 /. ♯12 -. (posLogP p (∸u))) /. ♯24
  let c5 : F := ∸♯1 /. ♯240
  let u2 := u *. u
  ♯z5 +. u *. ♯c1 +. u2 *. (♯c2 +. u *. ♯c3 +. u2 *. (c4 +. u *. c5 +. u2 *. (♯(cs[0]) +. u2 *. (♯(cs[1]) +. u2 *. (♯(cs[2]) +. u2 *. (♯(cs[3]) +. u2 *. (♯(cs[4]) +. u2 *. (♯(cs[5])))))))))

def cnear5l (p z5 c1 c2 c3 : ℚ) {m : ℕ} (cs : Vector ℚ m) (u : Cx F) : Cx F :=
  let c4 := (♯25 /. ♯12 -. (posLogP p (∸u))) /. ♯24
  let c5 : F := ∸♯1 /. ♯240
  let u2 := u *. u
  ♯z5 +. u *. ♯c1 +. u2 *. (♯c2 +. u *. ♯c3 +. u2 *. (c4 +. u *. c5 +. C.csum 0 u2 cs))

def cnear6d (p z6 c1 c2 c3 c4 : ℚ) (cs : Vector ℚ 5) (u : Cx F) : Cx F :=
  let c5 := (♯137 /. ♯60 -. (posLogP p (∸u))) /. ♯120
  let c6 : F := ∸♯1 /. ♯1440
  let u2 := u *. u
  ♯z6 +. u *. ♯c1 +. u2 *. (♯c2 +. u *. ♯c3 +. u2 *. (♯c4 +. u *. c5 +. u2 *. (c6 +. u *. (♯(cs[0]) +. u2 *. (♯(cs[1]) +. u2 *. (♯(cs[2]) +. u2 *. (♯(cs[3]) +. u2 *. (♯(cs[4])))))))))

def cnear6l (p z6 c1 c2 c3 c4 : ℚ) {m : ℕ} (cs : Vector ℚ (m + 1)) (u : Cx F) : Cx F :=
  let c5 := (♯137 /. ♯60 -. (posLogP p (∸u))) /. ♯120
  let c6 : F := ∸♯1 /. ♯1440
  let u2 := u *. u
  ♯z6 +. u *. ♯c1 +. u2 *. (♯c2 +. u *. ♯c3 +. u2 *. (♯c4 +. u *. c5 +. u2 *. (c6 +. u *. (♯(cs[0]) +. C.csum 1 u2 cs))))

theorem ccli3_eq (z : Cx F) : C.cli3 z =
    if z.im ==. ♯0 then
      (if z.re <=. ♯1 then ⟨C.li3 z.re, z.im⟩ else ⟨C.li3 z.re, ∸♯0.5 *. ♯3.1415926535897932 *. xlog z.re *. xlog z.re⟩)
    else portShape (posLogP 3.1415926535897932) ♯3.1415926535897932 (cnear3d 3.1415926535897932 1.2020569031595943 1.6449340668482264 cli3dCs) (fun u => fin18 cli3dBf u ⟨♯0, ♯0⟩) (fun u lmz => fin18 cli3dBf u (∸lmz *. (lmz *. lmz /. ♯6 +. ♯1.6449340668482264))) z := rfl

theorem ccli3l_eq {n m : ℕ} (bf : Vector ℚ n) (cs : Vector ℚ m) (z : Cx F) : C.cli3l bf cs z =
    if z.im ==. ♯0 && z.re ==. ♯0 then ⟨z.re, z.im⟩
    else if z.im ==. ♯0 && z.re ==. ♯1 then ⟨♯1.20205690315959428539973816151144999, z.im⟩
    else if z.im ==. ♯0 && z.re ==. ∸♯1 then ⟨∸♯0.75 *. ♯1.20205690315959428539973816151144999, z.im⟩
    else if z.im ==. ♯0 && z.re ==. ♯0.5 then ⟨♯0.537213193608040200940623225594965827, z.im⟩
    else portShape (posLogP 3.14159265358979323846264338327950288) ♯3.14159265358979323846264338327950288 (cnear3l 3.14159265358979323846264338327950288 1.20205690315959428539973816151144999 1.64493406684822643647241516664602519 cs) (fun u => (fun (u rest : Cx F) => rest +. C.csum 0 u bf) u ⟨♯0, ♯0⟩) (fun u lmz => (fun (u rest : Cx F) => rest +. C.csum 0 u bf) u (∸lmz *. (lmz *. lmz /. ♯6 +. ♯1.64493406684822643647241516664602519))) z := rfl

theorem ccli4_eq (z : Cx F) : C.cli4 z =
    if z.im ==. ♯0 then
      (if z.re <=. ♯1 then ⟨C.li4 z.re, z.im⟩ else ⟨C.li4 z.re, ∸♯1 /. ♯6 *. ♯3.1415926535897932 *. xlog z.re *. xlog z.re *. xlog z.re⟩)
    else portShape (posLogP 3.1415926535897932) ♯3.1415926535897932 (cnear4d 3.1415926535897932 1.0823232337111382 1.2020569031595943 0.82246703342411322 cli4dCs) (fun u => fin18s cli4dBf u ⟨♯0, ♯0⟩ ♯1) (fun u lmz => let lmz2 := lmz *. lmz; fin18s cli4dBf u (♯1 /. ♯360 *. (∸♯7 *. ((♯3.1415926535897932 *. ♯3.1415926535897932) *. (♯3.1415926535897932 *. ♯3.1415926535897932)) +. lmz2 *. (∸♯30 *. (♯3.1415926535897932 *. ♯3.1415926535897932) -. ♯15 *. lmz2))) ∸♯1) z := rfl

theorem ccli4l_eq {n m : ℕ} (bf : Vector ℚ n) (cs : Vector ℚ m) (z : Cx F) : C.cli4l bf cs z =
    if z.im ==. ♯0 && z.re ==. ♯0 then ⟨z.re, z.im⟩
    else if z.im ==. ♯0 && z.re ==. ♯1 then ⟨♯1.08232323371113819151600369654116790, z.im⟩
    else if z.im ==. ♯0 && z.re ==. ∸♯1 then ⟨∸♯7 *. ((♯3.14159265358979323846264338327950288 *. ♯3.14159265358979323846264338327950288) *. (♯3.14159265358979323846264338327950288 *. ♯3.14159265358979323846264338327950288)) /. ♯720, z.im⟩
    else portShape (posLogP 3.14159265358979323846264338327950288) ♯3.14159265358979323846264338327950288 (cnear4l 3.14159265358979323846264338327950288 1.08232323371113819151600369654116790 1.20205690315959428539973816151144999 0.822467033424113218236207583323012595 cs) (fun u => (fun (u rest : Cx F) (sgn : F) => sgn *. C.csum 0 u bf +. rest) u ⟨♯0, ♯0⟩ ♯1) (fun u lmz => let lmz2 := lmz *. lmz; (fun (u rest : Cx F) (sgn : F) => sgn *. C.csum 0 u bf +. rest) u (♯1 /. ♯360 *. (∸♯7 *. ((♯3.14159265358979323846264338327950288 *. ♯3.14159265358979323846264338327950288) *. (♯3.14159265358979323846264338327950288 *. ♯3.14159265358979323846264338327950288)) +. lmz2 *. (∸♯30 *. (♯3.14159265358979323846264338327950288 *. ♯3.14159265358979323846264338327950288) -. ♯15 *. lmz2))) ∸♯1) z := rfl

theorem ccli5_eq (z : Cx F) : C.cli5 z =
    if z.im ==. ♯0 && z.re ==. ♯0 then ⟨z.re, z.im⟩
    else if z.im ==. ♯0 && z.re ==. ♯1 then ⟨♯1.0369277551433699, z.im⟩
    else if z.im ==. ♯0 && z.re ==. ∸♯1 then ⟨∸♯15 *. ♯1.0369277551433699 /. ♯16, z.im⟩
    else portShape (posLogP 3.1415926535897932) ♯3.1415926535897932 (cnear5d 3.1415926535897932 1.0369277551433699 1.0823232337111382 0.60102845157979714 0.27415567780803774 cli5dCs) (fun u => fin19 cli5dBf u ⟨♯0, ♯0⟩) (fun u lmz => let lmz2 := lmz *. lmz; fin19 cli5dBf u (∸♯1 /. ♯360 *. lmz *. (♯7 *. ((♯3.1415926535897932 *. ♯3.1415926535897932) *. (♯3.1415926535897932 *. ♯3.1415926535897932)) +. lmz2 *. (♯10 *. (♯3.1415926535897932 *. ♯3.1415926535897932) +. ♯3 *. lmz2)))) z := rfl

theorem ccli5l_eq {n m : ℕ} (bf : Vector ℚ n) (cs : Vector ℚ m) (z : Cx F) : C.cli5l bf cs z =
    if z.im ==. ♯0 && z.re ==. ♯0 then ⟨z.re, z.im⟩
    else if z.im ==. ♯0 && z.re ==. ♯1 then ⟨♯1.03692775514336992633136548645703417, z.im⟩
    else if z.im ==. ♯0 && z.re ==. ∸♯1 then ⟨∸♯15 *. ♯1.03692775514336992633136548645703417 /. ♯16, z.im⟩
    else portShape (posLogP 3.14159265358979323846264338327950288) ♯3.14159265358979323846264338327950288 (cnear5l 3.14159265358979323846264338327950288 1.03692775514336992633136548645703417 1.08232323371113819151600369654116790 0.601028451579797142699869080755724995 0.274155677808037739412069194441004198 cs) (fun u => (fun (u rest : Cx F) => rest +. C.csum 0 u bf) u ⟨♯0, ♯0⟩) (fun u lmz => let lmz2 := lmz *. lmz; (fun (u rest : Cx F) => rest +. C.csum 0 u bf) u (∸♯1 /. ♯360 *. lmz *. (♯7 *. ((♯3.14159265358979323846264338327950288 *. ♯3.14159265358979323846264338327950288) *. (♯3.14159265358979323846264338327950288 *. ♯3.14159265358979323846264338327950288)) +. lmz2 *. (♯10 *. (♯3.14159265358979323846264338327950288 *. ♯3.14159265358979323846264338327950288) +. ♯3 *. lmz2)))) z := rfl

theorem ccli6_eq (z : Cx F) : C.cli6 z =
    if z.im ==. ♯0 && z.re ==. ♯0 then ⟨z.re, z.im⟩
    else if z.im ==. ♯0 && z.re ==. ♯1 then ⟨♯1.0173430619844491, z.im⟩
    else if z.im ==. ♯0 && z.re ==. ∸♯1 then ⟨∸♯31 *. ♯1.0173430619844491 /. ♯32, z.im⟩
    else portShape (posLogP 3.1415926535897932) ♯3.1415926535897932 (cnear6d 3.1415926535897932 1.0173430619844491 1.0369277551433699 0.54116161685556910 0.20034281719326571 0.068538919452009435 cli6dCs) (fun u => fin18s cli6dBf u ⟨♯0, ♯0⟩ ♯1) (fun u lmz => let lmz2 := lmz *. lmz; fin18s cli6dBf u (∸♯31 *. ((♯3.1415926535897932 *. ♯3.1415926535897932) *. ((♯3.1415926535897932 *. ♯3.1415926535897932) *. (♯3.1415926535897932 *. ♯3.1415926535897932))) /. ♯15120 +. lmz2 *. (∸♯7 /. ♯720 *. ((♯3.1415926535897932 *. ♯3.1415926535897932) *. (♯3.1415926535897932 *. ♯3.1415926535897932)) +. lmz2 *. (∸♯1 /. ♯144 *. (♯3.1415926535897932 *. ♯3.1415926535897932) -. ♯1 /. ♯720 *. lmz2))) ∸♯1) z := rfl

theorem ccli6l_eq {n m : ℕ} (bf : Vector ℚ n) (cs : Vector ℚ (m + 1)) (z : Cx F) : C.cli6l bf cs z =
    if z.im ==. ♯0 && z.re ==. ♯0 then ⟨z.re, z.im⟩
    else if z.im ==. ♯0 && z.re ==. ♯1 then ⟨♯1.01734306198444913971451792979092053, z.im⟩
    else if z.im ==. ♯0 && z.re ==. ∸♯1 then ⟨∸♯31 *. ♯1.01734306198444913971451792979092053 /. ♯32, z.im⟩
    else portShape (posLogP 3.14159265358979323846264338327950288) ♯3.14159265358979323846264338327950288 (cnear6l 3.14159265358979323846264338327950288 1.01734306198444913971451792979092053 1.03692775514336992633136548645703417 0.541161616855569095758001848270583951 0.200342817193265714233289693585241665 0.0685389194520094348530172986102510496 cs) (fun u => (fun (u rest : Cx F) (sgn : F) => sgn *. C.csum 0 u bf +. rest) u ⟨♯0, ♯0⟩ ♯1) (fun u lmz => let lmz2 := lmz *. lmz; (fun (u rest : Cx F) (sgn : F) => sgn *. C.csum 0 u bf +. rest) u (∸♯31 *. ((♯3.14159265358979323846264338327950288 *. ♯3.14159265358979323846264338327950288) *. ((♯3.14159265358979323846264338327950288 *. ♯3.14159265358979323846264338327950288) *. (♯3.14159265358979323846264338327950288 *. ♯3.14159265358979323846264338327950288))) /. ♯15120 +. lmz2 *. (∸♯7 /. ♯720 *. ((♯3.14159265358979323846264338327950288 *. ♯3.14159265358979323846264338327950288) *. (♯3.14159265358979323846264338327950288 *. ♯3.14159265358979323846264338327950288)) +. lmz2 *. (∸♯1 /. ♯144 *. (♯3.14159265358979323846264338327950288 *. ♯3.14159265358979323846264338327950288) -. ♯1 /. ♯720 *. lmz2))) ∸♯1) z := rfl
end


/-! ## the parts near 1 -/

theorem fin5_sum (c : Vector ℚ 5) (w : ℂ) : ∑ i : Fin 5, (((S.rho c[i.1] : ℚ) : ℝ) : ℂ) * w ^ i.1 =
    (((S.rho c[0] : ℚ) : ℝ) : ℂ) + (((S.rho c[1] : ℚ) : ℝ) : ℂ) * w + (((S.rho c[2] : ℚ) : ℝ) : ℂ) * w ^ 2 + (((S.rho c[3] : ℚ) : ℝ) : ℂ) * w ^ 3
      + (((S.rho c[4] : ℚ) : ℝ) : ℂ) * w ^ 4 := by
  simp [Fin.sum_univ_succ]; ring

theorem fin6_sum (c : Vector ℚ 6) (w : ℂ) : ∑ i : Fin 6, (((S.rho c[i.1] : ℚ) : ℝ) : ℂ) * w ^ i.1 =
    (((S.rho c[0] : ℚ) : ℝ) : ℂ) + (((S.rho c[1] : ℚ) : ℝ) : ℂ) * w + (((S.rho c[2] : ℚ) : ℝ) : ℂ) * w ^ 2 + (((S.rho c[3] : ℚ) : ℝ) : ℂ) * w ^ 3
      + (((S.rho c[4] : ℚ) : ℝ) : ℂ) * w ^ 4 + (((S.rho c[5] : ℚ) : ℝ) : ℂ) * w ^ 5 := by
  simp [Fin.sum_univ_succ]; ring

theorem fin7_sum (c : Vector ℚ 7) (w : ℂ) : ∑ i : Fin 7, (((S.rho c[i.1] : ℚ) : ℝ) : ℂ) * w ^ i.1 =
    (((S.rho c[0] : ℚ) : ℝ) : ℂ) + (((S.rho c[1] : ℚ) : ℝ) : ℂ) * w + (((S.rho c[2] : ℚ) : ℝ) : ℂ) * w ^ 2 + (((S.rho c[3] : ℚ) : ℝ) : ℂ) * w ^ 3
      + (((S.rho c[4] : ℚ) : ℝ) : ℂ) * w ^ 4 + (((S.rho c[5] : ℚ) : ℝ) : ℂ) * w ^ 5 + (((S.rho c[6] : ℚ) : ℝ) : ℂ) * w ^ 6 := by
  simp [Fin.sum_univ_succ]; ring

theorem hornerC_zero {n : ℕ} (z : Cx (R S)) (c : Vector ℚ (n + 2)) : (hornerC 0 z c).toC = ∑ i : Fin (n + 2), (((S.rho c[i.1] : ℚ) : ℝ) : ℂ) * z.toC ^ i.1 := by
  have h := C06_hornerC 0 (Nat.zero_le _) z c
  simpa only [Nat.zero_le, Finset.filter_true, Nat.sub_zero] using h

theorem hornerC5 (z : Cx (R S)) (c : Vector ℚ 5) : (hornerC (n := 3) 0 z c).toC = (((S.rho c[0] : ℚ) : ℝ) : ℂ) + (((S.rho c[1] : ℚ) : ℝ) : ℂ) * z.toC + (((S.rho c[2] : ℚ) : ℝ) : ℂ) * z.toC ^ 2 + (((S.rho c[3] : ℚ) : ℝ) : ℂ) * z.toC ^ 3 + (((S.rho c[4] : ℚ) : ℝ) : ℂ) * z.toC ^ 4 :=
  (hornerC_zero (n := 3) z c).trans (fin5_sum c z.toC)

theorem hornerC6 (z : Cx (R S)) (c : Vector ℚ 6) : (hornerC (n := 4) 0 z c).toC = (((S.rho c[0] : ℚ) : ℝ) : ℂ) + (((S.rho c[1] : ℚ) : ℝ) : ℂ) * z.toC + (((S.rho c[2] : ℚ) : ℝ) : ℂ) * z.toC ^ 2 + (((S.rho c[3] : ℚ) : ℝ) : ℂ) * z.toC ^ 3 + (((S.rho c[4] : ℚ) : ℝ) : ℂ) * z.toC ^ 4 + (((S.rho c[5] : ℚ) : ℝ) : ℂ) * z.toC ^ 5 :=
  (hornerC_zero (n := 4) z c).trans (fin6_sum c z.toC)

theorem hornerC7 (z : Cx (R S)) (c : Vector ℚ 7) : (hornerC (n := 5) 0 z c).toC = (((S.rho c[0] : ℚ) : ℝ) : ℂ) + (((S.rho c[1] : ℚ) : ℝ) : ℂ) * z.toC + (((S.rho c[2] : ℚ) : ℝ) : ℂ) * z.toC ^ 2 + (((S.rho c[3] : ℚ) : ℝ) : ℂ) * z.toC ^ 3 + (((S.rho c[4] : ℚ) : ℝ) : ℂ) * z.toC ^ 4 + (((S.rho c[5] : ℚ) : ℝ) : ℂ) * z.toC ^ 5 + (((S.rho c[6] : ℚ) : ℝ) : ℂ) * z.toC ^ 6 :=
  (hornerC_zero (n := 5) z c).trans (fin7_sum c z.toC)

theorem csum_hornerC {u : ℝ} (hS : S.Lit u) {n : ℕ} (z : Cx (R S)) (c : Vector ℚ (n + 2)) : (C.csum 0 z c).toC = z.toC * (hornerC 0 z c).toC := by
  rw [csum_eq hS, hornerC_zero]
  simp only [Nat.zero_le, Finset.filter_true, Nat.sub_zero]

theorem csum1_hornerC {u : ℝ} (hS : S.Lit u) {n : ℕ} (z : Cx (R S)) (c : Vector ℚ (n + 2)) :
    (((S.rho c[0] : ℚ) : ℝ) : ℂ) + (C.csum 1 z c).toC = (hornerC 0 z c).toC := by
  rw [csum_eq hS, hornerC_zero, Fin.sum_univ_succ, Finset.sum_filter, Fin.sum_univ_succ, mul_add, Finset.mul_sum]
  simp [pow_succ]
  exact Finset.sum_congr rfl fun i _ => by ring


theorem cnear3d_eq {u : ℝ} (hS : S.Lit u) (p z3 z2 : ℚ) (cs : Vector ℚ 7) (w : Cx (R S)) :
    (cnear3d p z3 z2 cs w).toC = (near3d z3 z2 cs w : Cx (R S)).toC - ((1 / 2 : ℝ) : ℂ) * w.toC ^ 2 * ((posLogP p (∸w)).toC - (posLog (∸w)).toC) := by
  have c12 := toC_divlit hS 12 (q := 12) (by norm_num) (by norm_num) (by norm_num)
  have l2 := lit_of hS 2 (q := 2) (by norm_num) (by norm_num)
  have l3 := lit_of hS 3 (q := 3) (by norm_num) (by norm_num)
  have q4 := rho_quarter hS
  simp only [cnear3d, toC_add, toC_radd, toC_addr, toC_mul, toC_mulr, toC_rmul, toC_rsub, ofR_neg, near3d, c12, l2, l3, q4, ofR_lit]
  push_cast
  ring

theorem cnear3l_eq {u : ℝ} (hS : S.Lit u) (p z3 z2 : ℚ) {m : ℕ} (cs : Vector ℚ (m + 2)) (w : Cx (R S)) :
    (cnear3l p z3 z2 cs w).toC = (near3l z3 z2 cs w : Cx (R S)).toC - ((1 / 2 : ℝ) : ℂ) * w.toC ^ 2 * ((posLogP p (∸w)).toC - (posLog (∸w)).toC) := by
  have c12 := toC_divlit hS 12 (q := 12) (by norm_num) (by norm_num) (by norm_num)
  have l2 := lit_of hS 2 (q := 2) (by norm_num) (by norm_num)
  have l3 := lit_of hS 3 (q := 3) (by norm_num) (by norm_num)
  have q4 := rho_quarter hS
  simp only [cnear3l, toC_add, toC_radd, toC_addr, toC_mul, toC_mulr, toC_rmul, toC_rsub, ofR_neg, near3l, csum_hornerC hS, c12, l2, l3, q4, ofR_lit]
  push_cast
  ring

theorem cnear4d_eq {u : ℝ} (hS : S.Lit u) (p z4 c1 c2 : ℚ) (cs : Vector ℚ 7) (w : Cx (R S)) :
    (cnear4d p z4 c1 c2 cs w).toC = (let c3 := ((FOps.lit 11 : R S) /. (FOps.lit 6 : R S) -. (posLog (∸w))) /. (FOps.lit 6 : R S)
      let c4 : R S := ∸(FOps.lit 1 : R S) /. (FOps.lit 48 : R S)
      let u2 := w *. w
      (FOps.lit z4 : R S) +. u2 *. ((FOps.lit c2 : R S) +. u2 *. c4) +. w *. ((FOps.lit c1 : R S) +. u2 *. (c3 +. u2 *. (hornerC 0 u2 cs))) : Cx (R S)).toC - ((1 / 6 : ℝ) : ℂ) * w.toC ^ 3 * ((posLogP p (∸w)).toC - (posLog (∸w)).toC) := by
  have d6 := ofR_divlit hS 6 (q := 6) (by norm_num) (by norm_num) (by norm_num)
  have d48 := ofR_divlit hS 48 (q := 48) (by norm_num) (by norm_num) (by norm_num)
  have c6 := toC_divlit hS 6 (q := 6) (by norm_num) (by norm_num) (by norm_num)
  have l1 := lit_of hS 1 (q := 1) (by norm_num) (by norm_num)
  have l11 := lit_of hS 11 (q := 11) (by norm_num) (by norm_num)
  simp only [cnear4d, toC_add, toC_radd, toC_addr, toC_mul, toC_mulr, toC_rmul, toC_rsub, ofR_neg, hornerC7, d6, d48, c6, l1, l11, ofR_lit]
  push_cast
  ring

theorem cnear4l_eq {u : ℝ} (hS : S.Lit u) (p z4 c1 c2 : ℚ) {m : ℕ} (cs : Vector ℚ (m + 2)) (w : Cx (R S)) :
    (cnear4l p z4 c1 c2 cs w).toC = (let c3 := ((FOps.lit 11 : R S) /. (FOps.lit 6 : R S) -. (posLog (∸w))) /. (FOps.lit 6 : R S)
      let c4 : R S := ∸(FOps.lit 1 : R S) /. (FOps.lit 48 : R S)
      let u2 := w *. w
      (FOps.lit z4 : R S) +. u2 *. ((FOps.lit c2 : R S) +. u2 *. c4) +. w *. ((FOps.lit c1 : R S) +. u2 *. (c3 +. u2 *. (hornerC 0 u2 cs))) : Cx (R S)).toC - ((1 / 6 : ℝ) : ℂ) * w.toC ^ 3 * ((posLogP p (∸w)).toC - (posLog (∸w)).toC) := by
  have d6 := ofR_divlit hS 6 (q := 6) (by norm_num) (by norm_num) (by norm_num)
  have d48 := ofR_divlit hS 48 (q := 48) (by norm_num) (by norm_num) (by norm_num)
  have c6 := toC_divlit hS 6 (q := 6) (by norm_num) (by norm_num) (by norm_num)
  have l1 := lit_of hS 1 (q := 1) (by norm_num) (by norm_num)
  have l11 := lit_of hS 11 (q := 11) (by norm_num) (by norm_num)
  simp only [cnear4l, toC_add, toC_radd, toC_addr, toC_mul, toC_mulr, toC_rmul, toC_rsub, ofR_neg, csum_hornerC hS, d6, d48, c6, l1, l11, ofR_lit]
  push_cast
  ring

theorem cnear5d_eq {u : ℝ} (hS : S.Lit u) (p z5 c1 c2 c3 : ℚ) (cs : Vector ℚ 6) (w : Cx (R S)) :
    (cnear5d p z5 c1 c2 c3 cs w).toC = (let c4 := ((FOps.lit 25 : R S) /. (FOps.lit 12 : R S) -. (posLog (∸w))) /. (FOps.lit 24 : R S)
      let c5 : R S := ∸(FOps.lit 1 : R S) /. (FOps.lit 240 : R S)
      let u2 := w *. w
      (FOps.lit z5 : R S) +. w *. (FOps.lit c1 : R S) +. u2 *. ((FOps.lit c2 : R S) +. w *. (FOps.lit c3 : R S) +. u2 *. (c4 +. w *. c5 +. u2 *. (hornerC 0 u2 cs))) : Cx (R S)).toC - ((1 / 24 : ℝ) : ℂ) * w.toC ^ 4 * ((posLogP p (∸w)).toC - (posLog (∸w)).toC) := by
  have d12 := ofR_divlit hS 12 (q := 12) (by norm_num) (by norm_num) (by norm_num)
  have d240 := ofR_divlit hS 240 (q := 240) (by norm_num) (by norm_num) (by norm_num)
  have c24 := toC_divlit hS 24 (q := 24) (by norm_num) (by norm_num) (by norm_num)
  have l1 := lit_of hS 1 (q := 1) (by norm_num) (by norm_num)
  have l25 := lit_of hS 25 (q := 25) (by norm_num) (by norm_num)
  simp only [cnear5d, toC_add, toC_radd, toC_addr, toC_mul, toC_mulr, toC_rmul, toC_rsub, ofR_neg, hornerC6, d12, d240, c24, l1, l25, ofR_lit]
  push_cast
  ring

theorem cnear5l_eq {u : ℝ} (hS : S.Lit u) (p z5 c1 c2 c3 : ℚ) {m : ℕ} (cs : Vector ℚ (m + 2)) (w : Cx (R S)) :
    (cnear5l p z5 c1 c2 c3 cs w).toC = (let c4 := ((FOps.lit 25 : R S) /. (FOps.lit 12 : R S) -. (posLog (∸w))) /. (FOps.lit 24 : R S)
      let c5 : R S := ∸(FOps.lit 1 : R S) /. (FOps.lit 240 : R S)
      let u2 := w *. w
      (FOps.lit z5 : R S) +. w *. (FOps.lit c1 : R S) +. u2 *. ((FOps.lit c2 : R S) +. w *. (FOps.lit c3 : R S) +. u2 *. (c4 +. w *. c5 +. u2 *. (hornerC 0 u2 cs))) : Cx (R S)).toC - ((1 / 24 : ℝ) : ℂ) * w.toC ^ 4 * ((posLogP p (∸w)).toC - (posLog (∸w)).toC) := by
  have d12 := ofR_divlit hS 12 (q := 12) (by norm_num) (by norm_num) (by norm_num)
  have d240 := ofR_divlit hS 240 (q := 240) (by norm_num) (by norm_num) (by norm_num)
  have c24 := toC_divlit hS 24 (q := 24) (by norm_num) (by norm_num) (by norm_num)
  have l1 := lit_of hS 1 (q := 1) (by norm_num) (by norm_num)
  have l25 := lit_of hS 25 (q := 25) (by norm_num) (by norm_num)
  simp only [cnear5l, toC_add, toC_radd, toC_addr, toC_mul, toC_mulr, toC_rmul, toC_rsub, ofR_neg, csum_hornerC hS, d12, d240, c24, l1, l25, ofR_lit]
  push_cast
  ring

theorem cnear6d_eq {u : ℝ} (hS : S.Lit u) (p z6 c1 c2 c3 c4 : ℚ) (cs : Vector ℚ 5) (w : Cx (R S)) :
    (cnear6d p z6 c1 c2 c3 c4 cs w).toC = (let c5 := ((FOps.lit 137 : R S) /. (FOps.lit 60 : R S) -. (posLog (∸w))) /. (FOps.lit 120 : R S)
      let c6 : R S := ∸(FOps.lit 1 : R S) /. (FOps.lit 1440 : R S)
      let u2 := w *. w
      (FOps.lit z6 : R S) +. w *. (FOps.lit c1 : R S) +. u2 *. ((FOps.lit c2 : R S) +. w *. (FOps.lit c3 : R S) +. u2 *. ((FOps.lit c4 : R S) +. w *. c5 +. u2 *. (c6 +. w *. (hornerC 0 u2 cs)))) : Cx (R S)).toC - ((1 / 120 : ℝ) : ℂ) * w.toC ^ 5 * ((posLogP p (∸w)).toC - (posLog (∸w)).toC) := by
  have d60 := ofR_divlit hS 60 (q := 60) (by norm_num) (by norm_num) (by norm_num)
  have d1440 := ofR_divlit hS 1440 (q := 1440) (by norm_num) (by norm_num) (by norm_num)
  have c120 := toC_divlit hS 120 (q := 120) (by norm_num) (by norm_num) (by norm_num)
  have l1 := lit_of hS 1 (q := 1) (by norm_num) (by norm_num)
  have l137 := lit_of hS 137 (q := 137) (by norm_num) (by norm_num)
  simp only [cnear6d, toC_add, toC_radd, toC_addr, toC_mul, toC_mulr, toC_rmul, toC_rsub, ofR_neg, hornerC5, d60, d1440, c120, l1, l137, ofR_lit]
  push_cast
  ring

theorem cnear6l_eq {u : ℝ} (hS : S.Lit u) (p z6 c1 c2 c3 c4 : ℚ) {m : ℕ} (cs : Vector ℚ (m + 2)) (w : Cx (R S)) :
    (cnear6l p z6 c1 c2 c3 c4 cs w).toC = (let c5 := ((FOps.lit 137 : R S) /. (FOps.lit 60 : R S) -. (posLog (∸w))) /. (FOps.lit 120 : R S)
      let c6 : R S := ∸(FOps.lit 1 : R S) /. (FOps.lit 1440 : R S)
      let u2 := w *. w
      (FOps.lit z6 : R S) +. w *. (FOps.lit c1 : R S) +. u2 *. ((FOps.lit c2 : R S) +. w *. (FOps.lit c3 : R S) +. u2 *. ((FOps.lit c4 : R S) +. w *. c5 +. u2 *. (c6 +. w *. (hornerC 0 u2 cs)))) : Cx (R S)).toC - ((1 / 120 : ℝ) : ℂ) * w.toC ^ 5 * ((posLogP p (∸w)).toC - (posLog (∸w)).toC) := by
  have d60 := ofR_divlit hS 60 (q := 60) (by norm_num) (by norm_num) (by norm_num)
  have d1440 := ofR_divlit hS 1440 (q := 1440) (by norm_num) (by norm_num) (by norm_num)
  have c120 := toC_divlit hS 120 (q := 120) (by norm_num) (by norm_num) (by norm_num)
  have l1 := lit_of hS 1 (q := 1) (by norm_num) (by norm_num)
  have l137 := lit_of hS 137 (q := 137) (by norm_num) (by norm_num)
  simp only [cnear6l, toC_add, toC_radd, toC_addr, toC_mul, toC_mulr, toC_rmul, toC_rsub, ofR_neg, d60, d1440, c120, l1, l137, ← csum1_hornerC hS, ofR_lit]
  push_cast
  ring


theorem finL_eq {u : ℝ} (hS : S.Lit u) {n : ℕ} (bf : Vector ℚ (n + 2)) (w r : Cx (R S)) : (r +. C.csum 0 w bf : Cx (R S)).toC = (r +. w *. (hornerC 0 w bf) : Cx (R S)).toC := by
  rw [toC_add, toC_add, toC_mul, csum_hornerC hS]

theorem finLs_eq {u : ℝ} (hS : S.Lit u) {n : ℕ} (bf : Vector ℚ (n + 2)) (w r : Cx (R S)) (s : R S) :
    (s *. C.csum 0 w bf +. r : Cx (R S)).toC = (r +. s *. w *. (hornerC 0 w bf) : Cx (R S)).toC := by
  simp only [toC_add, toC_mul, toC_rmul, csum_hornerC hS]; ring

theorem not_zero_one {u : ℝ} (hS : S.Lit u) {z : ℂ} : ((((ofC S z).im ==. (FOps.lit 0 : R S)) && ((ofC S z).re ==. (FOps.lit 0 : R S))) = true ↔ z = 0) ∧
    ((((ofC S z).im ==. (FOps.lit 0 : R S)) && ((ofC S z).re ==. (FOps.lit 1 : R S))) = true ↔ z = 1) ∧
    ((((ofC S z).im ==. (FOps.lit 0 : R S)) && ((ofC S z).re ==. (∸(FOps.lit 1 : R S)))) = true ↔ z = -1) := by
  simp only [rsem, hS.zero, hS.one, Bool.and_eq_true, decide_eq_true_eq, Rat.cast_zero, Rat.cast_one, Complex.ext_iff]
  simp [and_comm]

/-! ## C37 -/


/-- **C37**, `cli3`: the C function returns the value of the C++ function for every `z`. -/
theorem C37_cli3 {u : ℝ} (hS : S.Lit u) (z : ℂ) : C.cli3 (ofC S z) = cLi3d (ofC S z) := by
  rw [ccli3_eq, cLi3d_eq, C36_li3]
  split
  · rfl
  · rename_i hz
    simp only [rsem, hS.zero, decide_eq_true_eq, Rat.cast_zero] at hz
    have h0 : z ≠ 0 := fun h => hz (by rw [h]; rfl)
    have h1 : z ≠ 1 := fun h => hz (by rw [h]; rfl)
    apply cx_ext
    rw [cLi3S, portShape_cmp hS _ _ _ _ _ _ _ _ 2 (1 / 2) (fun w _ => cnear3d_eq hS _ _ _ _ w) (fun _ => rfl) (fun _ _ => rfl) z h0 h1, if_neg (fun h => hz h.1), sub_zero]


/-- **C37**, `cli3l18`: the value of the C++ function, minus `i log(z)^2/2 (p - pi)` for real `1 < z < e`, `p` the value of the literal for `pi`. -/
theorem C37_cli3l18 {u : ℝ} (hS : S.Lit u) (z : ℂ) : (C.cli3l18 (ofC S z)).toC = (cLi3l18 (ofC S z)).toC
      - if z.im = 0 ∧ 1 < z.re ∧ z.re < Real.exp 1 then ((1 / 2 * Real.log z.re ^ 2 * (((S.rho 3.14159265358979323846264338327950288 : ℚ) : ℝ) - Real.pi) : ℝ) : ℂ) * I else 0 := by
  rw [C.cli3l18, cLi3l18, show C.cli3l18Bf = cli3l18Bf from rfl, show C.cli3l18Cs = cli3l18Cs from rfl, ccli3l_eq, cLi3l_eq]
  obtain ⟨e0, e1, em1⟩ := not_zero_one hS (z := z)
  split
  · rename_i h
    rw [e0.mp h]; simp
  rename_i h0
  split
  · rename_i h
    rw [e1.mp h]; simp
  rename_i h1
  split
  · rename_i h
    rw [em1.mp h, if_neg (by norm_num), sub_zero]
  rw [e0] at h0
  rw [e1] at h1
  split
  · rename_i h
    simp only [rsem, hS.zero, hS.half, Bool.and_eq_true, decide_eq_true_eq, Rat.cast_zero] at h
    rw [if_neg (by rintro ⟨_, h', _⟩; rw [h.2] at h'; norm_num at h'), sub_zero]
  rw [cLi3S, portShape_cmp hS _ _ _ _ _ _ _ _ 2 (1 / 2) (fun w _ => cnear3l_eq hS _ _ _ _ w) (fun w => finL_eq hS cli3l18Bf w _) (fun w l => finL_eq hS cli3l18Bf w _) z h0 h1]


/-- **C37**, `cli3l36`: the value of the C++ function, minus `i log(z)^2/2 (p - pi)` for real `1 < z < e`, `p` the value of the literal for `pi`. -/
theorem C37_cli3l36 {u : ℝ} (hS : S.Lit u) (z : ℂ) : (C.cli3l36 (ofC S z)).toC = (cLi3l36 (ofC S z)).toC
      - if z.im = 0 ∧ 1 < z.re ∧ z.re < Real.exp 1 then ((1 / 2 * Real.log z.re ^ 2 * (((S.rho 3.14159265358979323846264338327950288 : ℚ) : ℝ) - Real.pi) : ℝ) : ℂ) * I else 0 := by
  rw [C.cli3l36, cLi3l36, show C.cli3l36Bf = cli3l36Bf from rfl, show C.cli3l36Cs = cli3l36Cs from rfl, ccli3l_eq, cLi3l_eq]
  obtain ⟨e0, e1, em1⟩ := not_zero_one hS (z := z)
  split
  · rename_i h
    rw [e0.mp h]; simp
  rename_i h0
  split
  · rename_i h
    rw [e1.mp h]; simp
  rename_i h1
  split
  · rename_i h
    rw [em1.mp h, if_neg (by norm_num), sub_zero]
  rw [e0] at h0
  rw [e1] at h1
  split
  · rename_i h
    simp only [rsem, hS.zero, hS.half, Bool.and_eq_true, decide_eq_true_eq, Rat.cast_zero] at h
    rw [if_neg (by rintro ⟨_, h', _⟩; rw [h.2] at h'; norm_num at h'), sub_zero]
  rw [cLi3S, portShape_cmp hS _ _ _ _ _ _ _ _ 2 (1 / 2) (fun w _ => cnear3l_eq hS _ _ _ _ w) (fun w => finL_eq hS cli3l36Bf w _) (fun w l => finL_eq hS cli3l36Bf w _) z h0 h1]


/-- **C37**, `cli4`: the C function returns the value of the C++ function for every `z`. -/
theorem C37_cli4 {u : ℝ} (hS : S.Lit u) (z : ℂ) : C.cli4 (ofC S z) = cLi4d (ofC S z) := by
  rw [ccli4_eq, cLi4d_eq, C36_li4]
  split
  · rfl
  · rename_i hz
    simp only [rsem, hS.zero, decide_eq_true_eq, Rat.cast_zero] at hz
    have h0 : z ≠ 0 := fun h => hz (by rw [h]; rfl)
    have h1 : z ≠ 1 := fun h => hz (by rw [h]; rfl)
    apply cx_ext
    rw [cLi4S, portShape_cmp hS _ _ _ _ _ _ _ _ 3 (1 / 6) (fun w _ => cnear4d_eq hS _ _ _ _ _ w) (fun _ => rfl) (fun _ _ => rfl) z h0 h1, if_neg (fun h => hz h.1), sub_zero]


/-- **C37**, `cli4l18`: the value of the C++ function, minus `i log(z)^3/6 (p - pi)` for real `1 < z < e`, `p` the value of the literal for `pi`. -/
theorem C37_cli4l18 {u : ℝ} (hS : S.Lit u) (z : ℂ) : (C.cli4l18 (ofC S z)).toC = (cLi4l18 (ofC S z)).toC
      - if z.im = 0 ∧ 1 < z.re ∧ z.re < Real.exp 1 then ((1 / 6 * Real.log z.re ^ 3 * (((S.rho 3.14159265358979323846264338327950288 : ℚ) : ℝ) - Real.pi) : ℝ) : ℂ) * I else 0 := by
  rw [C.cli4l18, cLi4l18, show C.cli4l18Bf = cli4l18Bf from rfl, show C.cli4l18Cs = cli4l18Cs from rfl, ccli4l_eq, cLi4l_eq]
  obtain ⟨e0, e1, em1⟩ := not_zero_one hS (z := z)
  split
  · rename_i h
    rw [e0.mp h]; simp
  rename_i h0
  split
  · rename_i h
    rw [e1.mp h]; simp
  rename_i h1
  split
  · rename_i h
    rw [em1.mp h, if_neg (by norm_num), sub_zero]
  rw [e0] at h0
  rw [e1] at h1
  rw [cLi4S, portShape_cmp hS _ _ _ _ _ _ _ _ 3 (1 / 6) (fun w _ => cnear4l_eq hS _ _ _ _ _ w) (fun w => finLs_eq hS cli4l18Bf w _ _) (fun w l => finLs_eq hS cli4l18Bf w _ _) z h0 h1]


/-- **C37**, `cli4l36`: the value of the C++ function, minus `i log(z)^3/6 (p - pi)` for real `1 < z < e`, `p` the value of the literal for `pi`. -/
theorem C37_cli4l36 {u : ℝ} (hS : S.Lit u) (z : ℂ) : (C.cli4l36 (ofC S z)).toC = (cLi4l36 (ofC S z)).toC
      - if z.im = 0 ∧ 1 < z.re ∧ z.re < Real.exp 1 then ((1 / 6 * Real.log z.re ^ 3 * (((S.rho 3.14159265358979323846264338327950288 : ℚ) : ℝ) - Real.pi) : ℝ) : ℂ) * I else 0 := by
  rw [C.cli4l36, cLi4l36, show C.cli4l36Bf = cli4l36Bf from rfl, show C.cli4l36Cs = cli4l36Cs from rfl, ccli4l_eq, cLi4l_eq]
  obtain ⟨e0, e1, em1⟩ := not_zero_one hS (z := z)
  split
  · rename_i h
    rw [e0.mp h]; simp
  rename_i h0
  split
  · rename_i h
    rw [e1.mp h]; simp
  rename_i h1
  split
  · rename_i h
    rw [em1.mp h, if_neg (by norm_num), sub_zero]
  rw [e0] at h0
  rw [e1] at h1
  rw [cLi4S, portShape_cmp hS _ _ _ _ _ _ _ _ 3 (1 / 6) (fun w _ => cnear4l_eq hS _ _ _ _ _ w) (fun w => finLs_eq hS cli4l36Bf w _ _) (fun w l => finLs_eq hS cli4l36Bf w _ _) z h0 h1]


/-- **C37**, `cli5`: the value of the C++ function, minus `i log(z)^4/24 (p - pi)` for real `1 < z < e`, `p` the value of the literal for `pi`. -/
theorem C37_cli5 {u : ℝ} (hS : S.Lit u) (z : ℂ) : (C.cli5 (ofC S z)).toC = (cLi5d (ofC S z)).toC
      - if z.im = 0 ∧ 1 < z.re ∧ z.re < Real.exp 1 then ((1 / 24 * Real.log z.re ^ 4 * (((S.rho 3.1415926535897932 : ℚ) : ℝ) - Real.pi) : ℝ) : ℂ) * I else 0 := by
  rw [ccli5_eq, cLi5d_eq]
  obtain ⟨e0, e1, em1⟩ := not_zero_one hS (z := z)
  split
  · rename_i h
    rw [e0.mp h]; simp
  rename_i h0
  split
  · rename_i h
    rw [e1.mp h]; simp
  rename_i h1
  split
  · rename_i h
    rw [em1.mp h, if_neg (by norm_num), sub_zero]
  rw [e0] at h0
  rw [e1] at h1
  rw [cLi5S, portShape_cmp hS _ _ _ _ _ _ _ _ 4 (1 / 24) (fun w _ => cnear5d_eq hS _ _ _ _ _ _ w) (fun _ => rfl) (fun _ _ => rfl) z h0 h1]


/-- **C37**, `cli5l18`: the value of the C++ function, minus `i log(z)^4/24 (p - pi)` for real `1 < z < e`, `p` the value of the literal for `pi`. -/
theorem C37_cli5l18 {u : ℝ} (hS : S.Lit u) (z : ℂ) : (C.cli5l18 (ofC S z)).toC = (cLi5l18 (ofC S z)).toC
      - if z.im = 0 ∧ 1 < z.re ∧ z.re < Real.exp 1 then ((1 / 24 * Real.log z.re ^ 4 * (((S.rho 3.14159265358979323846264338327950288 : ℚ) : ℝ) - Real.pi) : ℝ) : ℂ) * I else 0 := by
  rw [C.cli5l18, cLi5l18, show C.cli5l18Bf = cli5l18Bf from rfl, show C.cli5l18Cs = cli5l18Cs from rfl, ccli5l_eq, cLi5l_eq]
  obtain ⟨e0, e1, em1⟩ := not_zero_one hS (z := z)
  split
  · rename_i h
    rw [e0.mp h]; simp
  rename_i h0
  split
  · rename_i h
    rw [e1.mp h]; simp
  rename_i h1
  split
  · rename_i h
    rw [em1.mp h, if_neg (by norm_num), sub_zero]
  rw [e0] at h0
  rw [e1] at h1
  rw [cLi5S, portShape_cmp hS _ _ _ _ _ _ _ _ 4 (1 / 24) (fun w _ => cnear5l_eq hS _ _ _ _ _ _ w) (fun w => finL_eq hS cli5l18Bf w _) (fun w l => finL_eq hS cli5l18Bf w _) z h0 h1]


/-- **C37**, `cli5l36`: the value of the C++ function, minus `i log(z)^4/24 (p - pi)` for real `1 < z < e`, `p` the value of the literal for `pi`. -/
theorem C37_cli5l36 {u : ℝ} (hS : S.Lit u) (z : ℂ) : (C.cli5l36 (ofC S z)).toC = (cLi5l36 (ofC S z)).toC
      - if z.im = 0 ∧ 1 < z.re ∧ z.re < Real.exp 1 then ((1 / 24 * Real.log z.re ^ 4 * (((S.rho 3.14159265358979323846264338327950288 : ℚ) : ℝ) - Real.pi) : ℝ) : ℂ) * I else 0 := by
  rw [C.cli5l36, cLi5l36, show C.cli5l36Bf = cli5l36Bf from rfl, show C.cli5l36Cs = cli5l36Cs from rfl, ccli5l_eq, cLi5l_eq]
  obtain ⟨e0, e1, em1⟩ := not_zero_one hS (z := z)
  split
  · rename_i h
    rw [e0.mp h]; simp
  rename_i h0
  split
  · rename_i h
    rw [e1.mp h]; simp
  rename_i h1
  split
  · rename_i h
    rw [em1.mp h, if_neg (by norm_num), sub_zero]
  rw [e0] at h0
  rw [e1] at h1
  rw [cLi5S, portShape_cmp hS _ _ _ _ _ _ _ _ 4 (1 / 24) (fun w _ => cnear5l_eq hS _ _ _ _ _ _ w) (fun w => finL_eq hS cli5l36Bf w _) (fun w l => finL_eq hS cli5l36Bf w _) z h0 h1]


/-- **C37**, `cli6`: the value of the C++ function, minus `i log(z)^5/120 (p - pi)` for real `1 < z < e`, `p` the value of the literal for `pi`. -/
theorem C37_cli6 {u : ℝ} (hS : S.Lit u) (z : ℂ) : (C.cli6 (ofC S z)).toC = (cLi6d (ofC S z)).toC
      - if z.im = 0 ∧ 1 < z.re ∧ z.re < Real.exp 1 then ((1 / 120 * Real.log z.re ^ 5 * (((S.rho 3.1415926535897932 : ℚ) : ℝ) - Real.pi) : ℝ) : ℂ) * I else 0 := by
  rw [ccli6_eq, cLi6d_eq]
  obtain ⟨e0, e1, em1⟩ := not_zero_one hS (z := z)
  split
  · rename_i h
    rw [e0.mp h]; simp
  rename_i h0
  split
  · rename_i h
    rw [e1.mp h]; simp
  rename_i h1
  split
  · rename_i h
    rw [em1.mp h, if_neg (by norm_num), sub_zero]
  rw [e0] at h0
  rw [e1] at h1
  rw [cLi6S, portShape_cmp hS _ _ _ _ _ _ _ _ 5 (1 / 120) (fun w _ => cnear6d_eq hS _ _ _ _ _ _ _ w) (fun _ => rfl) (fun _ _ => rfl) z h0 h1]


/-- **C37**, `cli6l18`: the value of the C++ function, minus `i log(z)^5/120 (p - pi)` for real `1 < z < e`, `p` the value of the literal for `pi`. -/
theorem C37_cli6l18 {u : ℝ} (hS : S.Lit u) (z : ℂ) : (C.cli6l18 (ofC S z)).toC = (cLi6l18 (ofC S z)).toC
      - if z.im = 0 ∧ 1 < z.re ∧ z.re < Real.exp 1 then ((1 / 120 * Real.log z.re ^ 5 * (((S.rho 3.14159265358979323846264338327950288 : ℚ) : ℝ) - Real.pi) : ℝ) : ℂ) * I else 0 := by
  rw [C.cli6l18, cLi6l18, show C.cli6l18Bf = cli6l18Bf from rfl, show C.cli6l18Cs = cli6l18Cs from rfl, ccli6l_eq, cLi6l_eq]
  obtain ⟨e0, e1, em1⟩ := not_zero_one hS (z := z)
  split
  · rename_i h
    rw [e0.mp h]; simp
  rename_i h0
  split
  · rename_i h
    rw [e1.mp h]; simp
  rename_i h1
  split
  · rename_i h
    rw [em1.mp h, if_neg (by norm_num), sub_zero]
  rw [e0] at h0
  rw [e1] at h1
  rw [cLi6S, portShape_cmp hS _ _ _ _ _ _ _ _ 5 (1 / 120) (fun w _ => cnear6l_eq hS _ _ _ _ _ _ _ w) (fun w => finLs_eq hS cli6l18Bf w _ _) (fun w l => finLs_eq hS cli6l18Bf w _ _) z h0 h1]


/-- **C37**, `cli6l36`: the value of the C++ function, minus `i log(z)^5/120 (p - pi)` for real `1 < z < e`, `p` the value of the literal for `pi`. -/
theorem C37_cli6l36 {u : ℝ} (hS : S.Lit u) (z : ℂ) : (C.cli6l36 (ofC S z)).toC = (cLi6l36 (ofC S z)).toC
      - if z.im = 0 ∧ 1 < z.re ∧ z.re < Real.exp 1 then ((1 / 120 * Real.log z.re ^ 5 * (((S.rho 3.14159265358979323846264338327950288 : ℚ) : ℝ) - Real.pi) : ℝ) : ℂ) * I else 0 := by
  rw [C.cli6l36, cLi6l36, show C.cli6l36Bf = cli6l36Bf from rfl, show C.cli6l36Cs = cli6l36Cs from rfl, ccli6l_eq, cLi6l_eq]
  obtain ⟨e0, e1, em1⟩ := not_zero_one hS (z := z)
  split
  · rename_i h
    rw [e0.mp h]; simp
  rename_i h0
  split
  · rename_i h
    rw [e1.mp h]; simp
  rename_i h1
  split
  · rename_i h
    rw [em1.mp h, if_neg (by norm_num), sub_zero]
  rw [e0] at h0
  rw [e1] at h1
  rw [cLi6S, portShape_cmp hS _ _ _ _ _ _ _ _ 5 (1 / 120) (fun w _ => cnear6l_eq hS _ _ _ _ _ _ _ w) (fun w => finLs_eq hS cli6l36Bf w _ _) (fun w l => finLs_eq hS cli6l36Bf w _ _) z h0 h1]


end Polylog
