import Verif.Sem.CEHorner

/-!
# C44: the complex Li3, Li4, Li5, Li6 in IEEE arithmetic (long double)

`l18`: x87 extended precision (`LDBL_DIG == 18`), `l36`: binary128 (`LDBL_DIG == 33`).
-/

namespace Polylog
set_option linter.style.longLine false
set_option linter.unusedSimpArgs false
open Complex

local notation:max "♯" q:max => (CXE.lit (q : ℚ))
local notation:max "÷" q:max => (DLit.mk (q : ℚ))

def c7 : CXE true := .var 7
def ceN3H (z3 z2 : ℚ) (H : CXE true) : CXE true :=
  let u := cU
  let u2 := u *. u
  let c0 := ♯z3 +. u *. (♯z2 -. u2 /. ÷12)
  let c1 := ♯0.25 *. (♯3 -. ♯2 *. cL)
  c0 +. u2 *. (c1 +. u2 *. H)
def ceN4H (z4 c1 c2 : ℚ) (H : CXE true) : CXE true :=
  let u := cU
  let c3 := (♯11 /. ÷6 -. cL) /. ÷6
  let c4 : CXE false := ∸♯1 /. ÷48
  let u2 := u *. u
  ♯z4 +. u2 *. (♯c2 +. u2 *. c4) +. u *. (♯c1 +. u2 *. (c3 +. u2 *. H))
def ceN5H (z5 c1 c2 c3 : ℚ) (H : CXE true) : CXE true :=
  let u := cU
  let c4 := (♯25 /. ÷12 -. cL) /. ÷24
  let c5 : CXE false := ∸♯1 /. ÷240
  let u2 := u *. u
  ♯z5 +. u *. ♯c1 +. u2 *. (♯c2 +. u *. ♯c3 +. u2 *. (c4 +. u *. c5 +. u2 *. H))
def ceN6H (z6 c1 c2 c3 c4 : ℚ) (H : CXE true) : CXE true :=
  let u := cU
  let c5 := (♯137 /. ÷60 -. cL) /. ÷120
  let c6 : CXE false := ∸♯1 /. ÷1440
  let u2 := u *. u
  ♯z6 +. u *. ♯c1 +. u2 *. (♯c2 +. u *. ♯c3 +. u2 *. (♯c4 +. u *. c5 +. u2 *. (c6 +. u *. H)))
/-- `rest + u*horner(u)` -/
def ceFinH (rest H : CXE true) : CXE true := rest +. cU *. H
/-- `rest + sgn*u*horner(u)` -/
def ceFinHs (rest : CXE true) (sgn : CXE false) (H : CXE true) : CXE true := rest +. sgn *. cU *. H
def ceR3 (z2 : ℚ) : CXE true := ∸cL *. (cL *. cL /. ÷6 +. ♯z2)
def ceR4 (p : ℚ) : CXE true :=
  let PI := ♯p
  let PI2 := PI *. PI
  let PI4 := PI2 *. PI2
  let lmz2 := cL *. cL
  ♯1 /. ÷360 *. (∸♯7 *. PI4 +. lmz2 *. (∸♯30 *. PI2 -. ♯15 *. lmz2))
def ceR5 (p : ℚ) : CXE true :=
  let PI := ♯p
  let PI2 := PI *. PI
  let PI4 := PI2 *. PI2
  let lmz2 := cL *. cL
  ∸♯1 /. ÷360 *. cL *. (♯7 *. PI4 +. lmz2 *. (♯10 *. PI2 +. ♯3 *. lmz2))
def ceR6 (p : ℚ) : CXE true :=
  let PI := ♯p
  let PI2 := PI *. PI
  let PI4 := PI2 *. PI2
  let PI6 := PI2 *. PI4
  let lmz2 := cL *. cL
  ∸♯31 *. PI6 /. ÷15120 +. lmz2 *. (∸♯7 /. ÷720 *. PI4 +. lmz2 *. (∸♯1 /. ÷144 *. PI2 -. ♯1 /. ÷720 *. lmz2))

section
variable {F : Type} [FOps F]

theorem hornerU_ev {n : ℕ} (bf : Vector ℚ (n + 2)) (u l : Cx F) : hornerC 0 u bf = (ceHorner cU bf).ev (env2 u l) := ceHorner_ev (env2 u l) cU bf
theorem hornerU2_ev {n : ℕ} (cs : Vector ℚ (n + 2)) (u l : Cx F) : hornerC 0 (u *. u) cs = (ceHorner (cU *. cU) cs).ev (env2 u l) := ceHorner_ev (env2 u l) (cU *. cU) cs

/-! ## the model functions are these expressions -/

theorem cLi3S_evl (p z3 z2 : ℚ) {m n : ℕ} (cs : Vector ℚ (m + 2)) (bf : Vector ℚ (n + 2)) (z : Cx F) :
    cLi3S p z2 (near3l z3 z2 cs) (fun u rest => rest +. u *. (hornerC 0 u bf)) z =
      cLiCE p (ceN3H z3 z2 (ceHorner (cU *. cU) cs)) (ceFinH ce0 (ceHorner cU bf)) (ceFinH (ceR3 z2) (ceHorner cU bf)) z := by
  have e1 : (near3l z3 z2 cs : Cx F → Cx F) = fun u => (ceN3H z3 z2 (ceHorner (cU *. cU) cs)).ev (env2 u (posLog (∸u))) := by
    funext u; unfold near3l; simp only [hornerU2_ev cs u (posLog (∸u))]; rfl
  have e2 : (fun u => (⟨FOps.lit 0, FOps.lit 0⟩ : Cx F) +. u *. (hornerC 0 u bf)) = fun u : Cx F => (ceFinH ce0 (ceHorner cU bf)).ev (env2 u u) := by
    funext u; rw [hornerU_ev bf u u]; rfl
  have e3 : (fun u lmz : Cx F => ∸lmz *. (lmz *. lmz /. (FOps.lit 6 : F) +. (FOps.lit z2 : F)) +. u *. (hornerC 0 u bf)) = fun u lmz : Cx F => (ceFinH (ceR3 z2) (ceHorner cU bf)).ev (env2 u lmz) := by
    funext u lmz; rw [hornerU_ev bf u lmz]; rfl
  unfold cLi3S cLiCE
  rw [e1, ← e2, ← e3]

theorem cLi4S_evl (p z4 c1 c2 : ℚ) {m n : ℕ} (cs : Vector ℚ (m + 2)) (bf : Vector ℚ (n + 2)) (z : Cx F) :
    cLi4S p z4 c1 c2 cs (fun u rest sgn => rest +. sgn *. u *. (hornerC 0 u bf)) z =
      cLiCE p (ceN4H z4 c1 c2 (ceHorner (cU *. cU) cs)) (ceFinHs ce0 ♯1 (ceHorner cU bf)) (ceFinHs (ceR4 p) ∸♯1 (ceHorner cU bf)) z := by
  have e1 (u : Cx F) := hornerU2_ev cs u (posLog (∸u))
  have e2 (u l : Cx F) := hornerU_ev bf u l
  unfold cLi4S cLiCE
  simp only [e1]
  congr 1
  · funext u
    rw [e2 u u]; rfl
  · funext u l
    rw [e2 u l]; rfl

theorem cLi5S_evl (p z5 c1 c2 c3 : ℚ) {m n : ℕ} (cs : Vector ℚ (m + 2)) (bf : Vector ℚ (n + 2)) (z : Cx F) :
    cLi5S p z5 c1 c2 c3 cs (fun u rest => rest +. u *. (hornerC 0 u bf)) z =
      cLiCE p (ceN5H z5 c1 c2 c3 (ceHorner (cU *. cU) cs)) (ceFinH ce0 (ceHorner cU bf)) (ceFinH (ceR5 p) (ceHorner cU bf)) z := by
  have e1 (u : Cx F) := hornerU2_ev cs u (posLog (∸u))
  have e2 (u l : Cx F) := hornerU_ev bf u l
  unfold cLi5S cLiCE
  simp only [e1]
  congr 1
  · funext u
    rw [e2 u u]; rfl
  · funext u l
    rw [e2 u l]; rfl

theorem cLi6S_evl (p z6 c1 c2 c3 c4 : ℚ) {m n : ℕ} (cs : Vector ℚ (m + 2)) (bf : Vector ℚ (n + 2)) (z : Cx F) :
    cLi6S p z6 c1 c2 c3 c4 cs (fun u rest sgn => rest +. sgn *. u *. (hornerC 0 u bf)) z =
      cLiCE p (ceN6H z6 c1 c2 c3 c4 (ceHorner (cU *. cU) cs)) (ceFinHs ce0 ♯1 (ceHorner cU bf)) (ceFinHs (ceR6 p) ∸♯1 (ceHorner cU bf)) z := by
  have e1 (u : Cx F) := hornerU2_ev cs u (posLog (∸u))
  have e2 (u l : Cx F) := hornerU_ev bf u l
  unfold cLi6S cLiCE
  simp only [e1]
  congr 1
  · funext u
    rw [e2 u u]; rfl
  · funext u l
    rw [e2 u l]; rfl

end

theorem box7 {l : ℕ} {env : ℕ → Bx} {z : CXE true} {n : ℕ} {c : Vector ℚ (n + 2)} {e : CXE true} {d : ℤ} {k : ℕ} (h : okBox (chk7 l env z c e) d k = true) :
    ∃ b, (CXE.subst (ceHorner z c) e).chk l env = some b ∧ b.d ≤ d ∧ um b.e ≤ (k : ℝ) := by
  obtain ⟨b, h1, h2⟩ := okBox_spec h
  exact ⟨b, chk7_spec h1, h2⟩

theorem box7' {l : ℕ} {env : ℕ → Bx} {z : CXE true} {n : ℕ} {c : Vector ℚ (n + 2)} {e : CXE true} {d : ℤ} {k : ℕ} (h : okBox (chk7 l env z c e) d k = true) :
    ∃ b, (CXE.subst (ceHorner z c) e).chk l env = some b ∧ um b.e ≤ (k : ℝ) :=
  let ⟨b, h1, _, h2⟩ := box7 h; ⟨b, h1, h2⟩

section long
variable {L : Lib}
theorem u80 : uR x87ext = 2 ^ (-64 : ℤ) := rfl
theorem u128 : uR binary128 = 2 ^ (-113 : ℤ) := rfl

theorem cert3l18 : LiCert x87ext 0 3.14159265358979323846264338327950288 (ceN3H 1.20205690315959428539973816151144999 1.64493406684822643647241516664602519 (ceHorner (cU *. cU) cli3l18Cs)) (ceFinH ce0 (ceHorner cU cli3l18Bf)) (ceFinH (ceR3 1.64493406684822643647241516664602519) (ceHorner cU cli3l18Bf))
    1520 (4.8e-18 + 3 * uR x87ext) (2.7e-35 + 20.2 * uR x87ext) where
  near := box7 (e := ceN3H 1.20205690315959428539973816151144999 1.64493406684822643647241516664602519 c7) (d := 0) (k := 1520) (by decide +kernel)
  fin1 := box7' (e := ceFinH ce0 c7) (d := 20) (k := 1520) (by decide +kernel)
  finI := box7 (e := ceFinH (ceR3 1.64493406684822643647241516664602519) c7) (d := 3) (k := 1520) (by decide +kernel)
  ord := by norm_num
  pi_lit := by decide +kernel
  pi_err := pi_err_of fmtB80 (e := 4.2e-36) (by norm_num) (by norm_num) (by decide +kernel) (by rw [u80]; norm_num)
  E0_nonneg := by have := uR_pos (φ := x87ext); linarith
  E1_nonneg := by have := uR_pos (φ := x87ext); linarith
  method z hz := by
    have h := C18_Li3l18 (semF_lit fmtB80) (by rw [u80]; norm_num) z
    simp only [cLi3l18, cLi3l_eq, im_ne_R (semF_zero fmtB80) hz, Bool.false_and, Bool.false_eq_true, if_false, cLi3S_evl] at h
    exact h

/-- `std::complex<long double> Li3(z)`, evaluated in x87 extended precision with a C library within the accuracy `CxLib`: for every `z = x + iy` off the real
axis (parts up to `2^±300`) both parts of the result are finite and the result is within `1.2e-16 · max(1, |log(-z)|^3)` of `Li3(z)`. -/
theorem C44_Li3l18_IEEE (hL : CxLib x87ext L) {z : Cx (FP x87ext L)} {x y : ℚ} (vx : Val x87ext (ofF z.re) x) (vy : Val x87ext (ofF z.im) y)
    (hx : |x| ≤ 2 ^ (300:ℤ)) (hy : |y| ≤ 2 ^ (300:ℤ)) (hy0 : 2 ^ (-300:ℤ) ≤ |y|) :
    ∃ a b : ℚ, Val x87ext (ofF (cLi3l18 z).re) a ∧ Val x87ext (ofF (cLi3l18 z).im) b ∧
      ‖(⟨a, b⟩ : ℂ) - pLi 3 ⟨x, y⟩‖ ≤ 1.2e-16 * max 1 ‖Complex.log (-⟨x, y⟩)‖ ^ 3 := by
  have hd := inDom_of hx hy hy0
  have h := cLiCE_fp fmtB80 (by decide) hL cert3l18 vx vy hd
  have he : cLi3l18 z = _ := cLi3l_eq cli3l18Bf cli3l18Cs z
  simp only [im_ne_F fmtB80 vy hd.y_ne, Bool.false_and, Bool.false_eq_true, if_false, cLi3S_evl] at he
  rw [he]
  refine h.mono (mul_le_mul_of_nonneg_right ?_ (by positivity))
  rw [u80]; norm_num

theorem cert3l36 : LiCert binary128 0 3.14159265358979323846264338327950288 (ceN3H 1.20205690315959428539973816151144999 1.64493406684822643647241516664602519 (ceHorner (cU *. cU) cli3l36Cs)) (ceFinH ce0 (ceHorner cU cli3l36Bf)) (ceFinH (ceR3 1.64493406684822643647241516664602519) (ceHorner cU cli3l36Bf))
    1520 (9.1e-36 + 3 * uR binary128) (2.7e-35 + 20.2 * uR binary128) where
  near := box7 (e := ceN3H 1.20205690315959428539973816151144999 1.64493406684822643647241516664602519 c7) (d := 0) (k := 1520) (by decide +kernel)
  fin1 := box7' (e := ceFinH ce0 c7) (d := 20) (k := 1520) (by decide +kernel)
  finI := box7 (e := ceFinH (ceR3 1.64493406684822643647241516664602519) c7) (d := 3) (k := 1520) (by decide +kernel)
  ord := by norm_num
  pi_lit := by decide +kernel
  pi_err := pi_err_of fmtB128 (e := 4.2e-36) (by norm_num) (by norm_num) (by decide +kernel) (by rw [u128]; norm_num)
  E0_nonneg := by have := uR_pos (φ := binary128); linarith
  E1_nonneg := by have := uR_pos (φ := binary128); linarith
  method z hz := by
    have h := C18_Li3l36 (semF_lit fmtB128) (by rw [u128]; norm_num) z
    simp only [cLi3l36, cLi3l_eq, im_ne_R (semF_zero fmtB128) hz, Bool.false_and, Bool.false_eq_true, if_false, cLi3S_evl] at h
    exact h

/-- `std::complex<long double> Li3(z)`, evaluated in binary128 with a C library within the accuracy `CxLib`: for every `z = x + iy` off the real
axis (parts up to `2^±300`) both parts of the result are finite and the result is within `2e-31 · max(1, |log(-z)|^3)` of `Li3(z)`. -/
theorem C44_Li3l36_IEEE (hL : CxLib binary128 L) {z : Cx (FP binary128 L)} {x y : ℚ} (vx : Val binary128 (ofF z.re) x) (vy : Val binary128 (ofF z.im) y)
    (hx : |x| ≤ 2 ^ (300:ℤ)) (hy : |y| ≤ 2 ^ (300:ℤ)) (hy0 : 2 ^ (-300:ℤ) ≤ |y|) :
    ∃ a b : ℚ, Val binary128 (ofF (cLi3l36 z).re) a ∧ Val binary128 (ofF (cLi3l36 z).im) b ∧
      ‖(⟨a, b⟩ : ℂ) - pLi 3 ⟨x, y⟩‖ ≤ 2e-31 * max 1 ‖Complex.log (-⟨x, y⟩)‖ ^ 3 := by
  have hd := inDom_of hx hy hy0
  have h := cLiCE_fp fmtB128 (by decide) hL cert3l36 vx vy hd
  have he : cLi3l36 z = _ := cLi3l_eq cli3l36Bf cli3l36Cs z
  simp only [im_ne_F fmtB128 vy hd.y_ne, Bool.false_and, Bool.false_eq_true, if_false, cLi3S_evl] at he
  rw [he]
  refine h.mono (mul_le_mul_of_nonneg_right ?_ (by positivity))
  rw [u128]; norm_num

theorem cert4l18 : LiCert x87ext 1 3.14159265358979323846264338327950288 (ceN4H 1.08232323371113819151600369654116790 1.20205690315959428539973816151144999 0.822467033424113218236207583323012595 (ceHorner (cU *. cU) cli4l18Cs)) (ceFinHs ce0 ♯1 (ceHorner cU cli4l18Bf)) (ceFinHs (ceR4 3.14159265358979323846264338327950288) ∸♯1 (ceHorner cU cli4l18Bf))
    2180 (2.4e-18 + 4 * uR x87ext) (2.7e-35 + 20.2 * uR x87ext) where
  near := box7 (e := ceN4H 1.08232323371113819151600369654116790 1.20205690315959428539973816151144999 0.822467033424113218236207583323012595 c7) (d := 0) (k := 2180) (by decide +kernel)
  fin1 := box7' (e := ceFinHs ce0 ♯1 c7) (d := 20) (k := 2180) (by decide +kernel)
  finI := box7 (e := ceFinHs (ceR4 3.14159265358979323846264338327950288) ∸♯1 c7) (d := 4) (k := 2180) (by decide +kernel)
  ord := by norm_num
  pi_lit := by decide +kernel
  pi_err := pi_err_of fmtB80 (e := 4.2e-36) (by norm_num) (by norm_num) (by decide +kernel) (by rw [u80]; norm_num)
  E0_nonneg := by have := uR_pos (φ := x87ext); linarith
  E1_nonneg := by have := uR_pos (φ := x87ext); linarith
  method z hz := by
    have h := C18_Li4l18 (semF_lit fmtB80) (by rw [u80]; norm_num) z
    simp only [cLi4l18, cLi4l_eq, im_ne_R (semF_zero fmtB80) hz, Bool.false_and, Bool.false_eq_true, if_false, cLi4S_evl] at h
    exact h

/-- `std::complex<long double> Li4(z)`, evaluated in x87 extended precision with a C library within the accuracy `CxLib`: for every `z = x + iy` off the real
axis (parts up to `2^±300`) both parts of the result are finite and the result is within `1.5e-16 · max(1, |log(-z)|^4)` of `Li4(z)`. -/
theorem C44_Li4l18_IEEE (hL : CxLib x87ext L) {z : Cx (FP x87ext L)} {x y : ℚ} (vx : Val x87ext (ofF z.re) x) (vy : Val x87ext (ofF z.im) y)
    (hx : |x| ≤ 2 ^ (300:ℤ)) (hy : |y| ≤ 2 ^ (300:ℤ)) (hy0 : 2 ^ (-300:ℤ) ≤ |y|) :
    ∃ a b : ℚ, Val x87ext (ofF (cLi4l18 z).re) a ∧ Val x87ext (ofF (cLi4l18 z).im) b ∧
      ‖(⟨a, b⟩ : ℂ) - pLi 4 ⟨x, y⟩‖ ≤ 1.5e-16 * max 1 ‖Complex.log (-⟨x, y⟩)‖ ^ 4 := by
  have hd := inDom_of hx hy hy0
  have h := cLiCE_fp fmtB80 (by decide) hL cert4l18 vx vy hd
  have he : cLi4l18 z = _ := cLi4l_eq cli4l18Bf cli4l18Cs z
  simp only [im_ne_F fmtB80 vy hd.y_ne, Bool.false_and, Bool.false_eq_true, if_false, cLi4S_evl] at he
  rw [he]
  refine h.mono (mul_le_mul_of_nonneg_right ?_ (by positivity))
  rw [u80]; norm_num

theorem cert4l36 : LiCert binary128 1 3.14159265358979323846264338327950288 (ceN4H 1.08232323371113819151600369654116790 1.20205690315959428539973816151144999 0.822467033424113218236207583323012595 (ceHorner (cU *. cU) cli4l36Cs)) (ceFinHs ce0 ♯1 (ceHorner cU cli4l36Bf)) (ceFinHs (ceR4 3.14159265358979323846264338327950288) ∸♯1 (ceHorner cU cli4l36Bf))
    2180 (2e-35 + 4 * uR binary128) (2.7e-35 + 20.2 * uR binary128) where
  near := box7 (e := ceN4H 1.08232323371113819151600369654116790 1.20205690315959428539973816151144999 0.822467033424113218236207583323012595 c7) (d := 0) (k := 2180) (by decide +kernel)
  fin1 := box7' (e := ceFinHs ce0 ♯1 c7) (d := 20) (k := 2180) (by decide +kernel)
  finI := box7 (e := ceFinHs (ceR4 3.14159265358979323846264338327950288) ∸♯1 c7) (d := 4) (k := 2180) (by decide +kernel)
  ord := by norm_num
  pi_lit := by decide +kernel
  pi_err := pi_err_of fmtB128 (e := 4.2e-36) (by norm_num) (by norm_num) (by decide +kernel) (by rw [u128]; norm_num)
  E0_nonneg := by have := uR_pos (φ := binary128); linarith
  E1_nonneg := by have := uR_pos (φ := binary128); linarith
  method z hz := by
    have h := C18_Li4l36 (semF_lit fmtB128) (by rw [u128]; norm_num) z
    simp only [cLi4l36, cLi4l_eq, im_ne_R (semF_zero fmtB128) hz, Bool.false_and, Bool.false_eq_true, if_false, cLi4S_evl] at h
    exact h

/-- `std::complex<long double> Li4(z)`, evaluated in binary128 with a C library within the accuracy `CxLib`: for every `z = x + iy` off the real
axis (parts up to `2^±300`) both parts of the result are finite and the result is within `2.6e-31 · max(1, |log(-z)|^4)` of `Li4(z)`. -/
theorem C44_Li4l36_IEEE (hL : CxLib binary128 L) {z : Cx (FP binary128 L)} {x y : ℚ} (vx : Val binary128 (ofF z.re) x) (vy : Val binary128 (ofF z.im) y)
    (hx : |x| ≤ 2 ^ (300:ℤ)) (hy : |y| ≤ 2 ^ (300:ℤ)) (hy0 : 2 ^ (-300:ℤ) ≤ |y|) :
    ∃ a b : ℚ, Val binary128 (ofF (cLi4l36 z).re) a ∧ Val binary128 (ofF (cLi4l36 z).im) b ∧
      ‖(⟨a, b⟩ : ℂ) - pLi 4 ⟨x, y⟩‖ ≤ 2.6e-31 * max 1 ‖Complex.log (-⟨x, y⟩)‖ ^ 4 := by
  have hd := inDom_of hx hy hy0
  have h := cLiCE_fp fmtB128 (by decide) hL cert4l36 vx vy hd
  have he : cLi4l36 z = _ := cLi4l_eq cli4l36Bf cli4l36Cs z
  simp only [im_ne_F fmtB128 vy hd.y_ne, Bool.false_and, Bool.false_eq_true, if_false, cLi4S_evl] at he
  rw [he]
  refine h.mono (mul_le_mul_of_nonneg_right ?_ (by positivity))
  rw [u128]; norm_num

theorem cert5l18 : LiCert x87ext 2 3.14159265358979323846264338327950288 (ceN5H 1.03692775514336992633136548645703417 1.08232323371113819151600369654116790 0.601028451579797142699869080755724995 0.274155677808037739412069194441004198 (ceHorner (cU *. cU) cli5l18Cs)) (ceFinH ce0 (ceHorner cU cli5l18Bf)) (ceFinH (ceR5 3.14159265358979323846264338327950288) (ceHorner cU cli5l18Bf))
    2860 (9.6e-18 + 3 * uR x87ext) (2.7e-35 + 20.2 * uR x87ext) where
  near := box7 (e := ceN5H 1.03692775514336992633136548645703417 1.08232323371113819151600369654116790 0.601028451579797142699869080755724995 0.274155677808037739412069194441004198 c7) (d := 0) (k := 2860) (by decide +kernel)
  fin1 := box7' (e := ceFinH ce0 c7) (d := 20) (k := 2860) (by decide +kernel)
  finI := box7 (e := ceFinH (ceR5 3.14159265358979323846264338327950288) c7) (d := 5) (k := 2860) (by decide +kernel)
  ord := by norm_num
  pi_lit := by decide +kernel
  pi_err := pi_err_of fmtB80 (e := 4.2e-36) (by norm_num) (by norm_num) (by decide +kernel) (by rw [u80]; norm_num)
  E0_nonneg := by have := uR_pos (φ := x87ext); linarith
  E1_nonneg := by have := uR_pos (φ := x87ext); linarith
  method z hz := by
    have h := C18_Li5l18 (semF_lit fmtB80) (by rw [u80]; norm_num) z
    simp only [cLi5l18, cLi5l_eq, im_ne_R (semF_zero fmtB80) hz, Bool.false_and, Bool.false_eq_true, if_false, cLi5S_evl] at h
    exact h

/-- `std::complex<long double> Li5(z)`, evaluated in x87 extended precision with a C library within the accuracy `CxLib`: for every `z = x + iy` off the real
axis (parts up to `2^±300`) both parts of the result are finite and the result is within `2e-16 · max(1, |log(-z)|^5)` of `Li5(z)`. -/
theorem C44_Li5l18_IEEE (hL : CxLib x87ext L) {z : Cx (FP x87ext L)} {x y : ℚ} (vx : Val x87ext (ofF z.re) x) (vy : Val x87ext (ofF z.im) y)
    (hx : |x| ≤ 2 ^ (300:ℤ)) (hy : |y| ≤ 2 ^ (300:ℤ)) (hy0 : 2 ^ (-300:ℤ) ≤ |y|) :
    ∃ a b : ℚ, Val x87ext (ofF (cLi5l18 z).re) a ∧ Val x87ext (ofF (cLi5l18 z).im) b ∧
      ‖(⟨a, b⟩ : ℂ) - pLi 5 ⟨x, y⟩‖ ≤ 2e-16 * max 1 ‖Complex.log (-⟨x, y⟩)‖ ^ 5 := by
  have hd := inDom_of hx hy hy0
  have h := cLiCE_fp fmtB80 (by decide) hL cert5l18 vx vy hd
  have he : cLi5l18 z = _ := cLi5l_eq cli5l18Bf cli5l18Cs z
  simp only [im_ne_F fmtB80 vy hd.y_ne, Bool.false_and, Bool.false_eq_true, if_false, cLi5S_evl] at he
  rw [he]
  refine h.mono (mul_le_mul_of_nonneg_right ?_ (by positivity))
  rw [u80]; norm_num

theorem cert5l36 : LiCert binary128 2 3.14159265358979323846264338327950288 (ceN5H 1.03692775514336992633136548645703417 1.08232323371113819151600369654116790 0.601028451579797142699869080755724995 0.274155677808037739412069194441004198 (ceHorner (cU *. cU) cli5l36Cs)) (ceFinH ce0 (ceHorner cU cli5l36Bf)) (ceFinH (ceR5 3.14159265358979323846264338327950288) (ceHorner cU cli5l36Bf))
    2860 (1.6e-35 + 3 * uR binary128) (2.7e-35 + 20.2 * uR binary128) where
  near := box7 (e := ceN5H 1.03692775514336992633136548645703417 1.08232323371113819151600369654116790 0.601028451579797142699869080755724995 0.274155677808037739412069194441004198 c7) (d := 0) (k := 2860) (by decide +kernel)
  fin1 := box7' (e := ceFinH ce0 c7) (d := 20) (k := 2860) (by decide +kernel)
  finI := box7 (e := ceFinH (ceR5 3.14159265358979323846264338327950288) c7) (d := 5) (k := 2860) (by decide +kernel)
  ord := by norm_num
  pi_lit := by decide +kernel
  pi_err := pi_err_of fmtB128 (e := 4.2e-36) (by norm_num) (by norm_num) (by decide +kernel) (by rw [u128]; norm_num)
  E0_nonneg := by have := uR_pos (φ := binary128); linarith
  E1_nonneg := by have := uR_pos (φ := binary128); linarith
  method z hz := by
    have h := C18_Li5l36 (semF_lit fmtB128) (by rw [u128]; norm_num) z
    simp only [cLi5l36, cLi5l_eq, im_ne_R (semF_zero fmtB128) hz, Bool.false_and, Bool.false_eq_true, if_false, cLi5S_evl] at h
    exact h

/-- `std::complex<long double> Li5(z)`, evaluated in binary128 with a C library within the accuracy `CxLib`: for every `z = x + iy` off the real
axis (parts up to `2^±300`) both parts of the result are finite and the result is within `3.3e-31 · max(1, |log(-z)|^5)` of `Li5(z)`. -/
theorem C44_Li5l36_IEEE (hL : CxLib binary128 L) {z : Cx (FP binary128 L)} {x y : ℚ} (vx : Val binary128 (ofF z.re) x) (vy : Val binary128 (ofF z.im) y)
    (hx : |x| ≤ 2 ^ (300:ℤ)) (hy : |y| ≤ 2 ^ (300:ℤ)) (hy0 : 2 ^ (-300:ℤ) ≤ |y|) :
    ∃ a b : ℚ, Val binary128 (ofF (cLi5l36 z).re) a ∧ Val binary128 (ofF (cLi5l36 z).im) b ∧
      ‖(⟨a, b⟩ : ℂ) - pLi 5 ⟨x, y⟩‖ ≤ 3.3e-31 * max 1 ‖Complex.log (-⟨x, y⟩)‖ ^ 5 := by
  have hd := inDom_of hx hy hy0
  have h := cLiCE_fp fmtB128 (by decide) hL cert5l36 vx vy hd
  have he : cLi5l36 z = _ := cLi5l_eq cli5l36Bf cli5l36Cs z
  simp only [im_ne_F fmtB128 vy hd.y_ne, Bool.false_and, Bool.false_eq_true, if_false, cLi5S_evl] at he
  rw [he]
  refine h.mono (mul_le_mul_of_nonneg_right ?_ (by positivity))
  rw [u128]; norm_num

theorem cert6l18 : LiCert x87ext 3 3.14159265358979323846264338327950288 (ceN6H 1.01734306198444913971451792979092053 1.03692775514336992633136548645703417 0.541161616855569095758001848270583951 0.200342817193265714233289693585241665 0.0685389194520094348530172986102510496 (ceHorner (cU *. cU) cli6l18Cs)) (ceFinHs ce0 ♯1 (ceHorner cU cli6l18Bf)) (ceFinHs (ceR6 3.14159265358979323846264338327950288) ∸♯1 (ceHorner cU cli6l18Bf))
    3320 (2e-18 + 3 * uR x87ext) (2.7e-35 + 20.2 * uR x87ext) where
  near := box7 (e := ceN6H 1.01734306198444913971451792979092053 1.03692775514336992633136548645703417 0.541161616855569095758001848270583951 0.200342817193265714233289693585241665 0.0685389194520094348530172986102510496 c7) (d := 0) (k := 3320) (by decide +kernel)
  fin1 := box7' (e := ceFinHs ce0 ♯1 c7) (d := 20) (k := 3320) (by decide +kernel)
  finI := box7 (e := ceFinHs (ceR6 3.14159265358979323846264338327950288) ∸♯1 c7) (d := 6) (k := 3320) (by decide +kernel)
  ord := by norm_num
  pi_lit := by decide +kernel
  pi_err := pi_err_of fmtB80 (e := 4.2e-36) (by norm_num) (by norm_num) (by decide +kernel) (by rw [u80]; norm_num)
  E0_nonneg := by have := uR_pos (φ := x87ext); linarith
  E1_nonneg := by have := uR_pos (φ := x87ext); linarith
  method z hz := by
    have h := C18_Li6l18 (semF_lit fmtB80) (by rw [u80]; norm_num) z
    simp only [cLi6l18, cLi6l_eq, im_ne_R (semF_zero fmtB80) hz, Bool.false_and, Bool.false_eq_true, if_false, cLi6S_evl] at h
    exact h

/-- `std::complex<long double> Li6(z)`, evaluated in x87 extended precision with a C library within the accuracy `CxLib`: for every `z = x + iy` off the real
axis (parts up to `2^±300`) both parts of the result are finite and the result is within `2.1e-16 · max(1, |log(-z)|^6)` of `Li6(z)`. -/
theorem C44_Li6l18_IEEE (hL : CxLib x87ext L) {z : Cx (FP x87ext L)} {x y : ℚ} (vx : Val x87ext (ofF z.re) x) (vy : Val x87ext (ofF z.im) y)
    (hx : |x| ≤ 2 ^ (300:ℤ)) (hy : |y| ≤ 2 ^ (300:ℤ)) (hy0 : 2 ^ (-300:ℤ) ≤ |y|) :
    ∃ a b : ℚ, Val x87ext (ofF (cLi6l18 z).re) a ∧ Val x87ext (ofF (cLi6l18 z).im) b ∧
      ‖(⟨a, b⟩ : ℂ) - pLi 6 ⟨x, y⟩‖ ≤ 2.1e-16 * max 1 ‖Complex.log (-⟨x, y⟩)‖ ^ 6 := by
  have hd := inDom_of hx hy hy0
  have h := cLiCE_fp fmtB80 (by decide) hL cert6l18 vx vy hd
  have he : cLi6l18 z = _ := cLi6l_eq cli6l18Bf cli6l18Cs z
  simp only [im_ne_F fmtB80 vy hd.y_ne, Bool.false_and, Bool.false_eq_true, if_false, cLi6S_evl] at he
  rw [he]
  refine h.mono (mul_le_mul_of_nonneg_right ?_ (by positivity))
  rw [u80]; norm_num

theorem cert6l36 : LiCert binary128 3 3.14159265358979323846264338327950288 (ceN6H 1.01734306198444913971451792979092053 1.03692775514336992633136548645703417 0.541161616855569095758001848270583951 0.200342817193265714233289693585241665 0.0685389194520094348530172986102510496 (ceHorner (cU *. cU) cli6l36Cs)) (ceFinHs ce0 ♯1 (ceHorner cU cli6l36Bf)) (ceFinHs (ceR6 3.14159265358979323846264338327950288) ∸♯1 (ceHorner cU cli6l36Bf))
    3320 (4.8e-36 + 3 * uR binary128) (2.7e-35 + 20.2 * uR binary128) where
  near := box7 (e := ceN6H 1.01734306198444913971451792979092053 1.03692775514336992633136548645703417 0.541161616855569095758001848270583951 0.200342817193265714233289693585241665 0.0685389194520094348530172986102510496 c7) (d := 0) (k := 3320) (by decide +kernel)
  fin1 := box7' (e := ceFinHs ce0 ♯1 c7) (d := 20) (k := 3320) (by decide +kernel)
  finI := box7 (e := ceFinHs (ceR6 3.14159265358979323846264338327950288) ∸♯1 c7) (d := 6) (k := 3320) (by decide +kernel)
  ord := by norm_num
  pi_lit := by decide +kernel
  pi_err := pi_err_of fmtB128 (e := 4.2e-36) (by norm_num) (by norm_num) (by decide +kernel) (by rw [u128]; norm_num)
  E0_nonneg := by have := uR_pos (φ := binary128); linarith
  E1_nonneg := by have := uR_pos (φ := binary128); linarith
  method z hz := by
    have h := C18_Li6l36 (semF_lit fmtB128) (by rw [u128]; norm_num) z
    simp only [cLi6l36, cLi6l_eq, im_ne_R (semF_zero fmtB128) hz, Bool.false_and, Bool.false_eq_true, if_false, cLi6S_evl] at h
    exact h

/-- `std::complex<long double> Li6(z)`, evaluated in binary128 with a C library within the accuracy `CxLib`: for every `z = x + iy` off the real
axis (parts up to `2^±300`) both parts of the result are finite and the result is within `3.8e-31 · max(1, |log(-z)|^6)` of `Li6(z)`. -/
theorem C44_Li6l36_IEEE (hL : CxLib binary128 L) {z : Cx (FP binary128 L)} {x y : ℚ} (vx : Val binary128 (ofF z.re) x) (vy : Val binary128 (ofF z.im) y)
    (hx : |x| ≤ 2 ^ (300:ℤ)) (hy : |y| ≤ 2 ^ (300:ℤ)) (hy0 : 2 ^ (-300:ℤ) ≤ |y|) :
    ∃ a b : ℚ, Val binary128 (ofF (cLi6l36 z).re) a ∧ Val binary128 (ofF (cLi6l36 z).im) b ∧
      ‖(⟨a, b⟩ : ℂ) - pLi 6 ⟨x, y⟩‖ ≤ 3.8e-31 * max 1 ‖Complex.log (-⟨x, y⟩)‖ ^ 6 := by
  have hd := inDom_of hx hy hy0
  have h := cLiCE_fp fmtB128 (by decide) hL cert6l36 vx vy hd
  have he : cLi6l36 z = _ := cLi6l_eq cli6l36Bf cli6l36Cs z
  simp only [im_ne_F fmtB128 vy hd.y_ne, Bool.false_and, Bool.false_eq_true, if_false, cLi6S_evl] at he
  rw [he]
  refine h.mono (mul_le_mul_of_nonneg_right ?_ (by positivity))
  rw [u128]; norm_num

end long

end Polylog
