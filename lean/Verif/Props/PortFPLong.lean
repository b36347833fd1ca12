import Verif.Props.PortFPInst
import Verif.Props.LiFPLong

/-!
# C46: the complex Li3, ..., Li6 of the C port in IEEE long double arithmetic

`l18`: x87 extended precision (`LDBL_DIG == 18`), `l36`: binary128 (`LDBL_DIG == 33`).
-/

namespace Polylog
set_option linter.style.longLine false
set_option linter.unusedSimpArgs false
open Complex

local notation:max "♯" q:max => (CXE.lit (q : ℚ))
local notation:max "÷" q:max => (DLit.mk (q : ℚ))

variable {L : Lib}

/-! ## the branches as expressions -/

/-- the loop `sum = u*(c[i] + sum)` -/
def ceSumLoop {N : Nat} (start : Nat) (u : CXE true) (c : Vector ℚ N) : (len : Nat) → len ≤ N → CXE true → CXE true
  | 0, _, sum => sum
  | len + 1, h, sum => if start ≤ len then ceSumLoop start u c len (by omega) (u *. (♯(c[len]) +. sum)) else sum

def ceSum {N : Nat} (start : Nat) (u : CXE true) (c : Vector ℚ N) : CXE true := ceSumLoop start u c N (le_refl N) ce0

theorem ceSumLoop_ev {F : Type} [FOps F] {N : Nat} (env : ℕ → Cx F) (start : Nat) (u : CXE true) (c : Vector ℚ N) (len : ℕ) (h : len ≤ N) (s : CXE true) :
    C.sumLoop start (u.ev env : Cx F) c len h (s.ev env) = (ceSumLoop start u c len h s).ev env := by
  induction len generalizing s with
  | zero => rfl
  | succ k ih =>
    unfold C.sumLoop ceSumLoop
    split
    · exact ih (by omega) (u *. (♯(c[k]) +. s))
    · rfl

theorem ceSum_ev {F : Type} [FOps F] {N : Nat} (env : ℕ → Cx F) (start : Nat) (u : CXE true) (c : Vector ℚ N) :
    C.csum start (u.ev env : Cx F) c = (ceSum start u c).ev env := ceSumLoop_ev env start u c N (le_refl N) ce0

theorem csumU_ev {F : Type} [FOps F] {N : Nat} (c : Vector ℚ N) (u l : Cx F) : C.csum 0 u c = (ceSum 0 cU c).ev (env2 u l) := ceSum_ev (env2 u l) 0 cU c
theorem csumU2_ev {F : Type} [FOps F] {N : Nat} (start : ℕ) (c : Vector ℚ N) (u l : Cx F) : C.csum start (u *. u) c = (ceSum start (cU *. cU) c).ev (env2 u l) := ceSum_ev (env2 u l) start (cU *. cU) c

def ceN3L (z3 z2 : ℚ) (H : CXE true) : CXE true :=
  let u := cU
  let u2 := u *. u
  let c0 := ♯z3 +. u *. (♯z2 -. u2 /. ÷12)
  let c1 := ♯0.25 *. (♯3 -. ♯2 *. cL)
  c0 +. u2 *. (c1 +. H)
def ceN4L (z4 c1 c2 : ℚ) (H : CXE true) : CXE true :=
  let u := cU
  let c3 := (♯11 /. ÷6 -. cL) /. ÷6
  let c4 : CXE false := ∸♯1 /. ÷48
  let u2 := u *. u
  ♯z4 +. u2 *. (♯c2 +. u2 *. c4) +. u *. (♯c1 +. u2 *. (c3 +. H))
def ceN5L (z5 c1 c2 c3 : ℚ) (H : CXE true) : CXE true :=
  let u := cU
  let c4 := (♯25 /. ÷12 -. cL) /. ÷24
  let c5 : CXE false := ∸♯1 /. ÷240
  let u2 := u *. u
  ♯z5 +. u *. ♯c1 +. u2 *. (♯c2 +. u *. ♯c3 +. u2 *. (c4 +. u *. c5 +. H))
def ceN6L (z6 c1 c2 c3 c4 : ℚ) (k : ℚ) (H : CXE true) : CXE true :=
  let u := cU
  let c5 := (♯137 /. ÷60 -. cL) /. ÷120
  let c6 : CXE false := ∸♯1 /. ÷1440
  let u2 := u *. u
  ♯z6 +. u *. ♯c1 +. u2 *. (♯c2 +. u *. ♯c3 +. u2 *. (♯c4 +. u *. c5 +. u2 *. (c6 +. u *. (♯k +. H))))

/-! ## certificates -/

theorem cli3l_ev {F : Type} [FOps F] {n m : ℕ} (bf : Vector ℚ n) (cs : Vector ℚ m) (z : Cx F) (h : (z.im ==. (FOps.lit 0 : F)) = false) : C.cli3l bf cs z =
    portShape (posLogP 3.14159265358979323846264338327950288) (FOps.lit 3.14159265358979323846264338327950288 : F) (fun u => (ceN3L 1.20205690315959428539973816151144999 1.64493406684822643647241516664602519 (ceSum 0 (cU *. cU) cs)).ev (env2 u (posLogP 3.14159265358979323846264338327950288 (∸u)))) (fun u => (ce0 +. ceSum 0 cU bf).ev (env2 u u))
      (fun u l => ((ceR3 1.64493406684822643647241516664602519) +. ceSum 0 cU bf).ev (env2 u l)) z := by
  rw [ccli3l_eq]
  simp only [h, Bool.false_and, Bool.false_eq_true, if_false]
  congr 1
  · funext u
    unfold cnear3l
    dsimp only
    rw [csumU2_ev 0 cs u (posLogP 3.14159265358979323846264338327950288 (∸u))]
    rfl
  · funext u
    rw [csumU_ev bf u u]
    rfl
  · funext u l
    rw [csumU_ev bf u l]
    rfl

theorem cert_cli3l18 : LiCert x87ext 0 3.14159265358979323846264338327950288 (ceN3L 1.20205690315959428539973816151144999 1.64493406684822643647241516664602519 (ceSum 0 (cU *. cU) C.cli3l18Cs)) (ce0 +. ceSum 0 cU C.cli3l18Bf) ((ceR3 1.64493406684822643647241516664602519) +. ceSum 0 cU C.cli3l18Bf)
    730 (4.9e-18 + 5 * uR x87ext) (2.7e-35 + 20.2 * uR x87ext) where
  near := okBox_spec (d := 0) (k := 730) (by decide +kernel)
  fin1 := okBox_spec' (d := 20) (k := 730) (by decide +kernel)
  finI := okBox_spec (d := 3) (k := 730) (by decide +kernel)
  ord := by norm_num
  pi_lit := by decide +kernel
  pi_err := pi_err_of fmtB80 (e := 4.2e-36) (by norm_num) (by norm_num) (by decide +kernel) (by rw [u80]; norm_num)
  E0_nonneg := by have := uR_pos (φ := x87ext); linarith
  E1_nonneg := by have := uR_pos (φ := x87ext); linarith
  method z hz := by
    have h := C37_cli3l18_accuracy (semF_lit fmtB80) (by rw [u80]; norm_num) z
    rw [C.cli3l18, cli3l_ev _ _ _ (im_ne_R (semF_zero fmtB80) hz), portCE_R (semF_lit fmtB80) 3.14159265358979323846264338327950288 3.14159265358979323846264338327950288 _ _ _ hz] at h
    exact h

/-- `long double complex cli3l(z)` of the C port (x87 extended precision, `LDBL_DIG == 18`), with a C library within the accuracy `CxLib`: for every `z = x + iy` off the real
axis (parts up to `2^±300`) both parts of the result are finite and the result is within `7.4e-17 · max(1, |log(-z)|^3)` of `Li3(z)`. -/
theorem C46_cli3l18_IEEE (hL : CxLib x87ext L) {z : Cx (FP x87ext L)} {x y : ℚ} (vx : Val x87ext (ofF z.re) x) (vy : Val x87ext (ofF z.im) y)
    (hx : |x| ≤ 2 ^ (300:ℤ)) (hy : |y| ≤ 2 ^ (300:ℤ)) (hy0 : 2 ^ (-300:ℤ) ≤ |y|) :
    ∃ a b : ℚ, Val x87ext (ofF (C.cli3l18 z).re) a ∧ Val x87ext (ofF (C.cli3l18 z).im) b ∧
      ‖(⟨a, b⟩ : ℂ) - pLi 3 ⟨x, y⟩‖ ≤ 7.4e-17 * max 1 ‖Complex.log (-⟨x, y⟩)‖ ^ 3 := by
  have hd := inDom_of hx hy hy0
  have h := portCE_fp (p' := 3.14159265358979323846264338327950288) fmtB80 hL cert_cli3l18 vx vy hd
  rw [← cli3l_ev _ _ _ (im_ne_F fmtB80 vy hd.y_ne)] at h
  rw [C.cli3l18]
  refine CNear.mono h (mul_le_mul_of_nonneg_right ?_ (by positivity))
  rw [u80]; norm_num

theorem cert_cli3l36 : LiCert binary128 0 3.14159265358979323846264338327950288 (ceN3L 1.20205690315959428539973816151144999 1.64493406684822643647241516664602519 (ceSum 0 (cU *. cU) C.cli3l36Cs)) (ce0 +. ceSum 0 cU C.cli3l36Bf) ((ceR3 1.64493406684822643647241516664602519) +. ceSum 0 cU C.cli3l36Bf)
    730 (1.2e-35 + 5 * uR binary128) (2.7e-35 + 20.2 * uR binary128) where
  near := okBox_spec (d := 0) (k := 730) (by decide +kernel)
  fin1 := okBox_spec' (d := 20) (k := 730) (by decide +kernel)
  finI := okBox_spec (d := 3) (k := 730) (by decide +kernel)
  ord := by norm_num
  pi_lit := by decide +kernel
  pi_err := pi_err_of fmtB128 (e := 4.2e-36) (by norm_num) (by norm_num) (by decide +kernel) (by rw [u128]; norm_num)
  E0_nonneg := by have := uR_pos (φ := binary128); linarith
  E1_nonneg := by have := uR_pos (φ := binary128); linarith
  method z hz := by
    have h := C37_cli3l36_accuracy (semF_lit fmtB128) (by rw [u128]; norm_num) z
    rw [C.cli3l36, cli3l_ev _ _ _ (im_ne_R (semF_zero fmtB128) hz), portCE_R (semF_lit fmtB128) 3.14159265358979323846264338327950288 3.14159265358979323846264338327950288 _ _ _ hz] at h
    exact h

/-- `long double complex cli3l(z)` of the C port (binary128, `LDBL_DIG == 33`), with a C library within the accuracy `CxLib`: for every `z = x + iy` off the real
axis (parts up to `2^±300`) both parts of the result are finite and the result is within `1.3e-31 · max(1, |log(-z)|^3)` of `Li3(z)`. -/
theorem C46_cli3l36_IEEE (hL : CxLib binary128 L) {z : Cx (FP binary128 L)} {x y : ℚ} (vx : Val binary128 (ofF z.re) x) (vy : Val binary128 (ofF z.im) y)
    (hx : |x| ≤ 2 ^ (300:ℤ)) (hy : |y| ≤ 2 ^ (300:ℤ)) (hy0 : 2 ^ (-300:ℤ) ≤ |y|) :
    ∃ a b : ℚ, Val binary128 (ofF (C.cli3l36 z).re) a ∧ Val binary128 (ofF (C.cli3l36 z).im) b ∧
      ‖(⟨a, b⟩ : ℂ) - pLi 3 ⟨x, y⟩‖ ≤ 1.3e-31 * max 1 ‖Complex.log (-⟨x, y⟩)‖ ^ 3 := by
  have hd := inDom_of hx hy hy0
  have h := portCE_fp (p' := 3.14159265358979323846264338327950288) fmtB128 hL cert_cli3l36 vx vy hd
  rw [← cli3l_ev _ _ _ (im_ne_F fmtB128 vy hd.y_ne)] at h
  rw [C.cli3l36]
  refine CNear.mono h (mul_le_mul_of_nonneg_right ?_ (by positivity))
  rw [u128]; norm_num

theorem cli4l_ev {F : Type} [FOps F] {n m : ℕ} (bf : Vector ℚ n) (cs : Vector ℚ m) (z : Cx F) (h : (z.im ==. (FOps.lit 0 : F)) = false) : C.cli4l bf cs z =
    portShape (posLogP 3.14159265358979323846264338327950288) (FOps.lit 3.14159265358979323846264338327950288 : F) (fun u => (ceN4L 1.08232323371113819151600369654116790 1.20205690315959428539973816151144999 0.822467033424113218236207583323012595 (ceSum 0 (cU *. cU) cs)).ev (env2 u (posLogP 3.14159265358979323846264338327950288 (∸u)))) (fun u => (♯1 *. ceSum 0 cU bf +. ce0).ev (env2 u u))
      (fun u l => (∸♯1 *. ceSum 0 cU bf +. (ceR4 3.14159265358979323846264338327950288)).ev (env2 u l)) z := by
  rw [ccli4l_eq]
  simp only [h, Bool.false_and, Bool.false_eq_true, if_false]
  congr 1
  · funext u
    unfold cnear4l
    dsimp only
    rw [csumU2_ev 0 cs u (posLogP 3.14159265358979323846264338327950288 (∸u))]
    rfl
  · funext u
    rw [csumU_ev bf u u]
    rfl
  · funext u l
    rw [csumU_ev bf u l]
    rfl

theorem cert_cli4l18 : LiCert x87ext 1 3.14159265358979323846264338327950288 (ceN4L 1.08232323371113819151600369654116790 1.20205690315959428539973816151144999 0.822467033424113218236207583323012595 (ceSum 0 (cU *. cU) C.cli4l18Cs)) (♯1 *. ceSum 0 cU C.cli4l18Bf +. ce0) (∸♯1 *. ceSum 0 cU C.cli4l18Bf +. (ceR4 3.14159265358979323846264338327950288))
    810 (2.5e-18 + 5 * uR x87ext) (2.7e-35 + 20.2 * uR x87ext) where
  near := okBox_spec (d := 0) (k := 810) (by decide +kernel)
  fin1 := okBox_spec' (d := 20) (k := 810) (by decide +kernel)
  finI := okBox_spec (d := 4) (k := 810) (by decide +kernel)
  ord := by norm_num
  pi_lit := by decide +kernel
  pi_err := pi_err_of fmtB80 (e := 4.2e-36) (by norm_num) (by norm_num) (by decide +kernel) (by rw [u80]; norm_num)
  E0_nonneg := by have := uR_pos (φ := x87ext); linarith
  E1_nonneg := by have := uR_pos (φ := x87ext); linarith
  method z hz := by
    have h := C37_cli4l18_accuracy (semF_lit fmtB80) (by rw [u80]; norm_num) z
    rw [C.cli4l18, cli4l_ev _ _ _ (im_ne_R (semF_zero fmtB80) hz), portCE_R (semF_lit fmtB80) 3.14159265358979323846264338327950288 3.14159265358979323846264338327950288 _ _ _ hz] at h
    exact h

/-- `long double complex cli4l(z)` of the C port (x87 extended precision, `LDBL_DIG == 18`), with a C library within the accuracy `CxLib`: for every `z = x + iy` off the real
axis (parts up to `2^±300`) both parts of the result are finite and the result is within `7.6e-17 · max(1, |log(-z)|^4)` of `Li4(z)`. -/
theorem C46_cli4l18_IEEE (hL : CxLib x87ext L) {z : Cx (FP x87ext L)} {x y : ℚ} (vx : Val x87ext (ofF z.re) x) (vy : Val x87ext (ofF z.im) y)
    (hx : |x| ≤ 2 ^ (300:ℤ)) (hy : |y| ≤ 2 ^ (300:ℤ)) (hy0 : 2 ^ (-300:ℤ) ≤ |y|) :
    ∃ a b : ℚ, Val x87ext (ofF (C.cli4l18 z).re) a ∧ Val x87ext (ofF (C.cli4l18 z).im) b ∧
      ‖(⟨a, b⟩ : ℂ) - pLi 4 ⟨x, y⟩‖ ≤ 7.6e-17 * max 1 ‖Complex.log (-⟨x, y⟩)‖ ^ 4 := by
  have hd := inDom_of hx hy hy0
  have h := portCE_fp (p' := 3.14159265358979323846264338327950288) fmtB80 hL cert_cli4l18 vx vy hd
  rw [← cli4l_ev _ _ _ (im_ne_F fmtB80 vy hd.y_ne)] at h
  rw [C.cli4l18]
  refine CNear.mono h (mul_le_mul_of_nonneg_right ?_ (by positivity))
  rw [u80]; norm_num

theorem cert_cli4l36 : LiCert binary128 1 3.14159265358979323846264338327950288 (ceN4L 1.08232323371113819151600369654116790 1.20205690315959428539973816151144999 0.822467033424113218236207583323012595 (ceSum 0 (cU *. cU) C.cli4l36Cs)) (♯1 *. ceSum 0 cU C.cli4l36Bf +. ce0) (∸♯1 *. ceSum 0 cU C.cli4l36Bf +. (ceR4 3.14159265358979323846264338327950288))
    810 (2.1e-35 + 5 * uR binary128) (2.7e-35 + 20.2 * uR binary128) where
  near := okBox_spec (d := 0) (k := 810) (by decide +kernel)
  fin1 := okBox_spec' (d := 20) (k := 810) (by decide +kernel)
  finI := okBox_spec (d := 4) (k := 810) (by decide +kernel)
  ord := by norm_num
  pi_lit := by decide +kernel
  pi_err := pi_err_of fmtB128 (e := 4.2e-36) (by norm_num) (by norm_num) (by decide +kernel) (by rw [u128]; norm_num)
  E0_nonneg := by have := uR_pos (φ := binary128); linarith
  E1_nonneg := by have := uR_pos (φ := binary128); linarith
  method z hz := by
    have h := C37_cli4l36_accuracy (semF_lit fmtB128) (by rw [u128]; norm_num) z
    rw [C.cli4l36, cli4l_ev _ _ _ (im_ne_R (semF_zero fmtB128) hz), portCE_R (semF_lit fmtB128) 3.14159265358979323846264338327950288 3.14159265358979323846264338327950288 _ _ _ hz] at h
    exact h

/-- `long double complex cli4l(z)` of the C port (binary128, `LDBL_DIG == 33`), with a C library within the accuracy `CxLib`: for every `z = x + iy` off the real
axis (parts up to `2^±300`) both parts of the result are finite and the result is within `1.3e-31 · max(1, |log(-z)|^4)` of `Li4(z)`. -/
theorem C46_cli4l36_IEEE (hL : CxLib binary128 L) {z : Cx (FP binary128 L)} {x y : ℚ} (vx : Val binary128 (ofF z.re) x) (vy : Val binary128 (ofF z.im) y)
    (hx : |x| ≤ 2 ^ (300:ℤ)) (hy : |y| ≤ 2 ^ (300:ℤ)) (hy0 : 2 ^ (-300:ℤ) ≤ |y|) :
    ∃ a b : ℚ, Val binary128 (ofF (C.cli4l36 z).re) a ∧ Val binary128 (ofF (C.cli4l36 z).im) b ∧
      ‖(⟨a, b⟩ : ℂ) - pLi 4 ⟨x, y⟩‖ ≤ 1.3e-31 * max 1 ‖Complex.log (-⟨x, y⟩)‖ ^ 4 := by
  have hd := inDom_of hx hy hy0
  have h := portCE_fp (p' := 3.14159265358979323846264338327950288) fmtB128 hL cert_cli4l36 vx vy hd
  rw [← cli4l_ev _ _ _ (im_ne_F fmtB128 vy hd.y_ne)] at h
  rw [C.cli4l36]
  refine CNear.mono h (mul_le_mul_of_nonneg_right ?_ (by positivity))
  rw [u128]; norm_num

theorem cli5l_ev {F : Type} [FOps F] {n m : ℕ} (bf : Vector ℚ n) (cs : Vector ℚ m) (z : Cx F) (h : (z.im ==. (FOps.lit 0 : F)) = false) : C.cli5l bf cs z =
    portShape (posLogP 3.14159265358979323846264338327950288) (FOps.lit 3.14159265358979323846264338327950288 : F) (fun u => (ceN5L 1.03692775514336992633136548645703417 1.08232323371113819151600369654116790 0.601028451579797142699869080755724995 0.274155677808037739412069194441004198 (ceSum 0 (cU *. cU) cs)).ev (env2 u (posLogP 3.14159265358979323846264338327950288 (∸u)))) (fun u => (ce0 +. ceSum 0 cU bf).ev (env2 u u))
      (fun u l => ((ceR5 3.14159265358979323846264338327950288) +. ceSum 0 cU bf).ev (env2 u l)) z := by
  rw [ccli5l_eq]
  simp only [h, Bool.false_and, Bool.false_eq_true, if_false]
  congr 1
  · funext u
    unfold cnear5l
    dsimp only
    rw [csumU2_ev 0 cs u (posLogP 3.14159265358979323846264338327950288 (∸u))]
    rfl
  · funext u
    rw [csumU_ev bf u u]
    rfl
  · funext u l
    rw [csumU_ev bf u l]
    rfl

theorem cert_cli5l18 : LiCert x87ext 2 3.14159265358979323846264338327950288 (ceN5L 1.03692775514336992633136548645703417 1.08232323371113819151600369654116790 0.601028451579797142699869080755724995 0.274155677808037739412069194441004198 (ceSum 0 (cU *. cU) C.cli5l18Cs)) (ce0 +. ceSum 0 cU C.cli5l18Bf) ((ceR5 3.14159265358979323846264338327950288) +. ceSum 0 cU C.cli5l18Bf)
    935 (9.7e-18 + 4 * uR x87ext) (2.7e-35 + 20.2 * uR x87ext) where
  near := okBox_spec (d := 0) (k := 935) (by decide +kernel)
  fin1 := okBox_spec' (d := 20) (k := 935) (by decide +kernel)
  finI := okBox_spec (d := 5) (k := 935) (by decide +kernel)
  ord := by norm_num
  pi_lit := by decide +kernel
  pi_err := pi_err_of fmtB80 (e := 4.2e-36) (by norm_num) (by norm_num) (by decide +kernel) (by rw [u80]; norm_num)
  E0_nonneg := by have := uR_pos (φ := x87ext); linarith
  E1_nonneg := by have := uR_pos (φ := x87ext); linarith
  method z hz := by
    have h := C37_cli5l18_accuracy (semF_lit fmtB80) (by rw [u80]; norm_num) z
    rw [C.cli5l18, cli5l_ev _ _ _ (im_ne_R (semF_zero fmtB80) hz), portCE_R (semF_lit fmtB80) 3.14159265358979323846264338327950288 3.14159265358979323846264338327950288 _ _ _ hz] at h
    exact h

/-- `long double complex cli5l(z)` of the C port (x87 extended precision, `LDBL_DIG == 18`), with a C library within the accuracy `CxLib`: for every `z = x + iy` off the real
axis (parts up to `2^±300`) both parts of the result are finite and the result is within `9e-17 · max(1, |log(-z)|^5)` of `Li5(z)`. -/
theorem C46_cli5l18_IEEE (hL : CxLib x87ext L) {z : Cx (FP x87ext L)} {x y : ℚ} (vx : Val x87ext (ofF z.re) x) (vy : Val x87ext (ofF z.im) y)
    (hx : |x| ≤ 2 ^ (300:ℤ)) (hy : |y| ≤ 2 ^ (300:ℤ)) (hy0 : 2 ^ (-300:ℤ) ≤ |y|) :
    ∃ a b : ℚ, Val x87ext (ofF (C.cli5l18 z).re) a ∧ Val x87ext (ofF (C.cli5l18 z).im) b ∧
      ‖(⟨a, b⟩ : ℂ) - pLi 5 ⟨x, y⟩‖ ≤ 9e-17 * max 1 ‖Complex.log (-⟨x, y⟩)‖ ^ 5 := by
  have hd := inDom_of hx hy hy0
  have h := portCE_fp (p' := 3.14159265358979323846264338327950288) fmtB80 hL cert_cli5l18 vx vy hd
  rw [← cli5l_ev _ _ _ (im_ne_F fmtB80 vy hd.y_ne)] at h
  rw [C.cli5l18]
  refine CNear.mono h (mul_le_mul_of_nonneg_right ?_ (by positivity))
  rw [u80]; norm_num

theorem cert_cli5l36 : LiCert binary128 2 3.14159265358979323846264338327950288 (ceN5L 1.03692775514336992633136548645703417 1.08232323371113819151600369654116790 0.601028451579797142699869080755724995 0.274155677808037739412069194441004198 (ceSum 0 (cU *. cU) C.cli5l36Cs)) (ce0 +. ceSum 0 cU C.cli5l36Bf) ((ceR5 3.14159265358979323846264338327950288) +. ceSum 0 cU C.cli5l36Bf)
    935 (1.7e-35 + 4 * uR binary128) (2.7e-35 + 20.2 * uR binary128) where
  near := okBox_spec (d := 0) (k := 935) (by decide +kernel)
  fin1 := okBox_spec' (d := 20) (k := 935) (by decide +kernel)
  finI := okBox_spec (d := 5) (k := 935) (by decide +kernel)
  ord := by norm_num
  pi_lit := by decide +kernel
  pi_err := pi_err_of fmtB128 (e := 4.2e-36) (by norm_num) (by norm_num) (by decide +kernel) (by rw [u128]; norm_num)
  E0_nonneg := by have := uR_pos (φ := binary128); linarith
  E1_nonneg := by have := uR_pos (φ := binary128); linarith
  method z hz := by
    have h := C37_cli5l36_accuracy (semF_lit fmtB128) (by rw [u128]; norm_num) z
    rw [C.cli5l36, cli5l_ev _ _ _ (im_ne_R (semF_zero fmtB128) hz), portCE_R (semF_lit fmtB128) 3.14159265358979323846264338327950288 3.14159265358979323846264338327950288 _ _ _ hz] at h
    exact h

/-- `long double complex cli5l(z)` of the C port (binary128, `LDBL_DIG == 33`), with a C library within the accuracy `CxLib`: for every `z = x + iy` off the real
axis (parts up to `2^±300`) both parts of the result are finite and the result is within `1.4e-31 · max(1, |log(-z)|^5)` of `Li5(z)`. -/
theorem C46_cli5l36_IEEE (hL : CxLib binary128 L) {z : Cx (FP binary128 L)} {x y : ℚ} (vx : Val binary128 (ofF z.re) x) (vy : Val binary128 (ofF z.im) y)
    (hx : |x| ≤ 2 ^ (300:ℤ)) (hy : |y| ≤ 2 ^ (300:ℤ)) (hy0 : 2 ^ (-300:ℤ) ≤ |y|) :
    ∃ a b : ℚ, Val binary128 (ofF (C.cli5l36 z).re) a ∧ Val binary128 (ofF (C.cli5l36 z).im) b ∧
      ‖(⟨a, b⟩ : ℂ) - pLi 5 ⟨x, y⟩‖ ≤ 1.4e-31 * max 1 ‖Complex.log (-⟨x, y⟩)‖ ^ 5 := by
  have hd := inDom_of hx hy hy0
  have h := portCE_fp (p' := 3.14159265358979323846264338327950288) fmtB128 hL cert_cli5l36 vx vy hd
  rw [← cli5l_ev _ _ _ (im_ne_F fmtB128 vy hd.y_ne)] at h
  rw [C.cli5l36]
  refine CNear.mono h (mul_le_mul_of_nonneg_right ?_ (by positivity))
  rw [u128]; norm_num

theorem cli6l_ev {F : Type} [FOps F] {n m : ℕ} (bf : Vector ℚ n) (cs : Vector ℚ (m + 1)) (z : Cx F) (h : (z.im ==. (FOps.lit 0 : F)) = false) : C.cli6l bf cs z =
    portShape (posLogP 3.14159265358979323846264338327950288) (FOps.lit 3.14159265358979323846264338327950288 : F) (fun u => (ceN6L 1.01734306198444913971451792979092053 1.03692775514336992633136548645703417 0.541161616855569095758001848270583951 0.200342817193265714233289693585241665 0.0685389194520094348530172986102510496 cs[0] (ceSum 1 (cU *. cU) cs)).ev (env2 u (posLogP 3.14159265358979323846264338327950288 (∸u)))) (fun u => (♯1 *. ceSum 0 cU bf +. ce0).ev (env2 u u))
      (fun u l => (∸♯1 *. ceSum 0 cU bf +. (ceR6 3.14159265358979323846264338327950288)).ev (env2 u l)) z := by
  rw [ccli6l_eq]
  simp only [h, Bool.false_and, Bool.false_eq_true, if_false]
  congr 1
  · funext u
    unfold cnear6l
    dsimp only
    rw [csumU2_ev 1 cs u (posLogP 3.14159265358979323846264338327950288 (∸u))]
    rfl
  · funext u
    rw [csumU_ev bf u u]
    rfl
  · funext u l
    rw [csumU_ev bf u l]
    rfl

theorem cert_cli6l18 : LiCert x87ext 3 3.14159265358979323846264338327950288 (ceN6L 1.01734306198444913971451792979092053 1.03692775514336992633136548645703417 0.541161616855569095758001848270583951 0.200342817193265714233289693585241665 0.0685389194520094348530172986102510496 C.cli6l18Cs[0] (ceSum 1 (cU *. cU) C.cli6l18Cs)) (♯1 *. ceSum 0 cU C.cli6l18Bf +. ce0) (∸♯1 *. ceSum 0 cU C.cli6l18Bf +. (ceR6 3.14159265358979323846264338327950288))
    935 (2.1e-18 + 4 * uR x87ext) (2.7e-35 + 20.2 * uR x87ext) where
  near := okBox_spec (d := 0) (k := 935) (by decide +kernel)
  fin1 := okBox_spec' (d := 20) (k := 935) (by decide +kernel)
  finI := okBox_spec (d := 6) (k := 935) (by decide +kernel)
  ord := by norm_num
  pi_lit := by decide +kernel
  pi_err := pi_err_of fmtB80 (e := 4.2e-36) (by norm_num) (by norm_num) (by decide +kernel) (by rw [u80]; norm_num)
  E0_nonneg := by have := uR_pos (φ := x87ext); linarith
  E1_nonneg := by have := uR_pos (φ := x87ext); linarith
  method z hz := by
    have h := C37_cli6l18_accuracy (semF_lit fmtB80) (by rw [u80]; norm_num) z
    rw [C.cli6l18, cli6l_ev _ _ _ (im_ne_R (semF_zero fmtB80) hz), portCE_R (semF_lit fmtB80) 3.14159265358979323846264338327950288 3.14159265358979323846264338327950288 _ _ _ hz] at h
    exact h

/-- `long double complex cli6l(z)` of the C port (x87 extended precision, `LDBL_DIG == 18`), with a C library within the accuracy `CxLib`: for every `z = x + iy` off the real
axis (parts up to `2^±300`) both parts of the result are finite and the result is within `8.2e-17 · max(1, |log(-z)|^6)` of `Li6(z)`. -/
theorem C46_cli6l18_IEEE (hL : CxLib x87ext L) {z : Cx (FP x87ext L)} {x y : ℚ} (vx : Val x87ext (ofF z.re) x) (vy : Val x87ext (ofF z.im) y)
    (hx : |x| ≤ 2 ^ (300:ℤ)) (hy : |y| ≤ 2 ^ (300:ℤ)) (hy0 : 2 ^ (-300:ℤ) ≤ |y|) :
    ∃ a b : ℚ, Val x87ext (ofF (C.cli6l18 z).re) a ∧ Val x87ext (ofF (C.cli6l18 z).im) b ∧
      ‖(⟨a, b⟩ : ℂ) - pLi 6 ⟨x, y⟩‖ ≤ 8.2e-17 * max 1 ‖Complex.log (-⟨x, y⟩)‖ ^ 6 := by
  have hd := inDom_of hx hy hy0
  have h := portCE_fp (p' := 3.14159265358979323846264338327950288) fmtB80 hL cert_cli6l18 vx vy hd
  rw [← cli6l_ev _ _ _ (im_ne_F fmtB80 vy hd.y_ne)] at h
  rw [C.cli6l18]
  refine CNear.mono h (mul_le_mul_of_nonneg_right ?_ (by positivity))
  rw [u80]; norm_num

theorem cert_cli6l36 : LiCert binary128 3 3.14159265358979323846264338327950288 (ceN6L 1.01734306198444913971451792979092053 1.03692775514336992633136548645703417 0.541161616855569095758001848270583951 0.200342817193265714233289693585241665 0.0685389194520094348530172986102510496 C.cli6l36Cs[0] (ceSum 1 (cU *. cU) C.cli6l36Cs)) (♯1 *. ceSum 0 cU C.cli6l36Bf +. ce0) (∸♯1 *. ceSum 0 cU C.cli6l36Bf +. (ceR6 3.14159265358979323846264338327950288))
    935 (4.9e-36 + 4 * uR binary128) (2.7e-35 + 20.2 * uR binary128) where
  near := okBox_spec (d := 0) (k := 935) (by decide +kernel)
  fin1 := okBox_spec' (d := 20) (k := 935) (by decide +kernel)
  finI := okBox_spec (d := 6) (k := 935) (by decide +kernel)
  ord := by norm_num
  pi_lit := by decide +kernel
  pi_err := pi_err_of fmtB128 (e := 4.2e-36) (by norm_num) (by norm_num) (by decide +kernel) (by rw [u128]; norm_num)
  E0_nonneg := by have := uR_pos (φ := binary128); linarith
  E1_nonneg := by have := uR_pos (φ := binary128); linarith
  method z hz := by
    have h := C37_cli6l36_accuracy (semF_lit fmtB128) (by rw [u128]; norm_num) z
    rw [C.cli6l36, cli6l_ev _ _ _ (im_ne_R (semF_zero fmtB128) hz), portCE_R (semF_lit fmtB128) 3.14159265358979323846264338327950288 3.14159265358979323846264338327950288 _ _ _ hz] at h
    exact h

/-- `long double complex cli6l(z)` of the C port (binary128, `LDBL_DIG == 33`), with a C library within the accuracy `CxLib`: for every `z = x + iy` off the real
axis (parts up to `2^±300`) both parts of the result are finite and the result is within `1.4e-31 · max(1, |log(-z)|^6)` of `Li6(z)`. -/
theorem C46_cli6l36_IEEE (hL : CxLib binary128 L) {z : Cx (FP binary128 L)} {x y : ℚ} (vx : Val binary128 (ofF z.re) x) (vy : Val binary128 (ofF z.im) y)
    (hx : |x| ≤ 2 ^ (300:ℤ)) (hy : |y| ≤ 2 ^ (300:ℤ)) (hy0 : 2 ^ (-300:ℤ) ≤ |y|) :
    ∃ a b : ℚ, Val binary128 (ofF (C.cli6l36 z).re) a ∧ Val binary128 (ofF (C.cli6l36 z).im) b ∧
      ‖(⟨a, b⟩ : ℂ) - pLi 6 ⟨x, y⟩‖ ≤ 1.4e-31 * max 1 ‖Complex.log (-⟨x, y⟩)‖ ^ 6 := by
  have hd := inDom_of hx hy hy0
  have h := portCE_fp (p' := 3.14159265358979323846264338327950288) fmtB128 hL cert_cli6l36 vx vy hd
  rw [← cli6l_ev _ _ _ (im_ne_F fmtB128 vy hd.y_ne)] at h
  rw [C.cli6l36]
  refine CNear.mono h (mul_le_mul_of_nonneg_right ?_ (by positivity))
  rw [u128]; norm_num

/-- the hypotheses of `C46_cli5l18_IEEE` can be met: `z = 3/2 + (1/1024)i` -/
example : ∃ (L : Lib) (z : Cx (FP x87ext L)), CxLib x87ext L ∧ Val x87ext (ofF z.re) (3/2) ∧ Val x87ext (ofF z.im) (1/1024) ∧
    ∃ a b : ℚ, Val x87ext (ofF (C.cli5l18 z).re) a ∧ Val x87ext (ofF (C.cli5l18 z).im) b ∧
      ‖(⟨a, b⟩ : ℂ) - pLi 5 ⟨(3/2 : ℚ), (1/1024 : ℚ)⟩‖ ≤ 9e-17 * max 1 ‖Complex.log (-⟨(3/2 : ℚ), (1/1024 : ℚ)⟩)‖ ^ 5 := by
  obtain ⟨L, hL, -⟩ := cxLib_exists fmtB80 zeroLib
  have v1 : Val x87ext (rndQ x87ext (3/2)) (3/2) := near_dy fmtB80.a 3 1 (by norm_num) (by norm_num) (by norm_num)
  have v2 : Val x87ext (rndQ x87ext (1/1024)) (1/1024) := near_dy fmtB80.a 1 10 (by norm_num) (by norm_num) (by norm_num)
  exact ⟨L, ⟨FOps.lit (3/2), FOps.lit (1/1024)⟩, hL, v1, v2, C46_cli5l18_IEEE hL v1 v2 (by decide +kernel) (by decide +kernel) (by decide +kernel)⟩

/-- the hypotheses of `C46_cli4l36_IEEE` can be met: `z = -7 + (-1/2)i` -/
example : ∃ (L : Lib) (z : Cx (FP binary128 L)), CxLib binary128 L ∧ Val binary128 (ofF z.re) (-7) ∧ Val binary128 (ofF z.im) (-1/2) ∧
    ∃ a b : ℚ, Val binary128 (ofF (C.cli4l36 z).re) a ∧ Val binary128 (ofF (C.cli4l36 z).im) b ∧
      ‖(⟨a, b⟩ : ℂ) - pLi 4 ⟨(-7 : ℚ), (-1/2 : ℚ)⟩‖ ≤ 1.3e-31 * max 1 ‖Complex.log (-⟨(-7 : ℚ), (-1/2 : ℚ)⟩)‖ ^ 4 := by
  obtain ⟨L, hL, -⟩ := cxLib_exists fmtB128 zeroLib
  have v1 : Val binary128 (rndQ binary128 (-7)) (-7) := near_dy fmtB128.a (-7) 0 (by norm_num) (by norm_num) (by norm_num)
  have v2 : Val binary128 (rndQ binary128 (-1/2)) (-1/2) := near_dy fmtB128.a (-1) 1 (by norm_num) (by norm_num) (by norm_num)
  exact ⟨L, ⟨FOps.lit (-7), FOps.lit (-1/2)⟩, hL, v1, v2, C46_cli4l36_IEEE hL v1 v2 (by decide +kernel) (by decide +kernel) (by decide +kernel)⟩

end Polylog
