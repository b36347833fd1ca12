import Verif.Props.PortFP
import Verif.Props.CAcc
import Verif.Props.CxLibEx

/-!
# C46: the complex Li3, ..., Li6 of the C port (`cli3` ... `cli6`) and of the Fortran port (`cdli3` ... `cdli6`) in IEEE double arithmetic
-/

namespace Polylog
set_option linter.style.longLine false
set_option linter.unusedSimpArgs false
open Complex

local notation:max "♯" q:max => (CXE.lit (q : ℚ))
local notation:max "÷" q:max => (DLit.mk (q : ℚ))

variable {L : Lib}

/-! ## the branches as expressions -/

/-- near 1, Li4 of the ports (Estrin form) -/
def ceN4P (z4 c1 c2 : ℚ) (c4 : CXE false) (cs : Vector ℚ 7) : CXE true :=
  let u := cU
  let c3 := (♯11 /. ÷6 -. cL) /. ÷6
  let u2 := u *. u
  let u4 := u2 *. u2
  let u8 := u4 *. u4
  ♯z4 +. u2 *. (♯c2 +. u2 *. c4) +. u *. (♯c1 +. c3 *. u2 +. u4 *. (♯(cs[0]) +. u2 *. ♯(cs[1])) +. u8 *. (♯(cs[2]) +. u2 *. ♯(cs[3]) +. u4 *. (♯(cs[4]) +. u2 *. ♯(cs[5]))) +. u8 *. u8 *. ♯(cs[6]))

/-- near 1, Li5 of the ports (Horner form) -/
def ceN5P (z5 c1 c2 c3 : ℚ) (c5 : CXE false) (cs : Vector ℚ 6) : CXE true :=
  let u := cU
  let c4 := (♯25 /. ÷12 -. cL) /. ÷24
  let u2 := u *. u
  ♯z5 +. u *. ♯c1 +. u2 *. (♯c2 +. u *. ♯c3 +. u2 *. (c4 +. u *. c5 +. u2 *. (♯(cs[0]) +. u2 *. (♯(cs[1]) +. u2 *. (♯(cs[2]) +. u2 *. (♯(cs[3]) +. u2 *. (♯(cs[4]) +. u2 *. (♯(cs[5])))))))))

/-- near 1, Li6 of the ports (Horner form) -/
def ceN6P (z6 c1 c2 c3 c4 : ℚ) (c6 : CXE false) (cs : Vector ℚ 5) : CXE true :=
  let u := cU
  let c5 := (♯137 /. ÷60 -. cL) /. ÷120
  let u2 := u *. u
  ♯z6 +. u *. ♯c1 +. u2 *. (♯c2 +. u *. ♯c3 +. u2 *. (♯c4 +. u *. c5 +. u2 *. (c6 +. u *. (♯(cs[0]) +. u2 *. (♯(cs[1]) +. u2 *. (♯(cs[2]) +. u2 *. (♯(cs[3]) +. u2 *. (♯(cs[4])))))))))

/-- outside the unit disc, Fortran (the powers of `pi` are literals) -/
def ceI3F (z2 : ℚ) (bf : Vector ℚ 18) : CXE true := ceFin18 bf cU (∸(cL *. (cL *. cL /. ÷6 +. ♯z2)))
def ceI4F (bf : Vector ℚ 18) : CXE true :=
  ceFin18s bf cU ((∸(♯7 *. ♯97.409091034002437) +. (cL *. cL) *. (∸(♯30 *. ♯9.8696044010893586) -. ♯15 *. (cL *. cL))) /. ÷360) ∸♯1
def ceI5F (bf : Vector ℚ 19) : CXE true :=
  ceFin19 bf cU (∸(cL *. (♯7 *. ♯97.409091034002437 +. (cL *. cL) *. (♯10 *. ♯9.8696044010893586 +. ♯3 *. (cL *. cL))) /. ÷360))
def ceI6F (bf : Vector ℚ 18) : CXE true :=
  ceFin18s bf cU (∸(♯31 *. ♯961.38919357530444 /. ÷15120) +. (cL *. cL) *. (∸(♯7 *. ♯97.409091034002437 /. ÷720) +. (cL *. cL) *. (∸(♯9.8696044010893586 /. ÷144) -. (cL *. cL) /. ÷720))) ∸♯1

/-! ## certificates -/

theorem C38_cdli4_offaxis {S : RealSem} {u : ℝ} (hS : S.Lit u) (hu : u ≤ 1 / 10000) (z : ℂ) (hz : z.im ≠ 0) :
    ‖(Fortran.cdli4 (ofC S z)).toC - pLi 4 z‖ ≤ 4.1e-15 + 4 * u + if ‖z‖ ≤ 1 then 0 else (2.5e-16 + 20.2 * u) * expN 4 ‖Complex.log (-z)‖ := by
  have hu0 := hS.u_nonneg
  have h0 : z ≠ 0 := fun h => hz (by rw [h]; rfl)
  have h1 : z ≠ 1 := fun h => hz (by rw [h]; rfl)
  rw [cdli4_eq, if_neg (by simpa only [rsem, hS.zero, decide_eq_true_eq, Rat.cast_zero] using hz)]
  rw [portShape_cmp hS _ _ _ _ _ _ _ _ 3 (1 / 6) (fun w _ => (congrArg Cx.toC (fnear4_eq hS _ _ _ _ _ w)).trans (cnear4d_eq hS _ _ _ _ _ w)) (fun _ => rfl) (fun _ _ => rfl) z h0 h1,
    if_neg (fun h => hz h.1), sub_zero]
  exact cLi4F_accuracy hS (by linarith) 3.1415926535897932 _ _ _ cli4dCs (by norm_num) cli4dBf (by norm_num) _ (fin18s_eq cli4dBf) (lpi_li hS)
    cli4_certs.1.1 cli4_certs.1.2.1 cli4_certs.1.2.2.1 cli4_certs.1.2.2.2 (ε := 4.1e-15 + 4 * u) (by push_cast; linarith) (by push_cast; linarith) z h0 h1

theorem cli3_ev {F : Type} [FOps F] (z : Cx F) (h : (z.im ==. (FOps.lit 0 : F)) = false) : C.cli3 z =
    portShape (posLogP 3.1415926535897932) (FOps.lit 3.1415926535897932 : F) (fun u => (ceN3 1.2020569031595943 1.6449340668482264 cli3dCs).ev (env2 u (posLogP 3.1415926535897932 (∸u)))) (fun u => (ceFin18 cli3dBf cU ce0).ev (env2 u u))
      (fun u l => (ceI3 1.6449340668482264 cli3dBf).ev (env2 u l)) z := by
  rw [ccli3_eq]
  simp only [h, Bool.false_and, Bool.false_eq_true, if_false]
  rfl

theorem cert_cli3 : LiCert binary64 0 3.1415926535897932 (ceN3 1.2020569031595943 1.6449340668482264 cli3dCs) (ceFin18 cli3dBf cU ce0) (ceI3 1.6449340668482264 cli3dBf)
    740 (5.6e-15 + 3 * uR binary64) (2.5e-16 + 20.2 * uR binary64) where
  near := okBox_spec (d := 0) (k := 740) (by decide +kernel)
  fin1 := okBox_spec' (d := 20) (k := 740) (by decide +kernel)
  finI := okBox_spec (d := 3) (k := 740) (by decide +kernel)
  ord := by norm_num
  pi_lit := by decide +kernel
  pi_err := pi_err_of fmtB64 (e := 3.85e-17) (by norm_num) (by norm_num) (by decide +kernel) (by rw [u64]; norm_num)
  E0_nonneg := by have := uR_pos (φ := binary64); linarith
  E1_nonneg := by have := uR_pos (φ := binary64); linarith
  method z hz := by
    have h := C18_Li3d_offaxis (semF_lit fmtB64) (by rw [u64]; norm_num) z hz
    rw [← C37_cli3 (semF_lit fmtB64) z, cli3_ev _ (im_ne_R (semF_zero fmtB64) hz), portCE_R (semF_lit fmtB64) 3.1415926535897932 3.1415926535897932 _ _ _ hz] at h
    exact h

/-- `double complex cli3(z)` of the C port, evaluated in IEEE binary64 with a C library within the accuracy `CxLib`: for every `z = x + iy` off the real
axis (parts up to `2^±300`) both parts of the result are finite and the result is within `1.5e-13 · max(1, |log(-z)|^3)` of `Li3(z)`. -/
theorem C46_cli3_IEEE (hL : CxLib binary64 L) {z : Cx (FP binary64 L)} {x y : ℚ} (vx : Val binary64 (ofF z.re) x) (vy : Val binary64 (ofF z.im) y)
    (hx : |x| ≤ 2 ^ (300:ℤ)) (hy : |y| ≤ 2 ^ (300:ℤ)) (hy0 : 2 ^ (-300:ℤ) ≤ |y|) :
    ∃ a b : ℚ, Val binary64 (ofF (C.cli3 z).re) a ∧ Val binary64 (ofF (C.cli3 z).im) b ∧
      ‖(⟨a, b⟩ : ℂ) - pLi 3 ⟨x, y⟩‖ ≤ 1.5e-13 * max 1 ‖Complex.log (-⟨x, y⟩)‖ ^ 3 := by
  have hd := inDom_of hx hy hy0
  have h := portCE_fp (p' := 3.1415926535897932) fmtB64 hL cert_cli3 vx vy hd
  rw [← cli3_ev _ (im_ne_F fmtB64 vy hd.y_ne)] at h
  refine CNear.mono h (mul_le_mul_of_nonneg_right ?_ (by positivity))
  rw [u64]; norm_num

theorem cli4_ev {F : Type} [FOps F] (z : Cx F) (h : (z.im ==. (FOps.lit 0 : F)) = false) : C.cli4 z =
    portShape (posLogP 3.1415926535897932) (FOps.lit 3.1415926535897932 : F) (fun u => (ceN4P 1.0823232337111382 1.2020569031595943 0.82246703342411322 (∸♯1 /. ÷48) cli4dCs).ev (env2 u (posLogP 3.1415926535897932 (∸u)))) (fun u => (ceFin18s cli4dBf cU ce0 (CXE.lit 1)).ev (env2 u u))
      (fun u l => (ceI4 3.1415926535897932 cli4dBf).ev (env2 u l)) z := by
  rw [ccli4_eq]
  simp only [h, Bool.false_and, Bool.false_eq_true, if_false]
  rfl

theorem cert_cli4 : LiCert binary64 1 3.1415926535897932 (ceN4P 1.0823232337111382 1.2020569031595943 0.82246703342411322 (∸♯1 /. ÷48) cli4dCs) (ceFin18s cli4dBf cU ce0 (CXE.lit 1)) (ceI4 3.1415926535897932 cli4dBf)
    900 (4.1e-15 + 4 * uR binary64) (2.5e-16 + 20.2 * uR binary64) where
  near := okBox_spec (d := 0) (k := 900) (by decide +kernel)
  fin1 := okBox_spec' (d := 20) (k := 900) (by decide +kernel)
  finI := okBox_spec (d := 4) (k := 900) (by decide +kernel)
  ord := by norm_num
  pi_lit := by decide +kernel
  pi_err := pi_err_of fmtB64 (e := 3.85e-17) (by norm_num) (by norm_num) (by decide +kernel) (by rw [u64]; norm_num)
  E0_nonneg := by have := uR_pos (φ := binary64); linarith
  E1_nonneg := by have := uR_pos (φ := binary64); linarith
  method z hz := by
    have h := C18_Li4d_offaxis (semF_lit fmtB64) (by rw [u64]; norm_num) z hz
    rw [← C37_cli4 (semF_lit fmtB64) z, cli4_ev _ (im_ne_R (semF_zero fmtB64) hz), portCE_R (semF_lit fmtB64) 3.1415926535897932 3.1415926535897932 _ _ _ hz] at h
    exact h

/-- `double complex cli4(z)` of the C port, evaluated in IEEE binary64 with a C library within the accuracy `CxLib`: for every `z = x + iy` off the real
axis (parts up to `2^±300`) both parts of the result are finite and the result is within `1.7e-13 · max(1, |log(-z)|^4)` of `Li4(z)`. -/
theorem C46_cli4_IEEE (hL : CxLib binary64 L) {z : Cx (FP binary64 L)} {x y : ℚ} (vx : Val binary64 (ofF z.re) x) (vy : Val binary64 (ofF z.im) y)
    (hx : |x| ≤ 2 ^ (300:ℤ)) (hy : |y| ≤ 2 ^ (300:ℤ)) (hy0 : 2 ^ (-300:ℤ) ≤ |y|) :
    ∃ a b : ℚ, Val binary64 (ofF (C.cli4 z).re) a ∧ Val binary64 (ofF (C.cli4 z).im) b ∧
      ‖(⟨a, b⟩ : ℂ) - pLi 4 ⟨x, y⟩‖ ≤ 1.7e-13 * max 1 ‖Complex.log (-⟨x, y⟩)‖ ^ 4 := by
  have hd := inDom_of hx hy hy0
  have h := portCE_fp (p' := 3.1415926535897932) fmtB64 hL cert_cli4 vx vy hd
  rw [← cli4_ev _ (im_ne_F fmtB64 vy hd.y_ne)] at h
  refine CNear.mono h (mul_le_mul_of_nonneg_right ?_ (by positivity))
  rw [u64]; norm_num

theorem cli5_ev {F : Type} [FOps F] (z : Cx F) (h : (z.im ==. (FOps.lit 0 : F)) = false) : C.cli5 z =
    portShape (posLogP 3.1415926535897932) (FOps.lit 3.1415926535897932 : F) (fun u => (ceN5P 1.0369277551433699 1.0823232337111382 0.60102845157979714 0.27415567780803774 (∸♯1 /. ÷240) cli5dCs).ev (env2 u (posLogP 3.1415926535897932 (∸u)))) (fun u => (ceFin19 cli5dBf cU ce0).ev (env2 u u))
      (fun u l => (ceI5 3.1415926535897932 cli5dBf).ev (env2 u l)) z := by
  rw [ccli5_eq]
  simp only [h, Bool.false_and, Bool.false_eq_true, if_false]
  rfl

theorem cert_cli5 : LiCert binary64 2 3.1415926535897932 (ceN5P 1.0369277551433699 1.0823232337111382 0.60102845157979714 0.27415567780803774 (∸♯1 /. ÷240) cli5dCs) (ceFin19 cli5dBf cU ce0) (ceI5 3.1415926535897932 cli5dBf)
    1000 (2.4e-16 + 4 * uR binary64) (2.5e-16 + 20.2 * uR binary64) where
  near := okBox_spec (d := 0) (k := 1000) (by decide +kernel)
  fin1 := okBox_spec' (d := 20) (k := 1000) (by decide +kernel)
  finI := okBox_spec (d := 5) (k := 1000) (by decide +kernel)
  ord := by norm_num
  pi_lit := by decide +kernel
  pi_err := pi_err_of fmtB64 (e := 3.85e-17) (by norm_num) (by norm_num) (by decide +kernel) (by rw [u64]; norm_num)
  E0_nonneg := by have := uR_pos (φ := binary64); linarith
  E1_nonneg := by have := uR_pos (φ := binary64); linarith
  method z hz := by
    have h := C37_cli5_accuracy (semF_lit fmtB64) (by rw [u64]; norm_num) z
    rw [cli5_ev _ (im_ne_R (semF_zero fmtB64) hz), portCE_R (semF_lit fmtB64) 3.1415926535897932 3.1415926535897932 _ _ _ hz] at h
    exact h

/-- `double complex cli5(z)` of the C port, evaluated in IEEE binary64 with a C library within the accuracy `CxLib`: for every `z = x + iy` off the real
axis (parts up to `2^±300`) both parts of the result are finite and the result is within `1.8e-13 · max(1, |log(-z)|^5)` of `Li5(z)`. -/
theorem C46_cli5_IEEE (hL : CxLib binary64 L) {z : Cx (FP binary64 L)} {x y : ℚ} (vx : Val binary64 (ofF z.re) x) (vy : Val binary64 (ofF z.im) y)
    (hx : |x| ≤ 2 ^ (300:ℤ)) (hy : |y| ≤ 2 ^ (300:ℤ)) (hy0 : 2 ^ (-300:ℤ) ≤ |y|) :
    ∃ a b : ℚ, Val binary64 (ofF (C.cli5 z).re) a ∧ Val binary64 (ofF (C.cli5 z).im) b ∧
      ‖(⟨a, b⟩ : ℂ) - pLi 5 ⟨x, y⟩‖ ≤ 1.8e-13 * max 1 ‖Complex.log (-⟨x, y⟩)‖ ^ 5 := by
  have hd := inDom_of hx hy hy0
  have h := portCE_fp (p' := 3.1415926535897932) fmtB64 hL cert_cli5 vx vy hd
  rw [← cli5_ev _ (im_ne_F fmtB64 vy hd.y_ne)] at h
  refine CNear.mono h (mul_le_mul_of_nonneg_right ?_ (by positivity))
  rw [u64]; norm_num

theorem cli6_ev {F : Type} [FOps F] (z : Cx F) (h : (z.im ==. (FOps.lit 0 : F)) = false) : C.cli6 z =
    portShape (posLogP 3.1415926535897932) (FOps.lit 3.1415926535897932 : F) (fun u => (ceN6P 1.0173430619844491 1.0369277551433699 0.54116161685556910 0.20034281719326571 0.068538919452009435 (∸♯1 /. ÷1440) cli6dCs).ev (env2 u (posLogP 3.1415926535897932 (∸u)))) (fun u => (ceFin18s cli6dBf cU ce0 (CXE.lit 1)).ev (env2 u u))
      (fun u l => (ceI6 3.1415926535897932 cli6dBf).ev (env2 u l)) z := by
  rw [ccli6_eq]
  simp only [h, Bool.false_and, Bool.false_eq_true, if_false]
  rfl

theorem cert_cli6 : LiCert binary64 3 3.1415926535897932 (ceN6P 1.0173430619844491 1.0369277551433699 0.54116161685556910 0.20034281719326571 0.068538919452009435 (∸♯1 /. ÷1440) cli6dCs) (ceFin18s cli6dBf cU ce0 (CXE.lit 1)) (ceI6 3.1415926535897932 cli6dBf)
    1000 (8.4e-16 + 4 * uR binary64) (2.5e-16 + 20.2 * uR binary64) where
  near := okBox_spec (d := 0) (k := 1000) (by decide +kernel)
  fin1 := okBox_spec' (d := 20) (k := 1000) (by decide +kernel)
  finI := okBox_spec (d := 6) (k := 1000) (by decide +kernel)
  ord := by norm_num
  pi_lit := by decide +kernel
  pi_err := pi_err_of fmtB64 (e := 3.85e-17) (by norm_num) (by norm_num) (by decide +kernel) (by rw [u64]; norm_num)
  E0_nonneg := by have := uR_pos (φ := binary64); linarith
  E1_nonneg := by have := uR_pos (φ := binary64); linarith
  method z hz := by
    have h := C37_cli6_accuracy (semF_lit fmtB64) (by rw [u64]; norm_num) z
    rw [cli6_ev _ (im_ne_R (semF_zero fmtB64) hz), portCE_R (semF_lit fmtB64) 3.1415926535897932 3.1415926535897932 _ _ _ hz] at h
    exact h

/-- `double complex cli6(z)` of the C port, evaluated in IEEE binary64 with a C library within the accuracy `CxLib`: for every `z = x + iy` off the real
axis (parts up to `2^±300`) both parts of the result are finite and the result is within `1.8e-13 · max(1, |log(-z)|^6)` of `Li6(z)`. -/
theorem C46_cli6_IEEE (hL : CxLib binary64 L) {z : Cx (FP binary64 L)} {x y : ℚ} (vx : Val binary64 (ofF z.re) x) (vy : Val binary64 (ofF z.im) y)
    (hx : |x| ≤ 2 ^ (300:ℤ)) (hy : |y| ≤ 2 ^ (300:ℤ)) (hy0 : 2 ^ (-300:ℤ) ≤ |y|) :
    ∃ a b : ℚ, Val binary64 (ofF (C.cli6 z).re) a ∧ Val binary64 (ofF (C.cli6 z).im) b ∧
      ‖(⟨a, b⟩ : ℂ) - pLi 6 ⟨x, y⟩‖ ≤ 1.8e-13 * max 1 ‖Complex.log (-⟨x, y⟩)‖ ^ 6 := by
  have hd := inDom_of hx hy hy0
  have h := portCE_fp (p' := 3.1415926535897932) fmtB64 hL cert_cli6 vx vy hd
  rw [← cli6_ev _ (im_ne_F fmtB64 vy hd.y_ne)] at h
  refine CNear.mono h (mul_le_mul_of_nonneg_right ?_ (by positivity))
  rw [u64]; norm_num

theorem cdli3_ev {F : Type} [FOps F] (z : Cx F) (h : (z.im ==. (FOps.lit 0 : F)) = false) : Fortran.cdli3 z =
    portShape (posLogP 3.14159265358979324) (FOps.lit 3.1415926535897932 : F) (fun u => (ceN3 1.2020569031595943 1.6449340668482264 cli3dCs).ev (env2 u (posLogP 3.14159265358979324 (∸u)))) (fun u => (ceFin18 cli3dBf cU ce0).ev (env2 u u))
      (fun u l => (ceI3F 1.6449340668482264 cli3dBf).ev (env2 u l)) z := by
  rw [cdli3_eq]
  simp only [h, Bool.false_and, Bool.false_eq_true, if_false]
  rfl

theorem cert_cdli3 : LiCert binary64 0 3.1415926535897932 (ceN3 1.2020569031595943 1.6449340668482264 cli3dCs) (ceFin18 cli3dBf cU ce0) (ceI3F 1.6449340668482264 cli3dBf)
    740 (5.6e-15 + 3 * uR binary64) (2.5e-16 + 20.2 * uR binary64) where
  near := okBox_spec (d := 0) (k := 740) (by decide +kernel)
  fin1 := okBox_spec' (d := 20) (k := 740) (by decide +kernel)
  finI := okBox_spec (d := 3) (k := 740) (by decide +kernel)
  ord := by norm_num
  pi_lit := by decide +kernel
  pi_err := pi_err_of fmtB64 (e := 3.85e-17) (by norm_num) (by norm_num) (by decide +kernel) (by rw [u64]; norm_num)
  E0_nonneg := by have := uR_pos (φ := binary64); linarith
  E1_nonneg := by have := uR_pos (φ := binary64); linarith
  method z hz := by
    have h := C18_Li3d_offaxis (semF_lit fmtB64) (by rw [u64]; norm_num) z hz
    rw [← C38_cdli3 (semF_lit fmtB64) z, cdli3_ev _ (im_ne_R (semF_zero fmtB64) hz), portCE_R (semF_lit fmtB64) 3.1415926535897932 3.14159265358979324 _ _ _ hz] at h
    exact h

/-- `cdli3(z)` of the Fortran port, evaluated in IEEE binary64 with a C library within the accuracy `CxLib`: for every `z = x + iy` off the real
axis (parts up to `2^±300`) both parts of the result are finite and the result is within `1.5e-13 · max(1, |log(-z)|^3)` of `Li3(z)`. -/
theorem C46_cdli3_IEEE (hL : CxLib binary64 L) {z : Cx (FP binary64 L)} {x y : ℚ} (vx : Val binary64 (ofF z.re) x) (vy : Val binary64 (ofF z.im) y)
    (hx : |x| ≤ 2 ^ (300:ℤ)) (hy : |y| ≤ 2 ^ (300:ℤ)) (hy0 : 2 ^ (-300:ℤ) ≤ |y|) :
    ∃ a b : ℚ, Val binary64 (ofF (Fortran.cdli3 z).re) a ∧ Val binary64 (ofF (Fortran.cdli3 z).im) b ∧
      ‖(⟨a, b⟩ : ℂ) - pLi 3 ⟨x, y⟩‖ ≤ 1.5e-13 * max 1 ‖Complex.log (-⟨x, y⟩)‖ ^ 3 := by
  have hd := inDom_of hx hy hy0
  have h := portCE_fp (p' := 3.14159265358979324) fmtB64 hL cert_cdli3 vx vy hd
  rw [← cdli3_ev _ (im_ne_F fmtB64 vy hd.y_ne)] at h
  refine CNear.mono h (mul_le_mul_of_nonneg_right ?_ (by positivity))
  rw [u64]; norm_num

theorem cdli4_ev {F : Type} [FOps F] (z : Cx F) (h : (z.im ==. (FOps.lit 0 : F)) = false) : Fortran.cdli4 z =
    portShape (posLogP 3.14159265358979324) (FOps.lit 3.1415926535897932 : F) (fun u => (ceN4P 1.0823232337111382 1.2020569031595943 0.82246703342411322 (∸(♯1 /. ÷48)) cli4dCs).ev (env2 u (posLogP 3.14159265358979324 (∸u)))) (fun u => (ceFin18s cli4dBf cU ce0 (CXE.lit 1)).ev (env2 u u))
      (fun u l => (ceI4F cli4dBf).ev (env2 u l)) z := by
  rw [cdli4_eq]
  simp only [h, Bool.false_and, Bool.false_eq_true, if_false]
  rfl

theorem cert_cdli4 : LiCert binary64 1 3.1415926535897932 (ceN4P 1.0823232337111382 1.2020569031595943 0.82246703342411322 (∸(♯1 /. ÷48)) cli4dCs) (ceFin18s cli4dBf cU ce0 (CXE.lit 1)) (ceI4F cli4dBf)
    900 (4.1e-15 + 4 * uR binary64) (2.5e-16 + 20.2 * uR binary64) where
  near := okBox_spec (d := 0) (k := 900) (by decide +kernel)
  fin1 := okBox_spec' (d := 20) (k := 900) (by decide +kernel)
  finI := okBox_spec (d := 4) (k := 900) (by decide +kernel)
  ord := by norm_num
  pi_lit := by decide +kernel
  pi_err := pi_err_of fmtB64 (e := 3.85e-17) (by norm_num) (by norm_num) (by decide +kernel) (by rw [u64]; norm_num)
  E0_nonneg := by have := uR_pos (φ := binary64); linarith
  E1_nonneg := by have := uR_pos (φ := binary64); linarith
  method z hz := by
    have h := C38_cdli4_offaxis (semF_lit fmtB64) (by rw [u64]; norm_num) z hz
    rw [cdli4_ev _ (im_ne_R (semF_zero fmtB64) hz), portCE_R (semF_lit fmtB64) 3.1415926535897932 3.14159265358979324 _ _ _ hz] at h
    exact h

/-- `cdli4(z)` of the Fortran port, evaluated in IEEE binary64 with a C library within the accuracy `CxLib`: for every `z = x + iy` off the real
axis (parts up to `2^±300`) both parts of the result are finite and the result is within `1.7e-13 · max(1, |log(-z)|^4)` of `Li4(z)`. -/
theorem C46_cdli4_IEEE (hL : CxLib binary64 L) {z : Cx (FP binary64 L)} {x y : ℚ} (vx : Val binary64 (ofF z.re) x) (vy : Val binary64 (ofF z.im) y)
    (hx : |x| ≤ 2 ^ (300:ℤ)) (hy : |y| ≤ 2 ^ (300:ℤ)) (hy0 : 2 ^ (-300:ℤ) ≤ |y|) :
    ∃ a b : ℚ, Val binary64 (ofF (Fortran.cdli4 z).re) a ∧ Val binary64 (ofF (Fortran.cdli4 z).im) b ∧
      ‖(⟨a, b⟩ : ℂ) - pLi 4 ⟨x, y⟩‖ ≤ 1.7e-13 * max 1 ‖Complex.log (-⟨x, y⟩)‖ ^ 4 := by
  have hd := inDom_of hx hy hy0
  have h := portCE_fp (p' := 3.14159265358979324) fmtB64 hL cert_cdli4 vx vy hd
  rw [← cdli4_ev _ (im_ne_F fmtB64 vy hd.y_ne)] at h
  refine CNear.mono h (mul_le_mul_of_nonneg_right ?_ (by positivity))
  rw [u64]; norm_num

theorem cdli5_ev {F : Type} [FOps F] (z : Cx F) (h : (z.im ==. (FOps.lit 0 : F)) = false) : Fortran.cdli5 z =
    portShape (posLogP 3.14159265358979324) (FOps.lit 3.1415926535897932 : F) (fun u => (ceN5P 1.0369277551433699 1.0823232337111382 0.60102845157979714 0.27415567780803774 (∸(♯1 /. ÷240)) cli5dCs).ev (env2 u (posLogP 3.14159265358979324 (∸u)))) (fun u => (ceFin19 cli5dBf cU ce0).ev (env2 u u))
      (fun u l => (ceI5F cli5dBf).ev (env2 u l)) z := by
  rw [cdli5_eq]
  simp only [h, Bool.false_and, Bool.false_eq_true, if_false]
  rfl

theorem cert_cdli5 : LiCert binary64 2 3.1415926535897932 (ceN5P 1.0369277551433699 1.0823232337111382 0.60102845157979714 0.27415567780803774 (∸(♯1 /. ÷240)) cli5dCs) (ceFin19 cli5dBf cU ce0) (ceI5F cli5dBf)
    1000 (2.4e-16 + 4 * uR binary64) (2.5e-16 + 20.2 * uR binary64) where
  near := okBox_spec (d := 0) (k := 1000) (by decide +kernel)
  fin1 := okBox_spec' (d := 20) (k := 1000) (by decide +kernel)
  finI := okBox_spec (d := 5) (k := 1000) (by decide +kernel)
  ord := by norm_num
  pi_lit := by decide +kernel
  pi_err := pi_err_of fmtB64 (e := 3.85e-17) (by norm_num) (by norm_num) (by decide +kernel) (by rw [u64]; norm_num)
  E0_nonneg := by have := uR_pos (φ := binary64); linarith
  E1_nonneg := by have := uR_pos (φ := binary64); linarith
  method z hz := by
    have h := C38_cdli5 (semF_lit fmtB64) (by rw [u64]; norm_num) z
    rw [cdli5_ev _ (im_ne_R (semF_zero fmtB64) hz), portCE_R (semF_lit fmtB64) 3.1415926535897932 3.14159265358979324 _ _ _ hz] at h
    exact h

/-- `cdli5(z)` of the Fortran port, evaluated in IEEE binary64 with a C library within the accuracy `CxLib`: for every `z = x + iy` off the real
axis (parts up to `2^±300`) both parts of the result are finite and the result is within `1.8e-13 · max(1, |log(-z)|^5)` of `Li5(z)`. -/
theorem C46_cdli5_IEEE (hL : CxLib binary64 L) {z : Cx (FP binary64 L)} {x y : ℚ} (vx : Val binary64 (ofF z.re) x) (vy : Val binary64 (ofF z.im) y)
    (hx : |x| ≤ 2 ^ (300:ℤ)) (hy : |y| ≤ 2 ^ (300:ℤ)) (hy0 : 2 ^ (-300:ℤ) ≤ |y|) :
    ∃ a b : ℚ, Val binary64 (ofF (Fortran.cdli5 z).re) a ∧ Val binary64 (ofF (Fortran.cdli5 z).im) b ∧
      ‖(⟨a, b⟩ : ℂ) - pLi 5 ⟨x, y⟩‖ ≤ 1.8e-13 * max 1 ‖Complex.log (-⟨x, y⟩)‖ ^ 5 := by
  have hd := inDom_of hx hy hy0
  have h := portCE_fp (p' := 3.14159265358979324) fmtB64 hL cert_cdli5 vx vy hd
  rw [← cdli5_ev _ (im_ne_F fmtB64 vy hd.y_ne)] at h
  refine CNear.mono h (mul_le_mul_of_nonneg_right ?_ (by positivity))
  rw [u64]; norm_num

theorem cdli6_ev {F : Type} [FOps F] (z : Cx F) (h : (z.im ==. (FOps.lit 0 : F)) = false) : Fortran.cdli6 z =
    portShape (posLogP 3.14159265358979324) (FOps.lit 3.1415926535897932 : F) (fun u => (ceN6P 1.0173430619844491 1.0369277551433699 0.54116161685556910 0.20034281719326571 0.068538919452009435 (∸(♯1 /. ÷1440)) cli6dCs).ev (env2 u (posLogP 3.14159265358979324 (∸u)))) (fun u => (ceFin18s cli6dBf cU ce0 (CXE.lit 1)).ev (env2 u u))
      (fun u l => (ceI6F cli6dBf).ev (env2 u l)) z := by
  rw [cdli6_eq]
  simp only [h, Bool.false_and, Bool.false_eq_true, if_false]
  rfl

theorem cert_cdli6 : LiCert binary64 3 3.1415926535897932 (ceN6P 1.0173430619844491 1.0369277551433699 0.54116161685556910 0.20034281719326571 0.068538919452009435 (∸(♯1 /. ÷1440)) cli6dCs) (ceFin18s cli6dBf cU ce0 (CXE.lit 1)) (ceI6F cli6dBf)
    1000 (8.4e-16 + 4 * uR binary64) (2.5e-16 + 20.2 * uR binary64) where
  near := okBox_spec (d := 0) (k := 1000) (by decide +kernel)
  fin1 := okBox_spec' (d := 20) (k := 1000) (by decide +kernel)
  finI := okBox_spec (d := 6) (k := 1000) (by decide +kernel)
  ord := by norm_num
  pi_lit := by decide +kernel
  pi_err := pi_err_of fmtB64 (e := 3.85e-17) (by norm_num) (by norm_num) (by decide +kernel) (by rw [u64]; norm_num)
  E0_nonneg := by have := uR_pos (φ := binary64); linarith
  E1_nonneg := by have := uR_pos (φ := binary64); linarith
  method z hz := by
    have h := C38_cdli6 (semF_lit fmtB64) (by rw [u64]; norm_num) z
    rw [cdli6_ev _ (im_ne_R (semF_zero fmtB64) hz), portCE_R (semF_lit fmtB64) 3.1415926535897932 3.14159265358979324 _ _ _ hz] at h
    exact h

/-- `cdli6(z)` of the Fortran port, evaluated in IEEE binary64 with a C library within the accuracy `CxLib`: for every `z = x + iy` off the real
axis (parts up to `2^±300`) both parts of the result are finite and the result is within `1.8e-13 · max(1, |log(-z)|^6)` of `Li6(z)`. -/
theorem C46_cdli6_IEEE (hL : CxLib binary64 L) {z : Cx (FP binary64 L)} {x y : ℚ} (vx : Val binary64 (ofF z.re) x) (vy : Val binary64 (ofF z.im) y)
    (hx : |x| ≤ 2 ^ (300:ℤ)) (hy : |y| ≤ 2 ^ (300:ℤ)) (hy0 : 2 ^ (-300:ℤ) ≤ |y|) :
    ∃ a b : ℚ, Val binary64 (ofF (Fortran.cdli6 z).re) a ∧ Val binary64 (ofF (Fortran.cdli6 z).im) b ∧
      ‖(⟨a, b⟩ : ℂ) - pLi 6 ⟨x, y⟩‖ ≤ 1.8e-13 * max 1 ‖Complex.log (-⟨x, y⟩)‖ ^ 6 := by
  have hd := inDom_of hx hy hy0
  have h := portCE_fp (p' := 3.14159265358979324) fmtB64 hL cert_cdli6 vx vy hd
  rw [← cdli6_ev _ (im_ne_F fmtB64 vy hd.y_ne)] at h
  refine CNear.mono h (mul_le_mul_of_nonneg_right ?_ (by positivity))
  rw [u64]; norm_num

/-- the hypotheses of `C46_cli3_IEEE` can be met: `z = 3/2 + (1/1024)i` -/
example : ∃ (L : Lib) (z : Cx (FP binary64 L)), CxLib binary64 L ∧ Val binary64 (ofF z.re) (3/2) ∧ Val binary64 (ofF z.im) (1/1024) ∧
    ∃ a b : ℚ, Val binary64 (ofF (C.cli3 z).re) a ∧ Val binary64 (ofF (C.cli3 z).im) b ∧
      ‖(⟨a, b⟩ : ℂ) - pLi 3 ⟨(3/2 : ℚ), (1/1024 : ℚ)⟩‖ ≤ 1.5e-13 * max 1 ‖Complex.log (-⟨(3/2 : ℚ), (1/1024 : ℚ)⟩)‖ ^ 3 := by
  obtain ⟨L, hL, -⟩ := cxLib_exists fmtB64 zeroLib
  have v1 : Val binary64 (rndQ binary64 (3/2)) (3/2) := near_dy fmtB64.a 3 1 (by norm_num) (by norm_num) (by norm_num)
  have v2 : Val binary64 (rndQ binary64 (1/1024)) (1/1024) := near_dy fmtB64.a 1 10 (by norm_num) (by norm_num) (by norm_num)
  exact ⟨L, ⟨FOps.lit (3/2), FOps.lit (1/1024)⟩, hL, v1, v2, C46_cli3_IEEE hL v1 v2 (by decide +kernel) (by decide +kernel) (by decide +kernel)⟩

/-- the hypotheses of `C46_cdli6_IEEE` can be met: `z = -7 + (-1/2)i` -/
example : ∃ (L : Lib) (z : Cx (FP binary64 L)), CxLib binary64 L ∧ Val binary64 (ofF z.re) (-7) ∧ Val binary64 (ofF z.im) (-1/2) ∧
    ∃ a b : ℚ, Val binary64 (ofF (Fortran.cdli6 z).re) a ∧ Val binary64 (ofF (Fortran.cdli6 z).im) b ∧
      ‖(⟨a, b⟩ : ℂ) - pLi 6 ⟨(-7 : ℚ), (-1/2 : ℚ)⟩‖ ≤ 1.8e-13 * max 1 ‖Complex.log (-⟨(-7 : ℚ), (-1/2 : ℚ)⟩)‖ ^ 6 := by
  obtain ⟨L, hL, -⟩ := cxLib_exists fmtB64 zeroLib
  have v1 : Val binary64 (rndQ binary64 (-7)) (-7) := near_dy fmtB64.a (-7) 0 (by norm_num) (by norm_num) (by norm_num)
  have v2 : Val binary64 (rndQ binary64 (-1/2)) (-1/2) := near_dy fmtB64.a (-1) 1 (by norm_num) (by norm_num) (by norm_num)
  exact ⟨L, ⟨FOps.lit (-7), FOps.lit (-1/2)⟩, hL, v1, v2, C46_cdli6_IEEE hL v1 v2 (by decide +kernel) (by decide +kernel) (by decide +kernel)⟩

end Polylog
