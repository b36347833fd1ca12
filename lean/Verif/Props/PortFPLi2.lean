import Verif.Props.CLi2FPInst
import Verif.Props.PortFPLong
import Verif.Props.CLi2Cx

/-!
# C46: the complex dilogarithms of the C and Fortran ports in IEEE arithmetic
-/

namespace Polylog
set_option linter.style.longLine false
open Complex

variable {L : Lib}

local notation:max "♯" q:max => (CXE.lit (q : ℚ))
local notation:max "÷" q:max => (DLit.mk (q : ℚ))

/-- series of `cli2` and `cdli2` -/
def ceP2d (bf : Vector ℚ 10) : CXE true :=
  let u := cU
  let u2 := u *. u
  let u4 := u2 *. u2
  u +. u2 *. (♯(bf[0]) +. u *. (♯(bf[1]) +. u2 *. (♯(bf[2]) +. u2 *. ♯(bf[3]) +. u4 *. (♯(bf[4]) +. u2 *. ♯(bf[5])) +. u4 *. u4 *. (♯(bf[6]) +. u2 *. ♯(bf[7]) +. u4 *. (♯(bf[8]) +. u2 *. ♯(bf[9]))))))
/-- series of `cli2l` -/
def ceP2l {n : ℕ} (bf : Vector ℚ (n + 2)) : CXE true := cU +. cU *. cU *. (♯(bf[0]) +. cU *. (♯(bf[1]) +. ceSum 2 (cU *. cU) bf))
def eX2 (P : CXE true) : CXE true := ♯1 *. P +. ce0
def eX3 (p : ℚ) (P : CXE true) : CXE true := ∸♯1 *. P +. (cL +. ♯p *. ♯p /. ÷6)
def eXI (p : ℚ) (P : CXE true) : CXE true := ∸♯1 *. P +. (CXE.addr (∸♯0.5 *. cL *. cL) (∸(♯p *. ♯p /. ÷6)))
def eXIF (p : ℚ) (P : CXE true) : CXE true := ∸♯1 *. P +. (CXE.addr (∸(♯0.5 *. (cL *. cL))) (∸(♯p *. ♯p /. ÷6)))

section
variable {F : Type} [FOps F]
theorem cfin2d_ser (bf : Vector ℚ 10) (u r : Cx F) (s : F) (l : Cx F) : cfin2d bf u r s = s *. ((ceP2d bf).ev (env2 u l) : Cx F) +. r := by exact (rfl)
theorem ev_X2d (bf : Vector ℚ 10) (u l : Cx F) : (eX2 (ceP2d bf)).ev (env2 u l) = cfin2d bf u (Cx.ofReal (FOps.lit 0 : F)) (FOps.lit 1) := by rw [cfin2d_ser bf _ _ _ l]; exact (rfl)
theorem ev_X3d (p : ℚ) (bf : Vector ℚ 10) (u l : Cx F) : (eX3 p (ceP2d bf)).ev (env2 u l) = cfin2d bf u (l +. (FOps.lit p : F) *. (FOps.lit p : F) /. (FOps.lit 6 : F)) (∸(FOps.lit 1 : F)) := by rw [cfin2d_ser bf _ _ _ l]; exact (rfl)
theorem ev_XId (p : ℚ) (bf : Vector ℚ 10) (u l : Cx F) : (eXI p (ceP2d bf)).ev (env2 u l) = cfin2d bf u (∸(FOps.lit 0.5 : F) *. l *. l +. ∸((FOps.lit p : F) *. (FOps.lit p : F) /. (FOps.lit 6 : F))) (∸(FOps.lit 1 : F)) := by rw [cfin2d_ser bf _ _ _ l]; exact (rfl)
theorem ev_XIF (p : ℚ) (bf : Vector ℚ 10) (u l : Cx F) : (eXIF p (ceP2d bf)).ev (env2 u l) = cfin2d bf u (∸((FOps.lit 0.5 : F) *. (l *. l)) +. ∸((FOps.lit p : F) *. (FOps.lit p : F) /. (FOps.lit 6 : F))) (∸(FOps.lit 1 : F)) := by rw [cfin2d_ser bf _ _ _ l]; exact (rfl)
theorem ev_X2l {n : ℕ} (bf : Vector ℚ (n + 2)) (u l : Cx F) : (eX2 (ceP2l bf)).ev (env2 u l) = cfin2l bf u (Cx.ofReal (FOps.lit 0 : F)) (FOps.lit 1) := by
  unfold cfin2l; dsimp only; rw [csumU2_ev 2 bf u l]; rfl
theorem ev_X3l {n : ℕ} (p : ℚ) (bf : Vector ℚ (n + 2)) (u l : Cx F) : (eX3 p (ceP2l bf)).ev (env2 u l) = cfin2l bf u (l +. (FOps.lit p : F) *. (FOps.lit p : F) /. (FOps.lit 6 : F)) (∸(FOps.lit 1 : F)) := by
  unfold cfin2l; dsimp only; rw [csumU2_ev 2 bf u l]; rfl
theorem ev_XIl {n : ℕ} (p : ℚ) (bf : Vector ℚ (n + 2)) (u l : Cx F) : (eXI p (ceP2l bf)).ev (env2 u l) = cfin2l bf u (∸(FOps.lit 0.5 : F) *. l *. l +. ∸((FOps.lit p : F) *. (FOps.lit p : F) /. (FOps.lit 6 : F))) (∸(FOps.lit 1 : F)) := by
  unfold cfin2l; dsimp only; rw [csumU2_ev 2 bf u l]; rfl

theorem fin2_e2 {m : ℕ} (bf : Vector ℚ (m + 3)) (u l : Cx F) : (CXE.subst (ceHorner (cU *. cU) (tailV bf)) (e2 (bf[0]) c7)).ev (env2 u l) = fin2 (n := m + 1) bf u (Cx.ofReal (FOps.lit 0 : F)) (FOps.lit 1) := by
  rw [e2_ev]; rfl
theorem fin2_e3 {m : ℕ} (p : ℚ) (bf : Vector ℚ (m + 3)) (u l : Cx F) : (CXE.subst (ceHorner (cU *. cU) (tailV bf)) (e3 p (bf[0]) c7)).ev (env2 u l) = fin2 (n := m + 1) bf u (l +. (FOps.lit p : F) *. (FOps.lit p : F) /. (FOps.lit 6 : F)) (∸(FOps.lit 1 : F)) := by
  rw [e3_ev]; rfl
theorem fin2_eI {m : ℕ} (p : ℚ) (bf : Vector ℚ (m + 3)) (u l : Cx F) : (CXE.subst (ceHorner (cU *. cU) (tailV bf)) (eI p (bf[0]) c7)).ev (env2 u l) = fin2 (n := m + 1) bf u (∸(FOps.lit 0.5 : F) *. l *. l +. ∸((FOps.lit p : F) *. (FOps.lit p : F) /. (FOps.lit 6 : F))) (∸(FOps.lit 1 : F)) := by
  rw [eI_ev]; rfl

/-- the branches of a dilogarithm of the ports -/
theorem li2Shape_sh (lI : Cx F) (f : F → F) (PI : F) (fin : Cx F → Cx F → F → Cx F) (z : Cx F) : li2Shape (clog1p (∸z)) lI f PI fin z =
    li2Sh lI (if z.re <=. (FOps.lit 1 : F) then ⟨(f z.re), z.im⟩ else ⟨(f z.re), ∸PI *. (xlog z.re)⟩)
      (fun u => fin u (Cx.ofReal (FOps.lit 0 : F)) (FOps.lit 1)) (fun u l => fin u (l +. PI *. PI /. (FOps.lit 6 : F)) (∸(FOps.lit 1 : F)))
      (fun u l => fin u (∸(FOps.lit 0.5 : F) *. l *. l -. PI *. PI /. (FOps.lit 6 : F)) (∸(FOps.lit 1 : F))) z := rfl

theorem cdli2_sh (junk z : Cx F) : Fortran.cdli2 junk z =
    li2Sh (clog1p (∸((FOps.lit 1 : F) /. z))) (if z.re <=. (FOps.lit 1 : F) then ⟨(Fortran.dli2 z.re), z.im⟩ else if z.re >. (FOps.lit 1 : F) then ⟨(Fortran.dli2 z.re), ∸((FOps.lit 3.14159265358979324 : F) *. (xlog z.re))⟩ else junk)
      (fun u => cfin2d Fortran.cdli2Bf u (Cx.ofReal (FOps.lit 0 : F)) (FOps.lit 1))
      (fun u l => cfin2d Fortran.cdli2Bf u (l +. (FOps.lit 3.14159265358979324 : F) *. (FOps.lit 3.14159265358979324 : F) /. (FOps.lit 6 : F)) (∸(FOps.lit 1 : F)))
      (fun u l => cfin2d Fortran.cdli2Bf u (∸((FOps.lit 0.5 : F) *. (l *. l)) -. (FOps.lit 3.14159265358979324 : F) *. (FOps.lit 3.14159265358979324 : F) /. (FOps.lit 6 : F)) (∸(FOps.lit 1 : F))) z := rfl
end

/-- certificate of a final sum that is exactly equal to that of the C++ function -/
theorem Li2CertE.congr {φ : Fmt} {x2 x3 xI y2 y3 yI : CXE true} {K K' : ℕ} {E P : ℝ} (h : Li2CertE φ x2 x3 xI K E P)
    (b2 : ∃ b, y2.chk 10 (envB boxA boxA) = some b ∧ um b.e ≤ (K' : ℝ)) (b3 : ∃ b, y3.chk 10 (envB boxA boxQ) = some b ∧ um b.e ≤ ((4 * K' : ℕ) : ℝ))
    (bI : ∃ b, yI.chk 10 (envB boxA boxL2) = some b ∧ b.d ≤ 2 ∧ um b.e ≤ (K' : ℝ)) (k0 : okBox (e0.chk 10 (envB boxS boxS)) 100 K' = true)
    (h2 : ∀ w l : Cx (R (semF φ)), y2.ev (env2 w l) = x2.ev (env2 w l)) (h3 : ∀ w l : Cx (R (semF φ)), y3.ev (env2 w l) = x3.ev (env2 w l))
    (hI : ∀ w l : Cx (R (semF φ)), yI.ev (env2 w l) = xI.ev (env2 w l)) : Li2CertE φ y2 y3 yI K' E P where
  b2 := b2
  b3 := b3
  bI := bI
  k0 := k0
  E_nonneg := h.E_nonneg
  P_nonneg := h.P_nonneg
  m2 w hw := by rw [h2]; exact h.m2 w hw
  m3 w q hw := by rw [h3]; exact h.m3 w q hw
  mI w q hw := by rw [hI]; exact h.mI w q hw

theorem bf_f : Fortran.cdli2Bf = cli2dBf := by decide +kernel

theorem half_sq {S : RealSem} (l : Cx (R S)) : ∸((FOps.lit 0.5 : R S) *. (l *. l)) = ∸(FOps.lit 0.5 : R S) *. l *. l := by
  apply cx_ext
  simp only [toC_neg, toC_rmul, toC_mul, ofR_neg]
  push_cast; ring

theorem cert_cli2 : Li2CertE binary64 (eX2 (ceP2d cli2dBf)) (eX3 3.1415926535897932 (ceP2d cli2dBf)) (eXI 3.1415926535897932 (ceP2d cli2dBf)) 251
    (1.1 * (((717 * 10 ^ 41 : ℤ) : ℝ) / 10 ^ 60 + 1e-46 + uR binary64 * (((131 * 10 ^ 58 : ℤ) : ℝ) / 10 ^ 60))) (6 * uR binary64) :=
  (cert2d.toE fmtB64).congr (okBox_spec' (d := 100) (by decide +kernel)) (okBox_spec' (d := 100) (by decide +kernel)) (okBox_spec (d := 2) (by decide +kernel)) (by decide +kernel)
    (fun w l => by rw [ev_X2d, fin2_e2 (m := 7), cfin2d_eq])
    (fun w l => by rw [ev_X3d, fin2_e3 (m := 7), cfin2d_eq])
    (fun w l => by rw [ev_XId, fin2_eI (m := 7), cfin2d_eq])

theorem cert2F : Li2Cert binary64 3.14159265358979324 cli2dBf 251 (1.1 * (((717 * 10 ^ 41 : ℤ) : ℝ) / 10 ^ 60 + 1e-46 + uR binary64 * (((131 * 10 ^ 58 : ℤ) : ℝ) / 10 ^ 60))) (6 * uR binary64) where
  k2 := by decide +kernel
  k3 := by decide +kernel
  kI := by decide +kernel
  k0 := by decide +kernel
  pi := pi_sq_err fmtB64 (e := 3.85e-17) (by norm_num) (by norm_num) (by decide +kernel) (by rw [u64]; norm_num)
  ser := cert2d.ser

theorem cert_cdli2 : Li2CertE binary64 (eX2 (ceP2d cli2dBf)) (eX3 3.14159265358979324 (ceP2d cli2dBf)) (eXIF 3.14159265358979324 (ceP2d cli2dBf)) 251
    (1.1 * (((717 * 10 ^ 41 : ℤ) : ℝ) / 10 ^ 60 + 1e-46 + uR binary64 * (((131 * 10 ^ 58 : ℤ) : ℝ) / 10 ^ 60))) (6 * uR binary64) :=
  (cert2F.toE fmtB64).congr (okBox_spec' (d := 100) (by decide +kernel)) (okBox_spec' (d := 100) (by decide +kernel)) (okBox_spec (d := 2) (by decide +kernel)) (by decide +kernel)
    (fun w l => by rw [ev_X2d, fin2_e2 (m := 7), cfin2d_eq])
    (fun w l => by rw [ev_X3d, fin2_e3 (m := 7), cfin2d_eq])
    (fun w l => by rw [ev_XIF, fin2_eI (m := 7), cfin2d_eq, half_sq])

theorem cert_cli2l18 : Li2CertE x87ext (eX2 (ceP2l (n := 9) cli2l18Bf)) (eX3 3.14159265358979323846264338327950288 (ceP2l (n := 9) cli2l18Bf)) (eXI 3.14159265358979323846264338327950288 (ceP2l (n := 9) cli2l18Bf)) 251
    (1.1 * (((201 * 10 ^ 40 : ℤ) : ℝ) / 10 ^ 60 + 1e-46 + uR x87ext * (((131 * 10 ^ 58 : ℤ) : ℝ) / 10 ^ 60))) (6 * uR x87ext) :=
  (cert2l18.toE fmtB80).congr (okBox_spec' (d := 100) (by decide +kernel)) (okBox_spec' (d := 100) (by decide +kernel)) (okBox_spec (d := 2) (by decide +kernel)) (by decide +kernel)
    (fun w l => by rw [ev_X2l, fin2_e2 (m := 8), cfin2l_eq (semF_lit fmtB80)])
    (fun w l => by rw [ev_X3l, fin2_e3 (m := 8), cfin2l_eq (semF_lit fmtB80)])
    (fun w l => by rw [ev_XIl, fin2_eI (m := 8), cfin2l_eq (semF_lit fmtB80)])

theorem cert_cli2l36 : Li2CertE binary128 (eX2 (ceP2l (n := 21) cli2l36Bf)) (eX3 3.14159265358979323846264338327950288 (ceP2l (n := 21) cli2l36Bf)) (eXI 3.14159265358979323846264338327950288 (ceP2l (n := 21) cli2l36Bf)) 251
    (1.1 * (((676 * 10 ^ 21 : ℤ) : ℝ) / 10 ^ 60 + 1e-46 + uR binary128 * (((131 * 10 ^ 58 : ℤ) : ℝ) / 10 ^ 60))) (6 * uR binary128) :=
  (cert2l36.toE fmtB128).congr (okBox_spec' (d := 100) (by decide +kernel)) (okBox_spec' (d := 100) (by decide +kernel)) (okBox_spec (d := 2) (by decide +kernel)) (by decide +kernel)
    (fun w l => by rw [ev_X2l, fin2_e2 (m := 20), cfin2l_eq (semF_lit fmtB128)])
    (fun w l => by rw [ev_X3l, fin2_e3 (m := 20), cfin2l_eq (semF_lit fmtB128)])
    (fun w l => by rw [ev_XIl, fin2_eI (m := 20), cfin2l_eq (semF_lit fmtB128)])

/-- `double _Complex cli2(z)` (C), evaluated in IEEE binary64, with a C library within the accuracy `CxLib`: for every `z = x + iy` off the real
axis (parts up to `2^±300`) both parts of the result are finite and the result is within `3e-14 · max(1, |log(-z)|^2)` of `Li2(z)`. -/
theorem C46_cli2_IEEE (hL : CxLib binary64 L) {z : Cx (FP binary64 L)} {x y : ℚ} (vx : Val binary64 (ofF z.re) x) (vy : Val binary64 (ofF z.im) y)
    (hx : |x| ≤ 2 ^ (300:ℤ)) (hy : |y| ≤ 2 ^ (300:ℤ)) (hy0 : 2 ^ (-300:ℤ) ≤ |y|) :
    ∃ a b : ℚ, Val binary64 (ofF (C.cli2 z).re) a ∧ Val binary64 (ofF (C.cli2 z).im) b ∧
      ‖(⟨a, b⟩ : ℂ) - pLi 2 ⟨x, y⟩‖ ≤ 3e-14 * max 1 ‖Complex.log (-⟨x, y⟩)‖ ^ 2 := by
  show CNear (C.cli2 z) (pLi 2 (cq x y)) _
  rw [ccli2_shape, li2Shape_sh]
  refine CNear.mono (cLi2E_fp fmtB64 (by decide) hL cert_cli2 vx vy (inDom_of hx hy hy0) _ _
      (fun u => (ev_X2d cli2dBf u u).symm) (fun u l => (ev_X3d 3.1415926535897932 cli2dBf u l).symm) (fun u l => (ev_XId 3.1415926535897932 cli2dBf u l).symm)
      (li2_inv_argW fmtB64 (by decide) hL (li2_inv_W (hφ := fmtB64) hL vx vy (inDom_of hx hy hy0)))) (mul_le_mul_of_nonneg_right ?_ (by positivity))
  rw [u64]; push_cast; norm_num

/-- `double complex function cdli2(z)` (Fortran), evaluated in IEEE binary64, with a C library within the accuracy `CxLib`: for every `z = x + iy` off the real
axis (parts up to `2^±300`) both parts of the result are finite and the result is within `3e-14 · max(1, |log(-z)|^2)` of `Li2(z)`. -/
theorem C46_cdli2_IEEE (hL : CxLib binary64 L) (junk : Cx (FP binary64 L)) {z : Cx (FP binary64 L)} {x y : ℚ} (vx : Val binary64 (ofF z.re) x) (vy : Val binary64 (ofF z.im) y)
    (hx : |x| ≤ 2 ^ (300:ℤ)) (hy : |y| ≤ 2 ^ (300:ℤ)) (hy0 : 2 ^ (-300:ℤ) ≤ |y|) :
    ∃ a b : ℚ, Val binary64 (ofF (Fortran.cdli2 junk z).re) a ∧ Val binary64 (ofF (Fortran.cdli2 junk z).im) b ∧
      ‖(⟨a, b⟩ : ℂ) - pLi 2 ⟨x, y⟩‖ ≤ 3e-14 * max 1 ‖Complex.log (-⟨x, y⟩)‖ ^ 2 := by
  show CNear (Fortran.cdli2 junk z) (pLi 2 (cq x y)) _
  rw [cdli2_sh, bf_f]
  refine CNear.mono (cLi2E_fp fmtB64 (by decide) hL cert_cdli2 vx vy (inDom_of hx hy hy0) _ _
      (fun u => (ev_X2d cli2dBf u u).symm) (fun u l => (ev_X3d 3.14159265358979324 cli2dBf u l).symm) (fun u l => (ev_XIF 3.14159265358979324 cli2dBf u l).symm)
      (li2_inv_argW fmtB64 (by decide) hL (li2_inv_W' (hφ := fmtB64) hL vx vy (inDom_of hx hy hy0)))) (mul_le_mul_of_nonneg_right ?_ (by positivity))
  rw [u64]; push_cast; norm_num

/-- `long double _Complex cli2l(z)` (C, x87 extended precision, `LDBL_DIG == 18`), with a C library within the accuracy `CxLib`: for every `z = x + iy` off the real
axis (parts up to `2^±300`) both parts of the result are finite and the result is within `1.7e-17 · max(1, |log(-z)|^2)` of `Li2(z)`. -/
theorem C46_cli2l18_IEEE (hL : CxLib x87ext L) {z : Cx (FP x87ext L)} {x y : ℚ} (vx : Val x87ext (ofF z.re) x) (vy : Val x87ext (ofF z.im) y)
    (hx : |x| ≤ 2 ^ (300:ℤ)) (hy : |y| ≤ 2 ^ (300:ℤ)) (hy0 : 2 ^ (-300:ℤ) ≤ |y|) :
    ∃ a b : ℚ, Val x87ext (ofF (C.cli2l18 z).re) a ∧ Val x87ext (ofF (C.cli2l18 z).im) b ∧
      ‖(⟨a, b⟩ : ℂ) - pLi 2 ⟨x, y⟩‖ ≤ 1.7e-17 * max 1 ‖Complex.log (-⟨x, y⟩)‖ ^ 2 := by
  show CNear (C.cli2l18 z) (pLi 2 (cq x y)) _
  rw [C.cli2l18, ccli2l_shape, li2Shape_sh]
  refine CNear.mono (cLi2E_fp fmtB80 (by decide) hL cert_cli2l18 vx vy (inDom_of hx hy hy0) _ _
      (fun u => (ev_X2l cli2l18Bf u u).symm) (fun u l => (ev_X3l 3.14159265358979323846264338327950288 cli2l18Bf u l).symm) (fun u l => (ev_XIl 3.14159265358979323846264338327950288 cli2l18Bf u l).symm)
      (li2_inv_argW fmtB80 (by decide) hL (li2_inv_W (hφ := fmtB80) hL vx vy (inDom_of hx hy hy0)))) (mul_le_mul_of_nonneg_right ?_ (by positivity))
  rw [u80]; push_cast; norm_num

/-- `long double _Complex cli2l(z)` (C, binary128, `LDBL_DIG == 33`), with a C library within the accuracy `CxLib`: for every `z = x + iy` off the real
axis (parts up to `2^±300`) both parts of the result are finite and the result is within `2.6e-32 · max(1, |log(-z)|^2)` of `Li2(z)`. -/
theorem C46_cli2l36_IEEE (hL : CxLib binary128 L) {z : Cx (FP binary128 L)} {x y : ℚ} (vx : Val binary128 (ofF z.re) x) (vy : Val binary128 (ofF z.im) y)
    (hx : |x| ≤ 2 ^ (300:ℤ)) (hy : |y| ≤ 2 ^ (300:ℤ)) (hy0 : 2 ^ (-300:ℤ) ≤ |y|) :
    ∃ a b : ℚ, Val binary128 (ofF (C.cli2l36 z).re) a ∧ Val binary128 (ofF (C.cli2l36 z).im) b ∧
      ‖(⟨a, b⟩ : ℂ) - pLi 2 ⟨x, y⟩‖ ≤ 2.6e-32 * max 1 ‖Complex.log (-⟨x, y⟩)‖ ^ 2 := by
  show CNear (C.cli2l36 z) (pLi 2 (cq x y)) _
  rw [C.cli2l36, ccli2l_shape, li2Shape_sh]
  refine CNear.mono (cLi2E_fp fmtB128 (by decide) hL cert_cli2l36 vx vy (inDom_of hx hy hy0) _ _
      (fun u => (ev_X2l cli2l36Bf u u).symm) (fun u l => (ev_X3l 3.14159265358979323846264338327950288 cli2l36Bf u l).symm) (fun u l => (ev_XIl 3.14159265358979323846264338327950288 cli2l36Bf u l).symm)
      (li2_inv_argW fmtB128 (by decide) hL (li2_inv_W (hφ := fmtB128) hL vx vy (inDom_of hx hy hy0)))) (mul_le_mul_of_nonneg_right ?_ (by positivity))
  rw [u128]; push_cast; norm_num

/-- the hypotheses of `C46_cdli2_IEEE` can be met: `z = -3 + (1/1024)i` -/
example : ∃ (L : Lib) (z : Cx (FP binary64 L)), CxLib binary64 L ∧ Val binary64 (ofF z.re) (-3) ∧ Val binary64 (ofF z.im) (1/1024) ∧
    ∃ a b : ℚ, Val binary64 (ofF (Fortran.cdli2 z z).re) a ∧ Val binary64 (ofF (Fortran.cdli2 z z).im) b ∧
      ‖(⟨a, b⟩ : ℂ) - pLi 2 ⟨(-3 : ℚ), (1/1024 : ℚ)⟩‖ ≤ 3e-14 * max 1 ‖Complex.log (-⟨(-3 : ℚ), (1/1024 : ℚ)⟩)‖ ^ 2 := by
  obtain ⟨L, hL, -⟩ := cxLib_exists fmtB64 zeroLib
  have v1 : Val binary64 (rndQ binary64 (-3)) (-3) := near_dy fmtB64.a (-3) 0 (by norm_num) (by norm_num) (by norm_num)
  have v2 : Val binary64 (rndQ binary64 (1/1024)) (1/1024) := near_dy fmtB64.a 1 10 (by norm_num) (by norm_num) (by norm_num)
  exact ⟨L, ⟨FOps.lit (-3), FOps.lit (1/1024)⟩, hL, v1, v2, C46_cdli2_IEEE hL _ v1 v2 (by decide +kernel) (by decide +kernel) (by decide +kernel)⟩

end Polylog
