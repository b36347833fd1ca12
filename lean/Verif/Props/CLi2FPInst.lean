import Verif.Props.CLi2FPMain
import Verif.Props.CxLibEx

/-!
# C45: the complex dilogarithm in IEEE arithmetic (double and long double)
-/

namespace Polylog
set_option linter.style.longLine false
open Complex

variable {L : Lib}

theorem pi_sq_err {φ : Fmt} (hφ : FmtB φ) {p e : ℚ} (hp0 : 0 ≤ p) (hp : p ≤ 3.15) (he : |p - piQ| + 1 / 10 ^ 49 ≤ e) (hu : (e : ℝ) ≤ 1.85 * uR φ) :
    |(((semF φ).rho p : ℚ) : ℝ) ^ 2 - Real.pi ^ 2| / 6 ≤ 6 * uR φ := by
  have h := pi_err_of hφ hp0 hp he hu
  have hu0 := uR_pos (φ := φ)
  have hu1 : uR φ ≤ 1e-6 := hφ.u_le.trans (by norm_num)
  have h2 := Real.pi_lt_d2
  have h3 := Real.pi_gt_d2
  have hb := abs_le.1 h
  rw [sq_sub_sq, abs_mul, div_le_iff₀ (by norm_num)]
  have h4 : |(((semF φ).rho p : ℚ) : ℝ) + Real.pi| ≤ 6.4 := by rw [abs_le]; constructor <;> linarith
  calc _ ≤ 6.4 * (5 * uR φ) := mul_le_mul h4 h (abs_nonneg _) (by norm_num)
    _ ≤ _ := by linarith


theorem cert2d : Li2Cert binary64 3.1415926535897932 cli2dBf 251 (1.1 * (((717 * 10 ^ 41 : ℤ) : ℝ) / 10 ^ 60 + 1e-46 + uR binary64 * (((131 * 10 ^ 58 : ℤ) : ℝ) / 10 ^ 60))) (6 * uR binary64) where
  k2 := by decide +kernel
  k3 := by decide +kernel
  kI := by decide +kernel
  k0 := by decide +kernel
  pi := pi_sq_err fmtB64 (e := 3.85e-17) (by norm_num) (by norm_num) (by decide +kernel) (by rw [u64]; norm_num)
  ser w hw := bser_tab (semF_lit fmtB64) (by norm_num) cli2dBf (by norm_num) bf_certs.2.1.1 bf_certs.2.1.2 w hw

/-- `std::complex<double> Li2(z)`, evaluated in IEEE binary64, with a C library within the accuracy `CxLib`: for every `z = x + iy` off the real
axis (parts up to `2^±300`) both parts of the result are finite and the result is within `3e-14 · max(1, |log(-z)|^2)` of `Li2(z)`. -/
theorem C45_Li2d_IEEE (hL : CxLib binary64 L) {z : Cx (FP binary64 L)} {x y : ℚ} (vx : Val binary64 (ofF z.re) x) (vy : Val binary64 (ofF z.im) y)
    (hx : |x| ≤ 2 ^ (300:ℤ)) (hy : |y| ≤ 2 ^ (300:ℤ)) (hy0 : 2 ^ (-300:ℤ) ≤ |y|) :
    ∃ a b : ℚ, Val binary64 (ofF (cLi2d z).re) a ∧ Val binary64 (ofF (cLi2d z).im) b ∧
      ‖(⟨a, b⟩ : ℂ) - pLi 2 ⟨x, y⟩‖ ≤ 3e-14 * max 1 ‖Complex.log (-⟨x, y⟩)‖ ^ 2 := by
  have h := cLi2_fp fmtB64 (by decide) hL Li2d cert2d vx vy (inDom_of hx hy hy0)
  rw [cLi2d_gen]
  refine h.mono (mul_le_mul_of_nonneg_right ?_ (by positivity))
  rw [u64]; push_cast; norm_num

theorem cert2l18 : Li2Cert x87ext 3.14159265358979323846264338327950288 cli2l18Bf 251 (1.1 * (((201 * 10 ^ 40 : ℤ) : ℝ) / 10 ^ 60 + 1e-46 + uR x87ext * (((131 * 10 ^ 58 : ℤ) : ℝ) / 10 ^ 60))) (6 * uR x87ext) where
  k2 := by decide +kernel
  k3 := by decide +kernel
  kI := by decide +kernel
  k0 := by decide +kernel
  pi := pi_sq_err fmtB80 (e := 4.2e-36) (by norm_num) (by norm_num) (by decide +kernel) (by rw [u80]; norm_num)
  ser w hw := bser_tab (semF_lit fmtB80) (by norm_num) cli2l18Bf (by norm_num) bf_certs.2.2.1.1 bf_certs.2.2.1.2 w hw

/-- `std::complex<long double> Li2(z)` (x87 extended precision, `LDBL_DIG == 18`), with a C library within the accuracy `CxLib`: for every `z = x + iy` off the real
axis (parts up to `2^±300`) both parts of the result are finite and the result is within `1.7e-17 · max(1, |log(-z)|^2)` of `Li2(z)`. -/
theorem C45_Li2l18_IEEE (hL : CxLib x87ext L) {z : Cx (FP x87ext L)} {x y : ℚ} (vx : Val x87ext (ofF z.re) x) (vy : Val x87ext (ofF z.im) y)
    (hx : |x| ≤ 2 ^ (300:ℤ)) (hy : |y| ≤ 2 ^ (300:ℤ)) (hy0 : 2 ^ (-300:ℤ) ≤ |y|) :
    ∃ a b : ℚ, Val x87ext (ofF (cLi2l18 z).re) a ∧ Val x87ext (ofF (cLi2l18 z).im) b ∧
      ‖(⟨a, b⟩ : ℂ) - pLi 2 ⟨x, y⟩‖ ≤ 1.7e-17 * max 1 ‖Complex.log (-⟨x, y⟩)‖ ^ 2 := by
  have h := cLi2_fp fmtB80 (by decide) hL Li2l18 cert2l18 vx vy (inDom_of hx hy hy0)
  rw [cLi2l18, cLi2l_gen]
  refine h.mono (mul_le_mul_of_nonneg_right ?_ (by positivity))
  rw [u80]; push_cast; norm_num

theorem cert2l36 : Li2Cert binary128 3.14159265358979323846264338327950288 cli2l36Bf 251 (1.1 * (((676 * 10 ^ 21 : ℤ) : ℝ) / 10 ^ 60 + 1e-46 + uR binary128 * (((131 * 10 ^ 58 : ℤ) : ℝ) / 10 ^ 60))) (6 * uR binary128) where
  k2 := by decide +kernel
  k3 := by decide +kernel
  kI := by decide +kernel
  k0 := by decide +kernel
  pi := pi_sq_err fmtB128 (e := 4.2e-36) (by norm_num) (by norm_num) (by decide +kernel) (by rw [u128]; norm_num)
  ser w hw := bser_tab (semF_lit fmtB128) (by norm_num) cli2l36Bf (by norm_num) bf_certs.2.2.2.1 bf_certs.2.2.2.2 w hw

/-- `std::complex<long double> Li2(z)` (binary128, `LDBL_DIG == 33`), with a C library within the accuracy `CxLib`: for every `z = x + iy` off the real
axis (parts up to `2^±300`) both parts of the result are finite and the result is within `2.6e-32 · max(1, |log(-z)|^2)` of `Li2(z)`. -/
theorem C45_Li2l36_IEEE (hL : CxLib binary128 L) {z : Cx (FP binary128 L)} {x y : ℚ} (vx : Val binary128 (ofF z.re) x) (vy : Val binary128 (ofF z.im) y)
    (hx : |x| ≤ 2 ^ (300:ℤ)) (hy : |y| ≤ 2 ^ (300:ℤ)) (hy0 : 2 ^ (-300:ℤ) ≤ |y|) :
    ∃ a b : ℚ, Val binary128 (ofF (cLi2l36 z).re) a ∧ Val binary128 (ofF (cLi2l36 z).im) b ∧
      ‖(⟨a, b⟩ : ℂ) - pLi 2 ⟨x, y⟩‖ ≤ 2.6e-32 * max 1 ‖Complex.log (-⟨x, y⟩)‖ ^ 2 := by
  have h := cLi2_fp fmtB128 (by decide) hL Li2l36 cert2l36 vx vy (inDom_of hx hy hy0)
  rw [cLi2l36, cLi2l_gen]
  refine h.mono (mul_le_mul_of_nonneg_right ?_ (by positivity))
  rw [u128]; push_cast; norm_num

/-- the hypotheses of `C45_Li2d_IEEE` can be met: `z = 3/2 + (1/1024)i` -/
example : ∃ (L : Lib) (z : Cx (FP binary64 L)), CxLib binary64 L ∧ Val binary64 (ofF z.re) (3/2) ∧ Val binary64 (ofF z.im) (1/1024) ∧
    ∃ a b : ℚ, Val binary64 (ofF (cLi2d z).re) a ∧ Val binary64 (ofF (cLi2d z).im) b ∧
      ‖(⟨a, b⟩ : ℂ) - pLi 2 ⟨(3/2 : ℚ), (1/1024 : ℚ)⟩‖ ≤ 3e-14 * max 1 ‖Complex.log (-⟨(3/2 : ℚ), (1/1024 : ℚ)⟩)‖ ^ 2 := by
  obtain ⟨L, hL, -⟩ := cxLib_exists fmtB64 zeroLib
  have v1 : Val binary64 (rndQ binary64 (3/2)) (3/2) := near_dy fmtB64.a 3 1 (by norm_num) (by norm_num) (by norm_num)
  have v2 : Val binary64 (rndQ binary64 (1/1024)) (1/1024) := near_dy fmtB64.a 1 10 (by norm_num) (by norm_num) (by norm_num)
  exact ⟨L, ⟨FOps.lit (3/2), FOps.lit (1/1024)⟩, hL, v1, v2, C45_Li2d_IEEE hL v1 v2 (by decide +kernel) (by decide +kernel) (by decide +kernel)⟩

/-- the hypotheses of `C45_Li2l18_IEEE` can be met: `z = -7 + (-1/2)i` -/
example : ∃ (L : Lib) (z : Cx (FP x87ext L)), CxLib x87ext L ∧ Val x87ext (ofF z.re) (-7) ∧ Val x87ext (ofF z.im) (-1/2) ∧
    ∃ a b : ℚ, Val x87ext (ofF (cLi2l18 z).re) a ∧ Val x87ext (ofF (cLi2l18 z).im) b ∧
      ‖(⟨a, b⟩ : ℂ) - pLi 2 ⟨(-7 : ℚ), (-1/2 : ℚ)⟩‖ ≤ 1.7e-17 * max 1 ‖Complex.log (-⟨(-7 : ℚ), (-1/2 : ℚ)⟩)‖ ^ 2 := by
  obtain ⟨L, hL, -⟩ := cxLib_exists fmtB80 zeroLib
  have v1 : Val x87ext (rndQ x87ext (-7)) (-7) := near_dy fmtB80.a (-7) 0 (by norm_num) (by norm_num) (by norm_num)
  have v2 : Val x87ext (rndQ x87ext (-1/2)) (-1/2) := near_dy fmtB80.a (-1) 1 (by norm_num) (by norm_num) (by norm_num)
  exact ⟨L, ⟨FOps.lit (-7), FOps.lit (-1/2)⟩, hL, v1, v2, C45_Li2l18_IEEE hL v1 v2 (by decide +kernel) (by decide +kernel) (by decide +kernel)⟩

/-- the hypotheses of `C45_Li2l36_IEEE` can be met: `z = 1 + (1/4096)i` -/
example : ∃ (L : Lib) (z : Cx (FP binary128 L)), CxLib binary128 L ∧ Val binary128 (ofF z.re) (1) ∧ Val binary128 (ofF z.im) (1/4096) ∧
    ∃ a b : ℚ, Val binary128 (ofF (cLi2l36 z).re) a ∧ Val binary128 (ofF (cLi2l36 z).im) b ∧
      ‖(⟨a, b⟩ : ℂ) - pLi 2 ⟨(1 : ℚ), (1/4096 : ℚ)⟩‖ ≤ 2.6e-32 * max 1 ‖Complex.log (-⟨(1 : ℚ), (1/4096 : ℚ)⟩)‖ ^ 2 := by
  obtain ⟨L, hL, -⟩ := cxLib_exists fmtB128 zeroLib
  have v1 : Val binary128 (rndQ binary128 (1)) (1) := near_dy fmtB128.a 1 0 (by norm_num) (by norm_num) (by norm_num)
  have v2 : Val binary128 (rndQ binary128 (1/4096)) (1/4096) := near_dy fmtB128.a 1 12 (by norm_num) (by norm_num) (by norm_num)
  exact ⟨L, ⟨FOps.lit (1), FOps.lit (1/4096)⟩, hL, v1, v2, C45_Li2l36_IEEE hL v1 v2 (by decide +kernel) (by decide +kernel) (by decide +kernel)⟩

end Polylog
