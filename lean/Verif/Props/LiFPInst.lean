import Verif.Props.LiFPMain
import Verif.Props.Li3Cx
import Verif.Props.Li4Cx
import Verif.Props.Li5Cx
import Verif.Props.Li6Cx

/-!
# C44: the complex Li3, Li4, Li5, Li6 in IEEE arithmetic (double)
-/

namespace Polylog
set_option linter.style.longLine false
set_option linter.unusedSimpArgs false
open Complex

variable {φ : Fmt} {L : Lib}

/-- check of a box: power of the logarithm at most `d`, error at most `k` units -/
def okBox (o : Option Bx) (d : ℤ) (k : ℕ) : Bool := match o with
  | some b => b.d ≤ d && b.e ≤ k * 2 ^ 128
  | none => false

theorem okBox_spec {o : Option Bx} {d : ℤ} {k : ℕ} (h : okBox o d k = true) : ∃ b, o = some b ∧ b.d ≤ d ∧ um b.e ≤ (k : ℝ) := by
  unfold okBox at h
  split at h
  · rename_i b
    simp only [Bool.and_eq_true, decide_eq_true_eq] at h
    refine ⟨b, rfl, h.1, ?_⟩
    unfold um
    rw [div_le_iff₀ (by positivity)]
    exact_mod_cast h.2
  · exact absurd h (by simp)

theorem okBox_spec' {o : Option Bx} {d : ℤ} {k : ℕ} (h : okBox o d k = true) : ∃ b, o = some b ∧ um b.e ≤ (k : ℝ) :=
  let ⟨b, h1, _, h2⟩ := okBox_spec h; ⟨b, h1, h2⟩

theorem im_ne_R {S : RealSem} (h0 : S.rho 0 = 0) {z : ℂ} (hz : z.im ≠ 0) : ((ofC S z).im ==. (FOps.lit 0 : R S)) = false := by
  rw [eq_R, ofR_lit, h0, ofR_im]
  simpa using hz

theorem im_ne_F (hφ : FmtB φ) {z : Cx (FP φ L)} {y : ℚ} (vy : Val φ (ofF z.im) y) (hy : y ≠ 0) : (z.im ==. (FOps.lit 0 : FP φ L)) = false := by
  rw [eq_F, ofF_lit, vy.eq (val_zeroB hφ)]; simpa using hy

theorem pi_err_of (hφ : FmtB φ) {p e : ℚ} (hp0 : 0 ≤ p) (hp : p ≤ 3.15) (he : |p - piQ| + 1 / 10 ^ 49 ≤ e) (hu : (e : ℝ) ≤ 1.85 * uR φ) : |(((semF φ).rho p : ℚ) : ℝ) - Real.pi| ≤ 5 * uR φ := by
  have h1 : |(p : ℝ) - Real.pi| ≤ (e : ℝ) := pi_lit _ _ he
  have := litpi_abs (semF_lit hφ) p hp0 hp h1
  linarith

section double
theorem u64 : uR binary64 = 2 ^ (-53 : ℤ) := rfl

theorem inDom_of {x y : ℚ} (hx : |x| ≤ 2 ^ (300:ℤ)) (hy : |y| ≤ 2 ^ (300:ℤ)) (hy0 : 2 ^ (-300:ℤ) ≤ |y|) : InDom x y :=
  ⟨by exact_mod_cast hx, by exact_mod_cast hy, by
    have h := (Rat.cast_le (K := ℝ)).mpr hy0
    rw [Rat.cast_zpow, Rat.cast_abs, Rat.cast_ofNat] at h
    exact h⟩

theorem cert3d : LiCert binary64 0 3.1415926535897932 (ceN3 1.2020569031595943 1.6449340668482264 cli3dCs) (ceFin18 cli3dBf cU ce0) (ceI3 1.6449340668482264 cli3dBf)
    740 (5.6e-15 + 3 * uR binary64) (2.5e-16 + 20.2 * uR binary64) where
  near := okBox_spec (d := 0) (k := 740) (by decide +kernel)
  fin1 := okBox_spec' (d := 20) (k := 740) (by decide +kernel)
  finI := okBox_spec (d := 3) (k := 740) (by decide +kernel)
  ord := by norm_num
  pi_lit := by decide +kernel
  pi_err := pi_err_of fmtB64 (e := 3.85e-17) (by norm_num) (by norm_num) (by decide +kernel) (by rw [u64]; norm_num)
  E0_nonneg := by have := uR_pos (φ := binary64); linarith
  E1_nonneg := by have := uR_pos (φ := binary64); linarith
  method z hz := by
    have h := C18_Li3d_offaxis (semF_lit fmtB64) (by rw [u64]; norm_num) z hz
    simp only [cLi3d_eq, im_ne_R (semF_zero fmtB64) hz, Bool.false_and, Bool.false_eq_true, if_false, cLi3S_ev] at h
    exact h

/-- `std::complex<double> Li3(z)`, evaluated in IEEE binary64 with a C library within the accuracy `CxLib`: for every `z = x + iy` off the real
axis (parts up to `2^±300`) both parts of the result are finite and the result is within `1.5e-13 · max(1, |log(-z)|^3)` of `Li3(z)`. -/
theorem C44_Li3d_IEEE (hL : CxLib binary64 L) {z : Cx (FP binary64 L)} {x y : ℚ} (vx : Val binary64 (ofF z.re) x) (vy : Val binary64 (ofF z.im) y)
    (hx : |x| ≤ 2 ^ (300:ℤ)) (hy : |y| ≤ 2 ^ (300:ℤ)) (hy0 : 2 ^ (-300:ℤ) ≤ |y|) :
    ∃ a b : ℚ, Val binary64 (ofF (cLi3d z).re) a ∧ Val binary64 (ofF (cLi3d z).im) b ∧
      ‖(⟨a, b⟩ : ℂ) - pLi 3 ⟨x, y⟩‖ ≤ 1.5e-13 * max 1 ‖Complex.log (-⟨x, y⟩)‖ ^ 3 := by
  have hd := inDom_of hx hy hy0
  have h := cLiCE_fp fmtB64 (by decide) hL cert3d vx vy hd
  have he : cLi3d z = _ := cLi3d_eq z
  simp only [im_ne_F fmtB64 vy hd.y_ne, Bool.false_and, Bool.false_eq_true, if_false, cLi3S_ev] at he
  rw [he]
  refine h.mono (mul_le_mul_of_nonneg_right ?_ (by positivity))
  rw [u64]; norm_num

theorem cert4d : LiCert binary64 1 3.1415926535897932 (ceN4 1.0823232337111382 1.2020569031595943 0.82246703342411322 cli4dCs) (ceFin18s cli4dBf cU ce0 (CXE.lit 1)) (ceI4 3.1415926535897932 cli4dBf)
    810 (4.1e-15 + 4 * uR binary64) (2.5e-16 + 20.2 * uR binary64) where
  near := okBox_spec (d := 0) (k := 810) (by decide +kernel)
  fin1 := okBox_spec' (d := 20) (k := 810) (by decide +kernel)
  finI := okBox_spec (d := 4) (k := 810) (by decide +kernel)
  ord := by norm_num
  pi_lit := by decide +kernel
  pi_err := pi_err_of fmtB64 (e := 3.85e-17) (by norm_num) (by norm_num) (by decide +kernel) (by rw [u64]; norm_num)
  E0_nonneg := by have := uR_pos (φ := binary64); linarith
  E1_nonneg := by have := uR_pos (φ := binary64); linarith
  method z hz := by
    have h := C18_Li4d_offaxis (semF_lit fmtB64) (by rw [u64]; norm_num) z hz
    simp only [cLi4d_eq, im_ne_R (semF_zero fmtB64) hz, Bool.false_and, Bool.false_eq_true, if_false, cLi4S_ev] at h
    exact h

/-- `std::complex<double> Li4(z)`, evaluated in IEEE binary64 with a C library within the accuracy `CxLib`: for every `z = x + iy` off the real
axis (parts up to `2^±300`) both parts of the result are finite and the result is within `1.6e-13 · max(1, |log(-z)|^4)` of `Li4(z)`. -/
theorem C44_Li4d_IEEE (hL : CxLib binary64 L) {z : Cx (FP binary64 L)} {x y : ℚ} (vx : Val binary64 (ofF z.re) x) (vy : Val binary64 (ofF z.im) y)
    (hx : |x| ≤ 2 ^ (300:ℤ)) (hy : |y| ≤ 2 ^ (300:ℤ)) (hy0 : 2 ^ (-300:ℤ) ≤ |y|) :
    ∃ a b : ℚ, Val binary64 (ofF (cLi4d z).re) a ∧ Val binary64 (ofF (cLi4d z).im) b ∧
      ‖(⟨a, b⟩ : ℂ) - pLi 4 ⟨x, y⟩‖ ≤ 1.6e-13 * max 1 ‖Complex.log (-⟨x, y⟩)‖ ^ 4 := by
  have hd := inDom_of hx hy hy0
  have h := cLiCE_fp fmtB64 (by decide) hL cert4d vx vy hd
  have he : cLi4d z = _ := cLi4d_eq z
  simp only [im_ne_F fmtB64 vy hd.y_ne, Bool.false_and, Bool.false_eq_true, if_false, cLi4S_ev] at he
  rw [he]
  refine h.mono (mul_le_mul_of_nonneg_right ?_ (by positivity))
  rw [u64]; norm_num

theorem cert5d : LiCert binary64 2 3.1415926535897932 (ceN5 1.0369277551433699 1.0823232337111382 0.60102845157979714 0.27415567780803774 cli5dCs) (ceFin19 cli5dBf cU ce0) (ceI5 3.1415926535897932 cli5dBf)
    940 (2.3e-16 + 3 * uR binary64) (2.5e-16 + 20.2 * uR binary64) where
  near := okBox_spec (d := 0) (k := 940) (by decide +kernel)
  fin1 := okBox_spec' (d := 20) (k := 940) (by decide +kernel)
  finI := okBox_spec (d := 5) (k := 940) (by decide +kernel)
  ord := by norm_num
  pi_lit := by decide +kernel
  pi_err := pi_err_of fmtB64 (e := 3.85e-17) (by norm_num) (by norm_num) (by decide +kernel) (by rw [u64]; norm_num)
  E0_nonneg := by have := uR_pos (φ := binary64); linarith
  E1_nonneg := by have := uR_pos (φ := binary64); linarith
  method z hz := by
    have h := C18_Li5d (semF_lit fmtB64) (by rw [u64]; norm_num) z
    simp only [cLi5d_eq, im_ne_R (semF_zero fmtB64) hz, Bool.false_and, Bool.false_eq_true, if_false, cLi5S_ev] at h
    exact h

/-- `std::complex<double> Li5(z)`, evaluated in IEEE binary64 with a C library within the accuracy `CxLib`: for every `z = x + iy` off the real
axis (parts up to `2^±300`) both parts of the result are finite and the result is within `1.7e-13 · max(1, |log(-z)|^5)` of `Li5(z)`. -/
theorem C44_Li5d_IEEE (hL : CxLib binary64 L) {z : Cx (FP binary64 L)} {x y : ℚ} (vx : Val binary64 (ofF z.re) x) (vy : Val binary64 (ofF z.im) y)
    (hx : |x| ≤ 2 ^ (300:ℤ)) (hy : |y| ≤ 2 ^ (300:ℤ)) (hy0 : 2 ^ (-300:ℤ) ≤ |y|) :
    ∃ a b : ℚ, Val binary64 (ofF (cLi5d z).re) a ∧ Val binary64 (ofF (cLi5d z).im) b ∧
      ‖(⟨a, b⟩ : ℂ) - pLi 5 ⟨x, y⟩‖ ≤ 1.7e-13 * max 1 ‖Complex.log (-⟨x, y⟩)‖ ^ 5 := by
  have hd := inDom_of hx hy hy0
  have h := cLiCE_fp fmtB64 (by decide) hL cert5d vx vy hd
  have he : cLi5d z = _ := cLi5d_eq z
  simp only [im_ne_F fmtB64 vy hd.y_ne, Bool.false_and, Bool.false_eq_true, if_false, cLi5S_ev] at he
  rw [he]
  refine h.mono (mul_le_mul_of_nonneg_right ?_ (by positivity))
  rw [u64]; norm_num

theorem cert6d : LiCert binary64 3 3.1415926535897932 (ceN6 1.0173430619844491 1.0369277551433699 0.54116161685556910 0.20034281719326571 0.068538919452009435 cli6dCs) (ceFin18s cli6dBf cU ce0 (CXE.lit 1)) (ceI6 3.1415926535897932 cli6dBf)
    935 (8.3e-16 + 3 * uR binary64) (2.5e-16 + 20.2 * uR binary64) where
  near := okBox_spec (d := 0) (k := 935) (by decide +kernel)
  fin1 := okBox_spec' (d := 20) (k := 935) (by decide +kernel)
  finI := okBox_spec (d := 6) (k := 935) (by decide +kernel)
  ord := by norm_num
  pi_lit := by decide +kernel
  pi_err := pi_err_of fmtB64 (e := 3.85e-17) (by norm_num) (by norm_num) (by decide +kernel) (by rw [u64]; norm_num)
  E0_nonneg := by have := uR_pos (φ := binary64); linarith
  E1_nonneg := by have := uR_pos (φ := binary64); linarith
  method z hz := by
    have h := C18_Li6d (semF_lit fmtB64) (by rw [u64]; norm_num) z
    simp only [cLi6d_eq, im_ne_R (semF_zero fmtB64) hz, Bool.false_and, Bool.false_eq_true, if_false, cLi6S_ev] at h
    exact h

/-- `std::complex<double> Li6(z)`, evaluated in IEEE binary64 with a C library within the accuracy `CxLib`: for every `z = x + iy` off the real
axis (parts up to `2^±300`) both parts of the result are finite and the result is within `1.7e-13 · max(1, |log(-z)|^6)` of `Li6(z)`. -/
theorem C44_Li6d_IEEE (hL : CxLib binary64 L) {z : Cx (FP binary64 L)} {x y : ℚ} (vx : Val binary64 (ofF z.re) x) (vy : Val binary64 (ofF z.im) y)
    (hx : |x| ≤ 2 ^ (300:ℤ)) (hy : |y| ≤ 2 ^ (300:ℤ)) (hy0 : 2 ^ (-300:ℤ) ≤ |y|) :
    ∃ a b : ℚ, Val binary64 (ofF (cLi6d z).re) a ∧ Val binary64 (ofF (cLi6d z).im) b ∧
      ‖(⟨a, b⟩ : ℂ) - pLi 6 ⟨x, y⟩‖ ≤ 1.7e-13 * max 1 ‖Complex.log (-⟨x, y⟩)‖ ^ 6 := by
  have hd := inDom_of hx hy hy0
  have h := cLiCE_fp fmtB64 (by decide) hL cert6d vx vy hd
  have he : cLi6d z = _ := cLi6d_eq z
  simp only [im_ne_F fmtB64 vy hd.y_ne, Bool.false_and, Bool.false_eq_true, if_false, cLi6S_ev] at he
  rw [he]
  refine h.mono (mul_le_mul_of_nonneg_right ?_ (by positivity))
  rw [u64]; norm_num

end double

end Polylog
