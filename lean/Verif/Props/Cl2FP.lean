import Verif.Props.ClFPGen
import Verif.Props.Cl2Real

/-! # C40: `Cl2` in IEEE arithmetic (generated by tools/cl/genclfp.py) -/

namespace Polylog
set_option linter.style.longLine false

variable {φ : Fmt} {L : Lib}

section
/-- numeric literal -/
local notation:max "♯" q:max => FE.lit (q : ℚ)

/-- the low branch of `Cl2d` as a straight-line program -/
def cl2dLoD : List FE := [
  (FE.var 0) *. (FE.var 0),
  (FE.var 2) *. (FE.var 2),
  ♯(cl2dloP[0]) +. (FE.var 2) *. ♯(cl2dloP[1]) +. (FE.var 3) *. (♯(cl2dloP[2]) +. (FE.var 2) *. ♯(cl2dloP[3])),
  ♯(cl2dloQ[0]) +. (FE.var 2) *. ♯(cl2dloQ[1]) +. (FE.var 3) *. (♯(cl2dloQ[2]) +. (FE.var 2) *. ♯(cl2dloQ[3]))]
@[inherit_doc cl2dLoD] def cl2dLoE : FE := (FE.var 0) *. (♯1 -. (FE.var 1) +. (FE.var 2) *. (FE.var 4) /. (FE.var 5))
/-- the high branch of `Cl2d` as a straight-line program -/
def cl2dHiD : List FE := [
  ♯3.14159265358979324 *. ♯3.14159265358979324 /. ♯8,
  ♯3.14159265358979324 -. (FE.var 0),
  (FE.var 2) *. (FE.var 2) -. (FE.var 1),
  (FE.var 3) *. (FE.var 3),
  (FE.var 4) *. (FE.var 4),
  ♯(cl2dhiP[0]) +. (FE.var 3) *. ♯(cl2dhiP[1]) +. (FE.var 4) *. (♯(cl2dhiP[2]) +. (FE.var 3) *. ♯(cl2dhiP[3])) +. (FE.var 5) *. (♯(cl2dhiP[4]) +. (FE.var 3) *. ♯(cl2dhiP[5])),
  ♯(cl2dhiQ[0]) +. (FE.var 3) *. ♯(cl2dhiQ[1]) +. (FE.var 4) *. (♯(cl2dhiQ[2]) +. (FE.var 3) *. ♯(cl2dhiQ[3])) +. (FE.var 5) *. (♯(cl2dhiQ[4]) +. (FE.var 3) *. ♯(cl2dhiQ[5]))]
@[inherit_doc cl2dHiD] def cl2dHiE : FE := (FE.var 2) *. (FE.var 6) /. (FE.var 7)
end

theorem cl2dLo_fp (x : FP φ L) : fpP φ [ofF x, ofF (xlog x)] cl2dLoD cl2dLoE = ofF (cl2dLo x) := by exact (rfl)
theorem cl2dHi_fp (x : FP φ L) : fpP φ [ofF x] cl2dHiD cl2dHiE = ofF (cl2dHi x) := by exact (rfl)
theorem cl2dLo_rs (S : RealSem) (x : R S) : rsP S [x, xlog x] cl2dLoD cl2dLoE = cl2dLo x := by exact (rfl)
theorem cl2dHi_rs (S : RealSem) (x : R S) : rsP S [x] cl2dHiD cl2dHiE = cl2dHi x := by exact (rfl)

theorem cl2dLo_cert : loCert 53 120 cl2dLoD cl2dLoE 1071948670836095049647 = true := by decide +kernel
theorem cl2dHi_cert : hiCert 53 120 cl2dHiD cl2dHiE 5902958103587056517120 1646592 [638318, 1009298] = true := by decide +kernel

theorem cl2dLo_near (hL : LogOK binary64 L) (r : FP binary64 L) (ρ : ℚ) (hr : Val binary64 (ofF r) ρ) (h0 : 0 < ρ) (h1 : ρ < rq binary64 3.14159265358979324 / 2) :
    Near binary64 (ofF (cl2dLo r)) (clausen (2 * 0 + 1 + 1) ρ) (41 * uR binary64) := by
  have h2 := (clCtx_d L).lt_dec hr h0.le h1
  have h3 : (ρ : ℝ) < ((3.14159265358979324 : ℚ) : ℝ) / 2 := by exact_mod_cast h2
  have h4 : (ρ : ℝ) ≤ 1.571 := by norm_num at h3 ⊢; linarith
  have hs := lo_sound fmtOK64 fmtA64 hL (by decide) cl2dLo_cert hr h0 h4
  rw [cl2dLo_fp, cl2dLo_rs] at hs
  have ha := cl2dLo_acc RealSem.dec_lit (by norm_num) (r := toR RealSem.dec (ρ : ℝ)) (show (0:ℝ) < ρ by exact_mod_cast h0) h3
  refine (hs.shift ha).mono ?_
  norm_num [uR, binary64]

theorem cl2dHi_near (r : FP binary64 L) (ρ : ℚ) (hr : Val binary64 (ofF r) ρ) (h0 : rq binary64 3.14159265358979324 / 2 ≤ ρ) (h1 : ρ ≤ rq binary64 3.14159265358979324) :
    Near binary64 (ofF (cl2dHi r)) (clausen (2 * 0 + 1 + 1) ρ) (41 * uR binary64) := by
  have hd := abs_le.1 (rq_errR fmtA64 3.14159265358979324)
  have h0r : ((rq binary64 3.14159265358979324 : ℚ) : ℝ) / 2 ≤ ρ := by exact_mod_cast h0
  have h1r : (ρ : ℝ) ≤ ((rq binary64 3.14159265358979324 : ℚ) : ℝ) := by exact_mod_cast h1
  rw [abs_of_nonneg (by norm_num)] at hd
  have hu : uR binary64 ≤ 1 / 2 ^ 53 := by norm_num [uR, binary64]
  have hu0 := uR_pos (φ := binary64)
  have a1 : ((3.14159265358979324 : ℚ) : ℝ) / 2 - 1e-6 ≤ ρ := by norm_num at hd ⊢; nlinarith [hd.1]
  have a2 : (ρ : ℝ) ≤ ((3.14159265358979324 : ℚ) : ℝ) + 1e-4 := by norm_num at hd ⊢; nlinarith [hd.2]
  have b1 : ((1646592 : ℕ) : ℝ) / 2 ^ 20 ≤ ρ := by norm_num at a1 ⊢; linarith
  have b2 : (ρ : ℝ) ≤ 3.1416 := by norm_num at hd ⊢; nlinarith [hd.2]
  have hs : Near binary64 (fpP binary64 [ofF r] cl2dHiD cl2dHiE) (ofR (rsP RealSem.dec [toR RealSem.dec (ρ : ℝ)] cl2dHiD cl2dHiE)) (((5902958103587056517120 : ℤ) : ℝ) / 2 ^ 120) := by
    exact hi_sound fmtOK64 (by norm_num) _ (by simp) cl2dHi_cert hr b1 (by norm_num at b2 ⊢; linarith)
  rw [cl2dHi_fp, cl2dHi_rs] at hs
  have ha := (cl2dHi_acc RealSem.dec_lit (by norm_num) (r := toR RealSem.dec (ρ : ℝ)) a1 a2).2
  refine (hs.shift ha).mono ?_
  norm_num [uR, binary64]

theorem cl2d_pi : |clausen (2 * 0 + 1 + 1) ((rq binary64 3.14159265358979324 : ℚ) : ℝ)| ≤ 41 * uR binary64 := by
  have h := (clCtx_d zeroLib).hd
  have hu : uR binary64 ≤ 1 / 2 ^ 53 := by norm_num [uR, binary64]
  have hu0 := uR_pos (φ := binary64)
  refine (clausen_two_pi (by linarith)).trans ?_
  linarith

/-- **C40**, `double Cl2`: for every finite `x` the result is finite and within `(506 + 78 * |x|) u` of `Cl_2(x)`, `u = 2^-53`; within `41 u` for `|x| ≤ 3.14`. -/
theorem C40_Cl2d (hL : LogOK binary64 L) (x : FP binary64 L) {q : ℚ} (hx : Val binary64 (ofF x) q) :
    ∃ r : ℚ, Val binary64 (ofF (Cl2d x)) r ∧ |(r : ℝ) - clausen 2 q| ≤ (506 + 78 * |(q : ℝ)|) * 2 ^ (-53 : ℤ) ∧
      (|(q : ℝ)| ≤ 3.14 → |(r : ℝ) - clausen 2 q| ≤ 41 * 2 ^ (-53 : ℤ)) := by
  have h := (clCtx_d L).even fmtA64 0 (E := 41 * uR binary64) (Λ := 58) (κ := 1e-24) (by have := uR_pos (φ := binary64); positivity) (by norm_num) clausen_two_d cl2d_pi
    (cl2dLo_near hL) (cl2dHi_near) x hx (y := Cl2d x) (Cl2d_split x)
  have hpi314 : (3.14 : ℝ) ≤ ((rq binary64 3.14159265358979324 : ℚ) : ℝ) := by
    have hd := abs_le.1 (clCtx_d L).hd
    have := pi_gt
    have hu : uR binary64 ≤ 1 / 2 ^ 53 := by norm_num [uR, binary64]
    linarith [hd.1]
  obtain ⟨⟨r, hr, he⟩, h2⟩ := h
  have hq := abs_nonneg (q : ℝ)
  have hu0 := uR_pos (φ := binary64)
  refine ⟨r, hr, he.trans ?_, fun hq => ?_⟩
  · change _ ≤ (506 + 78 * |(q : ℝ)|) * uR binary64
    have hk : (1e-24 : ℝ) ≤ uR binary64 := by norm_num [uR, binary64]
    have := mul_nonneg hu0.le hq
    linarith
  · obtain ⟨r2, hr2, he2⟩ := h2 (by have h5 := hq.trans hpi314; exact_mod_cast h5)
    have := hr.unique hr2; subst this; exact he2

section
/-- numeric literal -/
local notation:max "♯" q:max => FE.lit (q : ℚ)

/-- the low branch of `Cl2l` as a straight-line program -/
def cl2lLoD : List FE := [
  ♯3.14159265358979323846264338327950288 *. ♯3.14159265358979323846264338327950288 /. ♯8,
  (FE.var 0) *. (FE.var 0),
  (FE.var 3) -. (FE.var 2),
  (FE.var 4) *. (FE.var 4),
  (FE.var 5) *. (FE.var 5),
  (FE.var 6) *. (FE.var 6),
  ♯(cl2lloP[0]) +. (FE.var 4) *. ♯(cl2lloP[1]) +. (FE.var 5) *. (♯(cl2lloP[2]) +. (FE.var 4) *. ♯(cl2lloP[3])) +. (FE.var 6) *. (♯(cl2lloP[4]) +. (FE.var 4) *. ♯(cl2lloP[5]) +. (FE.var 5) *. (♯(cl2lloP[6]) +. (FE.var 4) *. ♯(cl2lloP[7]))) +. (FE.var 7) *. ♯(cl2lloP[8]),
  ♯(cl2lloQ[0]) +. (FE.var 4) *. ♯(cl2lloQ[1]) +. (FE.var 5) *. (♯(cl2lloQ[2]) +. (FE.var 4) *. ♯(cl2lloQ[3])) +. (FE.var 6) *. (♯(cl2lloQ[4]) +. (FE.var 4) *. ♯(cl2lloQ[5]) +. (FE.var 5) *. (♯(cl2lloQ[6]) +. (FE.var 4) *. ♯(cl2lloQ[7]))) +. (FE.var 7) *. ♯(cl2lloQ[8])]
@[inherit_doc cl2lLoD] def cl2lLoE : FE := (FE.var 0) *. (♯1 -. (FE.var 1) +. (FE.var 3) *. (FE.var 8) /. (FE.var 9))
/-- the high branch of `Cl2l` as a straight-line program -/
def cl2lHiD : List FE := [
  ♯3.14159265358979323846264338327950288 *. ♯3.14159265358979323846264338327950288 /. ♯8,
  ♯3.14159265358979323846264338327950288 -. (FE.var 0),
  (FE.var 2) *. (FE.var 2) -. (FE.var 1),
  (FE.var 3) *. (FE.var 3),
  (FE.var 4) *. (FE.var 4),
  (FE.var 5) *. (FE.var 5),
  ♯(cl2lhiP[0]) +. (FE.var 3) *. ♯(cl2lhiP[1]) +. (FE.var 4) *. (♯(cl2lhiP[2]) +. (FE.var 3) *. ♯(cl2lhiP[3])) +. (FE.var 5) *. (♯(cl2lhiP[4]) +. (FE.var 3) *. ♯(cl2lhiP[5]) +. (FE.var 4) *. (♯(cl2lhiP[6]) +. (FE.var 3) *. ♯(cl2lhiP[7]))) +. (FE.var 6) *. (♯(cl2lhiP[8]) +. (FE.var 3) *. ♯(cl2lhiP[9]) +. (FE.var 4) *. (♯(cl2lhiP[10]) +. (FE.var 3) *. ♯(cl2lhiP[11])) +. (FE.var 5) *. ♯(cl2lhiP[12])),
  ♯(cl2lhiQ[0]) +. (FE.var 3) *. ♯(cl2lhiQ[1]) +. (FE.var 4) *. (♯(cl2lhiQ[2]) +. (FE.var 3) *. ♯(cl2lhiQ[3])) +. (FE.var 5) *. (♯(cl2lhiQ[4]) +. (FE.var 3) *. ♯(cl2lhiQ[5]) +. (FE.var 4) *. (♯(cl2lhiQ[6]) +. (FE.var 3) *. ♯(cl2lhiQ[7]))) +. (FE.var 6) *. (♯(cl2lhiQ[8]) +. (FE.var 3) *. ♯(cl2lhiQ[9]) +. (FE.var 4) *. (♯(cl2lhiQ[10]) +. (FE.var 3) *. ♯(cl2lhiQ[11])) +. (FE.var 5) *. ♯(cl2lhiQ[12]))]
@[inherit_doc cl2lHiD] def cl2lHiE : FE := (FE.var 2) *. (FE.var 7) /. (FE.var 8)
end

theorem cl2lLo_fp (x : FP φ L) : fpP φ [ofF x, ofF (xlog x)] cl2lLoD cl2lLoE = ofF (cl2lLo x) := by exact (rfl)
theorem cl2lHi_fp (x : FP φ L) : fpP φ [ofF x] cl2lHiD cl2lHiE = ofF (cl2lHi x) := by exact (rfl)
theorem cl2lLo_rs (S : RealSem) (x : R S) : rsP S [x, xlog x] cl2lLoD cl2lLoE = cl2lLo x := by exact (rfl)
theorem cl2lHi_rs (S : RealSem) (x : R S) : rsP S [x] cl2lHiD cl2lHiE = cl2lHi x := by exact (rfl)

theorem cl2lLo_cert_x87 : loCert 64 140 cl2lLoD cl2lLoE 576164742584164939380036 = true := by decide +kernel
theorem cl2lHi_cert_x87 : hiCert 64 140 cl2lHiD cl2lHiE 15111572745182864683827200 1646592 [274773, 1372843] = true := by decide +kernel

theorem cl2lLo_near_x87 (hL : LogOK x87ext L) (r : FP x87ext L) (ρ : ℚ) (hr : Val x87ext (ofF r) ρ) (h0 : 0 < ρ) (h1 : ρ < rq x87ext 3.14159265358979323846264338327950288 / 2) :
    Near x87ext (ofF (cl2lLo r)) (clausen (2 * 0 + 1 + 1) ρ) (203 * uR x87ext) := by
  have h2 := (clCtx_x87 L).lt_dec hr h0.le h1
  have h3 : (ρ : ℝ) < ((3.14159265358979323846264338327950288 : ℚ) : ℝ) / 2 := by exact_mod_cast h2
  have h4 : (ρ : ℝ) ≤ 1.571 := by norm_num at h3 ⊢; linarith
  have hs := lo_sound fmtOK80 fmtA80 hL (by decide) cl2lLo_cert_x87 hr h0 h4
  rw [cl2lLo_fp, cl2lLo_rs] at hs
  have ha := cl2lLo_acc RealSem.dec_lit (by norm_num) (r := toR RealSem.dec (ρ : ℝ)) (show (0:ℝ) < ρ by exact_mod_cast h0) h3
  refine (hs.shift ha).mono ?_
  norm_num [uR, x87ext]

theorem cl2lHi_near_x87 (r : FP x87ext L) (ρ : ℚ) (hr : Val x87ext (ofF r) ρ) (h0 : rq x87ext 3.14159265358979323846264338327950288 / 2 ≤ ρ) (h1 : ρ ≤ rq x87ext 3.14159265358979323846264338327950288) :
    Near x87ext (ofF (cl2lHi r)) (clausen (2 * 0 + 1 + 1) ρ) (203 * uR x87ext) := by
  have hd := abs_le.1 (rq_errR fmtA80 3.14159265358979323846264338327950288)
  have h0r : ((rq x87ext 3.14159265358979323846264338327950288 : ℚ) : ℝ) / 2 ≤ ρ := by exact_mod_cast h0
  have h1r : (ρ : ℝ) ≤ ((rq x87ext 3.14159265358979323846264338327950288 : ℚ) : ℝ) := by exact_mod_cast h1
  rw [abs_of_nonneg (by norm_num)] at hd
  have hu : uR x87ext ≤ 1 / 2 ^ 53 := by norm_num [uR, x87ext]
  have hu0 := uR_pos (φ := x87ext)
  have a1 : ((3.14159265358979323846264338327950288 : ℚ) : ℝ) / 2 - 1e-6 ≤ ρ := by norm_num at hd ⊢; nlinarith [hd.1]
  have a2 : (ρ : ℝ) ≤ ((3.14159265358979323846264338327950288 : ℚ) : ℝ) + 1e-4 := by norm_num at hd ⊢; nlinarith [hd.2]
  have b1 : ((1646592 : ℕ) : ℝ) / 2 ^ 20 ≤ ρ := by norm_num at a1 ⊢; linarith
  have b2 : (ρ : ℝ) ≤ 3.1416 := by norm_num at hd ⊢; nlinarith [hd.2]
  have hs : Near x87ext (fpP x87ext [ofF r] cl2lHiD cl2lHiE) (ofR (rsP RealSem.dec [toR RealSem.dec (ρ : ℝ)] cl2lHiD cl2lHiE)) (((15111572745182864683827200 : ℤ) : ℝ) / 2 ^ 140) := by
    exact hi_sound fmtOK80 (by norm_num) _ (by simp) cl2lHi_cert_x87 hr b1 (by norm_num at b2 ⊢; linarith)
  rw [cl2lHi_fp, cl2lHi_rs] at hs
  have ha := (cl2lHi_acc RealSem.dec_lit (by norm_num) (r := toR RealSem.dec (ρ : ℝ)) a1 a2).2
  refine (hs.shift ha).mono ?_
  norm_num [uR, x87ext]

theorem cl2l_pi_x87 : |clausen (2 * 0 + 1 + 1) ((rq x87ext 3.14159265358979323846264338327950288 : ℚ) : ℝ)| ≤ 203 * uR x87ext := by
  have h := (clCtx_x87 zeroLib).hd
  have hu : uR x87ext ≤ 1 / 2 ^ 53 := by norm_num [uR, x87ext]
  have hu0 := uR_pos (φ := x87ext)
  refine (clausen_two_pi (by linarith)).trans ?_
  linarith

/-- **C40**, `long double Cl2`: for every finite `x` the result is finite and within `(996 + 132 * |x|) u` of `Cl_2(x)`, `u = 2^-64`; within `203 u` for `|x| ≤ 3.14`. -/
theorem C40_Cl2l_x87 (hL : LogOK x87ext L) (x : FP x87ext L) {q : ℚ} (hx : Val x87ext (ofF x) q) :
    ∃ r : ℚ, Val x87ext (ofF (Cl2l x)) r ∧ |(r : ℝ) - clausen 2 q| ≤ (996 + 132 * |(q : ℝ)|) * 2 ^ (-64 : ℤ) ∧
      (|(q : ℝ)| ≤ 3.14 → |(r : ℝ) - clausen 2 q| ≤ 203 * 2 ^ (-64 : ℤ)) := by
  have h := (clCtx_x87 L).even fmtA80 0 (E := 203 * uR x87ext) (Λ := 99) (κ := 1e-42) (by have := uR_pos (φ := x87ext); positivity) (by norm_num) clausen_two_l cl2l_pi_x87
    (cl2lLo_near_x87 hL) (cl2lHi_near_x87) x hx (y := Cl2l x) (Cl2l_split x)
  have hpi314 : (3.14 : ℝ) ≤ ((rq x87ext 3.14159265358979323846264338327950288 : ℚ) : ℝ) := by
    have hd := abs_le.1 (clCtx_x87 L).hd
    have := pi_gt
    have hu : uR x87ext ≤ 1 / 2 ^ 53 := by norm_num [uR, x87ext]
    linarith [hd.1]
  obtain ⟨⟨r, hr, he⟩, h2⟩ := h
  have hq := abs_nonneg (q : ℝ)
  have hu0 := uR_pos (φ := x87ext)
  refine ⟨r, hr, he.trans ?_, fun hq => ?_⟩
  · change _ ≤ (996 + 132 * |(q : ℝ)|) * uR x87ext
    have hk : (1e-42 : ℝ) ≤ uR x87ext := by norm_num [uR, x87ext]
    have := mul_nonneg hu0.le hq
    linarith
  · obtain ⟨r2, hr2, he2⟩ := h2 (by have h5 := hq.trans hpi314; exact_mod_cast h5)
    have := hr.unique hr2; subst this; exact he2

theorem cl2lLo_cert_quad : loCert 113 220 cl2lLoD cl2lLoE 1237304363253623470874657323371244 = true := by decide +kernel
theorem cl2lHi_cert_quad : hiCert 113 220 cl2lHiD cl2lHiE 32451855365842672678315602057625600 1646592 [274773, 1372843] = true := by decide +kernel

theorem cl2lLo_near_quad (hL : LogOK binary128 L) (r : FP binary128 L) (ρ : ℚ) (hr : Val binary128 (ofF r) ρ) (h0 : 0 < ρ) (h1 : ρ < rq binary128 3.14159265358979323846264338327950288 / 2) :
    Near binary128 (ofF (cl2lLo r)) (clausen (2 * 0 + 1 + 1) ρ) (203 * uR binary128) := by
  have h2 := (clCtx_quad L).lt_dec hr h0.le h1
  have h3 : (ρ : ℝ) < ((3.14159265358979323846264338327950288 : ℚ) : ℝ) / 2 := by exact_mod_cast h2
  have h4 : (ρ : ℝ) ≤ 1.571 := by norm_num at h3 ⊢; linarith
  have hs := lo_sound fmtOK128 fmtA128 hL (by decide) cl2lLo_cert_quad hr h0 h4
  rw [cl2lLo_fp, cl2lLo_rs] at hs
  have ha := cl2lLo_acc RealSem.dec_lit (by norm_num) (r := toR RealSem.dec (ρ : ℝ)) (show (0:ℝ) < ρ by exact_mod_cast h0) h3
  refine (hs.shift ha).mono ?_
  norm_num [uR, binary128]

theorem cl2lHi_near_quad (r : FP binary128 L) (ρ : ℚ) (hr : Val binary128 (ofF r) ρ) (h0 : rq binary128 3.14159265358979323846264338327950288 / 2 ≤ ρ) (h1 : ρ ≤ rq binary128 3.14159265358979323846264338327950288) :
    Near binary128 (ofF (cl2lHi r)) (clausen (2 * 0 + 1 + 1) ρ) (203 * uR binary128) := by
  have hd := abs_le.1 (rq_errR fmtA128 3.14159265358979323846264338327950288)
  have h0r : ((rq binary128 3.14159265358979323846264338327950288 : ℚ) : ℝ) / 2 ≤ ρ := by exact_mod_cast h0
  have h1r : (ρ : ℝ) ≤ ((rq binary128 3.14159265358979323846264338327950288 : ℚ) : ℝ) := by exact_mod_cast h1
  rw [abs_of_nonneg (by norm_num)] at hd
  have hu : uR binary128 ≤ 1 / 2 ^ 53 := by norm_num [uR, binary128]
  have hu0 := uR_pos (φ := binary128)
  have a1 : ((3.14159265358979323846264338327950288 : ℚ) : ℝ) / 2 - 1e-6 ≤ ρ := by norm_num at hd ⊢; nlinarith [hd.1]
  have a2 : (ρ : ℝ) ≤ ((3.14159265358979323846264338327950288 : ℚ) : ℝ) + 1e-4 := by norm_num at hd ⊢; nlinarith [hd.2]
  have b1 : ((1646592 : ℕ) : ℝ) / 2 ^ 20 ≤ ρ := by norm_num at a1 ⊢; linarith
  have b2 : (ρ : ℝ) ≤ 3.1416 := by norm_num at hd ⊢; nlinarith [hd.2]
  have hs : Near binary128 (fpP binary128 [ofF r] cl2lHiD cl2lHiE) (ofR (rsP RealSem.dec [toR RealSem.dec (ρ : ℝ)] cl2lHiD cl2lHiE)) (((32451855365842672678315602057625600 : ℤ) : ℝ) / 2 ^ 220) := by
    exact hi_sound fmtOK128 (by norm_num) _ (by simp) cl2lHi_cert_quad hr b1 (by norm_num at b2 ⊢; linarith)
  rw [cl2lHi_fp, cl2lHi_rs] at hs
  have ha := (cl2lHi_acc RealSem.dec_lit (by norm_num) (r := toR RealSem.dec (ρ : ℝ)) a1 a2).2
  refine (hs.shift ha).mono ?_
  norm_num [uR, binary128]

theorem cl2l_pi_quad : |clausen (2 * 0 + 1 + 1) ((rq binary128 3.14159265358979323846264338327950288 : ℚ) : ℝ)| ≤ 203 * uR binary128 := by
  have h := (clCtx_quad zeroLib).hd
  have hu : uR binary128 ≤ 1 / 2 ^ 53 := by norm_num [uR, binary128]
  have hu0 := uR_pos (φ := binary128)
  refine (clausen_two_pi (by linarith)).trans ?_
  linarith

/-- **C40**, `long double Cl2`: for every finite `x` the result is finite and within `(996 + 132 * |x|) u` of `Cl_2(x)`, `u = 2^-113`; within `203 u` for `|x| ≤ 3.14`. -/
theorem C40_Cl2l_quad (hL : LogOK binary128 L) (x : FP binary128 L) {q : ℚ} (hx : Val binary128 (ofF x) q) :
    ∃ r : ℚ, Val binary128 (ofF (Cl2l x)) r ∧ |(r : ℝ) - clausen 2 q| ≤ (996 + 132 * |(q : ℝ)|) * 2 ^ (-113 : ℤ) ∧
      (|(q : ℝ)| ≤ 3.14 → |(r : ℝ) - clausen 2 q| ≤ 203 * 2 ^ (-113 : ℤ)) := by
  have h := (clCtx_quad L).even fmtA128 0 (E := 203 * uR binary128) (Λ := 99) (κ := 1e-42) (by have := uR_pos (φ := binary128); positivity) (by norm_num) clausen_two_l cl2l_pi_quad
    (cl2lLo_near_quad hL) (cl2lHi_near_quad) x hx (y := Cl2l x) (Cl2l_split x)
  have hpi314 : (3.14 : ℝ) ≤ ((rq binary128 3.14159265358979323846264338327950288 : ℚ) : ℝ) := by
    have hd := abs_le.1 (clCtx_quad L).hd
    have := pi_gt
    have hu : uR binary128 ≤ 1 / 2 ^ 53 := by norm_num [uR, binary128]
    linarith [hd.1]
  obtain ⟨⟨r, hr, he⟩, h2⟩ := h
  have hq := abs_nonneg (q : ℝ)
  have hu0 := uR_pos (φ := binary128)
  refine ⟨r, hr, he.trans ?_, fun hq => ?_⟩
  · change _ ≤ (996 + 132 * |(q : ℝ)|) * uR binary128
    have hk : (1e-42 : ℝ) ≤ uR binary128 := by norm_num [uR, binary128]
    have := mul_nonneg hu0.le hq
    linarith
  · obtain ⟨r2, hr2, he2⟩ := h2 (by have h5 := hq.trans hpi314; exact_mod_cast h5)
    have := hr.unique hr2; subst this; exact he2

end Polylog
