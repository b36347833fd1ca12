import Verif.Props.ClFPGen
import Verif.Props.Cl3Real

/-! # C40: `Cl3` in IEEE arithmetic (generated by tools/cl/genclfp.py) -/

namespace Polylog
set_option linter.style.longLine false

variable {φ : Fmt} {L : Lib}

section
/-- numeric literal -/
local notation:max "♯" q:max => FE.lit (q : ℚ)

/-- the low branch of `Cl3d` as a straight-line program -/
def cl3dLoD : List FE := [
  (FE.var 0) *. (FE.var 0),
  (FE.var 2) *. (FE.var 2),
  ♯(cl3dloP[0]) +. (FE.var 2) *. ♯(cl3dloP[1]) +. (FE.var 3) *. (♯(cl3dloP[2]) +. (FE.var 2) *. ♯(cl3dloP[3])),
  ♯(cl3dloQ[0]) +. (FE.var 2) *. ♯(cl3dloQ[1]) +. (FE.var 3) *. (♯(cl3dloQ[2]) +. (FE.var 2) *. ♯(cl3dloQ[3]))]
@[inherit_doc cl3dLoD] def cl3dLoE : FE := ♯1.2020569031595943 +. (FE.var 2) *. ( (FE.var 4) /. (FE.var 5) +. ♯0.5 *. (FE.var 1))
/-- the high branch of `Cl3d` as a straight-line program -/
def cl3dHiD : List FE := [
  ♯3.14159265358979324 *. ♯3.14159265358979324 /. ♯8,
  ♯3.14159265358979324 -. (FE.var 0),
  (FE.var 2) *. (FE.var 2) -. (FE.var 1),
  (FE.var 3) *. (FE.var 3),
  (FE.var 4) *. (FE.var 4),
  ♯(cl3dhiP[0]) +. (FE.var 3) *. ♯(cl3dhiP[1]) +. (FE.var 4) *. (♯(cl3dhiP[2]) +. (FE.var 3) *. ♯(cl3dhiP[3])) +. (FE.var 5) *. (♯(cl3dhiP[4]) +. (FE.var 3) *. ♯(cl3dhiP[5])),
  ♯(cl3dhiQ[0]) +. (FE.var 3) *. ♯(cl3dhiQ[1]) +. (FE.var 4) *. (♯(cl3dhiQ[2]) +. (FE.var 3) *. ♯(cl3dhiQ[3])) +. (FE.var 5) *. (♯(cl3dhiQ[4]) +. (FE.var 3) *. ♯(cl3dhiQ[5]))]
@[inherit_doc cl3dHiD] def cl3dHiE : FE := (FE.var 6) /. (FE.var 7)
end

theorem cl3dLo_fp (x : FP φ L) : fpP φ [ofF x, ofF (xlog x)] cl3dLoD cl3dLoE = ofF (cl3dLo x) := by exact (rfl)
theorem cl3dHi_fp (x : FP φ L) : fpP φ [ofF x] cl3dHiD cl3dHiE = ofF (cl3dHi x) := by exact (rfl)
theorem cl3dLo_rs (S : RealSem) (x : R S) : rsP S [x, xlog x] cl3dLoD cl3dLoE = cl3dLo x := by exact (rfl)
theorem cl3dHi_rs (S : RealSem) (x : R S) : rsP S [x] cl3dHiD cl3dHiE = cl3dHi x := by exact (rfl)

theorem cl3dLo_cert : loCert 53 120 cl3dLoD cl3dLoE 3229960189025386965432 = true := by decide +kernel
theorem cl3dHi_cert : hiCert 53 120 cl3dHiD cl3dHiE 3541774862152233910272 1646592 [465333, 1182283] = true := by decide +kernel

theorem cl3dLo_near (hL : LogOK binary64 L) (r : FP binary64 L) (ρ : ℚ) (hr : Val binary64 (ofF r) ρ) (h0 : 0 < ρ) (h1 : ρ < rq binary64 3.14159265358979324 / 2) :
    Near binary64 (ofF (cl3dLo r)) (clausen (2 * 1 + 1 + 0) ρ) (25 * uR binary64) := by
  have h2 := (clCtx_d L).lt_dec hr h0.le h1
  have h3 : (ρ : ℝ) < ((3.14159265358979324 : ℚ) : ℝ) / 2 := by exact_mod_cast h2
  have h4 : (ρ : ℝ) ≤ 1.571 := by norm_num at h3 ⊢; linarith
  have hs := lo_sound fmtOK64 fmtA64 hL (by decide) cl3dLo_cert hr h0 h4
  rw [cl3dLo_fp, cl3dLo_rs] at hs
  have ha := cl3dLo_acc RealSem.dec_lit (by norm_num) (r := toR RealSem.dec (ρ : ℝ)) (show (0:ℝ) < ρ by exact_mod_cast h0) h3
  refine (hs.shift ha).mono ?_
  norm_num [uR, binary64]

theorem cl3dHi_near (r : FP binary64 L) (ρ : ℚ) (hr : Val binary64 (ofF r) ρ) (h0 : rq binary64 3.14159265358979324 / 2 ≤ ρ) (h1 : ρ ≤ rq binary64 3.14159265358979324) :
    Near binary64 (ofF (cl3dHi r)) (clausen (2 * 1 + 1 + 0) ρ) (25 * uR binary64) := by
  have hd := abs_le.1 (rq_errR fmtA64 3.14159265358979324)
  have h0r : ((rq binary64 3.14159265358979324 : ℚ) : ℝ) / 2 ≤ ρ := by exact_mod_cast h0
  have h1r : (ρ : ℝ) ≤ ((rq binary64 3.14159265358979324 : ℚ) : ℝ) := by exact_mod_cast h1
  rw [abs_of_nonneg (by norm_num)] at hd
  have hu : uR binary64 ≤ 1 / 2 ^ 53 := by norm_num [uR, binary64]
  have hu0 := uR_pos (φ := binary64)
  have a1 : ((3.14159265358979324 : ℚ) : ℝ) / 2 - 1e-6 ≤ ρ := by norm_num at hd ⊢; nlinarith [hd.1]
  have a2 : (ρ : ℝ) ≤ ((3.14159265358979324 : ℚ) : ℝ) + 1e-4 := by norm_num at hd ⊢; nlinarith [hd.2]
  have b1 : ((1646592 : ℕ) : ℝ) / 2 ^ 20 ≤ ρ := by norm_num at a1 ⊢; linarith
  have b2 : (ρ : ℝ) ≤ 3.1416 := by norm_num at hd ⊢; nlinarith [hd.2]
  have hs : Near binary64 (fpP binary64 [ofF r] cl3dHiD cl3dHiE) (ofR (rsP RealSem.dec [toR RealSem.dec (ρ : ℝ)] cl3dHiD cl3dHiE)) (((3541774862152233910272 : ℤ) : ℝ) / 2 ^ 120) := by
    exact hi_sound fmtOK64 (by norm_num) _ (by simp) cl3dHi_cert hr b1 (by norm_num at b2 ⊢; linarith)
  rw [cl3dHi_fp, cl3dHi_rs] at hs
  have ha := cl3dHi_acc RealSem.dec_lit (by norm_num) (r := toR RealSem.dec (ρ : ℝ)) a1 a2
  refine (hs.shift ha).mono ?_
  norm_num [uR, binary64]

/-- **C40**, `double Cl3`: for every finite `x` the result is finite and within `(41 + 3 * |x|) u` of `Cl_3(x)`, `u = 2^-53`; within `25 u` for `|x| ≤ 3.14`. -/
theorem C40_Cl3d (hL : LogOK binary64 L) (x : FP binary64 L) {q : ℚ} (hx : Val binary64 (ofF x) q) :
    ∃ r : ℚ, Val binary64 (ofF (Cl3d x)) r ∧ |(r : ℝ) - clausen 3 q| ≤ (41 + 3 * |(q : ℝ)|) * 2 ^ (-53 : ℤ) ∧
      (|(q : ℝ)| ≤ 3.14 → |(r : ℝ) - clausen 3 q| ≤ 25 * 2 ^ (-53 : ℤ)) := by
  have hZ : Near binary64 (ofF (FOps.lit 1.2020569031595943 : FP binary64 L)) (clausen (2 * 1 + 1 + 0) 0) (25 * uR binary64) := by
    rw [clausen_odd_zero, ofF_lit]
    refine ((near_lit fmtA64 (q := 1.2020569031595943) (by rw [abs_of_nonneg (by norm_num)]; norm_num)).shift (Z3d (S := RealSem.dec) RealSem.dec_lit)).mono ?_
    rw [abs_of_nonneg (by norm_num)]
    norm_num [uR, binary64]
  have h := (clCtx_d L).odd fmtA64 1 (by norm_num) hZ (cl3dLo_near hL) (cl3dHi_near) x hx (y := Cl3d x) (Cl3d_split x)
  have hpi314 : (3.14 : ℝ) ≤ ((rq binary64 3.14159265358979324 : ℚ) : ℝ) := by
    have hd := abs_le.1 (clCtx_d L).hd
    have := pi_gt
    have hu : uR binary64 ≤ 1 / 2 ^ 53 := by norm_num [uR, binary64]
    linarith [hd.1]
  obtain ⟨⟨r, hr, he⟩, h2⟩ := h
  have hq := abs_nonneg (q : ℝ)
  have hu0 := uR_pos (φ := binary64)
  refine ⟨r, hr, he.trans ?_, fun hq => ?_⟩
  · change _ ≤ (41 + 3 * |(q : ℝ)|) * uR binary64
    have := mul_nonneg hu0.le hq
    linarith
  · obtain ⟨r2, hr2, he2⟩ := h2 (by have h5 := hq.trans hpi314; exact_mod_cast h5)
    have := hr.unique hr2; subst this; exact he2

section
/-- numeric literal -/
local notation:max "♯" q:max => FE.lit (q : ℚ)

/-- the low branch of `Cl3l` as a straight-line program -/
def cl3lLoD : List FE := [
  ♯3.14159265358979323846264338327950288 *. ♯3.14159265358979323846264338327950288 /. ♯8,
  (FE.var 0) *. (FE.var 0),
  (FE.var 3) -. (FE.var 2),
  (FE.var 4) *. (FE.var 4),
  (FE.var 5) *. (FE.var 5),
  (FE.var 6) *. (FE.var 6),
  ♯(cl3lloP[0]) +. (FE.var 4) *. ♯(cl3lloP[1]) +. (FE.var 5) *. (♯(cl3lloP[2]) +. (FE.var 4) *. ♯(cl3lloP[3])) +. (FE.var 6) *. (♯(cl3lloP[4]) +. (FE.var 4) *. ♯(cl3lloP[5]) +. (FE.var 5) *. (♯(cl3lloP[6]) +. (FE.var 4) *. ♯(cl3lloP[7]))) +. (FE.var 7) *. ♯(cl3lloP[8]),
  ♯(cl3lloQ[0]) +. (FE.var 4) *. ♯(cl3lloQ[1]) +. (FE.var 5) *. (♯(cl3lloQ[2]) +. (FE.var 4) *. ♯(cl3lloQ[3])) +. (FE.var 6) *. (♯(cl3lloQ[4]) +. (FE.var 4) *. ♯(cl3lloQ[5]) +. (FE.var 5) *. (♯(cl3lloQ[6]) +. (FE.var 4) *. ♯(cl3lloQ[7]))) +. (FE.var 7) *. ♯(cl3lloQ[8])]
@[inherit_doc cl3lLoD] def cl3lLoE : FE := ♯1.2020569031595942853997381615114499908 +. (FE.var 3) *. ( (FE.var 8) /. (FE.var 9) +. ♯0.5 *. (FE.var 1))
/-- the high branch of `Cl3l` as a straight-line program -/
def cl3lHiD : List FE := [
  ♯3.14159265358979323846264338327950288 *. ♯3.14159265358979323846264338327950288 /. ♯8,
  ♯3.14159265358979323846264338327950288 -. (FE.var 0),
  (FE.var 2) *. (FE.var 2) -. (FE.var 1),
  (FE.var 3) *. (FE.var 3),
  (FE.var 4) *. (FE.var 4),
  (FE.var 5) *. (FE.var 5),
  (FE.var 6) *. (FE.var 6),
  ♯(cl3lhiP[0]) +. (FE.var 3) *. ♯(cl3lhiP[1]) +. (FE.var 4) *. (♯(cl3lhiP[2]) +. (FE.var 3) *. ♯(cl3lhiP[3])) +. (FE.var 5) *. (♯(cl3lhiP[4]) +. (FE.var 3) *. ♯(cl3lhiP[5]) +. (FE.var 4) *. (♯(cl3lhiP[6]) +. (FE.var 3) *. ♯(cl3lhiP[7]))) +. (FE.var 6) *. (♯(cl3lhiP[8]) +. (FE.var 3) *. ♯(cl3lhiP[9]) +. (FE.var 4) *. (♯(cl3lhiP[10]) +. (FE.var 3) *. ♯(cl3lhiP[11])) +. (FE.var 5) *. (♯(cl3lhiP[12]) +. (FE.var 3) *. ♯(cl3lhiP[13]) +. (FE.var 4) *. (♯(cl3lhiP[14]) +. (FE.var 3) *. ♯(cl3lhiP[15])))) +. (FE.var 7) *. (♯(cl3lhiP[16]) +. (FE.var 3) *. ♯(cl3lhiP[17]) +. (FE.var 4) *. (♯(cl3lhiP[18]) +. (FE.var 3) *. ♯(cl3lhiP[19])) +. (FE.var 5) *. (♯(cl3lhiP[20]) +. (FE.var 3) *. ♯(cl3lhiP[21]) +. (FE.var 4) *. ♯(cl3lhiP[22]))),
  ♯(cl3lhiQ[0]) +. (FE.var 3) *. ♯(cl3lhiQ[1]) +. (FE.var 4) *. (♯(cl3lhiQ[2]) +. (FE.var 3) *. ♯(cl3lhiQ[3])) +. (FE.var 5) *. (♯(cl3lhiQ[4]) +. (FE.var 3) *. ♯(cl3lhiQ[5]) +. (FE.var 4) *. (♯(cl3lhiQ[6]) +. (FE.var 3) *. ♯(cl3lhiQ[7]))) +. (FE.var 6) *. (♯(cl3lhiQ[8]) +. (FE.var 3) *. ♯(cl3lhiQ[9]) +. (FE.var 4) *. (♯(cl3lhiQ[10]) +. (FE.var 3) *. ♯(cl3lhiQ[11])) +. (FE.var 5) *. (♯(cl3lhiQ[12]) +. (FE.var 3) *. ♯(cl3lhiQ[13]) +. (FE.var 4) *. (♯(cl3lhiQ[14]) +. (FE.var 3) *. ♯(cl3lhiQ[15])))) +. (FE.var 7) *. (♯(cl3lhiQ[16]) +. (FE.var 3) *. ♯(cl3lhiQ[17]) +. (FE.var 4) *. (♯(cl3lhiQ[18]) +. (FE.var 3) *. ♯(cl3lhiQ[19])) +. (FE.var 5) *. (♯(cl3lhiQ[20]) +. (FE.var 3) *. ♯(cl3lhiQ[21]) +. (FE.var 4) *. ♯(cl3lhiQ[22])))]
@[inherit_doc cl3lHiD] def cl3lHiE : FE := (FE.var 8) /. (FE.var 9)
end

theorem cl3lLo_fp (x : FP φ L) : fpP φ [ofF x, ofF (xlog x)] cl3lLoD cl3lLoE = ofF (cl3lLo x) := by exact (rfl)
theorem cl3lHi_fp (x : FP φ L) : fpP φ [ofF x] cl3lHiD cl3lHiE = ofF (cl3lHi x) := by exact (rfl)
theorem cl3lLo_rs (S : RealSem) (x : R S) : rsP S [x, xlog x] cl3lLoD cl3lLoE = cl3lLo x := by exact (rfl)
theorem cl3lHi_rs (S : RealSem) (x : R S) : rsP S [x] cl3lHiD cl3lHiE = cl3lHi x := by exact (rfl)

theorem cl3lLo_cert_x87 : loCert 64 140 cl3lLoD cl3lLoE 2557250763320699621275960 = true := by decide +kernel
theorem cl3lHi_cert_x87 : hiCert 64 140 cl3lHiD cl3lHiE 906694364710971881029632000 1646592 [11643, 15860, 21546, 29167, 43644, 79846, 241133, 1204777] = true := by decide +kernel

theorem cl3lLo_near_x87 (hL : LogOK x87ext L) (r : FP x87ext L) (ρ : ℚ) (hr : Val x87ext (ofF r) ρ) (h0 : 0 < ρ) (h1 : ρ < rq x87ext 3.14159265358979323846264338327950288 / 2) :
    Near x87ext (ofF (cl3lLo r)) (clausen (2 * 1 + 1 + 0) ρ) (12121 * uR x87ext) := by
  have h2 := (clCtx_x87 L).lt_dec hr h0.le h1
  have h3 : (ρ : ℝ) < ((3.14159265358979323846264338327950288 : ℚ) : ℝ) / 2 := by exact_mod_cast h2
  have h4 : (ρ : ℝ) ≤ 1.571 := by norm_num at h3 ⊢; linarith
  have hs := lo_sound fmtOK80 fmtA80 hL (by decide) cl3lLo_cert_x87 hr h0 h4
  rw [cl3lLo_fp, cl3lLo_rs] at hs
  have ha := cl3lLo_acc RealSem.dec_lit (by norm_num) (r := toR RealSem.dec (ρ : ℝ)) (show (0:ℝ) < ρ by exact_mod_cast h0) h3
  refine (hs.shift ha).mono ?_
  norm_num [uR, x87ext]

theorem cl3lHi_near_x87 (r : FP x87ext L) (ρ : ℚ) (hr : Val x87ext (ofF r) ρ) (h0 : rq x87ext 3.14159265358979323846264338327950288 / 2 ≤ ρ) (h1 : ρ ≤ rq x87ext 3.14159265358979323846264338327950288) :
    Near x87ext (ofF (cl3lHi r)) (clausen (2 * 1 + 1 + 0) ρ) (12121 * uR x87ext) := by
  have hd := abs_le.1 (rq_errR fmtA80 3.14159265358979323846264338327950288)
  have h0r : ((rq x87ext 3.14159265358979323846264338327950288 : ℚ) : ℝ) / 2 ≤ ρ := by exact_mod_cast h0
  have h1r : (ρ : ℝ) ≤ ((rq x87ext 3.14159265358979323846264338327950288 : ℚ) : ℝ) := by exact_mod_cast h1
  rw [abs_of_nonneg (by norm_num)] at hd
  have hu : uR x87ext ≤ 1 / 2 ^ 53 := by norm_num [uR, x87ext]
  have hu0 := uR_pos (φ := x87ext)
  have a1 : ((3.14159265358979323846264338327950288 : ℚ) : ℝ) / 2 - 1e-6 ≤ ρ := by norm_num at hd ⊢; nlinarith [hd.1]
  have a2 : (ρ : ℝ) ≤ ((3.14159265358979323846264338327950288 : ℚ) : ℝ) + 1e-4 := by norm_num at hd ⊢; nlinarith [hd.2]
  have b1 : ((1646592 : ℕ) : ℝ) / 2 ^ 20 ≤ ρ := by norm_num at a1 ⊢; linarith
  have b2 : (ρ : ℝ) ≤ 3.1416 := by norm_num at hd ⊢; nlinarith [hd.2]
  have hs : Near x87ext (fpP x87ext [ofF r] cl3lHiD cl3lHiE) (ofR (rsP RealSem.dec [toR RealSem.dec (ρ : ℝ)] cl3lHiD cl3lHiE)) (((906694364710971881029632000 : ℤ) : ℝ) / 2 ^ 140) := by
    exact hi_sound fmtOK80 (by norm_num) _ (by simp) cl3lHi_cert_x87 hr b1 (by norm_num at b2 ⊢; linarith)
  rw [cl3lHi_fp, cl3lHi_rs] at hs
  have ha := cl3lHi_acc RealSem.dec_lit (by norm_num) (r := toR RealSem.dec (ρ : ℝ)) a1 a2
  refine (hs.shift ha).mono ?_
  norm_num [uR, x87ext]

/-- **C40**, `long double Cl3`: for every finite `x` the result is finite and within `(12137 + 3 * |x|) u` of `Cl_3(x)`, `u = 2^-64`; within `12121 u` for `|x| ≤ 3.14`. -/
theorem C40_Cl3l_x87 (hL : LogOK x87ext L) (x : FP x87ext L) {q : ℚ} (hx : Val x87ext (ofF x) q) :
    ∃ r : ℚ, Val x87ext (ofF (Cl3l x)) r ∧ |(r : ℝ) - clausen 3 q| ≤ (12137 + 3 * |(q : ℝ)|) * 2 ^ (-64 : ℤ) ∧
      (|(q : ℝ)| ≤ 3.14 → |(r : ℝ) - clausen 3 q| ≤ 12121 * 2 ^ (-64 : ℤ)) := by
  have hZ : Near x87ext (ofF (FOps.lit 1.2020569031595942853997381615114499908 : FP x87ext L)) (clausen (2 * 1 + 1 + 0) 0) (12121 * uR x87ext) := by
    rw [clausen_odd_zero, ofF_lit]
    refine ((near_lit fmtA80 (q := 1.2020569031595942853997381615114499908) (by rw [abs_of_nonneg (by norm_num)]; norm_num)).shift (Z3l (S := RealSem.dec) RealSem.dec_lit)).mono ?_
    rw [abs_of_nonneg (by norm_num)]
    norm_num [uR, x87ext]
  have h := (clCtx_x87 L).odd fmtA80 1 (by norm_num) hZ (cl3lLo_near_x87 hL) (cl3lHi_near_x87) x hx (y := Cl3l x) (Cl3l_split x)
  have hpi314 : (3.14 : ℝ) ≤ ((rq x87ext 3.14159265358979323846264338327950288 : ℚ) : ℝ) := by
    have hd := abs_le.1 (clCtx_x87 L).hd
    have := pi_gt
    have hu : uR x87ext ≤ 1 / 2 ^ 53 := by norm_num [uR, x87ext]
    linarith [hd.1]
  obtain ⟨⟨r, hr, he⟩, h2⟩ := h
  have hq := abs_nonneg (q : ℝ)
  have hu0 := uR_pos (φ := x87ext)
  refine ⟨r, hr, he.trans ?_, fun hq => ?_⟩
  · change _ ≤ (12137 + 3 * |(q : ℝ)|) * uR x87ext
    have := mul_nonneg hu0.le hq
    linarith
  · obtain ⟨r2, hr2, he2⟩ := h2 (by have h5 := hq.trans hpi314; exact_mod_cast h5)
    have := hr.unique hr2; subst this; exact he2

end Polylog
