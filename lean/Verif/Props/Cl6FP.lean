import Verif.Props.ClFPGen
import Verif.Props.Cl6Real

/-! # C40: `Cl6` in IEEE arithmetic (generated by tools/cl/genclfp.py) -/

namespace Polylog
set_option linter.style.longLine false

variable {φ : Fmt} {L : Lib}

section
/-- numeric literal -/
local notation:max "♯" q:max => FE.lit (q : ℚ)

/-- the low branch of `Cl6d` as a straight-line program -/
def cl6dLoD : List FE := [
  (FE.var 0) *. (FE.var 0),
  (FE.var 2) *. (FE.var 2),
  ♯(cl6dloP[0]) +. (FE.var 2) *. ♯(cl6dloP[1]) +. (FE.var 3) *. (♯(cl6dloP[2]) +. (FE.var 2) *. ♯(cl6dloP[3])),
  ♯(cl6dloQ[0]) +. (FE.var 2) *. ♯(cl6dloQ[1]) +. (FE.var 3) *. (♯(cl6dloQ[2]) +. (FE.var 2) *. ♯(cl6dloQ[3]))]
@[inherit_doc cl6dLoD] def cl6dLoE : FE := (FE.var 0) *. ( (FE.var 4) /. (FE.var 5) -. ♯1 /. ♯120 *. (FE.var 3) *. (FE.var 1))
/-- the high branch of `Cl6d` as a straight-line program -/
def cl6dHiD : List FE := [
  ♯3.14159265358979324 *. ♯3.14159265358979324 /. ♯8,
  ♯3.14159265358979324 -. (FE.var 0),
  (FE.var 2) *. (FE.var 2) -. (FE.var 1),
  (FE.var 3) *. (FE.var 3),
  (FE.var 4) *. (FE.var 4),
  ♯(cl6dhiP[0]) +. (FE.var 3) *. ♯(cl6dhiP[1]) +. (FE.var 4) *. (♯(cl6dhiP[2]) +. (FE.var 3) *. ♯(cl6dhiP[3])) +. (FE.var 5) *. ♯(cl6dhiP[4]),
  ♯(cl6dhiQ[0]) +. (FE.var 3) *. ♯(cl6dhiQ[1]) +. (FE.var 4) *. (♯(cl6dhiQ[2]) +. (FE.var 3) *. ♯(cl6dhiQ[3])) +. (FE.var 5) *. (♯(cl6dhiQ[4]) +. (FE.var 3) *. ♯(cl6dhiQ[5]))]
@[inherit_doc cl6dHiD] def cl6dHiE : FE := (FE.var 2) *. (FE.var 6) /. (FE.var 7)
end

theorem cl6dLo_fp (x : FP φ L) : fpP φ [ofF x, ofF (xlog x)] cl6dLoD cl6dLoE = ofF (cl6dLo x) := by exact (rfl)
theorem cl6dHi_fp (x : FP φ L) : fpP φ [ofF x] cl6dHiD cl6dHiE = ofF (cl6dHi x) := by exact (rfl)
theorem cl6dLo_rs (S : RealSem) (x : R S) : rsP S [x, xlog x] cl6dLoD cl6dLoE = cl6dLo x := by exact (rfl)
theorem cl6dHi_rs (S : RealSem) (x : R S) : rsP S [x] cl6dHiD cl6dHiE = cl6dHi x := by exact (rfl)

theorem cl6dLo_cert : loCert 53 120 cl6dLoD cl6dLoE 1970435376118266459207 = true := by decide +kernel
theorem cl6dHi_cert : hiCert 53 120 cl6dHiD cl6dHiE 3836922767331586736128 1646592 [709243, 938373] = true := by decide +kernel

theorem cl6dLo_near (hL : LogOK binary64 L) (r : FP binary64 L) (ρ : ℚ) (hr : Val binary64 (ofF r) ρ) (h0 : 0 < ρ) (h1 : ρ < rq binary64 3.14159265358979324 / 2) :
    Near binary64 (ofF (cl6dLo r)) (clausen (2 * 2 + 1 + 1) ρ) (27 * uR binary64) := by
  have h2 := (clCtx_d L).lt_dec hr h0.le h1
  have h3 : (ρ : ℝ) < ((3.14159265358979324 : ℚ) : ℝ) / 2 := by exact_mod_cast h2
  have h4 : (ρ : ℝ) ≤ 1.571 := by norm_num at h3 ⊢; linarith
  have hs := lo_sound fmtOK64 fmtA64 hL (by decide) cl6dLo_cert hr h0 h4
  rw [cl6dLo_fp, cl6dLo_rs] at hs
  have ha := cl6dLo_acc RealSem.dec_lit (by norm_num) (r := toR RealSem.dec (ρ : ℝ)) (show (0:ℝ) < ρ by exact_mod_cast h0) h3
  refine (hs.shift ha).mono ?_
  norm_num [uR, binary64]

theorem cl6dHi_near (r : FP binary64 L) (ρ : ℚ) (hr : Val binary64 (ofF r) ρ) (h0 : rq binary64 3.14159265358979324 / 2 ≤ ρ) (h1 : ρ ≤ rq binary64 3.14159265358979324) :
    Near binary64 (ofF (cl6dHi r)) (clausen (2 * 2 + 1 + 1) ρ) (27 * uR binary64) := by
  have hd := abs_le.1 (rq_errR fmtA64 3.14159265358979324)
  have h0r : ((rq binary64 3.14159265358979324 : ℚ) : ℝ) / 2 ≤ ρ := by exact_mod_cast h0
  have h1r : (ρ : ℝ) ≤ ((rq binary64 3.14159265358979324 : ℚ) : ℝ) := by exact_mod_cast h1
  rw [abs_of_nonneg (by norm_num)] at hd
  have hu : uR binary64 ≤ 1 / 2 ^ 53 := by norm_num [uR, binary64]
  have hu0 := uR_pos (φ := binary64)
  have a1 : ((3.14159265358979324 : ℚ) : ℝ) / 2 - 1e-6 ≤ ρ := by norm_num at hd ⊢; nlinarith [hd.1]
  have a2 : (ρ : ℝ) ≤ ((3.14159265358979324 : ℚ) : ℝ) + 1e-4 := by norm_num at hd ⊢; nlinarith [hd.2]
  have b1 : ((1646592 : ℕ) : ℝ) / 2 ^ 20 ≤ ρ := by norm_num at a1 ⊢; linarith
  have b2 : (ρ : ℝ) ≤ 3.1416 := by norm_num at hd ⊢; nlinarith [hd.2]
  have hs : Near binary64 (fpP binary64 [ofF r] cl6dHiD cl6dHiE) (ofR (rsP RealSem.dec [toR RealSem.dec (ρ : ℝ)] cl6dHiD cl6dHiE)) (((3836922767331586736128 : ℤ) : ℝ) / 2 ^ 120) := by
    exact hi_sound fmtOK64 (by norm_num) _ (by simp) cl6dHi_cert hr b1 (by norm_num at b2 ⊢; linarith)
  rw [cl6dHi_fp, cl6dHi_rs] at hs
  have ha := (cl6dHi_acc RealSem.dec_lit (by norm_num) (r := toR RealSem.dec (ρ : ℝ)) a1 a2).2
  refine (hs.shift ha).mono ?_
  norm_num [uR, binary64]

/-- **C40**, `double Cl6`: for every finite `x` the result is finite and within `(43 + 3 * |x|) u` of `Cl_6(x)`, `u = 2^-53`; within `27 u` for `|x| ≤ 3.14`. -/
theorem C40_Cl6d (hL : LogOK binary64 L) (x : FP binary64 L) {q : ℚ} (hx : Val binary64 (ofF x) q) :
    ∃ r : ℚ, Val binary64 (ofF (Cl6d x)) r ∧ |(r : ℝ) - clausen 6 q| ≤ (43 + 3 * |(q : ℝ)|) * 2 ^ (-53 : ℤ) ∧
      (|(q : ℝ)| ≤ 3.14 → |(r : ℝ) - clausen 6 q| ≤ 27 * 2 ^ (-53 : ℤ)) := by
  have hpi : |clausen (2 * 2 + 1 + 1) ((rq binary64 3.14159265358979324 : ℚ) : ℝ)| ≤ 27 * uR binary64 := by
    have h := (clCtx_d L).hd
    have hu0 := uR_pos (φ := binary64)
    have := clausen_lip 2 1 (by norm_num) (by norm_num) ((rq binary64 3.14159265358979324 : ℚ) : ℝ) Real.pi
    rw [clausen_even_pi, sub_zero] at this
    linarith
  have h := (clCtx_d L).even fmtA64 2 (E := 27 * uR binary64) (Λ := 2) (κ := 0) (by have := uR_pos (φ := binary64); positivity) (by norm_num)
    (fun a b => le_of_le_of_eq (clausen_lip 2 1 (by norm_num) (by norm_num) a b) (add_zero _).symm) hpi
    (cl6dLo_near hL) (cl6dHi_near) x hx (y := Cl6d x) (Cl6d_split x)
  have hpi314 : (3.14 : ℝ) ≤ ((rq binary64 3.14159265358979324 : ℚ) : ℝ) := by
    have hd := abs_le.1 (clCtx_d L).hd
    have := pi_gt
    have hu : uR binary64 ≤ 1 / 2 ^ 53 := by norm_num [uR, binary64]
    linarith [hd.1]
  obtain ⟨⟨r, hr, he⟩, h2⟩ := h
  have hq := abs_nonneg (q : ℝ)
  have hu0 := uR_pos (φ := binary64)
  refine ⟨r, hr, he.trans ?_, fun hq => ?_⟩
  · change _ ≤ (43 + 3 * |(q : ℝ)|) * uR binary64
    have := mul_nonneg hu0.le hq
    linarith
  · obtain ⟨r2, hr2, he2⟩ := h2 (by have h5 := hq.trans hpi314; exact_mod_cast h5)
    have := hr.unique hr2; subst this; exact he2

section
/-- numeric literal -/
local notation:max "♯" q:max => FE.lit (q : ℚ)

/-- the low branch of `Cl6l` as a straight-line program -/
def cl6lLoD : List FE := [
  (FE.var 0) *. (FE.var 0),
  (FE.var 2) *. (FE.var 2),
  (FE.var 3) *. (FE.var 3),
  (FE.var 4) *. (FE.var 4),
  ♯(cl6lloP[0]) +. (FE.var 2) *. ♯(cl6lloP[1]) +. (FE.var 3) *. (♯(cl6lloP[2]) +. (FE.var 2) *. ♯(cl6lloP[3])) +. (FE.var 4) *. (♯(cl6lloP[4]) +. (FE.var 2) *. ♯(cl6lloP[5]) +. (FE.var 3) *. (♯(cl6lloP[6]) +. (FE.var 2) *. ♯(cl6lloP[7]))),
  ♯(cl6lloQ[0]) +. (FE.var 2) *. ♯(cl6lloQ[1]) +. (FE.var 3) *. (♯(cl6lloQ[2]) +. (FE.var 2) *. ♯(cl6lloQ[3])) +. (FE.var 4) *. (♯(cl6lloQ[4]) +. (FE.var 2) *. ♯(cl6lloQ[5]) +. (FE.var 3) *. (♯(cl6lloQ[6]) +. (FE.var 2) *. ♯(cl6lloQ[7]))) +. (FE.var 5) *. ♯(cl6lloQ[8])]
@[inherit_doc cl6lLoD] def cl6lLoE : FE := (FE.var 0) *. ( (FE.var 6) /. (FE.var 7) -. ♯1 /. ♯120 *. (FE.var 3) *. (FE.var 1))
/-- the high branch of `Cl6l` as a straight-line program -/
def cl6lHiD : List FE := [
  ♯3.14159265358979323846264338327950288 *. ♯3.14159265358979323846264338327950288 /. ♯8,
  ♯3.14159265358979323846264338327950288 -. (FE.var 0),
  (FE.var 2) *. (FE.var 2) -. (FE.var 1),
  (FE.var 3) *. (FE.var 3),
  (FE.var 4) *. (FE.var 4),
  (FE.var 5) *. (FE.var 5),
  (FE.var 6) *. (FE.var 6),
  ♯(cl6lhiP[0]) +. (FE.var 3) *. ♯(cl6lhiP[1]) +. (FE.var 4) *. (♯(cl6lhiP[2]) +. (FE.var 3) *. ♯(cl6lhiP[3])) +. (FE.var 5) *. (♯(cl6lhiP[4]) +. (FE.var 3) *. ♯(cl6lhiP[5]) +. (FE.var 4) *. (♯(cl6lhiP[6]) +. (FE.var 3) *. ♯(cl6lhiP[7]))) +. (FE.var 6) *. (♯(cl6lhiP[8]) +. (FE.var 3) *. ♯(cl6lhiP[9]) +. (FE.var 4) *. (♯(cl6lhiP[10]) +. (FE.var 3) *. ♯(cl6lhiP[11])) +. (FE.var 5) *. (♯(cl6lhiP[12]) +. (FE.var 3) *. ♯(cl6lhiP[13]) +. (FE.var 4) *. (♯(cl6lhiP[14]) +. (FE.var 3) *. ♯(cl6lhiP[15])))) +. (FE.var 7) *. (♯(cl6lhiP[16]) +. (FE.var 3) *. ♯(cl6lhiP[17]) +. (FE.var 4) *. (♯(cl6lhiP[18]) +. (FE.var 3) *. ♯(cl6lhiP[19])) +. (FE.var 5) *. (♯(cl6lhiP[20]) +. (FE.var 3) *. ♯(cl6lhiP[21]) +. (FE.var 4) *. ♯(cl6lhiP[22]))),
  ♯(cl6lhiQ[0]) +. (FE.var 3) *. ♯(cl6lhiQ[1]) +. (FE.var 4) *. (♯(cl6lhiQ[2]) +. (FE.var 3) *. ♯(cl6lhiQ[3])) +. (FE.var 5) *. (♯(cl6lhiQ[4]) +. (FE.var 3) *. ♯(cl6lhiQ[5]) +. (FE.var 4) *. (♯(cl6lhiQ[6]) +. (FE.var 3) *. ♯(cl6lhiQ[7]))) +. (FE.var 6) *. (♯(cl6lhiQ[8]) +. (FE.var 3) *. ♯(cl6lhiQ[9]) +. (FE.var 4) *. (♯(cl6lhiQ[10]) +. (FE.var 3) *. ♯(cl6lhiQ[11])) +. (FE.var 5) *. (♯(cl6lhiQ[12]) +. (FE.var 3) *. ♯(cl6lhiQ[13]) +. (FE.var 4) *. (♯(cl6lhiQ[14]) +. (FE.var 3) *. ♯(cl6lhiQ[15])))) +. (FE.var 7) *. (♯(cl6lhiQ[16]) +. (FE.var 3) *. ♯(cl6lhiQ[17]) +. (FE.var 4) *. (♯(cl6lhiQ[18]) +. (FE.var 3) *. ♯(cl6lhiQ[19])) +. (FE.var 5) *. (♯(cl6lhiQ[20]) +. (FE.var 3) *. ♯(cl6lhiQ[21]) +. (FE.var 4) *. ♯(cl6lhiQ[22])))]
@[inherit_doc cl6lHiD] def cl6lHiE : FE := (FE.var 2) *. (FE.var 8) /. (FE.var 9)
end

theorem cl6lLo_fp (x : FP φ L) : fpP φ [ofF x, ofF (xlog x)] cl6lLoD cl6lLoE = ofF (cl6lLo x) := by exact (rfl)
theorem cl6lHi_fp (x : FP φ L) : fpP φ [ofF x] cl6lHiD cl6lHiE = ofF (cl6lHi x) := by exact (rfl)
theorem cl6lLo_rs (S : RealSem) (x : R S) : rsP S [x, xlog x] cl6lLoD cl6lLoE = cl6lLo x := by exact (rfl)
theorem cl6lHi_rs (S : RealSem) (x : R S) : rsP S [x] cl6lHiD cl6lHiE = cl6lHi x := by exact (rfl)

theorem cl6lLo_cert_x87 : loCert 64 140 cl6lLoD cl6lLoE 1515071115267964028609276 = true := by decide +kernel
theorem cl6lHi_cert_x87 : hiCert 64 140 cl6lHiD cl6lHiE 3777893186295716170956800000 1646592 [9430, 11578, 14193, 17370, 23571, 35398, 58600, 130943, 1090691, 255842] = true := by decide +kernel

theorem cl6lLo_near_x87 (hL : LogOK x87ext L) (r : FP x87ext L) (ρ : ℚ) (hr : Val x87ext (ofF r) ρ) (h0 : 0 < ρ) (h1 : ρ < rq x87ext 3.14159265358979323846264338327950288 / 2) :
    Near x87ext (ofF (cl6lLo r)) (clausen (2 * 2 + 1 + 1) ρ) (50501 * uR x87ext) := by
  have h2 := (clCtx_x87 L).lt_dec hr h0.le h1
  have h3 : (ρ : ℝ) < ((3.14159265358979323846264338327950288 : ℚ) : ℝ) / 2 := by exact_mod_cast h2
  have h4 : (ρ : ℝ) ≤ 1.571 := by norm_num at h3 ⊢; linarith
  have hs := lo_sound fmtOK80 fmtA80 hL (by decide) cl6lLo_cert_x87 hr h0 h4
  rw [cl6lLo_fp, cl6lLo_rs] at hs
  have ha := cl6lLo_acc RealSem.dec_lit (by norm_num) (r := toR RealSem.dec (ρ : ℝ)) (show (0:ℝ) < ρ by exact_mod_cast h0) h3
  refine (hs.shift ha).mono ?_
  norm_num [uR, x87ext]

theorem cl6lHi_near_x87 (r : FP x87ext L) (ρ : ℚ) (hr : Val x87ext (ofF r) ρ) (h0 : rq x87ext 3.14159265358979323846264338327950288 / 2 ≤ ρ) (h1 : ρ ≤ rq x87ext 3.14159265358979323846264338327950288) :
    Near x87ext (ofF (cl6lHi r)) (clausen (2 * 2 + 1 + 1) ρ) (50501 * uR x87ext) := by
  have hd := abs_le.1 (rq_errR fmtA80 3.14159265358979323846264338327950288)
  have h0r : ((rq x87ext 3.14159265358979323846264338327950288 : ℚ) : ℝ) / 2 ≤ ρ := by exact_mod_cast h0
  have h1r : (ρ : ℝ) ≤ ((rq x87ext 3.14159265358979323846264338327950288 : ℚ) : ℝ) := by exact_mod_cast h1
  rw [abs_of_nonneg (by norm_num)] at hd
  have hu : uR x87ext ≤ 1 / 2 ^ 53 := by norm_num [uR, x87ext]
  have hu0 := uR_pos (φ := x87ext)
  have a1 : ((3.14159265358979323846264338327950288 : ℚ) : ℝ) / 2 - 1e-6 ≤ ρ := by norm_num at hd ⊢; nlinarith [hd.1]
  have a2 : (ρ : ℝ) ≤ ((3.14159265358979323846264338327950288 : ℚ) : ℝ) + 1e-4 := by norm_num at hd ⊢; nlinarith [hd.2]
  have b1 : ((1646592 : ℕ) : ℝ) / 2 ^ 20 ≤ ρ := by norm_num at a1 ⊢; linarith
  have b2 : (ρ : ℝ) ≤ 3.1416 := by norm_num at hd ⊢; nlinarith [hd.2]
  have hs : Near x87ext (fpP x87ext [ofF r] cl6lHiD cl6lHiE) (ofR (rsP RealSem.dec [toR RealSem.dec (ρ : ℝ)] cl6lHiD cl6lHiE)) (((3777893186295716170956800000 : ℤ) : ℝ) / 2 ^ 140) := by
    exact hi_sound fmtOK80 (by norm_num) _ (by simp) cl6lHi_cert_x87 hr b1 (by norm_num at b2 ⊢; linarith)
  rw [cl6lHi_fp, cl6lHi_rs] at hs
  have ha := (cl6lHi_acc RealSem.dec_lit (by norm_num) (r := toR RealSem.dec (ρ : ℝ)) a1 a2).2
  refine (hs.shift ha).mono ?_
  norm_num [uR, x87ext]

/-- **C40**, `long double Cl6`: for every finite `x` the result is finite and within `(50517 + 3 * |x|) u` of `Cl_6(x)`, `u = 2^-64`; within `50501 u` for `|x| ≤ 3.14`. -/
theorem C40_Cl6l_x87 (hL : LogOK x87ext L) (x : FP x87ext L) {q : ℚ} (hx : Val x87ext (ofF x) q) :
    ∃ r : ℚ, Val x87ext (ofF (Cl6l x)) r ∧ |(r : ℝ) - clausen 6 q| ≤ (50517 + 3 * |(q : ℝ)|) * 2 ^ (-64 : ℤ) ∧
      (|(q : ℝ)| ≤ 3.14 → |(r : ℝ) - clausen 6 q| ≤ 50501 * 2 ^ (-64 : ℤ)) := by
  have hpi : |clausen (2 * 2 + 1 + 1) ((rq x87ext 3.14159265358979323846264338327950288 : ℚ) : ℝ)| ≤ 50501 * uR x87ext := by
    have h := (clCtx_x87 L).hd
    have hu0 := uR_pos (φ := x87ext)
    have := clausen_lip 2 1 (by norm_num) (by norm_num) ((rq x87ext 3.14159265358979323846264338327950288 : ℚ) : ℝ) Real.pi
    rw [clausen_even_pi, sub_zero] at this
    linarith
  have h := (clCtx_x87 L).even fmtA80 2 (E := 50501 * uR x87ext) (Λ := 2) (κ := 0) (by have := uR_pos (φ := x87ext); positivity) (by norm_num)
    (fun a b => le_of_le_of_eq (clausen_lip 2 1 (by norm_num) (by norm_num) a b) (add_zero _).symm) hpi
    (cl6lLo_near_x87 hL) (cl6lHi_near_x87) x hx (y := Cl6l x) (Cl6l_split x)
  have hpi314 : (3.14 : ℝ) ≤ ((rq x87ext 3.14159265358979323846264338327950288 : ℚ) : ℝ) := by
    have hd := abs_le.1 (clCtx_x87 L).hd
    have := pi_gt
    have hu : uR x87ext ≤ 1 / 2 ^ 53 := by norm_num [uR, x87ext]
    linarith [hd.1]
  obtain ⟨⟨r, hr, he⟩, h2⟩ := h
  have hq := abs_nonneg (q : ℝ)
  have hu0 := uR_pos (φ := x87ext)
  refine ⟨r, hr, he.trans ?_, fun hq => ?_⟩
  · change _ ≤ (50517 + 3 * |(q : ℝ)|) * uR x87ext
    have := mul_nonneg hu0.le hq
    linarith
  · obtain ⟨r2, hr2, he2⟩ := h2 (by have h5 := hq.trans hpi314; exact_mod_cast h5)
    have := hr.unique hr2; subst this; exact he2

end Polylog
