import Verif.Props.ClFPGen
import Verif.Props.Cl5Real

/-! # C40: `Cl5` in IEEE arithmetic (generated by tools/cl/genclfp.py) -/

namespace Polylog
set_option linter.style.longLine false

variable {φ : Fmt} {L : Lib}

section
/-- numeric literal -/
local notation:max "♯" q:max => FE.lit (q : ℚ)

/-- the low branch of `Cl5d` as a straight-line program -/
def cl5dLoD : List FE := [
  (FE.var 0) *. (FE.var 0),
  (FE.var 2) *. (FE.var 2),
  ♯(cl5dloP[0]) +. (FE.var 2) *. ♯(cl5dloP[1]) +. (FE.var 3) *. (♯(cl5dloP[2]) +. (FE.var 2) *. ♯(cl5dloP[3])),
  ♯(cl5dloQ[0]) +. (FE.var 2) *. ♯(cl5dloQ[1]) +. (FE.var 3) *. (♯(cl5dloQ[2]) +. (FE.var 2) *. ♯(cl5dloQ[3]) +. (FE.var 3) *. ♯(cl5dloQ[4]))]
@[inherit_doc cl5dLoD] def cl5dLoE : FE := (FE.var 4) /. (FE.var 5) -. ♯1 /. ♯24 *. (FE.var 3) *. (FE.var 1)
/-- the high branch of `Cl5d` as a straight-line program -/
def cl5dHiD : List FE := [
  ♯3.14159265358979324 *. ♯3.14159265358979324 /. ♯8,
  ♯3.14159265358979324 -. (FE.var 0),
  (FE.var 2) *. (FE.var 2) -. (FE.var 1),
  (FE.var 3) *. (FE.var 3),
  (FE.var 4) *. (FE.var 4),
  ♯(cl5dhiP[0]) +. (FE.var 3) *. ♯(cl5dhiP[1]) +. (FE.var 4) *. (♯(cl5dhiP[2]) +. (FE.var 3) *. ♯(cl5dhiP[3])) +. (FE.var 5) *. (♯(cl5dhiP[4]) +. (FE.var 3) *. ♯(cl5dhiP[5])),
  ♯(cl5dhiQ[0]) +. (FE.var 3) *. ♯(cl5dhiQ[1]) +. (FE.var 4) *. (♯(cl5dhiQ[2]) +. (FE.var 3) *. ♯(cl5dhiQ[3])) +. (FE.var 5) *. (♯(cl5dhiQ[4]) +. (FE.var 3) *. ♯(cl5dhiQ[5]))]
@[inherit_doc cl5dHiD] def cl5dHiE : FE := (FE.var 6) /. (FE.var 7)
end

theorem cl5dLo_fp (x : FP φ L) : fpP φ [ofF x, ofF (xlog x)] cl5dLoD cl5dLoE = ofF (cl5dLo x) := by exact (rfl)
theorem cl5dHi_fp (x : FP φ L) : fpP φ [ofF x] cl5dHiD cl5dHiE = ofF (cl5dHi x) := by exact (rfl)
theorem cl5dLo_rs (S : RealSem) (x : R S) : rsP S [x, xlog x] cl5dLoD cl5dLoE = cl5dLo x := by exact (rfl)
theorem cl5dHi_rs (S : RealSem) (x : R S) : rsP S [x] cl5dHiD cl5dHiE = cl5dHi x := by exact (rfl)

theorem cl5dLo_cert : loCert 53 120 cl5dLoD cl5dLoE 1785360693860815452060 = true := by decide +kernel
theorem cl5dHi_cert : hiCert 53 120 cl5dHiD cl5dHiE 3099053004383204671488 1646592 [574486, 1073130] = true := by decide +kernel

theorem cl5dLo_near (hL : LogOK binary64 L) (r : FP binary64 L) (ρ : ℚ) (hr : Val binary64 (ofF r) ρ) (h0 : 0 < ρ) (h1 : ρ < rq binary64 3.14159265358979324 / 2) :
    Near binary64 (ofF (cl5dLo r)) (clausen (2 * 2 + 1 + 0) ρ) (22 * uR binary64) := by
  have h2 := (clCtx_d L).lt_dec hr h0.le h1
  have h3 : (ρ : ℝ) < ((3.14159265358979324 : ℚ) : ℝ) / 2 := by exact_mod_cast h2
  have h4 : (ρ : ℝ) ≤ 1.571 := by norm_num at h3 ⊢; linarith
  have hs := lo_sound fmtOK64 fmtA64 hL (by decide) cl5dLo_cert hr h0 h4
  rw [cl5dLo_fp, cl5dLo_rs] at hs
  have ha := cl5dLo_acc RealSem.dec_lit (by norm_num) (r := toR RealSem.dec (ρ : ℝ)) (show (0:ℝ) < ρ by exact_mod_cast h0) h3
  refine (hs.shift ha).mono ?_
  norm_num [uR, binary64]

theorem cl5dHi_near (r : FP binary64 L) (ρ : ℚ) (hr : Val binary64 (ofF r) ρ) (h0 : rq binary64 3.14159265358979324 / 2 ≤ ρ) (h1 : ρ ≤ rq binary64 3.14159265358979324) :
    Near binary64 (ofF (cl5dHi r)) (clausen (2 * 2 + 1 + 0) ρ) (22 * uR binary64) := by
  have hd := abs_le.1 (rq_errR fmtA64 3.14159265358979324)
  have h0r : ((rq binary64 3.14159265358979324 : ℚ) : ℝ) / 2 ≤ ρ := by exact_mod_cast h0
  have h1r : (ρ : ℝ) ≤ ((rq binary64 3.14159265358979324 : ℚ) : ℝ) := by exact_mod_cast h1
  rw [abs_of_nonneg (by norm_num)] at hd
  have hu : uR binary64 ≤ 1 / 2 ^ 53 := by norm_num [uR, binary64]
  have hu0 := uR_pos (φ := binary64)
  have a1 : ((3.14159265358979324 : ℚ) : ℝ) / 2 - 1e-6 ≤ ρ := by norm_num at hd ⊢; nlinarith [hd.1]
  have a2 : (ρ : ℝ) ≤ ((3.14159265358979324 : ℚ) : ℝ) + 1e-4 := by norm_num at hd ⊢; nlinarith [hd.2]
  have b1 : ((1646592 : ℕ) : ℝ) / 2 ^ 20 ≤ ρ := by norm_num at a1 ⊢; linarith
  have b2 : (ρ : ℝ) ≤ 3.1416 := by norm_num at hd ⊢; nlinarith [hd.2]
  have hs : Near binary64 (fpP binary64 [ofF r] cl5dHiD cl5dHiE) (ofR (rsP RealSem.dec [toR RealSem.dec (ρ : ℝ)] cl5dHiD cl5dHiE)) (((3099053004383204671488 : ℤ) : ℝ) / 2 ^ 120) := by
    exact hi_sound fmtOK64 (by norm_num) _ (by simp) cl5dHi_cert hr b1 (by norm_num at b2 ⊢; linarith)
  rw [cl5dHi_fp, cl5dHi_rs] at hs
  have ha := cl5dHi_acc RealSem.dec_lit (by norm_num) (r := toR RealSem.dec (ρ : ℝ)) a1 a2
  refine (hs.shift ha).mono ?_
  norm_num [uR, binary64]

/-- **C40**, `double Cl5`: for every finite `x` the result is finite and within `(38 + 3 * |x|) u` of `Cl_5(x)`, `u = 2^-53`; within `22 u` for `|x| ≤ 3.14`. -/
theorem C40_Cl5d (hL : LogOK binary64 L) (x : FP binary64 L) {q : ℚ} (hx : Val binary64 (ofF x) q) :
    ∃ r : ℚ, Val binary64 (ofF (Cl5d x)) r ∧ |(r : ℝ) - clausen 5 q| ≤ (38 + 3 * |(q : ℝ)|) * 2 ^ (-53 : ℤ) ∧
      (|(q : ℝ)| ≤ 3.14 → |(r : ℝ) - clausen 5 q| ≤ 22 * 2 ^ (-53 : ℤ)) := by
  have hZ : Near binary64 (ofF (FOps.lit 1.0369277551433699 : FP binary64 L)) (clausen (2 * 2 + 1 + 0) 0) (22 * uR binary64) := by
    rw [clausen_odd_zero, ofF_lit]
    refine ((near_lit fmtA64 (q := 1.0369277551433699) (by rw [abs_of_nonneg (by norm_num)]; norm_num)).shift (Z5d (S := RealSem.dec) RealSem.dec_lit)).mono ?_
    rw [abs_of_nonneg (by norm_num)]
    norm_num [uR, binary64]
  have h := (clCtx_d L).odd fmtA64 2 (by norm_num) hZ (cl5dLo_near hL) (cl5dHi_near) x hx (y := Cl5d x) (Cl5d_split x)
  have hpi314 : (3.14 : ℝ) ≤ ((rq binary64 3.14159265358979324 : ℚ) : ℝ) := by
    have hd := abs_le.1 (clCtx_d L).hd
    have := pi_gt
    have hu : uR binary64 ≤ 1 / 2 ^ 53 := by norm_num [uR, binary64]
    linarith [hd.1]
  obtain ⟨⟨r, hr, he⟩, h2⟩ := h
  have hq := abs_nonneg (q : ℝ)
  have hu0 := uR_pos (φ := binary64)
  refine ⟨r, hr, he.trans ?_, fun hq => ?_⟩
  · change _ ≤ (38 + 3 * |(q : ℝ)|) * uR binary64
    have := mul_nonneg hu0.le hq
    linarith
  · obtain ⟨r2, hr2, he2⟩ := h2 (by have h5 := hq.trans hpi314; exact_mod_cast h5)
    have := hr.unique hr2; subst this; exact he2

section
/-- numeric literal -/
local notation:max "♯" q:max => FE.lit (q : ℚ)

/-- the low branch of `Cl5l` as a straight-line program -/
def cl5lLoD : List FE := [
  (FE.var 0) *. (FE.var 0),
  (FE.var 2) *. (FE.var 2),
  (FE.var 3) *. (FE.var 3),
  (FE.var 4) *. (FE.var 4),
  ♯(cl5lloP[0]) +. (FE.var 2) *. ♯(cl5lloP[1]) +. (FE.var 3) *. (♯(cl5lloP[2]) +. (FE.var 2) *. ♯(cl5lloP[3])) +. (FE.var 4) *. (♯(cl5lloP[4]) +. (FE.var 2) *. ♯(cl5lloP[5]) +. (FE.var 3) *. (♯(cl5lloP[6]) +. (FE.var 2) *. ♯(cl5lloP[7]))) +. (FE.var 5) *. ♯(cl5lloP[8]),
  ♯(cl5lloQ[0]) +. (FE.var 2) *. ♯(cl5lloQ[1]) +. (FE.var 3) *. (♯(cl5lloQ[2]) +. (FE.var 2) *. ♯(cl5lloQ[3])) +. (FE.var 4) *. (♯(cl5lloQ[4]) +. (FE.var 2) *. ♯(cl5lloQ[5]) +. (FE.var 3) *. (♯(cl5lloQ[6]) +. (FE.var 2) *. ♯(cl5lloQ[7]))) +. (FE.var 5) *. ♯(cl5lloQ[8])]
@[inherit_doc cl5lLoD] def cl5lLoE : FE := (FE.var 6) /. (FE.var 7) -. ♯1 /. ♯24 *. (FE.var 3) *. (FE.var 1)
/-- the high branch of `Cl5l` as a straight-line program -/
def cl5lHiD : List FE := [
  ♯3.14159265358979323846264338327950288 *. ♯3.14159265358979323846264338327950288 /. ♯8,
  ♯3.14159265358979323846264338327950288 -. (FE.var 0),
  (FE.var 2) *. (FE.var 2) -. (FE.var 1),
  (FE.var 3) *. (FE.var 3),
  (FE.var 4) *. (FE.var 4),
  (FE.var 5) *. (FE.var 5),
  (FE.var 6) *. (FE.var 6),
  ♯(cl5lhiP[0]) +. (FE.var 3) *. ♯(cl5lhiP[1]) +. (FE.var 4) *. (♯(cl5lhiP[2]) +. (FE.var 3) *. ♯(cl5lhiP[3])) +. (FE.var 5) *. (♯(cl5lhiP[4]) +. (FE.var 3) *. ♯(cl5lhiP[5]) +. (FE.var 4) *. (♯(cl5lhiP[6]) +. (FE.var 3) *. ♯(cl5lhiP[7]))) +. (FE.var 6) *. (♯(cl5lhiP[8]) +. (FE.var 3) *. ♯(cl5lhiP[9]) +. (FE.var 4) *. (♯(cl5lhiP[10]) +. (FE.var 3) *. ♯(cl5lhiP[11])) +. (FE.var 5) *. (♯(cl5lhiP[12]) +. (FE.var 3) *. ♯(cl5lhiP[13]) +. (FE.var 4) *. (♯(cl5lhiP[14]) +. (FE.var 3) *. ♯(cl5lhiP[15])))) +. (FE.var 7) *. (♯(cl5lhiP[16]) +. (FE.var 3) *. ♯(cl5lhiP[17]) +. (FE.var 4) *. (♯(cl5lhiP[18]) +. (FE.var 3) *. ♯(cl5lhiP[19])) +. (FE.var 5) *. (♯(cl5lhiP[20]) +. (FE.var 3) *. ♯(cl5lhiP[21]))),
  ♯(cl5lhiQ[0]) +. (FE.var 3) *. ♯(cl5lhiQ[1]) +. (FE.var 4) *. (♯(cl5lhiQ[2]) +. (FE.var 3) *. ♯(cl5lhiQ[3])) +. (FE.var 5) *. (♯(cl5lhiQ[4]) +. (FE.var 3) *. ♯(cl5lhiQ[5]) +. (FE.var 4) *. (♯(cl5lhiQ[6]) +. (FE.var 3) *. ♯(cl5lhiQ[7]))) +. (FE.var 6) *. (♯(cl5lhiQ[8]) +. (FE.var 3) *. ♯(cl5lhiQ[9]) +. (FE.var 4) *. (♯(cl5lhiQ[10]) +. (FE.var 3) *. ♯(cl5lhiQ[11])) +. (FE.var 5) *. (♯(cl5lhiQ[12]) +. (FE.var 3) *. ♯(cl5lhiQ[13]) +. (FE.var 4) *. (♯(cl5lhiQ[14]) +. (FE.var 3) *. ♯(cl5lhiQ[15])))) +. (FE.var 7) *. (♯(cl5lhiQ[16]) +. (FE.var 3) *. ♯(cl5lhiQ[17]) +. (FE.var 4) *. (♯(cl5lhiQ[18]) +. (FE.var 3) *. ♯(cl5lhiQ[19])) +. (FE.var 5) *. (♯(cl5lhiQ[20]) +. (FE.var 3) *. ♯(cl5lhiQ[21])))]
@[inherit_doc cl5lHiD] def cl5lHiE : FE := (FE.var 8) /. (FE.var 9)
end

theorem cl5lLo_fp (x : FP φ L) : fpP φ [ofF x, ofF (xlog x)] cl5lLoD cl5lLoE = ofF (cl5lLo x) := by exact (rfl)
theorem cl5lHi_fp (x : FP φ L) : fpP φ [ofF x] cl5lHiD cl5lHiE = ofF (cl5lHi x) := by exact (rfl)
theorem cl5lLo_rs (S : RealSem) (x : R S) : rsP S [x, xlog x] cl5lLoD cl5lLoE = cl5lLo x := by exact (rfl)
theorem cl5lHi_rs (S : RealSem) (x : R S) : rsP S [x] cl5lHiD cl5lHiE = cl5lHi x := by exact (rfl)

theorem cl5lLo_cert_x87 : loCert 64 140 cl5lLoD cl5lLoE 1265124289468129407069163 = true := by decide +kernel
theorem cl5lHi_cert_x87 : hiCert 64 140 cl5lHiD cl5lHiE 906694364710971881029632000 1646592 [9430, 11578, 14193, 19301, 26160, 39220, 71954, 196650, 1259130] = true := by decide +kernel

theorem cl5lLo_near_x87 (hL : LogOK x87ext L) (r : FP x87ext L) (ρ : ℚ) (hr : Val x87ext (ofF r) ρ) (h0 : 0 < ρ) (h1 : ρ < rq x87ext 3.14159265358979323846264338327950288 / 2) :
    Near x87ext (ofF (cl5lLo r)) (clausen (2 * 2 + 1 + 0) ρ) (12121 * uR x87ext) := by
  have h2 := (clCtx_x87 L).lt_dec hr h0.le h1
  have h3 : (ρ : ℝ) < ((3.14159265358979323846264338327950288 : ℚ) : ℝ) / 2 := by exact_mod_cast h2
  have h4 : (ρ : ℝ) ≤ 1.571 := by norm_num at h3 ⊢; linarith
  have hs := lo_sound fmtOK80 fmtA80 hL (by decide) cl5lLo_cert_x87 hr h0 h4
  rw [cl5lLo_fp, cl5lLo_rs] at hs
  have ha := cl5lLo_acc RealSem.dec_lit (by norm_num) (r := toR RealSem.dec (ρ : ℝ)) (show (0:ℝ) < ρ by exact_mod_cast h0) h3
  refine (hs.shift ha).mono ?_
  norm_num [uR, x87ext]

theorem cl5lHi_near_x87 (r : FP x87ext L) (ρ : ℚ) (hr : Val x87ext (ofF r) ρ) (h0 : rq x87ext 3.14159265358979323846264338327950288 / 2 ≤ ρ) (h1 : ρ ≤ rq x87ext 3.14159265358979323846264338327950288) :
    Near x87ext (ofF (cl5lHi r)) (clausen (2 * 2 + 1 + 0) ρ) (12121 * uR x87ext) := by
  have hd := abs_le.1 (rq_errR fmtA80 3.14159265358979323846264338327950288)
  have h0r : ((rq x87ext 3.14159265358979323846264338327950288 : ℚ) : ℝ) / 2 ≤ ρ := by exact_mod_cast h0
  have h1r : (ρ : ℝ) ≤ ((rq x87ext 3.14159265358979323846264338327950288 : ℚ) : ℝ) := by exact_mod_cast h1
  rw [abs_of_nonneg (by norm_num)] at hd
  have hu : uR x87ext ≤ 1 / 2 ^ 53 := by norm_num [uR, x87ext]
  have hu0 := uR_pos (φ := x87ext)
  have a1 : ((3.14159265358979323846264338327950288 : ℚ) : ℝ) / 2 - 1e-6 ≤ ρ := by norm_num at hd ⊢; nlinarith [hd.1]
  have a2 : (ρ : ℝ) ≤ ((3.14159265358979323846264338327950288 : ℚ) : ℝ) + 1e-4 := by norm_num at hd ⊢; nlinarith [hd.2]
  have b1 : ((1646592 : ℕ) : ℝ) / 2 ^ 20 ≤ ρ := by norm_num at a1 ⊢; linarith
  have b2 : (ρ : ℝ) ≤ 3.1416 := by norm_num at hd ⊢; nlinarith [hd.2]
  have hs : Near x87ext (fpP x87ext [ofF r] cl5lHiD cl5lHiE) (ofR (rsP RealSem.dec [toR RealSem.dec (ρ : ℝ)] cl5lHiD cl5lHiE)) (((906694364710971881029632000 : ℤ) : ℝ) / 2 ^ 140) := by
    exact hi_sound fmtOK80 (by norm_num) _ (by simp) cl5lHi_cert_x87 hr b1 (by norm_num at b2 ⊢; linarith)
  rw [cl5lHi_fp, cl5lHi_rs] at hs
  have ha := cl5lHi_acc RealSem.dec_lit (by norm_num) (r := toR RealSem.dec (ρ : ℝ)) a1 a2
  refine (hs.shift ha).mono ?_
  norm_num [uR, x87ext]

/-- **C40**, `long double Cl5`: for every finite `x` the result is finite and within `(12137 + 3 * |x|) u` of `Cl_5(x)`, `u = 2^-64`; within `12121 u` for `|x| ≤ 3.14`. -/
theorem C40_Cl5l_x87 (hL : LogOK x87ext L) (x : FP x87ext L) {q : ℚ} (hx : Val x87ext (ofF x) q) :
    ∃ r : ℚ, Val x87ext (ofF (Cl5l x)) r ∧ |(r : ℝ) - clausen 5 q| ≤ (12137 + 3 * |(q : ℝ)|) * 2 ^ (-64 : ℤ) ∧
      (|(q : ℝ)| ≤ 3.14 → |(r : ℝ) - clausen 5 q| ≤ 12121 * 2 ^ (-64 : ℤ)) := by
  have hZ : Near x87ext (ofF (FOps.lit 1.036927755143369926331365486457034168057 : FP x87ext L)) (clausen (2 * 2 + 1 + 0) 0) (12121 * uR x87ext) := by
    rw [clausen_odd_zero, ofF_lit]
    refine ((near_lit fmtA80 (q := 1.036927755143369926331365486457034168057) (by rw [abs_of_nonneg (by norm_num)]; norm_num)).shift (Z5l (S := RealSem.dec) RealSem.dec_lit)).mono ?_
    rw [abs_of_nonneg (by norm_num)]
    norm_num [uR, x87ext]
  have h := (clCtx_x87 L).odd fmtA80 2 (by norm_num) hZ (cl5lLo_near_x87 hL) (cl5lHi_near_x87) x hx (y := Cl5l x) (Cl5l_split x)
  have hpi314 : (3.14 : ℝ) ≤ ((rq x87ext 3.14159265358979323846264338327950288 : ℚ) : ℝ) := by
    have hd := abs_le.1 (clCtx_x87 L).hd
    have := pi_gt
    have hu : uR x87ext ≤ 1 / 2 ^ 53 := by norm_num [uR, x87ext]
    linarith [hd.1]
  obtain ⟨⟨r, hr, he⟩, h2⟩ := h
  have hq := abs_nonneg (q : ℝ)
  have hu0 := uR_pos (φ := x87ext)
  refine ⟨r, hr, he.trans ?_, fun hq => ?_⟩
  · change _ ≤ (12137 + 3 * |(q : ℝ)|) * uR x87ext
    have := mul_nonneg hu0.le hq
    linarith
  · obtain ⟨r2, hr2, he2⟩ := h2 (by have h5 := hq.trans hpi314; exact_mod_cast h5)
    have := hr.unique hr2; subst this; exact he2

end Polylog
