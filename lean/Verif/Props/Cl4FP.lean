import Verif.Props.ClFPGen
import Verif.Props.Cl4Real

/-! # C40: `Cl4` in IEEE arithmetic (generated by tools/cl/genclfp.py) -/

namespace Polylog
set_option linter.style.longLine false

variable {φ : Fmt} {L : Lib}

section
/-- numeric literal -/
local notation:max "♯" q:max => FE.lit (q : ℚ)

/-- the low branch of `Cl4d` as a straight-line program -/
def cl4dLoD : List FE := [
  (FE.var 0) *. (FE.var 0),
  (FE.var 2) *. (FE.var 2),
  ♯(cl4dloP[0]) +. (FE.var 2) *. ♯(cl4dloP[1]) +. (FE.var 3) *. (♯(cl4dloP[2]) +. (FE.var 2) *. ♯(cl4dloP[3])),
  ♯(cl4dloQ[0]) +. (FE.var 2) *. ♯(cl4dloQ[1]) +. (FE.var 3) *. (♯(cl4dloQ[2]) +. (FE.var 2) *. ♯(cl4dloQ[3]))]
@[inherit_doc cl4dLoD] def cl4dLoE : FE := (FE.var 0) *. ( ♯1.2020569031595943 +. (FE.var 2) *. ( (FE.var 4) /. (FE.var 5) +. ♯1 /. ♯6 *. (FE.var 1)))
/-- the high branch of `Cl4d` as a straight-line program -/
def cl4dHiD : List FE := [
  ♯3.14159265358979324 *. ♯3.14159265358979324 /. ♯8,
  ♯3.14159265358979324 -. (FE.var 0),
  (FE.var 2) *. (FE.var 2) -. (FE.var 1),
  (FE.var 3) *. (FE.var 3),
  (FE.var 4) *. (FE.var 4),
  ♯(cl4dhiP[0]) +. (FE.var 3) *. ♯(cl4dhiP[1]) +. (FE.var 4) *. (♯(cl4dhiP[2]) +. (FE.var 3) *. ♯(cl4dhiP[3])) +. (FE.var 5) *. (♯(cl4dhiP[4]) +. (FE.var 3) *. ♯(cl4dhiP[5])),
  ♯(cl4dhiQ[0]) +. (FE.var 3) *. ♯(cl4dhiQ[1]) +. (FE.var 4) *. (♯(cl4dhiQ[2]) +. (FE.var 3) *. ♯(cl4dhiQ[3])) +. (FE.var 5) *. (♯(cl4dhiQ[4]) +. (FE.var 3) *. ♯(cl4dhiQ[5]))]
@[inherit_doc cl4dHiD] def cl4dHiE : FE := (FE.var 2) *. (FE.var 6) /. (FE.var 7)
end

theorem cl4dLo_fp (x : FP φ L) : fpP φ [ofF x, ofF (xlog x)] cl4dLoD cl4dLoE = ofF (cl4dLo x) := by exact (rfl)
theorem cl4dHi_fp (x : FP φ L) : fpP φ [ofF x] cl4dHiD cl4dHiE = ofF (cl4dHi x) := by exact (rfl)
theorem cl4dLo_rs (S : RealSem) (x : R S) : rsP S [x, xlog x] cl4dLoD cl4dLoE = cl4dLo x := by exact (rfl)
theorem cl4dHi_rs (S : RealSem) (x : R S) : rsP S [x] cl4dHiD cl4dHiE = cl4dHi x := by exact (rfl)

theorem cl4dLo_cert : loCert 53 120 cl4dLoD cl4dLoE 2504275591268620787956 = true := by decide +kernel
theorem cl4dHi_cert : hiCert 53 120 cl4dHiD cl4dHiE 5460236245818027278336 1646592 [574486, 1073130] = true := by decide +kernel

theorem cl4dLo_near (hL : LogOK binary64 L) (r : FP binary64 L) (ρ : ℚ) (hr : Val binary64 (ofF r) ρ) (h0 : 0 < ρ) (h1 : ρ < rq binary64 3.14159265358979324 / 2) :
    Near binary64 (ofF (cl4dLo r)) (clausen (2 * 1 + 1 + 1) ρ) (38 * uR binary64) := by
  have h2 := (clCtx_d L).lt_dec hr h0.le h1
  have h3 : (ρ : ℝ) < ((3.14159265358979324 : ℚ) : ℝ) / 2 := by exact_mod_cast h2
  have h4 : (ρ : ℝ) ≤ 1.571 := by norm_num at h3 ⊢; linarith
  have hs := lo_sound fmtOK64 fmtA64 hL (by decide) cl4dLo_cert hr h0 h4
  rw [cl4dLo_fp, cl4dLo_rs] at hs
  have ha := cl4dLo_acc RealSem.dec_lit (by norm_num) (r := toR RealSem.dec (ρ : ℝ)) (show (0:ℝ) < ρ by exact_mod_cast h0) h3
  refine (hs.shift ha).mono ?_
  norm_num [uR, binary64]

theorem cl4dHi_near (r : FP binary64 L) (ρ : ℚ) (hr : Val binary64 (ofF r) ρ) (h0 : rq binary64 3.14159265358979324 / 2 ≤ ρ) (h1 : ρ ≤ rq binary64 3.14159265358979324) :
    Near binary64 (ofF (cl4dHi r)) (clausen (2 * 1 + 1 + 1) ρ) (38 * uR binary64) := by
  have hd := abs_le.1 (rq_errR fmtA64 3.14159265358979324)
  have h0r : ((rq binary64 3.14159265358979324 : ℚ) : ℝ) / 2 ≤ ρ := by exact_mod_cast h0
  have h1r : (ρ : ℝ) ≤ ((rq binary64 3.14159265358979324 : ℚ) : ℝ) := by exact_mod_cast h1
  rw [abs_of_nonneg (by norm_num)] at hd
  have hu : uR binary64 ≤ 1 / 2 ^ 53 := by norm_num [uR, binary64]
  have hu0 := uR_pos (φ := binary64)
  have a1 : ((3.14159265358979324 : ℚ) : ℝ) / 2 - 1e-6 ≤ ρ := by norm_num at hd ⊢; nlinarith [hd.1]
  have a2 : (ρ : ℝ) ≤ ((3.14159265358979324 : ℚ) : ℝ) + 1e-4 := by norm_num at hd ⊢; nlinarith [hd.2]
  have b1 : ((1646592 : ℕ) : ℝ) / 2 ^ 20 ≤ ρ := by norm_num at a1 ⊢; linarith
  have b2 : (ρ : ℝ) ≤ 3.1416 := by norm_num at hd ⊢; nlinarith [hd.2]
  have hs : Near binary64 (fpP binary64 [ofF r] cl4dHiD cl4dHiE) (ofR (rsP RealSem.dec [toR RealSem.dec (ρ : ℝ)] cl4dHiD cl4dHiE)) (((5460236245818027278336 : ℤ) : ℝ) / 2 ^ 120) := by
    exact hi_sound fmtOK64 (by norm_num) _ (by simp) cl4dHi_cert hr b1 (by norm_num at b2 ⊢; linarith)
  rw [cl4dHi_fp, cl4dHi_rs] at hs
  have ha := (cl4dHi_acc RealSem.dec_lit (by norm_num) (r := toR RealSem.dec (ρ : ℝ)) a1 a2).2
  refine (hs.shift ha).mono ?_
  norm_num [uR, binary64]

/-- **C40**, `double Cl4`: for every finite `x` the result is finite and within `(54 + 3 * |x|) u` of `Cl_4(x)`, `u = 2^-53`; within `38 u` for `|x| ≤ 3.14`. -/
theorem C40_Cl4d (hL : LogOK binary64 L) (x : FP binary64 L) {q : ℚ} (hx : Val binary64 (ofF x) q) :
    ∃ r : ℚ, Val binary64 (ofF (Cl4d x)) r ∧ |(r : ℝ) - clausen 4 q| ≤ (54 + 3 * |(q : ℝ)|) * 2 ^ (-53 : ℤ) ∧
      (|(q : ℝ)| ≤ 3.14 → |(r : ℝ) - clausen 4 q| ≤ 38 * 2 ^ (-53 : ℤ)) := by
  have hpi : |clausen (2 * 1 + 1 + 1) ((rq binary64 3.14159265358979324 : ℚ) : ℝ)| ≤ 38 * uR binary64 := by
    have h := (clCtx_d L).hd
    have hu0 := uR_pos (φ := binary64)
    have := clausen_lip 1 1 (by norm_num) (by norm_num) ((rq binary64 3.14159265358979324 : ℚ) : ℝ) Real.pi
    rw [clausen_even_pi, sub_zero] at this
    linarith
  have h := (clCtx_d L).even fmtA64 1 (E := 38 * uR binary64) (Λ := 2) (κ := 0) (by have := uR_pos (φ := binary64); positivity) (by norm_num)
    (fun a b => le_of_le_of_eq (clausen_lip 1 1 (by norm_num) (by norm_num) a b) (add_zero _).symm) hpi
    (cl4dLo_near hL) (cl4dHi_near) x hx (y := Cl4d x) (Cl4d_split x)
  have hpi314 : (3.14 : ℝ) ≤ ((rq binary64 3.14159265358979324 : ℚ) : ℝ) := by
    have hd := abs_le.1 (clCtx_d L).hd
    have := pi_gt
    have hu : uR binary64 ≤ 1 / 2 ^ 53 := by norm_num [uR, binary64]
    linarith [hd.1]
  obtain ⟨⟨r, hr, he⟩, h2⟩ := h
  have hq := abs_nonneg (q : ℝ)
  have hu0 := uR_pos (φ := binary64)
  refine ⟨r, hr, he.trans ?_, fun hq => ?_⟩
  · change _ ≤ (54 + 3 * |(q : ℝ)|) * uR binary64
    have := mul_nonneg hu0.le hq
    linarith
  · obtain ⟨r2, hr2, he2⟩ := h2 (by have h5 := hq.trans hpi314; exact_mod_cast h5)
    have := hr.unique hr2; subst this; exact he2

section
/-- numeric literal -/
local notation:max "♯" q:max => FE.lit (q : ℚ)

/-- the low branch of `Cl4l` as a straight-line program -/
def cl4lLoD : List FE := [
  ♯3.14159265358979323846264338327950288 *. ♯3.14159265358979323846264338327950288 /. ♯8,
  (FE.var 0) *. (FE.var 0),
  (FE.var 3) -. (FE.var 2),
  (FE.var 4) *. (FE.var 4),
  (FE.var 5) *. (FE.var 5),
  (FE.var 6) *. (FE.var 6),
  ♯(cl4lloP[0]) +. (FE.var 4) *. ♯(cl4lloP[1]) +. (FE.var 5) *. (♯(cl4lloP[2]) +. (FE.var 4) *. ♯(cl4lloP[3])) +. (FE.var 6) *. (♯(cl4lloP[4]) +. (FE.var 4) *. ♯(cl4lloP[5]) +. (FE.var 5) *. (♯(cl4lloP[6]) +. (FE.var 4) *. ♯(cl4lloP[7]))) +. (FE.var 7) *. ♯(cl4lloP[8]),
  ♯(cl4lloQ[0]) +. (FE.var 4) *. ♯(cl4lloQ[1]) +. (FE.var 5) *. (♯(cl4lloQ[2]) +. (FE.var 4) *. ♯(cl4lloQ[3])) +. (FE.var 6) *. (♯(cl4lloQ[4]) +. (FE.var 4) *. ♯(cl4lloQ[5]) +. (FE.var 5) *. (♯(cl4lloQ[6]) +. (FE.var 4) *. ♯(cl4lloQ[7]))) +. (FE.var 7) *. ♯(cl4lloQ[8])]
@[inherit_doc cl4lLoD] def cl4lLoE : FE := (FE.var 0) *. ( ♯1.2020569031595942853997381615114499908 +. (FE.var 3) *. ( (FE.var 8) /. (FE.var 9) +. ♯1 /. ♯6 *. (FE.var 1)))
/-- the high branch of `Cl4l` as a straight-line program -/
def cl4lHiD : List FE := [
  ♯3.14159265358979323846264338327950288 *. ♯3.14159265358979323846264338327950288 /. ♯8,
  ♯3.14159265358979323846264338327950288 -. (FE.var 0),
  (FE.var 2) *. (FE.var 2) -. (FE.var 1),
  (FE.var 3) *. (FE.var 3),
  (FE.var 4) *. (FE.var 4),
  (FE.var 5) *. (FE.var 5),
  ♯(cl4lhiP[0]) +. (FE.var 3) *. ♯(cl4lhiP[1]) +. (FE.var 4) *. (♯(cl4lhiP[2]) +. (FE.var 3) *. ♯(cl4lhiP[3])) +. (FE.var 5) *. (♯(cl4lhiP[4]) +. (FE.var 3) *. ♯(cl4lhiP[5]) +. (FE.var 4) *. (♯(cl4lhiP[6]) +. (FE.var 3) *. ♯(cl4lhiP[7]))) +. (FE.var 6) *. (♯(cl4lhiP[8]) +. (FE.var 3) *. ♯(cl4lhiP[9]) +. (FE.var 4) *. (♯(cl4lhiP[10]) +. (FE.var 3) *. ♯(cl4lhiP[11])) +. (FE.var 5) *. ♯(cl4lhiP[12])),
  ♯(cl4lhiQ[0]) +. (FE.var 3) *. ♯(cl4lhiQ[1]) +. (FE.var 4) *. (♯(cl4lhiQ[2]) +. (FE.var 3) *. ♯(cl4lhiQ[3])) +. (FE.var 5) *. (♯(cl4lhiQ[4]) +. (FE.var 3) *. ♯(cl4lhiQ[5]) +. (FE.var 4) *. (♯(cl4lhiQ[6]) +. (FE.var 3) *. ♯(cl4lhiQ[7]))) +. (FE.var 6) *. (♯(cl4lhiQ[8]) +. (FE.var 3) *. ♯(cl4lhiQ[9]) +. (FE.var 4) *. (♯(cl4lhiQ[10]) +. (FE.var 3) *. ♯(cl4lhiQ[11])) +. (FE.var 5) *. ♯(cl4lhiQ[12]))]
@[inherit_doc cl4lHiD] def cl4lHiE : FE := (FE.var 2) *. (FE.var 7) /. (FE.var 8)
end

theorem cl4lLo_fp (x : FP φ L) : fpP φ [ofF x, ofF (xlog x)] cl4lLoD cl4lLoE = ofF (cl4lLo x) := by exact (rfl)
theorem cl4lHi_fp (x : FP φ L) : fpP φ [ofF x] cl4lHiD cl4lHiE = ofF (cl4lHi x) := by exact (rfl)
theorem cl4lLo_rs (S : RealSem) (x : R S) : rsP S [x, xlog x] cl4lLoD cl4lLoE = cl4lLo x := by exact (rfl)
theorem cl4lHi_rs (S : RealSem) (x : R S) : rsP S [x] cl4lHiD cl4lHiE = cl4lHi x := by exact (rfl)

theorem cl4lLo_cert_x87 : loCert 64 140 cl4lLoD cl4lLoE 1847869909988756803464410 = true := by decide +kernel
theorem cl4lHi_cert_x87 : hiCert 64 140 cl4lHiD cl4lHiE 113336795588871485128704000 1646592 [69840, 263125, 1314651] = true := by decide +kernel

theorem cl4lLo_near_x87 (hL : LogOK x87ext L) (r : FP x87ext L) (ρ : ℚ) (hr : Val x87ext (ofF r) ρ) (h0 : 0 < ρ) (h1 : ρ < rq x87ext 3.14159265358979323846264338327950288 / 2) :
    Near x87ext (ofF (cl4lLo r)) (clausen (2 * 1 + 1 + 1) ρ) (1516 * uR x87ext) := by
  have h2 := (clCtx_x87 L).lt_dec hr h0.le h1
  have h3 : (ρ : ℝ) < ((3.14159265358979323846264338327950288 : ℚ) : ℝ) / 2 := by exact_mod_cast h2
  have h4 : (ρ : ℝ) ≤ 1.571 := by norm_num at h3 ⊢; linarith
  have hs := lo_sound fmtOK80 fmtA80 hL (by decide) cl4lLo_cert_x87 hr h0 h4
  rw [cl4lLo_fp, cl4lLo_rs] at hs
  have ha := cl4lLo_acc RealSem.dec_lit (by norm_num) (r := toR RealSem.dec (ρ : ℝ)) (show (0:ℝ) < ρ by exact_mod_cast h0) h3
  refine (hs.shift ha).mono ?_
  norm_num [uR, x87ext]

theorem cl4lHi_near_x87 (r : FP x87ext L) (ρ : ℚ) (hr : Val x87ext (ofF r) ρ) (h0 : rq x87ext 3.14159265358979323846264338327950288 / 2 ≤ ρ) (h1 : ρ ≤ rq x87ext 3.14159265358979323846264338327950288) :
    Near x87ext (ofF (cl4lHi r)) (clausen (2 * 1 + 1 + 1) ρ) (1516 * uR x87ext) := by
  have hd := abs_le.1 (rq_errR fmtA80 3.14159265358979323846264338327950288)
  have h0r : ((rq x87ext 3.14159265358979323846264338327950288 : ℚ) : ℝ) / 2 ≤ ρ := by exact_mod_cast h0
  have h1r : (ρ : ℝ) ≤ ((rq x87ext 3.14159265358979323846264338327950288 : ℚ) : ℝ) := by exact_mod_cast h1
  rw [abs_of_nonneg (by norm_num)] at hd
  have hu : uR x87ext ≤ 1 / 2 ^ 53 := by norm_num [uR, x87ext]
  have hu0 := uR_pos (φ := x87ext)
  have a1 : ((3.14159265358979323846264338327950288 : ℚ) : ℝ) / 2 - 1e-6 ≤ ρ := by norm_num at hd ⊢; nlinarith [hd.1]
  have a2 : (ρ : ℝ) ≤ ((3.14159265358979323846264338327950288 : ℚ) : ℝ) + 1e-4 := by norm_num at hd ⊢; nlinarith [hd.2]
  have b1 : ((1646592 : ℕ) : ℝ) / 2 ^ 20 ≤ ρ := by norm_num at a1 ⊢; linarith
  have b2 : (ρ : ℝ) ≤ 3.1416 := by norm_num at hd ⊢; nlinarith [hd.2]
  have hs : Near x87ext (fpP x87ext [ofF r] cl4lHiD cl4lHiE) (ofR (rsP RealSem.dec [toR RealSem.dec (ρ : ℝ)] cl4lHiD cl4lHiE)) (((113336795588871485128704000 : ℤ) : ℝ) / 2 ^ 140) := by
    exact hi_sound fmtOK80 (by norm_num) _ (by simp) cl4lHi_cert_x87 hr b1 (by norm_num at b2 ⊢; linarith)
  rw [cl4lHi_fp, cl4lHi_rs] at hs
  have ha := (cl4lHi_acc RealSem.dec_lit (by norm_num) (r := toR RealSem.dec (ρ : ℝ)) a1 a2).2
  refine (hs.shift ha).mono ?_
  norm_num [uR, x87ext]

/-- **C40**, `long double Cl4`: for every finite `x` the result is finite and within `(1532 + 3 * |x|) u` of `Cl_4(x)`, `u = 2^-64`; within `1516 u` for `|x| ≤ 3.14`. -/
theorem C40_Cl4l_x87 (hL : LogOK x87ext L) (x : FP x87ext L) {q : ℚ} (hx : Val x87ext (ofF x) q) :
    ∃ r : ℚ, Val x87ext (ofF (Cl4l x)) r ∧ |(r : ℝ) - clausen 4 q| ≤ (1532 + 3 * |(q : ℝ)|) * 2 ^ (-64 : ℤ) ∧
      (|(q : ℝ)| ≤ 3.14 → |(r : ℝ) - clausen 4 q| ≤ 1516 * 2 ^ (-64 : ℤ)) := by
  have hpi : |clausen (2 * 1 + 1 + 1) ((rq x87ext 3.14159265358979323846264338327950288 : ℚ) : ℝ)| ≤ 1516 * uR x87ext := by
    have h := (clCtx_x87 L).hd
    have hu0 := uR_pos (φ := x87ext)
    have := clausen_lip 1 1 (by norm_num) (by norm_num) ((rq x87ext 3.14159265358979323846264338327950288 : ℚ) : ℝ) Real.pi
    rw [clausen_even_pi, sub_zero] at this
    linarith
  have h := (clCtx_x87 L).even fmtA80 1 (E := 1516 * uR x87ext) (Λ := 2) (κ := 0) (by have := uR_pos (φ := x87ext); positivity) (by norm_num)
    (fun a b => le_of_le_of_eq (clausen_lip 1 1 (by norm_num) (by norm_num) a b) (add_zero _).symm) hpi
    (cl4lLo_near_x87 hL) (cl4lHi_near_x87) x hx (y := Cl4l x) (Cl4l_split x)
  have hpi314 : (3.14 : ℝ) ≤ ((rq x87ext 3.14159265358979323846264338327950288 : ℚ) : ℝ) := by
    have hd := abs_le.1 (clCtx_x87 L).hd
    have := pi_gt
    have hu : uR x87ext ≤ 1 / 2 ^ 53 := by norm_num [uR, x87ext]
    linarith [hd.1]
  obtain ⟨⟨r, hr, he⟩, h2⟩ := h
  have hq := abs_nonneg (q : ℝ)
  have hu0 := uR_pos (φ := x87ext)
  refine ⟨r, hr, he.trans ?_, fun hq => ?_⟩
  · change _ ≤ (1532 + 3 * |(q : ℝ)|) * uR x87ext
    have := mul_nonneg hu0.le hq
    linarith
  · obtain ⟨r2, hr2, he2⟩ := h2 (by have h5 := hq.trans hpi314; exact_mod_cast h5)
    have := hr.unique hr2; subst this; exact he2

end Polylog
