import Verif.Props.SlFPGen

/-! # C47: `Sl(n, x)` in IEEE arithmetic, n = 2, ..., 25 (generated by tools/sl/genslfp.py)

The polynomials (`slCoreN`, C16) are evaluated symbolically (`FE.var 0` for the reduced argument) and the result is run through the verified
interval/rounding analysis on 32 boxes covering `[0, 3.1416]`. -/

namespace Polylog
set_option linter.style.longLine false

variable {φ : Fmt} {L : Lib}

theorem slCore2_fp (x : FP φ L) : fpP φ [ofF x] [] (slCore2 (FE.var 0)) = ofF (slCore2 x) := by exact (rfl)
theorem slCore2_rs (S : RealSem) (x : R S) : rsP S [x] [] (slCore2 (FE.var 0)) = slCore2 x := by exact (rfl)
theorem slCore2_cert : hiCert 53 120 [] (slCore2 (FE.var 0)) 4869940435459321626624 0 [823575, 823575, 823575, 823575] = true := by decide +kernel
theorem slCore2_near (r : FP binary64 L) (ρ : ℚ) (hr : Val binary64 (ofF r) ρ) (h0 : 0 ≤ ρ) (h1 : ρ ≤ rq binary64 3.14159265358979324) :
    Near binary64 (ofF (slCore2 r)) (glaisher (2 * 1 + 0) ρ) (34 * uR binary64) := by
  have h0' : (0:ℝ) ≤ ρ := by exact_mod_cast h0
  have h1' := (clCtx_d L).le_r h1
  have hs := hi_sound fmtOK64 (by norm_num) _ (by simp) slCore2_cert hr (by norm_num at h0' ⊢; exact h0') (by norm_num at h1' ⊢; linarith)
  rw [slCore2_fp, slCore2_rs] at hs
  have ha := slAcc2 RealSem.dec_lit (by norm_num) (toR RealSem.dec (ρ : ℝ)) h0' (h1'.trans (by norm_num))
  refine (hs.shift ha).mono ?_
  norm_num [uR, binary64]

theorem Sl2_fp (x : FP binary64 L) {q : ℚ} (hx : Val binary64 (ofF x) q) :
    ∃ (v : FP binary64 L) (r : ℚ), Sl 2 x = .ok v ∧ Val binary64 (ofF v) r ∧ |(r : ℝ) - glaisher 2 q| ≤ (34 + 8 * 4 + 4 / 3 * 4 * |(q : ℝ)|) * 2 ^ (-53 : ℤ) ∧
      (|(q : ℝ)| ≤ 3.14 → |(r : ℝ) - glaisher 2 q| ≤ 34 * 2 ^ (-53 : ℤ)) := by
  obtain ⟨r, hr⟩ := slFin (n := 2) ((clCtx_d L).evenG fmtA64 (f := glaisher (2 * 1 + 0)) (glaisher_neg 1 0 (by norm_num) (by norm_num)) (glaisher_sub_two_pi _)
    (Λ := 4) (κ := 0) (by norm_num) (fun a b h0 h1 => glaisher_two_lip h0 h1 b) slCore2_near x hx rfl)
  exact ⟨_, r, Sl_2 x, hr⟩

theorem slCore3_fp (x : FP φ L) : fpP φ [ofF x] [] (slCore3 (FE.var 0)) = ofF (slCore3 x) := by exact (rfl)
theorem slCore3_rs (S : RealSem) (x : R S) : rsP S [x] [] (slCore3 (FE.var 0)) = slCore3 x := by exact (rfl)
theorem slCore3_cert : hiCert 53 120 [] (slCore3 (FE.var 0)) 8854437155380584775680 0 [823575, 823575, 823575, 823575] = true := by decide +kernel
theorem slCore3_near (r : FP binary64 L) (ρ : ℚ) (hr : Val binary64 (ofF r) ρ) (h0 : 0 ≤ ρ) (h1 : ρ ≤ rq binary64 3.14159265358979324) :
    Near binary64 (ofF (slCore3 r)) (glaisher (2 * 1 + 1) ρ) (61 * uR binary64) := by
  have h0' : (0:ℝ) ≤ ρ := by exact_mod_cast h0
  have h1' := (clCtx_d L).le_r h1
  have hs := hi_sound fmtOK64 (by norm_num) _ (by simp) slCore3_cert hr (by norm_num at h0' ⊢; exact h0') (by norm_num at h1' ⊢; linarith)
  rw [slCore3_fp, slCore3_rs] at hs
  have ha := slAcc3 RealSem.dec_lit (by norm_num) (toR RealSem.dec (ρ : ℝ)) h0' (h1'.trans (by norm_num))
  refine (hs.shift ha).mono ?_
  norm_num [uR, binary64]

theorem Sl3_fp (x : FP binary64 L) {q : ℚ} (hx : Val binary64 (ofF x) q) :
    ∃ (v : FP binary64 L) (r : ℚ), Sl 3 x = .ok v ∧ Val binary64 (ofF v) r ∧ |(r : ℝ) - glaisher 3 q| ≤ (61 + 8 * 2 + 4 / 3 * 2 * |(q : ℝ)|) * 2 ^ (-53 : ℤ) ∧
      (|(q : ℝ)| ≤ 3.14 → |(r : ℝ) - glaisher 3 q| ≤ 61 * 2 ^ (-53 : ℤ)) := by
  obtain ⟨r, hr⟩ := slFin (n := 3) ((clCtx_d L).oddG fmtA64 (f := glaisher (2 * 1 + 1)) (glaisher_neg 1 1 (by norm_num) (by norm_num)) (glaisher_sub_two_pi _)
    (E := 61 * uR binary64) (by have := uR_pos (φ := binary64); positivity) (Λ := 2) (κ := 0) (by norm_num) (fun a b _ _ => by have := glaisher_lip 1 1 (by norm_num) (by norm_num) a b; linarith) slCore3_near x hx rfl)
  exact ⟨_, r, Sl_3 x, hr⟩

theorem slCore4_fp (x : FP φ L) : fpP φ [ofF x] [] (slCore4 (FE.var 0)) = ofF (slCore4 x) := by exact (rfl)
theorem slCore4_rs (S : RealSem) (x : R S) : rsP S [x] [] (slCore4 (FE.var 0)) = slCore4 x := by exact (rfl)
theorem slCore4_cert : hiCert 53 120 [] (slCore4 (FE.var 0)) 6198106008766409342976 0 [823575, 823575, 823575, 823575] = true := by decide +kernel
theorem slCore4_near (r : FP binary64 L) (ρ : ℚ) (hr : Val binary64 (ofF r) ρ) (h0 : 0 ≤ ρ) (h1 : ρ ≤ rq binary64 3.14159265358979324) :
    Near binary64 (ofF (slCore4 r)) (glaisher (2 * 2 + 0) ρ) (43 * uR binary64) := by
  have h0' : (0:ℝ) ≤ ρ := by exact_mod_cast h0
  have h1' := (clCtx_d L).le_r h1
  have hs := hi_sound fmtOK64 (by norm_num) _ (by simp) slCore4_cert hr (by norm_num at h0' ⊢; exact h0') (by norm_num at h1' ⊢; linarith)
  rw [slCore4_fp, slCore4_rs] at hs
  have ha := slAcc4 RealSem.dec_lit (toR RealSem.dec (ρ : ℝ)) h0' (h1'.trans (by norm_num))
  refine (hs.shift ha).mono ?_
  norm_num [uR, binary64]

theorem Sl4_fp (x : FP binary64 L) {q : ℚ} (hx : Val binary64 (ofF x) q) :
    ∃ (v : FP binary64 L) (r : ℚ), Sl 4 x = .ok v ∧ Val binary64 (ofF v) r ∧ |(r : ℝ) - glaisher 4 q| ≤ (43 + 8 * 2 + 4 / 3 * 2 * |(q : ℝ)|) * 2 ^ (-53 : ℤ) ∧
      (|(q : ℝ)| ≤ 3.14 → |(r : ℝ) - glaisher 4 q| ≤ 43 * 2 ^ (-53 : ℤ)) := by
  obtain ⟨r, hr⟩ := slFin (n := 4) ((clCtx_d L).evenG fmtA64 (f := glaisher (2 * 2 + 0)) (glaisher_neg 2 0 (by norm_num) (by norm_num)) (glaisher_sub_two_pi _)
    (Λ := 2) (κ := 0) (by norm_num) (fun a b _ _ => by have := glaisher_lip 2 0 (by norm_num) (by norm_num) a b; linarith) slCore4_near x hx rfl)
  exact ⟨_, r, Sl_4 x, hr⟩

theorem slCore5_fp (x : FP φ L) : fpP φ [ofF x] [] (slCore5 (FE.var 0)) = ofF (slCore5 x) := by exact (rfl)
theorem slCore5_rs (S : RealSem) (x : R S) : rsP S [x] [] (slCore5 (FE.var 0)) = slCore5 x := by exact (rfl)
theorem slCore5_cert : hiCert 53 120 [] (slCore5 (FE.var 0)) 6345679961356085755904 0 [823575, 823575, 823575, 823575] = true := by decide +kernel
theorem slCore5_near (r : FP binary64 L) (ρ : ℚ) (hr : Val binary64 (ofF r) ρ) (h0 : 0 ≤ ρ) (h1 : ρ ≤ rq binary64 3.14159265358979324) :
    Near binary64 (ofF (slCore5 r)) (glaisher (2 * 2 + 1) ρ) (44 * uR binary64) := by
  have h0' : (0:ℝ) ≤ ρ := by exact_mod_cast h0
  have h1' := (clCtx_d L).le_r h1
  have hs := hi_sound fmtOK64 (by norm_num) _ (by simp) slCore5_cert hr (by norm_num at h0' ⊢; exact h0') (by norm_num at h1' ⊢; linarith)
  rw [slCore5_fp, slCore5_rs] at hs
  have ha := slAcc5 RealSem.dec_lit (toR RealSem.dec (ρ : ℝ)) h0' (h1'.trans (by norm_num))
  refine (hs.shift ha).mono ?_
  norm_num [uR, binary64]

theorem Sl5_fp (x : FP binary64 L) {q : ℚ} (hx : Val binary64 (ofF x) q) :
    ∃ (v : FP binary64 L) (r : ℚ), Sl 5 x = .ok v ∧ Val binary64 (ofF v) r ∧ |(r : ℝ) - glaisher 5 q| ≤ (44 + 8 * 2 + 4 / 3 * 2 * |(q : ℝ)|) * 2 ^ (-53 : ℤ) ∧
      (|(q : ℝ)| ≤ 3.14 → |(r : ℝ) - glaisher 5 q| ≤ 44 * 2 ^ (-53 : ℤ)) := by
  obtain ⟨r, hr⟩ := slFin (n := 5) ((clCtx_d L).oddG fmtA64 (f := glaisher (2 * 2 + 1)) (glaisher_neg 2 1 (by norm_num) (by norm_num)) (glaisher_sub_two_pi _)
    (E := 44 * uR binary64) (by have := uR_pos (φ := binary64); positivity) (Λ := 2) (κ := 0) (by norm_num) (fun a b _ _ => by have := glaisher_lip 2 1 (by norm_num) (by norm_num) a b; linarith) slCore5_near x hx rfl)
  exact ⟨_, r, Sl_5 x, hr⟩

theorem slCore6_fp (x : FP φ L) : fpP φ [ofF x] [] (slCore6 (FE.var 0)) = ofF (slCore6 x) := by exact (rfl)
theorem slCore6_rs (S : RealSem) (x : R S) : rsP S [x] [] (slCore6 (FE.var 0)) = slCore6 x := by exact (rfl)
theorem slCore6_cert : hiCert 53 120 [] (slCore6 (FE.var 0)) 6493253913945762168832 0 [823575, 823575, 823575, 823575] = true := by decide +kernel
theorem slCore6_near (r : FP binary64 L) (ρ : ℚ) (hr : Val binary64 (ofF r) ρ) (h0 : 0 ≤ ρ) (h1 : ρ ≤ rq binary64 3.14159265358979324) :
    Near binary64 (ofF (slCore6 r)) (glaisher (2 * 3 + 0) ρ) (45 * uR binary64) := by
  have h0' : (0:ℝ) ≤ ρ := by exact_mod_cast h0
  have h1' := (clCtx_d L).le_r h1
  have hs := hi_sound fmtOK64 (by norm_num) _ (by simp) slCore6_cert hr (by norm_num at h0' ⊢; exact h0') (by norm_num at h1' ⊢; linarith)
  rw [slCore6_fp, slCore6_rs] at hs
  have ha := slAcc6 RealSem.dec_lit (toR RealSem.dec (ρ : ℝ)) h0' (h1'.trans (by norm_num))
  refine (hs.shift ha).mono ?_
  norm_num [uR, binary64]

theorem Sl6_fp (x : FP binary64 L) {q : ℚ} (hx : Val binary64 (ofF x) q) :
    ∃ (v : FP binary64 L) (r : ℚ), Sl 6 x = .ok v ∧ Val binary64 (ofF v) r ∧ |(r : ℝ) - glaisher 6 q| ≤ (45 + 8 * 2 + 4 / 3 * 2 * |(q : ℝ)|) * 2 ^ (-53 : ℤ) ∧
      (|(q : ℝ)| ≤ 3.14 → |(r : ℝ) - glaisher 6 q| ≤ 45 * 2 ^ (-53 : ℤ)) := by
  obtain ⟨r, hr⟩ := slFin (n := 6) ((clCtx_d L).evenG fmtA64 (f := glaisher (2 * 3 + 0)) (glaisher_neg 3 0 (by norm_num) (by norm_num)) (glaisher_sub_two_pi _)
    (Λ := 2) (κ := 0) (by norm_num) (fun a b _ _ => by have := glaisher_lip 3 0 (by norm_num) (by norm_num) a b; linarith) slCore6_near x hx rfl)
  exact ⟨_, r, Sl_6 x, hr⟩

theorem slCore7_fp (x : FP φ L) : fpP φ [ofF x] [] (slCore7 (FE.var 0)) = ofF (slCore7 x) := by exact (rfl)
theorem slCore7_rs (S : RealSem) (x : R S) : rsP S [x] [] (slCore7 (FE.var 0)) = slCore7 x := by exact (rfl)
theorem slCore7_cert : hiCert 53 120 [] (slCore7 (FE.var 0)) 5607810198407703691264 0 [823575, 823575, 823575, 823575] = true := by decide +kernel
theorem slCore7_near (r : FP binary64 L) (ρ : ℚ) (hr : Val binary64 (ofF r) ρ) (h0 : 0 ≤ ρ) (h1 : ρ ≤ rq binary64 3.14159265358979324) :
    Near binary64 (ofF (slCore7 r)) (glaisher (2 * 3 + 1) ρ) (39 * uR binary64) := by
  have h0' : (0:ℝ) ≤ ρ := by exact_mod_cast h0
  have h1' := (clCtx_d L).le_r h1
  have hs := hi_sound fmtOK64 (by norm_num) _ (by simp) slCore7_cert hr (by norm_num at h0' ⊢; exact h0') (by norm_num at h1' ⊢; linarith)
  rw [slCore7_fp, slCore7_rs] at hs
  have ha := slAcc7 RealSem.dec_lit (toR RealSem.dec (ρ : ℝ)) h0' (h1'.trans (by norm_num))
  refine (hs.shift ha).mono ?_
  norm_num [uR, binary64]

theorem Sl7_fp (x : FP binary64 L) {q : ℚ} (hx : Val binary64 (ofF x) q) :
    ∃ (v : FP binary64 L) (r : ℚ), Sl 7 x = .ok v ∧ Val binary64 (ofF v) r ∧ |(r : ℝ) - glaisher 7 q| ≤ (39 + 8 * 2 + 4 / 3 * 2 * |(q : ℝ)|) * 2 ^ (-53 : ℤ) ∧
      (|(q : ℝ)| ≤ 3.14 → |(r : ℝ) - glaisher 7 q| ≤ 39 * 2 ^ (-53 : ℤ)) := by
  obtain ⟨r, hr⟩ := slFin (n := 7) ((clCtx_d L).oddG fmtA64 (f := glaisher (2 * 3 + 1)) (glaisher_neg 3 1 (by norm_num) (by norm_num)) (glaisher_sub_two_pi _)
    (E := 39 * uR binary64) (by have := uR_pos (φ := binary64); positivity) (Λ := 2) (κ := 0) (by norm_num) (fun a b _ _ => by have := glaisher_lip 3 1 (by norm_num) (by norm_num) a b; linarith) slCore7_near x hx rfl)
  exact ⟨_, r, Sl_7 x, hr⟩

theorem slCore8_fp (x : FP φ L) : fpP φ [ofF x] [] (slCore8 (FE.var 0)) = ofF (slCore8 x) := by exact (rfl)
theorem slCore8_rs (S : RealSem) (x : R S) : rsP S [x] [] (slCore8 (FE.var 0)) = slCore8 x := by exact (rfl)
theorem slCore8_cert : hiCert 53 120 [] (slCore8 (FE.var 0)) 5460236245818027278336 0 [823575, 823575, 823575, 823575] = true := by decide +kernel
theorem slCore8_near (r : FP binary64 L) (ρ : ℚ) (hr : Val binary64 (ofF r) ρ) (h0 : 0 ≤ ρ) (h1 : ρ ≤ rq binary64 3.14159265358979324) :
    Near binary64 (ofF (slCore8 r)) (glaisher (2 * 4 + 0) ρ) (38 * uR binary64) := by
  have h0' : (0:ℝ) ≤ ρ := by exact_mod_cast h0
  have h1' := (clCtx_d L).le_r h1
  have hs := hi_sound fmtOK64 (by norm_num) _ (by simp) slCore8_cert hr (by norm_num at h0' ⊢; exact h0') (by norm_num at h1' ⊢; linarith)
  rw [slCore8_fp, slCore8_rs] at hs
  have ha := slAcc8 RealSem.dec_lit (toR RealSem.dec (ρ : ℝ)) h0' (h1'.trans (by norm_num))
  refine (hs.shift ha).mono ?_
  norm_num [uR, binary64]

theorem Sl8_fp (x : FP binary64 L) {q : ℚ} (hx : Val binary64 (ofF x) q) :
    ∃ (v : FP binary64 L) (r : ℚ), Sl 8 x = .ok v ∧ Val binary64 (ofF v) r ∧ |(r : ℝ) - glaisher 8 q| ≤ (38 + 8 * 2 + 4 / 3 * 2 * |(q : ℝ)|) * 2 ^ (-53 : ℤ) ∧
      (|(q : ℝ)| ≤ 3.14 → |(r : ℝ) - glaisher 8 q| ≤ 38 * 2 ^ (-53 : ℤ)) := by
  obtain ⟨r, hr⟩ := slFin (n := 8) ((clCtx_d L).evenG fmtA64 (f := glaisher (2 * 4 + 0)) (glaisher_neg 4 0 (by norm_num) (by norm_num)) (glaisher_sub_two_pi _)
    (Λ := 2) (κ := 0) (by norm_num) (fun a b _ _ => by have := glaisher_lip 4 0 (by norm_num) (by norm_num) a b; linarith) slCore8_near x hx rfl)
  exact ⟨_, r, Sl_8 x, hr⟩

theorem slCore9_fp (x : FP φ L) : fpP φ [ofF x] [] (slCore9 (FE.var 0)) = ofF (slCore9 x) := by exact (rfl)
theorem slCore9_rs (S : RealSem) (x : R S) : rsP S [x] [] (slCore9 (FE.var 0)) = slCore9 x := by exact (rfl)
theorem slCore9_cert : hiCert 53 120 [] (slCore9 (FE.var 0)) 4869940435459321626624 0 [823575, 823575, 823575, 823575] = true := by decide +kernel
theorem slCore9_near (r : FP binary64 L) (ρ : ℚ) (hr : Val binary64 (ofF r) ρ) (h0 : 0 ≤ ρ) (h1 : ρ ≤ rq binary64 3.14159265358979324) :
    Near binary64 (ofF (slCore9 r)) (glaisher (2 * 4 + 1) ρ) (34 * uR binary64) := by
  have h0' : (0:ℝ) ≤ ρ := by exact_mod_cast h0
  have h1' := (clCtx_d L).le_r h1
  have hs := hi_sound fmtOK64 (by norm_num) _ (by simp) slCore9_cert hr (by norm_num at h0' ⊢; exact h0') (by norm_num at h1' ⊢; linarith)
  rw [slCore9_fp, slCore9_rs] at hs
  have ha := slAcc9 RealSem.dec_lit (toR RealSem.dec (ρ : ℝ)) h0' (h1'.trans (by norm_num))
  refine (hs.shift ha).mono ?_
  norm_num [uR, binary64]

theorem Sl9_fp (x : FP binary64 L) {q : ℚ} (hx : Val binary64 (ofF x) q) :
    ∃ (v : FP binary64 L) (r : ℚ), Sl 9 x = .ok v ∧ Val binary64 (ofF v) r ∧ |(r : ℝ) - glaisher 9 q| ≤ (34 + 8 * 2 + 4 / 3 * 2 * |(q : ℝ)|) * 2 ^ (-53 : ℤ) ∧
      (|(q : ℝ)| ≤ 3.14 → |(r : ℝ) - glaisher 9 q| ≤ 34 * 2 ^ (-53 : ℤ)) := by
  obtain ⟨r, hr⟩ := slFin (n := 9) ((clCtx_d L).oddG fmtA64 (f := glaisher (2 * 4 + 1)) (glaisher_neg 4 1 (by norm_num) (by norm_num)) (glaisher_sub_two_pi _)
    (E := 34 * uR binary64) (by have := uR_pos (φ := binary64); positivity) (Λ := 2) (κ := 0) (by norm_num) (fun a b _ _ => by have := glaisher_lip 4 1 (by norm_num) (by norm_num) a b; linarith) slCore9_near x hx rfl)
  exact ⟨_, r, Sl_9 x, hr⟩

theorem slCore10_fp (x : FP φ L) : fpP φ [ofF x] [] (slCore10 (FE.var 0)) = ofF (slCore10 x) := by exact (rfl)
theorem slCore10_rs (S : RealSem) (x : R S) : rsP S [x] [] (slCore10 (FE.var 0)) = slCore10 x := by exact (rfl)
theorem slCore10_cert : hiCert 53 120 [] (slCore10 (FE.var 0)) 5017514388048998039552 0 [823575, 823575, 823575, 823575] = true := by decide +kernel
theorem slCore10_near (r : FP binary64 L) (ρ : ℚ) (hr : Val binary64 (ofF r) ρ) (h0 : 0 ≤ ρ) (h1 : ρ ≤ rq binary64 3.14159265358979324) :
    Near binary64 (ofF (slCore10 r)) (glaisher (2 * 5 + 0) ρ) (35 * uR binary64) := by
  have h0' : (0:ℝ) ≤ ρ := by exact_mod_cast h0
  have h1' := (clCtx_d L).le_r h1
  have hs := hi_sound fmtOK64 (by norm_num) _ (by simp) slCore10_cert hr (by norm_num at h0' ⊢; exact h0') (by norm_num at h1' ⊢; linarith)
  rw [slCore10_fp, slCore10_rs] at hs
  have ha := slAcc10 RealSem.dec_lit (toR RealSem.dec (ρ : ℝ)) h0' (h1'.trans (by norm_num))
  refine (hs.shift ha).mono ?_
  norm_num [uR, binary64]

theorem Sl10_fp (x : FP binary64 L) {q : ℚ} (hx : Val binary64 (ofF x) q) :
    ∃ (v : FP binary64 L) (r : ℚ), Sl 10 x = .ok v ∧ Val binary64 (ofF v) r ∧ |(r : ℝ) - glaisher 10 q| ≤ (35 + 8 * 2 + 4 / 3 * 2 * |(q : ℝ)|) * 2 ^ (-53 : ℤ) ∧
      (|(q : ℝ)| ≤ 3.14 → |(r : ℝ) - glaisher 10 q| ≤ 35 * 2 ^ (-53 : ℤ)) := by
  obtain ⟨r, hr⟩ := slFin (n := 10) ((clCtx_d L).evenG fmtA64 (f := glaisher (2 * 5 + 0)) (glaisher_neg 5 0 (by norm_num) (by norm_num)) (glaisher_sub_two_pi _)
    (Λ := 2) (κ := 0) (by norm_num) (fun a b _ _ => by have := glaisher_lip 5 0 (by norm_num) (by norm_num) a b; linarith) slCore10_near x hx rfl)
  exact ⟨_, r, Sl_10 x, hr⟩

theorem slCore11_fp (x : FP φ L) : fpP φ [ofF x] [] (slCore11 (FE.var 0)) = ofF (slCore11 x) := by exact (rfl)
theorem slCore11_rs (S : RealSem) (x : R S) : rsP S [x] [] (slCore11 (FE.var 0)) = slCore11 x := by exact (rfl)
theorem slCore11_cert : hiCert 53 120 [] (slCore11 (FE.var 0)) 4574792530279968800768 0 [823575, 823575, 823575, 823575] = true := by decide +kernel
theorem slCore11_near (r : FP binary64 L) (ρ : ℚ) (hr : Val binary64 (ofF r) ρ) (h0 : 0 ≤ ρ) (h1 : ρ ≤ rq binary64 3.14159265358979324) :
    Near binary64 (ofF (slCore11 r)) (glaisher (2 * 5 + 1) ρ) (32 * uR binary64) := by
  have h0' : (0:ℝ) ≤ ρ := by exact_mod_cast h0
  have h1' := (clCtx_d L).le_r h1
  have hs := hi_sound fmtOK64 (by norm_num) _ (by simp) slCore11_cert hr (by norm_num at h0' ⊢; exact h0') (by norm_num at h1' ⊢; linarith)
  rw [slCore11_fp, slCore11_rs] at hs
  have ha := slAcc11 RealSem.dec_lit (toR RealSem.dec (ρ : ℝ)) h0' (h1'.trans (by norm_num))
  refine (hs.shift ha).mono ?_
  norm_num [uR, binary64]

theorem Sl11_fp (x : FP binary64 L) {q : ℚ} (hx : Val binary64 (ofF x) q) :
    ∃ (v : FP binary64 L) (r : ℚ), Sl 11 x = .ok v ∧ Val binary64 (ofF v) r ∧ |(r : ℝ) - glaisher 11 q| ≤ (32 + 8 * 2 + 4 / 3 * 2 * |(q : ℝ)|) * 2 ^ (-53 : ℤ) ∧
      (|(q : ℝ)| ≤ 3.14 → |(r : ℝ) - glaisher 11 q| ≤ 32 * 2 ^ (-53 : ℤ)) := by
  obtain ⟨r, hr⟩ := slFin (n := 11) ((clCtx_d L).oddG fmtA64 (f := glaisher (2 * 5 + 1)) (glaisher_neg 5 1 (by norm_num) (by norm_num)) (glaisher_sub_two_pi _)
    (E := 32 * uR binary64) (by have := uR_pos (φ := binary64); positivity) (Λ := 2) (κ := 0) (by norm_num) (fun a b _ _ => by have := glaisher_lip 5 1 (by norm_num) (by norm_num) a b; linarith) slCore11_near x hx rfl)
  exact ⟨_, r, Sl_11 x, hr⟩

theorem slCore12_fp (x : FP φ L) : fpP φ [ofF x] [] (slCore12 (FE.var 0)) = ofF (slCore12 x) := by exact (rfl)
theorem slCore12_rs (S : RealSem) (x : R S) : rsP S [x] [] (slCore12 (FE.var 0)) = slCore12 x := by exact (rfl)
theorem slCore12_cert : hiCert 53 120 [] (slCore12 (FE.var 0)) 4869940435459321626624 0 [823575, 823575, 823575, 823575] = true := by decide +kernel
theorem slCore12_near (r : FP binary64 L) (ρ : ℚ) (hr : Val binary64 (ofF r) ρ) (h0 : 0 ≤ ρ) (h1 : ρ ≤ rq binary64 3.14159265358979324) :
    Near binary64 (ofF (slCore12 r)) (glaisher (2 * 6 + 0) ρ) (34 * uR binary64) := by
  have h0' : (0:ℝ) ≤ ρ := by exact_mod_cast h0
  have h1' := (clCtx_d L).le_r h1
  have hs := hi_sound fmtOK64 (by norm_num) _ (by simp) slCore12_cert hr (by norm_num at h0' ⊢; exact h0') (by norm_num at h1' ⊢; linarith)
  rw [slCore12_fp, slCore12_rs] at hs
  have ha := slAcc12 RealSem.dec_lit (toR RealSem.dec (ρ : ℝ)) h0' (h1'.trans (by norm_num))
  refine (hs.shift ha).mono ?_
  norm_num [uR, binary64]

theorem Sl12_fp (x : FP binary64 L) {q : ℚ} (hx : Val binary64 (ofF x) q) :
    ∃ (v : FP binary64 L) (r : ℚ), Sl 12 x = .ok v ∧ Val binary64 (ofF v) r ∧ |(r : ℝ) - glaisher 12 q| ≤ (34 + 8 * 2 + 4 / 3 * 2 * |(q : ℝ)|) * 2 ^ (-53 : ℤ) ∧
      (|(q : ℝ)| ≤ 3.14 → |(r : ℝ) - glaisher 12 q| ≤ 34 * 2 ^ (-53 : ℤ)) := by
  obtain ⟨r, hr⟩ := slFin (n := 12) ((clCtx_d L).evenG fmtA64 (f := glaisher (2 * 6 + 0)) (glaisher_neg 6 0 (by norm_num) (by norm_num)) (glaisher_sub_two_pi _)
    (Λ := 2) (κ := 0) (by norm_num) (fun a b _ _ => by have := glaisher_lip 6 0 (by norm_num) (by norm_num) a b; linarith) slCore12_near x hx rfl)
  exact ⟨_, r, Sl_12 x, hr⟩

theorem slCore13_fp (x : FP φ L) : fpP φ [ofF x] [] (slCore13 (FE.var 0)) = ofF (slCore13 x) := by exact (rfl)
theorem slCore13_rs (S : RealSem) (x : R S) : rsP S [x] [] (slCore13 (FE.var 0)) = slCore13 x := by exact (rfl)
theorem slCore13_cert : hiCert 53 120 [] (slCore13 (FE.var 0)) 4427218577690292387840 0 [823575, 823575, 823575, 823575] = true := by decide +kernel
theorem slCore13_near (r : FP binary64 L) (ρ : ℚ) (hr : Val binary64 (ofF r) ρ) (h0 : 0 ≤ ρ) (h1 : ρ ≤ rq binary64 3.14159265358979324) :
    Near binary64 (ofF (slCore13 r)) (glaisher (2 * 6 + 1) ρ) (31 * uR binary64) := by
  have h0' : (0:ℝ) ≤ ρ := by exact_mod_cast h0
  have h1' := (clCtx_d L).le_r h1
  have hs := hi_sound fmtOK64 (by norm_num) _ (by simp) slCore13_cert hr (by norm_num at h0' ⊢; exact h0') (by norm_num at h1' ⊢; linarith)
  rw [slCore13_fp, slCore13_rs] at hs
  have ha := slAcc13 RealSem.dec_lit (toR RealSem.dec (ρ : ℝ)) h0' (h1'.trans (by norm_num))
  refine (hs.shift ha).mono ?_
  norm_num [uR, binary64]

theorem Sl13_fp (x : FP binary64 L) {q : ℚ} (hx : Val binary64 (ofF x) q) :
    ∃ (v : FP binary64 L) (r : ℚ), Sl 13 x = .ok v ∧ Val binary64 (ofF v) r ∧ |(r : ℝ) - glaisher 13 q| ≤ (31 + 8 * 2 + 4 / 3 * 2 * |(q : ℝ)|) * 2 ^ (-53 : ℤ) ∧
      (|(q : ℝ)| ≤ 3.14 → |(r : ℝ) - glaisher 13 q| ≤ 31 * 2 ^ (-53 : ℤ)) := by
  obtain ⟨r, hr⟩ := slFin (n := 13) ((clCtx_d L).oddG fmtA64 (f := glaisher (2 * 6 + 1)) (glaisher_neg 6 1 (by norm_num) (by norm_num)) (glaisher_sub_two_pi _)
    (E := 31 * uR binary64) (by have := uR_pos (φ := binary64); positivity) (Λ := 2) (κ := 0) (by norm_num) (fun a b _ _ => by have := glaisher_lip 6 1 (by norm_num) (by norm_num) a b; linarith) slCore13_near x hx rfl)
  exact ⟨_, r, Sl_13 x, hr⟩

theorem slCore14_fp (x : FP φ L) : fpP φ [ofF x] [] (slCore14 (FE.var 0)) = ofF (slCore14 x) := by exact (rfl)
theorem slCore14_rs (S : RealSem) (x : R S) : rsP S [x] [] (slCore14 (FE.var 0)) = slCore14 x := by exact (rfl)
theorem slCore14_cert : hiCert 53 120 [] (slCore14 (FE.var 0)) 4869940435459321626624 0 [823575, 823575, 823575, 823575] = true := by decide +kernel
theorem slCore14_near (r : FP binary64 L) (ρ : ℚ) (hr : Val binary64 (ofF r) ρ) (h0 : 0 ≤ ρ) (h1 : ρ ≤ rq binary64 3.14159265358979324) :
    Near binary64 (ofF (slCore14 r)) (glaisher (2 * 7 + 0) ρ) (34 * uR binary64) := by
  have h0' : (0:ℝ) ≤ ρ := by exact_mod_cast h0
  have h1' := (clCtx_d L).le_r h1
  have hs := hi_sound fmtOK64 (by norm_num) _ (by simp) slCore14_cert hr (by norm_num at h0' ⊢; exact h0') (by norm_num at h1' ⊢; linarith)
  rw [slCore14_fp, slCore14_rs] at hs
  have ha := slAcc14 RealSem.dec_lit (toR RealSem.dec (ρ : ℝ)) h0' (h1'.trans (by norm_num))
  refine (hs.shift ha).mono ?_
  norm_num [uR, binary64]

theorem Sl14_fp (x : FP binary64 L) {q : ℚ} (hx : Val binary64 (ofF x) q) :
    ∃ (v : FP binary64 L) (r : ℚ), Sl 14 x = .ok v ∧ Val binary64 (ofF v) r ∧ |(r : ℝ) - glaisher 14 q| ≤ (34 + 8 * 2 + 4 / 3 * 2 * |(q : ℝ)|) * 2 ^ (-53 : ℤ) ∧
      (|(q : ℝ)| ≤ 3.14 → |(r : ℝ) - glaisher 14 q| ≤ 34 * 2 ^ (-53 : ℤ)) := by
  obtain ⟨r, hr⟩ := slFin (n := 14) ((clCtx_d L).evenG fmtA64 (f := glaisher (2 * 7 + 0)) (glaisher_neg 7 0 (by norm_num) (by norm_num)) (glaisher_sub_two_pi _)
    (Λ := 2) (κ := 0) (by norm_num) (fun a b _ _ => by have := glaisher_lip 7 0 (by norm_num) (by norm_num) a b; linarith) slCore14_near x hx rfl)
  exact ⟨_, r, Sl_14 x, hr⟩

theorem slCore15_fp (x : FP φ L) : fpP φ [ofF x] [] (slCore15 (FE.var 0)) = ofF (slCore15 x) := by exact (rfl)
theorem slCore15_rs (S : RealSem) (x : R S) : rsP S [x] [] (slCore15 (FE.var 0)) = slCore15 x := by exact (rfl)
theorem slCore15_cert : hiCert 53 120 [] (slCore15 (FE.var 0)) 4427218577690292387840 0 [823575, 823575, 823575, 823575] = true := by decide +kernel
theorem slCore15_near (r : FP binary64 L) (ρ : ℚ) (hr : Val binary64 (ofF r) ρ) (h0 : 0 ≤ ρ) (h1 : ρ ≤ rq binary64 3.14159265358979324) :
    Near binary64 (ofF (slCore15 r)) (glaisher (2 * 7 + 1) ρ) (31 * uR binary64) := by
  have h0' : (0:ℝ) ≤ ρ := by exact_mod_cast h0
  have h1' := (clCtx_d L).le_r h1
  have hs := hi_sound fmtOK64 (by norm_num) _ (by simp) slCore15_cert hr (by norm_num at h0' ⊢; exact h0') (by norm_num at h1' ⊢; linarith)
  rw [slCore15_fp, slCore15_rs] at hs
  have ha := slAcc15 RealSem.dec_lit (toR RealSem.dec (ρ : ℝ)) h0' (h1'.trans (by norm_num))
  refine (hs.shift ha).mono ?_
  norm_num [uR, binary64]

theorem Sl15_fp (x : FP binary64 L) {q : ℚ} (hx : Val binary64 (ofF x) q) :
    ∃ (v : FP binary64 L) (r : ℚ), Sl 15 x = .ok v ∧ Val binary64 (ofF v) r ∧ |(r : ℝ) - glaisher 15 q| ≤ (31 + 8 * 2 + 4 / 3 * 2 * |(q : ℝ)|) * 2 ^ (-53 : ℤ) ∧
      (|(q : ℝ)| ≤ 3.14 → |(r : ℝ) - glaisher 15 q| ≤ 31 * 2 ^ (-53 : ℤ)) := by
  obtain ⟨r, hr⟩ := slFin (n := 15) ((clCtx_d L).oddG fmtA64 (f := glaisher (2 * 7 + 1)) (glaisher_neg 7 1 (by norm_num) (by norm_num)) (glaisher_sub_two_pi _)
    (E := 31 * uR binary64) (by have := uR_pos (φ := binary64); positivity) (Λ := 2) (κ := 0) (by norm_num) (fun a b _ _ => by have := glaisher_lip 7 1 (by norm_num) (by norm_num) a b; linarith) slCore15_near x hx rfl)
  exact ⟨_, r, Sl_15 x, hr⟩

theorem slCore16_fp (x : FP φ L) : fpP φ [ofF x] [] (slCore16 (FE.var 0)) = ofF (slCore16 x) := by exact (rfl)
theorem slCore16_rs (S : RealSem) (x : R S) : rsP S [x] [] (slCore16 (FE.var 0)) = slCore16 x := by exact (rfl)
theorem slCore16_cert : hiCert 53 120 [] (slCore16 (FE.var 0)) 4869940435459321626624 0 [823575, 823575, 823575, 823575] = true := by decide +kernel
theorem slCore16_near (r : FP binary64 L) (ρ : ℚ) (hr : Val binary64 (ofF r) ρ) (h0 : 0 ≤ ρ) (h1 : ρ ≤ rq binary64 3.14159265358979324) :
    Near binary64 (ofF (slCore16 r)) (glaisher (2 * 8 + 0) ρ) (34 * uR binary64) := by
  have h0' : (0:ℝ) ≤ ρ := by exact_mod_cast h0
  have h1' := (clCtx_d L).le_r h1
  have hs := hi_sound fmtOK64 (by norm_num) _ (by simp) slCore16_cert hr (by norm_num at h0' ⊢; exact h0') (by norm_num at h1' ⊢; linarith)
  rw [slCore16_fp, slCore16_rs] at hs
  have ha := slAcc16 RealSem.dec_lit (toR RealSem.dec (ρ : ℝ)) h0' (h1'.trans (by norm_num))
  refine (hs.shift ha).mono ?_
  norm_num [uR, binary64]

theorem Sl16_fp (x : FP binary64 L) {q : ℚ} (hx : Val binary64 (ofF x) q) :
    ∃ (v : FP binary64 L) (r : ℚ), Sl 16 x = .ok v ∧ Val binary64 (ofF v) r ∧ |(r : ℝ) - glaisher 16 q| ≤ (34 + 8 * 2 + 4 / 3 * 2 * |(q : ℝ)|) * 2 ^ (-53 : ℤ) ∧
      (|(q : ℝ)| ≤ 3.14 → |(r : ℝ) - glaisher 16 q| ≤ 34 * 2 ^ (-53 : ℤ)) := by
  obtain ⟨r, hr⟩ := slFin (n := 16) ((clCtx_d L).evenG fmtA64 (f := glaisher (2 * 8 + 0)) (glaisher_neg 8 0 (by norm_num) (by norm_num)) (glaisher_sub_two_pi _)
    (Λ := 2) (κ := 0) (by norm_num) (fun a b _ _ => by have := glaisher_lip 8 0 (by norm_num) (by norm_num) a b; linarith) slCore16_near x hx rfl)
  exact ⟨_, r, Sl_16 x, hr⟩

theorem slCore17_fp (x : FP φ L) : fpP φ [ofF x] [] (slCore17 (FE.var 0)) = ofF (slCore17 x) := by exact (rfl)
theorem slCore17_rs (S : RealSem) (x : R S) : rsP S [x] [] (slCore17 (FE.var 0)) = slCore17 x := by exact (rfl)
theorem slCore17_cert : hiCert 53 120 [] (slCore17 (FE.var 0)) 4427218577690292387840 0 [823575, 823575, 823575, 823575] = true := by decide +kernel
theorem slCore17_near (r : FP binary64 L) (ρ : ℚ) (hr : Val binary64 (ofF r) ρ) (h0 : 0 ≤ ρ) (h1 : ρ ≤ rq binary64 3.14159265358979324) :
    Near binary64 (ofF (slCore17 r)) (glaisher (2 * 8 + 1) ρ) (31 * uR binary64) := by
  have h0' : (0:ℝ) ≤ ρ := by exact_mod_cast h0
  have h1' := (clCtx_d L).le_r h1
  have hs := hi_sound fmtOK64 (by norm_num) _ (by simp) slCore17_cert hr (by norm_num at h0' ⊢; exact h0') (by norm_num at h1' ⊢; linarith)
  rw [slCore17_fp, slCore17_rs] at hs
  have ha := slAcc17 RealSem.dec_lit (toR RealSem.dec (ρ : ℝ)) h0' (h1'.trans (by norm_num))
  refine (hs.shift ha).mono ?_
  norm_num [uR, binary64]

theorem Sl17_fp (x : FP binary64 L) {q : ℚ} (hx : Val binary64 (ofF x) q) :
    ∃ (v : FP binary64 L) (r : ℚ), Sl 17 x = .ok v ∧ Val binary64 (ofF v) r ∧ |(r : ℝ) - glaisher 17 q| ≤ (31 + 8 * 2 + 4 / 3 * 2 * |(q : ℝ)|) * 2 ^ (-53 : ℤ) ∧
      (|(q : ℝ)| ≤ 3.14 → |(r : ℝ) - glaisher 17 q| ≤ 31 * 2 ^ (-53 : ℤ)) := by
  obtain ⟨r, hr⟩ := slFin (n := 17) ((clCtx_d L).oddG fmtA64 (f := glaisher (2 * 8 + 1)) (glaisher_neg 8 1 (by norm_num) (by norm_num)) (glaisher_sub_two_pi _)
    (E := 31 * uR binary64) (by have := uR_pos (φ := binary64); positivity) (Λ := 2) (κ := 0) (by norm_num) (fun a b _ _ => by have := glaisher_lip 8 1 (by norm_num) (by norm_num) a b; linarith) slCore17_near x hx rfl)
  exact ⟨_, r, Sl_17 x, hr⟩

theorem slCore18_fp (x : FP φ L) : fpP φ [ofF x] [] (slCore18 (FE.var 0)) = ofF (slCore18 x) := by exact (rfl)
theorem slCore18_rs (S : RealSem) (x : R S) : rsP S [x] [] (slCore18 (FE.var 0)) = slCore18 x := by exact (rfl)
theorem slCore18_cert : hiCert 53 120 [] (slCore18 (FE.var 0)) 4869940435459321626624 0 [823575, 823575, 823575, 823575] = true := by decide +kernel
theorem slCore18_near (r : FP binary64 L) (ρ : ℚ) (hr : Val binary64 (ofF r) ρ) (h0 : 0 ≤ ρ) (h1 : ρ ≤ rq binary64 3.14159265358979324) :
    Near binary64 (ofF (slCore18 r)) (glaisher (2 * 9 + 0) ρ) (34 * uR binary64) := by
  have h0' : (0:ℝ) ≤ ρ := by exact_mod_cast h0
  have h1' := (clCtx_d L).le_r h1
  have hs := hi_sound fmtOK64 (by norm_num) _ (by simp) slCore18_cert hr (by norm_num at h0' ⊢; exact h0') (by norm_num at h1' ⊢; linarith)
  rw [slCore18_fp, slCore18_rs] at hs
  have ha := slAcc18 RealSem.dec_lit (toR RealSem.dec (ρ : ℝ)) h0' (h1'.trans (by norm_num))
  refine (hs.shift ha).mono ?_
  norm_num [uR, binary64]

theorem Sl18_fp (x : FP binary64 L) {q : ℚ} (hx : Val binary64 (ofF x) q) :
    ∃ (v : FP binary64 L) (r : ℚ), Sl 18 x = .ok v ∧ Val binary64 (ofF v) r ∧ |(r : ℝ) - glaisher 18 q| ≤ (34 + 8 * 2 + 4 / 3 * 2 * |(q : ℝ)|) * 2 ^ (-53 : ℤ) ∧
      (|(q : ℝ)| ≤ 3.14 → |(r : ℝ) - glaisher 18 q| ≤ 34 * 2 ^ (-53 : ℤ)) := by
  obtain ⟨r, hr⟩ := slFin (n := 18) ((clCtx_d L).evenG fmtA64 (f := glaisher (2 * 9 + 0)) (glaisher_neg 9 0 (by norm_num) (by norm_num)) (glaisher_sub_two_pi _)
    (Λ := 2) (κ := 0) (by norm_num) (fun a b _ _ => by have := glaisher_lip 9 0 (by norm_num) (by norm_num) a b; linarith) slCore18_near x hx rfl)
  exact ⟨_, r, Sl_18 x, hr⟩

theorem slCore19_fp (x : FP φ L) : fpP φ [ofF x] [] (slCore19 (FE.var 0)) = ofF (slCore19 x) := by exact (rfl)
theorem slCore19_rs (S : RealSem) (x : R S) : rsP S [x] [] (slCore19 (FE.var 0)) = slCore19 x := by exact (rfl)
theorem slCore19_cert : hiCert 53 120 [] (slCore19 (FE.var 0)) 4427218577690292387840 0 [823575, 823575, 823575, 823575] = true := by decide +kernel
theorem slCore19_near (r : FP binary64 L) (ρ : ℚ) (hr : Val binary64 (ofF r) ρ) (h0 : 0 ≤ ρ) (h1 : ρ ≤ rq binary64 3.14159265358979324) :
    Near binary64 (ofF (slCore19 r)) (glaisher (2 * 9 + 1) ρ) (31 * uR binary64) := by
  have h0' : (0:ℝ) ≤ ρ := by exact_mod_cast h0
  have h1' := (clCtx_d L).le_r h1
  have hs := hi_sound fmtOK64 (by norm_num) _ (by simp) slCore19_cert hr (by norm_num at h0' ⊢; exact h0') (by norm_num at h1' ⊢; linarith)
  rw [slCore19_fp, slCore19_rs] at hs
  have ha := slAcc19 RealSem.dec_lit (toR RealSem.dec (ρ : ℝ)) h0' (h1'.trans (by norm_num))
  refine (hs.shift ha).mono ?_
  norm_num [uR, binary64]

theorem Sl19_fp (x : FP binary64 L) {q : ℚ} (hx : Val binary64 (ofF x) q) :
    ∃ (v : FP binary64 L) (r : ℚ), Sl 19 x = .ok v ∧ Val binary64 (ofF v) r ∧ |(r : ℝ) - glaisher 19 q| ≤ (31 + 8 * 2 + 4 / 3 * 2 * |(q : ℝ)|) * 2 ^ (-53 : ℤ) ∧
      (|(q : ℝ)| ≤ 3.14 → |(r : ℝ) - glaisher 19 q| ≤ 31 * 2 ^ (-53 : ℤ)) := by
  obtain ⟨r, hr⟩ := slFin (n := 19) ((clCtx_d L).oddG fmtA64 (f := glaisher (2 * 9 + 1)) (glaisher_neg 9 1 (by norm_num) (by norm_num)) (glaisher_sub_two_pi _)
    (E := 31 * uR binary64) (by have := uR_pos (φ := binary64); positivity) (Λ := 2) (κ := 0) (by norm_num) (fun a b _ _ => by have := glaisher_lip 9 1 (by norm_num) (by norm_num) a b; linarith) slCore19_near x hx rfl)
  exact ⟨_, r, Sl_19 x, hr⟩

theorem slCore20_fp (x : FP φ L) : fpP φ [ofF x] [] (slCore20 (FE.var 0)) = ofF (slCore20 x) := by exact (rfl)
theorem slCore20_rs (S : RealSem) (x : R S) : rsP S [x] [] (slCore20 (FE.var 0)) = slCore20 x := by exact (rfl)
theorem slCore20_cert : hiCert 53 120 [] (slCore20 (FE.var 0)) 4869940435459321626624 0 [823575, 823575, 823575, 823575] = true := by decide +kernel
theorem slCore20_near (r : FP binary64 L) (ρ : ℚ) (hr : Val binary64 (ofF r) ρ) (h0 : 0 ≤ ρ) (h1 : ρ ≤ rq binary64 3.14159265358979324) :
    Near binary64 (ofF (slCore20 r)) (glaisher (2 * 10 + 0) ρ) (34 * uR binary64) := by
  have h0' : (0:ℝ) ≤ ρ := by exact_mod_cast h0
  have h1' := (clCtx_d L).le_r h1
  have hs := hi_sound fmtOK64 (by norm_num) _ (by simp) slCore20_cert hr (by norm_num at h0' ⊢; exact h0') (by norm_num at h1' ⊢; linarith)
  rw [slCore20_fp, slCore20_rs] at hs
  have ha := slAcc20 RealSem.dec_lit (toR RealSem.dec (ρ : ℝ)) h0' (h1'.trans (by norm_num))
  refine (hs.shift ha).mono ?_
  norm_num [uR, binary64]

theorem Sl20_fp (x : FP binary64 L) {q : ℚ} (hx : Val binary64 (ofF x) q) :
    ∃ (v : FP binary64 L) (r : ℚ), Sl 20 x = .ok v ∧ Val binary64 (ofF v) r ∧ |(r : ℝ) - glaisher 20 q| ≤ (34 + 8 * 2 + 4 / 3 * 2 * |(q : ℝ)|) * 2 ^ (-53 : ℤ) ∧
      (|(q : ℝ)| ≤ 3.14 → |(r : ℝ) - glaisher 20 q| ≤ 34 * 2 ^ (-53 : ℤ)) := by
  obtain ⟨r, hr⟩ := slFin (n := 20) ((clCtx_d L).evenG fmtA64 (f := glaisher (2 * 10 + 0)) (glaisher_neg 10 0 (by norm_num) (by norm_num)) (glaisher_sub_two_pi _)
    (Λ := 2) (κ := 0) (by norm_num) (fun a b _ _ => by have := glaisher_lip 10 0 (by norm_num) (by norm_num) a b; linarith) slCore20_near x hx rfl)
  exact ⟨_, r, Sl_20 x, hr⟩

theorem slCore21_fp (x : FP φ L) : fpP φ [ofF x] [] (slCore21 (FE.var 0)) = ofF (slCore21 x) := by exact (rfl)
theorem slCore21_rs (S : RealSem) (x : R S) : rsP S [x] [] (slCore21 (FE.var 0)) = slCore21 x := by exact (rfl)
theorem slCore21_cert : hiCert 53 120 [] (slCore21 (FE.var 0)) 4427218577690292387840 0 [823575, 823575, 823575, 823575] = true := by decide +kernel
theorem slCore21_near (r : FP binary64 L) (ρ : ℚ) (hr : Val binary64 (ofF r) ρ) (h0 : 0 ≤ ρ) (h1 : ρ ≤ rq binary64 3.14159265358979324) :
    Near binary64 (ofF (slCore21 r)) (glaisher (2 * 10 + 1) ρ) (31 * uR binary64) := by
  have h0' : (0:ℝ) ≤ ρ := by exact_mod_cast h0
  have h1' := (clCtx_d L).le_r h1
  have hs := hi_sound fmtOK64 (by norm_num) _ (by simp) slCore21_cert hr (by norm_num at h0' ⊢; exact h0') (by norm_num at h1' ⊢; linarith)
  rw [slCore21_fp, slCore21_rs] at hs
  have ha := slAcc21 RealSem.dec_lit (toR RealSem.dec (ρ : ℝ)) h0' (h1'.trans (by norm_num))
  refine (hs.shift ha).mono ?_
  norm_num [uR, binary64]

theorem Sl21_fp (x : FP binary64 L) {q : ℚ} (hx : Val binary64 (ofF x) q) :
    ∃ (v : FP binary64 L) (r : ℚ), Sl 21 x = .ok v ∧ Val binary64 (ofF v) r ∧ |(r : ℝ) - glaisher 21 q| ≤ (31 + 8 * 2 + 4 / 3 * 2 * |(q : ℝ)|) * 2 ^ (-53 : ℤ) ∧
      (|(q : ℝ)| ≤ 3.14 → |(r : ℝ) - glaisher 21 q| ≤ 31 * 2 ^ (-53 : ℤ)) := by
  obtain ⟨r, hr⟩ := slFin (n := 21) ((clCtx_d L).oddG fmtA64 (f := glaisher (2 * 10 + 1)) (glaisher_neg 10 1 (by norm_num) (by norm_num)) (glaisher_sub_two_pi _)
    (E := 31 * uR binary64) (by have := uR_pos (φ := binary64); positivity) (Λ := 2) (κ := 0) (by norm_num) (fun a b _ _ => by have := glaisher_lip 10 1 (by norm_num) (by norm_num) a b; linarith) slCore21_near x hx rfl)
  exact ⟨_, r, Sl_21 x, hr⟩

theorem slCore22_fp (x : FP φ L) : fpP φ [ofF x] [] (slCore22 (FE.var 0)) = ofF (slCore22 x) := by exact (rfl)
theorem slCore22_rs (S : RealSem) (x : R S) : rsP S [x] [] (slCore22 (FE.var 0)) = slCore22 x := by exact (rfl)
theorem slCore22_cert : hiCert 53 120 [] (slCore22 (FE.var 0)) 4869940435459321626624 0 [823575, 823575, 823575, 823575] = true := by decide +kernel
theorem slCore22_near (r : FP binary64 L) (ρ : ℚ) (hr : Val binary64 (ofF r) ρ) (h0 : 0 ≤ ρ) (h1 : ρ ≤ rq binary64 3.14159265358979324) :
    Near binary64 (ofF (slCore22 r)) (glaisher (2 * 11 + 0) ρ) (34 * uR binary64) := by
  have h0' : (0:ℝ) ≤ ρ := by exact_mod_cast h0
  have h1' := (clCtx_d L).le_r h1
  have hs := hi_sound fmtOK64 (by norm_num) _ (by simp) slCore22_cert hr (by norm_num at h0' ⊢; exact h0') (by norm_num at h1' ⊢; linarith)
  rw [slCore22_fp, slCore22_rs] at hs
  have ha := slAcc22 RealSem.dec_lit (toR RealSem.dec (ρ : ℝ)) h0' (h1'.trans (by norm_num))
  refine (hs.shift ha).mono ?_
  norm_num [uR, binary64]

theorem Sl22_fp (x : FP binary64 L) {q : ℚ} (hx : Val binary64 (ofF x) q) :
    ∃ (v : FP binary64 L) (r : ℚ), Sl 22 x = .ok v ∧ Val binary64 (ofF v) r ∧ |(r : ℝ) - glaisher 22 q| ≤ (34 + 8 * 2 + 4 / 3 * 2 * |(q : ℝ)|) * 2 ^ (-53 : ℤ) ∧
      (|(q : ℝ)| ≤ 3.14 → |(r : ℝ) - glaisher 22 q| ≤ 34 * 2 ^ (-53 : ℤ)) := by
  obtain ⟨r, hr⟩ := slFin (n := 22) ((clCtx_d L).evenG fmtA64 (f := glaisher (2 * 11 + 0)) (glaisher_neg 11 0 (by norm_num) (by norm_num)) (glaisher_sub_two_pi _)
    (Λ := 2) (κ := 0) (by norm_num) (fun a b _ _ => by have := glaisher_lip 11 0 (by norm_num) (by norm_num) a b; linarith) slCore22_near x hx rfl)
  exact ⟨_, r, Sl_22 x, hr⟩

theorem slCore23_fp (x : FP φ L) : fpP φ [ofF x] [] (slCore23 (FE.var 0)) = ofF (slCore23 x) := by exact (rfl)
theorem slCore23_rs (S : RealSem) (x : R S) : rsP S [x] [] (slCore23 (FE.var 0)) = slCore23 x := by exact (rfl)
theorem slCore23_cert : hiCert 53 120 [] (slCore23 (FE.var 0)) 4427218577690292387840 0 [823575, 823575, 823575, 823575] = true := by decide +kernel
theorem slCore23_near (r : FP binary64 L) (ρ : ℚ) (hr : Val binary64 (ofF r) ρ) (h0 : 0 ≤ ρ) (h1 : ρ ≤ rq binary64 3.14159265358979324) :
    Near binary64 (ofF (slCore23 r)) (glaisher (2 * 11 + 1) ρ) (31 * uR binary64) := by
  have h0' : (0:ℝ) ≤ ρ := by exact_mod_cast h0
  have h1' := (clCtx_d L).le_r h1
  have hs := hi_sound fmtOK64 (by norm_num) _ (by simp) slCore23_cert hr (by norm_num at h0' ⊢; exact h0') (by norm_num at h1' ⊢; linarith)
  rw [slCore23_fp, slCore23_rs] at hs
  have ha := slAcc23 RealSem.dec_lit (toR RealSem.dec (ρ : ℝ)) h0' (h1'.trans (by norm_num))
  refine (hs.shift ha).mono ?_
  norm_num [uR, binary64]

theorem Sl23_fp (x : FP binary64 L) {q : ℚ} (hx : Val binary64 (ofF x) q) :
    ∃ (v : FP binary64 L) (r : ℚ), Sl 23 x = .ok v ∧ Val binary64 (ofF v) r ∧ |(r : ℝ) - glaisher 23 q| ≤ (31 + 8 * 2 + 4 / 3 * 2 * |(q : ℝ)|) * 2 ^ (-53 : ℤ) ∧
      (|(q : ℝ)| ≤ 3.14 → |(r : ℝ) - glaisher 23 q| ≤ 31 * 2 ^ (-53 : ℤ)) := by
  obtain ⟨r, hr⟩ := slFin (n := 23) ((clCtx_d L).oddG fmtA64 (f := glaisher (2 * 11 + 1)) (glaisher_neg 11 1 (by norm_num) (by norm_num)) (glaisher_sub_two_pi _)
    (E := 31 * uR binary64) (by have := uR_pos (φ := binary64); positivity) (Λ := 2) (κ := 0) (by norm_num) (fun a b _ _ => by have := glaisher_lip 11 1 (by norm_num) (by norm_num) a b; linarith) slCore23_near x hx rfl)
  exact ⟨_, r, Sl_23 x, hr⟩

theorem slCore24_fp (x : FP φ L) : fpP φ [ofF x] [] (slCore24 (FE.var 0)) = ofF (slCore24 x) := by exact (rfl)
theorem slCore24_rs (S : RealSem) (x : R S) : rsP S [x] [] (slCore24 (FE.var 0)) = slCore24 x := by exact (rfl)
theorem slCore24_cert : hiCert 53 120 [] (slCore24 (FE.var 0)) 4869940435459321626624 0 [823575, 823575, 823575, 823575] = true := by decide +kernel
theorem slCore24_near (r : FP binary64 L) (ρ : ℚ) (hr : Val binary64 (ofF r) ρ) (h0 : 0 ≤ ρ) (h1 : ρ ≤ rq binary64 3.14159265358979324) :
    Near binary64 (ofF (slCore24 r)) (glaisher (2 * 12 + 0) ρ) (34 * uR binary64) := by
  have h0' : (0:ℝ) ≤ ρ := by exact_mod_cast h0
  have h1' := (clCtx_d L).le_r h1
  have hs := hi_sound fmtOK64 (by norm_num) _ (by simp) slCore24_cert hr (by norm_num at h0' ⊢; exact h0') (by norm_num at h1' ⊢; linarith)
  rw [slCore24_fp, slCore24_rs] at hs
  have ha := slAcc24 RealSem.dec_lit (toR RealSem.dec (ρ : ℝ)) h0' (h1'.trans (by norm_num))
  refine (hs.shift ha).mono ?_
  norm_num [uR, binary64]

theorem Sl24_fp (x : FP binary64 L) {q : ℚ} (hx : Val binary64 (ofF x) q) :
    ∃ (v : FP binary64 L) (r : ℚ), Sl 24 x = .ok v ∧ Val binary64 (ofF v) r ∧ |(r : ℝ) - glaisher 24 q| ≤ (34 + 8 * 2 + 4 / 3 * 2 * |(q : ℝ)|) * 2 ^ (-53 : ℤ) ∧
      (|(q : ℝ)| ≤ 3.14 → |(r : ℝ) - glaisher 24 q| ≤ 34 * 2 ^ (-53 : ℤ)) := by
  obtain ⟨r, hr⟩ := slFin (n := 24) ((clCtx_d L).evenG fmtA64 (f := glaisher (2 * 12 + 0)) (glaisher_neg 12 0 (by norm_num) (by norm_num)) (glaisher_sub_two_pi _)
    (Λ := 2) (κ := 0) (by norm_num) (fun a b _ _ => by have := glaisher_lip 12 0 (by norm_num) (by norm_num) a b; linarith) slCore24_near x hx rfl)
  exact ⟨_, r, Sl_24 x, hr⟩

theorem slCore25_fp (x : FP φ L) : fpP φ [ofF x] [] (slCore25 (FE.var 0)) = ofF (slCore25 x) := by exact (rfl)
theorem slCore25_rs (S : RealSem) (x : R S) : rsP S [x] [] (slCore25 (FE.var 0)) = slCore25 x := by exact (rfl)
theorem slCore25_cert : hiCert 53 120 [] (slCore25 (FE.var 0)) 4427218577690292387840 0 [823575, 823575, 823575, 823575] = true := by decide +kernel
theorem slCore25_near (r : FP binary64 L) (ρ : ℚ) (hr : Val binary64 (ofF r) ρ) (h0 : 0 ≤ ρ) (h1 : ρ ≤ rq binary64 3.14159265358979324) :
    Near binary64 (ofF (slCore25 r)) (glaisher (2 * 12 + 1) ρ) (31 * uR binary64) := by
  have h0' : (0:ℝ) ≤ ρ := by exact_mod_cast h0
  have h1' := (clCtx_d L).le_r h1
  have hs := hi_sound fmtOK64 (by norm_num) _ (by simp) slCore25_cert hr (by norm_num at h0' ⊢; exact h0') (by norm_num at h1' ⊢; linarith)
  rw [slCore25_fp, slCore25_rs] at hs
  have ha := slAcc25 RealSem.dec_lit (toR RealSem.dec (ρ : ℝ)) h0' (h1'.trans (by norm_num))
  refine (hs.shift ha).mono ?_
  norm_num [uR, binary64]

theorem Sl25_fp (x : FP binary64 L) {q : ℚ} (hx : Val binary64 (ofF x) q) :
    ∃ (v : FP binary64 L) (r : ℚ), Sl 25 x = .ok v ∧ Val binary64 (ofF v) r ∧ |(r : ℝ) - glaisher 25 q| ≤ (31 + 8 * 2 + 4 / 3 * 2 * |(q : ℝ)|) * 2 ^ (-53 : ℤ) ∧
      (|(q : ℝ)| ≤ 3.14 → |(r : ℝ) - glaisher 25 q| ≤ 31 * 2 ^ (-53 : ℤ)) := by
  obtain ⟨r, hr⟩ := slFin (n := 25) ((clCtx_d L).oddG fmtA64 (f := glaisher (2 * 12 + 1)) (glaisher_neg 12 1 (by norm_num) (by norm_num)) (glaisher_sub_two_pi _)
    (E := 31 * uR binary64) (by have := uR_pos (φ := binary64); positivity) (Λ := 2) (κ := 0) (by norm_num) (fun a b _ _ => by have := glaisher_lip 12 1 (by norm_num) (by norm_num) a b; linarith) slCore25_near x hx rfl)
  exact ⟨_, r, Sl_25 x, hr⟩

end Polylog
