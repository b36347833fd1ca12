import Verif.Props.SlFP

/-! # C47: `Sl(n, x)` accurate in IEEE double precision arithmetic, rounding included -/

namespace Polylog
set_option linter.style.longLine false

variable {L : Lib}

/-- **C47, n = 3, ..., 25.** For every finite `x` the result is finite and within `(77 + 8/3 |x|) u` of `Sl_n(x)` (`glaisher n`), `u = 2^-53`;
within `61 u` for `|x| ≤ 3.14`. No assumption about the C library: the code calls only `fmod`, which is exact. -/
theorem C47_Sl (n : ℕ) (h3 : 3 ≤ n) (h25 : n ≤ 25) (x : FP binary64 L) {q : ℚ} (hx : Val binary64 (ofF x) q) :
    ∃ (v : FP binary64 L) (r : ℚ), Sl n x = .ok v ∧ Val binary64 (ofF v) r ∧ |(r : ℝ) - glaisher n q| ≤ (77 + 8 / 3 * |(q : ℝ)|) * 2 ^ (-53 : ℤ) ∧
      (|(q : ℝ)| ≤ 3.14 → |(r : ℝ) - glaisher n q| ≤ 61 * 2 ^ (-53 : ℤ)) := by
  have key : ∀ {m : ℕ} {E : ℝ}, E ≤ 61 → (∃ (v : FP binary64 L) (r : ℚ), Sl m x = .ok v ∧ Val binary64 (ofF v) r ∧
      |(r : ℝ) - glaisher m q| ≤ (E + 8 * 2 + 4 / 3 * 2 * |(q : ℝ)|) * 2 ^ (-53 : ℤ) ∧ (|(q : ℝ)| ≤ 3.14 → |(r : ℝ) - glaisher m q| ≤ E * 2 ^ (-53 : ℤ))) →
      ∃ (v : FP binary64 L) (r : ℚ), Sl m x = .ok v ∧ Val binary64 (ofF v) r ∧ |(r : ℝ) - glaisher m q| ≤ (77 + 8 / 3 * |(q : ℝ)|) * 2 ^ (-53 : ℤ) ∧
      (|(q : ℝ)| ≤ 3.14 → |(r : ℝ) - glaisher m q| ≤ 61 * 2 ^ (-53 : ℤ)) := by
    intro m E hE ⟨v, r, h1, h2, h3, h4⟩
    refine ⟨v, r, h1, h2, h3.trans ?_, fun h => (h4 h).trans ?_⟩
    · exact mul_le_mul_of_nonneg_right (by linarith) (by positivity)
    · exact mul_le_mul_of_nonneg_right hE (by positivity)
  interval_cases n
  · exact key (by norm_num) (Sl3_fp x hx)
  · exact key (by norm_num) (Sl4_fp x hx)
  · exact key (by norm_num) (Sl5_fp x hx)
  · exact key (by norm_num) (Sl6_fp x hx)
  · exact key (by norm_num) (Sl7_fp x hx)
  · exact key (by norm_num) (Sl8_fp x hx)
  · exact key (by norm_num) (Sl9_fp x hx)
  · exact key (by norm_num) (Sl10_fp x hx)
  · exact key (by norm_num) (Sl11_fp x hx)
  · exact key (by norm_num) (Sl12_fp x hx)
  · exact key (by norm_num) (Sl13_fp x hx)
  · exact key (by norm_num) (Sl14_fp x hx)
  · exact key (by norm_num) (Sl15_fp x hx)
  · exact key (by norm_num) (Sl16_fp x hx)
  · exact key (by norm_num) (Sl17_fp x hx)
  · exact key (by norm_num) (Sl18_fp x hx)
  · exact key (by norm_num) (Sl19_fp x hx)
  · exact key (by norm_num) (Sl20_fp x hx)
  · exact key (by norm_num) (Sl21_fp x hx)
  · exact key (by norm_num) (Sl22_fp x hx)
  · exact key (by norm_num) (Sl23_fp x hx)
  · exact key (by norm_num) (Sl24_fp x hx)
  · exact key (by norm_num) (Sl25_fp x hx)

/-- **C47, n = 2.** -/
theorem C47_Sl2 (x : FP binary64 L) {q : ℚ} (hx : Val binary64 (ofF x) q) :
    ∃ (v : FP binary64 L) (r : ℚ), Sl 2 x = .ok v ∧ Val binary64 (ofF v) r ∧ |(r : ℝ) - glaisher 2 q| ≤ (66 + 16 / 3 * |(q : ℝ)|) * 2 ^ (-53 : ℤ) ∧
      (|(q : ℝ)| ≤ 3.14 → |(r : ℝ) - glaisher 2 q| ≤ 34 * 2 ^ (-53 : ℤ)) := by
  obtain ⟨v, r, h1, h2, h3, h4⟩ := Sl2_fp x hx
  exact ⟨v, r, h1, h2, h3.trans (le_of_eq (by ring)), h4⟩

/-- the expression for `n = 1` -/
def slCore1 {F : Type} [FOps F] (x : F) : F :=
  (FOps.lit 3.14159265358979324 : F) /. (FOps.lit 2 : F) -. (FOps.lit 1 : F) /. (FOps.lit 2 : F) *. x

theorem slCore1_fp {φ : Fmt} (x : FP φ L) : fpP φ [ofF x] [] (slCore1 (FE.var 0)) = ofF (slCore1 x) := by exact (rfl)
theorem slCore1_rs (S : RealSem) (x : R S) : rsP S [x] [] (slCore1 (FE.var 0)) = slCore1 x := by exact (rfl)
theorem slCore1_cert : hiCert 53 120 [] (slCore1 (FE.var 0)) (11 * 2 ^ 67) 0 [823575, 823575, 823575, 823575] = true := by decide +kernel
theorem slCore1_R (S : RealSem) (hS : S.rho = id) (r : R S) : ofR (slCore1 r) = 3.14159265358979324 / 2 - ofR r / 2 := by
  have h2 : ofR (FOps.lit 2 : R S) = 2 := by rw [ofR_lit, hS]; norm_num
  rw [slCore1, ofR_sub, ofR_mul, ofR_div (by rw [h2]; norm_num), ofR_div (by rw [h2]; norm_num), h2, ofR_lit, ofR_lit, hS]
  norm_num; ring

theorem slCore1_near (r : FP binary64 L) (ρ : ℚ) (hr : Val binary64 (ofF r) ρ) (h0 : 0 ≤ ρ) (h1 : ρ ≤ rq binary64 3.14159265358979324) :
    Near binary64 (ofF (slCore1 r)) (Real.pi / 2 - ρ / 2) (12 * uR binary64) := by
  have h0' : (0:ℝ) ≤ ρ := by exact_mod_cast h0
  have h1' := (clCtx_d L).le_r h1
  have hs := hi_sound fmtOK64 (by norm_num) _ (by simp) slCore1_cert hr (by norm_num at h0' ⊢; exact h0') (by norm_num at h1' ⊢; linarith)
  rw [slCore1_fp, slCore1_rs, slCore1_R _ rfl, ofR_toR] at hs
  have ha := pi_lit 3.14159265358979324 1.7e-18 (by decide +kernel)
  have hb : |(3.14159265358979324 / 2 - (ρ:ℝ) / 2) - (Real.pi / 2 - ρ / 2)| ≤ 1.7e-18 := by
    norm_num [abs_le] at ha ⊢
    constructor <;> linarith [ha.1, ha.2]
  refine (hs.shift hb).mono ?_
  norm_num [uR, binary64]

/-- **C47, n = 1.** `Sl_1` jumps at the multiples of `2π`; for every finite non-zero `x` with `|x| ≤ 6.28` the result is within `16 u` of `Sl_1(x)`. -/
theorem C47_Sl1 (x : FP binary64 L) {q : ℚ} (hx : Val binary64 (ofF x) q) (h0 : q ≠ 0) (h1 : |(q : ℝ)| ≤ 6.28) :
    ∃ (v : FP binary64 L) (r : ℚ), Sl 1 x = .ok v ∧ Val binary64 (ofF v) r ∧ |(r : ℝ) - glaisher 1 q| ≤ 16 * 2 ^ (-53 : ℤ) := by
  have hC := clCtx_d L
  have hA := fmtA64
  obtain ⟨p', hp', hp0, hp2, he⟩ := hC.hp1
  obtain ⟨r, hr, hr0, hr1⟩ := hC.hr x q hx
  have hP3 := hC.h3
  have hd := abs_le.1 hC.hd
  have hpi := pi_gt
  have hpi2 := pi_lt
  have hu : uR binary64 ≤ 1 / 2 ^ 53 := by norm_num [uR, binary64]
  have hu0 := uR_pos (φ := binary64)
  obtain ⟨hn1, hn2⟩ := reduceAbs_fp hA hC.hP hC.h3 hC.h4 hp' hp0 hp2 hx
  obtain ⟨r', hr', hrd⟩ := hn1
  have := hr.unique hr'; subst this
  obtain ⟨σ, hσ, hσ1, hσ2⟩ := reduceSgn_fp hA (p1 := (FOps.lit 0.0019353071795864769253 : FP binary64 L)) hC.hP hC.h3 hC.h4 hx
  have hz : Val binary64 (rndQ binary64 0) 0 := vl_zero hA
  have hq0 : 0 < |(q:ℝ)| := abs_pos.2 (by exact_mod_cast h0)
  have hw : wrap ((rq binary64 3.14159265358979324 : ℚ) : ℝ) q = |(q:ℝ)| := wrap_of_lt (by linarith [hd.1])
  have hwq : wrapQ (rq binary64 3.14159265358979324) q = |q| := by
    have := wrapQ_cast (show 0 < rq binary64 3.14159265358979324 by linarith) q
    rw [hw] at this; exact_mod_cast this
  rw [hw] at hrd hσ2
  rw [hwq] at hrd
  have hg := glaisher_one_abs (x := (q:ℝ)) 0 (by simpa using hq0) (by push_cast; linarith)
  have he' := abs_le.1 he
  have hσa : |(σ:ℝ)| = 1 := by rcases hσ1 with h | h <;> subst h <;> simp
  -- the reduced argument is not zero and lies close to |q| or 2π - |q|
  have hr2 : r ≠ 0 ∧ |σ * (Real.pi / 2 - r / 2) - glaisher 1 q| ≤ 4 * uR binary64 := by
    have hs : |(if (q:ℝ) < 0 then -1 else 1 : ℝ)| = 1 := by split_ifs <;> norm_num
    by_cases hc : rq binary64 3.14159265358979324 < |q|
    · have hc' : ((rq binary64 3.14159265358979324 : ℚ) : ℝ) < |(q:ℝ)| := by exact_mod_cast hc
      rw [if_pos hc', if_pos hc] at hrd
      rw [if_pos hc'] at hσ2
      have hrd' := abs_le.1 hrd
      refine ⟨fun h => ?_, ?_⟩
      · rw [h] at hrd'; push_cast at hrd'; linarith [hrd'.1]
      · rw [hg, hσ2, mul_assoc, ← mul_sub, abs_mul, hs, one_mul, abs_le]
        push_cast
        constructor <;> linarith [hrd'.1, hrd'.2]
    · have hc' : ¬ ((rq binary64 3.14159265358979324 : ℚ) : ℝ) < |(q:ℝ)| := by intro h; exact hc (by exact_mod_cast h)
      rw [if_neg hc', if_neg hc] at hrd
      rw [if_neg hc'] at hσ2
      have hrq : (r:ℝ) = |(q:ℝ)| := sub_eq_zero.1 (abs_nonpos_iff.1 hrd)
      refine ⟨fun h => ?_, ?_⟩
      · rw [h] at hrq; push_cast at hrq; linarith
      · rw [hg, hσ2, mul_assoc, ← mul_sub, abs_mul, hs, one_mul, hrq, abs_le]
        push_cast
        constructor <;> linarith
  obtain ⟨hr2, hr3⟩ := hr2
  have hS : Sl 1 x = .ok ((reduceSgn (FOps.lit 3.14159265358979324 : FP binary64 L) (FOps.lit 0.0019353071795864769253 : FP binary64 L) x).2 *.
      slCore1 (reduceAbs (FOps.lit 3.14159265358979324 : FP binary64 L) (FOps.lit 0.0019353071795864769253 : FP binary64 L) x)) := by
    rw [Sl_1]
    dsimp only
    rw [reduceSgn_fst]
    have e1 : (reduceAbs (FOps.lit 3.14159265358979324 : FP binary64 L) (FOps.lit 0.0019353071795864769253 : FP binary64 L) x ==. (FOps.lit 0 : FP binary64 L)) = false := by
      rw [eq_F, ofF_lit]; exact (hr.eq hz).trans (by simpa using hr2)
    rw [e1]; rfl
  obtain ⟨w, hw, hwd⟩ := near_sgn hσ hσ1 (slCore1_near _ r hr hr0 hr1)
  refine ⟨_, w, hS, by rw [ofF_mul]; exact hw, ?_⟩
  change _ ≤ 16 * uR binary64
  have := abs_sub_le (w:ℝ) (σ * (Real.pi / 2 - r / 2)) (glaisher 1 q)
  linarith

/-- a zero argument of odd order: the exact result `0` -/
theorem C47_zero (n : ℕ) (hn : 1 ≤ n) (ho : n % 2 = 1) (x : FP binary64 L) (hx : Val binary64 (ofF x) 0) :
    ∃ v : FP binary64 L, Sl n x = .ok v ∧ Val binary64 (ofF v) 0 := by
  have hC := clCtx_d L
  obtain ⟨p', hp', hp0, hp2, -⟩ := hC.hp1
  have hP3 := hC.h3
  obtain ⟨-, h⟩ := reduceAbs_fp fmtA64 hC.hP hC.h3 hC.h4 hp' hp0 hp2 hx
  have hw : wrapQ (rq binary64 3.14159265358979324) 0 = 0 := by simp [wrapQ]
  rw [hw, if_neg (by linarith)] at h
  refine ⟨_, ?_, h⟩
  have he : isEven (n:ℤ) = false := by
    have : ((n:ℤ).tmod 2) = 1 := by rw [Int.tmod_eq_emod_of_nonneg (by omega)]; omega
    simp [isEven, this]
  unfold Sl
  rw [if_neg (by omega)]
  simp only [slReduce, he, Bool.not_false, Bool.true_and, Bool.false_eq_true, if_false, reduceSgn_fst]
  rw [if_pos (by rw [eq_F, ofF_lit]; exact (h.eq (vl_zero fmtA64)).trans (by simp))]
  rfl

/-- the hypotheses are met: `x = -5/2`, orders 3, ..., 25, any library -/
example (L : Lib) (n : ℕ) (h3 : 3 ≤ n) (h25 : n ≤ 25) :
    ∃ (v : FP binary64 L) (r : ℚ), Sl n (toF binary64 L (.fin true (5 / 2))) = .ok v ∧ Val binary64 (ofF v) r ∧ |(r : ℝ) - glaisher n (-5 / 2)| ≤ 61 * 2 ^ (-53 : ℤ) := by
  have hv : Val binary64 (ofF (toF binary64 L (.fin true (5 / 2)))) (-(5 / 2)) :=
    ⟨true, 5 / 2, rfl, rfl, ⟨5, -1, by decide, by decide, by norm_num⟩, lt_two_pow_emax (by norm_num)⟩
  obtain ⟨v, r, h1, h2, -, h4⟩ := C47_Sl n h3 h25 _ hv
  refine ⟨v, r, h1, h2, ?_⟩
  have := h4 (by norm_num [abs_le])
  convert this using 3
  norm_num

end Polylog
