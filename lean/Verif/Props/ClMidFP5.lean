import Verif.Props.ClMidFP4

/-! # `pcal` and the logarithmic term of `Cl(n, x)`, n = 7, 8, 9, in IEEE double precision -/

namespace Polylog
set_option linter.style.longLine false
open Finset

variable {L : Lib}

/-- `u = 2^-53` -/
local notation "υ" => uR binary64
/-- the reals with exact literals -/
local notation "RR" => R RealSem.dec

/-- one step of `pcal` -/
def pstep {F : Type} [FOps F] (x2 s : F) (σ : Bool) (z f : ℚ) : F := x2 *. s +. (if σ then (FOps.lit 1 : F) else ∸(FOps.lit 1 : F)) *. (FOps.lit z : F) *. (FOps.lit f : F)

theorem sgn_val (σ : Bool) : Val binary64 (ofF (if σ then (FOps.lit 1 : FP binary64 L) else ∸(FOps.lit 1 : FP binary64 L))) (if σ then 1 else -1) := by
  cases σ
  · exact (vl_one fmtA64).neg
  · exact vl_one fmtA64

theorem lit_sn {q : ℚ} {A : ℝ} (hq : |(q:ℝ)| ≤ A) (hA : 1 / 64 ≤ A) (hA2 : A ≤ 100) : SN binary64 (rndQ binary64 q) q A 1.001 := by
  have hu := u53
  have hu0 := uR_pos (φ := binary64)
  refine ⟨(near_lit fmtA64 (hq.trans (hA2.trans (by norm_num)))).mono ?_, hq, hA, hA2.trans (by norm_num), by norm_num, by norm_num⟩
  have h1 : |(q:ℝ)| * υ ≤ A * υ := by gcongr
  have h2 : υ ^ 2 ≤ 0.001 * (υ * A) := by
    have : υ ≤ 0.001 * A := by rw [hu]; norm_num; linarith
    nlinarith
  linarith

theorem pstep_lock {x2 s : FP binary64 L} {x2R sR : RR} {A a : ℝ} (h2 : SN binary64 (ofF x2) (ofR x2R) 9.8703 1.01) (hs : SN binary64 (ofF s) (ofR sR) A a) (ha : 2 ≤ a) (ha2 : a ≤ 20)
    (hA : A ≤ 1000) (σ : Bool) {z f : ℚ} {fB : ℝ} (hz : |(z:ℝ)| ≤ 1.65) (hf : |(f:ℝ)| ≤ fB) (hf1 : 1 / 64 ≤ fB) (hf2 : fB ≤ 1) :
    SN binary64 (ofF (pstep x2 s σ z f)) (ofR (pstep x2R sR σ z f)) (9.8703 * A + 1.65 * fB) (a + 3.2) := by
  have hz' := lit_sn hz (by norm_num) (by norm_num)
  have hf' := lit_sn hf hf1 (by linarith)
  have hA1 := hs.hA
  have t1 := h2.mul fmtA64 hs (by linarith) (by norm_num; linarith) (by linarith)
  have t2 : SN binary64 (ofF ((if σ then (FOps.lit 1 : FP binary64 L) else ∸(FOps.lit 1 : FP binary64 L)) *. (FOps.lit z : FP binary64 L))) (((if σ then 1 else -1 : ℚ) : ℝ) * z) 1.65 1.001 := by
    refine ⟨near_sgn (sgn_val σ) (by cases σ <;> simp) hz'.near, ?_, by norm_num, by norm_num, by norm_num, by norm_num⟩
    cases σ <;> simpa using hz'.le
  have t3 := t2.mul fmtA64 hf' (by linarith) (by norm_num; linarith) (by norm_num)
  have t4 := t1.add fmtA64 t3 (m := 1.001 * a + 2.1) (by norm_num; linarith) (by linarith) (by norm_num; linarith) (by linarith)
  have t5 := t4.mono (a' := a + 3.2) le_rfl (by linarith) (by norm_num; linarith) (by linarith)
  have e : ofR (pstep x2R sR σ z f) = ofR x2R * ofR sR + ((if σ then 1 else -1 : ℚ) : ℝ) * z * f := by
    unfold pstep
    have hl : ∀ q : ℚ, ofR (FOps.lit q : RR) = q := fun _ => rfl
    cases σ <;> simp only [ofR_add, ofR_mul, ofR_neg, hl, if_true, Bool.false_eq_true, if_false] <;> push_cast <;> ring
  rw [e]; exact t5

theorem zcert : ∀ i : Fin 8, |clZeta[i.1]| ≤ 1.65 := clZeta_le
theorem zcertR (i : ℕ) (hi : i < 8) : |((clZeta[i] : ℚ) : ℝ)| ≤ 1.65 := by
  have := (Rat.cast_le (K := ℝ)).2 (zcert ⟨i, hi⟩); push_cast at this; norm_num at this ⊢; exact this

theorem x2_sn {x : FP binary64 L} {q : ℚ} (hx : Val binary64 (ofF x) q) (h0 : 0 ≤ q) (h1 : q ≤ 3.1417) (xR : RR) (hR : ofR xR = q) :
    SN binary64 (ofF x) (ofR xR) ww 0 ∧ SN binary64 (ofF (x *. x)) (ofR (xR *. xR)) 9.8703 1.01 := by
  have h1r : |((q : ℚ) : ℝ)| ≤ ww := by
    rw [abs_of_nonneg (by exact_mod_cast h0)]
    have : ((q : ℚ) : ℝ) ≤ ((3.1417 : ℚ) : ℝ) := by exact_mod_cast h1
    norm_num at this ⊢; exact this
  have h := hx.sn h1r (by norm_num) (by norm_num)
  have h2 := h.mul fmtA64 h (by norm_num) (by norm_num)
  rw [ofR_mul, hR]
  exact ⟨h, h2.mono (by norm_num) (by norm_num)⟩

theorem zero_sn : SN binary64 (ofF (FOps.lit 0 : FP binary64 L)) (ofR (FOps.lit 0 : RR)) (1 / 64) 2 := by
  have := (vl_zero fmtA64).sn (A := 1 / 64) (by simp) le_rfl (by norm_num)
  rw [lit0 RealSem.dec_lit]
  rw [Rat.cast_zero] at this
  exact this.mono (a' := 2) le_rfl (by norm_num)

theorem pcal_lock (n : ℕ) (h7 : 7 ≤ n) (h9 : n ≤ 9) (x : FP binary64 L) {q : ℚ} (hx : Val binary64 (ofF x) q) (h0 : 0 ≤ q) (h1 : q ≤ 3.1417)
    (xR : RR) (hR : ofR xR = q) : ∃ (v : FP binary64 L) (vR : RR), pcal (n:ℤ) x = .ok v ∧ pcal (n:ℤ) xR = .ok vR ∧ SN binary64 (ofF v) (ofR vR) 192 15 := by
  obtain ⟨hs, h2⟩ := x2_sn hx h0 h1 xR hR
  have hn : n = 7 ∨ n = 8 ∨ n = 9 := by omega
  have f1 : |((1:ℚ):ℝ)| ≤ 1 := by norm_num
  have f2 : |((1 / 2:ℚ):ℝ)| ≤ 1 / 2 := by norm_num
  have f6 : |((1 / 6:ℚ):ℝ)| ≤ 1 / 6 := by norm_num
  have f24 : |((1 / 24:ℚ):ℝ)| ≤ 1 / 24 := by norm_num
  have f120 : |((1 / 120:ℚ):ℝ)| ≤ 1 / 64 := by norm_num
  have f720 : |((1 / 720:ℚ):ℝ)| ≤ 1 / 64 := by norm_num
  rcases hn with rfl | rfl | rfl
  · have g1 := pstep_lock h2 zero_sn (by norm_num) (by norm_num) (by norm_num) true (zcertR 1 (by norm_num)) f24 (by norm_num) (by norm_num)
    have g2 := pstep_lock h2 g1 (by norm_num) (by norm_num) (by norm_num) false (zcertR 3 (by norm_num)) f2 (by norm_num) (by norm_num)
    have g3 := pstep_lock h2 g2 (by norm_num) (by norm_num) (by norm_num) true (zcertR 5 (by norm_num)) f1 (by norm_num) (by norm_num)
    exact ⟨_, _, rfl, rfl, g3.mono (by norm_num) (by norm_num)⟩
  · have g1 := pstep_lock h2 zero_sn (by norm_num) (by norm_num) (by norm_num) true (zcertR 1 (by norm_num)) f120 (by norm_num) (by norm_num)
    have g2 := pstep_lock h2 g1 (by norm_num) (by norm_num) (by norm_num) false (zcertR 3 (by norm_num)) f6 (by norm_num) (by norm_num)
    have g3 := pstep_lock h2 g2 (by norm_num) (by norm_num) (by norm_num) true (zcertR 5 (by norm_num)) f1 (by norm_num) (by norm_num)
    have g4 := g3.mul fmtA64 hs (by norm_num) (by norm_num) (by norm_num)
    rw [← ofR_mul] at g4
    exact ⟨_, _, rfl, rfl, g4.mono (by norm_num) (by norm_num)⟩
  · have g1 := pstep_lock h2 zero_sn (by norm_num) (by norm_num) (by norm_num) false (zcertR 1 (by norm_num)) f720 (by norm_num) (by norm_num)
    have g2 := pstep_lock h2 g1 (by norm_num) (by norm_num) (by norm_num) true (zcertR 3 (by norm_num)) f24 (by norm_num) (by norm_num)
    have g3 := pstep_lock h2 g2 (by norm_num) (by norm_num) (by norm_num) false (zcertR 5 (by norm_num)) f2 (by norm_num) (by norm_num)
    have g4 := pstep_lock h2 g3 (by norm_num) (by norm_num) (by norm_num) true (zcertR 7 (by norm_num)) f1 (by norm_num) (by norm_num)
    exact ⟨_, _, rfl, rfl, g4.mono (by norm_num) (by norm_num)⟩

end Polylog
