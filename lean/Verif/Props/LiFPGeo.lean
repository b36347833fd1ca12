import Verif.Props.ClogFP
import Verif.Proofs.PLiLip
import Verif.Sem.CEReify

/-!
# Complex polylogarithms in floating point: the geometry of the branch choice

The computed tests are compared with exact tests at a nearby point: `exists_branch_point` finds, close to `w = log z`, a point which lies
strictly on the side of the tests taken by the program.
-/

namespace Polylog
set_option linter.style.longLine false
open Complex

variable {φ : Fmt} {L : Lib} {s : ℝ}

/-- a point on the right side of the unit circle and outside of the disc `‖log z‖ < 1` -/
theorem exists_branch_point {u : ℝ} (hu0 : 0 < u) (hu : u ≤ 1e-6) (hs : s = 1 ∨ s = -1) {t : ℝ} (ht : t = 1 ∨ t = -1) {w : ℂ} (hw : w ∈ hstrip s)
    (h1 : 1 - 10 * u ≤ ‖w‖) (h2 : t * w.re ≤ 2.1 * u) : ∃ w' ∈ hstrip s, t * w'.re < 0 ∧ 1 ≤ ‖w'‖ ∧ ‖w' - w‖ ≤ 60 * u := by
  have ht1 : t * t = 1 := by rcases ht with rfl | rfl <;> norm_num
  have hta : |t| = 1 := by rcases ht with rfl | rfl <;> norm_num
  obtain ⟨hw1, hw2⟩ := hw
  have hpi := Real.pi_gt_three
  have h3u : ‖((3 * t * u : ℝ) : ℂ)‖ = 3 * u := by
    rw [Complex.norm_real, Real.norm_eq_abs, abs_mul, abs_mul, hta, abs_of_pos hu0]; norm_num
  set v := w - ((3 * t * u : ℝ) : ℂ) with hv
  have hvim : v.im = w.im := by rw [hv]; simp
  have hvre : t * v.re = t * w.re - 3 * u := by
    rw [hv, Complex.sub_re, Complex.ofReal_re, mul_sub, show t * (3 * t * u) = 3 * (t * t) * u by ring, ht1]; ring
  have hvn : ‖w‖ - 3 * u ≤ ‖v‖ := by
    have := norm_sub_norm_le w v
    rw [show w - v = ((3 * t * u : ℝ) : ℂ) by rw [hv]; ring, h3u] at this; linarith
  by_cases hc : |w.im| ≤ 2 ∧ |w.re| ≤ 2
  · have hwn : ‖w‖ ≤ 2.83 := by
      rw [Complex.norm_eq_sqrt_sq_add_sq]
      apply Real.sqrt_le_iff.2
      refine ⟨by norm_num, ?_⟩
      have q1 : w.re ^ 2 ≤ 2 ^ 2 := by rw [← sq_abs]; exact pow_le_pow_left₀ (abs_nonneg _) hc.2 2
      have q2 : w.im ^ 2 ≤ 2 ^ 2 := by rw [← sq_abs]; exact pow_le_pow_left₀ (abs_nonneg _) hc.1 2
      nlinarith
    have him : ((1 + 16 * u : ℝ) * v : ℂ).im = (1 + 16 * u) * w.im := by rw [Complex.im_ofReal_mul, hvim]
    have hre : ((1 + 16 * u : ℝ) * v : ℂ).re = (1 + 16 * u) * v.re := by rw [Complex.re_ofReal_mul]
    have hsa : s * w.im ≤ 2 := by
      have : |s * w.im| ≤ 2 := by rw [abs_mul]; rcases hs with rfl | rfl <;> simpa using hc.1
      exact (abs_le.1 this).2
    refine ⟨((1 + 16 * u : ℝ)) * v, ⟨?_, ?_⟩, ?_, ?_, ?_⟩
    · rw [him, show s * ((1 + 16 * u) * w.im) = (1 + 16 * u) * (s * w.im) by ring]; positivity
    · rw [him, show s * ((1 + 16 * u) * w.im) = (1 + 16 * u) * (s * w.im) by ring]; nlinarith
    · rw [hre, show t * ((1 + 16 * u) * v.re) = (1 + 16 * u) * (t * v.re) by ring, hvre]; nlinarith
    · rw [norm_mul, Complex.norm_real, Real.norm_eq_abs, abs_of_pos (by linarith)]
      nlinarith
    · have e : ((1 + 16 * u : ℝ) : ℂ) * v - w = ((16 * u : ℝ) : ℂ) * w - ((1 + 16 * u : ℝ) : ℂ) * ((3 * t * u : ℝ) : ℂ) := by
        rw [hv]; push_cast; ring
      rw [e]
      refine (norm_sub_le _ _).trans ?_
      rw [norm_mul, norm_mul, h3u, Complex.norm_real, Complex.norm_real, Real.norm_eq_abs, Real.norm_eq_abs, abs_of_pos (by positivity), abs_of_pos (by positivity)]
      nlinarith
  · refine ⟨v, ⟨by rw [hvim]; exact hw1, by rw [hvim]; exact hw2⟩, by rw [hvre]; linarith, ?_, ?_⟩
    · rcases not_and_or.1 hc with h | h
      · have := Complex.abs_im_le_norm v
        rw [hvim] at this; linarith
      · have := Complex.abs_re_le_norm w
        linarith
    · rw [show v - w = -((3 * t * u : ℝ) : ℂ) by rw [hv]; ring, norm_neg, h3u]; linarith

theorem log_ball {A B : ℂ} {δ : ℝ} (h1 : ‖A - B‖ ≤ δ) (h2 : δ < B.re) : ‖Complex.log A - Complex.log B‖ ≤ ‖A - B‖ / (‖B‖ - δ) := by
  have hδ : 0 ≤ δ := (norm_nonneg _).trans h1
  have hB := Complex.re_le_norm B
  have hc : Convex ℝ (Metric.closedBall B δ) := convex_closedBall B δ
  have h := hc.norm_image_sub_le_of_norm_hasDerivWithin_le (𝕜 := ℂ) (f := Complex.log) (f' := fun z => z⁻¹) (C := 1 / (‖B‖ - δ)) (x := B) (y := A) (fun z hz => by
      rw [Metric.mem_closedBall, dist_eq_norm] at hz
      have h3 := Complex.abs_re_le_norm (z - B)
      rw [Complex.sub_re] at h3
      have : z ∈ slitPlane := Or.inl (by have := (abs_le.1 (h3.trans hz)).1; linarith)
      exact (Complex.hasDerivAt_log this).hasDerivWithinAt)
    (fun z hz => by
      rw [Metric.mem_closedBall, dist_eq_norm] at hz
      rw [norm_inv, ← one_div]
      refine one_div_le_one_div_of_le (by linarith) ?_
      have := norm_sub_norm_le B z
      rw [norm_sub_rev] at this; linarith) (by simpa using hδ) (by simpa [dist_eq_norm] using h1)
  refine h.trans (le_of_eq ?_); ring

/-- the argument of the series, when `z` is perturbed -/
theorem log_one_sub_pert {u : ℝ} (hu0 : 0 < u) (hu : u ≤ 1e-6) {v z : ℂ} (h1 : z ≠ 1) (hl : ‖Complex.log (1 - z)‖ ≤ 1.1) (hd : ‖v - z‖ ≤ 72 * u) :
    v ≠ 1 ∧ ‖Complex.log (1 - v)‖ ≤ 1.11 ∧ ‖Complex.log (1 - v) - Complex.log (1 - z)‖ ≤ 222 * u := by
  have h0 : 1 - z ≠ 0 := sub_ne_zero.2 (Ne.symm h1)
  obtain ⟨h3, -, h4⟩ := log_small h0 (hl.trans (by norm_num))
  have hd' : ‖(1 - v) - (1 - z)‖ ≤ 72 * u := by rw [show (1 - v) - (1 - z) = -(v - z) by ring, norm_neg]; exact hd
  have h5 := log_ball hd' (by linarith)
  have h6 : ‖(1 - v) - (1 - z)‖ / (‖1 - z‖ - 72 * u) ≤ 222 * u := by
    have h7 : 1 / 3.07 ≤ ‖1 - z‖ - 72 * u := by
      refine le_trans ?_ (sub_le_sub_right h3 _); norm_num at hu ⊢; linarith
    have h8 : (0:ℝ) < 1 / 3.07 := by norm_num
    rw [div_le_iff₀ (by linarith)]
    refine hd'.trans ?_
    calc 72 * u ≤ 222 * u * (1 / 3.07) := by norm_num; linarith
      _ ≤ _ := by gcongr
  have h9 := h5.trans h6
  refine ⟨?_, ?_, h9⟩
  · rintro rfl
    rw [norm_sub_rev, norm_sub_rev] at hd
    have := hd
    rw [norm_sub_rev] at this
    norm_num at h3 hu
    linarith
  have := norm_sub_norm_le (Complex.log (1 - v)) (Complex.log (1 - z))
  linarith

theorem exp_pert {u : ℝ} (hu0 : 0 < u) (hu : u ≤ 1e-6) {w w' : ℂ} (hd : ‖w' - w‖ ≤ 60 * u) (hw : ‖Complex.exp w'‖ ≤ 1) :
    ‖Complex.exp w - Complex.exp w'‖ ≤ 60.1 * u := by
  have e : Complex.exp w - Complex.exp w' = Complex.exp w' * (Complex.exp (w - w') - 1) := by
    rw [mul_sub, ← Complex.exp_add, mul_one]; congr 2; ring
  rw [norm_sub_rev] at hd
  have h1 := Complex.norm_exp_sub_one_sub_id_le (x := w - w') (by linarith)
  have h2 : ‖Complex.exp (w - w') - 1‖ ≤ 60.1 * u := by
    have := norm_add_le (Complex.exp (w - w') - 1 - (w - w')) (w - w')
    rw [sub_add_cancel] at this
    nlinarith [norm_nonneg (w - w')]
  rw [e, norm_mul]
  calc _ ≤ 1 * ‖Complex.exp (w - w') - 1‖ := by gcongr
    _ ≤ _ := by linarith

/-- the computed `lnz*lnz + pz*pz` -/
theorem sq_test (hφ : FmtB φ) {x y : FP φ L} {a b : ℚ} (ha : Val φ (ofF x) a) (hb : Val φ (ofF y) b) (ha' : |(a:ℝ)| ≤ 1000) (hb' : |(b:ℝ)| ≤ 1000) :
    ∃ t : ℚ, Val φ (ofF (x *. x +. y *. y)) t ∧ |(t:ℝ) - ‖cq a b‖ ^ 2| ≤ 2.1 * uR φ * ‖cq a b‖ ^ 2 + 0.001 * uR φ := by
  have hu0 := uR_pos (φ := φ)
  have hu : uR φ ≤ 1e-6 := hφ.u_le.trans (by norm_num)
  have m1 := ha.near.mul hφ.a ha.near (by rw [add_zero]; nlinarith [abs_nonneg (a:ℝ)])
  have m2 := hb.near.mul hφ.a hb.near (by rw [add_zero]; nlinarith [abs_nonneg (b:ℝ)])
  simp only [zero_mul, add_zero, zero_add, mul_zero, abs_mul_abs_self] at m1 m2
  have q1 : (a:ℝ) * a ≤ 1000 * 1000 := by rw [← abs_mul_abs_self]; gcongr
  have q2 : (b:ℝ) * b ≤ 1000 * 1000 := by rw [← abs_mul_abs_self]; gcongr
  have q1' : 0 ≤ (a:ℝ) * a := mul_self_nonneg _
  have q2' : 0 ≤ (b:ℝ) * b := mul_self_nonneg _
  have hab : |(a:ℝ) * a + b * b| = a * a + b * b := abs_of_nonneg (by linarith)
  have hn : ‖cq a b‖ ^ 2 = (a:ℝ) * a + b * b := by
    rw [← Complex.normSq_eq_norm_sq, Complex.normSq_apply]; rfl
  have m3 := m1.add hφ.a m2 (by rw [hab]; nlinarith)
  obtain ⟨t, ht, ht'⟩ := m3
  refine ⟨t, ht, ?_⟩
  rw [hn]
  refine ht'.trans ?_
  rw [hab]
  set Q := (a:ℝ) * a + b * b
  have hQ : 0 ≤ Q := by positivity
  have e : uR φ * (2 * Q + 2 * uR φ + uR φ * Q + 2 * uR φ * uR φ) ≤ uR φ * (2.1 * Q + 0.001) := by
    refine mul_le_mul_of_nonneg_left ?_ hu0.le
    nlinarith [mul_le_mul_of_nonneg_right hu hQ]
  have e2 : uR φ * ((a:ℝ) * a) + uR φ * (b * b) = uR φ * Q := by ring
  nlinarith

end Polylog
