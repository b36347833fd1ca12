import Verif.Props.Li4Real

/-! # C18 for the complex `Li3(double)`, `Li4(double)`, all arguments (the real axis uses the real functions) -/

noncomputable section
namespace Polylog
open Finset

variable {S : RealSem}

theorem expN_ge_two {n : ℕ} (hn : 2 ≤ n) {x : ℝ} (hx : 0 ≤ x) : 1 + x + x ^ 2 / 2 ≤ expN n x := by
  have : ∑ k ∈ range 3, x ^ k / k.factorial ≤ expN n x := by
    refine Finset.sum_le_sum_of_subset_of_nonneg (by intro k; simp; omega) fun _ _ _ => by positivity
  refine le_trans (le_of_eq ?_) this
  simp [sum_range_succ, Nat.factorial]

/-- on the real axis: the size of `log(-x)` -/
theorem log_max_le {x : ℝ} (hx : 1 < |x|) : Real.log (max 1 |x|) ≤ ‖Complex.log (-(x : ℂ))‖ := by
  rw [max_eq_right hx.le]
  refine le_trans (le_of_eq ?_) ((le_abs_self _).trans (Complex.abs_re_le_norm _))
  rw [Complex.log_re]; simp

theorem expN_ge_three {n : ℕ} (hn : 3 ≤ n) {x : ℝ} (hx : 0 ≤ x) : 1 + x + x ^ 2 / 2 + x ^ 3 / 6 ≤ expN n x := by
  have : ∑ k ∈ range 4, x ^ k / k.factorial ≤ expN n x := by
    refine Finset.sum_le_sum_of_subset_of_nonneg (by intro k; simp; omega) fun _ _ _ => by positivity
  refine le_trans (le_of_eq ?_) this
  simp [sum_range_succ, Nat.factorial]

theorem norm_le_re_im (w v : ℂ) : ‖w - v‖ ≤ |w.re - v.re| + |w.im - v.im| := by
  have := Complex.norm_le_abs_re_add_abs_im (w - v); simpa using this

/-- **C18**, `Li3`, double, every argument. -/
theorem C18_Li3d {u : ℝ} (hS : S.Lit u) (hu : u ≤ 1 / 1000) (z : ℂ) :
    ‖(cLi3d (ofC S z)).toC - pLi 3 z‖ ≤ 5.6e-15 + 75 * u + if ‖z‖ ≤ 1 then 0 else (2.5e-16 + 20.2 * u) * expN 3 ‖Complex.log (-z)‖ := by
  have hu0 := hS.u_nonneg
  by_cases hz : z.im = 0
  · obtain ⟨x, rfl⟩ : ∃ x : ℝ, (x : ℂ) = z := ⟨z.re, Complex.ext rfl (by simp [hz])⟩
    have hre := C11_Li3d hS hu x
    have hn : (ofC S (x : ℂ)).re = toR S x := rfl
    have hi : (ofC S (x : ℂ)).im = toR S 0 := rfl
    have hn' : ofR (toR S x) = x := rfl
    have hi' : ofR (toR S 0) = 0 := rfl
    have hLz : Real.log (max 1 |x|) ≤ if ‖(x : ℂ)‖ ≤ 1 then 0 else ‖Complex.log (-(x : ℂ))‖ := by
      rw [Complex.norm_real, Real.norm_eq_abs]
      split
      · rename_i h; rw [max_eq_left h, Real.log_one]
      · rename_i h; exact log_max_le (not_le.mp h)
    have hL0 : 0 ≤ Real.log (max 1 |x|) := Real.log_nonneg (le_max_left _ _)
    have hd := litpi_abs hS 3.1415926535897932 (by norm_num) (by norm_num) (pi_lit 3.1415926535897932 3.85e-17 (by decide +kernel))
    rw [cLi3d_eq, hn, hi]
    simp only [eq_R, le_R, decide_eq_true_eq]
    simp only [ofR_lit, hS.zero, hS.one, Rat.cast_zero, Rat.cast_one, hi', hn', if_true]
    have fin : ∀ w : ℂ, w.re = ofR (Li3d (toR S x)) → |w.im - (pLi 3 (x : ℂ)).im| ≤ (3.85e-17 + 3.15 * u) * Real.log (max 1 |x|) ^ 2 / 2 →
        ‖w - pLi 3 (x : ℂ)‖ ≤ 5.6e-15 + 75 * u + if ‖(x : ℂ)‖ ≤ 1 then 0 else (2.5e-16 + 20.2 * u) * expN 3 ‖Complex.log (-(x : ℂ))‖ := by
      intro w h1 h2
      refine (norm_le_re_im _ _).trans ?_
      rw [h1]
      generalize Real.log (max 1 |x|) = L at *
      split at hLz
      · rename_i h
        rw [if_pos h]
        have : L = 0 := le_antisymm hLz hL0
        subst this
        norm_num at hre h2 ⊢
        rw [h2, abs_zero]
        linarith
      · rename_i h
        rw [if_neg h]
        have h3 := expN_ge_two (n := 3) (by norm_num) (norm_nonneg (Complex.log (-(x : ℂ))))
        generalize ‖Complex.log (-(x : ℂ))‖ = l at *
        have h4 : L ^ 2 ≤ l ^ 2 := pow_le_pow_left₀ hL0 hLz 2
        have h5 := mul_le_mul_of_nonneg_left h3 (show 0 ≤ 2.5e-16 + 20.2 * u by positivity)
        have h6 : u * L ≤ u * l := mul_le_mul_of_nonneg_left hLz hu0
        have h7 : u * L ^ 2 ≤ u * l ^ 2 := mul_le_mul_of_nonneg_left h4 hu0
        have h8 : 0 ≤ u * l ^ 2 := by positivity
        have h9 : 0 ≤ u * l := by nlinarith
        nlinarith
    split
    · rename_i h
      refine fin _ rfl ?_
      have : (pLi 3 (x : ℂ)).im = 0 := by
        rcases lt_or_eq_of_le h with h | h
        · exact pLi_im_le_one 3 h
        · subst h; exact_mod_cast pLi_im_one 1
      rw [this]
      show |ofR (toR S 0) - 0| ≤ _
      rw [hi', sub_zero, abs_zero]; positivity
    · rename_i h
      push Not at h
      refine fin _ rfl ?_
      have hlog : ofR (xlog (toR S x)) = Real.log x := by
        rw [xlog_R, ofR_log (by simp [rsem]; linarith), hn']
      have e5 : ((S.rho 0.5 : ℚ) : ℝ) = 1 / 2 := by rw [hS.half]; norm_num
      show |ofR (∸(FOps.lit 0.5 : R S) *. (FOps.lit 3.1415926535897932 : R S) *. xlog (toR S x) *. xlog (toR S x)) - _| ≤ _
      rw [pLi_im_cut 2 x h, max_eq_right (by rw [abs_of_pos (by linarith)]; exact h.le), abs_of_pos (show 0 < x by linarith)]
      simp only [ofR_mul, ofR_neg, hlog, ofR_lit, e5]
      generalize ((S.rho 3.1415926535897932 : ℚ) : ℝ) = P at *
      generalize Real.log x = l
      have e : -(1 / 2) * P * l * l - -Real.pi * l ^ 2 / (Nat.factorial 2 : ℝ) = -((P - Real.pi) * l ^ 2 / 2) := by
        norm_num [Nat.factorial]; ring
      rw [e, abs_neg, abs_div, abs_mul, abs_of_nonneg (sq_nonneg l), abs_of_pos (show (0:ℝ) < 2 by norm_num)]
      push_cast at hd
      gcongr
  · refine (C18_Li3d_offaxis hS hu z hz).trans ?_
    linarith

/-- **C18**, `Li4`, double, every argument. -/
theorem C18_Li4d {u : ℝ} (hS : S.Lit u) (hu : u ≤ 1 / 10000) (z : ℂ) :
    ‖(cLi4d (ofC S z)).toC - pLi 4 z‖ ≤ 4.1e-15 + 3310 * u + if ‖z‖ ≤ 1 then 0 else (2.5e-16 + 20.2 * u) * expN 4 ‖Complex.log (-z)‖ := by
  have hu0 := hS.u_nonneg
  by_cases hz : z.im = 0
  · obtain ⟨x, rfl⟩ : ∃ x : ℝ, (x : ℂ) = z := ⟨z.re, Complex.ext rfl (by simp [hz])⟩
    have hre := C12_Li4d hS hu x
    have hn : (ofC S (x : ℂ)).re = toR S x := rfl
    have hi : (ofC S (x : ℂ)).im = toR S 0 := rfl
    have hn' : ofR (toR S x) = x := rfl
    have hi' : ofR (toR S 0) = 0 := rfl
    have hLz : Real.log (max 1 |x|) ≤ if ‖(x : ℂ)‖ ≤ 1 then 0 else ‖Complex.log (-(x : ℂ))‖ := by
      rw [Complex.norm_real, Real.norm_eq_abs]
      split
      · rename_i h; rw [max_eq_left h, Real.log_one]
      · rename_i h; exact log_max_le (not_le.mp h)
    have hL0 : 0 ≤ Real.log (max 1 |x|) := Real.log_nonneg (le_max_left _ _)
    have hd := litpi_abs hS 3.1415926535897932 (by norm_num) (by norm_num) (pi_lit 3.1415926535897932 3.85e-17 (by decide +kernel))
    rw [cLi4d_eq, hn, hi]
    simp only [eq_R, le_R, decide_eq_true_eq]
    simp only [ofR_lit, hS.zero, hS.one, Rat.cast_zero, Rat.cast_one, hi', hn', if_true]
    have fin : ∀ w : ℂ, w.re = ofR (Li4d (toR S x)) → |w.im - (pLi 4 (x : ℂ)).im| ≤ (3.85e-17 + 3.15 * u) * Real.log (max 1 |x|) ^ 3 / 6 →
        ‖w - pLi 4 (x : ℂ)‖ ≤ 4.1e-15 + 3310 * u + if ‖(x : ℂ)‖ ≤ 1 then 0 else (2.5e-16 + 20.2 * u) * expN 4 ‖Complex.log (-(x : ℂ))‖ := by
      intro w h1 h2
      refine (norm_le_re_im _ _).trans ?_
      rw [h1]
      generalize Real.log (max 1 |x|) = L at *
      split at hLz
      · rename_i h
        rw [if_pos h]
        have : L = 0 := le_antisymm hLz hL0
        subst this
        norm_num at hre h2 ⊢
        rw [h2, abs_zero]
        linarith
      · rename_i h
        rw [if_neg h]
        have h3 := expN_ge_three (n := 4) (by norm_num) (norm_nonneg (Complex.log (-(x : ℂ))))
        have hl := norm_nonneg (Complex.log (-(x : ℂ)))
        generalize ‖Complex.log (-(x : ℂ))‖ = l at *
        have h4 : L ^ 2 ≤ l ^ 2 := pow_le_pow_left₀ hL0 hLz 2
        have h4' : L ^ 3 ≤ l ^ 3 := pow_le_pow_left₀ hL0 hLz 3
        have h5 := mul_le_mul_of_nonneg_left h3 (show 0 ≤ 2.5e-16 + 20.2 * u by positivity)
        have h6 : u * L ^ 3 ≤ u * l ^ 3 := mul_le_mul_of_nonneg_left h4' hu0
        have h7 : u * L ^ 2 ≤ u * l ^ 2 := mul_le_mul_of_nonneg_left h4 hu0
        have h8 : 0 ≤ u * l ^ 2 := by positivity
        have h9 : 0 ≤ u * l := by positivity
        have h10 : 0 ≤ u * l ^ 3 := by positivity
        have h11 : 0 ≤ l ^ 3 := by positivity
        nlinarith
    split
    · rename_i h
      refine fin _ rfl ?_
      have : (pLi 4 (x : ℂ)).im = 0 := by
        rcases lt_or_eq_of_le h with h | h
        · exact pLi_im_le_one 4 h
        · subst h; exact_mod_cast pLi_im_one 2
      rw [this]
      show |ofR (toR S 0) - 0| ≤ _
      rw [hi', sub_zero, abs_zero]; positivity
    · rename_i h
      push Not at h
      refine fin _ rfl ?_
      have hlog : ofR (xlog (toR S x)) = Real.log x := by
        rw [xlog_R, ofR_log (by simp [rsem]; linarith), hn']
      have d6 := ofR_divlit hS 6 (q := 6) (by norm_num) (by norm_num) (by norm_num)
      have l1 := lit_of hS 1 (q := 1) (by norm_num) (by norm_num)
      show |ofR (∸(FOps.lit 1 : R S) /. (FOps.lit 6 : R S) *. (FOps.lit 3.1415926535897932 : R S) *. xlog (toR S x) *. xlog (toR S x) *. xlog (toR S x)) - _| ≤ _
      rw [pLi_im_cut 3 x h, max_eq_right (by rw [abs_of_pos (by linarith)]; exact h.le), abs_of_pos (show 0 < x by linarith)]
      simp only [ofR_mul, ofR_neg, hlog, d6, l1, ofR_lit]
      generalize ((S.rho 3.1415926535897932 : ℚ) : ℝ) = P at *
      have hl := Real.log_pos h
      generalize Real.log x = l at *
      have e : -((1 : ℕ) : ℝ) / ((6 : ℕ) : ℝ) * P * l * l * l - -Real.pi * l ^ 3 / (Nat.factorial 3 : ℝ) = -((P - Real.pi) * l ^ 3 / 6) := by
        norm_num [Nat.factorial]; ring
      rw [e, abs_neg, abs_div, abs_mul, abs_of_nonneg (show 0 ≤ l ^ 3 by positivity), abs_of_pos (show (0:ℝ) < 6 by norm_num)]
      push_cast at hd
      gcongr
  · refine (C18_Li4d_offaxis hS (by linarith) z hz).trans ?_
    linarith

example : ‖(cLi4d (ofC RealSem.dec 0.3)).toC - pLi 4 0.3‖ ≤ 4.1e-15 := by
  have := C18_Li4d RealSem.dec_lit (by norm_num) (0.3 : ℂ)
  rw [if_pos (by norm_num)] at this
  simpa using this

end Polylog
