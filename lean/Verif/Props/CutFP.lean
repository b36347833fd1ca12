import Verif.Props.PortTiny
import Verif.Proofs.CutIm

/-! # C43: just above the cut, the complex Li5 and Li6 return the value below the cut in IEEE arithmetic

`Li5` and `Li6` see the argument only through `hypot(re, im)`, `atan2(im, re)` and `1/z`. When `atan2(im, re)` underflows to 0,
`z = x + i y` with `y > 0` is treated as `x + 0 i`, i.e. as a point of the cut, where the value is the limit from *below*. -/

namespace Polylog
open Complex MeasureTheory

/-- `Li_n` maps the closed upper half plane, minus the real axis, into the closed upper half plane -/
theorem pLi_im_nonneg (n : ℕ) : ∀ z : ℂ, 0 < z.im → 0 ≤ (pLi (n + 1) z).im := by
  induction n with
  | zero =>
    intro z hz
    show 0 ≤ (-Complex.log (1 - z)).im
    rw [neg_im, log_im, Left.nonneg_neg_iff]
    exact (arg_neg_iff.2 (by simpa using hz)).le
  | succ n ih =>
    intro z hz
    show 0 ≤ (∫ t in (0 : ℝ)..1, pLi (n + 1) (t * z) / t).im
    by_cases hI : IntervalIntegrable (fun t : ℝ => pLi (n + 1) (t * z) / t) volume 0 1
    · have := imCLM.intervalIntegral_comp_comm hI
      rw [show (∫ t in (0 : ℝ)..1, pLi (n + 1) (t * z) / t).im = imCLM (∫ t in (0 : ℝ)..1, pLi (n + 1) (t * z) / t) from rfl, ← this]
      refine intervalIntegral.integral_nonneg (by norm_num) fun t ht => ?_
      show 0 ≤ (pLi (n + 1) (t * z) / t).im
      rw [div_ofReal_im]
      rcases ht.1.eq_or_lt with h | h
      · rw [← h, div_zero]
      · exact div_nonneg (ih _ (by rw [im_ofReal_mul]; positivity)) h.le
    · rw [intervalIntegral.integral_undef hI]; simp


/-- what is needed of `hypot` and `atan2`: exact values where Annex F demands them, and correct rounding where the exact result is
closest to `x`, resp. underflows (`atan(t) < t`, so `y/x ≤ 2^-1075`, half the smallest positive double, means that `atan2(y,x)` rounds to zero) -/
structure CutLib (L : Lib) : Prop where
  log_ok : LogOK binary64 L
  hypot0 : ∀ a : ℚ, L.hypot (.fin false a) (.fin false 0) = .fin false a
  hypot_tiny : ∀ a b : ℚ, 0 < a → 0 < b → b ≤ 2 ^ (-60 : ℤ) * a → L.hypot (.fin false a) (.fin false b) = .fin false a
  atan20 : ∀ a : ℚ, 0 < a → L.atan2 (.fin false 0) (.fin false a) = .fin false 0
  atan2_tiny : ∀ a b : ℚ, 0 < a → 0 < b → b ≤ 2 ^ (-1075 : ℤ) * a → L.atan2 (.fin false b) (.fin false a) = .fin false 0

/-- the hypotheses are met -/
theorem exists_cutLib : CutLib { zeroLib with
    log := approxF binary64 Real.log
    log1p := approxF binary64 (fun t => Real.log (1 + t))
    hypot := fun x _ => x
    atan2 := fun _ _ => .fin false 0 } where
  log_ok := ⟨(exists_logOK fmtA64 zeroLib).log, (exists_logOK fmtA64 zeroLib).log1p⟩
  hypot0 _ := rfl
  hypot_tiny _ _ _ _ _ := rfl
  atan20 _ _ := rfl
  atan2_tiny _ _ _ _ _ := rfl

variable {L : Lib}
local notation "φd" => binary64

theorem val_pos {x : FV} {q : ℚ} (hx : Val φd x q) (h0 : 0 < q) : x = .fin false q := by
  obtain ⟨t, a, h1, h2, h3, -⟩ := hx
  cases t
  · simp [sval] at h2; rw [h1, h2]
  · have := repr_nonneg h3; simp [sval] at h2; linarith

/-- modulus, argument and branch for `z = x + i y` just above the cut and for `z = x` -/
theorem cut_branch (hL : CutLib L) {x y : FP φd L} {q η : ℚ} (hx : Val φd (ofF x) q) (hy : Val φd (ofF y) η) (h2 : 2 ≤ q) (h3 : q ≤ 5 / 2) (h0 : 0 < η)
    (hη : η ≤ 2 ^ (-1075 : ℤ) * q) :
    FOps.hypot x y = x ∧ FOps.hypot x (f0 φd L false) = x ∧ FOps.atan2 y x = f0 φd L false ∧ FOps.atan2 (f0 φd L false) x = f0 φd L false ∧
    (xlog x *. xlog x +. f0 φd L false *. f0 φd L false <. (FOps.lit 1 : FP φd L)) = true := by
  have q0 : 0 < q := by linarith
  have ex := val_pos hx q0
  have ey := val_pos hy h0
  have hη2 : η ≤ 2 ^ (-60 : ℤ) * q := hη.trans (mul_le_mul_of_nonneg_right (zpow_le_zpow_right₀ (by norm_num) (by norm_num)) q0.le)
  refine ⟨?_, ?_, ?_, ?_, ?_⟩
  · show L.hypot (ofF x) (ofF y) = ofF x
    rw [ex, ey]; exact hL.hypot_tiny q η q0 h0 hη2
  · show L.hypot (ofF x) (.fin false 0) = ofF x
    rw [ex]; exact hL.hypot0 q
  · show L.atan2 (ofF y) (ofF x) = .fin false 0
    rw [ex, ey]; exact hL.atan2_tiny q η q0 h0 hη
  · show L.atan2 (.fin false 0) (ofF x) = .fin false 0
    rw [ex]; exact hL.atan20 q q0
  · obtain ⟨l, hl, hl2⟩ := hL.log_ok.log (ofF x) q hx q0
    have hu : uR φd ≤ 1 / 2 ^ 24 := fmtA64.u_le
    have hu0 := uR_pos (φ := φd)
    have hq2 : (2:ℝ) ≤ q := by exact_mod_cast h2
    have hq3 : (q:ℝ) ≤ 5 / 2 := by have := (Rat.cast_le (K := ℝ)).2 h3; push_cast at this; exact this
    have hlog0 : 0 ≤ Real.log q := Real.log_nonneg (by linarith)
    have hlog1 : Real.log q ≤ 0.945 := by
      have h4 := Real.log_le_sub_one_of_pos (x := (q:ℝ) / 2) (by linarith)
      rw [Real.log_div (by linarith) (by norm_num)] at h4
      have := Real.log_two_lt_d9
      linarith
    have hll : |l| ≤ 0.95 := by
      have h5 : |(l:ℝ)| ≤ 0.95 := by
        rw [abs_of_nonneg hlog0] at hl2
        have h4 : 2 * uR φd * Real.log q + uR φd ^ 2 ≤ 0.001 := by norm_num at hu; nlinarith
        have := abs_add_le ((l:ℝ) - Real.log q) (Real.log q)
        rw [sub_add_cancel, abs_of_nonneg hlog0] at this
        linarith
      have e : (0.95:ℝ) = ((0.95:ℚ):ℝ) := by norm_num
      rw [e] at h5
      exact_mod_cast h5
    have hsq : |l * l| ≤ 15 / 16 := by rw [abs_mul]; nlinarith [abs_nonneg l]
    have hsq2 : |l * l| ≤ 2 ^ 100 := hsq.trans (by norm_num)
    have vz : Val φd (.fin false 0) 0 := ⟨false, 0, rfl, by simp [sval], repr_zero, by positivity⟩
    have v1 := hl.mul hl (lt_max_of fmtA64 hsq2)
    have v2 := val_mul0 vz vz (mul_zero _)
    have e : rq φd (rq φd (l * l) + 0) = rq φd (l * l) := by rw [add_zero, rq_repr (repr_rq _)]
    have v3 := v1.add v2 (by rw [e]; exact lt_max_of fmtA64 hsq2)
    rw [e] at v3
    have hlt : rq φd (l * l) < 1 := by
      have h1 := abs_rq_le (φ := φd) (q := l * l) (y := 15 / 16) ⟨15, -4, by decide, by decide, by norm_num⟩ hsq
      have := le_abs_self (rq φd (l * l))
      linarith
    rw [lt_F]
    exact (Val.lt v3 (vl_one fmtA64)).trans (by rw [decide_eq_true_eq]; exact hlt)

theorem cut_special {x y : FP φd L} {q η : ℚ} (hx : Val φd (ofF x) q) (hy : Val φd (ofF y) η) (h2 : 2 ≤ q) (h0 : 0 < η) :
    (x ==. (FOps.lit 0 : FP φd L)) = false ∧ (x ==. (FOps.lit 1 : FP φd L)) = false ∧ (x ==. ∸(FOps.lit 1 : FP φd L)) = false ∧
    (y ==. (FOps.lit 0 : FP φd L)) = false := by
  refine ⟨?_, ?_, ?_, ?_⟩
  · rw [eq_F]; exact (Val.eq hx (vl_zero fmtA64)).trans (by simp; linarith)
  · rw [eq_F]; exact (Val.eq hx (vl_one fmtA64)).trans (by simp; linarith)
  · rw [eq_F]; exact (Val.eq hx (vl_one fmtA64).neg).trans (by simp; linarith)
  · rw [eq_F]; exact (Val.eq hy (vl_zero fmtA64)).trans (by simp; linarith)

/-- the jump of `Li_{n+1}` across the cut -/
theorem cut_jump (n : ℕ) {x y : ℝ} (hx : 1 < x) (hy : 0 < y) (w : ℂ) :
    Real.pi * Real.log x ^ n / n.factorial / 2 ≤ ‖w - pLi (n + 1) ⟨x, y⟩‖ ∨ Real.pi * Real.log x ^ n / n.factorial / 2 ≤ ‖w - pLi (n + 1) (x : ℂ)‖ := by
  by_contra! h
  obtain ⟨h1, h2⟩ := h
  have a1 := (Complex.abs_im_le_norm _).trans_lt h1
  have a2 := (Complex.abs_im_le_norm _).trans_lt h2
  rw [sub_im] at a1 a2
  rw [pLi_im_cut n x hx] at a2
  have := pLi_im_nonneg n ⟨x, y⟩ hy
  have b1 := (abs_lt.1 a1).1
  have b2 := (abs_lt.1 a2).2
  set P := Real.pi * Real.log x ^ n / n.factorial with hP
  have e : -Real.pi * Real.log x ^ n / n.factorial = -P := by rw [hP]; ring
  rw [e] at b2
  linarith

/-- **C43, Li5.** For `2 ≤ x ≤ 5/2` and `y = 2^-1074` (every `y > 0` for which `atan2(y,x)` underflows) the returned value is bit for bit the one
returned on the cut, `y = 0`, although `Li_5` jumps by at least `π log(x)^4/24` there: whatever the value is, its error is at least half that at one of
the two arguments. -/
theorem C43_Li5d (hL : CutLib L) {x y : FP φd L} {q η : ℚ} (hx : Val φd (ofF x) q) (hy : Val φd (ofF y) η) (h2 : 2 ≤ q) (h3 : q ≤ 5 / 2) (h0 : 0 < η)
    (hη : η ≤ 2 ^ (-1075 : ℤ) * q) :
    cLi5d ⟨x, y⟩ = cLi5d ⟨x, f0 φd L false⟩ ∧
    ∀ w : ℂ, Real.pi * Real.log q ^ 4 / 48 ≤ ‖w - pLi 5 ⟨q, η⟩‖ ∨ Real.pi * Real.log q ^ 4 / 48 ≤ ‖w - pLi 5 ((q : ℝ) : ℂ)‖ := by
  obtain ⟨b1, b2, b3, b4, b5⟩ := cut_branch hL hx hy h2 h3 h0 hη
  obtain ⟨s1, s2, s3, s4⟩ := cut_special hx hy h2 h0
  refine ⟨?_, fun w => ?_⟩
  · rw [cLi5d_eq, cLi5d_eq]
    simp only [s1, s2, s3, s4, Bool.and_false, Bool.false_and, Bool.false_eq_true, if_false]
    unfold cLi5S cLiShape Cx.abs Cx.arg
    simp only [b1, b2, b3, b4, b5, if_true]
  · have := cut_jump 4 (x := q) (y := η) (by have := (Rat.cast_le (K := ℝ)).2 h2; push_cast at this; linarith) (by exact_mod_cast h0) w
    have e : Real.pi * Real.log (q:ℝ) ^ 4 / (Nat.factorial 4 : ℝ) / 2 = Real.pi * Real.log q ^ 4 / 48 := by norm_num [Nat.factorial]; ring
    rwa [e] at this

/-- **C43, Li6.** The same, with the jump `π log(x)^5/120`. -/
theorem C43_Li6d (hL : CutLib L) {x y : FP φd L} {q η : ℚ} (hx : Val φd (ofF x) q) (hy : Val φd (ofF y) η) (h2 : 2 ≤ q) (h3 : q ≤ 5 / 2) (h0 : 0 < η)
    (hη : η ≤ 2 ^ (-1075 : ℤ) * q) :
    cLi6d ⟨x, y⟩ = cLi6d ⟨x, f0 φd L false⟩ ∧
    ∀ w : ℂ, Real.pi * Real.log q ^ 5 / 240 ≤ ‖w - pLi 6 ⟨q, η⟩‖ ∨ Real.pi * Real.log q ^ 5 / 240 ≤ ‖w - pLi 6 ((q : ℝ) : ℂ)‖ := by
  obtain ⟨b1, b2, b3, b4, b5⟩ := cut_branch hL hx hy h2 h3 h0 hη
  obtain ⟨s1, s2, s3, s4⟩ := cut_special hx hy h2 h0
  refine ⟨?_, fun w => ?_⟩
  · rw [cLi6d_eq, cLi6d_eq]
    simp only [s1, s2, s3, s4, Bool.and_false, Bool.false_and, Bool.false_eq_true, if_false]
    unfold cLi6S cLiShape Cx.abs Cx.arg
    simp only [b1, b2, b3, b4, b5, if_true]
  · have := cut_jump 5 (x := q) (y := η) (by have := (Rat.cast_le (K := ℝ)).2 h2; push_cast at this; linarith) (by exact_mod_cast h0) w
    have e : Real.pi * Real.log (q:ℝ) ^ 5 / (Nat.factorial 5 : ℝ) / 2 = Real.pi * Real.log q ^ 5 / 240 := by norm_num [Nat.factorial]; ring
    rwa [e] at this

/-- the hypotheses are met: `z = 2 + 2^-1074 i`, where the error is at least 0.015 at `z` or at 2 -/
example : ∃ (L : Lib) (x y : FP φd L), CutLib L ∧ Val φd (ofF x) 2 ∧ Val φd (ofF y) (2 ^ (-1074 : ℤ)) ∧ cLi5d ⟨x, y⟩ = cLi5d ⟨x, f0 φd L false⟩ := by
  have hx : Val φd (.fin false 2) 2 := ⟨false, 2, rfl, by simp [sval], ⟨1, 1, by decide, by decide, by norm_num⟩, by
    rw [show (2:ℚ) = 2 ^ (1:ℤ) by norm_num]; exact zpow_lt_zpow_right₀ (by norm_num) (by decide)⟩
  have hy : Val φd (.fin false (2 ^ (-1074 : ℤ))) (2 ^ (-1074 : ℤ)) :=
    ⟨false, _, rfl, by simp [sval], ⟨1, -1074, by decide, by decide, by norm_num⟩, zpow_lt_zpow_right₀ (by norm_num) (by decide)⟩
  refine ⟨_, toF φd _ (.fin false 2), toF φd _ (.fin false (2 ^ (-1074 : ℤ))), exists_cutLib, hx, hy, (C43_Li5d exists_cutLib hx hy le_rfl (by norm_num) (by positivity) ?_).1⟩
  rw [show (-1074:ℤ) = -1075 + 1 by norm_num, zpow_add₀ (by norm_num), zpow_one]

end Polylog
