import Verif.Sem.CxLib
import Verif.Model.Horner

/-! # Rounding error of `log1p(complex)` -/

namespace Polylog
set_option linter.style.longLine false
open Complex

variable {φ : Fmt} {L : Lib}

theorem val_oneB (hφ : FmtB φ) : Val φ (rndQ φ 1) 1 := near_dy hφ.a 1 0 (by norm_num) (by norm_num) (by norm_num)
theorem val_zeroB (hφ : FmtB φ) : Val φ (rndQ φ 0) 0 := near_dy hφ.a 0 0 (by norm_num) (by norm_num) (by norm_num)

theorem big900 : (8:ℝ) ≤ 2 ^ (900:ℤ) := by
  have : (2:ℝ) ^ (3:ℤ) ≤ 2 ^ (900:ℤ) := zpow_le_zpow_right₀ (by norm_num) (by norm_num)
  exact le_trans (by norm_num) this
theorem n900 : (2:ℝ) ^ (-900 : ℤ) ≤ 2 ^ (-120 : ℤ) := zpow_le_zpow_right₀ (by norm_num) (by norm_num)

/-- exact effect of the correction factor -/
theorem corr_err {T V : ℂ} {u : ℝ} (hu0 : 0 < u) (hu : u ≤ 0.0001) (hT : 1 / 8 ≤ T.re) (hT3 : T.re ≤ 3.06) (hd : ‖V - T‖ ≤ u * T.re) (hV : V ≠ 1) :
    ‖Complex.log V - Complex.log T‖ ≤ 1.001 * u ∧ ‖Complex.log V * ((T - 1) / (V - 1)) - Complex.log T‖ ≤ 4.1 * u ∧
    ‖Complex.log V‖ ≤ 8.1 * ‖V - 1‖ := by
  have hre : |V.re - T.re| ≤ u * T.re := by
    have := Complex.abs_re_le_norm (V - T); rw [Complex.sub_re] at this; exact this.trans hd
  have hV1 : T.re * (1 - 0.0001) ≤ V.re := by have := (abs_le.1 hre).1; nlinarith
  have hm : 0 < T.re * (1 - 0.0001) := by nlinarith
  have l1 : ‖Complex.log V - Complex.log T‖ ≤ 1.001 * u := by
    refine (log_lip hm hV1 (by nlinarith)).trans ?_
    rw [div_le_iff₀ hm]
    nlinarith
  have h1 : V - 1 ≠ 0 := sub_ne_zero.2 hV
  have hn1 : 0 < ‖V - 1‖ := norm_pos_iff.2 h1
  set m := min 1 (T.re * (1 - 0.0001)) with hmd
  have hm0 : 0 < m := lt_min one_pos hm
  have l2 : ‖Complex.log V‖ ≤ ‖V - 1‖ / m := by
    have := log_lip (A := V) (B := 1) hm0 ((min_le_right _ _).trans hV1) (by rw [Complex.one_re]; exact min_le_left _ _)
    rwa [Complex.log_one, sub_zero] at this
  refine ⟨l1, ?_, ?_⟩
  · have e : Complex.log V * ((T - 1) / (V - 1)) - Complex.log T = (Complex.log V - Complex.log T) - Complex.log V * ((V - T) / (V - 1)) := by
      field_simp; ring
    rw [e]
    refine (norm_sub_le _ _).trans ?_
    rw [norm_mul, norm_div]
    have : ‖Complex.log V‖ * (‖V - T‖ / ‖V - 1‖) ≤ 3.09 * u := by
      calc _ ≤ ‖V - 1‖ / m * (u * T.re / ‖V - 1‖) := by gcongr
        _ = u * (T.re / m) := by field_simp
        _ ≤ u * 3.09 := by
          refine mul_le_mul_of_nonneg_left ?_ hu0.le
          rw [div_le_iff₀ hm0]
          rcases le_total 1 (T.re * (1 - 0.0001)) with h | h
          · rw [hmd, min_eq_left h]; linarith
          · rw [hmd, min_eq_right h]; nlinarith
        _ = _ := by ring
    linarith
  · refine l2.trans ?_
    rw [div_le_iff₀ hm0]
    have : 1 ≤ 8.1 * m := by
      rcases le_total 1 (T.re * (1 - 0.0001)) with h | h
      · rw [hmd, min_eq_left h]; norm_num
      · rw [hmd, min_eq_right h]; nlinarith
    nlinarith

theorem clog_num {A Q u τ : ℝ} (hu0 : 0 < u) (hu : u ≤ 0.0001) (hτ0 : 0 < τ) (hτ : τ ≤ 0.0001 * u) (hA0 : 0 ≤ A) (hQ0 : 0 ≤ Q)
    (hAQ : (A ≤ 1.12 ∧ Q ≤ 1.01) ∨ (A ≤ 0.008 ∧ Q ≤ 2.01)) :
    4 * ((A + (4 * u * A + 2.03 * u)) * (Q + (8 * u * Q + τ))) + 4 ≤ 200 ∧
    (4 * u * A + 2.03 * u) * Q + (8 * u * Q + τ) * A + (4 * u * A + 2.03 * u) * (8 * u * Q + τ)
      + 2.42 * u * ((A + (4 * u * A + 2.03 * u)) * (Q + (8 * u * Q + τ))) + 3 * τ + (u * (A * Q) + 4.1 * u) ≤ 25 * u := by
  have hQ2 : Q ≤ 2.01 := by rcases hAQ with h | h <;> linarith
  have hA2 : A ≤ 1.12 := by rcases hAQ with h | h <;> linarith
  have E1 : 4 * u * A + 2.03 * u ≤ 0.001 := by nlinarith
  have E2 : 8 * u * Q + τ ≤ 0.002 := by nlinarith
  have E1' : 0 ≤ 4 * u * A + 2.03 * u := by positivity
  have E2' : 0 ≤ 8 * u * Q + τ := by positivity
  have F0 : A * Q ≤ 1.14 := by
    rcases hAQ with ⟨h1, h2⟩ | ⟨h1, h2⟩
    · calc A * Q ≤ 1.12 * 1.01 := by gcongr
        _ ≤ _ := by norm_num
    · calc A * Q ≤ 0.008 * 2.01 := by gcongr
        _ ≤ _ := by norm_num
  have F1 : (4 * u * A + 2.03 * u) * Q ≤ u * 6.7 := by
    rw [show (4 * u * A + 2.03 * u) * Q = u * (4 * (A * Q) + 2.03 * Q) by ring]
    refine mul_le_mul_of_nonneg_left ?_ hu0.le
    rcases hAQ with ⟨h1, h2⟩ | ⟨h1, h2⟩
    · linarith
    · have : A * Q ≤ 0.008 * 2.01 := by gcongr
      linarith
  have F2 : (8 * u * Q + τ) * A ≤ u * 9.2 := by
    have : τ * A ≤ 0.0001 * u * 1.12 := by gcongr
    have : u * (A * Q) ≤ u * 1.14 := by gcongr
    nlinarith
  have F3 : (4 * u * A + 2.03 * u) * (8 * u * Q + τ) ≤ u * 0.02 := by
    calc _ ≤ (4 * u * A + 2.03 * u) * 0.002 := by gcongr
      _ ≤ _ := by nlinarith
  have F4 : (A + (4 * u * A + 2.03 * u)) * (Q + (8 * u * Q + τ)) ≤ 1.16 := by
    rcases hAQ with ⟨h1, h2⟩ | ⟨h1, h2⟩
    · refine (mul_le_mul (add_le_add h1 E1) (add_le_add h2 E2) (by positivity) (by norm_num)).trans (by norm_num)
    · refine (mul_le_mul (add_le_add h1 E1) (add_le_add h2 E2) (by positivity) (by norm_num)).trans (by norm_num)
  have F5 : 2.42 * u * ((A + (4 * u * A + 2.03 * u)) * (Q + (8 * u * Q + τ))) ≤ 2.42 * u * 1.16 :=
    mul_le_mul_of_nonneg_left F4 (by positivity)
  have F6 : u * (A * Q) ≤ u * 1.14 := by gcongr
  refine ⟨by linarith, by linarith⟩

theorem clog_ratio {A Q u r t v ζ D : ℝ} (hu0 : 0 < u) (hu2 : u ≤ 2 ^ (-50 : ℤ)) (ht : 1 / 8 ≤ t) (ht3 : t ≤ 3.06) (hr : u ≤ r) (hQ0 : 0 ≤ Q)
    (hQe : Q * D = ζ) (hDl : (1 - u) * r ≤ D) (hζr : ζ ≤ r + u * t) (hAl : A ≤ 1.11 + 1.001 * u) (hA8 : A ≤ 8.1 * r)
    (h3 : |v - 1| ≤ r) (dv : |v - t| ≤ t * u) : (A ≤ 1.12 ∧ Q ≤ 1.01) ∨ (A ≤ 0.008 ∧ Q ≤ 2.01) := by
  have hu : u ≤ 0.0001 := hu2.trans (by norm_num)
  have hr0 : 0 < r := by linarith
  have hQl : Q * ((1 - u) * r) ≤ r + u * t := by
    refine le_trans ?_ hζr
    rw [← hQe]; gcongr
  rcases le_total (2 ^ (-10 : ℤ)) r with h | h
  · left
    refine ⟨by linarith, ?_⟩
    have e1 : u * t ≤ 0.001 * r := by
      calc u * t ≤ 2 ^ (-50 : ℤ) * 3.06 := by gcongr
        _ ≤ 0.001 * 2 ^ (-10 : ℤ) := by norm_num
        _ ≤ _ := by gcongr
    have e2 : Q * ((1 - u) * r) ≤ 1.001 * r := by linarith
    have e3 : Q * (1 - u) ≤ 1.001 := by
      refine le_of_mul_le_mul_right ?_ hr0
      rw [mul_assoc]; exact e2
    nlinarith
  · right
    norm_num at h
    refine ⟨by linarith, ?_⟩
    have h4 : v ≤ 1.001 := by
      have := (abs_le.1 h3).2; linarith
    have h5 : t ≤ 1.002 := by have := (abs_le.1 dv).1; nlinarith
    have e1 : u * t ≤ 1.002 * r := by
      calc u * t ≤ r * 1.002 := by gcongr
        _ = _ := by ring
    have e2 : Q * ((1 - u) * r) ≤ 2.002 * r := by linarith
    have e3 : Q * (1 - u) ≤ 2.002 := by
      refine le_of_mul_le_mul_right ?_ hr0
      rw [mul_assoc]; exact e2
    nlinarith

set_option maxHeartbeats 1000000 in
/-- rounding error of `log1p(complex)` where the logarithm is small -/
theorem clog1p_near (hφ : FmtB φ) (hx : -φ.emin - φ.p + 1 ≤ φ.emax - 2) (hL : CxLib φ L) {z : Cx (FP φ L)} {x y : ℚ}
    (vx : Val φ (ofF z.re) x) (vy : Val φ (ofF z.im) y) (h0 : 1 + cq x y ≠ 0) (hlog : ‖Complex.log (1 + cq x y)‖ ≤ 1.11) :
    CNear (clog1p z) (Complex.log (1 + cq x y)) (25 * uR φ) := by
  obtain ⟨hT1, hT2, hT3⟩ := log_small h0 hlog
  set T := 1 + cq x y with hTd
  have hTre : T.re = 1 + x := by rw [hTd]; simp [cq]
  have hTim : T.im = y := by rw [hTd]; simp [cq]
  have hTre3 : T.re ≤ 3.06 := (Complex.re_le_norm T).trans hT2
  have hu0 := uR_pos (φ := φ)
  have hu : uR φ ≤ 0.0001 := hφ.u_le.trans (by norm_num)
  have hτ := tau_le hφ
  have hτ0 := tauR_pos
  have hη := emin_le hφ
  have hη0 : (0:ℝ) < 2 ^ φ.emin := by positivity
  -- the rounded sum
  set v := rq φ (x + 1) with hv
  have dv := rq_add_errR vx.repr (val_oneB hφ).repr
  push_cast at dv
  rw [← hv, show (x:ℝ) + 1 = T.re by rw [hTre]; ring, abs_of_nonneg (show 0 ≤ T.re by linarith)] at dv
  have hcap : (4:ℝ) ≤ capR := by
    have : (2:ℝ) ^ (2:ℤ) ≤ capR := zpow_le_zpow_right₀ (by norm_num) (by norm_num)
    exact le_trans (by norm_num) this
  have hlt : |rq φ (x + 1)| < 2 ^ φ.emax := rq_lt_maxB hφ (by
    push_cast; rw [show (x:ℝ) + 1 = T.re by rw [hTre]; ring, abs_of_nonneg (by linarith)]; linarith)
  have vv : Val φ (ofF ((FOps.lit 1 : FP φ L) +. z).re) v := vx.add (val_oneB hφ) hlt
  have vy' : Val φ (ofF ((FOps.lit 1 : FP φ L) +. z).im) y := vy
  have hvpos : (0.12:ℝ) ≤ v := by have := (abs_le.1 dv).1; nlinarith
  have hvpos' : 0 < v := by have : (0:ℝ) < v := by linarith
                            exact_mod_cast this
  set V := cq v y with hVd
  have hVT : ‖V - T‖ ≤ uR φ * T.re := by
    have e : V - T = (((v:ℝ) - T.re : ℝ) : ℂ) := by apply Complex.ext <;> simp [hVd, cq, hTim]
    rw [e, Complex.norm_real, Real.norm_eq_abs]; linarith
  have hVre : V.re = v := rfl
  -- the tests
  have c1 : ((((FOps.lit 1 : FP φ L) +. z).re ==. (FOps.lit 1 : FP φ L)) && (((FOps.lit 1 : FP φ L) +. z).im ==. (FOps.lit 0 : FP φ L))) = decide (v = 1 ∧ y = 0) := by
    rw [eq_F, eq_F, ofF_lit, ofF_lit, vv.eq (val_oneB hφ), vy'.eq (val_zeroB hφ)]; simp
  have c2 : (((FOps.lit 1 : FP φ L) +. z).re <=. (FOps.lit 0 : FP φ L)) = false := by
    rw [le_F, ofF_lit, vv.le (val_zeroB hφ)]; simpa using hvpos'
  have hlT : ‖Complex.log T‖ ≤ 8.1 * ‖T - 1‖ := by
    have := log_lip (A := T) (B := 1) (m := 1 / 8) (by norm_num) hT3 (by norm_num)
    rw [Complex.log_one, sub_zero] at this
    refine this.trans ?_
    rw [div_le_iff₀ (by norm_num)]; nlinarith [norm_nonneg (T - 1)]
  have hT1' : T - 1 = cq x y := by rw [hTd]; ring
  have hx1 : v = 1 → |(x:ℝ)| ≤ 1.001 * uR φ ∧ T.re ≤ 1.001 := by
    intro h1
    rw [h1] at dv
    push_cast at dv
    have hle : T.re ≤ 1.001 := by have := (abs_le.1 dv).1; nlinarith
    refine ⟨?_, hle⟩
    rw [show (x:ℝ) = -(1 - T.re) by rw [hTre]; ring, abs_neg]
    refine dv.trans ?_
    nlinarith
  unfold clog1p
  dsimp only
  rw [c1]
  by_cases hz : v = 1 ∧ y = 0
  · rw [if_pos (by simpa using hz)]
    obtain ⟨hx2, -⟩ := hx1 hz.1
    refine ⟨x, y, vx, vy, ?_⟩
    have hζ : ‖cq x y‖ ≤ 1.001 * uR φ := by
      have : cq x y = ((x:ℝ) : ℂ) := by apply Complex.ext <;> simp [cq, hz.2]
      rw [this, Complex.norm_real]; exact hx2
    refine (norm_sub_le _ _).trans ?_
    rw [hT1'] at hlT
    linarith
  rw [if_neg (by simpa using hz), c2, if_neg (by simp)]
  -- the denominator
  have hdlt : |rq φ (v + -1)| < 2 ^ φ.emax := rq_lt_maxB hφ (by
    push_cast
    rw [abs_le]
    have := (abs_le.1 dv).2
    constructor <;> nlinarith)
  have vd : Val φ (ofF ((((FOps.lit 1 : FP φ L) +. z) -. (FOps.lit 1 : FP φ L) : Cx (FP φ L))).re) (rq φ (v + -1)) :=
    vv.add (val_oneB hφ).neg hdlt
  have vd' : Val φ (ofF ((((FOps.lit 1 : FP φ L) +. z) -. (FOps.lit 1 : FP φ L) : Cx (FP φ L))).im) y := vy
  have dd := rq_add_errR vv.repr ((val_oneB hφ).neg).repr
  push_cast at dd
  set d := rq φ (v + -1) with hdd
  have hζ3 : ‖cq x y‖ ≤ 4.06 := by
    rw [← hT1']; refine (norm_sub_le _ _).trans ?_
    rw [norm_one]; linarith
  have hcap2 : (8:ℝ) ≤ capR := big900.trans capR_ge
  have hζ900 : ‖cq x y‖ ≤ 2 ^ (900:ℤ) := (hζ3.trans (by norm_num)).trans big900
  by_cases hsm : v = 1 ∧ |(y:ℝ)| ≤ uR φ
  · -- tiny argument
    obtain ⟨hv1, hy⟩ := hsm
    have hy0 : y ≠ 0 := fun h => hz ⟨hv1, h⟩
    obtain ⟨hx2, -⟩ := hx1 hv1
    have hd0 : d = 0 := by rw [hdd, hv1]; norm_num; exact rq_zero
    rw [hd0] at vd
    have hy1 : (2:ℝ) ^ φ.emin ≤ |(y:ℝ)| := by
      obtain ⟨n, hn⟩ := repr_eta vy.repr
      have hn1 : 1 ≤ n := by
        rcases Nat.eq_zero_or_pos n with h | h
        · rw [h] at hn; simp at hn; exact absurd hn hy0
        · exact h
      have : (2:ℚ) ^ φ.emin ≤ |y| := by
        rw [hn]
        have : (1:ℚ) ≤ n := by exact_mod_cast hn1
        have h2 : (0:ℚ) < 2 ^ φ.emin := by positivity
        nlinarith
      have := (Rat.cast_le (K := ℝ)).2 this
      push_cast at this; exact this
    have hyp : 0 < |(y:ℝ)| := by positivity
    have hζ : ‖cq x y‖ ≤ 2 * uR φ := by
      rw [Complex.norm_eq_sqrt_sq_add_sq]
      apply Real.sqrt_le_iff.2
      refine ⟨by positivity, ?_⟩
      rw [cq_re, cq_im]
      have q1 : (x:ℝ) ^ 2 ≤ (1.001 * uR φ) ^ 2 := by rw [← sq_abs]; exact pow_le_pow_left₀ (abs_nonneg _) hx2 2
      have q2 : (y:ℝ) ^ 2 ≤ (uR φ) ^ 2 := by rw [← sq_abs]; exact pow_le_pow_left₀ (abs_nonneg _) hy 2
      nlinarith
    have vh := hL.hypot_one _ _ y (hv1 ▸ vv) vy' hy
    have vl := hL.log_one _ vh
    obtain ⟨t, vt, ht⟩ := hL.atan2 _ _ y v vy' vv (Or.inl hy0)
    have harg : |Complex.arg (cq v y)| ≤ |(y:ℝ)| := by
      have h6 := log_lip (A := cq v y) (B := 1) (m := 1) one_pos (by rw [cq_re, hv1]; simp) (by simp)
      rw [Complex.log_one, sub_zero, div_one] at h6
      have h7 := Complex.abs_im_le_norm (Complex.log (cq v y))
      rw [Complex.log_im] at h7
      have h8 : cq v y - 1 = ((y:ℝ):ℂ) * I := by rw [hv1]; apply Complex.ext <;> simp [cq]
      rw [h8, norm_mul, Complex.norm_I, Complex.norm_real, mul_one, Real.norm_eq_abs] at h6
      exact h7.trans h6
    have htb : |(t:ℝ)| ≤ 2.1 * |(y:ℝ)| := by
      have := abs_sub_abs_le_abs_sub (t:ℝ) (Complex.arg (cq v y))
      have h5 : 2 * uR φ * |Complex.arg (cq v y)| ≤ 0.0002 * |(y:ℝ)| := by
        calc _ ≤ 2 * 0.0001 * |(y:ℝ)| := by gcongr
          _ = _ := by ring
      linarith
    have hD : ‖cq 0 y‖ = |(y:ℝ)| := by
      have : cq 0 y = ((y:ℝ):ℂ) * I := by apply Complex.ext <;> simp [cq]
      rw [this, norm_mul, Complex.norm_I, Complex.norm_real, mul_one, Real.norm_eq_abs]
    have hQ : ‖cq x y / cq 0 y‖ = ‖cq x y‖ / |(y:ℝ)| := by rw [norm_div, hD]
    have hQmax : ‖cq x y / cq 0 y‖ ≤ 2 ^ (φ.emax - 2) := by
      rw [hQ, div_le_iff₀ hyp]
      refine hζ.trans (le_trans ?_ (mul_le_mul_of_nonneg_left hy1 (by positivity)))
      unfold uR
      rw [← zpow_add₀ (by norm_num), ← zpow_one_add₀ (by norm_num)]
      exact zpow_le_zpow_right₀ (by norm_num) (by omega)
    obtain ⟨e, f, ve, vf, hef⟩ := hL.cdiv _ _ _ _ x y 0 y vx vy vd vd' (by rw [← norm_ne_zero_iff, hD]; exact hyp.ne') hζ900 (Or.inr (Or.inl rfl)) hQmax
    have nl : CNear (xlog ((FOps.lit 1 : FP φ L) +. z)) (cq 0 t) 0 := ⟨0, t, vl, vt, by simp⟩
    have nq : CNear (z /. ((((FOps.lit 1 : FP φ L) +. z) -. (FOps.lit 1 : FP φ L)))) (cq x y / cq 0 y) (8 * uR φ * ‖cq x y / cq 0 y‖ + tauR) := ⟨e, f, ve, vf, hef⟩
    have hD' : ‖cq 0 t‖ = |(t:ℝ)| := by
      have : cq 0 t = ((t:ℝ):ℂ) * I := by apply Complex.ext <;> simp [cq]
      rw [this, norm_mul, Complex.norm_I, Complex.norm_real, mul_one, Real.norm_eq_abs]
    have hyu : |(y:ℝ)| ≤ 0.0001 := hy.trans hu
    have p1 : |(t:ℝ)| * (‖cq x y‖ / |(y:ℝ)|) ≤ 4.23 * uR φ := by
      calc _ ≤ 2.1 * |(y:ℝ)| * (2 * uR φ / |(y:ℝ)|) := by gcongr
        _ = 4.2 * uR φ := by field_simp; norm_num
        _ ≤ _ := by linarith
    have p2 : |(t:ℝ)| * (8 * uR φ * (‖cq x y‖ / |(y:ℝ)|) + tauR) ≤ 0.01 * uR φ := by
      have e1 : |(t:ℝ)| * (8 * uR φ * (‖cq x y‖ / |(y:ℝ)|) + tauR) = 8 * uR φ * (|(t:ℝ)| * (‖cq x y‖ / |(y:ℝ)|)) + |(t:ℝ)| * tauR := by ring
      rw [e1]
      have e2 : |(t:ℝ)| * tauR ≤ 2.1 * 0.0001 * (0.0001 * uR φ) := by
        have : |(t:ℝ)| ≤ 2.1 * 0.0001 := by linarith
        gcongr
      have e3 : 8 * uR φ * (|(t:ℝ)| * (‖cq x y‖ / |(y:ℝ)|)) ≤ 8 * 0.0001 * (4.23 * uR φ) := by gcongr
      linarith
    have hm := nl.mul hφ nq (by
      rw [hD', hQ, add_zero]
      have : |(t:ℝ)| * (‖cq x y‖ / |(y:ℝ)| + (8 * uR φ * (‖cq x y‖ / |(y:ℝ)|) + tauR)) ≤ 1 := by
        rw [mul_add]; linarith
      linarith)
    rw [hD', hQ, zero_mul, zero_mul, zero_add, add_zero, add_zero] at hm
    have hw : ‖cq 0 t * (cq x y / cq 0 y) - Complex.log T‖ ≤ 21 * uR φ := by
      refine (norm_sub_le _ _).trans ?_
      rw [norm_mul, hD', hQ]
      rw [hT1'] at hlT
      linarith
    refine (hm.shift hw).mono ?_
    have : 2.42 * uR φ * (|(t:ℝ)| * (‖cq x y‖ / |(y:ℝ)| + (8 * uR φ * (‖cq x y‖ / |(y:ℝ)|) + tauR))) ≤ 2.42 * uR φ * 0.001 := by
      refine mul_le_mul_of_nonneg_left ?_ (by positivity)
      rw [mul_add]; linarith
    rw [mul_comm] at p2
    linarith
  -- the general case
  have hr : uR φ ≤ ‖V - 1‖ := by
    by_cases h1 : v = 1
    · have h2 : uR φ < |(y:ℝ)| := by
        by_contra h; exact hsm ⟨h1, not_lt.1 h⟩
      have := Complex.abs_im_le_norm (V - 1)
      rw [Complex.sub_im, hVd, cq_im, Complex.one_im, sub_zero] at this
      linarith
    · have := gap_one vv.repr hvpos' h1 (by have := hφ.hp; omega)
      have h3 := Complex.abs_re_le_norm (V - 1)
      rw [Complex.sub_re, hVre, Complex.one_re] at h3
      linarith
  have hV1 : V ≠ 1 := by
    intro h; rw [h, sub_self, norm_zero] at hr; linarith
  obtain ⟨k1, k2, k3⟩ := corr_err hu0 hu hT3 hTre3 hVT hV1
  rw [hT1'] at k2
  have hu2 : uR φ ≤ 2 ^ (-50 : ℤ) := hφ.u_le.trans (by norm_num)
  have hr0 : 0 < ‖V - 1‖ := lt_of_lt_of_le hu0 hr
  have hV1' : V - 1 ≠ 0 := norm_pos_iff.1 hr0
  -- the rounded difference
  have hDV : ‖cq d y - (V - 1)‖ ≤ uR φ * ‖V - 1‖ := by
    have e : cq d y - (V - 1) = (((d:ℝ) - (v + -1) : ℝ) : ℂ) := by apply Complex.ext <;> simp [hVd, cq] <;> ring
    rw [e, Complex.norm_real, Real.norm_eq_abs]
    refine dd.trans ?_
    have h3 := Complex.abs_re_le_norm (V - 1)
    rw [Complex.sub_re, hVre, Complex.one_re, sub_eq_add_neg] at h3
    nlinarith
  set r := ‖V - 1‖ with hrd
  have hDl : (1 - uR φ) * r ≤ ‖cq d y‖ := by
    have := norm_sub_norm_le (V - 1) (cq d y)
    rw [← norm_neg (V - 1 - cq d y), neg_sub] at this
    linarith
  have hDu : ‖cq d y‖ ≤ (1 + uR φ) * r := by
    have := norm_sub_norm_le (cq d y) (V - 1)
    linarith
  have hD0 : 0 < ‖cq d y‖ := lt_of_lt_of_le (by nlinarith) hDl
  have hDne : cq d y ≠ 0 := norm_pos_iff.1 hD0
  have hζr : ‖cq x y‖ ≤ r + uR φ * T.re := by
    have := norm_sub_norm_le (cq x y) (V - 1)
    rw [← hT1', show T - 1 - (V - 1) = -(V - T) by ring, norm_neg] at this
    rw [← hT1']; linarith
  have hrb : r ≤ 4.07 := by
    have h9 : V - 1 = (T - 1) + (V - T) := by ring
    rw [hrd, h9]
    refine (norm_add_le _ _).trans ?_
    rw [hT1']; nlinarith
  set A := ‖Complex.log V‖ with hA
  set Q := ‖cq x y / cq d y‖ with hQd
  have hA0 : 0 ≤ A := norm_nonneg _
  have hQ0 : 0 ≤ Q := norm_nonneg _
  have hAQ : (A ≤ 1.12 ∧ Q ≤ 1.01) ∨ (A ≤ 0.008 ∧ Q ≤ 2.01) := by
    refine clog_ratio (D := ‖cq d y‖) (ζ := ‖cq x y‖) (v := v) hu0 hu2 hT3 hTre3 hr hQ0 ?_ hDl hζr ?_ k3 ?_ dv
    · rw [hQd, norm_div]; field_simp
    · have h3 := norm_sub_norm_le (Complex.log V) (Complex.log T)
      linarith
    · have h3 := Complex.abs_re_le_norm (V - 1)
      rwa [Complex.sub_re, hVre, Complex.one_re, ← hrd] at h3
  have hQ2 : Q ≤ 2.01 := by rcases hAQ with h | h <;> linarith
  have hA2 : A ≤ 1.12 := by rcases hAQ with h | h <;> linarith
  -- the logarithm
  have hVl : (0.12:ℝ) ≤ ‖V‖ := by
    have := Complex.re_le_norm V; rw [hVre] at this; linarith
  have hVu : ‖V‖ ≤ 6 := by
    have := norm_sub_norm_le V 1
    rw [norm_one] at this; linarith
  obtain ⟨-, g1, g2⟩ := log_near hφ hL (z := (FOps.lit 1 : FP φ L) +. z) vv vy' (n900.trans (le_trans (by norm_num) hVl)) ((hVu.trans (by norm_num)).trans big900) (Or.inr hvpos')
  have nl := CNear.of_re_im (z := xlog ((FOps.lit 1 : FP φ L) +. z)) g1 g2
  have eV : (⟨Real.log ‖cq v y‖, Complex.arg (cq v y)⟩ : ℂ) = Complex.log V := by apply Complex.ext <;> simp [Complex.log_re, Complex.log_im, hVd]
  rw [eV] at nl
  have b1 : |Real.log ‖cq v y‖| ≤ A := by
    have := Complex.abs_re_le_norm (Complex.log V); rwa [Complex.log_re] at this
  have b2 : |Complex.arg (cq v y)| ≤ A := by
    have := Complex.abs_im_le_norm (Complex.log V); rwa [Complex.log_im] at this
  have nl2 : CNear (xlog ((FOps.lit 1 : FP φ L) +. z)) (Complex.log V) (4 * uR φ * A + 2.03 * uR φ) := nl.mono (by
    have c1 : 2 * uR φ * |Real.log ‖cq v y‖| ≤ 2 * uR φ * A := by gcongr
    have c2 : 2 * uR φ * |Complex.arg (cq v y)| ≤ 2 * uR φ * A := by gcongr
    linarith)
  -- the quotient
  have hcd : (2:ℝ) ^ (-900 : ℤ) ≤ ‖cq d y‖ ∧ ‖cq d y‖ ≤ 2 ^ (900 : ℤ) := by
    constructor
    · refine n900.trans (le_trans ?_ hDl)
      have := hφ.le_u
      calc (2:ℝ) ^ (-120 : ℤ) ≤ 0.5 * 2 ^ (-113 : ℤ) := by norm_num
        _ ≤ 0.5 * uR φ := by gcongr
        _ ≤ (1 - uR φ) * r := by nlinarith
    · refine hDu.trans (le_trans ?_ big900)
      nlinarith
  have hemax : (8:ℝ) ≤ 2 ^ (φ.emax - 2) := by
    have : (2:ℝ) ^ (3:ℤ) ≤ 2 ^ (φ.emax - 2) := zpow_le_zpow_right₀ (by norm_num) (by have := hφ.hmax; omega)
    exact le_trans (by norm_num) this
  obtain ⟨e, f, ve, vf, hef⟩ := hL.cdiv _ _ _ _ x y d y vx vy vd vd' hDne hζ900 (Or.inl hcd) (by linarith)
  rw [← hQd] at hef
  have nq : CNear (z /. ((((FOps.lit 1 : FP φ L) +. z) -. (FOps.lit 1 : FP φ L)))) (cq x y / cq d y) (8 * uR φ * Q + tauR) := ⟨e, f, ve, vf, hef⟩
  have hcap3 : (200:ℝ) ≤ capR := by
    have : (2:ℝ) ^ (8:ℤ) ≤ capR := zpow_le_zpow_right₀ (by norm_num) (by norm_num)
    exact le_trans (by norm_num) this
  obtain ⟨E1, E2⟩ := clog_num hu0 hu hτ0 hτ hA0 hQ0 hAQ
  have hm := nl2.mul hφ nq (by rw [← hQd, ← hA]; exact E1.trans hcap3)
  rw [← hQd, ← hA] at hm
  have hw : ‖Complex.log V * (cq x y / cq d y) - Complex.log T‖ ≤ uR φ * (A * Q) + 4.1 * uR φ := by
    have e1 : Complex.log V * (cq x y / cq d y) - Complex.log T
        = Complex.log V * ((cq x y / cq d y) * (-(cq d y - (V - 1)) / (V - 1))) + (Complex.log V * (cq x y / (V - 1)) - Complex.log T) := by
      field_simp; ring
    rw [e1]
    refine (norm_add_le _ _).trans (add_le_add ?_ k2)
    rw [norm_mul, norm_mul, norm_div (-(cq d y - (V - 1))), norm_neg, ← hQd, ← hA, ← hrd]
    have : ‖cq d y - (V - 1)‖ / r ≤ uR φ := by rw [div_le_iff₀ hr0]; exact hDV
    calc A * (Q * (‖cq d y - (V - 1)‖ / r)) ≤ A * (Q * uR φ) := by gcongr
      _ = _ := by ring
  exact (hm.shift hw).mono E2

end Polylog
