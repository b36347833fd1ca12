import Verif.Props.LiNegRec
import Verif.Props.LiUB
import Mathlib.Analysis.Calculus.Deriv.Star

/-!
# C21: where the tables of `Li_unity_neg` end

For orders below about `-80` the expansion about 1 needs more terms near `z = -1` than the tables of `zeta(n-k)` and `1/k!` hold.
-/

namespace Polylog
open Finset

/-! ### IEEE arithmetic: which partial sums can be returned -/
section
variable {φ : Fmt} {L : Lib}

/-- in IEEE arithmetic the loop of `Li_unity_neg` returns a partial sum that uses only `zeta(n-k)` with `n - k ≥ -259` -/
theorem unityNegLoop_range (n : Int) (hn1 : i64min + 8 < n) (hn2 : n < 0) (lnz2 : Cx (FP φ L)) (k0 : Int) (h0 : k0 = 1 ∨ k0 = 2) (ho : (n - k0) % 2 = 1)
    (s : Cx (FP φ L) × Cx (FP φ L)) : ∀ (fuel m : ℕ) (v : Cx (FP φ L)), (m = 0 ∨ -261 ≤ n - (k0 + 2 * m)) →
    liUnityNegLoop n lnz2 fuel (k0 + 2 * m) (unityNegTrace n lnz2 k0 s m).1 (unityNegTrace n lnz2 k0 s m).2 = .ok v →
    ∃ i : ℕ, (i = 0 ∨ -261 ≤ n - (k0 + 2 * i)) ∧ v = (unityNegTrace n lnz2 k0 s i).1 := by
  simp only [i64min] at hn1
  intro fuel
  induction fuel with
  | zero => intro m v _ h; cases h
  | succ f ih =>
    intro m v hm h
    rcases le_or_gt (n - (k0 + 2 * (m:ℤ))) (-261) with hc | hc
    · rw [unityNeg_exit n lnz2 f _ _ _ (by omega) hc (by simp only [i64min]; omega)] at h
      cases h
      exact ⟨m, hm, rfl⟩
    unfold liUnityNegLoop at h
    cases h1 : i64sub n (k0 + 2 * (m:ℤ)) with
    | error e => rw [h1] at h; cases h
    | ok a =>
      have ha : a = n - (k0 + 2 * (m:ℤ)) := i64_val h1
      rw [bind_def h1] at h
      cases h2 : (zeta a : M (FP φ L)) with
      | error e => rw [h2] at h; cases h
      | ok zt =>
        have hz : zt = zetaV (FP φ L) a := by unfold zetaV; rw [h2]
        rw [bind_def h2, bind_def (invFac_ifacV _)] at h
        dsimp only at h
        rw [hz, ha] at h
        split at h
        · cases h; exact ⟨m, hm, rfl⟩
        · cases h3 : i64add (k0 + 2 * (m:ℤ)) 2 with
          | error e => rw [h3] at h; cases h
          | ok b =>
            have hb : b = k0 + 2 * ((m + 1 : ℕ):ℤ) := by rw [i64_val h3]; push_cast; ring
            rw [bind_def h3, hb] at h
            split at h
            · exact ih (m + 1) v (by right; push_cast; omega) h
            · cases h; exact ⟨m + 1, by right; push_cast; omega, rfl⟩

end

noncomputable section
variable {S : RealSem} {u : ℝ}

theorem pLiNeg_conj (N : ℕ) : ∀ z : ℂ, pLiNeg N (starRingEnd ℂ z) = starRingEnd ℂ (pLiNeg N z) := by
  induction N with
  | zero => intro z; simp [pLiNeg]
  | succ N ih =>
    intro z
    have e : pLiNeg N = (starRingEnd ℂ) ∘ pLiNeg N ∘ (starRingEnd ℂ) := by
      funext w; simp [ih]
    rw [pLiNeg, pLiNeg, map_mul]
    congr 1
    conv_lhs => rw [e, deriv_conj_conj]
    simp

theorem pLiNeg_real (N : ℕ) (x : ℝ) : (pLiNeg N (x : ℂ)).im = 0 := by
  have h := pLiNeg_conj N (x : ℂ)
  rw [Complex.conj_ofReal] at h
  have := congrArg Complex.im h
  rw [Complex.conj_im] at this
  linarith

/-- the argument at which order `-169` fails: `-exp(PI tan(π/340))`, close to `-1.03` -/
def badZ (S : RealSem) : ℂ := -((Real.exp (((S.rho 3.1415926535897932 : ℚ) : ℝ) * Real.tan (Real.pi / 340)) : ℝ) : ℂ)

theorem tan_small : 0 < Real.tan (Real.pi / 340) ∧ Real.tan (Real.pi / 340) ≤ 0.00925 := by
  have hp := Real.pi_gt_d4
  have hp2 := Real.pi_lt_d4
  refine ⟨Real.tan_pos_of_pos_of_lt_pi_div_two (by positivity) (by linarith), ?_⟩
  rw [Real.tan_eq_sin_div_cos]
  have h1 : Real.sin (Real.pi / 340) ≤ Real.pi / 340 := Real.sin_le (by positivity)
  have h2 := Real.one_sub_sq_div_two_le_cos (x := Real.pi / 340)
  have h3 : (0.9999:ℝ) ≤ Real.cos (Real.pi / 340) := by nlinarith
  rw [div_le_iff₀ (by linarith)]
  norm_num at *
  linarith

/-- `(1 + i tan(π/340))^170` is imaginary -/
theorem bad_pow : (1 + (Real.tan (Real.pi / 340) : ℂ) * Complex.I) ^ 170 = ((1 / Real.cos (Real.pi / 340) ^ 170 : ℝ) : ℂ) * Complex.I := by
  have hp := Real.pi_pos
  have hc : 0 < Real.cos (Real.pi / 340) := Real.cos_pos_of_mem_Ioo ⟨by linarith, by linarith⟩
  have hc' : (Real.cos (Real.pi / 340) : ℂ) ≠ 0 := by exact_mod_cast hc.ne'
  have e : (1 + (Real.tan (Real.pi / 340) : ℂ) * Complex.I) = Complex.exp ((Real.pi / 340 : ℝ) * Complex.I) / (Real.cos (Real.pi / 340) : ℂ) := by
    rw [Real.tan_eq_sin_div_cos, Complex.exp_mul_I, ← Complex.ofReal_cos, ← Complex.ofReal_sin]
    rw [Complex.ofReal_div, eq_div_iff hc', add_mul, mul_right_comm, div_mul_cancel₀ _ hc', one_mul]
  rw [e, div_pow, ← Complex.exp_nat_mul]
  have e2 : ((170:ℕ):ℂ) * (((Real.pi / 340 : ℝ) : ℂ) * Complex.I) = (Real.pi / 2) * Complex.I := by push_cast; ring
  rw [e2, Complex.exp_mul_I, Complex.cos_pi_div_two, Complex.sin_pi_div_two]
  push_cast; ring

theorem ccn_norm_le (hS : S.Lit u) (hu6 : u ≤ 1e-6) (N k : ℕ) (hN : 1 ≤ N) (h1 : N + k ≤ 260) (h2 : k < 178) :
    ‖(ccn S N k : ℂ)‖ ≤ 1.01 * ‖zcoef (-N) k‖ := by
  by_cases hev : (N + k) % 2 = 1
  swap
  · rw [ccn, if_neg hev, Complex.ofReal_zero, norm_zero]; positivity
  have he := ccn_err hS hu6 N k hN (by omega) h2
  have h3 := norm_le_norm_add_norm_sub' (ccn S N k : ℂ) (zcoef (-N) k)
  have h4 : (1.2e-16 + 2.1 * u) * ‖zcoef (-N) k‖ ≤ 0.01 * ‖zcoef (-N) k‖ :=
    mul_le_mul_of_nonneg_right (by norm_num at hu6 ⊢; linarith) (norm_nonneg _)
  linarith

theorem inv_norm_pow_le {w : ℂ} {r : ℝ} (h0 : w ≠ 0) (h : ‖w‖ ≤ r) (q : ℕ) (hr : ((-w)⁻¹ ^ q).re = 0) : 1 / r ^ q ≤ |((-w)⁻¹ ^ q).im| := by
  have e : ‖(-w)⁻¹ ^ q‖ = |((-w)⁻¹ ^ q).im| := by
    rw [← Real.sqrt_sq_eq_abs, Complex.norm_eq_sqrt_sq_add_sq, hr]; congr 1; ring
  rw [← e, norm_pow, norm_inv, norm_neg, inv_pow, ← one_div]
  exact one_div_le_one_div_of_le (pow_pos (norm_pos_iff.mpr h0) _) (pow_le_pow_left₀ (norm_nonneg _) h _)

theorem num_rest : (1.01 * (3.1418 / 2.193) ^ 92) * (6.2832 / 4.09 ^ 170) ≤ (0.01 / 3.1418 ^ 170 : ℝ) := by norm_num
theorem num_size : (1 / 3.1413 ^ 170 + 6.2832 / 3.1412 ^ 170 : ℝ) ≤ 7.4 / 3.1413 ^ 170 := by norm_num
theorem num_final : (7.4 / 3.1413 ^ 170 / 10 : ℝ) < 0.99 / 3.1418 ^ 170 := by norm_num

set_option maxHeartbeats 1000000 in
theorem bad_core (hS : S.Lit u) (hu6 : u ≤ 1e-6) (N : ℕ) (hN : N = 169) (q : ℕ) (hq : q = 170) (hNq : N + 1 = q)
    (n1 : (1.01 * (3.1418 / 2.193) ^ 92) * (6.2832 / 4.09 ^ q) ≤ (0.01 / 3.1418 ^ q : ℝ))
    (n2 : (1 / 3.1413 ^ q + 6.2832 / 3.1412 ^ q : ℝ) ≤ 7.4 / 3.1413 ^ q)
    (n3 : (7.4 / 3.1413 ^ q / 10 : ℝ) < 0.99 / 3.1418 ^ q) :
    (∀ fuel, Li fuel (-(N:ℤ)) (ofC S (badZ S)) = liUnityNeg (-(N:ℤ)) (ofC S (badZ S))) ∧
    ∃ s, liUnityNegHead (-(N:ℤ)) (ofC S (badZ S)) = .ok s ∧ ∀ m : ℕ, (m = 0 ∨ -261 ≤ -(N:ℤ) - (s.2.2 + 2 * m)) →
      ‖pLiNeg N (badZ S)‖ / 10 < ‖(unityNegTrace (-(N:ℤ)) (clog (ofC S (badZ S)) *. clog (ofC S (badZ S))) s.2.2 (s.1, s.2.1) m).1.toC - pLiNeg N (badZ S)‖ := by
  have hu := hS.u_nonneg
  obtain ⟨p1, p2, _, _⟩ := neg_lits hS hu6
  obtain ⟨t0, t1⟩ := tan_small
  have hbp : (1 + (Real.tan (Real.pi / 340) : ℂ) * Complex.I) ^ q = ((1 / Real.cos (Real.pi / 340) ^ q : ℝ) : ℂ) * Complex.I := by rw [hq]; exact bad_pow
  have hpi := Real.pi_gt_d4
  have hpi2 := Real.pi_lt_d4
  have hC0 : 0 < Real.cos (Real.pi / 340) := Real.cos_pos_of_mem_Ioo ⟨by linarith, by linarith⟩
  have hC1 : Real.cos (Real.pi / 340) ≤ 1 := Real.cos_le_one _
  set z := badZ S with hz
  set P := ((S.rho 3.1415926535897932 : ℚ) : ℝ) with hP
  set t := Real.tan (Real.pi / 340) with ht
  have hzr : z = ((-Real.exp (P * t) : ℝ) : ℂ) := by rw [hz, badZ, ← hP, ← ht]; push_cast; rfl
  have ha : 0 < P * t := by positivity
  have ha2 : P * t ≤ 0.0291 := (mul_le_mul p2 t1 t0.le (by norm_num)).trans (by norm_num)
  have hzn : ‖z‖ = Real.exp (P * t) := by rw [hzr, Complex.norm_real, Real.norm_eq_abs, abs_neg, abs_of_pos (Real.exp_pos _)]
  have hz1 : 1 < ‖z‖ := by rw [hzn]; exact Real.one_lt_exp_iff.mpr ha
  have h0 : z ≠ 0 := fun h => by rw [h, norm_zero] at hz1; linarith
  have h1 : z ≠ 1 := fun h => by rw [h, norm_one] at hz1; linarith
  have h2 : z ≠ -1 := fun h => by rw [h, norm_neg, norm_one] at hz1; linarith
  have hr : Regular (ofC S z) := regular_R hS _ (by rwa [toC_ofC]) (by rwa [toC_ofC]) (by rwa [toC_ofC])
  have hU : negUnity (ofC S z) = true := negUnity_of_log hS hu6 h0 (by rw [hzn, Real.log_exp, abs_of_pos ha]; linarith)
  have hSer : negSeries (ofC S z) = false := by
    by_contra hc
    have := negSeries_small hS hu6 h0 (by simpa using hc)
    linarith
  refine ⟨fun fuel => Li_neg_unity fuel (-(N:ℤ)) (by omega) _ hr hSer hU, ?_⟩
  -- the computed logarithm
  have hL : (clog (ofC S z)).toC = (P : ℂ) * ((t : ℂ) + Complex.I) := by
    have hL := C07_clog hS (ofC S z) (by rwa [toC_ofC])
    rw [toC_ofC] at hL
    rw [hL, if_pos ⟨by rw [hzr, Complex.ofReal_im], by rw [hzr, Complex.ofReal_re]; linarith [Real.exp_pos (P * t)]⟩]
    have e : |z.re| = Real.exp (P * t) := by rw [hzr, Complex.ofReal_re, abs_neg, abs_of_pos (Real.exp_pos _)]
    rw [e, Real.log_exp]
    apply Complex.ext <;> simp [hP]
  set Lc := (clog (ofC S z)).toC with hLc
  have hti : ‖(t : ℂ) + Complex.I‖ ^ 2 = t ^ 2 + 1 := by
    rw [← Complex.normSq_eq_norm_sq, Complex.normSq_apply]; simp; ring
  have hLn : ‖Lc‖ ^ 2 = P ^ 2 * (t ^ 2 + 1) := by
    rw [hL, norm_mul, mul_pow, hti, Complex.norm_real, Real.norm_eq_abs, sq_abs]
  have hLle : ‖Lc‖ ≤ 3.1418 := by
    refine abs_le_of_sq_le_sq' ?_ (by norm_num) |>.2
    rw [hLn]; nlinarith
  have hL0 : Lc ≠ 0 := by
    intro h
    rw [h, norm_zero] at hLn
    have : 0 < P ^ 2 * (t ^ 2 + 1) := by positivity
    nlinarith
  obtain ⟨s, hs, hs1, hs2, hs3⟩ := negHead_R hS N (by simp only [i64min]; omega) (ofC S z) hL0
  refine ⟨s, hs, fun m hm => ?_⟩
  rw [hs1] at hm ⊢
  have hk0 : negK0 N = 2 := by rw [hN]; rfl
  have hm' : m ≤ 45 := by rw [hk0] at hm; push_cast at hm; omega
  have htr := (negTrace_R N (ofC S z) (s.1, s.2.1) _ hs3 hs2 m).1
  rw [← hLc] at htr
  set T := (unityNegTrace (-(N:ℤ)) (clog (ofC S z) *. clog (ofC S z)) (negK0 N : ℤ) (s.1, s.2.1) m).1.toC with hT
  have htr' : T = (N.factorial : ℂ) * (-Lc)⁻¹ ^ q + ∑ k ∈ range (2 + 2 * m), (ccn S N k : ℂ) * Lc ^ k := by rw [hk0, hNq] at htr; exact htr
  obtain ⟨f, hf⟩ : ∃ f, N.factorial = f := ⟨_, rfl⟩
  rw [hf] at htr'
  have hf0 : (0:ℝ) < f := by rw [← hf]; exact_mod_cast Nat.factorial_pos N
  -- the first term is imaginary
  have hfirst : ((-Lc)⁻¹ ^ q).re = 0 := by
    have e1 : (-Lc) ^ q = (((P ^ q * (1 / Real.cos (Real.pi / 340) ^ q) : ℝ)) : ℂ) * Complex.I := by
      have e2 : (1 - (t : ℂ) * Complex.I) ^ q = -(((1 / Real.cos (Real.pi / 340) ^ q : ℝ) : ℂ) * Complex.I) := by
        have := congrArg (starRingEnd ℂ) hbp
        rw [map_pow, map_add, map_mul, map_mul, Complex.conj_I, Complex.conj_ofReal, Complex.conj_ofReal, map_one] at this
        rw [← mul_neg, ← this]; ring
      have e3 : -Lc = -(P : ℂ) * (Complex.I * (1 - (t : ℂ) * Complex.I)) := by
        rw [hL]; linear_combination (-(P : ℂ) * t) * Complex.I_mul_I
      have e4 : (Complex.I : ℂ) ^ q = -1 := by
        rw [hq, show 170 = 4 * 42 + 2 by norm_num, pow_add, pow_mul, Complex.I_pow_four, one_pow, Complex.I_sq, one_mul]
      rw [e3, mul_pow, mul_pow, e2, e4, Even.neg_pow ⟨85, by omega⟩]
      push_cast; ring
    rw [inv_pow, e1, mul_inv, Complex.inv_I, ← Complex.ofReal_inv, Complex.re_ofReal_mul, Complex.neg_re, Complex.I_re, neg_zero, mul_zero]
  have hfn : 1 / 3.1418 ^ q ≤ |((-Lc)⁻¹ ^ q).im| := by
    exact inv_norm_pow_le hL0 hLle q hfirst
  -- the other terms of the tables are small
  have hrest : ‖∑ k ∈ range (2 + 2 * m), (ccn S N k : ℂ) * Lc ^ k‖ ≤ f * (0.01 / 3.1418 ^ q) := by
    have hch := zcoef_neg_abs_sum N (2 + 2 * m) (r := 2.193) (by norm_num) (by linarith)
    rw [hf, hNq] at hch
    have b1 : ∀ k ∈ range (2 + 2 * m), ‖(ccn S N k : ℂ) * Lc ^ k‖ ≤ (1.01 * (3.1418 / 2.193) ^ 92) * (‖zcoef (-N) k‖ * 2.193 ^ k) := by
      intro k hk
      rw [mem_range] at hk
      have hk1 : k ≤ 91 := by omega
      have hn : ‖(ccn S N k : ℂ)‖ ≤ 1.01 * ‖zcoef (-N) k‖ := by
        exact ccn_norm_le hS hu6 N k (by omega) (by omega) (by omega)
      rw [norm_mul, norm_pow]
      have h6 : ‖Lc‖ ^ k ≤ (3.1418 / 2.193) ^ 92 * 2.193 ^ k := by
        calc ‖Lc‖ ^ k ≤ 3.1418 ^ k := pow_le_pow_left₀ (norm_nonneg _) hLle k
          _ = (3.1418 / 2.193) ^ k * 2.193 ^ k := by rw [← mul_pow]; norm_num
          _ ≤ _ := mul_le_mul_of_nonneg_right (pow_le_pow_right₀ (by norm_num) (by omega)) (by positivity)
      calc ‖(ccn S N k : ℂ)‖ * ‖Lc‖ ^ k ≤ (1.01 * ‖zcoef (-N) k‖) * ((3.1418 / 2.193) ^ 92 * 2.193 ^ k) :=
            mul_le_mul hn h6 (by positivity) (by positivity)
        _ = _ := by ring
    refine (norm_sum_le _ _).trans ((sum_le_sum b1).trans ?_)
    rw [← mul_sum]
    have b2 : 2 * Real.pi * (f:ℝ) / (2 * Real.pi - 2.193) ^ q ≤ f * (6.2832 / 4.09 ^ q) := by
      rw [mul_comm (2 * Real.pi), mul_div_assoc]
      refine mul_le_mul_of_nonneg_left ?_ hf0.le
      exact div_le_div₀ (by norm_num) (by linarith) (by positivity) (pow_le_pow_left₀ (by norm_num) (by linarith) _)
    calc _ ≤ (1.01 * (3.1418 / 2.193) ^ 92) * ((f:ℝ) * (6.2832 / 4.09 ^ q)) := mul_le_mul_of_nonneg_left (hch.trans b2) (by positivity)
      _ = (f:ℝ) * ((1.01 * (3.1418 / 2.193) ^ 92) * (6.2832 / 4.09 ^ q)) := by ring
      _ ≤ _ := mul_le_mul_of_nonneg_left n1 hf0.le
  -- the size of the true value
  have hsize : ‖pLiNeg N z‖ ≤ f * (7.4 / 3.1413 ^ q) := by
    have e : z = Complex.exp (((P * t : ℝ) : ℂ) + Real.pi * Complex.I) := by
      rw [Complex.exp_add, Complex.exp_pi_mul_I, hzr]; push_cast; ring
    set μ : ℂ := ((P * t : ℝ) : ℂ) + Real.pi * Complex.I with hμ
    have hμ2 : ‖μ‖ ^ 2 = (P * t) ^ 2 + Real.pi ^ 2 := by
      rw [← Complex.normSq_eq_norm_sq, Complex.normSq_apply, hμ]; simp; ring
    have hμ1 : Real.pi ≤ ‖μ‖ := by
      refine abs_le_of_sq_le_sq' ?_ (norm_nonneg _) |>.2
      rw [hμ2]; linarith [sq_nonneg (P * t)]
    have hμ3 : ‖μ‖ ≤ 3.1418 := by
      refine abs_le_of_sq_le_sq' ?_ (by norm_num) |>.2
      have g1 : (P * t) ^ 2 ≤ 0.0291 ^ 2 := pow_le_pow_left₀ ha.le ha2 2
      have g2 : Real.pi ^ 2 ≤ 3.1416 ^ 2 := pow_le_pow_left₀ Real.pi_pos.le hpi2.le 2
      rw [hμ2]; exact (add_le_add g1 g2).trans (by norm_num)
    have hμ0 : μ ≠ 0 := fun h => by rw [h, norm_zero] at hμ1; linarith
    have := pLiNeg_exp_le N hμ0 (by linarith)
    rw [hf, hNq] at this
    rw [e]
    refine this.trans (mul_le_mul_of_nonneg_left ?_ hf0.le)
    have c1 : 1 / ‖μ‖ ^ q ≤ 1 / 3.1413 ^ q := one_div_le_one_div_of_le (by positivity) (pow_le_pow_left₀ (by norm_num) (by linarith) _)
    have c2 : 2 * Real.pi / (2 * Real.pi - ‖μ‖) ^ q ≤ 6.2832 / 3.1412 ^ q :=
      div_le_div₀ (by norm_num) (by linarith) (by positivity) (pow_le_pow_left₀ (by norm_num) (by linarith) _)
    refine (add_le_add c1 c2).trans n2
  -- the true value is real
  have him : (pLiNeg N z).im = 0 := by rw [hzr]; exact pLiNeg_real N _
  have hbig : f * (0.99 / 3.1418 ^ q) ≤ ‖T - pLiNeg N z‖ := by
    refine le_trans ?_ (Complex.abs_im_le_norm _)
    rw [Complex.sub_im, him, sub_zero, htr', Complex.add_im]
    have h3 := Complex.abs_im_le_norm (∑ k ∈ range (2 + 2 * m), (ccn S N k : ℂ) * Lc ^ k)
    have h4 : |((f : ℂ) * (-Lc)⁻¹ ^ q).im| = f * |((-Lc)⁻¹ ^ q).im| := by
      rw [← Complex.ofReal_natCast, Complex.im_ofReal_mul, abs_mul, abs_of_pos hf0]
    have h5 := abs_sub_abs_le_abs_sub ((f : ℂ) * (-Lc)⁻¹ ^ q).im (-(∑ k ∈ range (2 + 2 * m), (ccn S N k : ℂ) * Lc ^ k).im)
    rw [abs_neg, sub_neg_eq_add, h4] at h5
    have h6 := mul_le_mul_of_nonneg_left hfn hf0.le
    have h7 : (f:ℝ) * (0.99 / 3.1418 ^ q) = f * (1 / 3.1418 ^ q) - f * (0.01 / 3.1418 ^ q) := by ring
    linarith
  refine lt_of_lt_of_le ?_ hbig
  have h8 : (f:ℝ) * (7.4 / 3.1413 ^ q) / 10 < f * (0.99 / 3.1418 ^ q) := by
    rw [mul_div_assoc]
    exact mul_lt_mul_of_pos_left n3 hf0
  linarith

/-- **C21 (limit of the tables).**  Order `-169`, exact elementary operations: at `z = -exp(PI tan(π/340))` (about `-1.03`) the code
takes the expansion about 1, and *every* partial sum that stays within the tables of `zeta` (these are the only ones IEEE arithmetic can return,
`unityNegLoop_range`) differs from `Li_{-169}(z)` by more than 10 % of its value. -/
theorem C21_tables_exhausted (hS : S.Lit u) (hu6 : u ≤ 1e-6) :
    (∀ fuel, Li fuel (-169) (ofC S (badZ S)) = liUnityNeg (-169) (ofC S (badZ S))) ∧
    ∃ s, liUnityNegHead (-169) (ofC S (badZ S)) = .ok s ∧ ∀ m : ℕ, (m = 0 ∨ -261 ≤ -169 - (s.2.2 + 2 * m)) →
      ‖pLiNeg 169 (badZ S)‖ / 10 < ‖(unityNegTrace (-169) (clog (ofC S (badZ S)) *. clog (ofC S (badZ S))) s.2.2 (s.1, s.2.1) m).1.toC - pLiNeg 169 (badZ S)‖ := by
  exact bad_core hS hu6 169 rfl 170 rfl rfl num_rest num_size num_final

/-! ### termination for every order -/

/-- over the reals the loop of `Li_unity_neg` ends, at the latest when `1/k!` is taken as zero -/
theorem defined_unityNegLoop_R (hS : S.Lit u) (n : Int) (hn1 : i64min + 200 < n) (hn2 : n < 0) (lnz2 : Cx (R S)) :
    ∀ (fuel : ℕ) (k : Int) (sum lnzk : Cx (R S)), 1 ≤ k → k ≤ 179 → 180 - k ≤ 2 * fuel → 1 ≤ fuel → Defined (liUnityNegLoop n lnz2 fuel k sum lnzk) := by
  simp only [i64min] at hn1
  intro fuel
  induction fuel with
  | zero => intro k sum lnzk _ _ _ h; omega
  | succ m ih =>
    intro k sum lnzk hk hk2 hf _
    push_cast at hf
    unfold liUnityNegLoop
    rw [bind_def (i64sub_ok (by simp only [i64min, i64max]; omega))]
    refine defined_bind (defined_zeta _ (by simp only [i64min]; omega) (by simp only [i64max]; omega)) fun zt _ => ?_
    rw [bind_def (invFac_ifacV k)]
    dsimp only
    refine defined_ite (fun _ => defined_pure _) fun _ => ?_
    rw [bind_def (i64add_ok (by simp only [i64min, i64max]; omega))]
    rcases lt_or_ge k 178 with h | h
    · exact defined_ite (fun _ => ih _ _ _ (by omega) (by omega) (by omega) (by omega)) fun _ => defined_pure _
    · obtain ⟨K, rfl⟩ : ∃ K : ℕ, k = K := ⟨k.toNat, by omega⟩
      have h0 : (sum +. zt *. ifacV (R S) (K:ℤ) *. lnzk).toC = sum.toC := by
        rw [toC_add, toC_rmul, ofR_mul, ifacR_V, ifacR_big hS K (by omega)]; simp
      rw [if_neg (by rw [Cx.bne, beq_R, h0]; simp)]
      exact defined_pure _

theorem defined_liUnityNeg_R (hS : S.Lit u) (n : Int) (hn1 : i64min + 200 < n) (hn2 : n < 0) (z : Cx (R S)) : Defined (liUnityNeg n z) := by
  simp only [i64min] at hn1
  unfold liUnityNeg
  dsimp only
  rw [bind_def (i64sub_ok (by simp only [i64min, i64max]; omega))]
  refine defined_bind (defined_stablePow _ _ (by simp only [i64min]; omega) (by simp only [i64max]; omega)) fun sp _ => ?_
  rw [bind_def (i64sub_ok (by simp only [i64min, i64max]; omega))]
  obtain ⟨F, hF⟩ : ∃ F : ℕ, F = 2 ^ 62 := ⟨_, rfl⟩
  rw [← hF]
  have hF2 : 200 ≤ F := by rw [hF]; norm_num
  clear hF
  cases he : isEven n
  · simp only [Bool.false_eq_true, if_false]
    refine defined_bind (defined_zeta _ (by simp only [i64min]; omega) (by simp only [i64max]; omega)) fun zn _ => ?_
    exact defined_unityNegLoop_R hS n (by simp only [i64min]; omega) hn2 _ _ _ _ _ (by omega) (by omega) (by omega) (by omega)
  · simp only [if_true]
    exact defined_unityNegLoop_R hS n (by simp only [i64min]; omega) hn2 _ _ _ _ _ (by omega) (by omega) (by omega) (by omega)

/-- **C21 (recursion depth, every order).**  For every order `n < -1` (not within 200 of `INT64_MIN`) and every `z ≠ 0, ±1` with
`|log|z|| ≤ 0.69·2^d` the recursion `Li(n,z) = 2^(n-1)(Li(n,√z) + Li(n,-√z))` reaches the base cases within depth `d`. -/
theorem C21_depth (hS : S.Lit u) (hu6 : u ≤ 1e-6) (n : Int) (hn1 : i64min + 200 < n) (hn2 : n < -1) (d : ℕ) : ∀ (fuel : ℕ) (z : ℂ), d ≤ fuel →
    z ≠ 0 → z ≠ 1 → z ≠ -1 → |Real.log ‖z‖| ≤ 0.69 * 2 ^ d → Defined (Li fuel n (ofC S z)) := by
  have hn1' := hn1
  simp only [i64min] at hn1'
  have leaf : ∀ (fuel : ℕ) (z : ℂ), z ≠ 0 → z ≠ 1 → z ≠ -1 → (negSeries (ofC S z) = true ∨ negUnity (ofC S z) = true) → Defined (Li fuel n (ofC S z)) := by
    intro fuel z h0 h1 h2 h
    have hr : Regular (ofC S z) := regular_R hS _ (by rwa [toC_ofC]) (by rwa [toC_ofC]) (by rwa [toC_ofC])
    by_cases hs : negSeries (ofC S z) = true
    · exact ⟨_, Li_neg_series fuel _ hn2 _ hr hs⟩
    · rw [Li_neg_unity fuel _ hn2 _ hr (by simpa using hs) (h.resolve_left hs)]
      exact defined_liUnityNeg_R hS n hn1 (by omega) _
  induction d with
  | zero =>
    intro fuel z _ h0 h1 h2 hl
    exact leaf fuel z h0 h1 h2 (.inr (negUnity_of_log hS hu6 h0 (by simpa using hl)))
  | succ d ih =>
    intro fuel z hf h0 h1 h2 hl
    by_cases hb : negSeries (ofC S z) = true ∨ negUnity (ofC S z) = true
    · exact leaf fuel z h0 h1 h2 hb
    push Not at hb
    obtain ⟨f, rfl⟩ : ∃ f, fuel = f + 1 := ⟨fuel - 1, by omega⟩
    have hr : Regular (ofC S z) := regular_R hS _ (by rwa [toC_ofC]) (by rwa [toC_ofC]) (by rwa [toC_ofC])
    rw [Li_neg_rec f _ hn2 _ hr (by simpa using hb.1) (by simpa using hb.2)]
    set w : ℂ := z ^ (1 / 2 : ℂ) with hw
    have hww : w ^ 2 = z := by rw [hw, ← Complex.cpow_nat_mul]; norm_num
    have hw0 : w ≠ 0 := fun h => h0 (by rw [← hww, h]; simp)
    have hw1 : w ≠ 1 := fun h => h1 (by rw [← hww, h]; simp)
    have hw2 : w ≠ -1 := fun h => h1 (by rw [← hww, h]; simp)
    have hlog : Real.log ‖w‖ = Real.log ‖z‖ / 2 := by
      rw [← hww, norm_pow, Real.log_pow]; push_cast; ring
    have hl2 : |Real.log ‖w‖| ≤ 0.69 * 2 ^ d := by
      rw [hlog, abs_div, abs_of_pos (by norm_num : (0:ℝ) < 2), div_le_iff₀ (by norm_num)]
      refine hl.trans (le_of_eq ?_)
      rw [pow_succ]; ring
    have e1 : Cx.sqrt (ofC S z) = ofC S w := by rw [← ofC_toC (Cx.sqrt (ofC S z)), toC_sqrt, toC_ofC]
    have e2 : (∸(Cx.sqrt (ofC S z)) : Cx (R S)) = ofC S (-w) := by rw [e1, ← ofC_toC (∸(ofC S w)), toC_neg, toC_ofC]
    rw [bind_def (i64sub_ok (by simp only [i64min, i64max]; omega)), e2, e1]
    refine defined_bind (ih f w (by omega) hw0 hw1 hw2 hl2) fun a _ => ?_
    refine defined_bind (ih f (-w) (by omega) (neg_ne_zero.mpr hw0) (fun h => hw2 (by rw [← h, neg_neg])) (fun h => hw1 (neg_injective h)) (by rwa [norm_neg])) fun b _ => ?_
    exact defined_pure _

/-- `|log r| ≤ 0.69·2^11` in the range of the finite double-precision numbers -/
theorem log_range {r : ℝ} (h1 : (2:ℝ) ^ (-1074 : ℤ) ≤ r) (h2 : r ≤ 2 ^ (1025 : ℤ)) : |Real.log r| ≤ 0.69 * 2 ^ 11 := by
  have hl := Real.log_two_lt_d9
  have hl0 := Real.log_two_gt_d9
  have hp : (0:ℝ) < 2 ^ (-1074 : ℤ) := by positivity
  have a1 := Real.log_le_log hp h1
  have a2 := Real.log_le_log (hp.trans_le h1) h2
  rw [Real.log_zpow] at a1 a2
  push_cast at a1 a2
  rw [abs_le]
  constructor <;> norm_num at * <;> linarith

/-- **C21 (double precision range).**  For every `z` in the range of the finite double-precision complex numbers the depth is at most 11. -/
theorem C21_depth_double (hS : S.Lit u) (hu6 : u ≤ 1e-6) (n : Int) (hn1 : i64min + 200 < n) (hn2 : n < -1) (z : ℂ)
    (h1 : z ≠ 1) (h2 : z ≠ -1) (hz1 : (2:ℝ) ^ (-1074 : ℤ) ≤ ‖z‖) (hz2 : ‖z‖ ≤ 2 ^ (1025 : ℤ)) : Defined (Li 11 n (ofC S z)) := by
  refine C21_depth hS hu6 n hn1 hn2 11 11 z le_rfl ?_ h1 h2 (log_range hz1 hz2)
  intro h
  rw [h, norm_zero] at hz1
  have : (0:ℝ) < 2 ^ (-1074 : ℤ) := by positivity
  linarith

/-- the same for the value, orders `-2 ... -81` -/
theorem C21_value_double (hS : S.Lit u) (hu6 : u ≤ 1e-6) (N : ℕ) (hN : 2 ≤ N) (hN2 : N ≤ 81) (z : ℂ)
    (h1 : z ≠ 1) (h2 : z ≠ -1) (hz1 : (2:ℝ) ^ (-1074 : ℤ) ≤ ‖z‖) (hz2 : ‖z‖ ≤ 2 ^ (1025 : ℤ)) :
    ∃ v, Li 11 (-(N:ℤ)) (ofC S z) = .ok v ∧ ‖v.toC - polyLog (-(N:ℤ)) z‖ ≤ negBound u N + 1e-100 := by
  have h0 : z ≠ 0 := by
    intro h
    rw [h, norm_zero] at hz1
    have : (0:ℝ) < 2 ^ (-1074 : ℤ) := by positivity
    linarith
  have e : polyLog (-(N:ℤ)) z = pLiNeg N z := by
    obtain ⟨m, rfl⟩ : ∃ m, N = m + 1 := ⟨N - 1, by omega⟩
    rfl
  rw [e]
  exact C21_Li hS hu6 N hN hN2 11 11 z le_rfl h0 h1 h2 (log_range hz1 hz2)

/-- the bounds of `C21_Li` in the orders used most, with double precision literals -/
example : negBound (2 ^ (-53 : ℤ)) 2 ≤ 4e-16 := by
  unfold negBound
  rw [show (2 + 179 : ℕ).choose 2 = 16290 from (Nat.choose_two_right 181).trans (by norm_num)]
  norm_num [Nat.factorial]

/-- the hypotheses of `C21_depth` and `C21_Li` are met -/
example (hS : S.Lit u) (hu6 : u ≤ 1e-6) : ∃ v, Li 3 (-5) (ofC S (-7)) = .ok v ∧ ‖v.toC - pLiNeg 5 (-7)‖ ≤ negBound u 5 + 1e-100 := by
  refine C21_Li hS hu6 5 (by norm_num) (by norm_num) 3 3 (-7) le_rfl (by norm_num) (by norm_num) (by norm_num) ?_
  rw [norm_neg, show ‖(7:ℂ)‖ = 7 by simp, abs_of_pos (Real.log_pos (by norm_num))]
  have h := Real.log_le_sub_one_of_pos (x := 7 / 4) (by norm_num)
  rw [Real.log_div (by norm_num) (by norm_num), show (4:ℝ) = 2 ^ 2 by norm_num, Real.log_pow] at h
  have := Real.log_two_lt_d9
  push_cast at h
  linarith

end
end Polylog
