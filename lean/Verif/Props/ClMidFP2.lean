import Verif.Props.ClMidFP

/-! # `ncal` (Cl.cpp) in IEEE double precision -/

namespace Polylog
set_option linter.style.longLine false
open Finset

variable {L : Lib}

/-- `u = 2^-53` -/
local notation "υ" => uR binary64

/-- exact term of the series -/
noncomputable def ncT (n : ℕ) (p y : ℝ) (k : ℕ) : ℝ := bq k * (p * y ^ (k + 1)) / (2 * (k + 1) + n + 1)

section
variable {n : ℕ} {p y W : ℝ} 

theorem ncP_le (hp : |p| ≤ W) (hy0 : 0 ≤ y) (hy : y ≤ 9.8703) (k : ℕ) : |p * y ^ (k + 1)| ≤ ncV W k := by
  have hW : 0 ≤ W := (abs_nonneg p).trans hp
  rw [abs_mul, abs_of_nonneg (pow_nonneg hy0 _)]
  exact mul_le_mul hp (pow_le_pow_left₀ hy0 hy _) (by positivity) hW

theorem ncTau_le (hW : 3 ≤ W) (k : ℕ) (hk : k < 202) : |(bq k:ℝ)| * ncV W k / ((2 * (k + 1) + n + 1 : ℕ):ℝ) ≤ W / (n + 3) * (0.8227 * 0.2502 ^ k) := by
  have h := bq_geo k hk
  have hn : (0:ℝ) ≤ n := Nat.cast_nonneg n
  have e : |(bq k:ℝ)| * ncV W k = W * (|(bq k:ℝ)| * 9.8703 ^ (k + 1)) := by unfold ncV; ring
  rw [e, div_mul_eq_mul_div]
  refine div_le_div₀ (by positivity) (mul_le_mul_of_nonneg_left h (by linarith)) (by linarith) ?_
  push_cast
  have : (0:ℝ) ≤ k := Nat.cast_nonneg k
  linarith

theorem ncT_abs (hp : |p| ≤ W) (hy0 : 0 ≤ y) (hy : y ≤ 9.8703) (k : ℕ) : |ncT n p y k| ≤ |(bq k:ℝ)| * ncV W k / ((2 * (k + 1) + n + 1 : ℕ):ℝ) := by
  unfold ncT
  have e : (2 * ((k:ℝ) + 1) + n + 1) = ((2 * (k + 1) + n + 1 : ℕ):ℝ) := by push_cast; ring
  rw [e, abs_div, abs_mul, Nat.abs_cast]
  exact div_le_div_of_nonneg_right (mul_le_mul_of_nonneg_left (ncP_le hp hy0 hy k) (abs_nonneg _)) (by positivity)

theorem ncT_ratio (hy0 : 0 ≤ y) (hy : y ≤ 9.8703) (k : ℕ) : |ncT n p y (k + 1)| ≤ 0.2502 * |ncT n p y k| := by
  unfold ncT
  have h := bq_ratio k
  have hn : (0:ℝ) ≤ n := Nat.cast_nonneg n
  have hk : (0:ℝ) ≤ k := Nat.cast_nonneg k
  have hd : (0:ℝ) < 2 * (k + 1) + n + 1 := by positivity
  have e0 : ((bq (k + 1) : ℚ) : ℝ) * (p * y ^ (k + 1 + 1)) = bq (k + 1) * ((p * y ^ (k + 1)) * y) := by rw [pow_succ y (k + 1)]; ring
  have hd' : (0:ℝ) < 2 * ((k + 1 : ℕ) + 1) + n + 1 := by positivity
  rw [e0, abs_div, abs_div, abs_of_pos hd, abs_of_pos hd', abs_mul (bq (k + 1):ℝ), abs_mul (bq k:ℝ), abs_mul (p * y ^ (k + 1)) y, abs_of_nonneg hy0, ← mul_div_assoc]
  have hP := abs_nonneg (p * y ^ (k + 1))
  refine div_le_div₀ (by positivity) ?_ hd (by push_cast; linarith)
  have h1 : |(bq (k + 1):ℝ)| * y ≤ 0.2502 * |(bq k:ℝ)| := by nlinarith [abs_nonneg (bq (k + 1):ℝ)]
  calc |(bq (k + 1):ℝ)| * (|p * y ^ (k + 1)| * y) = (|(bq (k + 1):ℝ)| * y) * |p * y ^ (k + 1)| := by ring
    _ ≤ (0.2502 * |(bq k:ℝ)|) * |p * y ^ (k + 1)| := mul_le_mul_of_nonneg_right h1 hP
    _ = _ := by ring

theorem ncT_tail (hy0 : 0 ≤ y) (hy : y ≤ 9.8703) (f : ℕ) : ∀ k, |∑ i ∈ range f, ncT n p y (k + i)| ≤ 1.334 * |ncT n p y k| := by
  induction f with
  | zero => intro k; simp only [Finset.range_zero, Finset.sum_empty, abs_zero]; positivity
  | succ f ih =>
    intro k
    rw [Finset.sum_range_succ']
    have h1 := ih (k + 1)
    have h2 := ncT_ratio (n := n) (p := p) hy0 hy k
    have e : ∑ i ∈ range f, ncT n p y (k + (i + 1)) = ∑ i ∈ range f, ncT n p y (k + 1 + i) := by
      refine Finset.sum_congr rfl fun i _ => ?_
      congr 1; omega
    rw [e, add_zero]
    refine (abs_add_le _ _).trans ?_
    linarith [abs_nonneg (ncT n p y k)]

theorem sig_step {G r τ k σ t s : ℝ} (hG : 0.3 ≤ G) (hr : 0 < r) (hτ : τ ≤ G * (0.8227 * r)) (hσ : |σ| ≤ G * (1.1 * (1 - r) + k * 1e-12))
    (ht : |t| ≤ 1.001 * τ + 1e-30) (hs : |s - (σ + t)| ≤ 1.002 * υ * (1.11 * G)) : |s| ≤ G * (1.1 * (1 - r * 0.2502) + (k + 1) * 1e-12) := by
  have hu := u53
  have h1 := abs_sub_abs_le_abs_sub s (σ + t)
  have h2 := abs_add_le σ t
  have hu2 : υ * G ≤ 1e-14 * G := mul_le_mul_of_nonneg_right (by rw [hu]; norm_num) (by linarith)
  have h3 : 1.002 * υ * (1.11 * G) ≤ 0.5e-12 * G := by
    have e : 1.002 * υ * (1.11 * G) = 1.002 * 1.11 * (υ * G) := by ring
    rw [e]; linarith
  have hGr : 0 < G * r := by positivity
  have e1 : G * (1.1 * (1 - r) + k * 1e-12) = 1.1 * G - 1.1 * (G * r) + 1e-12 * (G * k) := by ring
  have e2 : G * (1.1 * (1 - r * 0.2502) + (k + 1) * 1e-12) = 1.1 * G - 1.1 * 0.2502 * (G * r) + 1e-12 * (G * k) + 1e-12 * G := by ring
  have e3 : G * (0.8227 * r) = 0.8227 * (G * r) := by ring
  rw [e1] at hσ; rw [e2]; rw [e3] at hτ
  generalize G * r = A at *
  generalize G * k = B at *
  norm_num at *
  linarith

/-- the loop of `ncal` -/
theorem ncalLoop_fp (hp : |p| ≤ W) (hW : 3 ≤ W) (hW2 : W ≤ 1e4) (hy0 : 0 ≤ y) (hy : y ≤ 9.8703) (hG : 0.3 ≤ W / (n + 3)) (hn : n < 100)
    (x2 : FP binary64 L) {χ : ℚ} (hx2 : Val binary64 (ofF x2) χ) (hχ : |(χ:ℝ) - y| ≤ 1.01 * υ * 9.8703) (hχ0 : |(χ:ℝ)| ≤ 9.8703) (fuel : ℕ) :
    ∀ (k : ℕ) (sum xn : FP binary64 L) (σ ξ : ℚ), k + fuel = 202 → Val binary64 (ofF sum) σ → Val binary64 (ofF xn) ξ →
      |(ξ:ℝ) - p * y ^ (k + 1)| ≤ (5 + 3 * k) * υ * ncV W k → |(σ:ℝ)| ≤ W / (n + 3) * (1.1 * (1 - 0.2502 ^ k) + k * 1e-12) →
      ∃ (v : FP binary64 L) (ν : ℚ), ncalLoop (n:ℤ) x2 fuel ((k:ℤ) + 1) sum xn = .ok v ∧ Val binary64 (ofF v) ν ∧
        |(ν:ℝ) - (σ + ∑ i ∈ range fuel, ncT n p y (k + i))| ≤ ncE (W / (n + 3)) k := by
  have hu0 := uR_pos (φ := binary64)
  have hu := u53
  induction fuel with
  | zero =>
    intro k sum xn σ ξ hk hs _ _ _
    exact ⟨sum, σ, rfl, hs, by simpa using ncE_nonneg hG k (by omega)⟩
  | succ f ih =>
    intro k sum xn σ ξ hk hs hξv hξ hσ
    have hk2 : k < 202 := by omega
    have hkr : (k:ℝ) ≤ 201 := by exact_mod_cast (by omega : k ≤ 201)
    have hk0 : (0:ℝ) ≤ k := Nat.cast_nonneg k
    set G := W / (n + 3) with hGd
    set d : ℕ := 2 * (k + 1) + n + 1 with hd
    have ha : arrGet clB ((k:ℤ) + 1 - 1) = .ok clB[k] := by
      rw [add_sub_cancel_right, arrGet, dif_pos ⟨by omega, by simpa using hk2⟩]; rfl
    have hbq : clB[k] = bq k := by rw [bq, dif_pos hk2]
    rw [hbq] at ha
    have hb1 := bq_le_one k
    have hβv : Val binary64 (rndQ binary64 (bq k)) (rq binary64 (bq k)) := val_rndQ (rq_big_lt (hb1.trans (by norm_num)))
    have hP := ncP_le hp hy0 hy k
    obtain ⟨f1, f2, ht⟩ := term_err (d := d) (by omega) hW hW2 hk2 hξ hP (rq_err240 (bq k)) hb1
    have hdv : Val binary64 (ofF (FOps.ofInt (2 * ((k:ℤ) + 1) + (n:ℤ) + 1) : FP binary64 L)) (d:ℚ) := by
      rw [ofF_ofInt, show (2 * ((k:ℤ) + 1) + (n:ℤ) + 1) = ((d : ℕ) : ℤ) by rw [hd]; push_cast; ring, Int.cast_natCast]
      exact vl_nat fmtA64 d (by omega)
    have hTv : Val binary64 (ofF ((FOps.lit (bq k) : FP binary64 L) *. xn /. (FOps.ofInt (2 * ((k:ℤ) + 1) + (n:ℤ) + 1) : FP binary64 L))) (rq binary64 (rq binary64 (rq binary64 (bq k) * ξ) / d)) :=
      Val.div (Val.mul hβv hξv f1) hdv (Nat.cast_ne_zero.2 (by omega)) f2
    generalize hT : (FOps.lit (bq k) : FP binary64 L) *. xn /. (FOps.ofInt (2 * ((k:ℤ) + 1) + (n:ℤ) + 1) : FP binary64 L) = T at *
    generalize rq binary64 (rq binary64 (rq binary64 (bq k) * ξ) / d) = t at *
    -- the term
    have hτ := ncTau_le (n := n) hW k hk2
    have htm := ncT_abs (n := n) hp hy0 hy k
    rw [← hd] at hτ htm
    rw [← hGd] at hτ
    set τ := |(bq k:ℝ)| * ncV W k / (d:ℝ) with hτd
    have hτ0 : 0 ≤ τ := (abs_nonneg _).trans htm
    have htm' : ((bq k:ℝ)) * (p * y ^ (k + 1)) / (d:ℝ) = ncT n p y k := by
      unfold ncT; rw [hd]; push_cast; ring
    rw [htm'] at ht
    have hr0 : (0:ℝ) < 0.2502 ^ k := by positivity
    have hr1 : (0.2502:ℝ) ^ k ≤ 1 := pow_le_one₀ (by norm_num) (by norm_num)
    have hcu : (9 + 3 * (k:ℝ)) * υ ≤ 1e-12 := by rw [hu]; norm_num; linarith
    have hta : |(t:ℝ)| ≤ 1.001 * τ + 1e-30 := by
      have := abs_sub_abs_le_abs_sub (t:ℝ) (ncT n p y k)
      nlinarith
    -- the sum
    have hσD : |(σ:ℝ)| + |(t:ℝ)| ≤ 1.105 * G := by nlinarith
    have hst := abs_add_le (σ:ℝ) t
    have hG2 : G ≤ 1e4 := (div_le_self (by linarith) (by have : (0:ℝ) ≤ n := Nat.cast_nonneg n; linarith)).trans hW2
    have f3 : |rq binary64 (σ + t)| < 2 ^ binary64.emax := rq_big_lt (by push_cast; norm_num at hst hσD hG2 ⊢; linarith)
    have hsv : Val binary64 (ofF (sum +. T)) (rq binary64 (σ + t)) := Val.add hs hTv f3
    have he1 := rq_add_errR hs.repr hTv.repr
    have he2 := add_err5 hs.repr hTv.repr
    have he1' : |((rq binary64 (σ + t) : ℚ) : ℝ) - (σ + t)| ≤ 1.002 * υ * (1.11 * G) := by
      refine he1.trans ?_
      have : |(σ:ℝ) + t| * υ ≤ 1.105 * G * υ := mul_le_mul_of_nonneg_right (hst.trans hσD) hu0.le
      nlinarith [mul_pos hu0 (by linarith : (0:ℝ) < G)]
    have heq : (sum +. T ==. sum) = decide (rq binary64 (σ + t) = σ) := by rw [eq_F]; exact hsv.eq hs
    rw [ncalLoop, ha]
    simp only [bind_ok]
    rw [hT, heq]
    by_cases hz : rq binary64 (σ + t) = σ
    · rw [if_pos (by simpa using hz)]
      refine ⟨_, _, rfl, hsv, ?_⟩
      rw [hz, sub_add_cancel_left, abs_neg]
      refine (ncT_tail hy0 hy _ _).trans ?_
      refine ncE_exit hG k hk2 hτ htm ?_
      rw [hz, sub_add_cancel_left, abs_neg] at he1'
      have := abs_sub_abs_le_abs_sub (ncT n p y k) (t:ℝ)
      rw [abs_sub_comm] at this
      linarith
    · rw [if_neg (by simpa using hz)]
      obtain ⟨f4, hξ'⟩ := pow_err hW hW2 hk2 hξ hP hχ hχ0
      have hξv' : Val binary64 (ofF (xn *. x2)) (rq binary64 (ξ * χ)) := Val.mul hξv hx2 f4
      obtain ⟨v, ν, hv, hvν, hd2⟩ := ih (k + 1) (sum +. T) (xn *. x2) _ _ (by omega) hsv hξv' (by rw [pow_succ, ← mul_assoc]; exact hξ') (by rw [pow_succ]; push_cast; exact sig_step hG hr0 hτ hσ hta he1')
      refine ⟨v, ν, by rw [← hv]; push_cast; rfl, hvν, ?_⟩
      rw [Finset.sum_range_succ', add_zero]
      have e : ∑ i ∈ range f, ncT n p y (k + (i + 1)) = ∑ i ∈ range f, ncT n p y (k + 1 + i) := by
        refine Finset.sum_congr rfl fun i _ => ?_
        congr 1; omega
      rw [e]
      have hcc : 5 * |(t:ℝ)| ≤ 5.1 * τ + 1e-29 := by norm_num at hta ⊢; linarith
      have hbb : 1.002 * υ * (1.11 * G) ≤ 1.4 * υ * (1.11 * G) := by
        have : 0 ≤ υ * G := mul_nonneg hu0.le (by linarith)
        have e1 : 1.002 * υ * (1.11 * G) = 1.002 * 1.11 * (υ * G) := by ring
        have e2 : 1.4 * υ * (1.11 * G) = 1.4 * 1.11 * (υ * G) := by ring
        rw [e1, e2]; linarith
      have hstep := ncE_step hG k hk2 (a := |((rq binary64 (σ + t) : ℚ) : ℝ) - (σ + t)|) hτ ⟨fun _ => he1'.trans hbb, fun _ => he2.trans hcc⟩
      have e2 : (ν:ℝ) - (σ + (∑ i ∈ range f, ncT n p y (k + 1 + i) + ncT n p y k)) =
          (ν - (((rq binary64 (σ + t) : ℚ) : ℝ) + ∑ i ∈ range f, ncT n p y (k + 1 + i))) + (((rq binary64 (σ + t) : ℚ) : ℝ) - (σ + t)) + (t - ncT n p y k) := by ring
      rw [e2]
      refine (abs_add_three _ _ _).trans ?_
      linarith

end

end Polylog
