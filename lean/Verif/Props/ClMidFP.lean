import Verif.Props.ClMin
import Verif.Props.C48
import Verif.Props.ClMidAcc
import Verif.Sem.FPAbsorb

/-! # The loop of `ncal` (Cl.cpp) in IEEE double precision -/

namespace Polylog
set_option linter.style.longLine false
open Finset

variable {L : Lib}

/-- `u = 2^-53` -/
local notation "υ" => uR binary64

/-! ## one rounded operation -/

theorem mid_eta_small : (2:ℝ) ^ (binary64.emin - 1) ≤ 1e-240 := by
  have h : (2:ℝ) ^ (binary64.emin - 1) ≤ (2:ℝ) ^ (-800 : ℤ) := zpow_le_zpow_right₀ (by norm_num) (by decide)
  refine h.trans ?_
  have e : (2:ℝ) ^ (-800 : ℤ) = ((1 / 2) ^ 200) ^ 4 := by
    rw [show (-800:ℤ) = -((200 * 4 : ℕ) : ℤ) by norm_num, zpow_neg, zpow_natCast, pow_mul, one_div, inv_pow, inv_pow]
  rw [e]
  calc (((1:ℝ) / 2) ^ 200) ^ 4 ≤ (1e-60) ^ 4 := pow_le_pow_left₀ (by positivity) (by norm_num) 4
    _ ≤ 1e-240 := by norm_num

theorem rq_big_lt {v : ℚ} (hv : |(v:ℝ)| ≤ 1e215) : |rq binary64 v| < 2 ^ binary64.emax := by
  have h1 : (|v| : ℚ) ≤ 2 ^ (1000 : ℤ) := by
    have h2 : ((|v| : ℚ) : ℝ) ≤ ((1e215 : ℚ) : ℝ) := by push_cast; norm_num at hv ⊢; exact hv
    have h3 : |v| ≤ (1e215 : ℚ) := by exact_mod_cast h2
    refine h3.trans ?_
    have e : (2:ℚ) ^ (1000 : ℤ) = (2 ^ 100) ^ 10 := by rw [show (1000:ℤ) = ((100 * 10 : ℕ) : ℤ) by norm_num, zpow_natCast, pow_mul]
    rw [e]; norm_num
  have h4 : Repr binary64 ((2:ℚ) ^ (1000:ℤ)) := ⟨1, 1000, by decide, by decide, by rw [Nat.cast_one, one_mul]⟩
  exact (abs_rq_le h4 h1).trans_lt (zpow_lt_zpow_right₀ (by norm_num) (by decide))

theorem rq_err240 (v : ℚ) : |((rq binary64 v : ℚ) : ℝ) - v| ≤ υ * |(v:ℝ)| + 1e-240 := by
  have := (Rat.cast_le (K := ℝ)).2 (rq_err' (φ := binary64) v)
  push_cast at this
  have h2 := mid_eta_small
  have e : |(v:ℝ)| * 2 ^ (-(binary64.p:ℤ)) = υ * |(v:ℝ)| := by rw [mul_comm]; rfl
  rw [e] at this
  linarith

/-- the rounding error of a sum is also bounded by the summand -/
theorem add_err5 {σ t : ℚ} (hσ : Repr binary64 |σ|) (ht : Repr binary64 |t|) : |((rq binary64 (σ + t) : ℚ) : ℝ) - (σ + t)| ≤ 5 * |(t:ℝ)| := by
  have hu := u53
  by_cases h : |t| ≤ |σ| * 2 ^ (-(binary64.p : ℤ) - 2)
  · rw [rq_absorb hσ h, show (σ:ℝ) - (σ + t) = -t by ring, abs_neg]
    linarith [abs_nonneg (t:ℝ)]
  · have h1 := rq_add_errR hσ ht
    have h2 : |(σ:ℝ)| * (υ / 4) ≤ |(t:ℝ)| := by
      have h3 := (Rat.cast_lt (K := ℝ)).2 (not_le.1 h)
      push_cast at h3
      have e : (2:ℝ) ^ (-(binary64.p : ℤ) - 2) = υ / 4 := by rw [hu]; norm_num [binary64]
      rw [e] at h3; exact h3.le
    have h4 := abs_add_le (σ:ℝ) t
    have h5 : υ ≤ 1 := by rw [hu]; norm_num
    have hu0 := uR_pos (φ := binary64)
    have h6 := abs_nonneg (t:ℝ)
    nlinarith

/-! ## the table -/

set_option maxRecDepth 100000 in
theorem clB_geo : ∀ i : Fin 202, |clB[i.1]| * 9.8703 ^ (i.1 + 1) ≤ 0.8227 * 0.2502 ^ i.1 := by decide +kernel

set_option maxRecDepth 100000 in
theorem clB_ratio : ∀ i : Fin 201, |clB[i.1 + 1]| * 39.45 ≤ |clB[i.1]| := by decide +kernel

/-- entry of the table -/
def bq (k : ℕ) : ℚ := if h : k < 202 then clB[k] else 0

theorem bS_dec (k : ℕ) : bS RealSem.dec k = bq k := by
  unfold bS bq; split_ifs <;> simp [RealSem.dec]

theorem bq_geo (k : ℕ) (hk : k < 202) : |(bq k:ℝ)| * 9.8703 ^ (k + 1) ≤ 0.8227 * 0.2502 ^ k := by
  have := (Rat.cast_le (K := ℝ)).2 (clB_geo ⟨k, hk⟩)
  rw [bq, dif_pos hk]
  push_cast at this ⊢
  norm_num at this ⊢
  exact this

theorem bq_ratio (k : ℕ) : |(bq (k + 1):ℝ)| * 39.45 ≤ |(bq k:ℝ)| := by
  by_cases hk : k < 201
  · have := (Rat.cast_le (K := ℝ)).2 (clB_ratio ⟨k, hk⟩)
    rw [bq, bq, dif_pos (by omega), dif_pos (by omega)]
    push_cast at this ⊢
    exact this
  · rw [bq, dif_neg (by omega)]; simp

theorem bq_le_one (k : ℕ) : |(bq k:ℝ)| ≤ 1 := by
  by_cases hk : k < 202
  · have h := bq_geo k hk
    have h1 : (1:ℝ) ≤ 9.8703 ^ (k + 1) := one_le_pow₀ (by norm_num)
    have h2 : (0.2502:ℝ) ^ k ≤ 1 := pow_le_one₀ (by norm_num) (by norm_num)
    nlinarith [abs_nonneg (bq k:ℝ)]
  · rw [bq, dif_neg hk]; simp

/-! ## the error budget -/

/-- budget of the error from step `k` on, `G = 3.1417^(n+1)/(n+3)` -/
noncomputable def ncE (G : ℝ) (k : ℕ) : ℝ := υ * G * ((18 + 6 * k) * 0.2502 ^ k) + (if k < 30 then (30 - k) * (1.4 * υ * (1.11 * G)) else 0) +
  8 * G * 0.2502 ^ (max k 30) + (202 - k) * 2e-29

/-- what one step may use up -/
theorem ncE_step {G : ℝ} (hG : 0.3 ≤ G) (k : ℕ) (hk : k < 202) {a τ : ℝ} (hτ : τ ≤ G * (0.8227 * 0.2502 ^ k)) 
    (ha : (k < 30 → a ≤ 1.4 * υ * (1.11 * G)) ∧ (30 ≤ k → a ≤ 5.1 * τ + 1e-29)) : (9 + 3 * k) * υ * τ + 1e-30 + a ≤ ncE G k - ncE G (k + 1) := by
  have hu0 := uR_pos (φ := binary64)
  have hr : (0:ℝ) < 0.2502 ^ k := by positivity
  have hk0 : (0:ℝ) ≤ k := Nat.cast_nonneg k
  have e1 : (9 + 3 * (k:ℝ)) * υ * τ ≤ (9 + 3 * k) * υ * (G * (0.8227 * 0.2502 ^ k)) := mul_le_mul_of_nonneg_left hτ (by positivity)
  have hW : 0 ≤ υ * G * 0.2502 ^ k := by positivity
  have e2 : (9 + 3 * (k:ℝ)) * υ * (G * (0.8227 * 0.2502 ^ k)) ≤ υ * G * ((18 + 6 * k) * 0.2502 ^ k) - υ * G * ((18 + 6 * ((k + 1 : ℕ):ℝ)) * 0.2502 ^ (k + 1)) := by
    rw [pow_succ]; push_cast; nlinarith [mul_nonneg hW hk0]
  unfold ncE
  rcases lt_or_ge k 30 with h | h
  · have ha := ha.1 h
    rw [if_pos h, max_eq_right (by omega : k ≤ 30), max_eq_right (by omega : k + 1 ≤ 30)]
    by_cases h29 : k + 1 < 30
    · rw [if_pos h29]; push_cast at e2 ⊢; linarith
    · rw [if_neg h29]
      have : (k:ℝ) = 29 := by exact_mod_cast (by omega : k = 29)
      rw [this] at e1 e2 ⊢
      push_cast at e2 ⊢
      have hkk : k = 29 := by omega
      subst hkk
      norm_num at e1 e2 ⊢
      linarith
  · have ha := ha.2 h
    rw [if_neg (by omega), if_neg (by omega), max_eq_left h, max_eq_left (by omega : 30 ≤ k + 1)]
    have e3 : 5.1 * τ ≤ 8 * G * 0.2502 ^ k - 8 * G * 0.2502 ^ (k + 1) := by
      rw [pow_succ]; nlinarith [mul_pos (by linarith : (0:ℝ) < G) hr]
    push_cast at e2 ⊢; linarith

theorem ncE_nonneg {G : ℝ} (hG : 0.3 ≤ G) (k : ℕ) (hk : k ≤ 202) : 0 ≤ ncE G k := by
  have hu0 := uR_pos (φ := binary64)
  have hk0 : (k:ℝ) ≤ 202 := by exact_mod_cast hk
  have : 0 ≤ (if k < 30 then (30 - (k:ℝ)) * (1.4 * υ * (1.11 * G)) else 0) := by
    split_ifs with h
    · have : (k:ℝ) ≤ 30 := by exact_mod_cast h.le
      have : 0 ≤ 30 - (k:ℝ) := by linarith
      positivity
    · exact le_rfl
  unfold ncE
  have : 0 ≤ (202 - (k:ℝ)) * 2e-29 := mul_nonneg (by linarith) (by norm_num)
  positivity

theorem ncE_zero {G : ℝ} (hG : 0.3 ≤ G) : ncE G 0 ≤ 65 * υ * G := by
  have hu := u53
  unfold ncE
  rw [if_pos (by norm_num), max_eq_right (by norm_num), hu]
  norm_num
  nlinarith

/-- leaving the loop at step `k` -/
theorem ncE_exit {G : ℝ} (hG : 0.3 ≤ G) (k : ℕ) (hk : k < 202) {t τ : ℝ} (hτ : τ ≤ G * (0.8227 * 0.2502 ^ k)) (ht : t ≤ τ)
    (ha : t ≤ 1.002 * υ * (1.11 * G) + (9 + 3 * k) * υ * τ + 1e-30) : 1.334 * t ≤ ncE G k := by
  have hu0 := uR_pos (φ := binary64)
  have hr : (0:ℝ) < 0.2502 ^ k := by positivity
  have hk0 : (0:ℝ) ≤ k := Nat.cast_nonneg k
  have hk2 : (k:ℝ) ≤ 201 := by exact_mod_cast (by omega : k ≤ 201)
  have hW : 0 ≤ υ * G * 0.2502 ^ k := by positivity
  unfold ncE
  rcases lt_or_ge k 30 with h | h
  · rw [if_pos h]
    have hk3 : (k:ℝ) ≤ 29 := by exact_mod_cast (by omega : k ≤ 29)
    have e1 : (9 + 3 * (k:ℝ)) * υ * τ ≤ (9 + 3 * k) * υ * (G * (0.8227 * 0.2502 ^ k)) := mul_le_mul_of_nonneg_left hτ (by positivity)
    have e2 : 1.334 * ((9 + 3 * (k:ℝ)) * υ * (G * (0.8227 * 0.2502 ^ k))) ≤ υ * G * ((18 + 6 * k) * 0.2502 ^ k) := by nlinarith [mul_nonneg hW hk0]
    have e3 : 1.4 * υ * (1.11 * G) ≤ (30 - k) * (1.4 * υ * (1.11 * G)) := by
      have : 0 ≤ 1.4 * υ * (1.11 * G) := by positivity
      nlinarith
    have e4 : 0 ≤ 8 * G * 0.2502 ^ (max k 30) := by positivity
    have e5 : 0 ≤ υ * G := by positivity
    nlinarith
  · rw [if_neg (by omega), max_eq_left h]
    have e2 : 0 ≤ υ * G * ((18 + 6 * k) * 0.2502 ^ k) := by positivity
    have e3 : 1.334 * τ ≤ 8 * G * 0.2502 ^ k := by nlinarith [mul_pos (by linarith : (0:ℝ) < G) hr]
    nlinarith

/-! ## one term -/

/-- bound of `x^(n+3+2k)` -/
noncomputable def ncV (W : ℝ) (k : ℕ) : ℝ := W * 9.8703 ^ (k + 1)

theorem ncV_pos {W : ℝ} (hW : 3 ≤ W) (k : ℕ) : 3 ≤ ncV W k := by
  have : (1:ℝ) ≤ 9.8703 ^ (k + 1) := one_le_pow₀ (by norm_num)
  unfold ncV; nlinarith
theorem ncV_le {W : ℝ} (hW : 3 ≤ W) (hW2 : W ≤ 1e4) {k : ℕ} (hk : k < 203) : ncV W k ≤ 1e208 := by
  have h1 : (9.8703:ℝ) ^ (k + 1) ≤ 10 ^ 203 := (pow_le_pow_left₀ (by norm_num) (by norm_num) _).trans (pow_le_pow_right₀ (by norm_num) (by omega))
  unfold ncV
  calc W * 9.8703 ^ (k + 1) ≤ 1e4 * 10 ^ 203 := mul_le_mul hW2 h1 (by positivity) (by norm_num)
    _ ≤ 1e208 := by norm_num

theorem pow_err {ξ χ : ℚ} {P y W : ℝ} (hW : 3 ≤ W) (hW2 : W ≤ 1e4) {k : ℕ} (hk : k < 202) (hξ : |(ξ:ℝ) - P| ≤ (5 + 3 * k) * υ * ncV W k) (hP : |P| ≤ ncV W k)
    (hχ : |(χ:ℝ) - y| ≤ 1.01 * υ * 9.8703) (hχ0 : |(χ:ℝ)| ≤ 9.8703) :
    |rq binary64 (ξ * χ)| < 2 ^ binary64.emax ∧ |((rq binary64 (ξ * χ) : ℚ) : ℝ) - P * y| ≤ (5 + 3 * ((k + 1 : ℕ):ℝ)) * υ * ncV W (k + 1) := by
  have hu0 := uR_pos (φ := binary64)
  have hu := u53
  have hk0 : (0:ℝ) ≤ k := Nat.cast_nonneg k
  have hk2 : (k:ℝ) ≤ 201 := by exact_mod_cast (by omega : k ≤ 201)
  have hV := ncV_pos hW k
  have hV2 := ncV_le hW hW2 (k := k) (by omega)
  have hV3 : ncV W (k + 1) = 9.8703 * ncV W k := by unfold ncV; rw [pow_succ]; ring
  have hcu : (5 + 3 * (k:ℝ)) * υ ≤ 0.001 := by rw [hu]; norm_num; linarith
  have hξa : |(ξ:ℝ)| ≤ 1.001 * ncV W k := by
    have := abs_sub_abs_le_abs_sub (ξ:ℝ) P
    nlinarith
  have hm : |(ξ:ℝ) * χ| ≤ 1.001 * ncV W k * 9.8703 := by
    rw [abs_mul]; exact mul_le_mul hξa hχ0 (abs_nonneg _) (by linarith)
  have hd : |(ξ:ℝ) * χ - P * y| ≤ (5 + 3 * k) * υ * ncV W k * 9.8703 + ncV W k * (1.01 * υ * 9.8703) := by
    rw [show (ξ:ℝ) * χ - P * y = (ξ - P) * χ + P * (χ - y) by ring]
    refine (abs_add_le _ _).trans (add_le_add ?_ ?_)
    · rw [abs_mul]; exact mul_le_mul hξ hχ0 (abs_nonneg _) (by positivity)
    · rw [abs_mul]; exact mul_le_mul hP hχ (abs_nonneg _) (by linarith)
  refine ⟨rq_big_lt (by push_cast; norm_num at hm hV2 ⊢; linarith), ?_⟩
  have h1 := rq_err240 (ξ * χ)
  push_cast at h1
  have h2 := abs_sub_le ((rq binary64 (ξ * χ) : ℚ) : ℝ) (ξ * χ) (P * y)
  have h3 := mul_le_mul_of_nonneg_left hm hu0.le
  have h4 : (1e-240:ℝ) ≤ 0.01 * υ * ncV W k := by
    have : (0.01:ℝ) * υ * 3 ≤ 0.01 * υ * ncV W k := by gcongr
    rw [hu] at this ⊢; norm_num at this ⊢; linarith
  rw [hV3]; push_cast
  have h5 : 0 ≤ υ * ncV W k := by positivity
  nlinarith

theorem term_err {β ξ : ℚ} {b P W : ℝ} {d : ℕ} (hd : 3 ≤ d) (hW : 3 ≤ W) (hW2 : W ≤ 1e4) {k : ℕ} (hk : k < 202) (hξ : |(ξ:ℝ) - P| ≤ (5 + 3 * k) * υ * ncV W k) (hP : |P| ≤ ncV W k)
    (hβ : |(β:ℝ) - b| ≤ υ * |b| + 1e-240) (hb : |b| ≤ 1) :
    |rq binary64 (β * ξ)| < 2 ^ binary64.emax ∧ |rq binary64 (rq binary64 (β * ξ) / d)| < 2 ^ binary64.emax ∧
      |((rq binary64 (rq binary64 (β * ξ) / d) : ℚ) : ℝ) - b * P / d| ≤ (9 + 3 * k) * υ * (|b| * ncV W k / d) + 1e-30 := by
  have hu0 := uR_pos (φ := binary64)
  have hu := u53
  have hk0 : (0:ℝ) ≤ k := Nat.cast_nonneg k
  have hk2 : (k:ℝ) ≤ 201 := by exact_mod_cast (by omega : k ≤ 201)
  have hV := ncV_pos hW k
  have hV2 := ncV_le hW hW2 (k := k) (by omega)
  have hcu : (5 + 3 * (k:ℝ)) * υ ≤ 0.001 := by rw [hu]; norm_num; linarith
  have hd0 : (3:ℝ) ≤ d := by exact_mod_cast hd
  have hb0 := abs_nonneg b
  set V := ncV W k
  have hξa : |(ξ:ℝ)| ≤ 1.001 * V := by
    have := abs_sub_abs_le_abs_sub (ξ:ℝ) P
    nlinarith
  have hu1 : υ ≤ 1e-15 := by rw [hu]; norm_num
  have hβa : |(β:ℝ)| ≤ 1.001 * |b| + 1e-240 := by
    have := abs_sub_abs_le_abs_sub (β:ℝ) b
    nlinarith
  have hbV : 0 ≤ |b| * V := by positivity
  have hη : 1e-240 * V ≤ 1e-32 := by
    have := mul_le_mul_of_nonneg_left hV2 (by norm_num : (0:ℝ) ≤ 1e-240)
    norm_num at this ⊢; linarith
  have hm : |(β:ℝ) * ξ| ≤ 1.003 * (|b| * V) + 2e-32 := by
    rw [abs_mul]
    calc |(β:ℝ)| * |(ξ:ℝ)| ≤ (1.001 * |b| + 1e-240) * (1.001 * V) := mul_le_mul hβa hξa (abs_nonneg _) (by positivity)
      _ ≤ _ := by nlinarith
  have hdd : |(β:ℝ) * ξ - b * P| ≤ (6.01 + 3 * k) * υ * (|b| * V) + 2e-32 := by
    rw [show (β:ℝ) * ξ - b * P = (β - b) * ξ + b * (ξ - P) by ring]
    have h1 : |((β:ℝ) - b) * ξ| ≤ (υ * |b| + 1e-240) * (1.001 * V) := by
      rw [abs_mul]; exact mul_le_mul hβ hξa (abs_nonneg _) (by positivity)
    have h2 : |b * ((ξ:ℝ) - P)| ≤ |b| * ((5 + 3 * k) * υ * V) := by
      rw [abs_mul]; exact mul_le_mul_of_nonneg_left hξ hb0
    refine (abs_add_le _ _).trans ?_
    nlinarith [mul_nonneg hu0.le hbV]
  have hbV2 : |b| * V ≤ 1e208 := by nlinarith
  have f1 : |rq binary64 (β * ξ)| < 2 ^ binary64.emax := rq_big_lt (by push_cast; norm_num at hm hbV2 ⊢; linarith)
  have h1 := rq_err240 (β * ξ)
  push_cast at h1
  have h3 := mul_le_mul_of_nonneg_left hm hu0.le
  have hv1 : |((rq binary64 (β * ξ) : ℚ) : ℝ) - b * P| ≤ (7.1 + 3 * k) * υ * (|b| * V) + 3e-32 := by
    have h2 := abs_sub_le ((rq binary64 (β * ξ) : ℚ) : ℝ) (β * ξ) (b * P)
    nlinarith [mul_nonneg hu0.le hbV]
  set w := rq binary64 (β * ξ)
  have hwa : |(w:ℝ)| ≤ 1.01 * (|b| * V) + 4e-32 := by
    have h2 := abs_sub_abs_le_abs_sub (w:ℝ) (β * ξ)
    nlinarith [mul_nonneg hu0.le hbV]
  have hq : |(w:ℝ) / d| ≤ (1.01 * (|b| * V) + 4e-32) / d := by
    rw [abs_div, Nat.abs_cast]; exact div_le_div_of_nonneg_right hwa (by positivity)
  have hq2 : (1.01 * (|b| * V) + 4e-32) / d ≤ 1.01 * (|b| * V) + 4e-32 := div_le_self (by positivity) (by linarith)
  refine ⟨f1, rq_big_lt (by push_cast; norm_num at hq hq2 hbV2 ⊢; linarith), ?_⟩
  have h4 := rq_err240 (w / d)
  push_cast at h4
  have h5 := mul_le_mul_of_nonneg_left hq hu0.le
  have h6 : |(w:ℝ) / d - b * P / d| ≤ ((7.1 + 3 * k) * υ * (|b| * V) + 3e-32) / d := by
    rw [← sub_div, abs_div, Nat.abs_cast]; exact div_le_div_of_nonneg_right hv1 (by positivity)
  have h7 := abs_sub_le ((rq binary64 (w / d) : ℚ) : ℝ) (w / d) (b * P / d)
  have e1 : ((7.1 + 3 * k) * υ * (|b| * V) + 3e-32) / d = (7.1 + 3 * k) * υ * (|b| * V / d) + 3e-32 / d := by ring
  have e2 : υ * ((1.01 * (|b| * V) + 4e-32) / d) = 1.01 * υ * (|b| * V / d) + υ * (4e-32 / d) := by ring
  have e3 : (3e-32:ℝ) / d ≤ 3e-32 := div_le_self (by norm_num) (by linarith)
  have e4 : υ * ((4e-32:ℝ) / d) ≤ 4e-32 := by
    have : (4e-32:ℝ) / d ≤ 4e-32 := div_le_self (by norm_num) (by linarith)
    have h0 : (0:ℝ) ≤ 4e-32 / d := by positivity
    calc υ * ((4e-32:ℝ) / d) ≤ 1 * 4e-32 := mul_le_mul (hu1.trans (by norm_num)) this h0 (by norm_num)
      _ = 4e-32 := one_mul _
  rw [e1] at h6; rw [e2] at h5
  clear_value w V
  clear e1 e2 hq hq2 hwa hv1 h1 h3 f1 hbV2 hdd hm hη hβa hξa
  have h8 : 0 ≤ υ * (|b| * V / d) := by positivity
  have e5 : (9 + 3 * (k:ℝ)) * υ * (|b| * V / d) = 9 * (υ * (|b| * V / d)) + 3 * (k * (υ * (|b| * V / d))) := by ring
  have e6 : (7.1 + 3 * (k:ℝ)) * υ * (|b| * V / d) = 7.1 * (υ * (|b| * V / d)) + 3 * (k * (υ * (|b| * V / d))) := by ring
  rw [e5]; rw [e6] at h6
  have e7 : 1.01 * υ * (|b| * V / d) = 1.01 * (υ * (|b| * V / d)) := by ring
  rw [e7] at h5
  generalize υ * (|b| * V / d) = A at *
  linarith

end Polylog
