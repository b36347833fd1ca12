import Verif.Props.SlFPGen
import Verif.Props.C15

/-!
# The truncated series of `Sl(n, x)`, n ≥ 26, and `Cl(n, x)`, n ≥ 10, in IEEE double precision

The three-term recurrence amplifies rounding errors (the bound used here grows like `(5/2)^k`), but the k-th term enters with weight `1/k^n`.
-/

namespace Polylog
set_option linter.style.longLine false
open Finset

variable {L : Lib}

/-- `u = 2^-53` -/
local notation "υ" => uR binary64

/-- the accuracy of the C library: `sin`, `cos` within `2u` on `[0, 3.15]`, `pow` within relative `2u` (absolute `u^2` on underflow) -/
structure TrigOK (φ : Fmt) (L : Lib) : Prop where
  sin : ∀ (x : FV) (q : ℚ), Val φ x q → 0 ≤ q → q ≤ 3.15 → Near φ (L.sin x) (Real.sin q) (2 * uR φ)
  cos : ∀ (x : FV) (q : ℚ), Val φ x q → 0 ≤ q → q ≤ 3.15 → Near φ (L.cos x) (Real.cos q) (2 * uR φ)
  pow : ∀ (x y : FV) (a b : ℚ), Val φ x a → Val φ y b → 0 < a → (a : ℝ) ^ (b : ℝ) ≤ 64 → Near φ (L.pow x y) ((a : ℝ) ^ (b : ℝ)) (2 * uR φ * (a : ℝ) ^ (b : ℝ) + uR φ ^ 2)

theorem u53 : υ = 1 / 2 ^ 53 := by norm_num [uR, binary64]

/-! ## one step of the recurrence -/

theorem rec_step {co c1 c2 : FP binary64 L} {c T1 T2 a b : ℝ} (hc : |c| ≤ 1) (hT1 : |T1| ≤ 1) (hT : |2 * c * T1 - T2| ≤ 1)
    (h : Near binary64 (ofF co) c (2 * υ)) (h1 : Near binary64 (ofF c1) T1 (a * υ)) (h2 : Near binary64 (ofF c2) T2 (b * υ)) (ha0 : 0 ≤ a) (hb0 : 0 ≤ b) (ha : a ≤ 2 ^ 60) (hb : b ≤ 2 ^ 60) :
    Near binary64 (ofF ((FOps.lit 2 : FP binary64 L) *. co *. c1 -. c2)) (2 * c * T1 - T2) (((2 + 1e-9) * a + (1 + 1e-9) * b + 11) * υ) := by
  have hu := u53
  have hu0 := uR_pos (φ := binary64)
  have hul : υ ≤ 2e-16 := by rw [hu]; norm_num
  have v2 : Val binary64 (rndQ binary64 2) 2 := vl_nat fmtA64 2 (by norm_num)
  have n2 : Near binary64 (ofF ((FOps.lit 2 : FP binary64 L) *. co)) (2 * c) (7 * υ) := by
    have := (v2.near.mul fmtA64 h (by push_cast; norm_num; linarith))
    rw [ofF_mul, ofF_lit]
    push_cast at this
    refine this.mono ?_
    norm_num
    nlinarith [abs_nonneg c]
  have ax : 0 ≤ a * υ := by positivity
  have bx : 0 ≤ b * υ := by positivity
  have ax2 : a * υ ≤ 2 ^ 7 := by rw [hu]; rw [mul_one_div, div_le_iff₀ (by norm_num)]; refine ha.trans (by norm_num)
  have bx2 : b * υ ≤ 2 ^ 7 := by rw [hu]; rw [mul_one_div, div_le_iff₀ (by norm_num)]; refine hb.trans (by norm_num)
  have h2c : |2 * c| ≤ 2 := by rw [abs_mul]; norm_num; exact hc
  have e1 : (|2 * c| + 7 * υ) * (|T1| + a * υ) ≤ 2.1 * (1 + a * υ) := mul_le_mul (by linarith) (by linarith) (by positivity) (by norm_num)
  have n3 : Near binary64 (ofF ((FOps.lit 2 : FP binary64 L) *. co *. c1)) (2 * c * T1) ((2 + 1e-10) * (a * υ) + 9.5 * υ) := by
    have := (n2.mul fmtA64 h1 (e1.trans (by linarith)))
    rw [ofF_mul]
    refine this.mono ?_
    have f1 : 7 * υ * |T1| ≤ 7 * υ := by nlinarith
    have f2 : a * υ * |2 * c| ≤ 2 * (a * υ) := by nlinarith
    have f3 : 7 * υ * (a * υ) ≤ 1.4e-15 * (a * υ) := by nlinarith
    have f4 := mul_le_mul_of_nonneg_left e1 hu0.le
    have f5 : υ * (a * υ) ≤ 2e-16 * (a * υ) := by nlinarith
    have f6 : υ ^ 2 ≤ 2e-16 * υ := by nlinarith
    nlinarith
  have := n3.sub fmtA64 h2 (by linarith)
  rw [show ofF ((FOps.lit 2 : FP binary64 L) *. co *. c1 -. c2) = (ofF ((FOps.lit 2 : FP binary64 L) *. co *. c1)).add binary64 (ofF c2).neg from rfl]
  refine this.mono ?_
  have f5 : υ * (a * υ) ≤ 2e-16 * (a * υ) := by nlinarith
  have f6 : υ ^ 2 ≤ 2e-16 * υ := by nlinarith
  have f7 : υ * (b * υ) ≤ 2e-16 * (b * υ) := by nlinarith
  have f8 : υ * |2 * c * T1 - T2| ≤ υ := by nlinarith
  nlinarith

theorem sum_step {con p sm : FP binary64 L} {T w S c s : ℝ} (hT : |T| ≤ 1) (hw0 : 0 ≤ w) (hw : w ≤ 1) (hc0 : 0 ≤ c) (hc : c ≤ 2 ^ 60) (hs : s ≤ 200) (hS : |S + T * w| ≤ 1.01)
    (h : Near binary64 (ofF con) T (c * υ)) (hp : Near binary64 (ofF p) w (2 * υ * w + 3 * υ ^ 2)) (hsm : Near binary64 (ofF sm) S (s * υ)) :
    Near binary64 (ofF (sm +. con *. p)) (S + T * w) ((s + (1.011 + (1.001 * c + 4) * w)) * υ) := by
  have hu := u53
  have hu0 := uR_pos (φ := binary64)
  have hul : υ ≤ 2e-16 := by rw [hu]; norm_num
  have cx : 0 ≤ c * υ := by positivity
  have cx2 : c * υ ≤ 2 ^ 7 := by rw [hu]; rw [mul_one_div, div_le_iff₀ (by norm_num)]; refine hc.trans (by norm_num)
  have cu : 3 * υ ^ 2 * (c * υ) ≤ 1e-10 * υ := by nlinarith
  have f6 : υ ^ 2 ≤ 2e-16 * υ := by nlinarith
  have wu : 0 ≤ υ * w := by positivity
  have cw : 0 ≤ c * υ * w := by positivity
  have hwT : |w| = w := abs_of_nonneg hw0
  have e1 : (|T| + c * υ) * (|w| + (2 * υ * w + 3 * υ ^ 2)) ≤ (1 + c * υ) * (1.001 * w + 3 * υ ^ 2) :=
    mul_le_mul (by linarith) (by rw [hwT]; nlinarith) (by positivity) (by positivity)
  have e2 : (1 + c * υ) * (1.001 * w + 3 * υ ^ 2) ≤ 1.001 * w + 1.001 * (c * υ * w) + 1e-9 * υ := by nlinarith
  have cw1 : c * υ * w ≤ 2 ^ 7 := by nlinarith
  have n1 : Near binary64 (ofF (con *. p)) (T * w) ((1.0005 * c + 3.5) * w * υ + 1e-8 * υ) := by
    have := h.mul fmtA64 hp (e1.trans (e2.trans (by nlinarith)))
    rw [ofF_mul]
    refine this.mono ?_
    have g1 : (2 * υ * w + 3 * υ ^ 2) * |T| ≤ 2 * υ * w + 3 * υ ^ 2 := mul_le_of_le_one_right (by positivity) hT
    have g2 : c * υ * (2 * υ * w + 3 * υ ^ 2) ≤ 1e-4 * (c * υ * w) + 1e-10 * υ := by nlinarith
    have g3 := mul_le_mul_of_nonneg_left (e1.trans e2) hu0.le
    have g4 : υ * (c * υ * w) ≤ 2e-16 * (c * υ * w) := by nlinarith
    have g5 : υ * (1e-9 * υ) ≤ 1e-10 * υ := by nlinarith
    rw [hwT]
    nlinarith
  have hs0 := hsm.nonneg
  have hn0 := n1.nonneg
  have hn1 : (1.0005 * c + 3.5) * w * υ + 1e-8 * υ ≤ 2 ^ 9 := by nlinarith
  have hs1 : s * υ ≤ 1 := by nlinarith
  have := hsm.add fmtA64 n1 (by linarith)
  rw [ofF_add]
  refine this.mono ?_
  have g1 : υ * |S + T * w| ≤ 1.01 * υ := by nlinarith
  have g2 : υ * (s * υ) ≤ 1e-4 * υ := by nlinarith
  have g3 : υ * ((1.0005 * c + 3.5) * w * υ + 1e-8 * υ) ≤ 2e-16 * ((1.0005 * c + 3.5) * w * υ + 1e-8 * υ) := mul_le_mul_of_nonneg_right hul hn0
  nlinarith

/-! ## the loop -/

theorem sinLoop_eq {F : Type} [FOps F] (n : ℤ) (co : F) (fuel : ℕ) : ∀ (k : ℤ) (a b s : F), slSinLoop n co fuel k a b s = slCosLoop n co fuel k a b s := by
  induction fuel with
  | zero => intros; rfl
  | succ f ih => intro k a b s; simp only [slSinLoop, slCosLoop]; exact ih _ _ _ _

/-- growth of the error of the k-th sine or cosine, in units of `u` -/
noncomputable def serC (k : ℕ) : ℝ := 45 * (5 / 2) ^ k
/-- growth of the error of the sum in the k-th step, in units of `u`, for terms with weight `1/k^N` -/
noncomputable def serD (N k : ℕ) : ℝ := 1.011 + (1.001 * serC k + 4) / (k:ℝ) ^ N

theorem serC_step (k : ℕ) : (2 + 1e-9) * serC (k + 1) + (1 + 1e-9) * serC k + 11 ≤ serC (k + 2) := by
  have : (1:ℝ) ≤ (5 / 2) ^ k := one_le_pow₀ (by norm_num)
  simp only [serC, pow_succ]
  nlinarith
theorem serC_nonneg (k : ℕ) : 0 ≤ serC k := by unfold serC; positivity
theorem serC_le {k : ℕ} (hk : k ≤ 38) : serC k ≤ 2 ^ 60 := by
  have : ((5:ℝ) / 2) ^ k ≤ (5 / 2) ^ 38 := pow_le_pow_right₀ (by norm_num) hk
  unfold serC
  refine (mul_le_mul_of_nonneg_left this (by norm_num)).trans (by norm_num)
theorem serD_nonneg (N k : ℕ) : 0 ≤ serD N k := by have := serC_nonneg k; unfold serD; positivity

theorem loop_near (N n : ℕ) (hN : N ≤ n) {co : FP binary64 L} {c : ℝ} (hc : |c| ≤ 1) (hco : Near binary64 (ofF co) c (2 * υ))
    (T : ℕ → ℝ) (hT : ∀ k, |T k| ≤ 1) (hrec : ∀ k, T (k + 2) = 2 * c * T (k + 1) - T k)
    (hp : ∀ k : ℕ, 2 ≤ k → k ≤ 38 → Near binary64 (ofF (FOps.pow (FOps.ofInt (k:ℤ) : FP binary64 L) (FOps.ofInt (-(n:ℤ)) : FP binary64 L))) (1 / (k:ℝ) ^ n) (2 * υ * (1 / (k:ℝ) ^ n) + 3 * υ ^ 2))
    (fuel : ℕ) : ∀ (k : ℕ) (_ : k + fuel ≤ 37) (c2 c1 sm : FP binary64 L) (S s : ℝ),
      Near binary64 (ofF c2) (T k) (serC k * υ) → Near binary64 (ofF c1) (T (k + 1)) (serC (k + 1) * υ) → Near binary64 (ofF sm) S (s * υ) →
      |S| + ∑ i ∈ range fuel, 1 / ((k + 2 + i : ℕ):ℝ) ^ N ≤ 1.01 → s + ∑ i ∈ range fuel, serD N (k + 2 + i) ≤ 200 →
      Near binary64 (ofF (slCosLoop (n:ℤ) co fuel ((k + 2 : ℕ):ℤ) c2 c1 sm)) (S + ∑ i ∈ range fuel, T (k + 2 + i) / ((k + 2 + i : ℕ):ℝ) ^ n)
        ((s + ∑ i ∈ range fuel, serD N (k + 2 + i)) * υ) := by
  induction fuel with
  | zero => intro k _ c2 c1 sm S s _ _ h _ _; simpa [slCosLoop] using h
  | succ f ih =>
    intro k hk c2 c1 sm S s h2 h1 hs hS hD
    have hcon : Near binary64 (ofF ((FOps.lit 2 : FP binary64 L) *. co *. c1 -. c2)) (T (k + 2)) (serC (k + 2) * υ) := by
      have := rec_step hc (hT (k + 1)) (by rw [← hrec]; exact hT _) hco h1 h2 (serC_nonneg _) (serC_nonneg _) (serC_le (by omega)) (serC_le (by omega))
      rw [← hrec] at this
      exact this.mono (mul_le_mul_of_nonneg_right (serC_step k) uR_pos.le)
    have hk1 : (1:ℝ) ≤ ((k + 2 : ℕ):ℝ) := by exact_mod_cast (by omega : 1 ≤ k + 2)
    have hw1 : 1 / ((k + 2 : ℕ):ℝ) ^ n ≤ 1 / ((k + 2 : ℕ):ℝ) ^ N := one_div_le_one_div_of_le (by positivity) (pow_le_pow_right₀ hk1 hN)
    have hw2 : 1 / ((k + 2 : ℕ):ℝ) ^ N ≤ 1 := by rw [div_le_one (by positivity)]; exact one_le_pow₀ hk1
    have hw0 : 0 ≤ 1 / ((k + 2 : ℕ):ℝ) ^ n := by positivity
    have rest1 : 0 ≤ ∑ i ∈ range f, 1 / ((k + 1 + 2 + i : ℕ):ℝ) ^ N := Finset.sum_nonneg fun i _ => by positivity
    have rest2 : 0 ≤ ∑ i ∈ range f, serD N (k + 1 + 2 + i) := Finset.sum_nonneg fun i _ => serD_nonneg _ _
    have sh : ∀ i, k + 2 + (i + 1) = k + 1 + 2 + i := fun i => by ring
    rw [Finset.sum_range_succ'] at hS hD ⊢
    rw [Finset.sum_range_succ' (fun i => serD N (k + 2 + i))]
    simp only [sh, add_zero] at hS hD ⊢
    have hTw : |T (k + 2) * (1 / ((k + 2 : ℕ):ℝ) ^ n)| ≤ 1 / ((k + 2 : ℕ):ℝ) ^ N := by
      rw [abs_mul, abs_of_nonneg hw0]
      exact (mul_le_of_le_one_left hw0 (hT _)).trans hw1
    have hS' := abs_add_le S (T (k + 2) * (1 / ((k + 2 : ℕ):ℝ) ^ n))
    have d0 := serD_nonneg N (k + 2)
    have step := sum_step (hT (k + 2)) hw0 (hw1.trans hw2) (serC_nonneg (k + 2)) (serC_le (by omega)) (by linarith) (by linarith) hcon (hp (k + 2) (by omega) (by omega)) hs
    have step' := step.mono (e' := (s + serD N (k + 2)) * υ) (by
      refine mul_le_mul_of_nonneg_right (add_le_add le_rfl ?_) uR_pos.le
      unfold serD
      rw [← mul_one_div (1.001 * serC (k + 2) + 4)]
      have := mul_le_mul_of_nonneg_left hw1 (show 0 ≤ 1.001 * serC (k + 2) + 4 by have := serC_nonneg (k + 2); positivity)
      linarith)
    have e : slCosLoop (n:ℤ) co (f + 1) ((k + 2 : ℕ):ℤ) c2 c1 sm = slCosLoop (n:ℤ) co f ((k + 1 + 2 : ℕ):ℤ) c1 ((FOps.lit 2 : FP binary64 L) *. co *. c1 -. c2)
        (sm +. ((FOps.lit 2 : FP binary64 L) *. co *. c1 -. c2) *. FOps.pow (FOps.ofInt ((k + 2 : ℕ):ℤ) : FP binary64 L) (FOps.ofInt (-(n:ℤ)) : FP binary64 L)) := by
      rw [slCosLoop]
      have : ((k + 2 : ℕ):ℤ) + 1 = ((k + 1 + 2 : ℕ):ℤ) := by push_cast; ring
      rw [this]
    rw [e]
    have := ih (k + 1) (by omega) c1 _ _ _ _ h1 hcon step' (by linarith) (by linarith)
    refine (this.congr ?_).mono (le_of_eq ?_)
    · ring
    · ring

/-! ## the numbers of terms -/

theorem wsum_le (N fuel : ℕ) (h : (N = 10 ∧ fuel ≤ 36) ∨ (N = 26 ∧ fuel ≤ 4)) : ∑ i ∈ range fuel, 1 / ((0 + 2 + i : ℕ):ℝ) ^ N ≤ 0.01 := by
  have mono : ∀ m, fuel ≤ m → ∑ i ∈ range fuel, 1 / ((0 + 2 + i : ℕ):ℝ) ^ N ≤ ∑ i ∈ range m, 1 / ((0 + 2 + i : ℕ):ℝ) ^ N := fun m hm =>
    Finset.sum_le_sum_of_subset_of_nonneg (Finset.range_subset_range.2 hm) fun i _ _ => by positivity
  rcases h with ⟨rfl, hf⟩ | ⟨rfl, hf⟩
  · refine (mono 36 hf).trans ?_
    simp only [Finset.sum_range_succ, Finset.sum_range_zero]
    norm_num
  · refine (mono 4 hf).trans ?_
    simp only [Finset.sum_range_succ, Finset.sum_range_zero]
    norm_num

/-- bound of the rounding error of the sum -/
noncomputable def serE (N : ℕ) : ℝ := if N = 10 then 49 else 5

theorem dsum_le (N fuel : ℕ) (h : (N = 10 ∧ fuel ≤ 36) ∨ (N = 26 ∧ fuel ≤ 4)) : ∑ i ∈ range fuel, serD N (0 + 2 + i) ≤ serE N := by
  have mono : ∀ m, fuel ≤ m → ∑ i ∈ range fuel, serD N (0 + 2 + i) ≤ ∑ i ∈ range m, serD N (0 + 2 + i) := fun m hm =>
    Finset.sum_le_sum_of_subset_of_nonneg (Finset.range_subset_range.2 hm) fun i _ _ => serD_nonneg _ _
  rcases h with ⟨rfl, hf⟩ | ⟨rfl, hf⟩
  · refine (mono 36 hf).trans ?_
    simp only [Finset.sum_range_succ, Finset.sum_range_zero, serD, serC, serE]
    norm_num
  · refine (mono 4 hf).trans ?_
    simp only [Finset.sum_range_succ, Finset.sum_range_zero, serD, serC, serE]
    norm_num

/-! ## `pow(k, -n)` and the number of terms -/

theorem val_ofInt (n : ℤ) (h : |n| ≤ 2 ^ 63) : Val binary64 (ofF (FOps.ofInt n : FP binary64 L)) (rq binary64 n) := by
  refine val_rndQ (rq_lt_max fmtA64 ?_)
  have : ((|n| : ℤ) : ℝ) ≤ ((2 ^ 63 : ℤ) : ℝ) := by exact_mod_cast h
  push_cast at this ⊢
  exact this.trans (by norm_num)

theorem rq_nat (n : ℕ) (h : n < 2 ^ 24) : rq binary64 (n : ℚ) = n := by
  refine rq_repr ⟨n, 0, by decide, lt_trans h (by decide), ?_⟩
  simp

theorem rq_nat_ge (m n : ℕ) (hm : m < 2 ^ 24) (h : m ≤ n) : (m : ℚ) ≤ rq binary64 (n : ℚ) := by
  rw [← rq_nat m hm]; exact rq_mono (by exact_mod_cast h)

theorem pow_kn (hL : TrigOK binary64 L) (n : ℕ) (hn : n < 2 ^ 63) (k : ℕ) (h2 : 2 ≤ k) (h38 : k ≤ 38) :
    Near binary64 (ofF (FOps.pow (FOps.ofInt (k:ℤ) : FP binary64 L) (FOps.ofInt (-(n:ℤ)) : FP binary64 L))) (1 / (k:ℝ) ^ n) (2 * υ * (1 / (k:ℝ) ^ n) + 3 * υ ^ 2) := by
  have hu0 := uR_pos (φ := binary64)
  have hk : Val binary64 (ofF (FOps.ofInt (k:ℤ) : FP binary64 L)) k := by
    have := val_ofInt (L := L) (k:ℤ) (by rw [abs_of_nonneg (by positivity)]; exact_mod_cast (by omega : k ≤ 2 ^ 63))
    rwa [show (((k:ℤ)) : ℚ) = (k:ℚ) by push_cast; rfl, rq_nat k (by omega)] at this
  have hb : Val binary64 (ofF (FOps.ofInt (-(n:ℤ)) : FP binary64 L)) (-rq binary64 (n:ℚ)) := by
    have := val_ofInt (L := L) (-(n:ℤ)) (by rw [abs_neg, abs_of_nonneg (by positivity)]; exact_mod_cast hn.le)
    rwa [show ((-(n:ℤ) : ℤ) : ℚ) = -(n:ℚ) by push_cast; rfl, rq_neg] at this
  have hk1 : (2:ℝ) ≤ k := by exact_mod_cast h2
  have hr0 : (0:ℚ) ≤ rq binary64 (n:ℚ) := rq_nonneg (by positivity)
  have hr0' : (0:ℝ) ≤ ((rq binary64 (n:ℚ) : ℚ) : ℝ) := by exact_mod_cast hr0
  have hle : ((k:ℚ):ℝ) ^ (((-rq binary64 (n:ℚ) : ℚ)) : ℝ) ≤ 1 := by
    push_cast
    exact Real.rpow_le_one_of_one_le_of_nonpos (by linarith) (by linarith)
  have h := hL.pow _ _ k (-rq binary64 (n:ℚ)) hk hb (by positivity) (hle.trans (by norm_num))
  rcases lt_or_ge n (2 ^ 24) with hs | hs
  · rw [rq_nat n hs] at h
    have e : ((k:ℚ):ℝ) ^ (((-(n:ℚ) : ℚ)) : ℝ) = 1 / (k:ℝ) ^ n := by
      push_cast
      rw [Real.rpow_neg (by linarith), Real.rpow_natCast, one_div]
    rw [e] at h
    exact h.mono (by nlinarith)
  · have h127 : ((127:ℕ):ℚ) ≤ rq binary64 (n:ℚ) := rq_nat_ge 127 n (by norm_num) (by omega)
    have h127' : (127:ℝ) ≤ ((rq binary64 (n:ℚ) : ℚ) : ℝ) := by exact_mod_cast h127
    have u2 : υ ^ 2 = 1 / 2 ^ 106 := by rw [u53]; norm_num
    have e1 : ((k:ℚ):ℝ) ^ (((-rq binary64 (n:ℚ) : ℚ)) : ℝ) ≤ 1 / 2 ^ 127 := by
      push_cast
      rw [Real.rpow_neg (by linarith), ← one_div]
      refine one_div_le_one_div_of_le (by positivity) ?_
      calc (2:ℝ) ^ 127 = (2:ℝ) ^ (127:ℝ) := by norm_num [← Real.rpow_natCast]
        _ ≤ (k:ℝ) ^ (127:ℝ) := Real.rpow_le_rpow (by norm_num) hk1 (by norm_num)
        _ ≤ _ := Real.rpow_le_rpow_of_exponent_le (by linarith) h127'
    have e10 : 0 ≤ ((k:ℚ):ℝ) ^ (((-rq binary64 (n:ℚ) : ℚ)) : ℝ) := by push_cast; positivity
    have e2 : 1 / (k:ℝ) ^ n ≤ 1 / 2 ^ 127 := by
      refine one_div_le_one_div_of_le (by positivity) ?_
      calc (2:ℝ) ^ 127 ≤ 2 ^ n := pow_le_pow_right₀ (by norm_num) (by omega)
        _ ≤ _ := pow_le_pow_left₀ (by norm_num) hk1 n
    have e20 : 0 ≤ 1 / (k:ℝ) ^ n := by positivity
    refine (h.shift (r' := 1 / (k:ℝ) ^ n) (d := 1 / 2 ^ 127) ?_).mono ?_
    · rw [abs_le]; constructor <;> linarith
    · have : υ ≤ 1 / 2 := by rw [u53]; norm_num
      have h3 : 2 * υ * ((k:ℚ):ℝ) ^ (((-rq binary64 (n:ℚ) : ℚ)) : ℝ) ≤ 1 / 2 ^ 127 := by nlinarith
      have h4 : 0 ≤ 2 * υ * (1 / (k:ℝ) ^ n) := by positivity
      rw [u2]
      norm_num at h3 h4 ⊢
      linarith

end Polylog
