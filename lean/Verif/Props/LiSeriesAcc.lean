import Verif.Props.LiUB
import Verif.Proofs.UnityCut
import Verif.Sem.Lit

/-!
# C20: the power series of `Li(n,z)`

`seriesTrace n z m` is the pair `(sum, p)` after `m` passes through the body of the loop of `Li_series`, not
looking at the stop test; `liSeries_stop` says that the result of `Li_series` is one of these sums, in every
arithmetic.  `seriesTrace_R` evaluates the trace over the reals.
-/

namespace Polylog

section
variable {F : Type} [FOps F]

/-- `(sum, p)` after `m` iterations of Li.cpp 54-60 -/
def seriesTrace (n : Int) (z : Cx F) : ℕ → Cx F × Cx F
  | 0 => (⟨(FOps.lit 0 : F), (FOps.lit 0 : F)⟩, z)
  | m + 1 =>
    let t := seriesTrace n z m
    (t.1 +. t.2, t.2 *. (z *. powi ((FOps.ofInt ((m : Int) + 1) : F) /. ((FOps.lit 1 : F) +. (FOps.ofInt ((m : Int) + 1) : F))) n))

/-- the loop ends after iteration `m` (counting from 0): `p` is not finite, or `sum == sum_old` -/
def seriesStop (n : Int) (z : Cx F) (m : ℕ) : Bool :=
  !cisFinite (seriesTrace n z (m + 1)).2 || !Cx.bne (seriesTrace n z (m + 1)).1 (seriesTrace n z m).1

theorem liSeriesLoop_stop (n : Int) (z : Cx F) : ∀ (fuel m : ℕ),
    ∃ i, m ≤ i ∧ i ≤ m + fuel ∧ liSeriesLoop n z fuel (m : Int) (seriesTrace n z m).1 (seriesTrace n z m).2 = (seriesTrace n z (i + 1)).1 ∧
      (i = m + fuel ∨ seriesStop n z i = true) ∧ ∀ j, m ≤ j → j < i → seriesStop n z j = false := by
  intro fuel
  induction fuel with
  | zero =>
    intro m
    refine ⟨m, le_rfl, le_rfl, ?_, Or.inl rfl, fun j h1 h2 => by omega⟩
    unfold liSeriesLoop
    dsimp only
    split
    · rfl
    split <;> rfl
  | succ f ih =>
    intro m
    have e : liSeriesLoop n z (f + 1) (m : Int) (seriesTrace n z m).1 (seriesTrace n z m).2 =
        if seriesStop n z m then (seriesTrace n z (m + 1)).1 else
          liSeriesLoop n z f ((m + 1 : ℕ) : Int) (seriesTrace n z (m + 1)).1 (seriesTrace n z (m + 1)).2 := by
      conv_lhs => unfold liSeriesLoop
      unfold seriesStop
      dsimp only
      show (if (!cisFinite (seriesTrace n z (m + 1)).2) = true then (seriesTrace n z (m + 1)).1
        else if Cx.bne (seriesTrace n z (m + 1)).1 (seriesTrace n z m).1 = true then
          liSeriesLoop n z f ((m : Int) + 1) (seriesTrace n z (m + 1)).1 (seriesTrace n z (m + 1)).2
        else (seriesTrace n z (m + 1)).1) = _
      cases cisFinite (seriesTrace n z (m + 1)).2
      · simp
      · cases Cx.bne (seriesTrace n z (m + 1)).1 (seriesTrace n z m).1 <;> simp
    rw [e]
    cases h : seriesStop n z m
    · obtain ⟨i, h1, h2, h3, h4, h5⟩ := ih (m + 1)
      refine ⟨i, by omega, by omega, ?_, h4.imp (fun h => by omega) id, fun j hj hi => ?_⟩
      · simp only [Bool.false_eq_true, if_false]; exact h3
      · rcases Nat.eq_or_lt_of_le hj with rfl | hj'
        · exact h
        · exact h5 j hj' hi
    · exact ⟨m, le_rfl, by omega, by simp, Or.inr h, fun j h1 h2 => by omega⟩

/-- **`Li_series` returns the partial sum at its first stopping index** (at most `2^63 - 4`, counted from 0). -/
theorem liSeries_stop (n : Int) (z : Cx F) :
    ∃ i : ℕ, i ≤ 2 ^ 63 - 4 ∧ liSeries n z = (seriesTrace n z (i + 1)).1 ∧
      (i = 2 ^ 63 - 4 ∨ seriesStop n z i = true) ∧ ∀ j < i, seriesStop n z j = false := by
  have e : (i64max - 3).toNat = 2 ^ 63 - 4 := by decide
  obtain ⟨i, _, h2, h3, h4, h5⟩ := liSeriesLoop_stop n z (2 ^ 63 - 4) 0
  refine ⟨i, by omega, ?_, h4.imp (fun h => by omega) id, fun j hj => h5 j (by omega) hj⟩
  unfold liSeries
  rw [e]; exact h3

end

noncomputable section
variable {S : RealSem} {u : ℝ}

theorem powi_pos_R {x : R S} (hx : 0 < ofR x) (n : ℤ) : ofR (powi x n) = ofR x ^ n := by
  show realPow S.powJ (ofR x) ((n : ℤ) : ℝ) = _
  rw [realPow, if_pos hx, Real.rpow_intCast]

/-- the trace over the reals: partial sums and terms of `∑ z^k / k^n` -/
theorem seriesTrace_R (hS : S.Lit u) (n : ℤ) (z : ℂ) (m : ℕ) :
    (seriesTrace n (ofC S z) m).1.toC = ∑ k ∈ Finset.range m, z ^ (k + 1) / ((k : ℂ) + 1) ^ n ∧
    (seriesTrace n (ofC S z) m).2.toC = z ^ (m + 1) / ((m : ℂ) + 1) ^ n := by
  induction m with
  | zero =>
    refine ⟨?_, ?_⟩
    · simp only [seriesTrace, toC_mk, ofR_lit, hS.zero]; simp; rfl
    · simp [seriesTrace]
  | succ m ih =>
    refine ⟨?_, ?_⟩
    · rw [Finset.sum_range_succ, seriesTrace]
      dsimp only
      rw [toC_add, ih.1, ih.2]
    · rw [seriesTrace]
      dsimp only
      have h1 : ofR ((FOps.lit 1 : R S) +. (FOps.ofInt ((m : Int) + 1) : R S)) = (m:ℝ) + 2 := by
        rw [ofR_add, ofR_lit, hS.one, ofR_ofInt]; push_cast; ring
      have h2 : ofR ((FOps.ofInt ((m : Int) + 1) : R S) /. ((FOps.lit 1 : R S) +. (FOps.ofInt ((m : Int) + 1) : R S))) = ((m:ℝ) + 1) / ((m:ℝ) + 2) := by
        rw [ofR_div (by rw [h1]; positivity), h1, ofR_ofInt]; push_cast; rfl
      rw [toC_mul, toC_mulr, ih.2, powi_pos_R (by rw [h2]; positivity), h2, toC_ofC]
      have h3 : (m:ℂ) + 1 ≠ 0 := by exact_mod_cast Nat.succ_ne_zero m
      have h4 : (m:ℂ) + 2 ≠ 0 := by exact_mod_cast Nat.succ_ne_zero (m + 1)
      push_cast
      rw [show ((m:ℂ) + 1 + 1) = (m:ℂ) + 2 by ring, div_zpow]
      have h5 := zpow_ne_zero n h3
      have h6 := zpow_ne_zero n h4
      field_simp
      ring

/-- over the reals the loop stops early for `z = 0` only -/
theorem seriesStop_R (hS : S.Lit u) (n : ℤ) {z : ℂ} (hz : z ≠ 0) (m : ℕ) : seriesStop n (ofC S z) m = false := by
  have h1 := (seriesTrace_R hS n z m)
  have h2 := (seriesTrace_R hS n z (m + 1))
  have hf : cisFinite (seriesTrace n (ofC S z) (m + 1)).2 = true := rfl
  unfold seriesStop
  rw [hf, Cx.bne, beq_R, h1.1, h2.1, Finset.sum_range_succ]
  have h3 : (m:ℂ) + 1 ≠ 0 := by exact_mod_cast Nat.succ_ne_zero m
  have : z ^ (m + 1) / ((m:ℂ) + 1) ^ n ≠ 0 := div_ne_zero (pow_ne_zero _ hz) (zpow_ne_zero n h3)
  simp [this]

theorem liSeries_R (hS : S.Lit u) (n : ℤ) {z : ℂ} (hz : z ≠ 0) :
    (liSeries n (ofC S z)).toC = ∑ k ∈ Finset.range (2 ^ 63 - 3), z ^ (k + 1) / ((k : ℂ) + 1) ^ n := by
  obtain ⟨i, h1, h2, h3, _⟩ := liSeries_stop n (ofC S z)
  rw [seriesStop_R hS n hz] at h3
  have : i = 2 ^ 63 - 4 := by simpa using h3
  subst this
  rw [h2, (seriesTrace_R hS n z _).1, show 2 ^ 63 - 4 + 1 = 2 ^ 63 - 3 from rfl]

/-- remainder of the power series, `n ≥ 0`: at most the first omitted term divided by `1 - |z|` -/
theorem series_remainder (n : ℕ) {z : ℂ} (hz : ‖z‖ < 1) (m : ℕ) :
    ‖(∑ k ∈ Finset.range m, z ^ (k + 1) / ((k : ℂ) + 1) ^ (n + 1)) - pLi (n + 1) z‖ ≤
      ‖z ^ (m + 1) / ((m : ℂ) + 1) ^ (n + 1)‖ / (1 - ‖z‖) := by
  have h := pLi_hasSum_lt n z hz
  have ht := (hasSum_nat_add_iff' m).mpr h
  rw [norm_sub_rev]
  have hb : ∀ k : ℕ, ‖z ^ (k + m + 1) / (((k + m : ℕ) : ℂ) + 1) ^ (n + 1)‖ ≤ ‖z ^ (m + 1) / ((m : ℂ) + 1) ^ (n + 1)‖ * ‖z‖ ^ k := by
    intro k
    have e1 : ‖(((k + m : ℕ) : ℂ) + 1)‖ = ((k + m : ℕ) : ℝ) + 1 := by
      have : (((k + m : ℕ) : ℂ) + 1) = ((k + m + 1 : ℕ) : ℂ) := by push_cast; ring
      rw [this, Complex.norm_natCast]; push_cast; ring
    have e2 : ‖((m : ℂ) + 1)‖ = (m : ℝ) + 1 := by
      have : ((m : ℂ) + 1) = ((m + 1 : ℕ) : ℂ) := by push_cast; ring
      rw [this, Complex.norm_natCast]; push_cast; ring
    rw [norm_div, norm_div, norm_pow, norm_pow, norm_pow, norm_pow, e1, e2, show k + m + 1 = (m + 1) + k by ring, pow_add, div_mul_eq_mul_div]
    refine div_le_div_of_nonneg_left (by positivity) (by positivity) ?_
    refine pow_le_pow_left₀ (by positivity) ?_ _
    push_cast; linarith [(Nat.cast_nonneg k : (0:ℝ) ≤ k)]
  have hg : HasSum (fun k : ℕ => ‖z ^ (m + 1) / ((m : ℂ) + 1) ^ (n + 1)‖ * ‖z‖ ^ k) (‖z ^ (m + 1) / ((m : ℂ) + 1) ^ (n + 1)‖ * (1 - ‖z‖)⁻¹) :=
    (hasSum_geometric_of_lt_one (norm_nonneg _) hz).mul_left _
  rw [div_eq_mul_inv]
  exact ht.norm_le_of_bounded hg hb

/-- **C20 (power series, every stopping index).**  With exact elementary operations, after any number `m` of
iterations the partial sum of `Li_series(n,z)` differs from `Li_n(z)` by at most four times the next term `p`. -/
theorem C20_series_stop (hS : S.Lit u) (n : ℕ) {z : ℂ} (hz : ‖z‖ ≤ 3 / 4) (m : ℕ) :
    ‖(seriesTrace ((n + 1 : ℕ) : ℤ) (ofC S z) m).1.toC - pLi (n + 1) z‖ ≤ 4 * ‖(seriesTrace ((n + 1 : ℕ) : ℤ) (ofC S z) m).2.toC‖ ∧
    ‖(seriesTrace ((n + 1 : ℕ) : ℤ) (ofC S z) m).2.toC‖ ≤ (3 / 4) ^ (m + 1) / ((m:ℝ) + 1) ^ (n + 1) := by
  obtain ⟨h1, h2⟩ := seriesTrace_R hS ((n + 1 : ℕ) : ℤ) z m
  rw [h1, h2]
  simp only [zpow_natCast]
  constructor
  · refine (series_remainder n (lt_of_le_of_lt hz (by norm_num)) m).trans ?_
    rw [div_le_iff₀ (by linarith)]
    nlinarith [norm_nonneg (z ^ (m + 1) / ((m : ℂ) + 1) ^ (n + 1))]
  · have e2 : ‖((m : ℂ) + 1)‖ = (m : ℝ) + 1 := by
      have : ((m : ℂ) + 1) = ((m + 1 : ℕ) : ℂ) := by push_cast; ring
      rw [this, Complex.norm_natCast]; push_cast; ring
    rw [norm_div, norm_pow, norm_pow, e2]
    gcongr

/-- `Li` dispatches to the power series for `n ≥ 7`, `|z|² ≤ 0.75²` -/
theorem Li_series_branch {F : Type} [FOps F] (fuel : ℕ) (n : Int) (h7 : 7 ≤ n) (z : Cx F) (hr : Regular z)
    (h : (Cx.norm z <=. (FOps.lit 0.75 : F) *. (FOps.lit 0.75 : F)) = true) : Li fuel n z = .ok (liSeries n z) := by
  rw [Li.eq_def]
  simp only [hr.nan, hr.inf, hr.zero, hr.one, hr.mone, Bool.false_eq_true, if_false]
  rw [if_neg (by omega), if_neg (by omega), if_neg (by omega), if_neg (by omega), if_neg (by omega), if_neg (by omega),
    if_neg (by omega), if_neg (by omega), if_neg (by omega), if_pos h]
  rfl

theorem lit075 (hS : S.Lit u) : ofR (FOps.lit 0.75 : R S) = 3 / 4 := by
  rw [ofR_lit, hS.dy 0.75 3 2 (by norm_num) (by norm_num) (by norm_num)]; norm_num

theorem norm_le_075 (hS : S.Lit u) (z : ℂ) :
    (Cx.norm (ofC S z) <=. (FOps.lit 0.75 : R S) *. (FOps.lit 0.75 : R S)) = true ↔ ‖z‖ ≤ 3 / 4 := by
  rw [le_R, ofR_norm, ofR_mul, lit075 hS, decide_eq_true_eq, toC_ofC, Complex.normSq_eq_norm_sq]
  constructor
  · intro h; exact abs_le_of_sq_le_sq' (by linarith) (by norm_num) |>.2
  · intro h; nlinarith [norm_nonneg z]

/-- the remainder after `N` terms -/
theorem series_full (n N : ℕ) {z : ℂ} (hz : ‖z‖ ≤ 3 / 4) :
    ‖(∑ k ∈ Finset.range N, z ^ (k + 1) / ((k : ℂ) + 1) ^ (n + 1)) - pLi (n + 1) z‖ ≤ 4 * (3 / 4) ^ (N + 1) := by
  have h := series_remainder n (lt_of_le_of_lt hz (by norm_num)) N
  refine h.trans ?_
  rw [div_le_iff₀ (by linarith)]
  have e2 : ‖((N : ℂ) + 1)‖ = (N : ℝ) + 1 := by
    have : ((N : ℂ) + 1) = ((N + 1 : ℕ) : ℂ) := by push_cast; ring
    rw [this, Complex.norm_natCast]; push_cast; ring
  rw [norm_div, norm_pow, norm_pow, e2]
  have h1 : ‖z‖ ^ (N + 1) ≤ (3 / 4) ^ (N + 1) := pow_le_pow_left₀ (norm_nonneg _) hz _
  have h2 : (1:ℝ) ≤ ((N:ℝ) + 1) ^ (n + 1) := one_le_pow₀ (by linarith [(Nat.cast_nonneg N : (0:ℝ) ≤ N)])
  have h3 : ‖z‖ ^ (N + 1) / ((N:ℝ) + 1) ^ (n + 1) ≤ ‖z‖ ^ (N + 1) := div_le_self (by positivity) h2
  have h4 : (0:ℝ) ≤ (3 / 4) ^ (N + 1) := by positivity
  calc _ ≤ (3 / 4 : ℝ) ^ (N + 1) := h3.trans h1
    _ ≤ _ := by nlinarith

/-- **C20 (`|z| ≤ 0.75`).** For every `n ≥ 7` and every `z ≠ 0` with `|z| ≤ 0.75` (with exact elementary operations): the
value of `Li(n,z)` is `Li_n(z)` up to the tail of the power series after `2^63 - 3` terms. -/
theorem C20_series (hS : S.Lit u) (fuel : ℕ) (n : ℕ) (h7 : 7 ≤ n) {z : ℂ} (h0 : z ≠ 0) (hz : ‖z‖ ≤ 3 / 4) :
    ∃ v, Li fuel (n : ℤ) (ofC S z) = .ok v ∧ ‖v.toC - pLi n z‖ ≤ 4 * (3 / 4) ^ (2 ^ 63 - 2) := by
  have h1 : z ≠ 1 := by rintro rfl; norm_num at hz
  have h2 : z ≠ -1 := by rintro rfl; norm_num at hz
  refine ⟨_, Li_series_branch fuel n (by omega) _ (regular_R hS _ h0 h1 h2) ((norm_le_075 hS z).mpr hz), ?_⟩
  rw [liSeries_R hS _ h0]
  obtain ⟨m, rfl⟩ : ∃ m, n = m + 1 := ⟨n - 1, by omega⟩
  simp only [zpow_natCast]
  exact series_full m (2 ^ 63 - 3) hz

/-- non-vacuity -/
example : RealSem.dec.Lit 0 ∧ (7:ℕ) ≤ 9 ∧ (⟨1 / 2, 1 / 2⟩ : ℂ) ≠ 0 ∧ ‖(⟨1 / 2, 1 / 2⟩ : ℂ)‖ ≤ 3 / 4 := by
  refine ⟨RealSem.dec_lit, by norm_num, by simp [Complex.ext_iff], ?_⟩
  rw [Complex.norm_eq_sqrt_sq_add_sq]
  rw [Real.sqrt_le_left (by norm_num)]
  norm_num

end
end Polylog
