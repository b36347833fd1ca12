import Mathlib.Analysis.Calculus.SmoothSeries
import Mathlib.Analysis.SpecificLimits.Normed
import Mathlib.Analysis.Normed.Ring.InfiniteSum
import Mathlib.Analysis.SpecialFunctions.Exponential
import Mathlib.NumberTheory.ZetaValues
import Mathlib.Analysis.Real.Pi.Bounds
import Mathlib.Topology.Algebra.InfiniteSum.NatInt

/-! # Complex power series with geometrically bounded coefficients; the Bernoulli generating function -/

noncomputable section
namespace Polylog
open Filter Topology Metric

/-- `∑ a_k z^k` -/
def psum (a : ℕ → ℂ) (z : ℂ) : ℂ := ∑' k, a k * z ^ k

/-- `|a_k| ρ^k ≤ C` for all `k` -/
def CoefBound (a : ℕ → ℂ) (ρ C : ℝ) : Prop := ∀ k, ‖a k‖ * ρ ^ k ≤ C

theorem CoefBound.norm_le {a : ℕ → ℂ} {ρ C : ℝ} (h : CoefBound a ρ C) (hρ : 0 < ρ) {z : ℂ} {r : ℝ} (hz : ‖z‖ ≤ r) (k : ℕ) :
    ‖a k * z ^ k‖ ≤ C * (r / ρ) ^ k := by
  have h1 : ‖a k‖ ≤ C / ρ ^ k := by rw [le_div_iff₀ (by positivity)]; exact h k
  rw [norm_mul, norm_pow, div_pow, mul_div_assoc', mul_comm C, mul_div_assoc, mul_comm]
  exact mul_le_mul (pow_le_pow_left₀ (norm_nonneg _) hz _) h1 (norm_nonneg _) (pow_nonneg (le_trans (norm_nonneg _) hz) _)

theorem CoefBound.summable_norm {a : ℕ → ℂ} {ρ C : ℝ} (h : CoefBound a ρ C) (hρ : 0 < ρ) {z : ℂ} (hz : ‖z‖ < ρ) :
    Summable fun k => ‖a k * z ^ k‖ := by
  refine Summable.of_nonneg_of_le (fun _ => norm_nonneg _) (h.norm_le hρ le_rfl) ?_
  exact (summable_geometric_of_lt_one (by positivity) ((div_lt_one hρ).mpr hz)).mul_left C

theorem CoefBound.hasSum {a : ℕ → ℂ} {ρ C : ℝ} (h : CoefBound a ρ C) (hρ : 0 < ρ) {z : ℂ} (hz : ‖z‖ < ρ) :
    HasSum (fun k => a k * z ^ k) (psum a z) := (h.summable_norm hρ hz).of_norm.hasSum

theorem psum_zero (a : ℕ → ℂ) : psum a 0 = a 0 := by
  rw [psum, tsum_eq_single 0]
  · simp
  · intro k hk; simp [hk]

theorem CoefBound.nonneg {a : ℕ → ℂ} {ρ C : ℝ} (h : CoefBound a ρ C) : 0 ≤ C := by
  have := h 0; simp at this; exact le_trans (norm_nonneg _) this

/-- coefficients of the derivative -/
def dcoef (a : ℕ → ℂ) (k : ℕ) : ℂ := (k + 1) * a (k + 1)

theorem CoefBound.hasDerivAt {a : ℕ → ℂ} {ρ C : ℝ} (h : CoefBound a ρ C) (hρ : 0 < ρ) {z : ℂ} (hz : ‖z‖ < ρ) :
    HasDerivAt (psum a) (psum (dcoef a) z) z := by
  obtain ⟨r, hr1, hr2⟩ := exists_between hz
  have hr0 : 0 < r := lt_of_le_of_lt (norm_nonneg _) hr1
  have hq : r / ρ < 1 := (div_lt_one hρ).mpr hr2
  have hq0 : 0 ≤ r / ρ := by positivity
  have hC := h.nonneg
  have hsum : Summable fun k : ℕ => (k : ℝ) * (C * (r / ρ) ^ k / r) := by
    have := summable_pow_mul_geometric_of_norm_lt_one (R := ℝ) 1 (r := r / ρ) (by rw [Real.norm_eq_abs, abs_of_nonneg hq0]; exact hq)
    refine (this.mul_left (C / r)).congr fun k => ?_
    rw [pow_one]; ring
  have hd := hasDerivAt_tsum_of_isPreconnected (𝕜 := ℂ) (t := ball (0:ℂ) r) (g := fun k (w : ℂ) => a k * w ^ k)
    (g' := fun k w => a k * (k * w ^ (k - 1))) (u := fun k : ℕ => (k : ℝ) * (C * (r / ρ) ^ k / r)) (y₀ := 0) (y := z)
    hsum isOpen_ball (convex_ball 0 r).isPreconnected
    (fun k w _ => (hasDerivAt_pow k w).const_mul (a k)) ?_ (by simpa using hr0)
    ((h.summable_norm hρ (by simpa using hρ)).of_norm) (by simpa using hr1)
  · refine HasDerivAt.congr_deriv hd ?_
    have hs2 : Summable fun k : ℕ => a k * (k * z ^ (k - 1)) := by
      refine Summable.of_norm_bounded hsum fun k => ?_
      have := h.norm_le hρ (r := r) (z := (r : ℂ)) (by rw [Complex.norm_real, Real.norm_eq_abs, abs_of_pos hr0]) k
      rcases Nat.eq_zero_or_pos k with h0 | h0
      · simp [h0]
      · rw [norm_mul, norm_mul, norm_pow, Complex.norm_natCast]
        rw [norm_mul, norm_pow, Complex.norm_real, Real.norm_eq_abs, abs_of_pos hr0] at this
        have e : r ^ k = r ^ (k - 1) * r := by rw [← pow_succ, Nat.sub_add_cancel h0]
        have h2 : ‖z‖ ^ (k - 1) ≤ r ^ (k - 1) := pow_le_pow_left₀ (norm_nonneg _) hr1.le _
        have h3 : ‖a k‖ * r ^ (k - 1) ≤ C * (r / ρ) ^ k / r := by
          rw [le_div_iff₀ hr0, mul_assoc, ← e]; exact this
        calc ‖a k‖ * (k * ‖z‖ ^ (k - 1)) = k * (‖a k‖ * ‖z‖ ^ (k - 1)) := by ring
          _ ≤ k * (‖a k‖ * r ^ (k - 1)) := by gcongr
          _ ≤ _ := by gcongr
    show (∑' k : ℕ, a k * (k * z ^ (k - 1))) = _
    rw [hs2.tsum_eq_zero_add, psum]
    simp only [Nat.cast_zero, zero_mul, mul_zero, zero_add, Nat.add_sub_cancel, dcoef]
    congr 1; ext k; push_cast; ring
  · intro k w hw
    have hw' : ‖w‖ < r := by simpa using hw
    have := h.norm_le hρ (r := r) (z := (r : ℂ)) (by rw [Complex.norm_real, Real.norm_eq_abs, abs_of_pos hr0]) k
    rcases Nat.eq_zero_or_pos k with h0 | h0
    · simp [h0]
    · rw [norm_mul, norm_mul, norm_pow, Complex.norm_natCast]
      rw [norm_mul, norm_pow, Complex.norm_real, Real.norm_eq_abs, abs_of_pos hr0] at this
      have e : r ^ k = r ^ (k - 1) * r := by rw [← pow_succ, Nat.sub_add_cancel h0]
      have h2 : ‖w‖ ^ (k - 1) ≤ r ^ (k - 1) := pow_le_pow_left₀ (norm_nonneg _) hw'.le _
      have h3 : ‖a k‖ * r ^ (k - 1) ≤ C * (r / ρ) ^ k / r := by
        rw [le_div_iff₀ hr0, mul_assoc, ← e]; exact this
      calc ‖a k‖ * (k * ‖w‖ ^ (k - 1)) = k * (‖a k‖ * ‖w‖ ^ (k - 1)) := by ring
        _ ≤ k * (‖a k‖ * r ^ (k - 1)) := by gcongr
        _ ≤ _ := by gcongr

theorem CoefBound.continuousAt {a : ℕ → ℂ} {ρ C : ℝ} (h : CoefBound a ρ C) (hρ : 0 < ρ) {z : ℂ} (hz : ‖z‖ < ρ) :
    ContinuousAt (psum a) z := (h.hasDerivAt hρ hz).continuousAt

/-- truncation error -/
theorem CoefBound.tail {a : ℕ → ℂ} {ρ C r : ℝ} (h : CoefBound a ρ C) (hρ : 0 < ρ) {z : ℂ} (hz : ‖z‖ ≤ r) (hr : r < ρ) (K : ℕ) :
    ‖psum a z - ∑ k ∈ Finset.range K, a k * z ^ k‖ ≤ C * (r / ρ) ^ K / (1 - r / ρ) := by
  have hs := (hasSum_nat_add_iff' K).mpr (h.hasSum hρ (lt_of_le_of_lt hz hr))
  rw [← hs.tsum_eq]
  have hr0 : 0 ≤ r := le_trans (norm_nonneg _) hz
  have hq : r / ρ < 1 := (div_lt_one hρ).mpr hr
  have hg := (hasSum_geometric_of_lt_one (by positivity) hq).mul_left (C * (r / ρ) ^ K)
  rw [div_eq_mul_inv (C * (r / ρ) ^ K)]
  refine tsum_of_norm_bounded hg fun k => ?_
  have := h.norm_le hρ hz (k + K)
  rwa [pow_add (r / ρ), mul_comm ((r / ρ) ^ k), ← mul_assoc] at this

/-- Cauchy product -/
theorem psum_mul {a b : ℕ → ℂ} {ρ A B : ℝ} (ha : CoefBound a ρ A) (hb : CoefBound b ρ B) (hρ : 0 < ρ) {z : ℂ} (hz : ‖z‖ < ρ) :
    psum a z * psum b z = psum (fun n => ∑ ij ∈ Finset.antidiagonal n, a ij.1 * b ij.2) z := by
  rw [psum, psum, tsum_mul_tsum_eq_tsum_sum_antidiagonal_of_summable_norm (ha.summable_norm hρ hz) (hb.summable_norm hρ hz), psum]
  congr 1; ext n
  rw [Finset.sum_mul]
  refine Finset.sum_congr rfl fun ij hij => ?_
  rw [Finset.mem_antidiagonal] at hij
  rw [← hij, pow_add]; ring

/-! ## Bernoulli numbers -/

/-- `B_k / k!` with `B_1 = -1/2` -/
def bernC (k : ℕ) : ℂ := ((bernoulli k / k.factorial : ℚ) : ℂ)

theorem zeta_even_le (k : ℕ) (hk : k ≠ 0) : ∑' n : ℕ, 1 / (n : ℝ) ^ (2 * k) ≤ Real.pi ^ 2 / 6 := by
  have h1 := (hasSum_zeta_nat hk).summable
  rw [← hasSum_zeta_two.tsum_eq]
  refine Summable.tsum_le_tsum (fun n => ?_) h1 hasSum_zeta_two.summable
  rcases Nat.eq_zero_or_pos n with h0 | h0
  · simp [h0, hk]
  · apply one_div_le_one_div_of_le (by positivity)
    apply pow_le_pow_right₀ (by exact_mod_cast h0); omega

theorem bernC_norm_even (k : ℕ) (hk : k ≠ 0) :
    ‖bernC (2 * k)‖ * (2 * Real.pi) ^ (2 * k) = 2 * ∑' n : ℕ, 1 / (n : ℝ) ^ (2 * k) := by
  have h := (hasSum_zeta_nat hk).tsum_eq
  have h0 : 0 ≤ ∑' n : ℕ, 1 / (n : ℝ) ^ (2 * k) := tsum_nonneg fun n => by positivity
  have e : ‖bernC (2 * k)‖ = |(bernoulli (2 * k) : ℝ)| / ((2 * k).factorial : ℝ) := by
    rw [bernC, show ((bernoulli (2 * k) / (2 * k).factorial : ℚ) : ℂ) = (((bernoulli (2 * k) / (2 * k).factorial : ℚ) : ℝ) : ℂ) by push_cast; rfl,
      Complex.norm_real, Real.norm_eq_abs, Rat.cast_div, abs_div]
    simp
  have h2 : |∑' n : ℕ, 1 / (n : ℝ) ^ (2 * k)| = 2 ^ (2 * k - 1) * Real.pi ^ (2 * k) * |(bernoulli (2 * k) : ℝ)| / ((2 * k).factorial : ℝ) := by
    rw [h, abs_div, abs_mul, abs_mul, abs_mul, abs_pow, abs_neg, abs_one, one_pow, one_mul,
      abs_of_nonneg (by positivity : (0:ℝ) ≤ 2 ^ (2 * k - 1)), abs_of_nonneg (by positivity : (0:ℝ) ≤ Real.pi ^ (2 * k)),
      abs_of_nonneg (by positivity : (0:ℝ) ≤ ((2 * k).factorial : ℝ))]
  rw [abs_of_nonneg h0] at h2
  rw [h2, e, mul_pow]
  have : (2:ℝ) ^ (2 * k) = 2 * 2 ^ (2 * k - 1) := by rw [← pow_succ']; congr 1; omega
  rw [this]; ring

theorem bernC_bound : CoefBound bernC (2 * Real.pi) 4 := by
  intro k
  have hpi := Real.pi_lt_d2
  have hpi0 := Real.pi_gt_three
  rcases Nat.even_or_odd' k with ⟨m, rfl | rfl⟩
  · rcases Nat.eq_zero_or_pos m with h | h
    · subst h; simp [bernC]
    · rw [bernC_norm_even m h.ne']
      have := zeta_even_le m h.ne'
      nlinarith
  · rcases Nat.eq_zero_or_pos m with h | h
    · subst h
      simp [bernC, bernoulli_one]
      linarith
    · have : bernoulli (2 * m + 1) = 0 := bernoulli_eq_zero_of_odd (by exact ⟨m, rfl⟩) (by omega)
      simp [bernC, this]

/-- coefficients of `e^u - 1` -/
def expm1C (k : ℕ) : ℂ := if k = 0 then 0 else 1 / (k.factorial : ℂ)

theorem expm1C_bound (ρ : ℝ) (hρ : 0 < ρ) : CoefBound expm1C ρ (Real.exp ρ) := by
  intro k
  rw [expm1C]
  split
  · simp; positivity
  · rw [norm_div, norm_one, Complex.norm_natCast, one_div, inv_mul_eq_div]
    exact Real.pow_div_factorial_le_exp ρ hρ.le k

theorem psum_expm1 (u : ℂ) : psum expm1C u = Complex.exp u - 1 := by
  have h := (expm1C_bound (‖u‖ + 1) (by positivity)).hasSum (by positivity) (z := u) (by linarith)
  have h2 : HasSum (fun k : ℕ => u ^ k / (k.factorial : ℂ)) (Complex.exp u) := by
    rw [Complex.exp_eq_exp_ℂ]; exact NormedSpace.expSeries_div_hasSum_exp u
  have h3 : HasSum (fun k : ℕ => if k = 0 then (1:ℂ) else 0) 1 := by
    have := hasSum_ite_eq (0:ℕ) (1:ℂ)
    exact this
  have h4 := h2.sub h3
  refine h.unique ?_
  have : (fun k => expm1C k * u ^ k) = fun k : ℕ => u ^ k / (k.factorial : ℂ) - if k = 0 then (1:ℂ) else 0 := by
    ext k; rw [expm1C]; split <;> simp_all [div_eq_inv_mul]
  rw [this]; exact h4

/-- `∑ B_k u^k / k! * (e^u - 1) = u` for `|u| < 2π` -/
theorem psum_bern_mul {u : ℂ} (hu : ‖u‖ < 2 * Real.pi) : psum bernC u * (Complex.exp u - 1) = u := by
  rw [← psum_expm1, psum_mul bernC_bound (expm1C_bound _ (by positivity)) (by positivity) hu]
  have key : ∀ n, ∑ ij ∈ Finset.antidiagonal n, bernC ij.1 * expm1C ij.2 = if n = 1 then 1 else 0 := by
    intro n
    have h := congrArg (PowerSeries.coeff n) (bernoulliPowerSeries_mul_exp_sub_one ℂ)
    rw [PowerSeries.coeff_mul, PowerSeries.coeff_X] at h
    rw [← h]
    refine Finset.sum_congr rfl fun ij _ => ?_
    rw [bernoulliPowerSeries, PowerSeries.coeff_mk, map_sub, PowerSeries.coeff_exp, PowerSeries.coeff_one, bernC, expm1C]
    congr 1
    split <;> simp_all
  rw [psum, tsum_eq_single 1]
  · rw [key]; simp
  · intro n hn; rw [key, if_neg hn, zero_mul]

theorem psum_bern {u : ℂ} (hu : ‖u‖ < 2 * Real.pi) (h : Complex.exp u ≠ 1) : psum bernC u = u / (Complex.exp u - 1) := by
  rw [eq_div_iff (sub_ne_zero.mpr h)]; exact psum_bern_mul hu

end Polylog
