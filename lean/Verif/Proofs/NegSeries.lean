import Verif.Proofs.Unity
import Mathlib.Analysis.SpecificLimits.Normed

/-! # Power series of the polylogarithm of order `-N ≤ 0` -/

namespace Polylog
open Complex Finset Filter Topology

noncomputable section

/-- the coefficients `k^N`, `k ≥ 1` -/
def powCoef (N k : ℕ) : ℂ := if k = 0 then 0 else (k : ℂ) ^ N

theorem powCoef_bound (N : ℕ) {ρ : ℝ} (h0 : 0 < ρ) (h1 : ρ < 1) : ∃ C, CoefBound (powCoef N) ρ C := by
  have hs := summable_pow_mul_geometric_of_norm_lt_one (R := ℝ) N (r := ρ) (by rwa [Real.norm_of_nonneg h0.le])
  refine ⟨∑' k : ℕ, (k:ℝ) ^ N * ρ ^ k, fun k => ?_⟩
  have h2 : ‖powCoef N k‖ * ρ ^ k ≤ (k:ℝ) ^ N * ρ ^ k := by
    refine mul_le_mul_of_nonneg_right ?_ (by positivity)
    rw [powCoef]
    split
    · rw [norm_zero]; positivity
    · rw [norm_pow, Complex.norm_natCast]
  exact h2.trans (hs.le_tsum k (fun j _ => by positivity))

theorem powCoef_hasSum (N : ℕ) {z : ℂ} (hz : ‖z‖ < 1) : HasSum (fun k => powCoef N k * z ^ k) (psum (powCoef N) z) := by
  obtain ⟨r, h1, h2⟩ := exists_between hz
  have hr0 : 0 < r := (norm_nonneg z).trans_lt h1
  obtain ⟨C, hC⟩ := powCoef_bound N hr0 h2
  exact hC.hasSum hr0 h1

theorem psum_powCoef (N : ℕ) : ∀ {z : ℂ}, ‖z‖ < 1 → psum (powCoef N) z = pLiNeg N z := by
  induction N with
  | zero =>
    intro z hz
    have h := powCoef_hasSum 0 hz
    have h2 := (hasSum_nat_add_iff' 1).mpr h
    have h3 : HasSum (fun k : ℕ => z * z ^ k) (z * (1 - z)⁻¹) := (hasSum_geometric_of_norm_lt_one hz).mul_left z
    have h4 := h2.unique (HasSum.congr_fun' h3 fun k => by simp [powCoef, pow_succ]; ring)
    simp [powCoef] at h4
    rw [h4, pLiNeg, div_eq_mul_inv]
  | succ N ih =>
    intro z hz
    obtain ⟨r, h1, h2⟩ := exists_between hz
    have hr0 : 0 < r := (norm_nonneg z).trans_lt h1
    obtain ⟨C, hC⟩ := powCoef_bound N hr0 h2
    have hd := hC.hasDerivAt hr0 h1
    have hev : pLiNeg N =ᶠ[𝓝 z] psum (powCoef N) := by
      filter_upwards [Metric.isOpen_ball.mem_nhds (show z ∈ Metric.ball (0:ℂ) 1 by simpa using hz)] with w hw
      exact (ih (by simpa using hw)).symm
    have hde : deriv (pLiNeg N) z = psum (dcoef (powCoef N)) z := (hd.congr_of_eventuallyEq hev).deriv
    rw [pLiNeg, hde]
    obtain ⟨r', h1', h2'⟩ := exists_between h1
    obtain ⟨C', hC'⟩ := hC.dcoef ((norm_nonneg z).trans_lt h1') h2'
    have hs := (hC'.hasSum ((norm_nonneg z).trans_lt h1') h1').mul_left z
    have h3 := (hasSum_nat_add_iff' 1).mpr (powCoef_hasSum (N + 1) hz)
    have h4 := h3.unique (HasSum.congr_fun' hs fun k => by simp [powCoef, dcoef, pow_succ]; ring)
    simpa [powCoef] using h4

/-- `Li_{-N}(z) = ∑ k^N z^k` -/
theorem pLiNeg_hasSum (N : ℕ) {z : ℂ} (hz : ‖z‖ < 1) : HasSum (fun k : ℕ => ((k:ℂ) + 1) ^ N * z ^ (k + 1)) (pLiNeg N z) := by
  rw [← psum_powCoef N hz]
  have h3 := (hasSum_nat_add_iff' 1).mpr (powCoef_hasSum N hz)
  have e : psum (powCoef N) z - ∑ i ∈ range 1, powCoef N i * z ^ i = psum (powCoef N) z := by simp [powCoef]
  rw [e] at h3
  exact HasSum.congr_fun' h3 fun k => by simp [powCoef]

/-- remainder of the power series: the first omitted term divided by `1 - q`, `q` bounding the ratio of the omitted terms -/
theorem pLiNeg_remainder (N m : ℕ) {z : ℂ} {r q : ℝ} (hz : ‖z‖ ≤ r) (hr : r < 1) (hq1 : q < 1) (hq : ((m:ℝ) + 2) ^ N * r ≤ q * ((m:ℝ) + 1) ^ N) :
    ‖(∑ k ∈ range m, ((k:ℂ) + 1) ^ N * z ^ (k + 1)) - pLiNeg N z‖ ≤ ((m:ℝ) + 1) ^ N * r ^ (m + 1) / (1 - q) := by
  have h0 : 0 ≤ r := (norm_nonneg z).trans hz
  have hq0 : 0 ≤ q := by
    by_contra hn
    push Not at hn
    have h1 : 0 ≤ ((m:ℝ) + 2) ^ N * r := by positivity
    have h2 : q * ((m:ℝ) + 1) ^ N < 0 := mul_neg_of_neg_of_pos hn (by positivity)
    linarith
  have ht := (hasSum_nat_add_iff' m).mpr (pLiNeg_hasSum N (hz.trans_lt hr))
  rw [norm_sub_rev]
  set T : ℕ → ℝ := fun k => ((k:ℝ) + 1) ^ N * r ^ (k + 1) with hT
  have hTn : ∀ k, 0 ≤ T k := fun k => by simp only [hT]; positivity
  have hstep : ∀ k, m ≤ k → T (k + 1) ≤ q * T k := by
    intro k hk
    have hkm : (m:ℝ) ≤ k := by exact_mod_cast hk
    have hm0 : (0:ℝ) ≤ m := Nat.cast_nonneg m
    have h1 : (((k:ℝ) + 2) / ((k:ℝ) + 1)) ^ N ≤ (((m:ℝ) + 2) / ((m:ℝ) + 1)) ^ N := by
      refine pow_le_pow_left₀ (by positivity) ?_ N
      rw [div_le_div_iff₀ (by positivity) (by positivity)]
      nlinarith
    have h2 : (((m:ℝ) + 2) / ((m:ℝ) + 1)) ^ N * r ≤ q := by
      rw [div_pow, div_mul_eq_mul_div, div_le_iff₀ (by positivity)]; exact hq
    have h3 : (((k:ℝ) + 2) / ((k:ℝ) + 1)) ^ N * r ≤ q := (mul_le_mul_of_nonneg_right h1 h0).trans h2
    have e : T (k + 1) = (((k:ℝ) + 2) / ((k:ℝ) + 1)) ^ N * r * T k := by
      simp only [hT]
      push_cast
      rw [div_pow, pow_succ r (k + 1), show (k:ℝ) + 1 + 1 = k + 2 by ring]
      field_simp
    rw [e]
    exact mul_le_mul_of_nonneg_right h3 (hTn k)
  have hgeo : ∀ k, T (k + m) ≤ T m * q ^ k := by
    intro k
    induction k with
    | zero => simp
    | succ k ih =>
      rw [show k + 1 + m = (k + m) + 1 by ring, pow_succ]
      have := hstep (k + m) (by omega)
      nlinarith [hTn m]
  have hb : ∀ k : ℕ, ‖((((k + m : ℕ):ℂ)) + 1) ^ N * z ^ (k + m + 1)‖ ≤ T m * q ^ k := by
    intro k
    refine le_trans ?_ (hgeo k)
    have e1 : ‖(((k + m : ℕ) : ℂ) + 1)‖ = ((k + m : ℕ) : ℝ) + 1 := by
      have : (((k + m : ℕ) : ℂ) + 1) = ((k + m + 1 : ℕ) : ℂ) := by push_cast; ring
      rw [this, Complex.norm_natCast]; push_cast; ring
    rw [norm_mul, norm_pow, norm_pow, e1]
    exact mul_le_mul_of_nonneg_left (pow_le_pow_left₀ (norm_nonneg _) hz _) (by positivity)
  have hg := (hasSum_geometric_of_lt_one hq0 hq1).mul_left (T m)
  refine (ht.norm_le_of_bounded hg hb).trans_eq ?_
  rw [div_eq_mul_inv]

end
end Polylog
