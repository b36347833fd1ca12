import Verif.Props.SlGen

/-! # The truncated series of `Sl(n, x)` and `Cl(n, x)` -/

noncomputable section
namespace Polylog
open Finset
variable {S : RealSem}

theorem ofR_powk {k : ℕ} (hk : 0 < k) (n : ℕ) : ofR (FOps.pow (FOps.ofInt (k:ℤ) : R S) (FOps.ofInt (-(n:ℤ)) : R S)) = 1 / (k:ℝ) ^ n := by
  show realPow S.powJ (((k:ℕ):ℤ):ℝ) ((-(n:ℤ) : ℤ) : ℝ) = _
  have : (0:ℝ) < k := by exact_mod_cast hk
  rw [realPow, if_pos (by exact_mod_cast hk)]
  push_cast
  rw [Real.rpow_neg this.le, Real.rpow_natCast, one_div]

theorem cosLoop_R (hS : S.rho 2 = 2) (n : ℕ) (θ : ℝ) (fuel : ℕ) : ∀ (k : ℕ) (_ : 2 ≤ k) (c2 c1 s : R S), ofR c2 = Real.cos ((k - 2) * θ) → ofR c1 = Real.cos ((k - 1) * θ) →
    ofR (slCosLoop (n:ℤ) (FOps.cos (toR S θ)) fuel (k:ℤ) c2 c1 s) = ofR s + ∑ i ∈ range fuel, Real.cos (((k + i : ℕ):ℝ) * θ) / ((k + i : ℕ):ℝ) ^ n := by
  induction fuel with
  | zero => intro k hk c2 c1 s h2 h1; simp [slCosLoop]
  | succ f ih =>
    intro k hk c2 c1 s h2 h1
    have hcon : ofR ((FOps.lit 2 : R S) *. FOps.cos (toR S θ) *. c1 -. c2) = Real.cos (k * θ) := by
      rw [ofR_sub, ofR_mul, ofR_mul, ofR_cos, ofR_lit, hS, h1, h2]
      have e1 : (k:ℝ) * θ = (k - 1) * θ + θ := by ring
      have e2 : ((k:ℝ) - 2) * θ = (k - 1) * θ - θ := by ring
      rw [e1, e2, Real.cos_add, Real.cos_sub, ofR_toR]; push_cast; ring
    have h := ih (k + 1) (by omega) c1 ((FOps.lit 2 : R S) *. FOps.cos (toR S θ) *. c1 -. c2)
      (s +. ((FOps.lit 2 : R S) *. FOps.cos (toR S θ) *. c1 -. c2) *. FOps.pow (FOps.ofInt (k:ℤ) : R S) (FOps.ofInt (-(n:ℤ)) : R S))
      (by rw [h1]; congr 1; push_cast; ring) (by rw [hcon]; congr 1; push_cast; ring)
    have e : slCosLoop (n:ℤ) (FOps.cos (toR S θ)) (f + 1) (k:ℤ) c2 c1 s = slCosLoop (n:ℤ) (FOps.cos (toR S θ)) f ((k + 1 : ℕ):ℤ) c1 ((FOps.lit 2 : R S) *. FOps.cos (toR S θ) *. c1 -. c2)
      (s +. ((FOps.lit 2 : R S) *. FOps.cos (toR S θ) *. c1 -. c2) *. FOps.pow (FOps.ofInt (k:ℤ) : R S) (FOps.ofInt (-(n:ℤ)) : R S)) := by
      rw [slCosLoop]; push_cast; rfl
    rw [e, h, ofR_add, ofR_mul, hcon, ofR_powk (by omega), Finset.sum_range_succ']
    have : ∀ i, ((k + 1 + i : ℕ) : ℝ) = ((k + (i + 1) : ℕ) : ℝ) := fun i => by push_cast; ring
    simp only [this, add_zero]
    ring

theorem sinLoop_R (hS : S.rho 2 = 2) (n : ℕ) (θ : ℝ) (fuel : ℕ) : ∀ (k : ℕ) (_ : 2 ≤ k) (c2 c1 s : R S), ofR c2 = Real.sin ((k - 2) * θ) → ofR c1 = Real.sin ((k - 1) * θ) →
    ofR (slSinLoop (n:ℤ) (FOps.cos (toR S θ)) fuel (k:ℤ) c2 c1 s) = ofR s + ∑ i ∈ range fuel, Real.sin (((k + i : ℕ):ℝ) * θ) / ((k + i : ℕ):ℝ) ^ n := by
  induction fuel with
  | zero => intro k hk c2 c1 s h2 h1; simp [slSinLoop]
  | succ f ih =>
    intro k hk c2 c1 s h2 h1
    have hcon : ofR ((FOps.lit 2 : R S) *. FOps.cos (toR S θ) *. c1 -. c2) = Real.sin (k * θ) := by
      rw [ofR_sub, ofR_mul, ofR_mul, ofR_cos, ofR_lit, hS, h1, h2]
      have e1 : (k:ℝ) * θ = (k - 1) * θ + θ := by ring
      have e2 : ((k:ℝ) - 2) * θ = (k - 1) * θ - θ := by ring
      rw [e1, e2, Real.sin_add, Real.sin_sub, ofR_toR]; push_cast; ring
    have h := ih (k + 1) (by omega) c1 ((FOps.lit 2 : R S) *. FOps.cos (toR S θ) *. c1 -. c2)
      (s +. ((FOps.lit 2 : R S) *. FOps.cos (toR S θ) *. c1 -. c2) *. FOps.pow (FOps.ofInt (k:ℤ) : R S) (FOps.ofInt (-(n:ℤ)) : R S))
      (by rw [h1]; congr 1; push_cast; ring) (by rw [hcon]; congr 1; push_cast; ring)
    have e : slSinLoop (n:ℤ) (FOps.cos (toR S θ)) (f + 1) (k:ℤ) c2 c1 s = slSinLoop (n:ℤ) (FOps.cos (toR S θ)) f ((k + 1 : ℕ):ℤ) c1 ((FOps.lit 2 : R S) *. FOps.cos (toR S θ) *. c1 -. c2)
      (s +. ((FOps.lit 2 : R S) *. FOps.cos (toR S θ) *. c1 -. c2) *. FOps.pow (FOps.ofInt (k:ℤ) : R S) (FOps.ofInt (-(n:ℤ)) : R S)) := by
      rw [slSinLoop]; push_cast; rfl
    rw [e, h, ofR_add, ofR_mul, hcon, ofR_powk (by omega), Finset.sum_range_succ']
    have : ∀ i, ((k + 1 + i : ℕ) : ℝ) = ((k + (i + 1) : ℕ) : ℝ) := fun i => by push_cast; ring
    simp only [this, add_zero]
    ring

/-- number of terms -/
theorem seriesKmax_R {u : ℝ} (hS : S.Lit u) (he : S.eps = 1 / 2 ^ 52) (n : ℕ) (hn : 1 ≤ n) :
    ∃ K : ℕ, seriesKmax (R S) (n:ℤ) = .ok (K:ℤ) ∧ 2 ≤ K ∧ (2:ℝ) ^ 52 ≤ (K:ℝ) ^ n ∧ ∀ B : ℕ, 2 ^ 52 ≤ B ^ n → K ≤ B := by
  set y : ℝ := ((2:ℝ) ^ 52) ^ ((1:ℝ) / n) with hy
  have hn0 : (0:ℝ) < n := by exact_mod_cast hn
  have hy1 : 1 < y := Real.one_lt_rpow (by norm_num) (by positivity)
  have hyn : y ^ n = 2 ^ 52 := by
    rw [hy, ← Real.rpow_natCast, ← Real.rpow_mul (by norm_num), one_div_mul_cancel hn0.ne', Real.rpow_one]
  have hv : ofR (FOps.pow (FOps.eps : R S) (∸(FOps.lit 1 : R S) /. (FOps.ofInt (n:ℤ) : R S))) = y := by
    show realPow S.powJ S.eps (ofR (∸(FOps.lit 1 : R S) /. (FOps.ofInt (n:ℤ) : R S))) = _
    rw [realPow, he, if_pos (by norm_num), ofR_div (by rw [ofR_ofInt]; exact_mod_cast hn0.ne'), ofR_neg, lit1 hS, ofR_ofInt, hy]
    rw [neg_div, Real.rpow_neg (by norm_num), one_div ((2:ℝ) ^ 52), Real.inv_rpow (by norm_num), inv_inv, Int.cast_natCast]
  refine ⟨⌈y⌉₊, ?_, ?_, ?_, ?_⟩
  · have hc : ((⌈y⌉ : ℤ) : ℝ) = ((⌈y⌉₊ : ℕ) : ℝ) := (natCast_ceil_eq_intCast_ceil (by linarith)).symm
    have ht : FOps.toInt (FOps.ceil (FOps.pow (FOps.eps : R S) (∸(FOps.lit 1 : R S) /. (FOps.ofInt (n:ℤ) : R S)))) = some ((⌈y⌉₊ : ℕ) : ℤ) := by
      show (if (0:ℝ) ≤ ((⌈ofR (FOps.pow (FOps.eps : R S) (∸(FOps.lit 1 : R S) /. (FOps.ofInt (n:ℤ) : R S)))⌉ : ℤ) : ℝ) then _ else _) = _
      rw [hv, hc, if_pos (Nat.cast_nonneg _)]
      congr 1
      show ⌊((⌈ofR (FOps.pow (FOps.eps : R S) (∸(FOps.lit 1 : R S) /. (FOps.ofInt (n:ℤ) : R S)))⌉ : ℤ) : ℝ)⌋ = _
      rw [hv, hc, Int.floor_natCast]
    rw [seriesKmax, ht]
    have hle : ⌈y⌉₊ ≤ 2 ^ 52 := by
      rw [Nat.ceil_le]
      have : y ^ 1 ≤ y ^ n := pow_le_pow_right₀ hy1.le hn
      rw [pow_one, hyn] at this; exact_mod_cast this
    show i64 _ = _
    rw [i64, if_pos ⟨by simp only [i64min]; omega, by simp only [i64max]; omega⟩]; rfl
  · have : 1 < ⌈y⌉₊ := Nat.lt_ceil.mpr (by exact_mod_cast hy1)
    omega
  · rw [← hyn]; exact pow_le_pow_left₀ (by linarith) (Nat.le_ceil y) n
  · intro B hB
    rw [Nat.ceil_le]
    have : y ^ n ≤ (B:ℝ) ^ n := by rw [hyn]; exact_mod_cast hB
    exact le_of_pow_le_pow_left₀ (by omega) (Nat.cast_nonneg _) this

/-- tail of `∑ 1/k^n` -/
theorem tail_step (n : ℕ) (k : ℕ) (hk : 0 < k) : 1 / ((k:ℝ) + 1) ^ (n + 2) ≤ (1 / (n + 1)) * (1 / (k:ℝ) ^ (n + 1) - 1 / ((k:ℝ) + 1) ^ (n + 1)) := by
  have hk0 : (0:ℝ) < k := by exact_mod_cast hk
  have hb := one_add_mul_le_pow (a := 1 / (k:ℝ)) (by have : 0 < 1 / (k:ℝ) := by positivity
                                                     linarith) (n + 1)
  have e : (1 + 1 / (k:ℝ)) ^ (n + 1) = ((k:ℝ) + 1) ^ (n + 1) / (k:ℝ) ^ (n + 1) := by rw [← div_pow]; congr 1; field_simp
  rw [e] at hb
  have e2 : (1 / ((n:ℝ) + 1)) * (1 / (k:ℝ) ^ (n + 1) - 1 / ((k:ℝ) + 1) ^ (n + 1)) =
    (1 / ((n:ℝ) + 1)) * (((k:ℝ) + 1) ^ (n + 1) / (k:ℝ) ^ (n + 1) - 1) / ((k:ℝ) + 1) ^ (n + 1) := by field_simp
  have e3 : 1 / ((k:ℝ) + 1) ^ (n + 2) = (1 / ((k:ℝ) + 1)) / ((k:ℝ) + 1) ^ (n + 1) := by rw [div_div, ← pow_succ']
  rw [e2, e3]
  refine div_le_div_of_nonneg_right ?_ (by positivity)
  push_cast at hb
  have h2 : ((n:ℝ) + 1) * (1 / k) ≤ ((k:ℝ) + 1) ^ (n + 1) / (k:ℝ) ^ (n + 1) - 1 := by linarith
  calc 1 / ((k:ℝ) + 1) ≤ 1 / k := by apply one_div_le_one_div_of_le hk0; linarith
    _ = 1 / ((n:ℝ) + 1) * (((n:ℝ) + 1) * (1 / k)) := by field_simp
    _ ≤ _ := mul_le_mul_of_nonneg_left h2 (by positivity)

theorem tail_sum (n K : ℕ) (hK : 0 < K) (j : ℕ) : ∑ i ∈ range j, 1 / (((K + i : ℕ):ℝ) + 1) ^ (n + 2) ≤ (1 / (n + 1)) * (1 / (K:ℝ) ^ (n + 1) - 1 / ((K + j : ℕ):ℝ) ^ (n + 1)) := by
  induction j with
  | zero => simp
  | succ j ih =>
    rw [Finset.sum_range_succ]
    have := tail_step n (K + j) (by omega)
    have e : ((K + (j + 1) : ℕ) : ℝ) = ((K + j : ℕ) : ℝ) + 1 := by push_cast; ring
    rw [e]
    linarith

/-- remainder of the series with `K` terms -/
theorem part_series (p n K : ℕ) (hK : 0 < K) (x : ℝ) :
    |part p (pLi (n + 2) (Complex.exp (x * Complex.I))) - ∑ k ∈ range K, part p (Complex.exp (x * Complex.I) ^ (k + 1) / ((k:ℂ) + 1) ^ (n + 2))| ≤
      1 / ((n + 1) * (K:ℝ) ^ (n + 1)) := by
  have h := part_hasSum p (pLi_hasSum n _ (norm_exp_I x).le)
  have h2 := (hasSum_nat_add_iff' K).mpr h
  refine le_of_tendsto h2.tendsto_sum_nat.abs (Filter.Eventually.of_forall fun j => ?_)
  refine (Finset.abs_sum_le_sum_abs _ _).trans ((Finset.sum_le_sum fun i _ => ?_).trans ((tail_sum n K hK j).trans ?_))
  · refine (abs_part_le p _).trans (le_of_eq ?_)
    have : ‖((i + K : ℕ):ℂ) + 1‖ = ((K + i : ℕ):ℝ) + 1 := by
      rw [← Nat.cast_one, ← Nat.cast_add, Complex.norm_natCast]; push_cast; ring
    rw [norm_div, norm_pow, norm_pow, norm_exp_I, one_pow, this]
  · rw [one_div_mul_eq_div, mul_comm ((n:ℝ) + 1), ← div_div]
    refine div_le_div_of_nonneg_right ?_ (by positivity)
    have : 0 ≤ 1 / ((K + j : ℕ):ℝ) ^ (n + 1) := by positivity
    linarith

theorem part_exp (p : ℕ) (k : ℕ) (n : ℕ) (x : ℝ) : part p (Complex.exp (x * Complex.I) ^ (k + 1) / ((k:ℂ) + 1) ^ n) =
    (if p = 0 then Real.cos (((k + 1 : ℕ):ℝ) * x) else Real.sin (((k + 1 : ℕ):ℝ) * x)) / ((k + 1 : ℕ):ℝ) ^ n := by
  have e : Complex.exp (x * Complex.I) ^ (k + 1) / ((k:ℂ) + 1) ^ n = ((1 / ((k + 1 : ℕ):ℝ) ^ n : ℝ) : ℂ) * Complex.exp ((((k + 1 : ℕ):ℝ) * x : ℝ) * Complex.I) := by
    rw [← Complex.exp_nat_mul]
    push_cast
    rw [div_eq_mul_inv, mul_comm, one_div]
    congr 2; ring
  rw [e, part_real_mul, part]
  split_ifs
  · rw [Complex.exp_ofReal_mul_I_re]; ring
  · rw [Complex.exp_ofReal_mul_I_im]; ring

theorem cosSeries_R (hS : S.rho 2 = 2) (h1 : S.rho 1 = 1) (n K : ℕ) (hK : 2 ≤ K) (θ : R S) :
    ofR (slCosLoop (n:ℤ) (FOps.cos θ) ((K:ℤ) - 1).toNat 2 (FOps.lit 1 : R S) (FOps.cos θ) (FOps.cos θ)) =
      ∑ k ∈ range K, part 0 (Complex.exp (ofR θ * Complex.I) ^ (k + 1) / ((k:ℂ) + 1) ^ n) := by
  have h := cosLoop_R hS n (ofR θ) ((K:ℤ) - 1).toNat 2 le_rfl (FOps.lit 1 : R S) (FOps.cos θ) (FOps.cos θ)
    (by rw [ofR_lit, h1]; norm_num) (by rw [ofR_cos]; norm_num)
  rw [toR_ofR] at h
  refine h.trans ?_
  obtain ⟨K, rfl⟩ : ∃ K', K = K' + 1 := ⟨K - 1, by omega⟩
  have : (((K + 1 : ℕ) : ℤ) - 1).toNat = K := by omega
  rw [this, Finset.sum_range_succ', ofR_cos, add_comm]
  simp only [part_exp, if_pos]
  congr 1
  · exact Finset.sum_congr rfl fun i _ => by
      have : (2 + i : ℕ) = i + 1 + 1 := by ring
      rw [this]
  · simp

theorem sinSeries_R (hS : S.rho 2 = 2) (h0 : S.rho 0 = 0) (n K : ℕ) (hK : 2 ≤ K) (θ : R S) :
    ofR (slSinLoop (n:ℤ) (FOps.cos θ) ((K:ℤ) - 1).toNat 2 (FOps.lit 0 : R S) (FOps.sin θ) (FOps.sin θ)) =
      ∑ k ∈ range K, part 1 (Complex.exp (ofR θ * Complex.I) ^ (k + 1) / ((k:ℂ) + 1) ^ n) := by
  have h := sinLoop_R hS n (ofR θ) ((K:ℤ) - 1).toNat 2 le_rfl (FOps.lit 0 : R S) (FOps.sin θ) (FOps.sin θ)
    (by rw [ofR_lit, h0]; norm_num) (by rw [ofR_sin]; norm_num)
  rw [toR_ofR] at h
  refine h.trans ?_
  obtain ⟨K, rfl⟩ : ∃ K', K = K' + 1 := ⟨K - 1, by omega⟩
  have : (((K + 1 : ℕ) : ℤ) - 1).toNat = K := by omega
  rw [this, Finset.sum_range_succ', ofR_sin, add_comm]
  simp only [part_exp, one_ne_zero, if_false]
  congr 1
  · exact Finset.sum_congr rfl fun i _ => by
      have : (2 + i : ℕ) = i + 1 + 1 := by ring
      rw [this]
  · simp

/-- remainder for a number of terms `K ≤ B` with `K^n ≥ 2^52` -/
theorem rem_le (n K B : ℕ) (hB : K ≤ B) (h2 : 2 ≤ K) (hK : (2:ℝ) ^ 52 ≤ (K:ℝ) ^ (n + 2)) : 1 / (((n:ℝ) + 1) * (K:ℝ) ^ (n + 1)) ≤ B / (n + 1) / 2 ^ 52 := by
  have hk0 : (0:ℝ) < K := by exact_mod_cast (by omega : 0 < K)
  have hB' : (K:ℝ) ≤ B := by exact_mod_cast hB
  rw [div_div, div_le_div_iff₀ (by positivity) (by positivity)]
  calc 1 * (((n:ℝ) + 1) * 2 ^ 52) ≤ 1 * (((n:ℝ) + 1) * (K:ℝ) ^ (n + 2)) := by gcongr
    _ = K * (((n:ℝ) + 1) * (K:ℝ) ^ (n + 1)) := by rw [pow_succ _ (n + 1)]; ring
    _ ≤ _ := by gcongr

end Polylog
