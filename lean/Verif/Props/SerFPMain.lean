import Verif.Props.SerFPK

/-! # The truncated series of `Sl` and `Cl` in IEEE double precision: total error -/

namespace Polylog
set_option linter.style.longLine false
open Finset

variable {L : Lib}

/-- `u = 2^-53` -/
local notation "υ" => uR binary64

/-! ## remainder of the truncated series -/

theorem rem_fp (p n K B N : ℕ) (hNB : (N = 10 ∧ B = 37) ∨ (N = 26 ∧ B = 5)) (hN : N ≤ n) (h1 : 1 ≤ K) (hKB : K ≤ B) (hK : n < 200 → (2:ℝ) ^ 51 ≤ (K:ℝ) ^ n) (x : ℝ) :
    |part p (pLi n (Complex.exp (x * Complex.I))) - ∑ k ∈ range K, part p (Complex.exp (x * Complex.I) ^ (k + 1) / ((k:ℂ) + 1) ^ n)| ≤
      (if N = 10 then 17 else 1) * υ := by
  obtain ⟨ν, rfl⟩ : ∃ ν, n = ν + 2 := ⟨n - 2, by omega⟩
  have hu := u53
  have hK0 : (1:ℝ) ≤ K := by exact_mod_cast h1
  have hN8 : ((N:ℝ) - 1) ≤ (ν:ℝ) + 1 := by
    have : (N:ℝ) ≤ ((ν + 2 : ℕ):ℝ) := by exact_mod_cast hN
    push_cast at this; linarith
  rcases lt_or_ge (ν + 2) 200 with h | h
  · refine (part_series p ν K h1 x).trans ?_
    have hKn := hK h
    have hB : (K:ℝ) ≤ B := by exact_mod_cast hKB
    have h3 : 1 / (((ν:ℝ) + 1) * (K:ℝ) ^ (ν + 1)) ≤ B / (ν + 1) / 2 ^ 51 := by
      rw [div_div, div_le_div_iff₀ (by positivity) (by positivity)]
      calc 1 * (((ν:ℝ) + 1) * 2 ^ 51) ≤ 1 * (((ν:ℝ) + 1) * (K:ℝ) ^ (ν + 2)) := by gcongr
        _ = K * (((ν:ℝ) + 1) * (K:ℝ) ^ (ν + 1)) := by rw [pow_succ _ (ν + 1)]; ring
        _ ≤ _ := by gcongr
    refine h3.trans ?_
    rw [hu]
    rcases hNB with ⟨rfl, rfl⟩ | ⟨rfl, rfl⟩
    · have : ((37:ℕ):ℝ) / ((ν:ℝ) + 1) ≤ 37 / 9 := by
        push_cast at hN8 ⊢
        exact div_le_div_of_nonneg_left (by norm_num) (by norm_num) (by linarith)
      refine (div_le_div_of_nonneg_right this (by norm_num)).trans (by norm_num)
    · have : ((5:ℕ):ℝ) / ((ν:ℝ) + 1) ≤ 5 / 25 := by
        push_cast at hN8 ⊢
        exact div_le_div_of_nonneg_left (by norm_num) (by norm_num) (by linarith)
      refine (div_le_div_of_nonneg_right this (by norm_num)).trans (by norm_num)
  · have hE : 1 / 2 ^ 53 ≤ (if N = 10 then 17 else 1) * υ := by rw [hu]; split_ifs <;> norm_num
    have hν : (198:ℝ) ≤ ν := by exact_mod_cast (by omega : 198 ≤ ν)
    refine le_trans ?_ hE
    have big : ∀ K : ℕ, 2 ≤ K → |part p (pLi (ν + 2) (Complex.exp (x * Complex.I))) - ∑ k ∈ range K, part p (Complex.exp (x * Complex.I) ^ (k + 1) / ((k:ℂ) + 1) ^ (ν + 2))| ≤ 1 / 2 ^ 54 := by
      intro K hK2
      refine (part_series p ν K (by omega) x).trans ?_
      have hk2 : (2:ℝ) ≤ K := by exact_mod_cast hK2
      refine one_div_le_one_div_of_le (by positivity) ?_
      calc (2:ℝ) ^ 54 ≤ 1 * 2 ^ (ν + 1) := by rw [one_mul]; exact pow_le_pow_right₀ (by norm_num) (by omega)
        _ ≤ ((ν:ℝ) + 1) * (K:ℝ) ^ (ν + 1) := mul_le_mul (by linarith) (pow_le_pow_left₀ (by norm_num) hk2 _) (by positivity) (by positivity)
    rcases (by omega : 2 ≤ K ∨ K = 1) with h2 | rfl
    · exact (big K h2).trans (by norm_num)
    · have h2 := big 2 le_rfl
      rw [Finset.sum_range_succ] at h2
      have h3 : |part p (Complex.exp (x * Complex.I) ^ (1 + 1) / (((1:ℕ):ℂ) + 1) ^ (ν + 2))| ≤ 1 / 2 ^ 54 := by
        refine (abs_part_le p _).trans ?_
        have : ‖((1:ℕ):ℂ) + 1‖ = 2 := by norm_num
        rw [norm_div, norm_pow, norm_pow, norm_exp_I, one_pow, this]
        exact one_div_le_one_div_of_le (by positivity) (pow_le_pow_right₀ (by norm_num) (by omega))
      have := abs_sub_le (part p (pLi (ν + 2) (Complex.exp (x * Complex.I))))
        (∑ k ∈ range 1, part p (Complex.exp (x * Complex.I) ^ (k + 1) / ((k:ℂ) + 1) ^ (ν + 2)) + part p (Complex.exp (x * Complex.I) ^ (1 + 1) / (((1:ℕ):ℂ) + 1) ^ (ν + 2)))
        (∑ k ∈ range 1, part p (Complex.exp (x * Complex.I) ^ (k + 1) / ((k:ℂ) + 1) ^ (ν + 2)))
      rw [add_sub_cancel_left] at this
      refine this.trans ((add_le_add h2 h3).trans (by norm_num))

/-! ## the series -/

/-- bound of the total error in units of `u` -/
noncomputable def serTot (N : ℕ) : ℝ := if N = 10 then 68 else 8

/-- sequence of cosines (`p = 0`) or sines (`p = 1`) -/
noncomputable def serT (p : ℕ) (θ : ℝ) (k : ℕ) : ℝ := if p = 0 then Real.cos (k * θ) else Real.sin (k * θ)

theorem serT_abs (p : ℕ) (θ : ℝ) (k : ℕ) : |serT p θ k| ≤ 1 := by
  unfold serT; split_ifs
  · exact Real.abs_cos_le_one _
  · exact Real.abs_sin_le_one _
theorem serT_rec (p : ℕ) (θ : ℝ) (k : ℕ) : serT p θ (k + 2) = 2 * Real.cos θ * serT p θ (k + 1) - serT p θ k := by
  have e1 : ((k + 2 : ℕ):ℝ) * θ = (k + 1 : ℕ) * θ + θ := by push_cast; ring
  have e2 : (k:ℝ) * θ = (k + 1 : ℕ) * θ - θ := by push_cast; ring
  unfold serT
  rw [e1, e2]
  split_ifs
  · rw [Real.cos_add, Real.cos_sub]; ring
  · rw [Real.sin_add, Real.sin_sub]; ring

/-- the loop, started as in the code -/
theorem series_near (hL : TrigOK binary64 L) (p : ℕ) (n : ℕ) (hn : n < 2 ^ 63) {N B : ℕ} (hNB : (N = 10 ∧ B = 37) ∨ (N = 26 ∧ B = 5)) (hN : N ≤ n)
    {K : ℕ} (h1 : 1 ≤ K) (hKB : K ≤ B) (hK : n < 200 → (2:ℝ) ^ 51 ≤ (K:ℝ) ^ n) (r : FP binary64 L) {ρ : ℚ} (hr : Val binary64 (ofF r) ρ) (h0 : 0 ≤ ρ) (h3 : ρ ≤ 3.15)
    (c2 c1 : FP binary64 L) (hc2 : c2 = if p = 0 then (FOps.lit 1 : FP binary64 L) else (FOps.lit 0 : FP binary64 L)) (hc1 : c1 = if p = 0 then FOps.cos r else FOps.sin r) :
    Near binary64 (ofF (slCosLoop (n:ℤ) (FOps.cos r) ((K:ℤ) - 1).toNat 2 c2 c1 c1)) (part p (pLi n (Complex.exp ((ρ:ℝ) * Complex.I)))) (serTot N * υ) := by
  have hu0 := uR_pos (φ := binary64)
  have hco : Near binary64 (ofF (FOps.cos r)) (Real.cos ρ) (2 * υ) := hL.cos _ _ hr h0 h3
  have hsi : Near binary64 (ofF (FOps.sin r)) (Real.sin ρ) (2 * υ) := hL.sin _ _ hr h0 h3
  have n2 : Near binary64 (ofF c2) (serT p ρ 0) (serC 0 * υ) := by
    have hs : 0 ≤ serC 0 * υ := mul_nonneg (serC_nonneg 0) hu0.le
    subst hc2
    unfold serT
    split_ifs
    · have := (vl_one fmtA64).near.mono hs
      rw [ofF_lit]; simpa using this
    · have := (vl_zero fmtA64).near.mono hs
      rw [ofF_lit]; simpa using this
  have n1' : Near binary64 (ofF c1) (serT p ρ 1) (2 * υ) := by
    subst hc1
    unfold serT
    split_ifs
    · simpa using hco
    · simpa using hsi
  have n1 : Near binary64 (ofF c1) (serT p ρ (0 + 1)) (serC (0 + 1) * υ) := n1'.mono (by unfold serC; norm_num; linarith)
  have hfuel : ((K:ℤ) - 1).toNat = K - 1 := by omega
  have hNf : (N = 10 ∧ K - 1 ≤ 36) ∨ (N = 26 ∧ K - 1 ≤ 4) := by omega
  have hD := dsum_le N (K - 1) hNf
  have hE : serE N ≤ 49 := by unfold serE; split_ifs <;> norm_num
  have hW := wsum_le N (K - 1) hNf
  have main := loop_near N n hN (Real.abs_cos_le_one _) hco (serT p ρ) (serT_abs p ρ) (serT_rec p ρ) (fun k a b => pow_kn hL n hn k a b) (K - 1) 0 (by omega) c2 c1 c1 _ 2 n2 n1 n1'
    (by have := serT_abs p ρ 1; linarith) (by linarith)
  rw [hfuel]
  have e2 : ((0 + 2 : ℕ):ℤ) = 2 := rfl
  rw [e2] at main
  have es : serT p ρ 1 + ∑ i ∈ range (K - 1), serT p ρ (0 + 2 + i) / ((0 + 2 + i : ℕ):ℝ) ^ n = ∑ k ∈ range K, part p (Complex.exp ((ρ:ℝ) * Complex.I) ^ (k + 1) / ((k:ℂ) + 1) ^ n) := by
    obtain ⟨K, rfl⟩ : ∃ K', K = K' + 1 := ⟨K - 1, by omega⟩
    rw [Nat.add_sub_cancel, Finset.sum_range_succ', add_comm]
    simp only [part_exp, serT]
    congr 1
    · exact Finset.sum_congr rfl fun i _ => by
        have : (0 + 2 + i : ℕ) = i + 1 + 1 := by ring
        rw [this]
    · simp
  rw [es] at main
  refine (main.shift (r' := part p (pLi n (Complex.exp ((ρ:ℝ) * Complex.I)))) (d := (if N = 10 then 17 else 1) * υ) ?_).mono ?_
  · rw [abs_sub_comm]; exact rem_fp p n K B N hNB hN h1 hKB hK _
  · rw [← add_mul]
    refine mul_le_mul_of_nonneg_right ?_ hu0.le
    unfold serTot serE at *
    rcases hNB with ⟨rfl, _⟩ | ⟨rfl, _⟩
    · norm_num at hD ⊢; linarith
    · norm_num at hD ⊢; linarith

end Polylog
