import Verif.Props.ClMidFP2

/-! # `ncal` and `nsum` (Cl.cpp) in IEEE double precision -/

namespace Polylog
set_option linter.style.longLine false
open Finset

variable {L : Lib}

/-- `u = 2^-53` -/
local notation "υ" => uR binary64

/-- what `Cl(n, x)`, n = 7, 8, 9, asks of the C library: `log` with relative error two units; `sin` with relative error two units on `(0, 1.6]` and, as any
correctly rounded `sin`, the identity for arguments up to `2^-30`; `pow(x, k)` for small integers `k` with relative error two units (and an absolute error of
`2^-1074` for results that underflow) -/
structure MidOK (L : Lib) : Prop where
  log : ∀ (x : FV) (q : ℚ), Val binary64 x q → 0 < q → Near binary64 (L.log x) (Real.log q) (2 * υ * |Real.log q| + υ ^ 2)
  sinTiny : ∀ (x : FV) (q : ℚ), Val binary64 x q → 0 < q → q ≤ 1 / 2 ^ 30 → L.sin x = x
  sin : ∀ (x : FV) (q : ℚ), Val binary64 x q → 1 / 2 ^ 30 ≤ q → q ≤ 1.6 → Near binary64 (L.sin x) (Real.sin q) (2 * υ * Real.sin q)
  pow : ∀ (x : FV) (q : ℚ) (k : ℕ), Val binary64 x q → 0 ≤ q → q ≤ 3.15 → 1 ≤ k → k ≤ 8 →
    Near binary64 (L.pow x (rndQ binary64 k)) ((q : ℝ) ^ k) (2 * υ * (q : ℝ) ^ k + 2 ^ (-1074 : ℤ))

theorem bq_nonpos : ∀ k, (bq k : ℝ) ≤ 0 := by
  have h : ∀ i : Fin 202, clB[i.1] ≤ 0 := by decide +kernel
  intro k
  unfold bq
  split_ifs with hk
  · exact_mod_cast h ⟨k, hk⟩
  · simp

theorem eta1074 : (2:ℝ) ^ (-1074 : ℤ) ≤ 2e-240 := by
  have h := mid_eta_small
  have e : (2:ℝ) ^ (-1074 : ℤ) = 2 * 2 ^ (binary64.emin - 1) := by
    show (2:ℝ) ^ (-1074 : ℤ) = 2 * 2 ^ (-1074 - 1 : ℤ)
    rw [zpow_sub_one₀ (by norm_num)]; ring
  rw [e]; linarith

/-- `w = 3.1417`, bound of the reduced argument -/
noncomputable abbrev ww : ℝ := 3.1417

theorem W_cert : ∀ m : Fin 9, 0 < m.1 → (3:ℚ) ≤ 3.1417 ^ m.1 ∧ (3.1417:ℚ) ^ m.1 ≤ 1e4 ∧ (0.3:ℚ) ≤ 3.1417 ^ m.1 / (m.1 + 2) ∧ (1 / 64:ℚ) ≤ 3.1417 ^ m.1 / m.1 ^ 2 := by decide +kernel

theorem uS_sum (n : ℕ) (q : ℝ) : ∑ k ∈ range 202, ncT n (q ^ (n + 1)) (q ^ 2) k = q ^ (n + 1) * uS RealSem.dec q (fun k => 1 / (2 * (k + 1) + n + 1)) := by
  unfold uS
  rw [Finset.mul_sum]
  refine Finset.sum_congr rfl fun k _ => ?_
  rw [bS_dec, ncT]; ring

set_option maxHeartbeats 1600000 in
/-- `ncal` in IEEE double -/
theorem ncal_fp (hL : MidOK L) (n : ℕ) (hn : n ≤ 7) (x : FP binary64 L) {q : ℚ} (hx : Val binary64 (ofF x) q) (h0 : 0 ≤ q) (h1 : q ≤ 3.1417) :
    ∃ v : FP binary64 L, ncal (n:ℤ) x = .ok v ∧
      SN binary64 (ofF v) ((q:ℝ) ^ (n + 1) * (1 / (n + 1) + uS RealSem.dec q (fun k => 1 / (2 * (k + 1) + n + 1))) / (n + 1)) (ww ^ (n + 1) / ((n:ℝ) + 1) ^ 2) 58 := by
  have hu0 := uR_pos (φ := binary64)
  have hu := u53
  have h0r : (0:ℝ) ≤ q := by exact_mod_cast h0
  have h1r : (q:ℝ) ≤ 3.1417 := by
    have : ((q : ℚ) : ℝ) ≤ ((3.1417 : ℚ) : ℝ) := by exact_mod_cast h1
    norm_num at this ⊢; exact this
  have hn0 : (0:ℝ) ≤ n := Nat.cast_nonneg n
  have hn7 : (n:ℝ) ≤ 7 := by exact_mod_cast hn
  obtain ⟨c1, c2, c3, c4⟩ := W_cert ⟨n + 1, by omega⟩ (by simp)
  have c1 : (3:ℝ) ≤ ww ^ (n + 1) := by have := (Rat.cast_le (K := ℝ)).2 c1; push_cast at this; norm_num at this ⊢; exact this
  have c2 : ww ^ (n + 1) ≤ 1e4 := by have := (Rat.cast_le (K := ℝ)).2 c2; push_cast at this; norm_num at this ⊢; exact this
  have c3 : (0.3:ℝ) ≤ ww ^ (n + 1) / (n + 3) := by
    have := (Rat.cast_le (K := ℝ)).2 c3; push_cast at this
    rw [show (n:ℝ) + 1 + 2 = n + 3 by ring] at this; norm_num at this ⊢; exact this
  have c4 : (1 / 64:ℝ) ≤ ww ^ (n + 1) / ((n:ℝ) + 1) ^ 2 := by
    have := (Rat.cast_le (K := ℝ)).2 c4; push_cast at this; norm_num at this ⊢; exact this
  have hp0 : 0 ≤ (q:ℝ) ^ (n + 1) := by positivity
  have hpW : (q:ℝ) ^ (n + 1) ≤ ww ^ (n + 1) := pow_le_pow_left₀ h0r h1r _
  have hU := uS_sum n q
  have htail := fun k => ncT_abs (n := n) (p := (q:ℝ) ^ (n + 1)) (y := (q:ℝ) ^ 2) (W := ww ^ (n + 1)) (by rwa [abs_of_nonneg hp0]) (by positivity) (by nlinarith) k
  have hsumA : |∑ k ∈ range 202, ncT n ((q:ℝ) ^ (n + 1)) ((q:ℝ) ^ 2) k| ≤ 1.334 * |ncT n ((q:ℝ) ^ (n + 1)) ((q:ℝ) ^ 2) 0| := by
    have := ncT_tail (n := n) (p := (q:ℝ) ^ (n + 1)) (y := (q:ℝ) ^ 2) (by positivity) (by nlinarith) 202 0
    simpa only [zero_add] using this
  have hneg : ∑ k ∈ range 202, ncT n ((q:ℝ) ^ (n + 1)) ((q:ℝ) ^ 2) k ≤ 0 := by
    refine Finset.sum_nonpos fun k _ => ?_
    rw [ncT]
    refine div_nonpos_of_nonpos_of_nonneg (mul_nonpos_of_nonpos_of_nonneg (bq_nonpos k) (by positivity)) (by positivity)
  set W := ww ^ (n + 1) with hW
  set p := (q:ℝ) ^ (n + 1) with hp
  have ht0 := (htail 0).trans (ncTau_le (n := n) c1 0 (by norm_num))
  rw [pow_zero, mul_one] at ht0
  set U := ∑ k ∈ range 202, ncT n p ((q:ℝ) ^ 2) k with hUd
  have hUa : |U| ≤ W / (n + 3) * 1.1 := by nlinarith
  -- x^(n+1), x^2, x^(n+3)
  have hv1 : Near binary64 (ofF (powi x ((n:ℤ) + 1))) p (2.0001 * υ * W) := by
    have := hL.pow (ofF x) q (n + 1) hx h0 (h1.trans (by norm_num)) (by omega) (by omega)
    have e : ofF (powi x ((n:ℤ) + 1)) = L.pow (ofF x) (rndQ binary64 ((n + 1 : ℕ):ℚ)) := by
      show L.pow (ofF x) (rndQ binary64 (((n:ℤ) + 1 : ℤ):ℚ)) = _
      congr 2
    rw [e]
    refine this.mono ?_
    have h2 := eta1074
    have h3 : (2e-240:ℝ) ≤ 0.0001 * υ * W := by
      have : (0.0001:ℝ) * υ * 3 ≤ 0.0001 * υ * W := by gcongr
      rw [hu] at this ⊢; norm_num at this ⊢; linarith
    have h4 : 2 * υ * p ≤ 2 * υ * W := by gcongr
    linarith
  have hyy : (q:ℝ) ^ 2 ≤ 9.87028 := by nlinarith
  have hx2 : Val binary64 (ofF (x *. x)) (rq binary64 (q * q)) := Val.mul hx hx (rq_big_lt (by
    push_cast; rw [← pow_two, abs_of_nonneg (by positivity)]; exact hyy.trans (by norm_num)))
  have hχ : |((rq binary64 (q * q) : ℚ) : ℝ) - (q:ℝ) ^ 2| ≤ 1.01 * υ * 9.8703 := by
    have h := rq_err240 (q * q)
    have e : ((q * q : ℚ) : ℝ) = (q:ℝ) ^ 2 := by push_cast; ring
    rw [e, abs_of_nonneg (by positivity : (0:ℝ) ≤ (q:ℝ) ^ 2)] at h
    have : υ * (q:ℝ) ^ 2 ≤ υ * 9.87028 := by gcongr
    rw [hu] at *; norm_num at *; linarith
  have hχ0 : |((rq binary64 (q * q) : ℚ) : ℝ)| ≤ 9.8703 := by
    have h := abs_sub_abs_le_abs_sub ((rq binary64 (q * q) : ℚ) : ℝ) ((q:ℝ) ^ 2)
    rw [abs_of_nonneg (by positivity : (0:ℝ) ≤ (q:ℝ) ^ 2)] at h
    rw [hu] at hχ; norm_num at *; linarith
  have hxn : Near binary64 (ofF (powi x ((n:ℤ) + 1) *. (x *. x))) (p * (q:ℝ) ^ 2) ((5 + 3 * ((0:ℕ):ℝ)) * υ * ncV W 0) := by
    have h2 : Near binary64 (ofF (x *. x)) ((q:ℝ) ^ 2) (1.01 * υ * 9.8703) := ⟨_, hx2, hχ⟩
    have hpa : |p| ≤ W := by rwa [abs_of_nonneg hp0]
    have hya : |(q:ℝ) ^ 2| ≤ 9.8703 := by rw [abs_of_nonneg (by positivity)]; linarith
    have hu15 : υ ≤ 1e-15 := by rw [hu]; norm_num
    have b1 : |p| + 2.0001 * υ * W ≤ 1.001 * W := by nlinarith
    have b2 : |(q:ℝ) ^ 2| + 1.01 * υ * 9.8703 ≤ 9.8703 * 1.001 := by nlinarith
    have b3 : (|p| + 2.0001 * υ * W) * (|(q:ℝ) ^ 2| + 1.01 * υ * 9.8703) ≤ 1.001 * W * (9.8703 * 1.001) := mul_le_mul b1 b2 (by positivity) (by positivity)
    refine (hv1.mul fmtA64 h2 (b3.trans (by norm_num; linarith))).mono ?_
    have b4 : 2.0001 * υ * W * |(q:ℝ) ^ 2| ≤ 2.0001 * υ * W * 9.8703 := by gcongr
    have b5 : 1.01 * υ * 9.8703 * |p| ≤ 1.01 * υ * 9.8703 * W := by gcongr
    have b6 := mul_le_mul_of_nonneg_left b3 hu0.le
    have hW0 : 0 ≤ υ * W := by positivity
    have b7 : 2.0001 * υ * W * (1.01 * υ * 9.8703) ≤ 0.01 * (υ * W) := by
      have : υ * (υ * W) ≤ 1e-15 * (υ * W) := mul_le_mul_of_nonneg_right hu15 hW0
      have e : 2.0001 * υ * W * (1.01 * υ * 9.8703) = 2.0001 * 1.01 * 9.8703 * (υ * (υ * W)) := by ring
      rw [e]; norm_num at this ⊢; linarith
    have b8 : υ ^ 2 ≤ 0.01 * (υ * W) := by
      have : υ * υ ≤ υ * (0.01 * W) := mul_le_mul_of_nonneg_left (by linarith) hu0.le
      rw [pow_two]; linarith
    have e1 : (5 + 3 * ((0:ℕ):ℝ)) * υ * ncV W 0 = 5 * 9.8703 * (υ * W) := by unfold ncV; push_cast; ring
    have e2 : 2.0001 * υ * W * 9.8703 = 2.0001 * 9.8703 * (υ * W) := by ring
    have e3 : 1.01 * υ * 9.8703 * W = 1.01 * 9.8703 * (υ * W) := by ring
    have e4 : υ * (1.001 * W * (9.8703 * 1.001)) = 1.001 * 9.8703 * 1.001 * (υ * W) := by ring
    rw [e1]; rw [e2] at b4; rw [e3] at b5; rw [e4] at b6
    norm_num at *; linarith
  obtain ⟨ξ, hξv, hξ⟩ := hxn
  have hz : Val binary64 (ofF (FOps.lit 0 : FP binary64 L)) 0 := vl_zero fmtA64
  obtain ⟨s, ν, hs, hνv, hν⟩ := ncalLoop_fp (n := n) (p := p) (y := (q:ℝ) ^ 2) (W := W) (by rwa [abs_of_nonneg hp0]) c1 c2 (by positivity) (by linarith) c3 (by omega) (x *. x) hx2 hχ hχ0 202
    0 (FOps.lit 0 : FP binary64 L) (powi x ((n:ℤ) + 1) *. (x *. x)) 0 ξ (by norm_num) hz hξv (by rw [zero_add, pow_one]; exact hξ) (by simp)
  simp only [zero_add, Rat.cast_zero] at hν
  have hν2 := hν.trans (ncE_zero c3)
  have hs' : ncalLoop (n:ℤ) (x *. x) 202 1 (FOps.lit 0 : FP binary64 L) (powi x ((n:ℤ) + 1) *. (x *. x)) = .ok s := hs
  have hm : Val binary64 (ofF (FOps.ofInt ((n:ℤ) + 1) : FP binary64 L)) ((n + 1 : ℕ):ℚ) := by
    rw [ofF_ofInt, show ((n:ℤ) + 1) = ((n + 1 : ℕ) : ℤ) by push_cast; rfl, Int.cast_natCast]
    exact vl_nat fmtA64 (n + 1) (by omega)
  have hm1 : (1:ℝ) ≤ (((n + 1 : ℕ):ℚ):ℝ) := by push_cast; linarith
  have cm : ((((n + 1 : ℕ):ℚ)):ℝ) = n + 1 := by push_cast; ring
  have hW4 : W / (n + 1) ≤ 1e4 := (div_le_self (by linarith) (by linarith)).trans c2
  have c5 : (1 / 64:ℝ) ≤ W / (n + 1) := c4.trans (by
    rw [pow_two, ← div_div]; exact div_le_self (by positivity) (by linarith))
  -- the sum
  have d1 : SN binary64 (ofF (powi x ((n:ℤ) + 1) /. (FOps.ofInt ((n:ℤ) + 1) : FP binary64 L))) (p / (n + 1)) (W / (n + 1)) (2.0001 + 1.001) := by
    have h2 : SN binary64 (ofF (powi x ((n:ℤ) + 1))) p W 2.0001 := ⟨hv1.mono (by linarith), by rwa [abs_of_nonneg hp0], by linarith, c2.trans (by norm_num), by norm_num, by norm_num⟩
    have := h2.divc fmtA64 hm hm1 (by rw [cm]; exact c5)
    rwa [cm] at this
  have d2 : Near binary64 (ofF s) U (52 * υ * (W / (n + 1))) := by
    refine ⟨ν, hνv, hν2.trans ?_⟩
    have : W / (n + 3) ≤ 0.8 * (W / (n + 1)) := by
      rw [div_le_iff₀ (by positivity)]
      have e : 0.8 * (W / (n + 1)) * (n + 3) = W * ((0.8 * (n + 3)) / (n + 1)) := by field_simp
      rw [e]
      have : 1 ≤ (0.8 * ((n:ℝ) + 3)) / (n + 1) := by rw [le_div_iff₀ (by positivity)]; linarith
      nlinarith
    have := mul_le_mul_of_nonneg_left this (by positivity : 0 ≤ 65 * υ)
    linarith
  have hle : |p / (n + 1) + U| ≤ W / (n + 1) := by
    have h3 : p / (n + 1) ≤ W / (n + 1) := div_le_div_of_nonneg_right hpW (by linarith)
    have h4 : 0 ≤ p / ((n:ℝ) + 1) := by positivity
    have h5 : W / ((n:ℝ) + 3) * 1.1 ≤ W / (n + 1) := by
      rw [div_mul_eq_mul_div, div_le_div_iff₀ (by positivity) (by positivity)]
      nlinarith
    have h6 := abs_le.1 hUa
    rw [abs_le]; constructor <;> linarith
  have d3 : SN binary64 (ofF (powi x ((n:ℤ) + 1) /. (FOps.ofInt ((n:ℤ) + 1) : FP binary64 L) +. s)) (p / (n + 1) + U) (W / (n + 1)) 56.3 := by
    have hW0 : 0 ≤ W / ((n:ℝ) + 1) := by positivity
    have hu15 : υ ≤ 1e-15 := by rw [hu]; norm_num
    refine ⟨?_, hle, c5, hW4.trans (by norm_num), by norm_num, by norm_num⟩
    have hM : |p / (n + 1) + U| + (υ * (2.0001 + 1.001) * (W / (n + 1)) + 52 * υ * (W / (n + 1))) ≤ 1.001 * (W / (n + 1)) := by
      have : υ * (W / (n + 1)) ≤ 1e-15 * (W / (n + 1)) := mul_le_mul_of_nonneg_right hu15 hW0
      nlinarith
    refine (d1.near.add fmtA64 d2 (hM.trans (by norm_num; linarith))).mono ?_
    have := mul_le_mul_of_nonneg_left hM hu0.le
    nlinarith [mul_nonneg hu0.le hW0]
  have d4 := d3.divc fmtA64 hm hm1 (by rw [cm, div_div, ← pow_two]; exact c4)
  rw [cm] at d4
  refine ⟨(powi x ((n:ℤ) + 1) /. (FOps.ofInt ((n:ℤ) + 1) : FP binary64 L) +. s) /. (FOps.ofInt ((n:ℤ) + 1) : FP binary64 L), ?_, ?_⟩
  · rw [ncal]
    simp only [hs', bind_ok]; rfl
  · have e1 : p * (1 / ((n:ℝ) + 1) + uS RealSem.dec q (fun k => 1 / (2 * (k + 1) + n + 1))) / (n + 1) = (p / (n + 1) + U) / (n + 1) := by
      rw [hU]; ring
    have e2 : W / ((n:ℝ) + 1) ^ 2 = W / (n + 1) / (n + 1) := by rw [pow_two, div_div]
    rw [e1, e2]
    exact d4.mono le_rfl (by norm_num) (by refine (div_le_self (by positivity) (by linarith)).trans (hW4.trans (by norm_num)))

end Polylog
