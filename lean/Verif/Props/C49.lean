import Verif.Props.ClMidFP7

/-! # C49: `Cl(n, x)`, n = 7, 8, 9, accurate in IEEE double precision arithmetic, rounding included -/

namespace Polylog
set_option linter.style.longLine false

variable {L : Lib}

/-- `u = 2^-53` -/
local notation "υ" => uR binary64

/-- the reduced argument is not the smallest subnormal -/
theorem reduce_ne (x : FP binary64 L) {q : ℚ} (hx : Val binary64 (ofF x) q) (hd : |q| ≠ 1 / 2 ^ 1074) :
    ¬ Val binary64 (ofF (reduceAbs (FOps.lit 3.14159265358979324 : FP binary64 L) (FOps.lit 0.0019353071795864769253) x)) (1 / 2 ^ 1074) := by
  intro hv
  rcases le_or_gt |q| (rq binary64 3.14159265358979324) with h | h
  · obtain ⟨r, t, s, hr, -, -, -, -, -, hq⟩ := (clCtx_d L).reduceG fmtA64 0 (f := fun _ => 0) (by simp) (by simp) x hx
    have h1 := (hq h).1
    have := hv.unique hr
    rw [← this] at h1
    exact hd (by exact_mod_cast h1.symm)
  · rcases reduce_gran x hx h hv with h | h
    · norm_num at h
    · rw [abs_of_pos (by positivity)] at h
      have : (1:ℚ) / 2 ^ 1074 < 2 ^ (-62 : ℤ) := by
        have : (1:ℚ) / 2 ^ 1074 = 2 ^ (-1074 : ℤ) := by rw [zpow_neg, one_div]; norm_cast
        rw [this]; exact zpow_lt_zpow_right₀ (by norm_num) (by norm_num)
      linarith

/-- a finite nonnegative double is 0, the smallest subnormal or at least twice that -/
theorem tri_eta {x : FV} {ρ : ℚ} (h : Val binary64 x ρ) (h0 : 0 ≤ ρ) : ρ = 0 ∨ ρ = 1 / 2 ^ 1074 ∨ 2 ^ (-1073 : ℤ) ≤ ρ := by
  obtain ⟨k, hk⟩ := repr_eta h.repr
  rw [abs_of_nonneg h0, show binary64.emin = -1074 from rfl] at hk
  have e1 : (2:ℚ) ^ (-1074 : ℤ) = 1 / 2 ^ 1074 := by rw [zpow_neg, one_div]; norm_cast
  rcases k with _ | _ | k
  · left; rw [hk]; simp
  · right; left; rw [hk, e1]; simp
  · right; right
    have e2 : (2:ℚ) ^ (-1073 : ℤ) = 2 * 2 ^ (-1074 : ℤ) := by
      rw [show (-1073:ℤ) = 1 + -1074 by norm_num, zpow_add₀ (by norm_num)]; norm_num
    rw [hk, e2]
    have : (2:ℚ) ≤ ((k + 1 + 1 : ℕ) : ℚ) := by push_cast; linarith [Nat.cast_nonneg (α := ℚ) k]
    exact mul_le_mul_of_nonneg_right this (by positivity)

theorem eta_ups : (2:ℝ) * ((1 / 2 ^ 1074 : ℚ) : ℝ) ≤ υ := by
  have e : ((1 / 2 ^ 1074 : ℚ) : ℝ) = 2 ^ (-1074 : ℤ) := by
    push_cast; rw [zpow_neg, one_div]; norm_cast
  have h := eta1074
  rw [e, u53]
  norm_num at h ⊢; linarith

theorem ww31 {ρ : ℚ} (h : ρ ≤ rq binary64 3.14159265358979324) : ρ ≤ 3.1417 := by
  have := (clCtx_d zeroLib).h4
  linarith

open Classical in
theorem C49_core (hL : MidOK L) (n : ℕ) (h7 : 7 ≤ n) (h9 : n ≤ 9) (x : FP binary64 L) {q : ℚ} (hx : Val binary64 (ofF x) q) (hd : |q| ≠ 1 / 2 ^ 1074) :
    ∃ v : FP binary64 L, Cl n x = .ok v ∧ Near binary64 (ofF v) (clausen n q) (7501 * υ + (2 * (8 * υ + 4 / 3 * υ * |(q:ℝ)|) + 0)) ∧
      (|q| ≤ rq binary64 3.14159265358979324 → Near binary64 (ofF v) (clausen n q) (7501 * υ)) := by
  have hu0 := uR_pos (φ := binary64)
  have heta := eta_ups
  have hper : ∀ y, clausen n (y - 2 * Real.pi) = clausen n y := fun y => by
    have := clausen_sub_nat n 1 y
    rwa [Nat.cast_one, mul_one] at this
  have hne := reduce_ne x hx hd
  obtain ⟨σ1, σ2, f1, f2, hp⟩ : ∃ σ1 σ2 f1 f2, MPar n σ1 σ2 f1 f2 := by
    obtain rfl | rfl | rfl : n = 7 ∨ n = 8 ∨ n = 9 := by omega
    · exact ⟨_, _, _, _, .inl ⟨rfl, rfl, rfl, rfl, rfl⟩⟩
    · exact ⟨_, _, _, _, .inr (.inl ⟨rfl, rfl, rfl, rfl, rfl⟩)⟩
    · exact ⟨_, _, _, _, .inr (.inr ⟨rfl, rfl, rfl, rfl, rfl⟩)⟩
  have hz : Val binary64 (ofF (FOps.lit 0 : FP binary64 L)) 0 := vl_zero fmtA64
  rcases Nat.even_or_odd' n with ⟨m, hm | hm⟩
  · obtain ⟨m, rfl⟩ : ∃ k, m = k + 1 := ⟨m - 1, by omega⟩
    have hm : n = 2 * m + 1 + 1 := by omega
    have hlip := clausen_lip m 1 (by norm_num) (by omega)
    have hneg := clausen_neg m 1 (by norm_num) (by omega)
    have hpi0 := clausen_even_pi m
    have h00 := clausen_even_zero m
    rw [← hm] at hlip hneg hpi0 h00
    have hpi : |clausen n ((rq binary64 3.14159265358979324 : ℚ) : ℝ)| ≤ 7501 * υ := by
      have h := (clCtx_d L).hd
      have := hlip ((rq binary64 3.14159265358979324 : ℚ) : ℝ) Real.pi
      rw [hpi0, sub_zero] at this
      linarith
    let core : FP binary64 L → FP binary64 L := fun r => if Val binary64 (ofF r) (1 / 2 ^ 1074) ∨ Val binary64 (ofF r) 0 then FOps.lit 0 else mcore n σ1 σ2 f1 f2 r
    have hcore : ∀ (r : FP binary64 L) (ρ : ℚ), Val binary64 (ofF r) ρ → 0 ≤ ρ → ρ ≤ rq binary64 3.14159265358979324 → Near binary64 (ofF (core r)) (clausen n ρ) (7501 * υ) := by
      intro r ρ hr h0 hP
      by_cases hc : Val binary64 (ofF r) (1 / 2 ^ 1074) ∨ Val binary64 (ofF r) 0
      · have e : core r = FOps.lit 0 := if_pos hc
        rw [e]
        have hρ : (ρ:ℝ) ≤ ((1 / 2 ^ 1074 : ℚ) : ℝ) := by
          have : ρ ≤ 1 / 2 ^ 1074 := by
            rcases hc with h | h
            · exact (hr.unique h).le
            · rw [hr.unique h]; positivity
          exact_mod_cast this
        have hρ0 : (0:ℝ) ≤ ρ := by exact_mod_cast h0
        have hl := hlip ((0:ℚ):ℝ) ρ
        rw [Rat.cast_zero, h00, zero_sub, zero_sub, abs_neg, abs_neg, abs_of_nonneg hρ0] at hl
        refine (hz.near.shift (r' := clausen n ρ) (d := υ) ?_).mono (by linarith)
        rw [Rat.cast_zero, zero_sub, abs_neg]; linarith
      · have e : core r = mcore n σ1 σ2 f1 f2 r := if_neg hc
        rw [e]
        refine (mcore_near hL hp r hr h0 (ww31 hP) (.inr ?_)).mono (by linarith)
        rcases tri_eta hr h0 with h | h | h
        · exact absurd (.inr (h ▸ hr)) hc
        · exact absurd (.inl (h ▸ hr)) hc
        · exact h
    have key := (clCtx_d L).oddP fmtA64 (core := core) hneg hper (by positivity : 0 ≤ 7501 * υ) (by norm_num : (0:ℝ) ≤ 2)
      (fun a b _ _ => (hlip a b).trans (le_of_eq (add_zero _).symm)) hpi hcore x hx rfl
    refine ⟨_, ?_, key⟩
    rw [Cl_even_eq n h7 (by omega)]
    obtain ⟨ρ, -, -, hr, hr0, -⟩ := (clCtx_d L).reduceG fmtA64 0 (f := fun _ => 0) (by simp) (by simp) x hx
    have e1 : (reduceSgn (FOps.lit 3.14159265358979324 : FP binary64 L) (FOps.lit 0.0019353071795864769253) x).1 = reduceAbs (FOps.lit 3.14159265358979324 : FP binary64 L) (FOps.lit 0.0019353071795864769253) x := reduceSgn_fst _ _ _
    dsimp only
    rw [e1]
    generalize reduceAbs (FOps.lit 3.14159265358979324 : FP binary64 L) (FOps.lit 0.0019353071795864769253) x = y at *
    generalize (reduceSgn (FOps.lit 3.14159265358979324 : FP binary64 L) (FOps.lit 0.0019353071795864769253) x).2 = w at *
    by_cases hy : (y ==. (FOps.lit 0 : FP binary64 L)) = true
    · rw [if_pos hy, if_pos hy]; rfl
    · rw [if_neg hy, if_neg hy]
      have hc : ¬ (Val binary64 (ofF y) (1 / 2 ^ 1074) ∨ Val binary64 (ofF y) 0) := by
        rintro (h | h)
        · exact hne h
        · refine hy ?_
          have : (y ==. (FOps.lit 0 : FP binary64 L)) = decide ((0:ℚ) = 0) := by rw [eq_F]; exact h.eq hz
          rw [this]; rfl
      have e : core y = mcore n σ1 σ2 f1 f2 y := if_neg hc
      rw [e]
      split_ifs
      · rfl
      · rw [clTail, if_pos (by omega), clMid_mcore hp]
  · have hm : n = 2 * m + 1 + 0 := by omega
    have hlip := clausen_lip m 0 (by norm_num) (by omega)
    have hneg := clausen_neg m 0 (by norm_num) (by omega)
    rw [← hm] at hlip hneg
    let core : FP binary64 L → FP binary64 L := fun r => if Val binary64 (ofF r) (1 / 2 ^ 1074) then mcore n σ1 σ2 f1 f2 (FOps.lit 0) else mcore n σ1 σ2 f1 f2 r
    have hcore : ∀ (r : FP binary64 L) (ρ : ℚ), Val binary64 (ofF r) ρ → 0 ≤ ρ → ρ ≤ rq binary64 3.14159265358979324 → Near binary64 (ofF (core r)) (clausen n ρ) (7501 * υ) := by
      intro r ρ hr h0 hP
      by_cases hc : Val binary64 (ofF r) (1 / 2 ^ 1074)
      · have e : core r = mcore n σ1 σ2 f1 f2 (FOps.lit 0) := if_pos hc
        rw [e]
        have hρ := hr.unique hc
        have hρ0 : (0:ℝ) ≤ ρ := by exact_mod_cast h0
        have hl := hlip ((0:ℚ):ℝ) ρ
        have hzz := mcore_near hL hp (FOps.lit 0 : FP binary64 L) hz le_rfl (by norm_num) (.inl ⟨rfl, by omega⟩)
        rw [← hρ] at heta
        refine (hzz.shift (r' := clausen n ρ) (d := υ) (hl.trans ?_)).mono (by linarith)
        rw [Rat.cast_zero, zero_sub, abs_neg, abs_of_nonneg hρ0]; exact heta
      · have e : core r = mcore n σ1 σ2 f1 f2 r := if_neg hc
        rw [e]
        refine (mcore_near hL hp r hr h0 (ww31 hP) ?_).mono (by linarith)
        rcases tri_eta hr h0 with h | h | h
        · exact .inl ⟨h, by omega⟩
        · exact absurd (h ▸ hr) hc
        · exact .inr h
    have key := (clCtx_d L).evenG fmtA64 (core := core) hneg hper (by norm_num : (0:ℝ) ≤ 2)
      (fun a b _ _ => (hlip a b).trans (le_of_eq (add_zero _).symm)) hcore x hx rfl
    refine ⟨_, ?_, key⟩
    have e : core (reduceAbs (FOps.lit 3.14159265358979324 : FP binary64 L) (FOps.lit 0.0019353071795864769253) x) = mcore n σ1 σ2 f1 f2 _ := if_neg hne
    rw [e, Cl_odd_eq n h7 (by omega), clTail, if_pos (by omega), clMid_mcore hp]

/-- **C49.** `Cl(n, x)`, n = 7, 8, 9, in IEEE double: for every finite `x` other than `±2^-1074` the result is finite and within `(7517 + 8/3 |x|) u` of
`Cl_n(x)`, within `7501 u` for `|x| ≤ 3.14`. -/
theorem C49_Cl (hL : MidOK L) (n : ℕ) (h7 : 7 ≤ n) (h9 : n ≤ 9) (x : FP binary64 L) {q : ℚ} (hx : Val binary64 (ofF x) q) (hd : |q| ≠ 1 / 2 ^ 1074) :
    ∃ (v : FP binary64 L) (r : ℚ), Cl n x = .ok v ∧ Val binary64 (ofF v) r ∧ |(r : ℝ) - clausen n q| ≤ (7517 + 8 / 3 * |(q : ℝ)|) * 2 ^ (-53 : ℤ) ∧
      (|(q : ℝ)| ≤ 3.14 → |(r : ℝ) - clausen n q| ≤ 7501 * 2 ^ (-53 : ℤ)) := by
  obtain ⟨v, hv, h⟩ := C49_core hL n h7 h9 x hx hd
  obtain ⟨r, a, b, c⟩ := serFin (f := clausen n) (E := 7501) (Λ := 2) h
  exact ⟨v, r, hv, a, b.trans (le_of_eq (by ring)), c⟩

/-! ## a library that meets the contract -/

/-- a C library: rounded logarithm; `sin` the identity up to `2^-30`, rounded above; `pow` the rounded exact power for natural exponents -/
noncomputable def midLib : Lib :=
  { zeroLib with
    log := approxF binary64 Real.log
    sin := fun x => match x with
      | .fin s a => if a ≤ 1 / 2 ^ 30 then .fin s a else approxF binary64 Real.sin (.fin s a)
      | _ => .nan
    pow := fun x y => match x, y with
      | .fin s a, .fin t b => rndQ binary64 (sval s a ^ (sval t b).num.toNat)
      | _, _ => .nan }

theorem exists_midOK : MidOK midLib where
  log x q h hq := by
    have h0 := uR_pos (φ := binary64)
    refine (approxF_near fmtA64 Real.log h ((h.log_le fmtA64 hq).trans (by norm_num))).mono ?_
    have := mul_nonneg h0.le (abs_nonneg (Real.log q)); linarith
  sinTiny x q h hq hq1 := by
    obtain ⟨s, a, rfl, hs, _, _⟩ := h
    cases s
    · have : a = q := hs
      show (if a ≤ 1 / 2 ^ 30 then FV.fin false a else _) = _
      rw [if_pos (this ▸ hq1)]
    · have : -a = q := hs
      have ha : a ≤ 1 / 2 ^ 30 := by
        have : (0:ℚ) < 1 / 2 ^ 30 := by positivity
        linarith
      show (if a ≤ 1 / 2 ^ 30 then FV.fin true a else _) = _
      rw [if_pos ha]
  sin x q h hq hq1 := by
    have h0 := uR_pos (φ := binary64)
    have hu := u53
    have rq0 : ((1 / 2 ^ 30 : ℚ) : ℝ) ≤ q := by exact_mod_cast hq
    have rq1 : (q:ℝ) ≤ ((1.6 : ℚ) : ℝ) := by exact_mod_cast hq1
    push_cast at rq0 rq1
    have hpos : (0:ℝ) < q := lt_of_lt_of_le (by positivity) rq0
    have hsin : (q:ℝ) / 4 ≤ Real.sin q := by
      have h1 := Real.sin_gt_sub_cube hpos
      have h2 : (q:ℝ) * q ^ 2 ≤ q * (8 / 5) ^ 2 := by gcongr; norm_num at rq1 ⊢; linarith
      have e : (q:ℝ) ^ 3 = q * q ^ 2 := by ring
      rw [e] at h1
      norm_num at h2; linarith
    have hv := h
    obtain ⟨s, a, rfl, hs, hra, hmx⟩ := h
    clear hmx
    obtain ⟨m, e, _, _, hme⟩ := hra
    have ha0 : 0 ≤ a := by rw [hme]; positivity
    show Near binary64 (if a ≤ 1 / 2 ^ 30 then FV.fin s a else approxF binary64 Real.sin (.fin s a)) _ _
    split_ifs with hc
    · have he : q = 1 / 2 ^ 30 := by
        cases s
        · have : a = q := hs
          linarith
        · have h2 : -a = q := hs
          have h3 : (0:ℚ) < 1 / 2 ^ 30 := by positivity
          linarith
      refine ⟨q, hv, ?_⟩
      have h1 := Real.sin_gt_sub_cube hpos
      have h2 := Real.sin_le hpos.le
      rw [abs_of_nonneg (by linarith)]
      have h3 : 2 * υ * ((q:ℝ) / 4) ≤ 2 * υ * Real.sin q := mul_le_mul_of_nonneg_left hsin (by positivity)
      have h4 : (q:ℝ) ^ 3 / 6 ≤ 2 * υ * ((q:ℝ) / 4) := by
        rw [he, hu]; push_cast; norm_num
      linarith
    · refine (approxF_near fmtA64 Real.sin hv ((Real.abs_sin_le_one _).trans (by norm_num))).mono ?_
      rw [abs_of_nonneg (by linarith)]
      have : υ ^ 2 ≤ υ * Real.sin q := by
        rw [sq]
        refine mul_le_mul_of_nonneg_left ?_ h0.le
        rw [hu]; norm_num at rq0 ⊢; linarith
      linarith
  pow x q k h hq hq1 h1 h8 := by
    have h0 := uR_pos (φ := binary64)
    obtain ⟨t, b, hk, ht, _, _⟩ := vl_nat fmtA64 (φ := binary64) k (by omega)
    have rq0 : (0:ℝ) ≤ q := by exact_mod_cast hq
    have rq1 : (q:ℝ) ≤ 4 := by
      have : q ≤ 4 := by linarith
      exact_mod_cast this
    obtain ⟨s, a, rfl, hs, _, _⟩ := h
    have e : midLib.pow (.fin s a) (rndQ binary64 k) = rndQ binary64 (q ^ k) := by
      rw [hk]
      show rndQ binary64 (sval s a ^ (sval t b).num.toNat) = _
      rw [hs, ht]; simp
    rw [e]
    have hb : (q:ℝ) ^ k ≤ 4 ^ 8 := (pow_le_pow_left₀ rq0 rq1 k).trans (pow_le_pow_right₀ (by norm_num) h8)
    have hb0 : (0:ℝ) ≤ (q:ℝ) ^ k := by positivity
    refine ⟨_, val_rndQ (rq_lt_max fmtA64 (v := q ^ k) ?_), ?_⟩
    · push_cast; rw [abs_of_nonneg hb0]; exact hb.trans (by norm_num)
    · have h3 := (Rat.cast_le (K := ℝ)).2 (rq_err' (φ := binary64) (q ^ k))
      push_cast at h3
      rw [abs_of_nonneg hb0] at h3
      have e2 : (2:ℝ) ^ (binary64.emin - 1) ≤ 2 ^ (-1074 : ℤ) := zpow_le_zpow_right₀ (by norm_num) (by decide)
      have e3 : (2:ℝ) ^ (-(binary64.p : ℤ)) = υ := rfl
      rw [e3] at h3
      have := mul_nonneg h0.le hb0
      linarith

/-- the hypotheses are met: `Cl(8, -5/2)` with that library -/
example : ∃ L : Lib, MidOK L ∧ ∃ (v : FP binary64 L) (r : ℚ), Cl 8 (toF binary64 L (.fin true (5 / 2))) = .ok v ∧ Val binary64 (ofF v) r ∧
    |(r : ℝ) - clausen 8 (-5 / 2)| ≤ 7501 * 2 ^ (-53 : ℤ) := by
  refine ⟨_, exists_midOK, ?_⟩
  obtain ⟨v, r, h1, h2, -, h4⟩ := C49_Cl exists_midOK 8 (by norm_num) (by norm_num) (toF binary64 _ (.fin true (5 / 2))) (q := -(5 / 2))
    ⟨true, 5 / 2, rfl, rfl, ⟨5, -1, by decide, by decide, by norm_num⟩, lt_two_pow_emax (by norm_num)⟩
    (by rw [abs_neg, abs_of_pos (by norm_num)]; intro h; have : (1:ℚ) / 2 ^ 1074 ≤ 1 := by rw [div_le_one (by positivity)]; exact one_le_pow₀ (by norm_num)
        linarith)
  refine ⟨v, r, h1, h2, ?_⟩
  have := h4 (by norm_num [abs_le])
  convert this using 3
  norm_num

end Polylog
