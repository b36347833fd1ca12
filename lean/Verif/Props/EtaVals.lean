import Verif.Props.ZetaVals

/-! # C02: `neg_eta(n) = Li_n(-1)` for every `int64_t n` -/

noncomputable section
namespace Polylog
open Finset
variable {S : RealSem}

theorem negEta_pos_table {F : Type} [FOps F] (i : ℕ) (hi : i < 54) : (negEta (i + 1 : ℤ) : M F) = .ok (FOps.lit negEtaPos[i]) := by
  unfold negEta
  have h1 : i64sub ((i:ℤ) + 1) 1 = .ok i := by
    rw [i64sub, i64_ok (by simp only [i64min, i64max]; omega)]; simp
  rw [if_neg (by omega), if_neg (by omega), if_pos (by omega), h1, bind_ok, arrGet_nat _ _ hi, bind_ok]
  rfl

theorem negEta_pos_big {F : Type} [FOps F] (n : ℕ) (hn : 54 < n) : (negEta (n : ℤ) : M F) = .ok ∸(FOps.lit 1 : F) := by
  unfold negEta
  rw [if_neg (by omega), if_neg (by omega), if_neg (by omega)]; rfl

theorem pLi_neg_one_real (n : ℕ) : pLi (n + 1) (-1) = ((reLi (n + 1) (-1) : ℝ) : ℂ) := by
  cases n with
  | zero =>
    rw [reLi]
    have h := pLi_one_ofReal (-1)
    rw [if_neg (by norm_num)] at h
    push_cast at h ⊢
    rw [h, show (-(Real.log (1 - -1) : ℂ) - 0) = ((-Real.log (1 - -1) : ℝ) : ℂ) by push_cast; ring, Complex.ofReal_re]
  | succ n =>
    have := pLi_real_of_abs_le n (x := -1) (by simp)
    push_cast at this
    exact this

/-- `1 - 2^-n ≤ eta(n) ≤ 1` -/
theorem eta_bounds (n : ℕ) : 1 - (1 / 2) ^ (n + 2) ≤ -reLi (n + 2) (-1) ∧ -reLi (n + 2) (-1) ≤ 1 := by
  have ho := odd_sum n
  have h1 := reLi_hasSum n (x := 1) (by simp)
  simp only [one_pow] at h1
  have he : HasSum (fun j : ℕ => 1 / (2 * (j:ℝ) + 2) ^ (n + 2)) ((1 / 2) ^ (n + 2) * reLi (n + 2) 1) := by
    refine HasSum.congr_fun' (h1.mul_left ((1 / 2 : ℝ) ^ (n + 2))) fun k => ?_
    rw [show 2 * (k:ℝ) + 2 = 2 * (k + 1) by ring, mul_pow, div_pow, one_pow]; field_simp
  have e : -reLi (n + 2) (-1) = (1 - (1 / 2) ^ (n + 2)) * reLi (n + 2) 1 - (1 / 2) ^ (n + 2) * reLi (n + 2) 1 := by
    rw [reLi_neg_one_eq]
    have : (1 / 2 : ℝ) ^ (n + 1) = 2 * (1 / 2) ^ (n + 2) := by rw [pow_succ (1/2 : ℝ) (n+1)]; ring
    rw [this]; ring
  rw [e]
  constructor
  · have := le_hasSum (ho.sub he) 0 (fun j _ => by
      have : 1 / (2 * (j:ℝ) + 2) ^ (n + 2) ≤ 1 / (2 * (j:ℝ) + 1) ^ (n + 2) := by gcongr; norm_num
      linarith)
    simpa [div_pow] using this
  · have h3 := (hasSum_nat_add_iff' 1).mpr ho
    simp only [Finset.range_one, Finset.sum_singleton, Nat.cast_zero, mul_zero, zero_add, one_pow, div_one] at h3
    have := hasSum_le (fun j : ℕ => ?_) h3 he
    · linarith
    · push_cast
      apply one_div_le_one_div_of_le (by positivity)
      apply pow_le_pow_left₀ (by positivity); linarith

/-- **C02 (1 ≤ n ≤ 54).** -/
theorem C02_pos {u : ℝ} (hS : S.Lit u) (n : ℕ) (h0 : 0 < n) (hn : n ≤ 54) :
    ∃ v : R S, negEta n = .ok v ∧ ‖((ofR v : ℝ) : ℂ) - pLi n (-1)‖ ≤ (4.81e-17 + 1.01 * u) * ‖pLi n (-1)‖ := by
  obtain ⟨i, rfl⟩ := Nat.exists_eq_succ_of_ne_zero h0.ne'
  rw [Nat.succ_eq_add_one]
  refine ⟨_, by push_cast; exact negEta_pos_table i (by omega), ?_⟩
  rw [pLi_neg_one_real, ← Complex.ofReal_sub, Complex.norm_real, Complex.norm_real, Real.norm_eq_abs, Real.norm_eq_abs, ofR_lit]
  have ht := (Rat.cast_le (K := ℝ)).mpr (negEtaPos_table ⟨i, by omega⟩)
  have hq := abs_le.mp (eQ_approx i (by omega))
  have hu := hS.u_nonneg
  have h1 : |((negEtaPos[i] : ℚ) : ℝ) - reLi (i + 1) (-1)| ≤ 4.81e-17 * |reLi (i + 1) (-1)| := by
    have h5 := neg_le_abs (reLi (i + 1) (-1))
    push_cast at ht
    have := abs_add_le (((negEtaPos[i] : ℚ) : ℝ) + ((eQ i : ℚ) : ℝ)) (-((eQ i : ℚ) : ℝ) - reLi (i + 1) (-1))
    have h3 : |-((eQ i : ℚ) : ℝ) - reLi (i + 1) (-1)| ≤ 1e-42 := by
      rw [abs_le]; constructor <;> linarith [hq.1, hq.2]
    have e : ((negEtaPos[i] : ℚ) : ℝ) + ((eQ i : ℚ) : ℝ) + (-((eQ i : ℚ) : ℝ) - reLi (i + 1) (-1)) = ((negEtaPos[i] : ℚ) : ℝ) - reLi (i + 1) (-1) := by ring
    rw [e] at this
    have h6 := hq.1
    norm_num at ht h3 h6 ⊢
    have h7 := abs_nonneg (reLi (i + 1) (-1))
    linarith
  refine (lit_rel hS h1).trans (mul_le_mul_of_nonneg_right ?_ (abs_nonneg _))
  norm_num; linarith

/-- **C02 (n > 54).** The result is exactly `-1`, and `Li_n(-1)` lies in `[-1, -1 + 2^-55]`, within half a unit in the last
place (`2^-54`) of `-1`. -/
theorem C02_big {u : ℝ} (hS : S.Lit u) (n : ℕ) (hn : 54 < n) :
    ∃ v : R S, negEta n = .ok v ∧ ofR v = -1 ∧ ∃ r : ℝ, pLi n (-1) = r ∧ -1 ≤ r ∧ r ≤ -1 + (1 / 2) ^ 55 := by
  obtain ⟨m, rfl⟩ : ∃ m, n = m + 2 := ⟨n - 2, by omega⟩
  refine ⟨_, negEta_pos_big _ hn, ?_, _, pLi_neg_one_real (m + 1), ?_⟩
  · rw [ofR_neg, ofR_lit, hS.one]; norm_num
  · obtain ⟨h1, h2⟩ := eta_bounds m
    have : (1 / 2 : ℝ) ^ (m + 2) ≤ (1 / 2) ^ 55 := pow_le_pow_of_le_one (by norm_num) (by norm_num) (by omega)
    constructor <;> linarith

/-- **C02 (n ≥ 2)**, relation to zeta: `Li_n(-1) = (2^(1-n) - 1) zeta(n)` -/
theorem C02_zeta_pos (n : ℕ) : pLi (n + 2) (-1) = ((2:ℂ) ^ (1 - ((n:ℤ) + 2)) - 1) * riemannZeta ((n:ℂ) + 2) := by
  rw [pLi_neg_one_real, ← reLi_one_eq_zeta, show n + 1 + 1 = n + 2 from rfl, reLi_neg_one_eq]
  have e : (1 - ((n:ℤ) + 2)) = -((n + 1 : ℕ) : ℤ) := by push_cast; ring
  rw [e, zpow_neg, zpow_natCast]
  push_cast
  rw [div_pow, one_pow, one_div]; ring

/-- **C02 (n = 0).** -/
theorem C02_zero {u : ℝ} (hS : S.Lit u) : ∃ v : R S, negEta 0 = .ok v ∧ ((ofR v : ℝ) : ℂ) = pLi 0 (-1) := by
  refine ⟨_, rfl, ?_⟩
  rw [ofR_neg, ofR_lit, hS.half, pLi]; norm_num

/-- the branch of `neg_eta` for odd negative `n` (eta.cpp 84-93) with the table as a parameter -/
def negEtaNegPart {F : Type} [FOps F] (t : Vector ℚ 109) (n : ℤ) : M F := do
  let i := i64div (← i64neg (← i64add 1 n)) 2
  if i < 109 then do
    let c ← arrGet t i
    pure (FOps.lit c)
  else do
    let k := i64div (← i64sub 1 n) 2
    if isEven k then pure FOps.inf else pure ∸(FOps.inf : F)

theorem negEta_eq_neg {F : Type} [FOps F] (n : ℤ) (h : n < 0) (he : isEven n = false) :
    (negEta n : M F) = negEtaNegPart negEtaNeg n := by
  unfold negEta negEtaNegPart
  rw [if_pos h, he]; rfl

theorem negEtaNegPart_eq {F : Type} [FOps F] (t : Vector ℚ 109) (i : ℕ) (hi : i < 109) :
    (negEtaNegPart t (1 - 2 * ((i:ℤ) + 1)) : M F) = .ok (FOps.lit t[i]) := by
  have hlt : (i:ℤ) < 109 := by omega
  unfold negEtaNegPart
  rw [i64_h1 i (by omega), bind_ok, i64_h2 i (by omega), bind_ok]
  dsimp only
  rw [i64_h3, if_pos hlt, arrGet_nat _ _ hi, bind_ok]
  rfl

theorem negEta_neg_odd {F : Type} [FOps F] (i : ℕ) (hi : i < 109) :
    (negEta (1 - 2 * ((i:ℤ) + 1)) : M F) = .ok (FOps.lit negEtaNeg[i]) := by
  rw [negEta_eq_neg _ (by omega) (by rw [← Bool.not_eq_true, isEven_iff]; omega), negEtaNegPart_eq _ _ hi]

/-- **C02 (negative even n).** exact zero; `(2^(1-n) - 1) zeta(n) = 0` -/
theorem C02_neg_even {u : ℝ} (hS : S.Lit u) (m : ℕ) (hm : 0 < m) :
    ∃ v : R S, negEta (-(2 * m : ℤ)) = .ok v ∧
      ((ofR v : ℝ) : ℂ) = ((2:ℂ) ^ (1 + 2 * m) - 1) * riemannZeta (-(2 * m : ℂ)) := by
  obtain ⟨_, _, hz⟩ := C01_neg_even hS m hm
  refine ⟨FOps.lit 0, ?_, ?_⟩
  · unfold negEta
    rw [if_pos (by omega), if_pos ((isEven_iff _).mpr (by omega))]; rfl
  · obtain ⟨k, rfl⟩ := Nat.exists_eq_succ_of_ne_zero hm.ne'
    have := riemannZeta_neg_two_mul_nat_add_one k
    have e : (-(2 * ((k.succ : ℕ) : ℂ))) = -2 * ((k:ℂ) + 1) := by push_cast; ring
    rw [e, this, ofR_lit, hS.zero]; simp

/-- **C02 (odd negative n ≥ -217).** -/
theorem C02_neg_odd {u : ℝ} (hS : S.Lit u) (m : ℕ) (h0 : 0 < m) (hm : m ≤ 109) :
    ∃ v : R S, negEta (1 - 2 * (m:ℤ)) = .ok v ∧
      ‖((ofR v : ℝ) : ℂ) - ((2:ℂ) ^ (2 * m) - 1) * riemannZeta (1 - 2 * (m : ℂ))‖
        ≤ (5e-17 + 1.01 * u) * ‖((2:ℂ) ^ (2 * m) - 1) * riemannZeta (1 - 2 * (m : ℂ))‖ := by
  obtain ⟨i, rfl⟩ := Nat.exists_eq_succ_of_ne_zero h0.ne'
  refine ⟨_, by push_cast; exact negEta_neg_odd i (by omega), ?_⟩
  rw [zeta_odd_bern _ h0]
  have ht := negEtaNeg_table ⟨i, by omega⟩
  have hb := bernoulli_even (i + 1) (by omega)
  simp only [] at ht
  rw [Nat.succ_eq_add_one, hb]
  generalize (bernL 202).getD (i + 1) 0 = N at *
  have hD : (0:ℚ) < bernDen := by exact_mod_cast bernDen_pos
  generalize (bernDen : ℚ) = D at *
  have hp2 : (0:ℚ) < 2 ^ (2 * (i + 1)) - 1 := by
    have : (1:ℚ) < 2 ^ (2 * (i + 1)) := one_lt_pow₀ (by norm_num) (by omega)
    linarith
  have ecast : ((2:ℂ) ^ (2 * (i + 1)) - 1) * ((-((N:ℚ) / D) / (2 * ((i + 1 : ℕ):ℚ)) : ℚ) : ℂ)
      = (((2 ^ (2 * (i + 1)) - 1) * (-((N:ℚ) / D) / (2 * ((i + 1 : ℕ):ℚ))) : ℚ) : ℂ) := by push_cast; ring
  rw [ecast]
  have hr : |negEtaNeg[i] - (2 ^ (2 * (i + 1)) - 1) * (-((N:ℚ) / D) / (2 * ((i + 1 : ℕ):ℚ)))|
      ≤ 5e-17 * |(2 ^ (2 * (i + 1)) - 1) * (-((N:ℚ) / D) / (2 * ((i + 1 : ℕ):ℚ)))| := by
    push_cast
    have e : negEtaNeg[i] - (2 ^ (2 * (i + 1)) - 1) * (-((N:ℚ) / D) / (2 * ((i:ℚ) + 1)))
        = (negEtaNeg[i] * (2 * ((i:ℚ) + 1)) * D + (2 ^ (2 * (i + 1)) - 1) * N) / (D * (2 * ((i:ℚ) + 1))) := by
      field_simp; ring
    have e' : (2 ^ (2 * (i + 1)) - 1) * (-((N:ℚ) / D) / (2 * ((i:ℚ) + 1))) = -((2 ^ (2 * (i + 1)) - 1) * N) / (D * (2 * ((i:ℚ) + 1))) := by field_simp
    have hp : 0 < D * (2 * ((i:ℚ) + 1)) := by positivity
    rw [e, e', abs_div, abs_div, abs_of_pos hp, abs_neg, mul_div_assoc', abs_mul (2 ^ (2 * (i + 1)) - 1) (N:ℚ), abs_of_pos hp2]
    exact div_le_div_of_nonneg_right ht hp.le
  generalize (2 ^ (2 * (i + 1)) - 1) * (-((N:ℚ) / D) / (2 * ((i + 1 : ℕ):ℚ))) = w at *
  have hr' : |((negEtaNeg[i] : ℚ) : ℝ) - (w : ℝ)| ≤ 5e-17 * |(w : ℝ)| := by
    have := (Rat.cast_le (K := ℝ)).mpr hr
    push_cast at this; exact this
  have h2 := lit_rel hS hr'
  rw [show ((w:ℚ):ℂ) = (((w:ℚ):ℝ):ℂ) by push_cast; rfl, ← Complex.ofReal_sub, Complex.norm_real, Complex.norm_real,
    Real.norm_eq_abs, Real.norm_eq_abs, ofR_lit]
  refine h2.trans (mul_le_mul_of_nonneg_right ?_ (abs_nonneg _))
  have := hS.u_nonneg
  norm_num; linarith

theorem eta_growth (m : ℕ) (hm : 110 ≤ m) :
    (dblMax : ℝ) * (2 * m) < (2 ^ (2 * m) - 1) * (2 * ((2 * m).factorial : ℝ) / (2 * Real.pi) ^ (2 * m)) := by
  have hpi := Real.pi_lt_d4
  have hpi0 := Real.pi_pos
  have hpw : ∀ m : ℕ, (1:ℝ) ≤ 2 ^ (2 * m) := fun m => one_le_pow₀ (by norm_num)
  suffices h : (dblMax : ℝ) * (2 * m) < (2 ^ (2 * m) - 1) * (2 * ((2 * m).factorial : ℝ) / (2 * 3.1416) ^ (2 * m)) by
    refine h.trans_le ?_
    have := hpw m
    apply mul_le_mul_of_nonneg_left _ (by linarith)
    gcongr
  induction m, hm using Nat.le_induction with
  | base =>
    have : (dblMax : ℚ) * (2 * 110) < (2 ^ (2 * 110) - 1) * (2 * ((2 * 110).factorial : ℚ) / (2 * 3.1416) ^ (2 * 110)) := by decide +kernel
    have h2 := (Rat.cast_lt (K := ℝ)).mpr this
    push_cast at h2 ⊢
    exact h2
  | succ m hm ih =>
    rw [show 2 * (m + 1) = 2 * m + 1 + 1 by ring, Nat.factorial_succ, Nat.factorial_succ, pow_succ (2 * 3.1416 : ℝ), pow_succ (2 * 3.1416 : ℝ)]
    have hm' : (110:ℝ) ≤ m := by exact_mod_cast hm
    have hd : (0:ℝ) < (dblMax : ℝ) := by rw [dblMax]; norm_num
    have hX : 0 < 2 * ((2 * m).factorial : ℝ) / (2 * 3.1416) ^ (2 * m) := by positivity
    push_cast
    have e : 2 * ((2 * (m:ℝ) + 1 + 1) * ((2 * m + 1) * ((2 * m).factorial : ℝ))) / ((2 * 3.1416) ^ (2 * m) * (2 * 3.1416) * (2 * 3.1416))
      = (2 * ((2 * m).factorial : ℝ) / (2 * 3.1416) ^ (2 * m)) * ((2 * m + 2) * (2 * m + 1) / (2 * 3.1416) ^ 2) := by
      field_simp; ring
    rw [e]
    have h1 : (2:ℝ) ≤ (2 * m + 2) * (2 * m + 1) / (2 * 3.1416) ^ 2 := by
      rw [le_div_iff₀ (by norm_num)]; nlinarith
    have h2 : (2:ℝ) ^ (2 * m) - 1 ≤ 2 ^ (2 * m + 1 + 1) - 1 := by
      rw [pow_succ, pow_succ]; linarith [hpw m]
    have h3 := hpw m
    calc (dblMax : ℝ) * (2 * (m + 1)) ≤ (dblMax * (2 * m)) * 2 := by nlinarith
      _ < ((2 ^ (2 * m) - 1) * (2 * ((2 * m).factorial : ℝ) / (2 * 3.1416) ^ (2 * m))) * 2 := by linarith
      _ = (2 ^ (2 * m) - 1) * ((2 * ((2 * m).factorial : ℝ) / (2 * 3.1416) ^ (2 * m)) * 2) := by ring
      _ ≤ _ := by
        apply mul_le_mul h2 _ (by positivity) (by linarith)
        apply mul_le_mul_of_nonneg_left h1 hX.le

/-- **C02 (odd n ≤ -219).** -/
theorem C02_overflow {F : Type} [FOps F] (m : ℕ) (hm : 110 ≤ m) (hi : i64min + 1 < 1 - 2 * (m : ℤ)) :
    ∃ r : ℝ, ((2:ℂ) ^ (2 * m) - 1) * riemannZeta (1 - 2 * (m : ℂ)) = r ∧ (dblMax : ℝ) < |r| ∧
      (negEta (1 - 2 * (m:ℤ)) : M F) = .ok (if 0 < r then FOps.inf else ∸FOps.inf) := by
  have hp2 : (0:ℝ) < 2 ^ (2 * m) - 1 := by
    have : (1:ℝ) < 2 ^ (2 * m) := one_lt_pow₀ (by norm_num) (by omega)
    linarith
  have hm0 : (0:ℝ) < 2 * m := by have : (110:ℝ) ≤ m := by exact_mod_cast hm
                                 linarith
  have h1 := bern_size m (by omega)
  refine ⟨(2 ^ (2 * m) - 1) * ((-(bernoulli (2 * m)) / (2 * m) : ℚ) : ℝ), ?_, ?_, ?_⟩
  · rw [zeta_odd_bern m (by omega)]; push_cast; rfl
  · have h2 := eta_growth m hm
    push_cast
    rw [abs_mul, abs_of_pos hp2, abs_div, abs_neg, abs_of_pos hm0, mul_div_assoc', lt_div_iff₀ hm0]
    have : (-1) ^ (m + 1) * (bernoulli (2 * m) : ℝ) ≤ |(bernoulli (2 * m) : ℝ)| := by
      refine (le_abs_self _).trans ?_
      rw [abs_mul, abs_pow, abs_neg, abs_one, one_pow, one_mul]
    exact h2.trans_le (mul_le_mul_of_nonneg_left (h1.trans this) hp2.le)
  · have h2 : 0 < 2 * ((2 * m).factorial : ℝ) / (2 * Real.pi) ^ (2 * m) := by
      have : (0:ℝ) < (2 * m).factorial := by exact_mod_cast Nat.factorial_pos _
      have := Real.pi_pos
      positivity
    have hs : (0 < (2 ^ (2 * m) - 1) * ((-(bernoulli (2 * m)) / (2 * m) : ℚ) : ℝ)) ↔ Even m := by
      rw [mul_pos_iff_of_pos_left hp2]
      push_cast
      rw [div_pos_iff_of_pos_right hm0]
      rcases Nat.even_or_odd m with he | ho
      · rw [pow_succ, he.neg_one_pow] at h1
        simp only [he, iff_true]; linarith
      · rw [pow_succ, ho.neg_one_pow] at h1
        simp only [Nat.not_even_iff_odd.mpr ho, iff_false, not_lt]; linarith
    have e1 : (if 0 < (2 ^ (2 * m) - 1) * ((-(bernoulli (2 * m)) / (2 * m) : ℚ) : ℝ) then (FOps.inf : F) else ∸FOps.inf)
        = if isEven (m:ℤ) then FOps.inf else ∸FOps.inf := by
      rw [isEven_nat]; simp only [hs, decide_eq_true_eq]
    rw [e1, negEta_eq_neg _ (by omega) (by rw [← Bool.not_eq_true, isEven_iff]; omega)]
    simp only [i64min] at hi
    have h1 : i64add 1 (1 - 2 * (m:ℤ)) = .ok (2 - 2 * m : ℤ) := by
      rw [i64add, i64_ok (by simp only [i64min, i64max]; omega)]; congr 1; ring
    have h2 : i64neg (2 - 2 * m : ℤ) = .ok (2 * m - 2 : ℤ) := by
      rw [i64neg, i64_ok (by simp only [i64min, i64max]; omega)]; simp
    have h3 : i64div (2 * m - 2 : ℤ) 2 = m - 1 := by
      unfold i64div; rw [Int.tdiv_eq_ediv_of_nonneg (by omega)]; omega
    have h4 : i64sub 1 (1 - 2 * (m:ℤ)) = .ok (2 * m) := by
      rw [i64sub, i64_ok (by simp only [i64min, i64max]; omega)]; simp
    have h5 : i64div (2 * m : ℤ) 2 = m := by
      unfold i64div; rw [Int.tdiv_eq_ediv_of_nonneg (by omega)]; omega
    unfold negEtaNegPart
    rw [h1, bind_ok, h2, bind_ok]
    dsimp only
    rw [h3, if_neg (by omega), h4, bind_ok, h5]
    split <;> rfl

/-- non-vacuity: `zeta(3)`, `zeta(50)`, `zeta(-3)`, `neg_eta(5)` with the decimal literals -/
example : ∃ v : R RealSem.dec, zeta 3 = .ok v ∧ ‖((ofR v : ℝ) : ℂ) - riemannZeta 3‖ ≤ (6.01e-17 + 1.01 * 0) * ‖riemannZeta 3‖ := by
  have := C01_pos RealSem.dec_lit 3 (by norm_num) (by decide)
  exact_mod_cast this
example := C01_pos RealSem.dec_lit 50 (by norm_num) (by decide)
example := C01_neg_odd RealSem.dec_lit 2 (by norm_num) (by norm_num)
example := C01_overflow (F := R RealSem.dec) 131 (by norm_num) (by decide)
example := C02_pos RealSem.dec_lit 5 (by norm_num) (by norm_num)
example := C02_overflow (F := R RealSem.dec) 110 (by norm_num) (by decide)

end Polylog
