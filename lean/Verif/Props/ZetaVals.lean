import Verif.Props.TablesUB
import Verif.Proofs.Zeta
import Verif.Proofs.Bern
import Verif.Sem.Lit

/-! # C01, C02: `zeta(n)` and `neg_eta(n)` for every `int64_t n` -/

noncomputable section
namespace Polylog
open Finset
variable {S : RealSem}

/-! ## enclosures used for the tables -/

/-- `zeta(n+2)` to 41 digits -/
abbrev zQ (n : ℕ) : ℚ := zetaQ n (2 ^ 150) 140
/-- `eta(n+1)` to 41 digits -/
abbrev eQ (n : ℕ) : ℚ := etaQ n (2 ^ 150) 140

theorem zQ_approx (n : ℕ) (hn : n ≤ 60) : |reLi (n + 2) 1 - ((zQ n : ℚ) : ℝ)| ≤ 2e-42 := by
  refine (zetaQ_approx n (2 ^ 150) 140 (by positivity)).trans ?_
  have : (n:ℝ) ≤ 60 := by exact_mod_cast hn
  have h2 : ((n:ℝ) + 2) / ((2 ^ 150 : ℕ) : ℝ) ≤ 62 / ((2 ^ 150 : ℕ) : ℝ) := by gcongr; linarith
  push_cast at h2 ⊢
  norm_num at h2 ⊢
  linarith

theorem eQ_approx (n : ℕ) (hn : n ≤ 60) : |-reLi (n + 1) (-1) - ((eQ n : ℚ) : ℝ)| ≤ 1e-42 := by
  refine (etaQ_approx n (2 ^ 150) 140 (by positivity)).trans ?_
  have : (n:ℝ) ≤ 60 := by exact_mod_cast hn
  have h2 : ((n:ℝ) + 1) / ((2 ^ 150 : ℕ) : ℝ) ≤ 61 / ((2 ^ 150 : ℕ) : ℝ) := by gcongr; linarith
  push_cast at h2 ⊢
  norm_num at h2 ⊢
  linarith

set_option maxRecDepth 100000 in
theorem zetasPos_table : ∀ i : Fin 32, |zetasPos[i.1] - zQ i.1| ≤ 4.9e-17 * zQ i.1 - 1e-30 := by decide +kernel

set_option maxRecDepth 100000 in
theorem negEtaPos_table : ∀ i : Fin 54, |negEtaPos[i.1] + eQ i.1| ≤ 4.8e-17 * eQ i.1 - 1e-30 := by decide +kernel

set_option maxRecDepth 100000 in
theorem zetasNeg_table : ∀ i : Fin 130,
    |zetasNeg[i.1] * (2 * (i.1 + 1) : ℚ) * bernDen + ((bernL 202).getD (i.1 + 1) 0 : ℚ)| ≤ 5e-17 * |((bernL 202).getD (i.1 + 1) 0 : ℚ)| := by
  decide +kernel

set_option maxRecDepth 100000 in
theorem negEtaNeg_table : ∀ i : Fin 109,
    |negEtaNeg[i.1] * (2 * (i.1 + 1) : ℚ) * bernDen + (2 ^ (2 * (i.1 + 1)) - 1) * ((bernL 202).getD (i.1 + 1) 0 : ℚ)|
      ≤ 5e-17 * ((2 ^ (2 * (i.1 + 1)) - 1) * |((bernL 202).getD (i.1 + 1) 0 : ℚ)|) := by
  decide +kernel

/-! ## the sum over odd integers -/

theorem odd_sum (n : ℕ) :
    HasSum (fun j : ℕ => 1 / (2 * (j:ℝ) + 1) ^ (n + 2)) ((1 - (1 / 2) ^ (n + 2)) * reLi (n + 2) 1) := by
  have h1 := reLi_hasSum n (x := 1) (by simp)
  simp only [one_pow] at h1
  have hs := h1.summable.comp_injective (i := fun j : ℕ => 2 * j) (fun a b h => by simpa using h)
  have he : HasSum (fun j : ℕ => 1 / (((2 * j : ℕ):ℝ) + 1) ^ (n + 2)) (∑' j : ℕ, 1 / (((2 * j : ℕ):ℝ) + 1) ^ (n + 2)) := hs.hasSum
  have ho : HasSum (fun j : ℕ => 1 / (((2 * j + 1 : ℕ):ℝ) + 1) ^ (n + 2)) ((1 / 2) ^ (n + 2) * reLi (n + 2) 1) := by
    refine HasSum.congr_fun' (h1.mul_left ((1 / 2 : ℝ) ^ (n + 2))) fun k => ?_
    have e2 : (((2 * k + 1 : ℕ) : ℝ) + 1) = 2 * (k + 1) := by push_cast; ring
    rw [e2, mul_pow, div_pow, one_pow]; field_simp
  have := (HasSum.even_add_odd (f := fun k : ℕ => 1 / ((k:ℝ) + 1) ^ (n + 2)) he ho).unique h1
  have e : (1 - (1 / 2) ^ (n + 2)) * reLi (n + 2) 1 = ∑' j : ℕ, 1 / (((2 * j : ℕ):ℝ) + 1) ^ (n + 2) := by linarith
  rw [e]
  refine HasSum.congr_fun' he fun j => ?_
  push_cast; rfl

theorem odd_sum_34 : (1 - (1 / 2) ^ 34) * reLi 34 1 ≤ 1 + 6.01e-17 := by
  have h := (abs_le.mp (zQ_approx 32 (by norm_num))).2
  have h2 : zQ 32 ≤ (1 + 6e-17) / (1 - (1 / 2) ^ 34) := by decide +kernel
  have h3 := (Rat.cast_le (K := ℝ)).mpr h2
  push_cast at h3
  norm_num at h h3 ⊢
  linarith

/-- for `n ≥ 34` the odd part of the zeta sum is `1` up to `6.01e-17` -/
theorem odd_sum_bound (n : ℕ) (hn : 32 ≤ n) :
    1 ≤ (1 - (1 / 2 : ℝ) ^ (n + 2)) * reLi (n + 2) 1 ∧ (1 - (1 / 2 : ℝ) ^ (n + 2)) * reLi (n + 2) 1 ≤ 1 + 6.01e-17 := by
  have h := odd_sum n
  constructor
  · have := le_hasSum h 0 (fun j _ => by positivity)
    simpa using this
  · refine le_trans (hasSum_le (fun j => ?_) h (odd_sum 32)) odd_sum_34
    apply one_div_le_one_div_of_le (by positivity)
    apply pow_le_pow_right₀ _ (by omega)
    have : (0:ℝ) ≤ j := Nat.cast_nonneg j
    linarith

theorem reLi_one_ge (n : ℕ) : 1 ≤ reLi (n + 2) 1 := by
  have := le_hasSum (reLi_hasSum n (x := 1) (by simp)) 0 (fun j _ => by positivity)
  simpa using this

theorem norm_zeta (n : ℕ) : ‖riemannZeta ((n:ℂ) + 2)‖ = reLi (n + 2) 1 := by
  rw [← reLi_one_eq_zeta, Complex.norm_real, Real.norm_eq_abs, abs_of_nonneg (by linarith [reLi_one_ge n])]

/-! ## C01 -/

/-- a literal whose decimal value has relative error `e` -/
theorem lit_rel {u : ℝ} (hS : S.Lit u) {c : ℚ} {v e : ℝ} (h : |(c:ℝ) - v| ≤ e * |v|) :
    |((S.rho c : ℚ) : ℝ) - v| ≤ (e + u * (1 + e)) * |v| := by
  have h1 := hS.rel c
  have hc : |(c:ℝ)| ≤ (1 + e) * |v| := by
    have := abs_sub_abs_le_abs_sub (c:ℝ) v
    linarith
  calc _ ≤ |((S.rho c : ℚ) : ℝ) - c| + |(c:ℝ) - v| := abs_sub_le _ _ _
    _ ≤ u * ((1 + e) * |v|) + e * |v| := add_le_add (h1.trans (mul_le_mul_of_nonneg_left hc hS.u_nonneg)) h
    _ = _ := by ring

theorem zeta_pos_table {F : Type} [FOps F] (n : ℕ) (hn : n < 32) : (zeta (n + 2 : ℤ) : M F) = .ok (FOps.lit zetasPos[n]) := by
  unfold zeta
  have h1 : i64sub ((n:ℤ) + 2) 2 = .ok n := by
    rw [i64sub, i64_ok (by simp only [i64min, i64max]; omega)]; simp
  rw [if_neg (by omega), if_neg (by omega), if_neg (by omega), h1]
  simp only [bind, Except.bind]
  rw [if_pos (by omega), arrGet_ok _ _ ⟨by omega, by omega⟩]
  rfl

theorem zeta_pos_big {F : Type} [FOps F] (n : ℕ) (hn : 32 ≤ n) (h2 : (n:ℤ) + 2 ≤ i64max) : (zeta (n + 2 : ℤ) : M F) =
    .ok ((FOps.lit 1 : F) /. ((FOps.lit 1 : F) -. powi (FOps.lit 0.5 : F) (n + 2 : ℤ))) := by
  unfold zeta
  have h1 : i64sub ((n:ℤ) + 2) 2 = .ok n := by
    rw [i64sub, i64_ok (by simp only [i64min, i64max] at *; omega)]; simp
  rw [if_neg (by omega), if_neg (by omega), if_neg (by omega), h1]
  simp only [bind, Except.bind]
  rw [if_neg (by omega)]
  rfl

theorem ofR_powi_pos {x : R S} (hx : 0 < ofR x) (n : ℤ) : ofR (powi x n) = ofR x ^ n := by
  show realPow S.powJ (ofR x) ((n : ℤ) : ℝ) = _
  rw [realPow, if_pos hx, Real.rpow_intCast]

/-- **C01 (n ≥ 2).** -/
theorem C01_pos {u : ℝ} (hS : S.Lit u) (n : ℕ) (hn : 2 ≤ n) (hi : (n : ℤ) ≤ i64max) :
    ∃ v : R S, zeta n = .ok v ∧ ‖((ofR v : ℝ) : ℂ) - riemannZeta n‖ ≤ (6.01e-17 + 1.01 * u) * ‖riemannZeta n‖ := by
  obtain ⟨n, rfl⟩ := Nat.exists_eq_add_of_le' hn
  push_cast at hi ⊢
  have hz := reLi_one_ge n
  have hu := hS.u_nonneg
  rw [norm_zeta, ← reLi_one_eq_zeta]
  by_cases h : n < 32
  · refine ⟨_, zeta_pos_table n h, ?_⟩
    rw [← Complex.ofReal_sub, Complex.norm_real, Real.norm_eq_abs, ofR_lit]
    have ht := (Rat.cast_le (K := ℝ)).mpr (zetasPos_table ⟨n, h⟩)
    have hq := abs_le.mp (zQ_approx n (by omega))
    have h1 : |((zetasPos[n] : ℚ) : ℝ) - reLi (n + 2) 1| ≤ 4.91e-17 * |reLi (n + 2) 1| := by
      rw [abs_of_nonneg (by linarith : 0 ≤ reLi (n + 2) 1)]
      push_cast at ht
      have := abs_sub_le ((zetasPos[n] : ℚ) : ℝ) ((zQ n : ℚ) : ℝ) (reLi (n + 2) 1)
      have h3 : |((zQ n : ℚ) : ℝ) - reLi (n + 2) 1| ≤ 2e-42 := by rw [abs_sub_comm, abs_le]; exact hq
      norm_num at ht this h3 hq hz ⊢
      linarith [hq.1, hq.2]
    have h2 := lit_rel hS h1
    rw [abs_of_nonneg (by linarith : 0 ≤ reLi (n + 2) 1)] at h2
    refine h2.trans (mul_le_mul_of_nonneg_right ?_ (by linarith))
    norm_num; linarith
  · refine ⟨_, zeta_pos_big n (by omega) (by linarith), ?_⟩
    have hp : ofR (powi (FOps.lit 0.5 : R S) ((n:ℤ) + 2)) = (1 / 2) ^ (n + 2) := by
      rw [ofR_powi_pos (by rw [ofR_lit, hS.half]; norm_num), ofR_lit, hS.half]
      rw [show ((n:ℤ) + 2) = ((n + 2 : ℕ) : ℤ) by push_cast; rfl, zpow_natCast]
      norm_num
    have hd : (1 / 2 : ℝ) ^ (n + 2) ≤ 1 / 4 := by
      calc (1 / 2 : ℝ) ^ (n + 2) ≤ (1/2) ^ 2 := pow_le_pow_of_le_one (by norm_num) (by norm_num) (by omega)
        _ = _ := by norm_num
    have e : ofR ((FOps.lit 1 : R S) -. powi (FOps.lit 0.5 : R S) ((n:ℤ) + 2)) = 1 - (1 / 2) ^ (n + 2) := by
      rw [ofR_sub, hp, ofR_lit, hS.one]; norm_num
    have hd0 : 0 < 1 - (1 / 2 : ℝ) ^ (n + 2) := by linarith
    rw [← Complex.ofReal_sub, Complex.norm_real, Real.norm_eq_abs, ofR_div (by rw [e]; exact hd0.ne'), e, ofR_lit, hS.one]
    obtain ⟨h1, h2⟩ := odd_sum_bound n (by omega)
    set z := reLi (n + 2) 1
    set d := 1 - (1 / 2 : ℝ) ^ (n + 2)
    have e2 : ((1:ℚ):ℝ) / d - z = -((d * z - 1) / d) := by field_simp; push_cast; ring
    rw [e2, abs_neg, abs_div, abs_of_pos hd0, abs_of_nonneg (by linarith), div_le_iff₀ hd0]
    have : 0 ≤ 1.01 * u * (d * z) := by positivity
    nlinarith

/-- **C01 (n = 0, n = 1).** `zeta(0) = -1/2` exactly; `zeta(1)` is `+inf`, the function has a pole. -/
theorem C01_zero {u : ℝ} (hS : S.Lit u) : ∃ v : R S, zeta 0 = .ok v ∧ ((ofR v : ℝ) : ℂ) = riemannZeta 0 := by
  refine ⟨_, rfl, ?_⟩
  rw [riemannZeta_zero, ofR_neg, ofR_lit, hS.half]; norm_num

theorem C01_one {F : Type} [FOps F] : (zeta 1 : M F) = .ok FOps.inf := rfl
theorem C01_one_pole : Filter.Tendsto (fun s : ℝ => (riemannZeta s).re) (nhdsWithin 1 (Set.Ioi 1)) Filter.atTop := by
  have h := riemannZeta_residue_one
  have h2 : Filter.Tendsto (fun s : ℝ => ((s : ℂ) - 1) * riemannZeta s) (nhdsWithin 1 (Set.Ioi 1)) (nhds 1) := by
    refine h.comp ?_
    refine tendsto_nhdsWithin_of_tendsto_nhds_of_eventually_within _ ?_ ?_
    · exact (Complex.continuous_ofReal.tendsto' 1 1 (by simp)).mono_left nhdsWithin_le_nhds
    · filter_upwards [self_mem_nhdsWithin] with s hs
      rw [Set.mem_compl_iff, Set.mem_singleton_iff]
      rw [Set.mem_Ioi] at hs
      exact_mod_cast hs.ne'
  have h3 : Filter.Tendsto (fun s : ℝ => (s - 1) * (riemannZeta s).re) (nhdsWithin 1 (Set.Ioi 1)) (nhds 1) := by
    have := (Complex.continuous_re.tendsto 1).comp h2
    rw [Complex.one_re] at this
    refine this.congr fun s => ?_
    show (((s : ℂ) - 1) * riemannZeta s).re = _
    rw [show ((s:ℂ) - 1) = ((s - 1 : ℝ) : ℂ) by push_cast; rfl, Complex.re_ofReal_mul]
  have h4 : Filter.Tendsto (fun s : ℝ => (s - 1)⁻¹) (nhdsWithin 1 (Set.Ioi 1)) Filter.atTop := by
    apply Filter.Tendsto.inv_tendsto_nhdsGT_zero
    refine tendsto_nhdsWithin_of_tendsto_nhds_of_eventually_within _ ?_ ?_
    · have : Continuous fun s : ℝ => s - 1 := by fun_prop
      exact (this.tendsto' 1 0 (by simp)).mono_left nhdsWithin_le_nhds
    · filter_upwards [self_mem_nhdsWithin] with s hs
      simpa using hs
  have h5 := h4.atTop_mul_pos one_pos h3
  refine h5.congr' ?_
  filter_upwards [self_mem_nhdsWithin] with s hs
  have : s - 1 ≠ 0 := by have := Set.mem_Ioi.mp hs; linarith
  field_simp

/-- **C01 (negative even n).** exact zero -/
theorem C01_neg_even {u : ℝ} (hS : S.Lit u) (m : ℕ) (hm : 0 < m) :
    ∃ v : R S, zeta (-(2 * m : ℤ)) = .ok v ∧ ((ofR v : ℝ) : ℂ) = riemannZeta (-(2 * m : ℂ)) := by
  refine ⟨FOps.lit 0, ?_, ?_⟩
  · unfold zeta
    rw [if_pos (by omega), if_pos ((isEven_iff _).mpr (by omega))]; rfl
  · obtain ⟨k, rfl⟩ := Nat.exists_eq_succ_of_ne_zero hm.ne'
    have := riemannZeta_neg_two_mul_nat_add_one k
    rw [ofR_lit, hS.zero]
    have e : (-(2 * ((k.succ : ℕ) : ℂ))) = -2 * ((k:ℂ) + 1) := by push_cast; ring
    rw [e, this]; simp

theorem arrGet_nat {α : Type} {N : ℕ} (a : Vector α N) (i : ℕ) (h : i < N) : arrGet a (i : ℤ) = .ok a[i] := by
  rw [arrGet_ok _ _ ⟨by omega, by omega⟩]; rfl
/-- the branch of `zeta` for odd negative `n` (zeta.cpp 86-94) with the table as a parameter -/
def zetaNegPart {F : Type} [FOps F] (t : Vector ℚ 130) (n : ℤ) : M F := do
      let i := i64div (← i64neg (← i64add 1 n)) 2
      if i < 130 then do
        let c ← arrGet t i
        pure (FOps.lit c)
      else do
        let k := i64div (← i64sub 1 n) 2
        if isEven k then pure FOps.inf else pure ∸(FOps.inf : F)

theorem zeta_eq_neg {F : Type} [FOps F] (n : ℤ) (h : n < 0) (he : isEven n = false) : (zeta n : M F) = zetaNegPart zetasNeg n := by
  unfold zeta zetaNegPart
  rw [if_pos h, he]; rfl

theorem i64_h1 (i : ℕ) (hi : i < 130) : i64add 1 (1 - 2 * ((i:ℤ) + 1)) = .ok (-(2 * i : ℤ)) := by
    rw [i64add, i64_ok (by simp only [i64min, i64max]; omega)]; congr 1; ring

theorem i64_h2 (i : ℕ) (hi : i < 130) : i64neg (-(2 * i : ℤ)) = .ok (2 * i : ℤ) := by
    rw [i64neg, i64_ok (by simp only [i64min, i64max]; omega)]; simp

theorem i64_h3 (i : ℕ) : i64div (2 * i : ℤ) 2 = i := by
    unfold i64div; rw [Int.tdiv_eq_ediv_of_nonneg (by omega)]; omega

theorem bind_ok {α β : Type} (a : α) (f : α → M β) : ((Except.ok a : M α) >>= f) = f a := rfl

theorem zetaNegPart_eq {F : Type} [FOps F] (t : Vector ℚ 130) (i : ℕ) (hi : i < 130) :
    (zetaNegPart t (1 - 2 * ((i:ℤ) + 1)) : M F) = .ok (FOps.lit t[i]) := by
  have hlt : (i:ℤ) < 130 := by omega
  unfold zetaNegPart
  rw [i64_h1 i hi, bind_ok, i64_h2 i hi, bind_ok]
  dsimp only
  rw [i64_h3, if_pos hlt, arrGet_nat _ _ hi, bind_ok]
  rfl

theorem zeta_neg_odd {F : Type} [FOps F] (i : ℕ) (hi : i < 130) :
    (zeta (1 - 2 * ((i:ℤ) + 1)) : M F) = .ok (FOps.lit zetasNeg[i]) := by
  rw [zeta_eq_neg _ (by omega) (by rw [← Bool.not_eq_true, isEven_iff]; omega), zetaNegPart_eq _ _ hi]

theorem zeta_odd_bern (m : ℕ) (hm : 0 < m) : riemannZeta (1 - 2 * (m : ℂ)) = ((-(bernoulli (2 * m)) / (2 * m) : ℚ) : ℂ) := by
  have h := riemannZeta_neg_nat_eq_bernoulli (2 * m - 1)
  have e1 : (-((2 * m - 1 : ℕ) : ℂ)) = 1 - 2 * (m:ℂ) := by
    rw [Nat.cast_sub (by omega)]; push_cast; ring
  have e2 : 2 * m - 1 + 1 = 2 * m := by omega
  have e3 : (((2 * m - 1 : ℕ) : ℂ) + 1) = 2 * m := by rw [Nat.cast_sub (by omega)]; push_cast; ring
  have e4 : (-1 : ℂ) ^ (2 * m - 1) = -1 := Odd.neg_one_pow ⟨m - 1, by omega⟩
  rw [e1, e2, e3, e4] at h
  rw [h]; push_cast; ring

/-- **C01 (odd negative n ≥ -259).** -/
theorem C01_neg_odd {u : ℝ} (hS : S.Lit u) (m : ℕ) (h0 : 0 < m) (hm : m ≤ 130) :
    ∃ v : R S, zeta (1 - 2 * (m:ℤ)) = .ok v ∧
      ‖((ofR v : ℝ) : ℂ) - riemannZeta (1 - 2 * (m : ℂ))‖ ≤ (5e-17 + 1.01 * u) * ‖riemannZeta (1 - 2 * (m : ℂ))‖ := by
  obtain ⟨i, rfl⟩ := Nat.exists_eq_succ_of_ne_zero h0.ne'
  refine ⟨_, by push_cast; exact zeta_neg_odd i (by omega), ?_⟩
  rw [zeta_odd_bern _ h0]
  have ht := zetasNeg_table ⟨i, by omega⟩
  have hb := bernoulli_even (i + 1) (by omega)
  simp only [] at ht
  rw [Nat.succ_eq_add_one, hb]
  generalize (bernL 202).getD (i + 1) 0 = N at *
  have hD : (0:ℚ) < bernDen := by exact_mod_cast bernDen_pos
  generalize (bernDen : ℚ) = D at *
  have hi0 : (0:ℚ) < 2 * ((i:ℚ) + 1) := by positivity
  have hr : |zetasNeg[i] - (-((N:ℚ) / D) / (2 * ((i + 1 : ℕ):ℚ)))| ≤ 5e-17 * |-((N:ℚ) / D) / (2 * ((i + 1 : ℕ):ℚ))| := by
    push_cast
    have e : zetasNeg[i] - (-((N:ℚ) / D) / (2 * ((i:ℚ) + 1))) = (zetasNeg[i] * (2 * ((i:ℚ) + 1)) * D + N) / (D * (2 * ((i:ℚ) + 1))) := by
      field_simp; ring
    have e' : -((N:ℚ) / D) / (2 * ((i:ℚ) + 1)) = -N / (D * (2 * ((i:ℚ) + 1))) := by field_simp
    have hp : 0 < D * (2 * ((i:ℚ) + 1)) := by positivity
    rw [e, e', abs_div, abs_div, abs_of_pos hp, abs_neg, mul_div_assoc']
    exact div_le_div_of_nonneg_right ht hp.le
  generalize (-((N:ℚ) / D) / (2 * ((i + 1 : ℕ):ℚ))) = w at *
  have hr' : |((zetasNeg[i] : ℚ) : ℝ) - (w : ℝ)| ≤ 5e-17 * |(w : ℝ)| := by
    have := (Rat.cast_le (K := ℝ)).mpr hr
    push_cast at this; exact this
  have h2 := lit_rel hS hr'
  rw [show ((w:ℚ):ℂ) = (((w:ℚ):ℝ):ℂ) by push_cast; rfl, ← Complex.ofReal_sub, Complex.norm_real, Complex.norm_real,
    Real.norm_eq_abs, Real.norm_eq_abs, ofR_lit]
  refine h2.trans (mul_le_mul_of_nonneg_right ?_ (abs_nonneg _))
  have := hS.u_nonneg
  norm_num; linarith

/-- `DBL_MAX` -/
def dblMax : ℚ := (2 ^ 53 - 1) * 2 ^ 971

/-- the sign and the size of `B_{2m}` -/
theorem bern_size (m : ℕ) (hm : 0 < m) :
    2 * ((2 * m).factorial : ℝ) / (2 * Real.pi) ^ (2 * m) ≤ (-1) ^ (m + 1) * (bernoulli (2 * m) : ℝ) := by
  have h := hasSum_zeta_nat hm.ne'
  have h1 := le_hasSum h 1 (fun j _ => by positivity)
  have hf : (0:ℝ) < (2 * m).factorial := by exact_mod_cast Nat.factorial_pos _
  simp only [Nat.cast_one, one_pow, div_one] at h1
  rw [le_div_iff₀ hf] at h1
  rw [div_le_iff₀ (by positivity), mul_pow]
  have e : (2:ℝ) ^ (2 * m) = 2 * 2 ^ (2 * m - 1) := by rw [← pow_succ']; congr 1; omega
  rw [e]
  nlinarith

theorem fact_growth (m : ℕ) (hm : 131 ≤ m) :
    (dblMax : ℝ) * (2 * m) < 2 * ((2 * m).factorial : ℝ) / (2 * Real.pi) ^ (2 * m) := by
  have hpi := Real.pi_lt_d4
  have hpi0 := Real.pi_pos
  suffices h : (dblMax : ℝ) * (2 * m) < 2 * ((2 * m).factorial : ℝ) / (2 * 3.1416) ^ (2 * m) by
    refine h.trans_le ?_
    gcongr
  induction m, hm using Nat.le_induction with
  | base =>
    have : (dblMax : ℚ) * (2 * 131) < 2 * ((2 * 131).factorial : ℚ) / (2 * 3.1416) ^ (2 * 131) := by decide +kernel
    have h2 := (Rat.cast_lt (K := ℝ)).mpr this
    push_cast at h2 ⊢
    exact h2
  | succ m hm ih =>
    rw [show 2 * (m + 1) = 2 * m + 1 + 1 by ring, Nat.factorial_succ, Nat.factorial_succ, pow_succ, pow_succ]
    have hm' : (131:ℝ) ≤ m := by exact_mod_cast hm
    have hd : (0:ℝ) < (dblMax : ℝ) := by rw [dblMax]; norm_num
    have hX : 0 < 2 * ((2 * m).factorial : ℝ) / (2 * 3.1416) ^ (2 * m) := by positivity
    push_cast
    have e : 2 * ((2 * (m:ℝ) + 1 + 1) * ((2 * m + 1) * ((2 * m).factorial : ℝ))) / ((2 * 3.1416) ^ (2 * m) * (2 * 3.1416) * (2 * 3.1416))
      = (2 * ((2 * m).factorial : ℝ) / (2 * 3.1416) ^ (2 * m)) * ((2 * m + 2) * (2 * m + 1) / (2 * 3.1416) ^ 2) := by
      field_simp; ring
    rw [e]
    have h1 : (2:ℝ) ≤ (2 * m + 2) * (2 * m + 1) / (2 * 3.1416) ^ 2 := by
      rw [le_div_iff₀ (by norm_num)]; nlinarith
    calc (dblMax : ℝ) * (2 * (m + 1)) ≤ (dblMax * (2 * m)) * 2 := by nlinarith
      _ < (2 * ((2 * m).factorial : ℝ) / (2 * 3.1416) ^ (2 * m)) * 2 := by linarith
      _ ≤ _ := by gcongr

theorem isEven_nat (m : ℕ) : isEven (m : ℤ) = decide (Even m) := by
  rw [Bool.eq_iff_iff, isEven_iff, decide_eq_true_eq, Nat.even_iff]; omega

/-- **C01 (odd n ≤ -261).** The exact value exceeds the range of `double` and the result is the infinity of its sign.
(The argument `INT64_MIN + 1` is undefined behaviour, see C05.) -/
theorem C01_overflow {F : Type} [FOps F] (m : ℕ) (hm : 131 ≤ m) (hi : i64min + 1 < 1 - 2 * (m : ℤ)) :
    ∃ r : ℝ, riemannZeta (1 - 2 * (m : ℂ)) = r ∧ (dblMax : ℝ) < |r| ∧
      (zeta (1 - 2 * (m:ℤ)) : M F) = .ok (if 0 < r then FOps.inf else ∸FOps.inf) := by
  refine ⟨((-(bernoulli (2 * m)) / (2 * m) : ℚ) : ℝ), ?_, ?_, ?_⟩
  · rw [zeta_odd_bern m (by omega)]; push_cast; rfl
  · have h1 := bern_size m (by omega)
    have h2 := fact_growth m hm
    have hm0 : (0:ℝ) < 2 * m := by have : (131:ℝ) ≤ m := by exact_mod_cast hm
                                   linarith
    push_cast
    rw [abs_div, abs_neg, abs_of_pos hm0, lt_div_iff₀ hm0]
    have : (-1) ^ (m + 1) * (bernoulli (2 * m) : ℝ) ≤ |(bernoulli (2 * m) : ℝ)| := by
      refine (le_abs_self _).trans ?_
      rw [abs_mul, abs_pow, abs_neg, abs_one, one_pow, one_mul]
    linarith
  · have h1 := bern_size m (by omega)
    have h2 : 0 < 2 * ((2 * m).factorial : ℝ) / (2 * Real.pi) ^ (2 * m) := by
      have : (0:ℝ) < (2 * m).factorial := by exact_mod_cast Nat.factorial_pos _
      have := Real.pi_pos
      positivity
    have hm0 : (0:ℝ) < 2 * m := by have : (131:ℝ) ≤ m := by exact_mod_cast hm
                                   linarith
    have hs : (0 < ((-(bernoulli (2 * m)) / (2 * m) : ℚ) : ℝ)) ↔ Even m := by
      push_cast
      rw [div_pos_iff_of_pos_right hm0]
      rcases Nat.even_or_odd m with he | ho
      · rw [pow_succ, he.neg_one_pow] at h1
        simp only [he, iff_true]; linarith
      · rw [pow_succ, ho.neg_one_pow] at h1
        simp only [Nat.not_even_iff_odd.mpr ho, iff_false, not_lt]; linarith
    have e1 : (if 0 < ((-(bernoulli (2 * m)) / (2 * m) : ℚ) : ℝ) then (FOps.inf : F) else ∸FOps.inf)
        = if isEven (m:ℤ) then FOps.inf else ∸FOps.inf := by
      rw [isEven_nat]; simp only [hs, decide_eq_true_eq]
    rw [e1]
    unfold zeta
    have he : isEven (1 - 2 * (m:ℤ)) = false := by
      rw [← Bool.not_eq_true, isEven_iff]; omega
    simp only [i64min] at hi
    have h1 : i64add 1 (1 - 2 * (m:ℤ)) = .ok (2 - 2 * m : ℤ) := by
      rw [i64add, i64_ok (by simp only [i64min, i64max]; omega)]; congr 1; ring
    have h2 : i64neg (2 - 2 * m : ℤ) = .ok (2 * m - 2 : ℤ) := by
      rw [i64neg, i64_ok (by simp only [i64min, i64max]; omega)]; simp
    have h3 : i64div (2 * m - 2 : ℤ) 2 = m - 1 := by
      unfold i64div; rw [Int.tdiv_eq_ediv_of_nonneg (by omega)]; omega
    have h4 : i64sub 1 (1 - 2 * (m:ℤ)) = .ok (2 * m) := by
      rw [i64sub, i64_ok (by simp only [i64min, i64max]; omega)]; simp
    have h5 : i64div (2 * m : ℤ) 2 = m := by
      unfold i64div; rw [Int.tdiv_eq_ediv_of_nonneg (by omega)]; omega
    rw [if_pos (by omega), he, h1]
    simp only [Bool.false_eq_true, if_false, bind, Except.bind]
    rw [h2]; simp only []
    rw [h3, if_neg (by omega), h4]; simp only []
    rw [h5]
    split <;> rfl

end Polylog
