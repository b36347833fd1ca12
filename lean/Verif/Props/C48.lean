import Verif.Props.SerFPMain

/-! # C48: `Sl(n, x)`, n ≥ 26, and `Cl(n, x)`, n ≥ 10, accurate in IEEE double precision arithmetic, rounding included -/

namespace Polylog
set_option linter.style.longLine false

variable {L : Lib}

/-- `u = 2^-53` -/
local notation "υ" => uR binary64

/-! ## a library with the required accuracy exists -/

/-- a `pow` that rounds a close rational approximation -/
noncomputable def approxPow (φ : Fmt) (x y : FV) : FV :=
  match y with
  | .fin t b => approxF φ (fun a => a ^ (((sval t b : ℚ)) : ℝ)) x
  | _ => .nan

theorem exists_trigOK {φ : Fmt} (hφ : FmtA φ) (L : Lib) : TrigOK φ { L with sin := approxF φ Real.sin, cos := approxF φ Real.cos, pow := approxPow φ } where
  sin x q h _ _ := by
    have h0 := uR_pos (φ := φ)
    have hu := hφ.u_le
    have hs := Real.abs_sin_le_one (q:ℝ)
    refine (approxF_near hφ Real.sin h (hs.trans (by norm_num))).mono ?_
    nlinarith
  cos x q h _ _ := by
    have h0 := uR_pos (φ := φ)
    have hu := hφ.u_le
    have hs := Real.abs_cos_le_one (q:ℝ)
    refine (approxF_near hφ Real.cos h (hs.trans (by norm_num))).mono ?_
    nlinarith
  pow x y a b hx hy ha hab := by
    have h0 := uR_pos (φ := φ)
    obtain ⟨t, b', rfl, rfl, _, _⟩ := hy
    have ha' : (0:ℝ) < a := by exact_mod_cast ha
    have hp : 0 ≤ (a:ℝ) ^ (((sval t b' : ℚ)) : ℝ) := by positivity
    have := approxF_near hφ (fun a => a ^ (((sval t b' : ℚ)) : ℝ)) hx (by rw [abs_of_nonneg hp]; exact hab.trans (by norm_num))
    refine this.mono ?_
    rw [abs_of_nonneg hp]
    nlinarith

/-! ## the code as range reduction and series -/

theorem Sl_even_gen {F : Type} [FOps F] (n : ℕ) (hn : 26 ≤ n) (h : n % 2 = 0) {K : ℕ} (hK : seriesKmax F (n:ℤ) = .ok (K:ℤ)) (x : F) :
    Sl (n:ℤ) x = .ok ((FOps.lit 1 : F) *. (fun r => slCosLoop (n:ℤ) (FOps.cos r) ((K:ℤ) - 1).toNat 2 (FOps.lit 1 : F) (FOps.cos r) (FOps.cos r))
      (reduceAbs (FOps.lit 3.14159265358979324 : F) (FOps.lit 0.0019353071795864769253 : F) x)) := by
  rw [Sl, if_neg (by omega)]
  simp only [slReduce, isEven_mod2, h, decide_true, if_true, Bool.not_true, Bool.false_and, Bool.false_eq_true, if_false]
  iterate 25 rw [if_neg (by omega)]
  rw [slSeries, hK]
  simp only [isEven_mod2, h, decide_true, if_true]
  rfl

theorem Sl_odd_gen {F : Type} [FOps F] (n : ℕ) (hn : 26 ≤ n) (h : n % 2 = 1) {K : ℕ} (hK : seriesKmax F (n:ℤ) = .ok (K:ℤ)) (x : F) :
    Sl (n:ℤ) x = .ok (let xs := reduceSgn (FOps.lit 3.14159265358979324 : F) (FOps.lit 0.0019353071795864769253 : F) x
      if xs.1 ==. (FOps.lit 0 : F) then xs.1 else xs.2 *. (fun r => slCosLoop (n:ℤ) (FOps.cos r) ((K:ℤ) - 1).toNat 2 (FOps.lit 0 : F) (FOps.sin r) (FOps.sin r)) xs.1) := by
  have h' : ¬ n % 2 = 0 := by omega
  rw [Sl, if_neg (by omega)]
  simp only [slReduce, isEven_mod2, h', decide_false, if_false, Bool.not_false, Bool.true_and, Bool.false_eq_true]
  iterate 25 rw [if_neg (by omega : ¬ ((n:ℤ) = _))]
  rw [slSeries, hK]
  simp only [isEven_mod2, h', decide_false, Bool.false_eq_true, if_false, ← sinLoop_eq]
  exact (apply_ite (pure : F → M F) _ _ _).symm

theorem Cl_odd_gen {F : Type} [FOps F] (n : ℕ) (hn : 10 ≤ n) (h : n % 2 = 1) {K : ℕ} (hK : seriesKmax F (n:ℤ) = .ok (K:ℤ)) (x : F) :
    Cl (n:ℤ) x = .ok ((FOps.lit 1 : F) *. (fun r => slCosLoop (n:ℤ) (FOps.cos r) ((K:ℤ) - 1).toNat 2 (FOps.lit 1 : F) (FOps.cos r) (FOps.cos r))
      (reduceAbs (FOps.lit 3.14159265358979324 : F) (FOps.lit 0.0019353071795864769253 : F) x)) := by
  have h' : ¬ n % 2 = 0 := by omega
  rw [Cl_odd_eq n (by omega) h, clTail, if_neg (by omega), clSeries, hK]
  simp only [isEven_mod2, h', decide_false, Bool.false_eq_true, if_false]
  rfl

theorem Cl_even_gen {F : Type} [FOps F] (n : ℕ) (hn : 10 ≤ n) (h : n % 2 = 0) {K : ℕ} (hK : seriesKmax F (n:ℤ) = .ok (K:ℤ)) (x : F) :
    Cl (n:ℤ) x = .ok (let xs := reduceSgn (FOps.lit 3.14159265358979324 : F) (FOps.lit 0.0019353071795864769253 : F) x
      if xs.1 ==. (FOps.lit 0 : F) then xs.1 else if xs.1 ==. (FOps.lit 3.14159265358979324 : F) then (FOps.lit 0 : F)
      else xs.2 *. (fun r => slCosLoop (n:ℤ) (FOps.cos r) ((K:ℤ) - 1).toNat 2 (FOps.lit 0 : F) (FOps.sin r) (FOps.sin r)) xs.1) := by
  rw [Cl_even_eq n (by omega) h]
  simp only [clTail, if_neg (show ¬ (n:ℤ) ≤ 9 by omega), clSeries, hK, isEven_mod2, h, decide_true, if_true, ← sinLoop_eq]
  rw [show ∀ a : F, (Except.ok a : M F) = pure a from fun _ => rfl, apply_ite (pure : F → M F), apply_ite (pure : F → M F)]
  rfl

/-! ## range reduction with the special point `PI` -/

namespace ClCtx
variable {φ : Fmt} {PI p1 : FP φ L} {c P : ℚ} (h : ClCtx φ L PI p1 c P) (hA : FmtA φ)
include h hA

/-- functions of odd parity that vanish (nearly) at the stored `PI` -/
theorem oddP {f : ℝ → ℝ} (hneg : ∀ x, f (-x) = (-1) ^ 1 * f x) (hper : ∀ x, f (x - 2 * Real.pi) = f x)
    {core : FP φ L → FP φ L} {E Λ κ : ℝ} (hE : 0 ≤ E) (hΛ : 0 ≤ Λ) (hlip : ∀ a b : ℝ, 0 ≤ a → a ≤ 3.1416 → |f a - f b| ≤ Λ * |a - b| + κ) (hpi : |f P| ≤ E)
    (hc : ∀ (r : FP φ L) (ρ : ℚ), Val φ (ofF r) ρ → 0 ≤ ρ → ρ ≤ P → Near φ (ofF (core r)) (f ρ) E)
    (x : FP φ L) {q : ℚ} (hx : Val φ (ofF x) q) {y : FP φ L}
    (hy : y = (let xs := reduceSgn PI p1 x
      if xs.1 ==. (FOps.lit 0 : FP φ L) then xs.1 else if xs.1 ==. PI then (FOps.lit 0 : FP φ L) else xs.2 *. core xs.1)) :
    Near φ (ofF y) (f q) (E + (Λ * (8 * uR φ + 4 / 3 * uR φ * |(q:ℝ)|) + κ)) ∧ (|q| ≤ P → Near φ (ofF y) (f q) E) := by
  subst hy
  have hf0 : f 0 = 0 := by
    have := hneg 0
    rw [neg_zero, pow_one] at this
    linarith
  obtain ⟨r, t, s, hr, hr0, hr1, hd, hs, hcc, hq⟩ := h.reduceG hA 1 hneg hper x hx
  obtain ⟨σ, hσ, hσ1, hσ2⟩ := reduceSgn_fp hA (p1 := p1) h.hP h.h3 h.h4 hx
  rw [← hs] at hσ2
  have hz : Val φ (rndQ φ 0) 0 := vl_zero hA
  have hr0' : (0:ℝ) ≤ r := by exact_mod_cast hr0
  have hr1' : (r:ℝ) ≤ 3.1416 := h.le_r hr1
  dsimp only
  rw [reduceSgn_fst]
  generalize reduceAbs PI p1 x = y at *
  generalize (reduceSgn PI p1 x).2 = w at *
  have e1 : (y ==. (FOps.lit 0 : FP φ L)) = decide (r = 0) := by rw [eq_F, ofF_lit]; exact hr.eq hz
  have e3 : (y ==. PI) = decide (r = P) := by rw [eq_F]; exact hr.eq h.hP
  rw [e1, e3]
  have hσa : |(σ:ℝ)| = 1 := by rcases hσ1 with h | h <;> subst h <;> simp
  have key : Near φ (ofF (if decide (r = 0) then y else if decide (r = P) then (FOps.lit 0 : FP φ L) else w *. core y)) (σ * f r) E := by
    by_cases c1 : r = 0
    · simp only [c1, decide_true, if_true]
      have := hr.near
      rw [c1] at this
      rw [Rat.cast_zero, hf0, mul_zero]
      simpa using this.mono hE
    · by_cases c3 : r = P
      · simp only [c3, decide_true, if_true]
        rw [if_neg (by simpa [c3] using c1)]
        have h0 := hz.near
        refine (h0.shift (r' := σ * f P) (d := E) ?_).mono (by linarith)
        rw [Rat.cast_zero, zero_sub, abs_neg, abs_mul, hσa, one_mul]; exact hpi
      · simp only [c1, c3, decide_false, Bool.false_eq_true, if_false]
        rw [ofF_mul]
        exact near_sgn hσ hσ1 (hc y r hr hr0 hr1)
  rw [pow_one, ← hσ2] at hcc
  rw [hcc]
  constructor
  · refine key.shift (r' := σ * f t) (d := Λ * (8 * uR φ + 4 / 3 * uR φ * |(q:ℝ)|) + κ) ?_
    rw [← mul_sub, abs_mul, hσa, one_mul]
    refine (hlip r t hr0' hr1').trans ?_
    have := mul_le_mul_of_nonneg_left hd hΛ
    linarith
  · intro hq'
    rw [← (hq hq').2]; exact key

end ClCtx

theorem pi315 {ρ : ℚ} (h : ρ ≤ rq binary64 3.14159265358979324) : ρ ≤ 3.15 := by
  have := (clCtx_d zeroLib).h4
  linarith

/-- from the two enclosures to the statements about finite doubles, any function -/
theorem serFin {f : ℝ → ℝ} {E Λ : ℝ} {v : FP binary64 L} {q : ℚ}
    (h : Near binary64 (ofF v) (f q) (E * υ + (Λ * (8 * υ + 4 / 3 * υ * |(q:ℝ)|) + 0)) ∧
      (|q| ≤ rq binary64 3.14159265358979324 → Near binary64 (ofF v) (f q) (E * υ))) :
    ∃ r : ℚ, Val binary64 (ofF v) r ∧ |(r : ℝ) - f q| ≤ (E + 8 * Λ + 4 / 3 * Λ * |(q : ℝ)|) * 2 ^ (-53 : ℤ) ∧
      (|(q : ℝ)| ≤ 3.14 → |(r : ℝ) - f q| ≤ E * 2 ^ (-53 : ℤ)) := by
  obtain ⟨⟨r, hr, hd⟩, h2⟩ := h
  have hu : υ = 2 ^ (-53 : ℤ) := rfl
  rw [hu] at hd h2
  refine ⟨r, hr, hd.trans (le_of_eq (by ring)), fun hq => ?_⟩
  have hq' : |q| ≤ rq binary64 3.14159265358979324 := by
    have hd := abs_le.1 (clCtx_d L).hd
    have hp := pi_gt
    have hu : υ ≤ 1 / 2 ^ 53 := by norm_num [uR, binary64]
    have : ((|q| : ℚ) : ℝ) ≤ ((rq binary64 3.14159265358979324 : ℚ) : ℝ) := by
      push_cast; norm_num at hq hp ⊢; linarith [hd.1]
    exact_mod_cast this
  obtain ⟨r', hr', hd'⟩ := h2 hq'
  have := hr.unique hr'; subst this
  exact hd'

/-! ## the claims -/

/-- **C48, `Sl(n, x)`, n ≥ 26** (any order that fits into `int64_t`). For every finite `x` the result is finite and within `(24 + 8/3 |x|) u` of `Sl_n(x)`,
within `8 u` for `|x| ≤ 3.14`. -/
theorem C48_Sl (hL : TrigOK binary64 L) (n : ℕ) (h26 : 26 ≤ n) (h63 : n < 2 ^ 63) (x : FP binary64 L) {q : ℚ} (hx : Val binary64 (ofF x) q) :
    ∃ (v : FP binary64 L) (r : ℚ), Sl n x = .ok v ∧ Val binary64 (ofF v) r ∧ |(r : ℝ) - glaisher n q| ≤ (24 + 8 / 3 * |(q : ℝ)|) * 2 ^ (-53 : ℤ) ∧
      (|(q : ℝ)| ≤ 3.14 → |(r : ℝ) - glaisher n q| ≤ 8 * 2 ^ (-53 : ℤ)) := by
  obtain ⟨K, hK, h1, h5, hKn⟩ := kmax_fp hL n h63 (N := 26) (B := 5) (.inr ⟨rfl, rfl⟩) h26
  have hT : serTot 26 = 8 := by norm_num [serTot]
  have fin : ∀ {v : FP binary64 L}, Sl n x = .ok v →
      (∃ r : ℚ, Val binary64 (ofF v) r ∧ |(r : ℝ) - glaisher n q| ≤ (8 + 8 * 2 + 4 / 3 * 2 * |(q : ℝ)|) * 2 ^ (-53 : ℤ) ∧ (|(q : ℝ)| ≤ 3.14 → |(r : ℝ) - glaisher n q| ≤ 8 * 2 ^ (-53 : ℤ))) →
      ∃ (v : FP binary64 L) (r : ℚ), Sl n x = .ok v ∧ Val binary64 (ofF v) r ∧ |(r : ℝ) - glaisher n q| ≤ (24 + 8 / 3 * |(q : ℝ)|) * 2 ^ (-53 : ℤ) ∧
      (|(q : ℝ)| ≤ 3.14 → |(r : ℝ) - glaisher n q| ≤ 8 * 2 ^ (-53 : ℤ)) := by
    intro v hv ⟨r, a, b, c⟩
    exact ⟨v, r, hv, a, b.trans (le_of_eq (by ring)), c⟩
  rcases Nat.even_or_odd' n with ⟨m, hm | hm⟩
  · refine fin (Sl_even_gen n h26 (by omega) hK x) (serFin (f := glaisher n) (E := 8) (Λ := 2) ?_)
    have hg : glaisher n = glaisher (2 * m + 0) := by rw [hm, add_zero]
    rw [hg]
    refine (clCtx_d L).evenG fmtA64 (core := fun r => slCosLoop (n:ℤ) (FOps.cos r) ((K:ℤ) - 1).toNat 2 (FOps.lit 1) (FOps.cos r) (FOps.cos r)) (glaisher_neg m 0 (by norm_num) (by omega)) (glaisher_sub_two_pi _) (by norm_num)
      (fun a b _ _ => glaisher_lip0 m 0 (by norm_num) (by omega) a b) (fun r ρ hr h0 hP => ?_) x hx rfl
    have := series_near hL 0 n h63 (.inr ⟨rfl, rfl⟩) h26 h1 h5 hKn r hr h0 (pi315 hP) (FOps.lit 1) (FOps.cos r) rfl rfl
    rw [hT] at this
    rw [glaisher_part m 0 (by norm_num), add_zero, ← hm]; exact this
  · refine fin (Sl_odd_gen n h26 (by omega) hK x) (serFin (f := glaisher n) (E := 8) (Λ := 2) ?_)
    rw [show glaisher n = glaisher (2 * m + 1) by rw [hm]]
    refine (clCtx_d L).oddG fmtA64 (core := fun r => slCosLoop (n:ℤ) (FOps.cos r) ((K:ℤ) - 1).toNat 2 (FOps.lit 0) (FOps.sin r) (FOps.sin r)) (glaisher_neg m 1 (by norm_num) (by omega)) (glaisher_sub_two_pi _) (by have := uR_pos (φ := binary64); positivity) (by norm_num)
      (fun a b _ _ => glaisher_lip0 m 1 (by norm_num) (by omega) a b) (fun r ρ hr h0 hP => ?_) x hx rfl
    have := series_near hL 1 n h63 (.inr ⟨rfl, rfl⟩) h26 h1 h5 hKn r hr h0 (pi315 hP) (FOps.lit 0) (FOps.sin r) rfl rfl
    rw [hT] at this
    rw [glaisher_part m 1 (by norm_num), ← hm]; exact this

/-- **C48, `Cl(n, x)`, n ≥ 10** (any order that fits into `int64_t`). For every finite `x` the result is finite and within `(84 + 8/3 |x|) u` of `Cl_n(x)`,
within `68 u` for `|x| ≤ 3.14`. -/
theorem C48_Cl (hL : TrigOK binary64 L) (n : ℕ) (h10 : 10 ≤ n) (h63 : n < 2 ^ 63) (x : FP binary64 L) {q : ℚ} (hx : Val binary64 (ofF x) q) :
    ∃ (v : FP binary64 L) (r : ℚ), Cl n x = .ok v ∧ Val binary64 (ofF v) r ∧ |(r : ℝ) - clausen n q| ≤ (84 + 8 / 3 * |(q : ℝ)|) * 2 ^ (-53 : ℤ) ∧
      (|(q : ℝ)| ≤ 3.14 → |(r : ℝ) - clausen n q| ≤ 68 * 2 ^ (-53 : ℤ)) := by
  obtain ⟨K, hK, h1, h5, hKn⟩ := kmax_fp hL n h63 (N := 10) (B := 37) (.inl ⟨rfl, rfl⟩) h10
  have hT : serTot 10 = 68 := by norm_num [serTot]
  have fin : ∀ {v : FP binary64 L}, Cl n x = .ok v →
      (∃ r : ℚ, Val binary64 (ofF v) r ∧ |(r : ℝ) - clausen n q| ≤ (68 + 8 * 2 + 4 / 3 * 2 * |(q : ℝ)|) * 2 ^ (-53 : ℤ) ∧ (|(q : ℝ)| ≤ 3.14 → |(r : ℝ) - clausen n q| ≤ 68 * 2 ^ (-53 : ℤ))) →
      ∃ (v : FP binary64 L) (r : ℚ), Cl n x = .ok v ∧ Val binary64 (ofF v) r ∧ |(r : ℝ) - clausen n q| ≤ (84 + 8 / 3 * |(q : ℝ)|) * 2 ^ (-53 : ℤ) ∧
      (|(q : ℝ)| ≤ 3.14 → |(r : ℝ) - clausen n q| ≤ 68 * 2 ^ (-53 : ℤ)) := by
    intro v hv ⟨r, a, b, c⟩
    exact ⟨v, r, hv, a, b.trans (le_of_eq (by ring)), c⟩
  have hper : ∀ y, clausen n (y - 2 * Real.pi) = clausen n y := fun y => by
    have := clausen_sub_nat n 1 y
    rwa [Nat.cast_one, mul_one] at this
  rcases Nat.even_or_odd' n with ⟨m, hm | hm⟩
  · obtain ⟨m, rfl⟩ : ∃ k, m = k + 1 := ⟨m - 1, by omega⟩
    have hm : n = 2 * m + 1 + 1 := by omega
    refine fin (Cl_even_gen n h10 (by omega) hK x) (serFin (f := clausen n) (E := 68) (Λ := 2) ?_)
    rw [hm] at hper
    have hlip := clausen_lip m 1 (by norm_num) (by omega)
    have hpi : |clausen (2 * m + 1 + 1) ((rq binary64 3.14159265358979324 : ℚ) : ℝ)| ≤ 68 * υ := by
      have h := (clCtx_d L).hd
      have := hlip ((rq binary64 3.14159265358979324 : ℚ) : ℝ) Real.pi
      have hu0 := uR_pos (φ := binary64)
      rw [clausen_even_pi, sub_zero] at this
      linarith
    rw [show clausen n = clausen (2 * m + 1 + 1) by rw [hm]]
    refine (clCtx_d L).oddP fmtA64 (core := fun r => slCosLoop (n:ℤ) (FOps.cos r) ((K:ℤ) - 1).toNat 2 (FOps.lit 0) (FOps.sin r) (FOps.sin r)) (clausen_neg m 1 (by norm_num) (by omega)) hper (by have := uR_pos (φ := binary64); positivity) (by norm_num)
      (fun a b _ _ => (hlip a b).trans (le_of_eq (add_zero _).symm)) hpi (fun r ρ hr h0 hP => ?_) x hx rfl
    have := series_near hL 1 n h63 (.inl ⟨rfl, rfl⟩) h10 h1 h5 hKn r hr h0 (pi315 hP) (FOps.lit 0) (FOps.sin r) rfl rfl
    rw [hT] at this
    rw [clausen_part m 1 (by norm_num), ← hm]; exact this
  · refine fin (Cl_odd_gen n h10 (by omega) hK x) (serFin (f := clausen n) (E := 68) (Λ := 2) ?_)
    have hm : n = 2 * m + 1 + 0 := by omega
    rw [hm] at hper
    have hlip := clausen_lip m 0 (by norm_num) (by omega)
    rw [show clausen n = clausen (2 * m + 1 + 0) by rw [hm]]
    refine (clCtx_d L).evenG fmtA64 (core := fun r => slCosLoop (n:ℤ) (FOps.cos r) ((K:ℤ) - 1).toNat 2 (FOps.lit 1) (FOps.cos r) (FOps.cos r)) (clausen_neg m 0 (by norm_num) (by omega)) hper (by norm_num)
      (fun a b _ _ => (hlip a b).trans (le_of_eq (add_zero _).symm)) (fun r ρ hr h0 hP => ?_) x hx rfl
    have := series_near hL 0 n h63 (.inl ⟨rfl, rfl⟩) h10 h1 h5 hKn r hr h0 (pi315 hP) (FOps.lit 1) (FOps.cos r) rfl rfl
    rw [hT] at this
    rw [clausen_part m 0 (by norm_num), ← hm]; exact this

/-- the hypotheses are met: a library that rounds correctly, `x = -5/2`, order 1000 -/
example : ∃ L : Lib, TrigOK binary64 L ∧ ∃ (v : FP binary64 L) (r : ℚ), Cl 1000 (toF binary64 L (.fin true (5 / 2))) = .ok v ∧ Val binary64 (ofF v) r ∧
    |(r : ℝ) - clausen 1000 (-5 / 2)| ≤ 68 * 2 ^ (-53 : ℤ) := by
  have hL := exists_trigOK fmtA64 zeroLib
  refine ⟨_, hL, ?_⟩
  obtain ⟨v, r, h1, h2, -, h4⟩ := C48_Cl hL 1000 (by norm_num) (by norm_num) (toF binary64 _ (.fin true (5 / 2))) (q := -(5 / 2))
    ⟨true, 5 / 2, rfl, rfl, ⟨5, -1, by decide, by decide, by norm_num⟩, lt_two_pow_emax (by norm_num)⟩
  refine ⟨v, r, h1, h2, ?_⟩
  have := h4 (by norm_num [abs_le])
  convert this using 3
  norm_num

end Polylog
