import Verif.Proofs.PowSer
import Verif.Proofs.Zeta
import Mathlib.NumberTheory.Harmonic.Defs

/-! # Expansion of `Li_n(e^u)` about `u = 0` (T5)

`Li_n(e^u) = ∑_{k ≠ n-1} zeta(n-k) u^k/k! + u^{n-1}/(n-1)! (H_{n-1} - log(-u))`, `n ≥ 1`;
`Li_{-n}(e^u) = n! (-u)^{-n-1} + ∑ zeta(-n-k) u^k/k!`; both for `|u| < 2π`, `u` not on the positive real axis. -/

noncomputable section
namespace Polylog
open Complex Filter Topology Set Metric

theorem CoefBound.mono {a : ℕ → ℂ} {ρ r C : ℝ} (h : CoefBound a ρ C) (hr0 : 0 ≤ r) (hr : r ≤ ρ) : CoefBound a r C := fun k =>
  (mul_le_mul_of_nonneg_left (pow_le_pow_left₀ hr0 hr k) (norm_nonneg _)).trans (h k)

theorem CoefBound.dcoef {a : ℕ → ℂ} {ρ r C : ℝ} (h : CoefBound a ρ C) (hr0 : 0 < r) (hr : r < ρ) :
    ∃ C', CoefBound (dcoef a) r C' := by
  have hρ : 0 < ρ := hr0.trans hr
  have hq : r / ρ < 1 := (div_lt_one hρ).mpr hr
  have hq0 : 0 ≤ r / ρ := by positivity
  have hs := summable_pow_mul_geometric_of_norm_lt_one (R := ℝ) 1 (r := r / ρ)
    (by rw [Real.norm_eq_abs, abs_of_nonneg hq0]; exact hq)
  have hb : ∀ k : ℕ, (k:ℝ) * (r / ρ) ^ k ≤ ∑' k : ℕ, (k:ℝ) ^ 1 * (r / ρ) ^ k := fun k => by
    have := hs.le_tsum k (fun j _ => by positivity)
    simpa using this
  refine ⟨C / r * ∑' k : ℕ, (k:ℝ) ^ 1 * (r / ρ) ^ k, fun k => ?_⟩
  have h1 := h (k + 1)
  have h2 := hb (k + 1)
  rw [Polylog.dcoef, norm_mul]
  have e : ‖((k:ℂ) + 1)‖ = ((k + 1 : ℕ) : ℝ) := by
    rw [show ((k:ℂ) + 1) = ((k + 1 : ℕ) : ℂ) by push_cast; rfl, Complex.norm_natCast]
  rw [e]
  have h3 : ‖a (k + 1)‖ ≤ C / ρ ^ (k + 1) := by rw [le_div_iff₀ (by positivity)]; exact h1
  have hC := h.nonneg
  calc ((k + 1 : ℕ) : ℝ) * ‖a (k + 1)‖ * r ^ k ≤ ((k + 1 : ℕ) : ℝ) * (C / ρ ^ (k + 1)) * r ^ k := by gcongr
    _ = C / r * (((k + 1 : ℕ) : ℝ) * (r / ρ) ^ (k + 1)) := by rw [div_pow, pow_succ r]; field_simp
    _ ≤ _ := by gcongr

/-! ## coefficients -/

/-- `zeta(n-k)/k!`, without the pole term -/
def zcoef (n : ℤ) (k : ℕ) : ℂ := if n - k = 1 then 0 else riemannZeta ((n - k : ℤ) : ℂ) / (k.factorial : ℂ)

theorem dcoef_zcoef (n : ℤ) (k : ℕ) : dcoef (zcoef (n + 1)) k = zcoef n k := by
  rw [dcoef, zcoef, zcoef]
  have e : n + 1 - ((k + 1 : ℕ) : ℤ) = n - k := by push_cast; ring
  rw [e]
  split
  · simp
  · rw [Nat.factorial_succ]
    have : ((k:ℂ) + 1) ≠ 0 := by exact_mod_cast Nat.succ_ne_zero k
    have : (k.factorial : ℂ) ≠ 0 := by exact_mod_cast Nat.factorial_ne_zero k
    push_cast
    field_simp

theorem zcoef_zero (k : ℕ) : zcoef 0 k = (-1) ^ k * bernC (k + 1) := by
  rw [zcoef, if_neg (by omega)]
  have := riemannZeta_neg_nat_eq_bernoulli k
  rw [show (((0:ℤ) - (k:ℤ) : ℤ) : ℂ) = -(k:ℂ) by push_cast; ring, this, bernC, Nat.factorial_succ]
  have : ((k:ℂ) + 1) ≠ 0 := by exact_mod_cast Nat.succ_ne_zero k
  have : (k.factorial : ℂ) ≠ 0 := by exact_mod_cast Nat.factorial_ne_zero k
  push_cast
  field_simp

theorem zcoef_zero_bound : CoefBound (zcoef 0) (2 * Real.pi) 1 := by
  intro k
  have h := bernC_bound (k + 1)
  rw [zcoef_zero, norm_mul, norm_pow, norm_neg, norm_one, one_pow, one_mul]
  have hpi := Real.pi_gt_three
  have h0 : 0 ≤ ‖bernC (k + 1)‖ * (2 * Real.pi) ^ k := by positivity
  rw [pow_succ, ← mul_assoc] at h
  nlinarith

theorem zcoef_bound_nat (n : ℕ) : ∃ C, CoefBound (zcoef n) (2 * Real.pi) C := by
  induction n with
  | zero => exact ⟨1, by exact_mod_cast zcoef_zero_bound⟩
  | succ n ih =>
    obtain ⟨C, hC⟩ := ih
    refine ⟨max ‖zcoef ((n + 1 : ℕ) : ℤ) 0‖ (2 * Real.pi * C), fun k => ?_⟩
    cases k with
    | zero => simp
    | succ k =>
      refine le_trans ?_ (le_max_right _ _)
      have h := dcoef_zcoef n k
      rw [dcoef] at h
      have hk : ‖zcoef (((n + 1 : ℕ) : ℤ)) (k + 1)‖ ≤ ‖zcoef n k‖ := by
        rw [← h, norm_mul]
        push_cast
        have e : ‖((k:ℂ) + 1)‖ = ((k + 1 : ℕ) : ℝ) := by
          rw [show ((k:ℂ) + 1) = ((k + 1 : ℕ) : ℂ) by push_cast; rfl, Complex.norm_natCast]
        rw [e]
        have : (1:ℝ) ≤ ((k + 1 : ℕ) : ℝ) := by exact_mod_cast Nat.succ_le_succ (Nat.zero_le k)
        nlinarith [norm_nonneg (zcoef ((n:ℤ) + 1) (k + 1))]
      have := hC k
      have hpi := Real.pi_pos
      rw [pow_succ, ← mul_assoc]
      calc _ ≤ ‖zcoef n k‖ * (2 * Real.pi) ^ k * (2 * Real.pi) := by gcongr
        _ ≤ C * (2 * Real.pi) := by gcongr
        _ = _ := by ring

theorem zcoef_bound_neg (n : ℕ) {r : ℝ} (h0 : 0 < r) (hr : r < 2 * Real.pi) : ∃ C, CoefBound (zcoef (-n)) r C := by
  induction n generalizing r with
  | zero => exact ⟨1, by simpa using zcoef_zero_bound.mono h0.le hr.le⟩
  | succ n ih =>
    obtain ⟨r', h1, h2⟩ := exists_between hr
    obtain ⟨C, hC⟩ := ih (h0.trans h1) h2
    obtain ⟨C', hC'⟩ := hC.dcoef h0 h1
    refine ⟨C', ?_⟩
    have : dcoef (zcoef (-(n:ℤ))) = zcoef (-((n + 1 : ℕ) : ℤ)) := by
      ext k
      have := dcoef_zcoef (-((n + 1 : ℕ) : ℤ)) k
      rw [← this]; congr 2; push_cast; ring
    rwa [← this]

/-! ## the domain -/

/-- disc of radius 2π without the nonnegative real axis -/
def slitDisc : Set ℂ := ball 0 (2 * Real.pi) ∩ negPlane

theorem isOpen_slitDisc : IsOpen slitDisc := isOpen_ball.inter isOpen_negPlane

theorem neg_one_mem_slitDisc : (-1 : ℂ) ∈ slitDisc := by
  refine ⟨?_, ?_⟩
  · simp; linarith [Real.pi_gt_three]
  · rw [mem_negPlane]; left; simp

theorem starConvex_negPlane : StarConvex ℝ (-1) negPlane := by
  intro z hz a b ha hb hab
  have := starConvex_one_slitPlane (show -z ∈ slitPlane from hz) ha hb hab
  show -(a • (-1 : ℂ) + b • z) ∈ slitPlane
  convert this using 1
  simp; ring

theorem isPreconnected_slitDisc : IsPreconnected slitDisc := by
  have h : StarConvex ℝ (-1) slitDisc :=
    ((convex_ball 0 (2 * Real.pi)).starConvex neg_one_mem_slitDisc.1).inter starConvex_negPlane
  exact (h.isPathConnected neg_one_mem_slitDisc).isConnected.isPreconnected

theorem slitDisc_ne {u : ℂ} (hu : u ∈ slitDisc) : u ≠ 0 := negPlane_ne hu.2

theorem slitDisc_norm {u : ℂ} (hu : u ∈ slitDisc) : ‖u‖ < 2 * Real.pi := by simpa using hu.1

theorem exp_mem_cutPlane {u : ℂ} (hu : u ∈ slitDisc) : Complex.exp u ∈ cutPlane := by
  by_contra h
  rw [mem_cutPlane] at h
  push Not at h
  obtain ⟨h1, h2⟩ := h
  rw [exp_im] at h2
  rw [exp_re] at h1
  have hs : Real.sin u.im = 0 := by
    rcases mul_eq_zero.mp h2 with h | h
    · exact absurd h (Real.exp_pos _).ne'
    · exact h
  obtain ⟨m, hm⟩ := Real.sin_eq_zero_iff.mp hs
  have him : |u.im| < 2 * Real.pi := (abs_im_le_norm u).trans_lt (slitDisc_norm hu)
  have hpi := Real.pi_pos
  rw [abs_lt, ← hm] at him
  have hm1 : m < 2 := by
    by_contra hc
    have : (2:ℝ) ≤ m := by exact_mod_cast not_lt.mp hc
    nlinarith [him.2]
  have hm2 : -2 < m := by
    by_contra hc
    have : (m:ℝ) ≤ -2 := by exact_mod_cast not_lt.mp hc
    nlinarith [him.1]
  have hcos : 0 < Real.cos u.im := by
    by_contra hc
    have : Real.exp u.re * Real.cos u.im ≤ 0 := mul_nonpos_of_nonneg_of_nonpos (Real.exp_pos _).le (not_lt.mp hc)
    linarith
  have hm0 : m = 0 := by
    have : m = -1 ∨ m = 0 ∨ m = 1 := by omega
    rcases this with h | h | h
    · rw [← hm, h] at hcos; simp at hcos; linarith
    · exact h
    · rw [← hm, h] at hcos; simp at hcos; linarith
  have him0 : u.im = 0 := by rw [← hm, hm0]; simp
  have hre : 0 ≤ u.re := by
    rw [him0, Real.cos_zero, mul_one] at h1
    by_contra hc
    have := Real.exp_lt_exp.mpr (not_le.mp hc)
    rw [Real.exp_zero] at this
    linarith
  have := hu.2
  rw [mem_negPlane] at this
  rcases this with h | h
  · linarith
  · exact h him0

theorem exp_ne_one {u : ℂ} (hu : u ∈ slitDisc) : Complex.exp u ≠ 1 := by
  intro h
  have := exp_mem_cutPlane hu
  rw [h, mem_cutPlane] at this
  simp at this

/-! ## the singular part -/

/-- `u^n/n! (H_n - log(-u))` -/
def singU (n : ℕ) (u : ℂ) : ℂ := u ^ n / (n.factorial : ℂ) * (((_root_.harmonic n : ℚ) : ℂ) - Complex.log (-u))

theorem log_neg_hasDerivAt {u : ℂ} (hu : u ∈ negPlane) : HasDerivAt (fun u : ℂ => Complex.log (-u)) u⁻¹ u := by
  refine (HasDerivAt.clog (hasDerivAt_neg u) hu).congr_deriv ?_
  rw [neg_div_neg_eq, one_div]

theorem singU_zero_hasDerivAt {u : ℂ} (hu : u ∈ negPlane) : HasDerivAt (singU 0) (-u⁻¹) u := by
  have : singU 0 = fun u => -Complex.log (-u) := by ext u; simp [singU]
  rw [this]
  exact (log_neg_hasDerivAt hu).neg

theorem singU_succ_hasDerivAt (n : ℕ) {u : ℂ} (hu : u ∈ negPlane) : HasDerivAt (singU (n + 1)) (singU n u) u := by
  have h0 := negPlane_ne hu
  have h1 := ((hasDerivAt_pow (n + 1) u).div_const ((n + 1).factorial : ℂ)).mul
    ((log_neg_hasDerivAt hu).const_sub (((_root_.harmonic (n + 1) : ℚ) : ℂ)))
  refine h1.congr_deriv ?_
  have hf : (n.factorial : ℂ) ≠ 0 := by exact_mod_cast Nat.factorial_ne_zero n
  have hn : ((n:ℂ) + 1) ≠ 0 := by exact_mod_cast Nat.succ_ne_zero n
  rw [singU, harmonic_succ, Nat.factorial_succ]
  push_cast
  rw [pow_succ]
  field_simp
  ring

/-! ## the theorem -/

/-- the filter `u → 0` along the negative reals -/
def negReal : Filter ℂ := Filter.map (fun x : ℝ => (x : ℂ)) (𝓝[<] 0)

instance : negReal.NeBot := by unfold negReal; infer_instance

theorem eventually_slitDisc : ∀ᶠ u in negReal, u ∈ slitDisc := by
  rw [negReal, Filter.eventually_map]
  have hpi := Real.pi_pos
  filter_upwards [Ioo_mem_nhdsLT (show (-1:ℝ) < 0 by norm_num)] with x hx
  refine ⟨?_, ?_⟩
  · simp only [mem_ball, dist_zero_right, Complex.norm_real, Real.norm_eq_abs]
    rw [abs_of_neg hx.2]; linarith [hx.1, Real.pi_gt_three]
  · rw [mem_negPlane]; left; simpa using hx.2

theorem negReal_le : negReal ≤ 𝓝 0 := by
  have : Tendsto (fun x : ℝ => (x : ℂ)) (𝓝[<] 0) (𝓝 0) :=
    (Complex.continuous_ofReal.tendsto' 0 0 (by simp)).mono_left nhdsWithin_le_nhds
  exact this

theorem psum_zcoef_tendsto (n : ℕ) : Tendsto (psum (zcoef n)) negReal (𝓝 (zcoef n 0)) := by
  obtain ⟨C, hC⟩ := zcoef_bound_nat n
  have h := hC.continuousAt (by positivity) (z := 0) (by simpa using Real.pi_pos)
  rw [← psum_zero (zcoef n)]
  exact h.tendsto.mono_left negReal_le

theorem singU_tendsto (n : ℕ) : Tendsto (singU (n + 1)) negReal (𝓝 0) := by
  rw [negReal, tendsto_map'_iff]
  have h1 : Tendsto (fun x : ℝ => x * Real.log x) (𝓝[<] 0) (𝓝 0) := by
    have := Real.continuous_mul_log.tendsto 0
    simp only [zero_mul] at this
    exact this.mono_left nhdsWithin_le_nhds
  have hx : Tendsto (fun x : ℝ => x) (𝓝[<] 0) (𝓝 0) := tendsto_id.mono_left nhdsWithin_le_nhds
  have h2 : Tendsto (fun x : ℝ => x ^ n / ((n + 1).factorial : ℝ) * (x * ((_root_.harmonic (n + 1) : ℚ) : ℝ) - x * Real.log x)) (𝓝[<] 0)
      (𝓝 (0 ^ n / ((n + 1).factorial : ℝ) * (0 * ((_root_.harmonic (n + 1) : ℚ) : ℝ) - 0))) :=
    ((hx.pow n).div_const _).mul ((hx.mul_const _).sub h1)
  rw [zero_mul, sub_zero, mul_zero] at h2
  have h3 := (Complex.continuous_ofReal.tendsto 0).comp h2
  rw [Complex.ofReal_zero] at h3
  refine h3.congr' ?_
  filter_upwards [self_mem_nhdsWithin] with x hx
  have hx' : x < 0 := hx
  have hl : Complex.log (-(x:ℂ)) = (Real.log x : ℂ) := by
    rw [show (-(x:ℂ)) = ((-x : ℝ) : ℂ) by push_cast; rfl, ← Complex.ofReal_log (by linarith), Real.log_neg_eq_log]
  simp only [Function.comp_apply, singU, hl]
  push_cast
  rw [pow_succ]; ring

theorem pLi_exp_hasDerivAt (n : ℕ) {u : ℂ} (hu : u ∈ slitDisc) :
    HasDerivAt (fun u => pLi (n + 1) (Complex.exp u)) (pLi n (Complex.exp u)) u := by
  have h := HasDerivAt.comp u (pLi_hasDerivAt n (exp_mem_cutPlane hu) (Complex.exp_ne_zero u)) (Complex.hasDerivAt_exp u)
  refine h.congr_deriv ?_
  rw [div_mul_cancel₀ _ (Complex.exp_ne_zero u)]

theorem psum_zcoef_hasDerivAt (n : ℕ) {u : ℂ} (hu : ‖u‖ < 2 * Real.pi) :
    HasDerivAt (psum (zcoef ((n + 1 : ℕ) : ℤ))) (psum (zcoef n) u) u := by
  obtain ⟨C, hC⟩ := zcoef_bound_nat (n + 1)
  have h := hC.hasDerivAt (by positivity) hu
  have e : dcoef (zcoef ((n + 1 : ℕ) : ℤ)) = zcoef n := by
    ext k; have := dcoef_zcoef n k; push_cast; exact this
  rwa [e] at h

/-- order 0 -/
theorem pLi_exp_zero {u : ℂ} (hu : u ∈ slitDisc) : pLi 0 (Complex.exp u) = psum (zcoef 0) u - u⁻¹ := by
  have h0 := slitDisc_ne hu
  have h1 := exp_ne_one hu
  have hb := psum_bern (slitDisc_norm hu) h1
  have hs := bernC_bound.hasSum (by positivity) (slitDisc_norm hu)
  rw [hb] at hs
  -- drop the first term
  have hs1 := (hasSum_nat_add_iff' 1).mpr hs
  have hb0 : bernC 0 = 1 := by simp [bernC]
  simp only [Finset.range_one, Finset.sum_singleton, pow_zero, mul_one, hb0] at hs1
  have hs2 := hs1.mul_left (-u⁻¹)
  have hz := (zcoef_zero_bound.hasSum (by positivity) (slitDisc_norm hu))
  have h3 : HasSum (fun k : ℕ => if k = 0 then (1:ℂ) else 0) 1 := by
    have := hasSum_ite_eq (0:ℕ) (1:ℂ)
    exact this
  have hd := (hz.sub hs2).unique (HasSum.congr_fun' (h3.mul_left (-1)) fun k => ?_)
  · have hne : Complex.exp u - 1 ≠ 0 := sub_ne_zero.mpr h1
    have hne' : 1 - Complex.exp u ≠ 0 := sub_ne_zero.mpr (Ne.symm h1)
    have : psum (zcoef 0) u = -1 - u⁻¹ * (u / (Complex.exp u - 1) - 1) := by linear_combination hd
    rw [this, pLi]
    field_simp
    ring
  · rw [zcoef_zero, pow_succ]
    have : (-u⁻¹) * (bernC (k + 1) * (u ^ k * u)) = -(bernC (k + 1) * u ^ k) := by field_simp
    rw [this]
    split
    · rename_i hk; subst hk
      simp [bernC, bernoulli_one]
    · rename_i hk
      rcases Nat.even_or_odd k with he | ho
      · have : bernoulli (k + 1) = 0 := bernoulli_eq_zero_of_odd he.add_one (by omega)
        simp [bernC, this]
      · rw [ho.neg_one_pow]; ring

/-- **T5**, `n ≥ 1` -/
theorem pLi_exp (n : ℕ) : ∀ u ∈ slitDisc, pLi (n + 1) (Complex.exp u) = psum (zcoef ((n + 1 : ℕ) : ℤ)) u + singU n u := by
  induction n with
  | zero =>
    refine eqOn_of_hasDerivAt isOpen_slitDisc isPreconnected_slitDisc (f' := fun u => pLi 0 (Complex.exp u))
      (fun u hu => pLi_exp_hasDerivAt 0 hu) (fun u hu => ?_) eventually_slitDisc ?_
    · refine ((psum_zcoef_hasDerivAt 0 (slitDisc_norm hu)).add (singU_zero_hasDerivAt hu.2)).congr_deriv ?_
      rw [pLi_exp_zero hu]; push_cast; ring
    · have hz0 : zcoef 1 0 = 0 := by simp [zcoef]
      have h1 := psum_zcoef_tendsto 1
      push_cast at h1
      rw [hz0] at h1
      -- log(-u) - log(1 - e^u) → 0
      have h2 : Tendsto (fun u : ℂ => Complex.log (-u) - Complex.log (1 - Complex.exp u)) negReal (𝓝 0) := by
        rw [negReal, tendsto_map'_iff]
        have hd : HasDerivAt Real.exp 1 0 := by simpa using Real.hasDerivAt_exp 0
        have hs := hd.tendsto_slope_zero_left
        simp only [zero_add, Real.exp_zero, smul_eq_mul] at hs
        have hl : Tendsto (fun x : ℝ => -Real.log (x⁻¹ * (Real.exp x - 1))) (𝓝[<] 0) (𝓝 (-Real.log 1)) :=
          ((Real.continuousAt_log one_ne_zero).tendsto.comp hs).neg
        rw [Real.log_one, neg_zero] at hl
        have h3 := (Complex.continuous_ofReal.tendsto 0).comp hl
        rw [Complex.ofReal_zero] at h3
        refine h3.congr' ?_
        filter_upwards [self_mem_nhdsWithin] with x hx
        have hx' : x < 0 := hx
        have he : 0 < 1 - Real.exp x := by linarith [Real.exp_lt_exp.mpr hx', Real.exp_zero]
        have e1 : Complex.log (-(x:ℂ)) = (Real.log (-x) : ℂ) := by
          rw [show (-(x:ℂ)) = ((-x : ℝ) : ℂ) by push_cast; rfl, ← Complex.ofReal_log (by linarith)]
        have e2 : Complex.log (1 - Complex.exp x) = (Real.log (1 - Real.exp x) : ℂ) := by
          rw [show (1 - Complex.exp (x:ℂ)) = ((1 - Real.exp x : ℝ) : ℂ) by push_cast; rfl, ← Complex.ofReal_log he.le]
        simp only [Function.comp_apply, e1, e2]
        rw [← Complex.ofReal_sub]
        congr 1
        have e3 : x⁻¹ * (Real.exp x - 1) = (1 - Real.exp x) / (-x) := by
          have := hx'.ne; field_simp; ring
        rw [e3, Real.log_div he.ne' (by linarith)]; ring
      have h3 := h2.sub h1
      rw [sub_zero] at h3
      refine h3.congr fun u => ?_
      simp only [zero_add, pLi, singU, pow_zero, Nat.factorial_zero, Nat.cast_one, div_one, one_mul, harmonic_zero, Rat.cast_zero]
      ring
  | succ n ih =>
    refine eqOn_of_hasDerivAt isOpen_slitDisc isPreconnected_slitDisc (f' := fun u => pLi (n + 1) (Complex.exp u))
      (fun u hu => pLi_exp_hasDerivAt (n + 1) hu) (fun u hu => ?_) eventually_slitDisc ?_
    · refine ((psum_zcoef_hasDerivAt (n + 1) (slitDisc_norm hu)).add (singU_succ_hasDerivAt n hu.2)).congr_deriv ?_
      rw [ih u hu]
    · have h1 := psum_zcoef_tendsto (n + 2)
      have hz0 : zcoef ((n + 2 : ℕ) : ℤ) 0 = pLi (n + 2) 1 := by
        rw [zcoef, if_neg (by push_cast; omega), pLi_one_eq_zeta]; push_cast; simp
      have h2 := singU_tendsto n
      have h3 : Tendsto (fun u => pLi (n + 2) (Complex.exp u)) negReal (𝓝 (pLi (n + 2) 1)) := by
        rw [negReal, tendsto_map'_iff]
        have := ((pLi_real_continuous n).comp Real.continuous_exp).tendsto 0
        simp only [Function.comp_apply, Real.exp_zero, Complex.ofReal_one] at this
        refine (this.mono_left nhdsWithin_le_nhds).congr fun x => ?_
        simp
      have := h3.sub (h1.add h2)
      rw [hz0, add_zero, sub_self] at this
      exact this

theorem pLiNeg_analyticAt (m : ℕ) : ∀ z : ℂ, z ≠ 1 → AnalyticAt ℂ (pLiNeg m) z := by
  induction m with
  | zero =>
    intro z hz
    have h : AnalyticAt ℂ (fun z : ℂ => z / (1 - z)) z :=
      analyticAt_id.div (analyticAt_const.sub analyticAt_id) (sub_ne_zero.mpr (Ne.symm hz))
    have e : pLiNeg 0 = fun z : ℂ => z / (1 - z) := by ext z; rfl
    rw [e]; exact h
  | succ m ih =>
    intro z hz
    have h := analyticAt_id.mul (ih z hz).deriv
    have e : pLiNeg (m + 1) = fun z : ℂ => z * deriv (pLiNeg m) z := by ext z; rfl
    rw [e]; exact h

theorem pLiNeg_exp_hasDerivAt (n : ℕ) {u : ℂ} (hu : Complex.exp u ≠ 1) :
    HasDerivAt (fun u => pLiNeg n (Complex.exp u)) (pLiNeg (n + 1) (Complex.exp u)) u := by
  have h1 := HasDerivAt.comp u ((pLiNeg_analyticAt n _ hu).differentiableAt.hasDerivAt) (Complex.hasDerivAt_exp u)
  refine h1.congr_deriv ?_
  rw [pLiNeg]; ring

/-- **T5**, orders `-n ≤ 0` -/
theorem pLiNeg_exp (n : ℕ) : ∀ u ∈ slitDisc,
    pLiNeg n (Complex.exp u) = psum (zcoef (-n)) u + n.factorial * (-u)⁻¹ ^ (n + 1) := by
  induction n with
  | zero =>
    intro u hu
    have := pLi_exp_zero hu
    have e : pLiNeg 0 (Complex.exp u) = pLi 0 (Complex.exp u) := rfl
    rw [e, this]; simp [inv_neg, sub_eq_add_neg]
  | succ n ih =>
    intro u hu
    have h1 := pLiNeg_exp_hasDerivAt n (exp_ne_one hu)
    obtain ⟨r, hr1, hr2⟩ := exists_between (slitDisc_norm hu)
    have hr0 : 0 < r := (norm_nonneg u).trans_lt hr1
    obtain ⟨C, hC⟩ := zcoef_bound_neg n hr0 hr2
    have h2 := hC.hasDerivAt hr0 hr1
    have e : dcoef (zcoef (-(n:ℤ))) = zcoef (-((n + 1 : ℕ) : ℤ)) := by
      ext k
      have := dcoef_zcoef (-((n + 1 : ℕ) : ℤ)) k
      rw [← this]; congr 2; push_cast; ring
    rw [e] at h2
    have h0 := slitDisc_ne hu
    have h3 : HasDerivAt (fun u : ℂ => (n.factorial : ℂ) * (-u)⁻¹ ^ (n + 1))
        (((n + 1).factorial : ℂ) * (-u)⁻¹ ^ (n + 1 + 1)) u := by
      have := (((hasDerivAt_neg u).fun_inv (neg_ne_zero.mpr h0)).fun_pow (n + 1)).const_mul (n.factorial : ℂ)
      refine this.congr_deriv ?_
      rw [Nat.factorial_succ]
      push_cast
      have : -u ≠ 0 := neg_ne_zero.mpr h0
      rw [pow_succ ((-u)⁻¹) (n + 1), pow_succ ((-u)⁻¹) n]
      field_simp
    have h4 : (fun u => pLiNeg n (Complex.exp u)) =ᶠ[𝓝 u] fun u => psum (zcoef (-n)) u + n.factorial * (-u)⁻¹ ^ (n + 1) := by
      filter_upwards [isOpen_slitDisc.mem_nhds hu] with v hv using ih v hv
    exact h1.unique ((h2.fun_add h3).congr_of_eventuallyEq h4)

end Polylog
