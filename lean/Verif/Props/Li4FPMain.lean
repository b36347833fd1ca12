import Verif.Props.Li34FPOne

/-!
# C41: `Li4(double)` in IEEE binary64

For every finite argument the computed `Li4(x)` is finite, and its distance from the real part of the tetralogarithm is at most
`1500 u (1 + log^4(1+|x|))`, `u = 2^-53`; for `|x| ≤ 1` the error is relative.
-/

namespace Polylog
set_option linter.style.longLine false

variable {φ : Fmt} {L : Lib}

section
variable {F : Type} [FOps F]
/-- the approximation selected by `li4dFin` -/
def li4app (x : F) : F :=
  if x <. (FOps.lit 0 : F) then li4_neg x
  else if x <. (FOps.lit 0.5 : F) then li4_half x
  else if x <. (FOps.lit 0.8 : F) then li4_mid x
  else li4_one x
theorem li4dFin_eq (x r s : F) : li4dFin x r s = r +. s *. li4app x := rfl
end

set_option maxHeartbeats 1000000 in
/-- error of the selected approximation -/
theorem li4app_near (hL : LogOK binary64 L) (x : FP binary64 L) {q : ℚ} (hx : Val binary64 (ofF x) q) (h0 : -1 ≤ q) (h1 : q < 1) :
    ∃ r : ℚ, Val binary64 (ofF (li4app x)) r ∧ |(r:ℝ) - reLi 4 q| ≤ 1302 * uR binary64 ∧ |(r:ℝ) - reLi 4 q| ≤ 2602 * uR binary64 * |(q:ℝ)| + 2 ^ (-1068 : ℤ) ∧
      (q < 1 / 2 ∨ 0.80001 ≤ (q:ℝ) → |(r:ℝ) - reLi 4 q| ≤ 49 * uR binary64 * |(q:ℝ)| + 2 ^ (-1068 : ℤ)) := by
  have hu : uR binary64 ≤ 1 / 2 ^ 53 := by norm_num [uR, binary64]
  have hu0 := uR_pos (φ := binary64)
  have hη : (0:ℝ) < 2 ^ (-1068 : ℤ) := by positivity
  have hη2 : (2:ℝ) ^ (-1068 : ℤ) ≤ 0.1 * uR binary64 := by
    have : (2:ℝ) ^ (-1068 : ℤ) ≤ 2 ^ (-57 : ℤ) := zpow_le_zpow_right₀ (by norm_num) (by norm_num)
    refine this.trans (by norm_num [uR, binary64])
  have hn := li4neg_near x hx h0
  have hh := li4half_near x hx
  generalize (2:ℝ) ^ (-1068 : ℤ) = η at *
  have h08 : Val binary64 (rndQ binary64 0.8) (rq binary64 0.8) := val_rndQ (rq_lt_max fmtA64 (by norm_num))
  have h8 := abs_le.1 (rq_errR fmtA64 (0.8 : ℚ))
  rw [abs_of_nonneg (by norm_num)] at h8
  have e8 : (((0.8 : ℚ)) : ℝ) = 0.8 := by norm_num
  rw [e8] at h8
  have h8a : 0.79999 ≤ ((rq binary64 0.8 : ℚ) : ℝ) := by have := h8.1; nlinarith
  have h8b : ((rq binary64 0.8 : ℚ) : ℝ) ≤ 0.8000001 := by have := h8.2; nlinarith
  have c1 : (ofF x).lt (rndQ binary64 0) = decide (q < 0) := hx.lt (vl_zero fmtA64)
  have c2 : (ofF x).lt (rndQ binary64 0.5) = decide (q < 1 / 2) := hx.lt (vl_half fmtA64)
  have c3 : (ofF x).lt (rndQ binary64 0.8) = decide (q < rq binary64 0.8) := hx.lt h08
  have h0r : (-1:ℝ) ≤ q := by exact_mod_cast h0
  have h1r : (q:ℝ) < 1 := by exact_mod_cast h1
  have hqa : |(q:ℝ)| ≤ 1 := by rw [abs_le]; constructor <;> linarith
  have hqn := abs_nonneg (q:ℝ)
  have hup : 0 ≤ uR binary64 * |(q:ℝ)| := by positivity
  have hup1 : uR binary64 * |(q:ℝ)| ≤ uR binary64 := by nlinarith
  unfold li4app
  simp only [lt_F, ofF_lit, c1, c2, c3, decide_eq_true_eq]
  split_ifs with k1 k2 k3
  · obtain ⟨r, hr, he⟩ := hn k1.le
    exact ⟨r, hr, by linarith, by linarith, fun _ => by linarith⟩
  · obtain ⟨r, hr, he⟩ := hh (not_lt.1 k1) k2.le
    exact ⟨r, hr, by linarith, by linarith, fun _ => by linarith⟩
  · have h5 : (1/2:ℝ) ≤ q := by have := (Rat.cast_le (K := ℝ)).2 (not_lt.1 k2); push_cast at this; exact this
    have k3' : (q:ℝ) < ((rq binary64 0.8 : ℚ) : ℝ) := by exact_mod_cast k3
    obtain ⟨r, hr, he⟩ := li4mid_near x hx h5 (by linarith)
    refine ⟨r, hr, by linarith, ?_, fun h => ?_⟩
    · rw [abs_of_pos (a := (q:ℝ)) (by linarith)]
      nlinarith
    · rcases h with h | h
      · exact absurd h k2
      · exfalso; linarith
  · have k3' : ((rq binary64 0.8 : ℚ) : ℝ) ≤ q := by exact_mod_cast not_lt.1 k3
    obtain ⟨r, hr, he⟩ := li4one_near hL x hx (by linarith) h1
    have : 21 * uR binary64 ≤ 49 * uR binary64 * |(q:ℝ)| := by
      rw [abs_of_pos (a := (q:ℝ)) (by linarith)]; nlinarith
    exact ⟨r, hr, by linarith, by linarith, fun _ => by linarith⟩

/-- `rest + s * app`, `s = ±1` -/
theorem li4fin_near (hL : LogOK binary64 L) {x r s : FP binary64 L} {q σ : ℚ} {ρ A a y0 d : ℝ} (hx : Val binary64 (ofF x) q) (h0 : -1 ≤ q) (h1 : q < 1)
    (hs : Val binary64 (ofF s) σ) (hσ : σ = 1 ∨ σ = -1) (hr : SN binary64 (ofF r) ρ A a) (hy : |y0| ≤ 1) (hd : |(q:ℝ) - y0| ≤ d) (hd1 : d ≤ 2 * uR binary64) :
    ∃ v : ℚ, Val binary64 (ofF (li4dFin x r s)) v ∧ |(v:ℝ) - (ρ + σ * reLi 4 y0)| ≤ uR binary64 * ((a + 1.01) * A + 1304) + 1.65 * d ∧
      (q < 1 / 2 ∨ 0.80001 ≤ (q:ℝ) → |(v:ℝ) - (ρ + σ * reLi 4 y0)| ≤ uR binary64 * ((a + 1.01) * A + 51) + 1.65 * d) := by
  have hu : uR binary64 ≤ 1 / 2 ^ 53 := by norm_num [uR, binary64]
  have hu0 := uR_pos (φ := binary64)
  have hη2 : (2:ℝ) ^ (-1068 : ℤ) ≤ 0.1 * uR binary64 := by
    have : (2:ℝ) ^ (-1068 : ℤ) ≤ 2 ^ (-57 : ℤ) := zpow_le_zpow_right₀ (by norm_num) (by norm_num)
    refine this.trans (by norm_num [uR, binary64])
  obtain ⟨p, hp, e1, e2, e3⟩ := li4app_near hL x hx h0 h1
  generalize (2:ℝ) ^ (-1068 : ℤ) = η at *
  have hA0 : 0 < A := by linarith [hr.hA]
  have ha := hr.ha
  have ha1 : uR binary64 * a ≤ 1 / 10000 := by
    have := mul_le_mul hu hr.ha2 ha (by norm_num); norm_num at this ⊢; linarith
  have he : uR binary64 * a * A ≤ 1 / 10000 * A := by gcongr
  have hA2 := hr.hA2
  have hle := hr.le
  have hσ' : |σ| = 1 := by rcases hσ with rfl | rfl <;> simp
  have hσr : |(σ:ℝ)| = 1 := by exact_mod_cast hσ'
  have hσp : |σ * p| = |p| := by rw [abs_mul, hσ', one_mul]
  have hrep : rq binary64 (σ * p) = σ * p := rq_repr (by rw [hσp]; exact hp.repr)
  have hm := hs.mul hp (by rw [hrep, hσp]; exact hp.lt_max)
  rw [hrep] at hm
  have h0r : (-1:ℝ) ≤ q := by exact_mod_cast h0
  have h1r : (q:ℝ) < 1 := by exact_mod_cast h1
  have hqa : |(q:ℝ)| ≤ 1 := by rw [abs_le]; constructor <;> linarith
  have hlip := (reLi_lip 1 (a := q) (b := y0) hqa hy).trans (mul_le_mul_of_nonneg_left hd (by norm_num))
  have hsz := reLi_lip 1 (a := y0) (b := 0) hy (by norm_num)
  rw [reLi_zero_right, sub_zero, sub_zero] at hsz
  have hd0 : 0 ≤ d := (abs_nonneg _).trans hd
  have key : ∀ E : ℝ, |(p:ℝ) - reLi 4 q| ≤ E → E ≤ 1302 * uR binary64 →
      Near binary64 (ofF (li4dFin x r s)) (ρ + σ * reLi 4 y0) (uR binary64 * ((a + 1.01) * A + 1.75) + E + 1.65 * d) := by
    intro E hE hE1
    have hn : Near binary64 ((ofF s).mul binary64 (ofF (li4app x))) (σ * reLi 4 y0) (E + 1.65 * d) := by
      refine ⟨_, hm, ?_⟩
      have : ((σ * p : ℚ) : ℝ) - σ * reLi 4 y0 = σ * ((p - reLi 4 q) + (reLi 4 q - reLi 4 y0)) := by push_cast; ring
      rw [this, abs_mul, hσr, one_mul]
      exact (abs_add_le _ _).trans (add_le_add hE hlip)
    have hb : |ρ + σ * reLi 4 y0| ≤ A + 1.65 := by
      refine (abs_add_le _ _).trans (add_le_add hle ?_)
      rw [abs_mul, hσr, one_mul]; refine hsz.trans ?_; linarith
    have hE0 : 0 ≤ E := (abs_nonneg _).trans hE
    have h2 := hr.near.add fmtA64 hn (by norm_num at hA2 hu ⊢; nlinarith)
    refine h2.mono ?_
    have : uR binary64 * (|ρ + σ * reLi 4 y0| + (uR binary64 * a * A + (E + 1.65 * d))) ≤ uR binary64 * (1.01 * A + 1.75) := by
      apply mul_le_mul_of_nonneg_left _ hu0.le
      norm_num at hu hb he ⊢
      nlinarith
    linarith
  have hm1 := hm
  obtain ⟨v, hv, hve⟩ := key _ e1 le_rfl
  refine ⟨v, hv, hve.trans (by linarith), fun h => ?_⟩
  have hqn := abs_nonneg (q:ℝ)
  have h4 := e3 h
  have h5 : uR binary64 * |(q:ℝ)| ≤ uR binary64 := by nlinarith
  obtain ⟨v', hv', hve'⟩ := key (49.1 * uR binary64) (by linarith) (by linarith)
  rw [hv.unique hv']
  exact hve'.trans (by linarith)

/-! ## literals -/

theorem sn_z2 : SN binary64 (rndQ binary64 1.6449340668482264) (Real.pi ^ 2 / 6) 1.645 1.3 := by
  have hz := zlit_err RealSem.dec_lit 0 (by norm_num) 1.6449340668482264 (e := 4.4e-17) (by decide +kernel) (by norm_num)
  rw [show reLi (0 + 2) 1 = Real.pi ^ 2 / 6 from reLi_two_one] at hz
  have h := (near_lit fmtA64 (q := 1.6449340668482264) (by norm_num)).shift hz
  refine ⟨h.mono ?_, ?_, by norm_num, by norm_num, by norm_num, by norm_num⟩
  · norm_num [uR, binary64]
  · have := Real.pi_lt_d4; have := Real.pi_pos
    rw [abs_of_pos (by positivity)]; norm_num at *; nlinarith

theorem sn_z3 : SN binary64 (rndQ binary64 1.2020569031595943) (reLi 3 1) 1.2021 1.3 := by
  have hz := zlit_err RealSem.dec_lit 1 (by norm_num) 1.2020569031595943 (e := 1.5e-17) (by decide +kernel) (by norm_num)
  rw [show reLi (1 + 2) 1 = reLi 3 1 from rfl] at hz
  have h := (near_lit fmtA64 (q := 1.2020569031595943) (by norm_num)).shift hz
  refine ⟨h.mono ?_, ?_, by norm_num, by norm_num, by norm_num, by norm_num⟩
  · norm_num [uR, binary64]
  · rw [abs_le] at hz ⊢
    simp only [RealSem.dec, id] at hz
    norm_num at hz ⊢
    constructor <;> linarith [hz.1, hz.2]

theorem sn_z4 : SN binary64 (rndQ binary64 1.0823232337111382) (reLi 4 1) 1.0824 1.3 := by
  have hz := zlit_err RealSem.dec_lit 2 (by norm_num) 1.0823232337111382 (e := 8.5e-18) (by decide +kernel) (by norm_num)
  rw [show reLi (2 + 2) 1 = reLi 4 1 from rfl] at hz
  have h := (near_lit fmtA64 (q := 1.0823232337111382) (by norm_num)).shift hz
  refine ⟨h.mono ?_, ?_, by norm_num, by norm_num, by norm_num, by norm_num⟩
  · norm_num [uR, binary64]
  · rw [abs_le] at hz ⊢
    simp only [RealSem.dec, id] at hz
    norm_num at hz ⊢
    constructor <;> linarith [hz.1, hz.2]

/-- unit roundoff as a rational -/
def uQ (φ : Fmt) : ℚ := 2 ^ (-(φ.p : ℤ))

/-- a number of the format above 1 is at least `1 + 2u` -/
theorem Val.one_add_le {x : FV} {q : ℚ} (h : Val φ x q) (hq : 1 < q) : 1 + 2 * uR φ ≤ (q : ℝ) := by
  obtain ⟨m, e, he, hm, hq'⟩ := h.repr
  rw [abs_of_pos (by linarith)] at hq'
  have hqr : (q : ℝ) = m * 2 ^ e := by rw [hq']; push_cast; ring
  have hq1 : (1:ℝ) < q := by exact_mod_cast hq
  have hm1 : (m : ℝ) < 2 ^ φ.p := by exact_mod_cast hm
  have hmp : (0:ℝ) ≤ m := Nat.cast_nonneg m
  have he' : -(φ.p:ℤ) < e := by
    by_contra hc
    have h2 : (2:ℝ) ^ e ≤ 2 ^ (-(φ.p:ℤ)) := zpow_le_zpow_right₀ (by norm_num) (by omega)
    have h3 : (2:ℝ) ^ φ.p * 2 ^ (-(φ.p:ℤ)) = 1 := by rw [← zpow_natCast, ← zpow_add₀ (by norm_num)]; simp
    have h4 : (m:ℝ) * 2 ^ e ≤ 2 ^ φ.p * 2 ^ (-(φ.p:ℤ)) := by gcongr
    linarith
  obtain ⟨k, hk⟩ : ∃ k : ℕ, e = -(φ.p:ℤ) + 1 + k := ⟨(e + φ.p - 1).toNat, by omega⟩
  have h2u : (2:ℝ) ^ (-(φ.p:ℤ) + 1) = 2 * uR φ := by rw [zpow_add₀ (by norm_num)]; unfold uR; ring
  have h3 : (q:ℝ) = (m * 2 ^ k : ℕ) * (2 * uR φ) := by
    rw [hqr, hk, zpow_add₀ (by norm_num), h2u]; push_cast; rw [zpow_natCast]; ring
  have hu0 := uR_pos (φ := φ)
  have hp1 : 1 ≤ φ.p := by
    rcases Nat.eq_zero_or_pos φ.p with h0 | h0
    · rw [h0] at hm1; have hm0 : m = 0 := by rw [h0] at hm; omega
      rw [hqr, hm0] at hq1; norm_num at hq1
    · exact h0
  have h4 : ((2 ^ (φ.p - 1) : ℕ) : ℝ) * (2 * uR φ) = 1 := by
    rw [← h2u]; push_cast
    rw [← zpow_natCast, ← zpow_add₀ (by norm_num)]
    rw [show (((φ.p - 1 : ℕ) : ℤ)) + (-(φ.p:ℤ) + 1) = 0 by omega]; simp
  have h5 : ((2 ^ (φ.p - 1) : ℕ) : ℝ) < (m * 2 ^ k : ℕ) := by
    by_contra hc
    have := mul_le_mul_of_nonneg_right (not_lt.1 hc) (show 0 ≤ 2 * uR φ by positivity)
    rw [h4, ← h3] at this; linarith
  have h6 : ((2 ^ (φ.p - 1) + 1 : ℕ) : ℝ) ≤ (m * 2 ^ k : ℕ) := by exact_mod_cast (by exact_mod_cast h5 : 2 ^ (φ.p - 1) < m * 2 ^ k)
  have h7 := mul_le_mul_of_nonneg_right h6 (show 0 ≤ 2 * uR φ by positivity)
  rw [← h3] at h7
  push_cast at h7 h4
  linarith

/-- `1 / x` for `|x| > 1` -/
theorem inv_val (hφ : FmtA φ) {x : FV} {q : ℚ} (hx : Val φ x q) (hq : 1 < |q|) :
    Val φ ((rndQ φ 1).div φ x) (rq φ (1 / q)) ∧ |((rq φ (1 / q) : ℚ) : ℝ) - (q:ℝ)⁻¹| ≤ 1.01 * uR φ ∧ |rq φ (1 / q)| ≤ 1 ∧ (0 < q → rq φ (1 / q) < 1) ∧
      |(q:ℝ)⁻¹| ≤ 1 := by
  have hu := hφ.u_le
  have hu0 := uR_pos (φ := φ)
  have hq0 : q ≠ 0 := by rintro rfl; norm_num at hq
  have hi : |1 / q| ≤ 1 := by rw [abs_div, abs_one, div_le_one (by linarith)]; exact hq.le
  have hir : |(q:ℝ)⁻¹| ≤ 1 := by rw [one_div] at hi; exact_mod_cast hi
  have hle : |rq φ (1 / q)| ≤ 1 := abs_rq_le (by have := (vl_one hφ).repr; rwa [abs_one] at this) hi
  refine ⟨(vl_one hφ).div hx hq0 (rq_lt_max hφ ?_), ?_, hle, ?_, hir⟩
  · push_cast; rw [one_div]; exact hir.trans (by norm_num)
  · have := rq_errR hφ (1 / q)
    push_cast at this
    rw [one_div (q:ℝ)] at this
    refine this.trans ?_
    nlinarith
  · intro h
    rw [abs_of_pos h] at hq
    have h2 := hx.one_add_le hq
    have h3 : 1 / q ≤ 1 - uQ φ := by
      rw [div_le_iff₀ h]
      have hu' : (uQ φ : ℝ) = uR φ := by unfold uQ uR; push_cast; rfl
      have : (1:ℝ) ≤ (1 - uR φ) * q := by nlinarith
      rw [← hu'] at this
      exact_mod_cast this
    have h4 : rq φ (1 - uQ φ) = 1 - uQ φ := by
      refine rq_repr ?_
      have h5 : 0 < uQ φ ∧ uQ φ ≤ 1 := by
        unfold uQ; exact ⟨by positivity, zpow_le_one_of_nonpos₀ (by norm_num) (by omega)⟩
      rw [abs_of_nonneg (by linarith)]
      refine ⟨2 ^ φ.p - 1, -(φ.p:ℤ), by have := hφ.hmin; omega, Nat.sub_lt (by positivity) one_pos, ?_⟩
      rw [Nat.cast_sub Nat.one_le_two_pow]
      push_cast
      rw [sub_mul, ← zpow_natCast (2:ℚ), ← zpow_add₀ (by norm_num)]
      simp [uQ]
    have h5 := rq_mono (φ := φ) h3
    rw [h4] at h5
    have : 0 < uQ φ := by unfold uQ; positivity
    linarith

/-- bound on the logarithm by `M = 1 + log(1+|x|)` -/
theorem log_abs_le_lam {q : ℝ} (hq : 1 < |q|) : 0 ≤ Real.log |q| ∧ Real.log |q| ≤ 1 + Real.log (1 + |q|) := by
  refine ⟨Real.log_nonneg hq.le, ?_⟩
  have := Real.log_le_log (x := |q|) (y := 1 + |q|) (by linarith) (by linarith)
  linarith

theorem lam64_le {x : FV} {q : ℚ} (hx : Val binary64 x q) : 0 ≤ Real.log (1 + |(q:ℝ)|) ∧ Real.log (1 + |(q:ℝ)|) ≤ 711 := by
  refine ⟨Real.log_nonneg (by linarith [abs_nonneg (q:ℝ)]), ?_⟩
  have h1 : |(q:ℝ)| ≤ (2:ℝ) ^ (1024:ℕ) := by
    have h2 := (Rat.cast_le (K := ℝ)).2 hx.lt_max.le
    rw [Rat.cast_abs] at h2
    refine h2.trans (le_of_eq ?_)
    rw [show binary64.emax = ((1024:ℕ):ℤ) from rfl, zpow_natCast, Rat.cast_pow, Rat.cast_ofNat]
  have h3 : (1:ℝ) + |(q:ℝ)| ≤ 2 ^ (1025:ℕ) := by
    have : (1:ℝ) ≤ 2 ^ (1024:ℕ) := one_le_pow₀ (by norm_num)
    rw [pow_succ]
    generalize (2:ℝ) ^ (1024:ℕ) = B at *
    linarith
  have h4 := Real.log_le_log (by linarith [abs_nonneg (q:ℝ)]) h3
  rw [Real.log_pow] at h4
  have := Real.log_two_lt_d9
  push_cast at h4
  linarith

set_option maxHeartbeats 1000000 in
/-- `c4 + l² (c2 - l²/24)`: the polynomial in the logarithm -/
theorem li4rest_sn {l l2 k4 k2 : FV} {lr c4 c2 M : ℝ} (hl : SN binary64 l lr M 2.01) (hM : 1 ≤ M) (hM2 : M ≤ 712)
    (h4 : SN binary64 k4 c4 2.17 3) (h2 : SN binary64 k2 c2 1.645 3) (hl2 : l2 = l.mul binary64 l) :
    SN binary64 (k4.add binary64 (l2.mul binary64 (k2.add binary64 (((rndQ binary64 1).div binary64 (rndQ binary64 24)).mul binary64 l2).neg)))
      (c4 + lr * lr * (c2 - 1 / 24 * (lr * lr))) (2.17 + M * M * (1.645 + 1 / 24 * (M * M))) 15.2 := by
  have hM0 : 0 < M := by linarith
  have hMM : 1 ≤ M * M := by nlinarith
  have hMM2 : M * M ≤ 712 * 712 := by gcongr
  have s1 := (hl.mul fmtA64 hl (by linarith) (by norm_num at hMM2 ⊢; linarith)).mono (A' := M * M) (a' := 5.03) le_rfl (by norm_num) (by norm_num at hMM2 ⊢; linarith)
  rw [← hl2] at s1
  have c24 : SN binary64 ((rndQ binary64 1).div binary64 (rndQ binary64 24)) (1 / 24) (1 / 24) 1.01 := by
    have h1 : SN binary64 (rndQ binary64 1) ((1:ℚ):ℝ) 1 0 := (vl_one fmtA64).sn (by norm_num) (by norm_num) (by norm_num)
    have := (h1.divc fmtA64 (vl_nat fmtA64 24 (by norm_num)) (by norm_num) (by norm_num)).mono (A' := 1 / 24) (a' := 1.01) (by norm_num) (by norm_num)
    push_cast at this; exact this
  have s2 := (c24.mul fmtA64 s1 (by linarith) (by norm_num at hMM2 ⊢; linarith)).mono (A' := 1 / 24 * (M * M)) (a' := 7.05) le_rfl (by norm_num) (by norm_num at hMM2 ⊢; linarith)
  have s3 := (h2.sub fmtA64 s2 (m := 7.05) (by norm_num at hMM2 ⊢; linarith) (by norm_num) le_rfl).mono (A' := 1.645 + 1 / 24 * (M * M)) (a' := 8.06) le_rfl (by norm_num) (by norm_num at hMM2 ⊢; linarith)
  have hB : M * M * (1.645 + 1 / 24 * (M * M)) ≤ 2 ^ 39 := by
    have : M * M * (1.645 + 1 / 24 * (M * M)) ≤ 712 * 712 * (1.645 + 1 / 24 * (712 * 712)) := by gcongr
    refine this.trans (by norm_num)
  have s4 := (s1.mul fmtA64 s3 (by nlinarith) (by norm_num at hB ⊢; linarith)).mono (A' := M * M * (1.645 + 1 / 24 * (M * M))) (a' := 14.12) le_rfl (by norm_num) (by norm_num at hB ⊢; linarith)
  exact (h4.add fmtA64 s4 (m := 14.12) (by norm_num at hB ⊢; linarith) (by norm_num) le_rfl).mono le_rfl (by norm_num) (by norm_num at hB ⊢; linarith)

/-- size of the polynomial in the logarithm -/
theorem li4_poly {t : ℝ} (ht : 0 ≤ t) {A : ℝ} (hA : A = 2.17 + (1 + t) * (1 + t) * (1.645 + 1 / 24 * ((1 + t) * (1 + t)))) : 16.21 * A ≤ 130 + 35 * t ^ 4 := by
  have h2 : (1 + t) * (1 + t) ≤ 2 + 2 * t ^ 2 := by nlinarith [sq_nonneg (1 - t)]
  have h3 : t ^ 2 ≤ 1 / 2 + 1 / 2 * t ^ 4 := by nlinarith [sq_nonneg (1 - t ^ 2)]
  have h4 : (1 + t) * (1 + t) * ((1 + t) * (1 + t)) ≤ (2 + 2 * t ^ 2) * (2 + 2 * t ^ 2) := by
    have := sq_nonneg (1 + t); gcongr
  have h5 : (2 + 2 * t ^ 2) * (2 + 2 * t ^ 2) ≤ 8 + 8 * t ^ 4 := by nlinarith
  rw [hA]; nlinarith

set_option maxHeartbeats 1000000 in
theorem li4_far (hL : LogOK binary64 L) (x : FP binary64 L) {q : ℚ} (hx : Val binary64 (ofF x) q) (hq : q < -1) :
    ∃ v : ℚ, Val binary64 (ofF (let l := (xlog (∸x))
      let l2 := l *. l
      li4dFin ((FOps.lit 1 : FP binary64 L) /. x) (∸(FOps.lit 7 : FP binary64 L) /. (FOps.lit 4 : FP binary64 L) *. (FOps.lit 1.0823232337111382 : FP binary64 L)
        +. l2 *. (∸(FOps.lit 0.5 : FP binary64 L) *. (FOps.lit 1.6449340668482264 : FP binary64 L) -. (FOps.lit 1 : FP binary64 L) /. (FOps.lit 24 : FP binary64 L) *. l2)) ∸(FOps.lit 1 : FP binary64 L))) v ∧
      |(v:ℝ) - reLi 4 q| ≤ uR binary64 * (190 + 35 * Real.log (1 + |(q:ℝ)|) ^ 4) := by
  have hu0 := uR_pos (φ := binary64)
  have hq' : (q:ℝ) < -1 := by exact_mod_cast hq
  have hqa : 1 < |q| := by rw [abs_of_neg (by linarith)]; linarith
  have hqar : 1 < |(q:ℝ)| := by rw [abs_of_neg (by linarith)]; linarith
  obtain ⟨hy, hye, hy1, _, hyi⟩ := inv_val fmtA64 hx hqa
  obtain ⟨hΛ0, hΛ1⟩ := lam64_le hx
  obtain ⟨hl0, hl1⟩ := log_abs_le_lam hqar
  have hla : Real.log |(q:ℝ)| = Real.log (-q) := by rw [abs_of_neg (by linarith)]
  rw [hla] at hl0 hl1
  set Λ := Real.log (1 + |(q:ℝ)|) with hΛ
  have hl : SN binary64 (L.log (ofF x).neg) (Real.log (-q)) (1 + Λ) 2.01 := by
    have := sn_log fmtA64 hL hx.neg (by linarith) (M := 1 + Λ) (by push_cast; rw [abs_of_nonneg hl0]; exact hl1) (by linarith) (by norm_num; linarith)
    push_cast at this; exact this
  have k4 : SN binary64 (((rndQ binary64 7).neg.div binary64 (rndQ binary64 4)).mul binary64 (rndQ binary64 1.0823232337111382)) (-(7 / 4) * reLi 4 1) 2.17 3 := by
    have h7 : SN binary64 (rndQ binary64 7).neg (((-7:ℚ)):ℝ) 7 0 := (vl_nat fmtA64 7 (by norm_num)).neg.sn (by norm_num [abs_of_pos]) (by norm_num) (by norm_num)
    have h74 : Val binary64 ((rndQ binary64 7).neg.div binary64 (rndQ binary64 4)) (-7 / 4) := by
      have h := (vl_nat fmtA64 7 (by norm_num)).neg.div (vl_nat fmtA64 4 (by norm_num)) (by norm_num) (rq_lt_max fmtA64 (by norm_num [abs_of_pos]))
      push_cast at h
      rwa [rq_repr (q := (-7 / 4 : ℚ)) (near_dy fmtA64 (q := -7 / 4) (-7) 2 (by norm_num) (by norm_num) (by norm_num)).repr] at h
    have h1 : SN binary64 ((rndQ binary64 7).neg.div binary64 (rndQ binary64 4)) ((-7 / 4 : ℚ) : ℝ) 1.75 0 := h74.sn (by norm_num [abs_of_pos]) (by norm_num) (by norm_num)
    have h2 := (h1.mul fmtA64 sn_z4 (by norm_num) (by norm_num)).mono (A' := 2.17) (a' := 3) (by norm_num) (by norm_num)
    have e : (((-7 / 4 : ℚ)) : ℝ) = -(7 / 4) := by norm_num
    rwa [e] at h2
  have k2 : SN binary64 ((rndQ binary64 0.5).neg.mul binary64 (rndQ binary64 1.6449340668482264)) (-(1 / 2) * (Real.pi ^ 2 / 6)) 1.645 3 := by
    have h1 : SN binary64 (rndQ binary64 0.5).neg ((-(1 / 2) : ℚ) : ℝ) 1 0 := (vl_half fmtA64).neg.sn (by norm_num [abs_of_pos]) (by norm_num) (by norm_num)
    have h2 := (h1.mul fmtA64 sn_z2 (by norm_num) (by norm_num)).mono (A' := 1.645) (a' := 3) (by norm_num) (by norm_num)
    have e : (((-(1 / 2) : ℚ)) : ℝ) = -(1 / 2) := by norm_num
    rwa [e] at h2
  have hrest := li4rest_sn hl (by linarith) (by linarith) k4 k2 rfl
  have hyneg : rq binary64 (1 / q) ≤ 0 := by
    have : 1 / q ≤ 0 := by apply div_nonpos_of_nonneg_of_nonpos <;> linarith
    have h := rq_mono (φ := binary64) this
    rwa [rq_zero] at h
  obtain ⟨v, hv, -, hve⟩ := li4fin_near hL (x := (FOps.lit 1 : FP binary64 L) /. x) (s := ∸(FOps.lit 1 : FP binary64 L)) (σ := -1) (r := ∸(FOps.lit 7 : FP binary64 L) /. (FOps.lit 4 : FP binary64 L) *. (FOps.lit 1.0823232337111382 : FP binary64 L)
        +. (xlog (∸x)) *. (xlog (∸x)) *. (∸(FOps.lit 0.5 : FP binary64 L) *. (FOps.lit 1.6449340668482264 : FP binary64 L) -. (FOps.lit 1 : FP binary64 L) /. (FOps.lit 24 : FP binary64 L) *. ((xlog (∸x)) *. (xlog (∸x)))))
    hy (abs_le.1 hy1).1 (by linarith) (vl_one fmtA64).neg (Or.inr rfl) hrest hyi hye (by linarith)
  refine ⟨v, hv, ?_⟩
  have hve' := hve (Or.inl (by linarith))
  have hI := reLi_four_inv_neg (x := (q:ℝ)) (by linarith)
  have h41 := reLi_22_one
  norm_num only [Nat.reduceAdd] at h41
  have e : -(7 / 4) * reLi 4 1 + Real.log (-(q:ℝ)) * Real.log (-q) * (-(1 / 2) * (Real.pi ^ 2 / 6) - 1 / 24 * (Real.log (-q) * Real.log (-q))) + ((-1:ℚ):ℝ) * reLi 4 (q:ℝ)⁻¹ = reLi 4 q := by
    rw [hI, h41]; push_cast; ring
  rw [e] at hve'
  refine hve'.trans ?_
  have hp := li4_poly hΛ0 rfl
  have := mul_le_mul_of_nonneg_left hp hu0.le
  linarith

set_option maxHeartbeats 1000000 in
theorem li4_far' (hL : LogOK binary64 L) (x : FP binary64 L) {q : ℚ} (hx : Val binary64 (ofF x) q) (hq : 1 < q) :
    ∃ v : ℚ, Val binary64 (ofF (let l := (xlog x)
      let l2 := l *. l
      li4dFin ((FOps.lit 1 : FP binary64 L) /. x) ((FOps.lit 2 : FP binary64 L) *. (FOps.lit 1.0823232337111382 : FP binary64 L)
        +. l2 *. ((FOps.lit 1.6449340668482264 : FP binary64 L) -. (FOps.lit 1 : FP binary64 L) /. (FOps.lit 24 : FP binary64 L) *. l2)) ∸(FOps.lit 1 : FP binary64 L))) v ∧
      |(v:ℝ) - reLi 4 q| ≤ uR binary64 * (1440 + 35 * Real.log (1 + |(q:ℝ)|) ^ 4) ∧
      ((q:ℝ) ≤ 1.2499 ∨ 2.0001 ≤ (q:ℝ) → |(v:ℝ) - reLi 4 q| ≤ uR binary64 * (190 + 35 * Real.log (1 + |(q:ℝ)|) ^ 4)) := by
  have hu0 := uR_pos (φ := binary64)
  have hu : uR binary64 ≤ 1 / 2 ^ 53 := by norm_num [uR, binary64]
  have hq' : 1 < (q:ℝ) := by exact_mod_cast hq
  have hqa : 1 < |q| := by rw [abs_of_pos (by linarith)]; linarith
  have hqar : 1 < |(q:ℝ)| := by rw [abs_of_pos (by linarith)]; linarith
  obtain ⟨hy, hye, hy1, hylt, hyi⟩ := inv_val fmtA64 hx hqa
  obtain ⟨hΛ0, hΛ1⟩ := lam64_le hx
  obtain ⟨hl0, hl1⟩ := log_abs_le_lam hqar
  have hla : Real.log |(q:ℝ)| = Real.log q := by rw [abs_of_pos (by linarith)]
  rw [hla] at hl0 hl1
  set Λ := Real.log (1 + |(q:ℝ)|) with hΛ
  have hl : SN binary64 (L.log (ofF x)) (Real.log q) (1 + Λ) 2.01 := by
    have := sn_log fmtA64 hL hx (by linarith) (M := 1 + Λ) (by push_cast; rw [abs_of_nonneg hl0]; exact hl1) (by linarith) (by norm_num; linarith)
    push_cast at this; exact this
  have k4 : SN binary64 ((rndQ binary64 2).mul binary64 (rndQ binary64 1.0823232337111382)) (2 * reLi 4 1) 2.17 3 := by
    have h1 : SN binary64 (rndQ binary64 2) ((2:ℕ):ℝ) 2 0 := by
      have := (vl_nat fmtA64 2 (by norm_num)).sn (A := 2) (by norm_num) (by norm_num) (by norm_num)
      push_cast at this ⊢; exact this
    have h2 := (h1.mul fmtA64 sn_z4 (by norm_num) (by norm_num)).mono (A' := 2.17) (a' := 3) (by norm_num) (by norm_num)
    push_cast at h2; exact h2
  have hrest := li4rest_sn hl (by linarith) (by linarith) k4 (sn_z2.mono (a' := 3) le_rfl (by norm_num)) rfl
  have hypos : 0 ≤ rq binary64 (1 / q) := rq_nonneg (by apply div_nonneg <;> linarith)
  obtain ⟨v, hv, hve0, hve⟩ := li4fin_near hL (x := (FOps.lit 1 : FP binary64 L) /. x) (s := ∸(FOps.lit 1 : FP binary64 L)) (σ := -1) (r := (FOps.lit 2 : FP binary64 L) *. (FOps.lit 1.0823232337111382 : FP binary64 L)
        +. (xlog x) *. (xlog x) *. ((FOps.lit 1.6449340668482264 : FP binary64 L) -. (FOps.lit 1 : FP binary64 L) /. (FOps.lit 24 : FP binary64 L) *. ((xlog x) *. (xlog x))))
    hy (abs_le.1 hy1).1 (hylt (by linarith)) (vl_one fmtA64).neg (Or.inr rfl) hrest hyi hye (by linarith)
  have hI := reLi_four_inv (x := (q:ℝ)) (by linarith)
  have h41 := reLi_22_one
  norm_num only [Nat.reduceAdd] at h41
  have e : 2 * reLi 4 1 + Real.log (q:ℝ) * Real.log q * (Real.pi ^ 2 / 6 - 1 / 24 * (Real.log q * Real.log q)) + ((-1:ℚ):ℝ) * reLi 4 (q:ℝ)⁻¹ = reLi 4 q := by
    rw [hI, h41]; push_cast; ring
  rw [e] at hve hve0
  have hp := li4_poly hΛ0 rfl
  have hp' := mul_le_mul_of_nonneg_left hp hu0.le
  refine ⟨v, hv, hve0.trans (by linarith), fun h => (hve ?_).trans (by linarith)⟩
  have h3 := abs_le.1 hye
  rcases h with h | h
  · right
    have : (0.80005:ℝ) ≤ (q:ℝ)⁻¹ := by
      rw [le_inv_comm₀ (by norm_num) (by linarith)]; refine h.trans (by norm_num)
    norm_num at hu h3 this ⊢
    linarith [h3.1]
  · left
    have : (q:ℝ)⁻¹ ≤ 0.49999 := by
      rw [inv_le_comm₀ (by linarith) (by norm_num)]; refine le_trans (by norm_num) h
    have h4 : ((rq binary64 (1 / q) : ℚ) : ℝ) < ((1 / 2 : ℚ) : ℝ) := by
      norm_num at hu h3 this ⊢
      linarith [h3.2]
    exact_mod_cast h4

/-- **C41**, `double Li4(double)`: for every finite `x`, `Li4(x)` is finite and within `1500 u (1 + log⁴(1+|x|))` of `Re Li4(x)`, `u = 2^-53`; for `|x| ≤ 1` the error is relative
(up to underflow); away from `[1/2, 0.8]` and its inverse (`li4_mid`) the constants are `190` and `50`. -/
theorem C41_Li4d (hL : LogOK binary64 L) (x : FP binary64 L) {q : ℚ} (hx : Val binary64 (ofF x) q) :
    ∃ r : ℚ, Val binary64 (ofF (Li4d x)) r ∧
      |(r : ℝ) - (pLi 4 (q : ℂ)).re| ≤ 1500 * 2 ^ (-53 : ℤ) * (1 + Real.log (1 + |(q : ℝ)|) ^ 4) ∧
      (|(q:ℝ)| ≤ 1 → |(r : ℝ) - (pLi 4 (q : ℂ)).re| ≤ 2602 * 2 ^ (-53 : ℤ) * |(q : ℝ)| + 2 ^ (-1068 : ℤ)) ∧
      ((q : ℝ) < 1 / 2 ∨ 0.80001 ≤ (q:ℝ) ∧ (q:ℝ) ≤ 1.2499 ∨ 2.0001 ≤ (q:ℝ) →
        |(r : ℝ) - (pLi 4 (q : ℂ)).re| ≤ 190 * 2 ^ (-53 : ℤ) * (1 + Real.log (1 + |(q : ℝ)|) ^ 4) ∧
        (|(q:ℝ)| ≤ 1 → |(r : ℝ) - (pLi 4 (q : ℂ)).re| ≤ 50 * 2 ^ (-53 : ℤ) * |(q : ℝ)| + 2 ^ (-1068 : ℤ))) := by
  have e2 : (pLi 4 (q : ℂ)).re = reLi 4 (q : ℝ) := by simp [reLi]
  rw [e2, show (2:ℝ) ^ (-53:ℤ) = uR binary64 from rfl]
  have hu : uR binary64 ≤ 1 / 2 ^ 53 := by norm_num [uR, binary64]
  have hu0 := uR_pos (φ := binary64)
  have hη : (0:ℝ) < 2 ^ (-1068 : ℤ) := by positivity
  have hη2 : (2:ℝ) ^ (-1068 : ℤ) ≤ 0.1 * uR binary64 := by
    have : (2:ℝ) ^ (-1068 : ℤ) ≤ 2 ^ (-57 : ℤ) := zpow_le_zpow_right₀ (by norm_num) (by norm_num)
    refine this.trans (by norm_num [uR, binary64])
  have happ := fun h0 h1 => li4app_near hL x hx h0 h1
  generalize (2:ℝ) ^ (-1068 : ℤ) = η at *
  have hT0 : 0 ≤ Real.log (1 + |(q:ℝ)|) ^ 4 := by positivity
  have hf1 := fun h => li4_far hL x hx h
  have hf2 := fun h => li4_far' hL x hx h
  generalize Real.log (1 + |(q:ℝ)|) ^ 4 = T at *
  have hp : 0 ≤ uR binary64 * T := by positivity
  have h1 := vl_one fmtA64
  have e0 : (ofF x).lt (rndQ binary64 1).neg = decide (q < -1) := hx.lt h1.neg
  have e1 : (ofF x).eq (rndQ binary64 1).neg = decide (q = -1) := hx.eq h1.neg
  have e3 : (ofF x).eq (rndQ binary64 0) = decide (q = 0) := hx.eq (vl_zero fmtA64)
  have e5 : (ofF x).lt (rndQ binary64 1) = decide (q < 1) := hx.lt h1
  have e6 : (ofF x).eq (rndQ binary64 1) = decide (q = 1) := hx.eq h1
  unfold Li4d
  simp only [lt_F, eq_F, ofF_neg, ofF_lit, e0, e1, e3, e5, e6, decide_eq_true_eq]
  split_ifs with h1 h2 h3 h4 h5
  · obtain ⟨v, hv, he⟩ := hf1 h1
    have hq : (q:ℝ) < -1 := by exact_mod_cast h1
    have habs : ¬ |(q:ℝ)| ≤ 1 := by rw [abs_of_neg (by linarith)]; linarith
    exact ⟨v, hv, by linarith, fun h => absurd h habs, fun _ => ⟨by linarith, fun h => absurd h habs⟩⟩
  · subst h2
    have h78 : Val binary64 ((rndQ binary64 7).neg.div binary64 (rndQ binary64 8)) (-7 / 8) := by
      have h := (vl_nat fmtA64 7 (by norm_num)).neg.div (vl_nat fmtA64 8 (by norm_num)) (by norm_num) (rq_lt_max fmtA64 (by norm_num [abs_of_pos]))
      push_cast at h
      rwa [rq_repr (q := (-7 / 8 : ℚ)) (near_dy fmtA64 (q := -7 / 8) (-7) 3 (by norm_num) (by norm_num) (by norm_num)).repr] at h
    have h1 : SN binary64 ((rndQ binary64 7).neg.div binary64 (rndQ binary64 8)) ((-7 / 8 : ℚ) : ℝ) 0.875 0 := h78.sn (by norm_num [abs_of_pos]) (by norm_num) (by norm_num)
    have h2 := (h1.mul fmtA64 sn_z4 (by norm_num) (by norm_num)).mono (A' := 1) (a' := 3) (by norm_num) (by norm_num)
    have hm := reLi_neg_one_eq 2
    norm_num at hm
    have e : (((-7 / 8 : ℚ)) : ℝ) * reLi 4 1 = reLi 4 ((-1:ℚ):ℝ) := by push_cast; rw [hm]; ring
    rw [e] at h2
    obtain ⟨v, hv, he⟩ := h2.near
    have ha : |((-1:ℚ):ℝ)| = 1 := by norm_num
    rw [ha]
    exact ⟨v, hv, by linarith, fun _ => by linarith, fun _ => ⟨by linarith, fun _ => by linarith⟩⟩
  · subst h3
    refine ⟨0, hx, ?_⟩
    have e : ((0:ℚ):ℝ) = 0 := Rat.cast_zero
    rw [e, reLi_zero_right, sub_zero, abs_zero, mul_zero, mul_zero]
    exact ⟨by positivity, fun _ => by positivity, fun _ => ⟨by positivity, fun _ => by positivity⟩⟩
  · have hm1 : -1 ≤ q := not_lt.1 h1
    obtain ⟨p, hp, f1, f2, f3⟩ := happ hm1 h4
    have hv : Val binary64 (ofF (li4dFin x (FOps.lit 0) (FOps.lit 1))) p := by
      have r1 : rq binary64 (1 * p) = p := by rw [one_mul]; exact rq_repr hp.repr
      have m1 := (vl_one fmtA64).mul hp (by rw [r1]; exact hp.lt_max)
      rw [r1] at m1
      have r2 : rq binary64 (0 + p) = p := by rw [zero_add]; exact rq_repr hp.repr
      have m2 := (vl_zero fmtA64).add m1 (by rw [r2]; exact hp.lt_max)
      rw [r2] at m2
      exact m2
    refine ⟨p, hv, by linarith, fun _ => by linarith, fun h => ?_⟩
    have hq : (q:ℝ) < 1 := by exact_mod_cast h4
    have f4 := f3 (by
      rcases h with h | h | h
      · left
        have : (q:ℝ) < ((1 / 2 : ℚ) : ℝ) := by norm_num at h ⊢; exact h
        exact_mod_cast this
      · exact Or.inr h.1
      · linarith)
    have hqa : |(q:ℝ)| ≤ 1 := by
      rw [abs_le]; exact ⟨by exact_mod_cast hm1, hq.le⟩
    have : uR binary64 * |(q:ℝ)| ≤ uR binary64 := by nlinarith [abs_nonneg (q:ℝ)]
    have : 0 ≤ uR binary64 * |(q:ℝ)| := by positivity
    exact ⟨by linarith, fun _ => by linarith⟩
  · subst h5
    obtain ⟨v, hv, he⟩ := sn_z4.near
    have ha : |((1:ℚ):ℝ)| = 1 := by norm_num
    have ha' : ((1:ℚ):ℝ) = 1 := by norm_num
    rw [ha, ha']
    have : |(v:ℝ) - reLi 4 1| ≤ 2 * uR binary64 := he.trans (by linarith)
    exact ⟨v, hv, by linarith, fun _ => by linarith, fun _ => ⟨by linarith, fun _ => by linarith⟩⟩
  · have h6 : 1 < q := lt_of_le_of_ne (not_lt.1 h4) (Ne.symm h5)
    obtain ⟨v, hv, he, he'⟩ := hf2 h6
    have hq : 1 < (q:ℝ) := by exact_mod_cast h6
    have habs : ¬ |(q:ℝ)| ≤ 1 := by rw [abs_of_pos (by linarith)]; linarith
    refine ⟨v, hv, by linarith, fun h => absurd h habs, fun h => ⟨?_, fun h => absurd h habs⟩⟩
    have := he' (by
      rcases h with h | h | h
      · exact absurd h (by linarith)
      · exact Or.inl h.2
      · exact Or.inr h)
    linarith

end Polylog
