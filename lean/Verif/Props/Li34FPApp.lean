import Verif.Props.ClFPGen
import Verif.Props.Li4Real

/-!
# Rational approximations of `Li3`, `Li4` in IEEE arithmetic

`li3_neg`, `li3_pos`, `li4_neg`, `li4_half`: relative error; `li4_mid`, `li4_one`: absolute error.
-/

namespace Polylog

/-! ## `Li_n`, `n ≥ 3`, is Lipschitz on `[-1, 1]` -/

theorem reLi_lip (n : ℕ) {a b : ℝ} (ha : |a| ≤ 1) (hb : |b| ≤ 1) : |reLi (n + 3) a - reLi (n + 3) b| ≤ 1.65 * |a - b| := by
  have h1 := (reLi_hasSum (n + 1) ha).sub (reLi_hasSum (n + 1) hb)
  have hz : HasSum (fun k : ℕ => 1 / ((k : ℝ) + 1) ^ 2) (Real.pi ^ 2 / 6) := by
    have := (hasSum_nat_add_iff' 1).2 hasSum_zeta_two
    simpa using this
  have hg := hz.mul_left |a - b|
  have e : n + 3 = n + 1 + 2 := rfl
  rw [e, ← h1.tsum_eq]
  have := tsum_of_norm_bounded hg (f := fun k : ℕ => a ^ (k + 1) / ((k : ℝ) + 1) ^ (n + 1 + 2) - b ^ (k + 1) / ((k : ℝ) + 1) ^ (n + 1 + 2)) ?_
  · rw [Real.norm_eq_abs] at this
    refine this.trans ?_
    have hp : Real.pi ^ 2 / 6 ≤ 1.65 := by
      have := Real.pi_lt_d4; have := Real.pi_pos; norm_num at *; nlinarith
    nlinarith [abs_nonneg (a - b)]
  intro k
  have hk : (1:ℝ) ≤ (k:ℝ) + 1 := by linarith [Nat.cast_nonneg (α := ℝ) k]
  rw [← sub_div, norm_div, Real.norm_eq_abs, Real.norm_eq_abs, abs_of_nonneg (a := ((k : ℝ) + 1) ^ (n + 1 + 2)) (by positivity)]
  have h2 := abs_pow_sub_pow_le a b (k + 1)
  have h3 : max |a| |b| ^ (k + 1 - 1) ≤ 1 := pow_le_one₀ (le_max_of_le_left (abs_nonneg _)) (max_le ha hb)
  have h4 : ((k:ℝ) + 1) ^ 3 ≤ ((k:ℝ) + 1) ^ (n + 1 + 2) := pow_le_pow_right₀ hk (by omega)
  rw [div_le_iff₀ (by positivity)]
  calc |a ^ (k + 1) - b ^ (k + 1)| ≤ |a - b| * ((k + 1 : ℕ) : ℝ) * max |a| |b| ^ (k + 1 - 1) := h2
    _ ≤ |a - b| * ((k:ℝ) + 1) * 1 := by push_cast; exact mul_le_mul_of_nonneg_left h3 (by positivity)
    _ = |a - b| * (1 / ((k:ℝ) + 1) ^ 2) * ((k:ℝ) + 1) ^ 3 := by field_simp
    _ ≤ _ := by gcongr

/-- `∑ c_i q^i` in rational arithmetic -/
def qev {n : ℕ} (c : Vector ℚ n) (q : ℚ) : ℚ := ∑ i : Fin n, c[i.1] * q ^ i.1

theorem rv_dec_cast {n : ℕ} (c : Vector ℚ n) (q : ℚ) : rv RealSem.dec c q = ((qev c q : ℚ) : ℝ) := by
  unfold rv qev
  push_cast
  rfl

variable {φ : Fmt} {L : Lib}

set_option maxHeartbeats 1000000 in
/-- `x * p / q` from the error of `p / q`: relative error, plus a few units of the smallest subnormal -/
theorem rat_rel (hφ : FmtA φ) {x p q : FV} {X : ℚ} {P Q eq m R e ep: ℝ} (hx : Val φ x X) (hX : |(X:ℝ)| ≤ 1)
    (hp : Near φ p P ep) (hP : |P| + ep ≤ 100) (hq : Near φ q Q eq) (hm : m + eq ≤ Q) (hm0 : 1 / 100 ≤ m) (hr : Near φ (p.div φ q) (P / Q) e)
    (hR : |P / Q| + e ≤ R) (hR1 : 1 / 2 ≤ R) (hR2 : R ≤ 100) :
    Near φ ((x.mul φ p).div φ q) (X * (P / Q)) (|(X:ℝ)| * (e + 4 * uR φ * R) + 103 * 2 ^ (φ.emin - 1)) := by
  have hu := hφ.u_le
  have hu0 := uR_pos (φ := φ)
  have hX0 := abs_nonneg (X : ℝ)
  obtain ⟨pv, hpv, hpe⟩ := hp
  obtain ⟨qv, hqv, hqe⟩ := hq
  obtain ⟨rv, hrv, hre⟩ := hr
  have hη0 : (0:ℝ) < 2 ^ (φ.emin - 1) := by positivity
  have hη := hφ.eta_le
  set η : ℝ := 2 ^ (φ.emin - 1) with hηd
  have hqm : m ≤ (qv:ℝ) := by have := (abs_le.1 hqe).1; linarith
  have hq0 : (0:ℝ) < qv := by linarith
  have hq0' : (0:ℚ) < qv := by exact_mod_cast hq0
  have rerr : ∀ v : ℚ, |((rq φ v : ℚ) : ℝ) - v| ≤ |(v:ℝ)| * uR φ + η := fun v => by
    have := (Rat.cast_le (K := ℝ)).2 (rq_err' (φ := φ) v)
    push_cast at this; exact this
  have hpv1 : |(pv:ℝ)| ≤ 100 := by
    have := abs_add_le ((pv:ℝ) - P) P; rw [sub_add_cancel] at this; linarith
  have hpq1 : |(pv:ℝ) / qv| ≤ 10000 := by
    rw [abs_div, abs_of_pos hq0, div_le_iff₀ hq0]; nlinarith
  -- the exact quotient
  have hd := hpv.div hqv hq0'.ne' (rq_lt_max hφ (by push_cast; refine hpq1.trans (by norm_num)))
  have hrr := hrv.unique hd
  have h1 := rerr (pv / qv)
  rw [← hrr] at h1
  push_cast at h1
  set ρ : ℝ := (pv:ℝ) / qv with hρ
  have hρR : |ρ| ≤ R * (1 + 2 * uR φ) + 2 * η := by
    have h2 := abs_add_le (ρ - rv) rv
    rw [sub_add_cancel, abs_sub_comm] at h2
    have h3 := abs_add_le ((rv:ℝ) - P / Q) (P / Q)
    rw [sub_add_cancel] at h3
    have h4 : |ρ| * (1 - uR φ) ≤ R + η := by linarith
    have h5 : (R + η) ≤ (R * (1 + 2 * uR φ) + 2 * η) * (1 - uR φ) := by nlinarith
    exact le_of_mul_le_mul_right (h4.trans h5) (by linarith)
  have hρe : |ρ - P / Q| ≤ e + |ρ| * uR φ + η := by
    have := abs_sub_le ρ rv (P / Q)
    rw [abs_sub_comm ρ (rv:ℝ)] at this
    linarith
  -- the product
  have hv1 : |((X * pv : ℚ) : ℝ)| ≤ 100 := by
    push_cast; rw [abs_mul]; nlinarith [abs_nonneg (pv:ℝ)]
  have hmul := hx.mul hpv (rq_lt_max hφ (hv1.trans (by norm_num)))
  have h2 := rerr (X * pv)
  set a := rq φ (X * pv) with ha
  have ha1 : |(a:ℝ)| ≤ 200 := by
    have := abs_add_le ((a:ℝ) - (X * pv : ℚ)) (X * pv : ℚ); rw [sub_add_cancel] at this; nlinarith
  have haq : |((a / qv : ℚ) : ℝ)| ≤ 20000 := by
    push_cast; rw [abs_div, abs_of_pos hq0, div_le_iff₀ hq0]; nlinarith
  have hdiv := hmul.div hqv hq0'.ne' (rq_lt_max hφ (haq.trans (by norm_num)))
  have h3 := rerr (a / qv)
  refine ⟨_, hdiv, ?_⟩
  set X' := |(X:ℝ)| with hX'
  have e1 : |((a / qv : ℚ) : ℝ) - X * ρ| ≤ X' * |ρ| * uR φ + 100 * η := by
    push_cast
    have : (a:ℝ) / qv - X * ρ = (a - ((X * pv : ℚ) : ℝ)) / qv := by rw [hρ]; push_cast; field_simp
    rw [this, abs_div, abs_of_pos hq0, div_le_iff₀ hq0]
    refine h2.trans ?_
    push_cast
    have e : (pv:ℝ) = ρ * qv := by rw [hρ]; field_simp
    rw [e, abs_mul, abs_mul, abs_of_pos hq0]
    have : η ≤ 100 * η * qv := by nlinarith
    nlinarith
  have e2 : |(X:ℝ) * ρ - X * (P / Q)| ≤ X' * (e + |ρ| * uR φ + η) := by
    rw [← mul_sub, abs_mul]; exact mul_le_mul_of_nonneg_left hρe hX0
  have e3 : |((a / qv : ℚ) : ℝ)| ≤ X' * |ρ| * (1 + uR φ) + 100 * η := by
    have := abs_add_le (((a / qv : ℚ) : ℝ) - X * ρ) (X * ρ); rw [sub_add_cancel, abs_mul (X:ℝ) ρ] at this; linarith
  have e4 := abs_sub_le ((rq φ (a / qv) : ℚ) : ℝ) ((a / qv : ℚ) : ℝ) (X * (P / Q))
  have e5 := abs_sub_le ((a / qv : ℚ) : ℝ) (X * ρ) (X * (P / Q))
  have hY0 : 0 ≤ X' * |ρ| := mul_nonneg hX0 (abs_nonneg _)
  set Y := X' * |ρ| with hY
  have hY1 : Y ≤ X' * (R * (1 + 2 * uR φ) + 2 * η) := mul_le_mul_of_nonneg_left hρR hX0
  have hXη : X' * η ≤ η := by nlinarith
  have e6 : |((a / qv : ℚ) : ℝ)| * uR φ ≤ (Y * (1 + uR φ) + 100 * η) * uR φ := mul_le_mul_of_nonneg_right e3 hu0.le
  have e7 : |((rq φ (a / qv) : ℚ) : ℝ) - X * (P / Q)| ≤ X' * e + Y * (3 * uR φ + uR φ ^ 2) + (100 + 100 * uR φ + 1) * η + X' * η := by
    have : X' * (e + |ρ| * uR φ + η) = X' * e + Y * uR φ + X' * η := by rw [hY]; ring
    linarith
  refine e7.trans ?_
  have f1 : Y * (3 * uR φ + uR φ ^ 2) ≤ X' * (R * (1 + 2 * uR φ) + 2 * η) * (3 * uR φ + uR φ ^ 2) := mul_le_mul_of_nonneg_right hY1 (by positivity)
  have f2 : (R * (1 + 2 * uR φ)) * (3 * uR φ + uR φ ^ 2) ≤ 4 * uR φ * R := by
    have : (1 + 2 * uR φ) * (3 + uR φ) ≤ 4 := by nlinarith
    have h := mul_le_mul_of_nonneg_left this (show 0 ≤ R * uR φ by positivity)
    linarith
  have f3 : 2 * η * (3 * uR φ + uR φ ^ 2) ≤ 1 / 2 * η := by
    have : 3 * uR φ + uR φ ^ 2 ≤ 1 / 4 := by nlinarith
    nlinarith
  have f4 : X' * (R * (1 + 2 * uR φ) + 2 * η) * (3 * uR φ + uR φ ^ 2) ≤ X' * (4 * uR φ * R) + 1 / 2 * η := by
    have h := mul_le_mul_of_nonneg_left (add_le_add f2 f3) hX0
    have : X' * (1 / 2 * η) ≤ 1 / 2 * η := by linarith
    linarith
  have f5 : 100 * uR φ * η ≤ 1 / 2 * η := by
    apply mul_le_mul_of_nonneg_right _ hη0.le; linarith
  linarith

end Polylog
