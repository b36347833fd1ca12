import Verif.Props.Li2Real
import Verif.Sem.FPNear
import Verif.Sem.IEEELemmas
import Mathlib.Analysis.Complex.ExponentialBounds

/-!
# C35: rounding errors of the real dilogarithm

The IEEE semantics of `Li2f`, `Li2d`, `Li2l`: for every finite argument the result is finite and within a few dozen units
`u (1 + log²(1+|x|))` of `Re Li2(x)`.
-/

namespace Polylog

/-! ## `Li_n` is Lipschitz on `[-1/2, 1/2]` -/

theorem reLi_lipschitz (n : ℕ) {a b : ℝ} (ha : |a| ≤ 1 / 2) (hb : |b| ≤ 1 / 2) : |reLi (n + 2) a - reLi (n + 2) b| ≤ 2 * |a - b| := by
  have h1 := (reLi_hasSum n (x := a) (by linarith)).sub (reLi_hasSum n (x := b) (by linarith))
  have hg := (hasSum_geometric_of_lt_one (r := (1/2 : ℝ)) (by norm_num) (by norm_num)).mul_left |a - b|
  rw [← h1.tsum_eq]
  have := tsum_of_norm_bounded hg (f := fun k : ℕ => a ^ (k + 1) / ((k : ℝ) + 1) ^ (n + 2) - b ^ (k + 1) / ((k : ℝ) + 1) ^ (n + 2)) ?_
  · rw [Real.norm_eq_abs] at this; refine this.trans (le_of_eq (by norm_num; ring))
  intro k
  have hk : (1:ℝ) ≤ (k:ℝ) + 1 := by linarith [Nat.cast_nonneg (α := ℝ) k]
  rw [← sub_div, norm_div, Real.norm_eq_abs, Real.norm_eq_abs, abs_of_nonneg (a := ((k : ℝ) + 1) ^ (n + 2)) (by positivity)]
  have h2 := abs_pow_sub_pow_le a b (k + 1)
  rw [div_le_iff₀ (by positivity)]
  have h3 : max |a| |b| ^ (k + 1 - 1) ≤ (1 / 2) ^ k := pow_le_pow_left₀ (le_max_of_le_left (abs_nonneg _)) (max_le ha hb) _
  have h4 : ((k:ℝ) + 1) ≤ ((k:ℝ) + 1) ^ (n + 2) := le_self_pow₀ hk (by omega)
  calc |a ^ (k + 1) - b ^ (k + 1)| ≤ |a - b| * ((k + 1 : ℕ) : ℝ) * max |a| |b| ^ (k + 1 - 1) := h2
    _ ≤ |a - b| * ((k:ℝ) + 1) * (1 / 2) ^ k := by
        push_cast
        exact mul_le_mul_of_nonneg_left h3 (by positivity)
    _ = |a - b| * (1 / 2) ^ k * ((k:ℝ) + 1) := by ring
    _ ≤ _ := by gcongr

theorem FV.neg_div {φ : Fmt} (x y : FV) : x.neg.div φ y = (x.div φ y).neg := by
  cases x <;> cases y <;> simp [FV.neg, FV.div] <;> split_ifs <;> simp [rnd, FV.neg] <;> split_ifs <;> rfl

theorem mul_abs_log_le {t : ℝ} (h0 : 0 < t) (h1 : t ≤ 1) : t * |Real.log t| ≤ 1 / 2 := by
  rw [abs_of_nonpos (Real.log_nonpos h0.le h1)]
  set w := Real.sqrt t with hw
  have hw0 : 0 < w := Real.sqrt_pos.2 h0
  have hw2 : w ^ 2 = t := Real.sq_sqrt h0.le
  have h2 : Real.log t = 2 * Real.log w := by rw [← hw2, Real.log_pow]; norm_num
  have h3 := Real.log_le_sub_one_of_pos (x := 1 / w) (by positivity)
  rw [one_div, Real.log_inv] at h3
  rw [h2, ← hw2]
  have h4 : w ^ 2 * -(2 * Real.log w) ≤ w ^ 2 * (2 * (w⁻¹ - 1)) := by
    apply mul_le_mul_of_nonneg_left _ (by positivity); linarith
  have h5 : w ^ 2 * (2 * (w⁻¹ - 1)) = 2 * w - 2 * w ^ 2 := by field_simp
  nlinarith [sq_nonneg (2 * w - 1)]

/-! ## the logarithm terms -/

section
variable {φ : Fmt} {L : Lib}

/-- requirement on the final rational approximation: for `0 ≤ y ≤ 1/2` it adds `± Li2(y)` with error `E` and one rounding -/
def FinOK (φ : Fmt) (L : Lib) (fin : FP φ L → FP φ L → FP φ L → FP φ L) (E : ℝ) : Prop :=
  ∀ (y r s : FP φ L) (yq σ : ℚ) (ρ e : ℝ), Val φ (ofF y) yq → 0 ≤ yq → yq ≤ 1 / 2 → Val φ (ofF s) σ → (σ = 1 ∨ σ = -1) →
    Near φ (ofF r) ρ e → |ρ| + e ≤ 2 ^ 90 → Near φ (ofF (fin y r s)) (ρ + σ * reLi 2 yq) (e + E + uR φ * (|ρ| + e + 1))

theorem FinOK.sn (hφ : FmtA φ) {fin : FP φ L → FP φ L → FP φ L → FP φ L} {E : ℝ} (h : FinOK φ L fin E) {y r s : FP φ L} {yq σ : ℚ} {ρ A a y0 d B : ℝ}
    (hy : Val φ (ofF y) yq) (h0 : 0 ≤ yq) (h1 : yq ≤ 1 / 2) (hs : Val φ (ofF s) σ) (hσ : σ = 1 ∨ σ = -1) (hr : SN φ (ofF r) ρ A a)
    (hy0 : 0 ≤ y0) (hy1 : y0 ≤ 1 / 2) (hd : |(yq:ℝ) - y0| ≤ d) (hB : uR φ * ((a + 1.01) * A + 1) + 2 * d ≤ B) :
    Near φ (ofF (fin y r s)) (ρ + σ * reLi 2 y0) (E + B) := by
  have hu := hφ.u_le
  have hu0 := uR_pos (φ := φ)
  have hA0 : 0 < A := by linarith [hr.hA]
  have ha := hr.ha
  have ha1 : uR φ * a ≤ 1 / 10000 := by
    have := mul_le_mul hu hr.ha2 ha (by norm_num); norm_num at this ⊢; linarith
  have he : uR φ * a * A ≤ 1 / 10000 * A := by gcongr
  have hA2 := hr.hA2
  have hle := hr.le
  have h2 := h y r s yq σ ρ _ hy h0 h1 hs hσ hr.near (by norm_num at hA2 ⊢; linarith)
  have hl : |(ρ + σ * reLi 2 yq) - (ρ + σ * reLi 2 y0)| ≤ 2 * d := by
    have hq0 : (0:ℝ) ≤ yq := by exact_mod_cast h0
    have hq1 : (yq:ℝ) ≤ 1 / 2 := by have := (Rat.cast_le (K := ℝ)).2 h1; push_cast at this; exact this
    have := reLi_lipschitz 0 (a := yq) (b := y0) (by rw [abs_of_nonneg hq0]; exact hq1) (by rw [abs_of_nonneg hy0]; exact hy1)
    have e : (ρ + σ * reLi 2 yq) - (ρ + σ * reLi 2 y0) = (σ:ℝ) * (reLi 2 yq - reLi 2 y0) := by ring
    have hσ' : |(σ:ℝ)| = 1 := by rcases hσ with rfl | rfl <;> simp
    rw [e, abs_mul, hσ', one_mul]
    exact this.trans (by linarith)
  refine (h2.shift hl).mono ?_
  have : uR φ * (|ρ| + uR φ * a * A + 1) ≤ uR φ * (1.001 * A + 1) := by
    apply mul_le_mul_of_nonneg_left _ hu0.le; linarith
  nlinarith

variable (hφ : FmtA φ) (hL : LogOK φ L)
include hφ

theorem vl_one : Val φ (rndQ φ 1) 1 := near_dy hφ 1 0 (by norm_num) (by norm_num) (by norm_num)
theorem vl_half : Val φ (rndQ φ 0.5) (1/2) := by
  have := near_dy hφ (q := 0.5) 1 1 (by norm_num) (by norm_num) (by norm_num)
  rwa [show (0.5:ℚ) = 1/2 by norm_num] at this ⊢
theorem vl_zero : Val φ (rndQ φ 0) 0 := near_dy hφ 0 0 (by norm_num) (by norm_num) (by norm_num)
theorem vl_nat (n : ℕ) (h : n < 2 ^ 24) : Val φ (rndQ φ (n : ℚ)) n :=
  near_dy hφ n 0 (by rw [abs_of_nonneg (by positivity)]; exact_mod_cast h) (by norm_num) (by push_cast; norm_num)

/-- `1 - x` for a negative finite `x` of any size -/
theorem one_sub_val {x : FV} {q : ℚ} (hx : Val φ x q) (hq : q < -1) :
    ∃ d : ℚ, Val φ ((rndQ φ 1).add φ x.neg) d ∧ 2 ≤ d ∧ |(d:ℝ) - (1 - q)| ≤ uR φ * (1 - q) := by
  have h1 := vl_one hφ
  have hr1 := h1.repr
  have hrx := hx.repr
  have hnx := hx.neg
  have hfin : |rq φ (1 + -q)| < 2 ^ φ.emax := by
    rcases le_or_gt (|(1:ℚ)|) (|(-q)| * 2 ^ (-(φ.p : ℤ) - 2)) with h | h
    · have := rq_absorb (S := -q) (a := 1) hnx.repr h
      rw [add_comm, this]; exact hnx.lt_max
    · have h2 : |(-q)| < 2 ^ ((φ.p : ℤ) + 2) := by
        rw [abs_one] at h
        have : |(-q)| * 2 ^ (-(φ.p : ℤ) - 2) * 2 ^ ((φ.p : ℤ) + 2) < 1 * 2 ^ ((φ.p : ℤ) + 2) := by gcongr
        rwa [mul_assoc, ← zpow_add₀ (by norm_num), show -(φ.p:ℤ) - 2 + (φ.p + 2) = 0 by ring, zpow_zero, mul_one, one_mul] at this
      rw [abs_of_pos (by linarith)] at h2
      have h3 : |1 + -q| ≤ 2 ^ ((φ.p : ℤ) + 3) := by
        rw [abs_of_pos (by linarith), show (φ.p:ℤ) + 3 = (φ.p + 2) + 1 by ring, zpow_add₀ (by norm_num)]
        norm_num; linarith
      exact lt_of_le_of_lt (abs_rq_le (repr_two_pow (by have := φ.hmin; omega)) h3) (zpow_lt_zpow_right₀ (by norm_num) (by have := hφ.hpm; omega))
  refine ⟨_, h1.add hnx hfin, ?_, ?_⟩
  · have h2 := vl_nat hφ 2 (by norm_num)
    have := rq_mono (φ := φ) (show (2:ℚ) ≤ 1 + -q by linarith)
    have h3 := h2.repr
    push_cast at h3
    rwa [rq_repr h3] at this
  · have := rq_add_errR (φ := φ) h1.repr hnx.repr
    push_cast at this
    have hq' : (q:ℝ) < -1 := by exact_mod_cast hq
    rw [abs_of_pos (a := (1:ℝ) + -q) (by linarith)] at this
    rw [sub_eq_add_neg 1 (q:ℝ)]; linarith

/-- `PI * PI / c` -/
theorem sn_pisq {P : FV} (hP : Near φ P Real.pi (4 * uR φ)) {y : FV} {c : ℚ} (hy : Val φ y c) (hc : 1 ≤ (c:ℝ)) (hc2 : (c:ℝ) ≤ 100) :
    SN φ ((P.mul φ P).div φ y) (Real.pi ^ 2 / c) (9.93 / c) 4.62 := by
  have hu0 := uR_pos (φ := φ)
  have h1 : SN φ P Real.pi 3.15 1.3 := ⟨hP.mono (by nlinarith), by rw [abs_of_pos Real.pi_pos]; linarith [Real.pi_lt_d2], by norm_num, by norm_num, by norm_num, by norm_num⟩
  have h2 := (h1.mul hφ h1 (by norm_num) (by norm_num)).mono (A' := 9.93) (a' := 3.61) (by norm_num) (by norm_num)
  have hc0 : (0:ℝ) < c := by linarith
  have h3 := h2.divc hφ hy hc (by rw [le_div_iff₀ hc0]; linarith)
  rw [← pow_two] at h3
  refine h3.mono le_rfl (by norm_num) ?_
  exact (div_le_self (by norm_num) hc).trans (by norm_num)

include hL

/-- the logarithm of a number of moderate size -/
theorem sn_log {x : FV} {q : ℚ} (hx : Val φ x q) (hq : 0 < q) {M : ℝ} (hM : |Real.log q| ≤ M) (hM1 : 1 / 2 ≤ M) (hM2 : M ≤ 2 ^ 40) :
    SN φ (L.log x) (Real.log q) M 2.01 := by
  have hu := hφ.u_le
  have hu0 := uR_pos (φ := φ)
  refine ⟨(hL.log x q hx hq).mono ?_, hM, by linarith, hM2, by norm_num, by norm_num⟩
  have : 2 * uR φ * |Real.log q| ≤ 2 * uR φ * M := by gcongr
  nlinarith

/-- the same after a small relative perturbation of the argument -/
theorem sn_log' {x : FV} {q : ℚ} {t : ℝ} (hx : Val φ x q) (ht : 1 ≤ t) (hq : |(q:ℝ) - t| ≤ uR φ * t) {M : ℝ} (hM : Real.log t + 1 ≤ M) (hM2 : M ≤ 2 ^ 40) :
    SN φ (L.log x) (Real.log t) M 2.1 := by
  have hu := hφ.u_le
  have hu0 := uR_pos (φ := φ)
  have h2 := abs_le.1 hq
  have hut : uR φ * t ≤ 1 / 1000 * t := by
    apply mul_le_mul_of_nonneg_right _ (by linarith); linarith
  have hq0 : (0:ℝ) < q := by linarith [h2.1]
  have hlt : 0 ≤ Real.log t := Real.log_nonneg ht
  have hd : |Real.log q - Real.log t| ≤ 1.01 * uR φ := by
    refine (abs_log_sub_le hq0 (by linarith)).trans ?_
    have hmin : t * 0.999 ≤ min (q:ℝ) t := le_min (by linarith [h2.1]) (by linarith)
    rw [div_le_iff₀ (by linarith)]
    refine hq.trans ?_
    have : uR φ * (t * 0.999) * 1.01 ≤ uR φ * (min (q:ℝ) t) * 1.01 := by gcongr
    nlinarith
  have hlq : |Real.log q| ≤ Real.log t + 1.01 * uR φ := by
    have := abs_add_le (Real.log q - Real.log t) (Real.log t)
    rw [sub_add_cancel, abs_of_nonneg hlt] at this; linarith
  refine ⟨((hL.log x q hx (by exact_mod_cast hq0)).shift hd).mono ?_, by rw [abs_of_nonneg hlt]; linarith, by linarith, hM2, by norm_num, by norm_num⟩
  have e1 : 2 * uR φ * |Real.log q| ≤ 2 * uR φ * (Real.log t + 1.01 * uR φ) := by gcongr
  have e2 : uR φ * 2.1 * (Real.log t + 1) ≤ uR φ * 2.1 * M := by gcongr
  have e3 : 0 ≤ uR φ * Real.log t := by positivity
  nlinarith

/-- `|log(1+|x|)|` is moderate -/
theorem lam_le {x : FV} {q : ℚ} (hx : Val φ x q) : 0 ≤ Real.log (1 + |(q:ℝ)|) ∧ Real.log (1 + |(q:ℝ)|) ≤ 2 ^ 15 := by
  have h0 : 0 ≤ Real.log (1 + |(q:ℝ)|) := Real.log_nonneg (by linarith [abs_nonneg (q:ℝ)])
  refine ⟨h0, ?_⟩
  have hv : ∃ y, Val φ y |q| := by
    rcases le_total 0 q with h | h
    · exact ⟨x, by rwa [abs_of_nonneg h]⟩
    · exact ⟨x.neg, by rw [abs_of_nonpos h]; exact hx.neg⟩
  obtain ⟨y, hy⟩ := hv
  have := hy.log1p_le hφ (by linarith [abs_nonneg q])
  push_cast at this
  rwa [abs_of_nonneg h0] at this

variable {fin : FP φ L → FP φ L → FP φ L → FP φ L} {E : ℝ} (hfin : FinOK φ L fin E) {PI : FP φ L} (hPI : Near φ (ofF PI) Real.pi (4 * uR φ))
include hfin hPI

/-- `x < -1` -/
theorem li2_b1 (x : FP φ L) {q : ℚ} (hx : Val φ (ofF x) q) (hq : q < -1) :
    Near φ (ofF (let l := (xlog ((FOps.lit 1 : FP φ L) -. x))
      fin ((FOps.lit 1 : FP φ L) /. ((FOps.lit 1 : FP φ L) -. x)) (∸PI *. PI /. (FOps.lit 6 : FP φ L) +. l *. ((FOps.lit 0.5 : FP φ L) *. l -. (xlog (∸x)))) (FOps.lit 1)))
      (reLi 2 q) (E + 50 * uR φ * (1 + Real.log (1 + |(q:ℝ)|) ^ 2)) := by
  have hu := hφ.u_le
  have hu0 := uR_pos (φ := φ)
  obtain ⟨d, hd, hd2, hdq⟩ := one_sub_val hφ hx hq
  have hq' : (q:ℝ) < -1 := by exact_mod_cast hq
  have hd2' : (2:ℝ) ≤ d := by exact_mod_cast hd2
  obtain ⟨hΛ0, hΛ1⟩ := lam_le hφ hL hx
  have eΛ : 1 + |(q:ℝ)| = 1 - q := by rw [abs_of_neg (by linarith)]; ring
  rw [eΛ] at hΛ0 hΛ1 ⊢
  set Λ := Real.log (1 - (q:ℝ)) with hΛ
  -- the argument of the rational function
  have hy : Val φ ((rndQ φ 1).div φ ((rndQ φ 1).add φ (ofF x).neg)) (rq φ (1 / d)) := by
    refine (vl_one hφ).div hd (by linarith) (rq_lt_max hφ ?_)
    push_cast
    rw [abs_of_pos (by positivity), div_le_iff₀ (by linarith)]
    nlinarith
  have hdi : (1 / d : ℚ) ≤ 1 / 2 := by rw [div_le_div_iff₀ (by linarith) (by norm_num)]; linarith
  have hy1 : rq φ (1 / d) ≤ 1 / 2 := by
    have := rq_mono (φ := φ) hdi
    rwa [rq_repr (q := (1/2 : ℚ)) (vl_half hφ).repr] at this
  have hy0 : 0 ≤ rq φ (1 / d) := rq_nonneg (by positivity)
  have hye : |((rq φ (1 / d) : ℚ) : ℝ) - 1 / (1 - q)| ≤ 1.1 * uR φ := by
    have h1 := rq_errR hφ (1 / d)
    push_cast at h1
    rw [abs_of_pos (a := 1 / (d:ℝ)) (by positivity)] at h1
    have h2 : 1 / (d:ℝ) ≤ 1 / 2 := by apply one_div_le_one_div_of_le <;> linarith
    have h3 : |1 / (d:ℝ) - 1 / (1 - q)| ≤ uR φ / 2 := by
      have : 1 / (d:ℝ) - 1 / (1 - q) = ((1 - q) - d) / (d * (1 - q)) := by
        have : (d:ℝ) ≠ 0 := by linarith
        have : (1:ℝ) - q ≠ 0 := by linarith
        field_simp
      rw [this, abs_div, abs_of_pos (a := (d:ℝ) * (1 - q)) (by apply mul_pos <;> linarith), div_le_iff₀ (by apply mul_pos <;> linarith), abs_sub_comm]
      refine hdq.trans ?_
      have : uR φ / 2 * (2 * (1 - q)) ≤ uR φ / 2 * (d * (1 - q)) := by
        apply mul_le_mul_of_nonneg_left _ (by positivity)
        apply mul_le_mul_of_nonneg_right hd2' (by linarith)
      linarith
    have h4 := abs_sub_le ((rq φ (1 / d) : ℚ) : ℝ) (1 / d) (1 / (1 - q))
    nlinarith
  -- the logarithms
  have hl : SN φ (L.log ((rndQ φ 1).add φ (ofF x).neg)) Λ (1 + Λ) 2.1 := sn_log' hφ hL hd (t := 1 - q) (by linarith) hdq (by rw [add_comm]) (by linarith)
  have hm : SN φ (L.log (ofF x).neg) (Real.log (-q)) (1 + Λ) 2.01 := by
    have h1 := hx.neg
    have h2 : |Real.log ((-q : ℚ) : ℝ)| ≤ 1 + Λ := by
      push_cast
      have h3 : 0 ≤ Real.log (-(q:ℝ)) := Real.log_nonneg (by linarith)
      rw [abs_of_nonneg h3]
      have := Real.log_le_log (x := -(q:ℝ)) (y := 1 - q) (by linarith) (by linarith)
      linarith
    have := sn_log hφ hL h1 (by linarith) h2 (by linarith) (by linarith)
    push_cast at this; exact this
  have hh : SN φ (rndQ φ 0.5) ((1/2 : ℚ) : ℝ) (1/2) 0 := (vl_half hφ).sn (by norm_num [abs_of_pos]) (by norm_num) (by norm_num)
  have s1 := (hh.mul hφ hl (by linarith) (by linarith)).mono (A' := 1/2 * (1 + Λ)) (a' := 3.12) le_rfl (by norm_num) (by linarith)
  have s2 := (s1.sub hφ hm (m := 3.12) (by linarith) (by norm_num) (by norm_num)).mono (A' := 1.5 * (1 + Λ)) (a' := 4.13) (by linarith) (by norm_num) (by linarith)
  have hsq : (1 + Λ) * (1.5 * (1 + Λ)) ≤ 2 ^ 35 := by
    have : (1 + Λ) * (1.5 * (1 + Λ)) ≤ (1 + 2 ^ 15) * (1.5 * (1 + 2 ^ 15)) := by gcongr
    exact this.trans (by norm_num)
  have s3 := (hl.mul hφ s2 (by nlinarith) (by linarith)).mono (A' := (1 + Λ) * (1.5 * (1 + Λ))) (a' := 7.25) le_rfl (by norm_num) (by linarith)
  have hpi := (sn_pisq hφ hPI (vl_nat hφ 6 (by norm_num)) (by norm_num) (by norm_num)).neg
  push_cast at hpi
  have s4 := (hpi.add hφ s3 (m := 7.25) (by norm_num at hsq ⊢; linarith) (by norm_num) le_rfl).mono (A' := 9.93 / 6 + (1 + Λ) * (1.5 * (1 + Λ))) (a' := 8.26) le_rfl
    (by norm_num) (by norm_num at hsq ⊢; linarith)
  have hneg : FV.div φ (FV.mul φ (ofF PI).neg (ofF PI)) (rndQ φ 6) = (FV.div φ (FV.mul φ (ofF PI) (ofF PI)) (rndQ φ 6)).neg := by
    rw [FV.neg_mul, FV.neg_div]
  have hfinal := hfin.sn hφ (y := (FOps.lit 1 : FP φ L) /. ((FOps.lit 1 : FP φ L) -. x))
    (r := ∸PI *. PI /. (FOps.lit 6 : FP φ L) +. (xlog ((FOps.lit 1 : FP φ L) -. x)) *. ((FOps.lit 0.5 : FP φ L) *. (xlog ((FOps.lit 1 : FP φ L) -. x)) -. (xlog (∸x))))
    (s := (FOps.lit 1 : FP φ L)) (σ := 1) (y0 := 1 / (1 - q)) (B := 50 * uR φ * (1 + Λ ^ 2))
    hy hy0 hy1 (vl_one hφ) (Or.inl rfl) (by
      rw [ofF_add, ofF_div, ofF_mul, ofF_neg, ofF_lit, hneg]
      exact s4) (by apply div_nonneg <;> linarith)
    (by rw [div_le_div_iff₀ (by linarith) (by norm_num)]; linarith) hye (by
      have h1 : (1 + Λ) * (1.5 * (1 + Λ)) ≤ 3 * (1 + Λ ^ 2) := by nlinarith [sq_nonneg (1 - Λ)]
      have h2 : (8.26 + 1.01) * (9.93 / 6 + (1 + Λ) * (1.5 * (1 + Λ))) + 1 + 2.2 ≤ 50 * (1 + Λ ^ 2) := by nlinarith [sq_nonneg Λ]
      have := mul_le_mul_of_nonneg_left h2 hu0.le
      linarith)
  refine hfinal.congr ?_
  -- the identity
  have hL' := reLi_two_landen (x := (q:ℝ)) (by linarith)
  have hx1 : 0 < 1 - (q:ℝ) := by linarith
  have hyx : (q:ℝ) / (q - 1) = 1 - 1 / (1 - q) := by
    have : (q:ℝ) - 1 ≠ 0 := by linarith
    have := hx1.ne'
    field_simp; ring
  have hR := reLi_two_refl (x := 1 / (1 - (q:ℝ))) (by positivity) (by rw [div_lt_one hx1]; linarith)
  have hl1 : Real.log (1 / (1 - (q:ℝ))) = -Real.log (1 - q) := by rw [one_div, Real.log_inv]
  have hl2 : Real.log (1 - 1 / (1 - (q:ℝ))) = Real.log (-q) - Real.log (1 - q) := by
    rw [← hyx, ← Real.log_div (by linarith) hx1.ne']
    congr 1
    have : (q:ℝ) - 1 ≠ 0 := by linarith
    field_simp; ring
  rw [hl1, hl2, ← hyx] at hR
  rw [hL']; push_cast
  linear_combination (1:ℝ) * hR

/-- `x = -1` -/
theorem li2_b2 : Near φ (ofF (∸PI *. PI /. (FOps.lit 12 : FP φ L))) (reLi 2 (-1)) (5 * uR φ) := by
  have hu0 := uR_pos (φ := φ)
  have hpi := (sn_pisq hφ hPI (vl_nat hφ 12 (by norm_num)) (by norm_num) (by norm_num)).neg.near
  rw [← FV.neg_div, ← FV.neg_mul] at hpi
  refine (hpi.mono (by norm_num; nlinarith)).congr ?_
  rw [reLi_two_neg_one]; push_cast; ring

/-- `x = 1` -/
theorem li2_b7 : Near φ (ofF (PI *. PI /. (FOps.lit 6 : FP φ L))) (reLi 2 1) (8 * uR φ) := by
  have hu0 := uR_pos (φ := φ)
  have hpi := (sn_pisq hφ hPI (vl_nat hφ 6 (by norm_num)) (by norm_num) (by norm_num)).near
  refine (hpi.mono (by norm_num; nlinarith)).congr ?_
  rw [reLi_two_one]; push_cast; ring

/-- `-1 < x < 0` -/
theorem li2_b3 (x : FP φ L) {q : ℚ} (hx : Val φ (ofF x) q) (hq : -1 < q) (hq0 : q < 0) :
    Near φ (ofF (let l := (FOps.log1p (∸x))
      fin (x /. (x -. (FOps.lit 1 : FP φ L))) (∸(FOps.lit 0.5 : FP φ L) *. l *. l) ∸(FOps.lit 1))) (reLi 2 q) (E + 6 * uR φ) := by
  have hu := hφ.u_le
  have hu0 := uR_pos (φ := φ)
  have h1 := vl_one hφ
  have hq' : (-1:ℝ) < q := by exact_mod_cast hq
  have hq0' : (q:ℝ) < 0 := by exact_mod_cast hq0
  have hl2 : Real.log 2 ≤ 0.7 := by linarith [Real.log_two_lt_d9]
  -- the divisor
  set d := rq φ (q + -1) with hd
  have hdv : Val φ ((ofF x).add φ (rndQ φ 1).neg) d := by
    refine hx.add h1.neg (rq_lt_max hφ ?_)
    push_cast
    rw [abs_of_neg (by linarith)]
    linarith
  have hde : |(d:ℝ) - (q - 1)| ≤ uR φ * (1 - q) := by
    have := rq_add_errR (φ := φ) hx.repr h1.neg.repr
    push_cast at this
    rw [abs_of_neg (a := (q:ℝ) + -1) (by linarith)] at this
    rw [sub_eq_add_neg (q:ℝ)]; linarith
  have hd1 : d ≤ -1 := by
    have := rq_mono (φ := φ) (show q + -1 ≤ -1 by linarith)
    rwa [rq_repr (q := -1) h1.neg.repr] at this
  have hd2 : d ≤ 2 * q := by
    have h2 : Repr φ |2 * q| := by
      obtain ⟨m, e, he, hm, hme⟩ := hx.repr
      exact ⟨m, e + 1, by omega, hm, by rw [abs_mul, hme, zpow_add₀ (by norm_num)]; norm_num; ring⟩
    have := rq_mono (φ := φ) (show q + -1 ≤ 2 * q by linarith)
    rwa [rq_repr h2] at this
  have hd1' : (d:ℝ) ≤ -1 := by exact_mod_cast hd1
  have hd2' : (d:ℝ) ≤ 2 * q := by exact_mod_cast hd2
  have hqd : q / d ≤ 1 / 2 := by rw [div_le_iff_of_neg (by linarith)]; linarith
  have hqd0 : 0 ≤ q / d := div_nonneg_of_nonpos hq0.le (by linarith)
  have hqdR : (q:ℝ) / d ≤ 1 / 2 := by rw [div_le_iff_of_neg (by linarith)]; linarith
  have hqd0R : 0 ≤ (q:ℝ) / d := div_nonneg_of_nonpos hq0'.le (by linarith)
  have hy : Val φ ((ofF x).div φ ((ofF x).add φ (rndQ φ 1).neg)) (rq φ (q / d)) := by
    refine hx.div hdv (by linarith) (rq_lt_max hφ ?_)
    push_cast
    rw [abs_of_nonneg hqd0R]; linarith
  have hy1 : rq φ (q / d) ≤ 1 / 2 := by
    have := rq_mono (φ := φ) hqd
    rwa [rq_repr (q := (1/2 : ℚ)) (vl_half hφ).repr] at this
  have hy0 : 0 ≤ rq φ (q / d) := rq_nonneg hqd0
  have hye : |((rq φ (q / d) : ℚ) : ℝ) - q / (q - 1)| ≤ 1.1 * uR φ := by
    have h1 := rq_errR hφ (q / d)
    push_cast at h1
    rw [abs_of_nonneg hqd0R] at h1
    have h3 : |(q:ℝ) / d - q / (q - 1)| ≤ uR φ / 2 := by
      have : (q:ℝ) / d - q / (q - 1) = (q / d) * (((q - 1) - d) / (q - 1)) := by
        have : (d:ℝ) ≠ 0 := by linarith
        have : (q:ℝ) - 1 ≠ 0 := by linarith
        field_simp
      rw [this, abs_mul, abs_of_nonneg hqd0R, abs_div, abs_of_neg (a := (q:ℝ) - 1) (by linarith), abs_sub_comm]
      have : |(d:ℝ) - (q - 1)| / -((q:ℝ) - 1) ≤ uR φ := by
        rw [div_le_iff₀ (by linarith)]; linarith
      calc (q:ℝ) / d * (|(d:ℝ) - (q - 1)| / -((q:ℝ) - 1)) ≤ 1 / 2 * uR φ := mul_le_mul hqdR this (by apply div_nonneg (abs_nonneg _); linarith) (by norm_num)
        _ = _ := by ring
    have h4 := abs_sub_le ((rq φ (q / d) : ℚ) : ℝ) (q / d) (q / (q - 1))
    nlinarith
  -- the logarithm
  have hl0 : 0 ≤ Real.log (1 - q) := Real.log_nonneg (by linarith)
  have hl1 : Real.log (1 - q) ≤ 0.7 := (Real.log_le_log (by linarith) (by linarith)).trans hl2
  have hl : SN φ (L.log1p (ofF x).neg) (Real.log (1 - q)) 0.7 2.1 := by
    have := hL.log1p _ _ hx.neg (by linarith)
    push_cast at this
    rw [← sub_eq_add_neg, abs_of_nonneg hl0] at this
    refine ⟨this.mono ?_, by rw [abs_of_nonneg hl0]; exact hl1, by norm_num, by norm_num, by norm_num, by norm_num⟩
    nlinarith
  have hh : SN φ (rndQ φ 0.5).neg (((-(1/2) : ℚ)) : ℝ) (1/2) 0 := (vl_half hφ).neg.sn (by norm_num [abs_of_pos]) (by norm_num) (by norm_num)
  have s1 := (hh.mul hφ hl (by norm_num) (by norm_num)).mono (A' := 0.35) (a' := 3.12) (by norm_num) (by norm_num)
  have s2 := (s1.mul hφ hl (by norm_num) (by norm_num)).mono (A' := 0.25) (a' := 6.3) (by norm_num) (by norm_num)
  have hfinal := hfin.sn hφ (y := x /. (x -. (FOps.lit 1 : FP φ L)))
    (r := ∸(FOps.lit 0.5 : FP φ L) *. (FOps.log1p (∸x)) *. (FOps.log1p (∸x)))
    (s := ∸(FOps.lit 1 : FP φ L)) (σ := -1) (y0 := q / (q - 1)) (B := 6 * uR φ)
    hy hy0 hy1 h1.neg (Or.inr rfl) s2 (div_nonneg_of_nonpos hq0'.le (by linarith))
    (by rw [div_le_iff_of_neg (by linarith)]; linarith) hye (by
      have h2 : (6.3 + 1.01) * 0.25 + 1 + 2.2 ≤ (6:ℝ) := by norm_num
      have := mul_le_mul_of_nonneg_left h2 hu0.le
      linarith)
  refine hfinal.congr ?_
  rw [reLi_two_landen hq0']; push_cast; ring

/-- `0 < x < 1/2` -/
theorem li2_b5 (x : FP φ L) {q : ℚ} (hx : Val φ (ofF x) q) (hq0 : 0 < q) (hq : q < 1 / 2) :
    Near φ (ofF (fin x (FOps.lit 0) (FOps.lit 1))) (reLi 2 q) (E + uR φ) := by
  have h := hfin x (FOps.lit 0) (FOps.lit 1) q 1 0 0 hx hq0.le hq.le (vl_one hφ) (Or.inl rfl) (by have := (vl_zero hφ).near; rw [Rat.cast_zero] at this; exact this) (by norm_num)
  refine (h.mono (by simp)).congr (by simp)

/-- `1/2 ≤ x < 1` -/
theorem li2_b6 (x : FP φ L) {q : ℚ} (hx : Val φ (ofF x) q) (hq0 : 1 / 2 ≤ q) (hq : q < 1) :
    Near φ (ofF (fin ((FOps.lit 1 : FP φ L) -. x) (PI *. PI /. (FOps.lit 6 : FP φ L) -. (xlog x) *. (FOps.log1p (∸x))) ∸(FOps.lit 1)))
      (reLi 2 q) (E + 30 * uR φ) := by
  have hu := hφ.u_le
  have hu0 := uR_pos (φ := φ)
  have h1 := vl_one hφ
  have hq0' : (1/2:ℝ) ≤ q := by have := (Rat.cast_le (K := ℝ)).2 hq0; push_cast at this; exact this
  have hq' : (q:ℝ) < 1 := by exact_mod_cast hq
  have hy : Val φ ((rndQ φ 1).add φ (ofF x).neg) (rq φ (1 + -q)) := by
    refine h1.add hx.neg (rq_lt_max hφ ?_)
    push_cast
    rw [abs_of_pos (by linarith)]; linarith
  have hy1 : rq φ (1 + -q) ≤ 1 / 2 := by
    have := rq_mono (φ := φ) (show 1 + -q ≤ 1 / 2 by linarith)
    rwa [rq_repr (q := (1/2 : ℚ)) (vl_half hφ).repr] at this
  have hy0 : 0 ≤ rq φ (1 + -q) := rq_nonneg (by linarith)
  have hye : |((rq φ (1 + -q) : ℚ) : ℝ) - (1 - q)| ≤ 0.5 * uR φ := by
    have := rq_add_errR (φ := φ) h1.repr hx.neg.repr
    push_cast at this
    rw [abs_of_pos (a := (1:ℝ) + -q) (by linarith)] at this
    rw [sub_eq_add_neg (1:ℝ)]; nlinarith
  -- the product of the logarithms
  set a := Real.log q with ha
  set b := Real.log (1 - q) with hb
  have ha1 : |a| ≤ 2 * (1 - q) := by
    have ha0 : a ≤ 0 := Real.log_nonpos (by linarith) hq'.le
    rw [abs_of_nonpos ha0]
    have := Real.log_le_sub_one_of_pos (x := 1 / (q:ℝ)) (by positivity)
    rw [one_div, Real.log_inv] at this
    have h2 : (q:ℝ)⁻¹ - 1 = (1 - q) / q := by field_simp
    have h3 : (1 - (q:ℝ)) / q ≤ 2 * (1 - q) := by rw [div_le_iff₀ (by linarith)]; nlinarith
    linarith
  have hb0 : b ≤ 0 := Real.log_nonpos (by linarith) (by linarith)
  have hb1 : (1 - q) * |b| ≤ 1 / 2 := by
    exact mul_abs_log_le (by linarith) (by linarith)
  have hab : |a| * |b| ≤ 1 := by
    calc |a| * |b| ≤ 2 * (1 - q) * |b| := by gcongr
      _ = 2 * ((1 - q) * |b|) := by ring
      _ ≤ 1 := by linarith
  have hla := hL.log _ _ hx (by linarith)
  have hlb := hL.log1p _ _ hx.neg (by linarith)
  have hbig := hx.neg.log1p_le hφ (by linarith)
  push_cast at hlb hbig
  rw [← sub_eq_add_neg, ← hb] at hlb hbig
  rw [← ha] at hla
  have hbA : |a| ≤ 1 := by linarith
  have hub : uR φ * |b| ≤ 1 / 500 := by
    have := mul_le_mul hu hbig (abs_nonneg _) (by norm_num); norm_num at this ⊢; linarith
  have pa := abs_nonneg a
  have pb := abs_nonneg b
  have hprod : SN φ ((L.log (ofF x)).mul φ (L.log1p (ofF x).neg)) (a * b) 1 6 := by
    have e1 : 2 * uR φ * |a| + uR φ ^ 2 ≤ 3 * uR φ := by nlinarith
    have e2 : 2 * uR φ * |b| + uR φ ^ 2 ≤ 1 / 200 := by nlinarith
    have e0 : (|a| + (2 * uR φ * |a| + uR φ ^ 2)) * (|b| + (2 * uR φ * |b| + uR φ ^ 2)) ≤ 1.1 := by
      have f1 : |a| + (2 * uR φ * |a| + uR φ ^ 2) ≤ 1.001 * |a| + uR φ ^ 2 := by nlinarith
      have f2 : |b| + (2 * uR φ * |b| + uR φ ^ 2) ≤ 1.001 * |b| + uR φ ^ 2 := by nlinarith
      calc _ ≤ (1.001 * |a| + uR φ ^ 2) * (1.001 * |b| + uR φ ^ 2) := mul_le_mul f1 f2 (by positivity) (by positivity)
        _ = 1.001 ^ 2 * (|a| * |b|) + uR φ ^ 2 * (1.001 * |a|) + 1.001 * uR φ * (uR φ * |b|) + uR φ ^ 4 := by ring
        _ ≤ 1.001 ^ 2 * 1 + 1 / 2 ^ 24 * 1.001 + 1.001 * (1 / 2 ^ 24) * (1 / 500) + 1 / 2 ^ 24 := by
            have g1 : uR φ ^ 2 ≤ 1 / 2 ^ 24 := by nlinarith
            have g2 : uR φ ^ 4 ≤ 1 / 2 ^ 24 := by
              have : uR φ ^ 4 = uR φ ^ 2 * uR φ ^ 2 := by ring
              nlinarith [sq_nonneg (uR φ)]
            gcongr
            linarith
        _ ≤ 1.1 := by norm_num
    refine ⟨(hla.mul hφ hlb (by linarith)).mono ?_, by rw [abs_mul]; exact hab, by norm_num, by norm_num, by norm_num, by norm_num⟩
    have g1 : (2 * uR φ * |a| + uR φ ^ 2) * |b| ≤ 2 * uR φ + uR φ / 500 := by
      have : (2 * uR φ * |a| + uR φ ^ 2) * |b| = 2 * uR φ * (|a| * |b|) + uR φ * (uR φ * |b|) := by ring
      rw [this]
      have k1 := mul_le_mul_of_nonneg_left hab hu0.le
      have k2 := mul_le_mul_of_nonneg_left hub hu0.le
      linarith
    have g2 : (2 * uR φ * |b| + uR φ ^ 2) * |a| ≤ 2 * uR φ + uR φ / 500 := by
      have : (2 * uR φ * |b| + uR φ ^ 2) * |a| = 2 * uR φ * (|a| * |b|) + uR φ * (uR φ * |a|) := by ring
      rw [this]
      have k1 := mul_le_mul_of_nonneg_left hab hu0.le
      have k2 : uR φ * (uR φ * |a|) ≤ uR φ * (1 / 500) := mul_le_mul_of_nonneg_left (by nlinarith) hu0.le
      linarith
    have g3 : (2 * uR φ * |a| + uR φ ^ 2) * (2 * uR φ * |b| + uR φ ^ 2) ≤ 3 * uR φ * (1 / 200) := mul_le_mul e1 e2 (by positivity) (by positivity)
    have g4 := mul_le_mul_of_nonneg_left e0 hu0.le
    nlinarith
  have hpi := sn_pisq hφ hPI (vl_nat hφ 6 (by norm_num)) (by norm_num) (by norm_num)
  push_cast at hpi
  have s4 := (hpi.sub hφ hprod (m := 6) (by norm_num) (by norm_num) le_rfl).mono (A' := 2.7) (a' := 7.01) (by norm_num) (by norm_num)
  have hfinal := hfin.sn hφ (y := (FOps.lit 1 : FP φ L) -. x) (r := PI *. PI /. (FOps.lit 6 : FP φ L) -. (xlog x) *. (FOps.log1p (∸x)))
    (s := ∸(FOps.lit 1 : FP φ L)) (σ := -1) (y0 := 1 - q) (B := 30 * uR φ)
    hy hy0 hy1 h1.neg (Or.inr rfl) s4 (by linarith) (by linarith) hye (by
      have h2 : (7.01 + 1.01) * 2.7 + 1 + 1 ≤ (30:ℝ) := by norm_num
      have := mul_le_mul_of_nonneg_left h2 hu0.le
      linarith)
  refine hfinal.congr ?_
  rw [reLi_two_refl (by linarith) hq']; push_cast; ring

/-- `2 ≤ x` -/
theorem li2_b9 (x : FP φ L) {q : ℚ} (hx : Val φ (ofF x) q) (hq : 2 ≤ q) :
    Near φ (ofF (let l := (xlog x)
      fin ((FOps.lit 1 : FP φ L) /. x) (PI *. PI /. (FOps.lit 3 : FP φ L) -. (FOps.lit 0.5 : FP φ L) *. l *. l) ∸(FOps.lit 1)))
      (reLi 2 q) (E + 50 * uR φ * (1 + Real.log (1 + |(q:ℝ)|) ^ 2)) := by
  have hu := hφ.u_le
  have hu0 := uR_pos (φ := φ)
  have h1 := vl_one hφ
  have hq' : (2:ℝ) ≤ q := by exact_mod_cast hq
  obtain ⟨hΛ0, hΛ1⟩ := lam_le hφ hL hx
  rw [abs_of_pos (by linarith)] at hΛ0 hΛ1 ⊢
  set Λ := Real.log (1 + (q:ℝ)) with hΛ
  have hy : Val φ ((rndQ φ 1).div φ (ofF x)) (rq φ (1 / q)) := by
    refine h1.div hx (by linarith) (rq_lt_max hφ ?_)
    push_cast
    rw [abs_of_pos (by positivity), div_le_iff₀ (by linarith)]
    nlinarith
  have hqi : 1 / q ≤ 1 / 2 := by rw [div_le_div_iff₀ (by linarith) (by norm_num)]; linarith
  have hqiR : 1 / (q:ℝ) ≤ 1 / 2 := by rw [div_le_div_iff₀ (by linarith) (by norm_num)]; linarith
  have hy1 : rq φ (1 / q) ≤ 1 / 2 := by
    have := rq_mono (φ := φ) hqi
    rwa [rq_repr (q := (1/2 : ℚ)) (vl_half hφ).repr] at this
  have hy0 : 0 ≤ rq φ (1 / q) := rq_nonneg (by positivity)
  have hye : |((rq φ (1 / q) : ℚ) : ℝ) - 1 / q| ≤ 1.1 * uR φ := by
    have := rq_errR hφ (1 / q)
    push_cast at this
    rw [abs_of_pos (a := 1 / (q:ℝ)) (by positivity)] at this
    nlinarith
  have hl : SN φ (L.log (ofF x)) (Real.log q) (1 + Λ) 2.01 := by
    have h0 : 0 ≤ Real.log q := Real.log_nonneg (by linarith)
    have h2 := Real.log_le_log (x := (q:ℝ)) (y := 1 + q) (by linarith) (by linarith)
    exact sn_log hφ hL hx (by linarith) (by rw [abs_of_nonneg h0]; linarith) (by linarith) (by linarith)
  have hh : SN φ (rndQ φ 0.5) ((1/2 : ℚ) : ℝ) (1/2) 0 := (vl_half hφ).sn (by norm_num [abs_of_pos]) (by norm_num) (by norm_num)
  have s1 := (hh.mul hφ hl (by linarith) (by linarith)).mono (A' := 1/2 * (1 + Λ)) (a' := 3.12) le_rfl (by norm_num) (by linarith)
  have hsq : 1/2 * (1 + Λ) * (1 + Λ) ≤ 2 ^ 35 := by
    have : 1/2 * (1 + Λ) * (1 + Λ) ≤ 1/2 * (1 + 2 ^ 15) * (1 + 2 ^ 15) := by gcongr
    exact this.trans (by norm_num)
  have s2 := (s1.mul hφ hl (by nlinarith) (by linarith)).mono (A' := 1/2 * (1 + Λ) * (1 + Λ)) (a' := 6.2) le_rfl (by norm_num) (by linarith)
  have hpi := sn_pisq hφ hPI (vl_nat hφ 3 (by norm_num)) (by norm_num) (by norm_num)
  push_cast at hpi
  have s4 := (hpi.sub hφ s2 (m := 6.2) (by norm_num at hsq ⊢; linarith) (by norm_num) le_rfl).mono (A' := 9.93 / 3 + 1/2 * (1 + Λ) * (1 + Λ)) (a' := 7.21) le_rfl
    (by norm_num) (by norm_num at hsq ⊢; linarith)
  have hfinal := hfin.sn hφ (y := (FOps.lit 1 : FP φ L) /. x)
    (r := PI *. PI /. (FOps.lit 3 : FP φ L) -. (FOps.lit 0.5 : FP φ L) *. (xlog x) *. (xlog x))
    (s := ∸(FOps.lit 1 : FP φ L)) (σ := -1) (y0 := 1 / q) (B := 50 * uR φ * (1 + Λ ^ 2))
    hy hy0 hy1 h1.neg (Or.inr rfl) s4 (by positivity) hqiR hye (by
      have h1 : 1/2 * (1 + Λ) * (1 + Λ) ≤ (1 + Λ ^ 2) := by nlinarith [sq_nonneg (1 - Λ)]
      have h2 : (7.21 + 1.01) * (9.93 / 3 + 1/2 * (1 + Λ) * (1 + Λ)) + 1 + 2.2 ≤ 50 * (1 + Λ ^ 2) := by nlinarith [sq_nonneg Λ]
      have := mul_le_mul_of_nonneg_left h2 hu0.le
      linarith)
  refine hfinal.congr ?_
  have hI := reLi_two_inv (x := (q:ℝ)) (by linarith)
  rw [← one_div] at hI
  rw [hI]; push_cast; ring

set_option maxHeartbeats 1600000 in
/-- `1 < x < 2` -/
theorem li2_b8 (x : FP φ L) {q : ℚ} (hx : Val φ (ofF x) q) (hq0 : 1 < q) (hq : q < 2) :
    Near φ (ofF (let l := (xlog x)
      let y := (FOps.lit 1 : FP φ L) -. (FOps.lit 1 : FP φ L) /. x
      fin y (PI *. PI /. (FOps.lit 6 : FP φ L) -. l *. ((xlog y) +. (FOps.lit 0.5 : FP φ L) *. l)) (FOps.lit 1)))
      (reLi 2 q) (E + 60 * uR φ) := by
  have hu := hφ.u_le
  have hu0 := uR_pos (φ := φ)
  have h1 := vl_one hφ
  have hq' : (q:ℝ) < 2 := by exact_mod_cast hq
  have hl2 : Real.log 2 ≤ 0.7 := by linarith [Real.log_two_lt_d9]
  -- `x ≥ 1 + 2u`
  have hgap : (1:ℝ) + 2 * uR φ ≤ q := by
    obtain ⟨m, e, he, hm, hme⟩ := hx.repr
    rw [abs_of_pos (by linarith)] at hme
    have hm' : (m:ℚ) < 2 ^ φ.p := by exact_mod_cast hm
    -- the exponent is at least `1 - p`
    have he1 : 1 - (φ.p:ℤ) ≤ e := by
      by_contra hc
      push Not at hc
      have : (2:ℚ) ^ e ≤ 2 ^ (-(φ.p:ℤ)) := zpow_le_zpow_right₀ (by norm_num) (by omega)
      have h2 : (m:ℚ) * 2 ^ e ≤ 2 ^ φ.p * 2 ^ (-(φ.p:ℤ)) := mul_le_mul hm'.le this (by positivity) (by positivity)
      rw [zpow_neg, zpow_natCast, mul_inv_cancel₀ (by positivity)] at h2
      linarith
    obtain ⟨k, hk⟩ := Int.eq_ofNat_of_zero_le (show 0 ≤ e - (1 - (φ.p:ℤ)) by omega)
    have hq1 : q = ((m * 2 ^ k : ℕ) : ℚ) * 2 ^ (1 - (φ.p:ℤ)) := by
      rw [hme]; push_cast
      rw [mul_assoc, ← zpow_natCast (2:ℚ) k, ← zpow_add₀ (by norm_num)]
      congr 2; push_cast at hk; omega
    have h1q : (1:ℚ) = ((2 ^ (φ.p - 1) : ℕ) : ℚ) * 2 ^ (1 - (φ.p:ℤ)) := by
      push_cast
      rw [← zpow_natCast, ← zpow_add₀ (by norm_num)]
      have := φ.hp
      rw [show ((φ.p - 1 : ℕ) : ℤ) + (1 - (φ.p:ℤ)) = 0 by omega, zpow_zero]
    have hpos : (0:ℚ) < 2 ^ (1 - (φ.p:ℤ)) := by positivity
    have hlt : 2 ^ (φ.p - 1) < m * 2 ^ k := by
      have : ((2 ^ (φ.p - 1) : ℕ) : ℚ) * 2 ^ (1 - (φ.p:ℤ)) < ((m * 2 ^ k : ℕ) : ℚ) * 2 ^ (1 - (φ.p:ℤ)) := by rw [← h1q, ← hq1]; exact hq0
      exact_mod_cast lt_of_mul_lt_mul_right this hpos.le
    have hge : (((2 ^ (φ.p - 1) : ℕ) : ℚ) + 1) * 2 ^ (1 - (φ.p:ℤ)) ≤ q := by
      rw [hq1]
      apply mul_le_mul_of_nonneg_right _ hpos.le
      exact_mod_cast hlt
    rw [add_mul, ← h1q, one_mul, zpow_sub₀ (by norm_num)] at hge
    have := (Rat.cast_le (K := ℝ)).2 hge
    push_cast at this
    have e2 : 2 * uR φ = 2 / 2 ^ (φ.p:ℤ) := by unfold uR; rw [zpow_neg, div_eq_mul_inv]
    rw [e2]; simpa using this
  have hq1R : (1:ℝ) < q := by linarith
  -- the argument
  set i := rq φ (1 / q) with hi
  have hiv : Val φ ((rndQ φ 1).div φ (ofF x)) i := by
    refine h1.div hx (by linarith) (rq_lt_max hφ ?_)
    push_cast
    rw [abs_of_pos (by positivity), div_le_iff₀ (by linarith)]
    nlinarith
  have hi2 : 1 / 2 ≤ i := by
    have := rq_mono (φ := φ) (show 1 / 2 ≤ 1 / q by rw [div_le_div_iff₀ (by norm_num) (by linarith)]; linarith)
    rwa [rq_repr (q := (1/2 : ℚ)) (vl_half hφ).repr] at this
  have hi1 : i ≤ 1 := by
    have := rq_mono (φ := φ) (show 1 / q ≤ 1 by rw [div_le_one (by linarith)]; linarith)
    rwa [rq_repr (q := 1) h1.repr] at this
  have hie : |(i:ℝ) - 1 / q| ≤ uR φ := by
    have := rq_err (φ := φ) (1 / q)
    have hq1i : |1 / q| ≤ 1 := by rw [abs_of_pos (by positivity), div_le_one (by linarith)]; linarith
    have h3 : |rq φ (1 / q) - 1 / q| ≤ 2 ^ (-(φ.p:ℤ)) := by
      rcases this with h | h
      · refine h.trans ?_
        have : |1 / q| * 2 ^ (-(φ.p:ℤ)) ≤ 1 * 2 ^ (-(φ.p:ℤ)) := by gcongr
        linarith
      · refine h.trans (zpow_le_zpow_right₀ (by norm_num) ?_)
        have := hφ.hmin; omega
    have := (Rat.cast_le (K := ℝ)).2 h3
    push_cast at this; exact this
  set y : ℝ := 1 - 1 / q with hy
  have hyq : y * q = q - 1 := by rw [hy]; field_simp
  have hyu : 1.99 * uR φ ≤ y := by
    have : 1.99 * uR φ * q ≤ y * q := by rw [hyq]; nlinarith
    exact le_of_mul_le_mul_right this (by linarith)
  have hy0 : 0 < y := by linarith
  have hyh : y ≤ 1 / 2 := by
    have : 1 / 2 ≤ 1 / (q:ℝ) := by rw [div_le_div_iff₀ (by norm_num) (by linarith)]; linarith
    rw [hy]; linarith
  set v := rq φ (1 + -i) with hv
  have hvv : Val φ ((rndQ φ 1).add φ ((rndQ φ 1).div φ (ofF x)).neg) v := by
    refine h1.add hiv.neg (rq_lt_max hφ ?_)
    push_cast
    have a1 : (1/2:ℝ) ≤ i := by have := (Rat.cast_le (K := ℝ)).2 hi2; push_cast at this; exact this
    have a2 : (i:ℝ) ≤ 1 := by exact_mod_cast hi1
    rw [abs_le]; constructor <;> linarith
  have hv1 : v ≤ 1 / 2 := by
    have := rq_mono (φ := φ) (show 1 + -i ≤ 1 / 2 by linarith)
    rwa [rq_repr (q := (1/2 : ℚ)) (vl_half hφ).repr] at this
  have hv0 : 0 ≤ v := rq_nonneg (by linarith)
  have h3 : |((1:ℝ) + -i) - y| ≤ uR φ := by
    rw [show ((1:ℝ) + -i) - y = -(i - 1 / q) by rw [hy]; ring, abs_neg]; exact hie
  have hvr : |(v:ℝ) - (1 + -i)| ≤ (y + uR φ) * uR φ := by
    have := rq_add_errR (φ := φ) h1.repr hiv.neg.repr
    push_cast at this
    have h2 : |(1:ℝ) + -i| ≤ y + uR φ := by
      have := abs_le.1 h3
      rw [abs_le]; constructor <;> linarith [this.1, this.2]
    have h5 : |(1:ℝ) + -i| * uR φ ≤ (y + uR φ) * uR φ := by gcongr
    exact this.trans h5
  have hve : |(v:ℝ) - y| ≤ 1.51 * uR φ := by
    have h4 := abs_sub_le (v:ℝ) (1 + -i) y
    nlinarith
  have hvl : 0.49 * y ≤ v := by
    have h4 := abs_le.1 hvr
    have h5 := abs_le.1 h3
    have : (y + uR φ) * uR φ ≤ 0.001 * y := by nlinarith
    linarith [h4.1, h5.1]
  have hvp : 0 < v := by
    have : (0:ℝ) < v := by linarith
    exact_mod_cast this
  -- logarithms
  set l := Real.log q with hl
  have hl0 : 0 ≤ l := Real.log_nonneg hq1R.le
  have hl7 : l ≤ 0.7 := (Real.log_le_log (by linarith) hq'.le).trans hl2
  have hly : l ≤ 2 * y := by
    have := Real.log_le_sub_one_of_pos (x := (q:ℝ)) (by linarith)
    nlinarith
  set g := Real.log y with hg
  have hyg : y * |g| ≤ 1 / 2 := mul_abs_log_le hy0 (by linarith)
  have hlg : l * |g| ≤ 1 := by
    have : l * |g| ≤ 2 * y * |g| := mul_le_mul_of_nonneg_right hly (abs_nonneg _)
    linarith
  have hgv : |Real.log v - g| ≤ 3.1 * (uR φ / y) := by
    refine (abs_log_sub_le (by exact_mod_cast hvp) hy0).trans ?_
    have hmin : 0.49 * y ≤ min (v:ℝ) y := le_min hvl (by linarith)
    rw [div_le_iff₀ (by linarith)]
    have e1 : 3.1 * (uR φ / y) * (0.49 * y) ≤ 3.1 * (uR φ / y) * min (v:ℝ) y := by gcongr
    have e2 : 3.1 * (uR φ / y) * (0.49 * y) = 3.1 * 0.49 * uR φ := by field_simp
    linarith
  have huy : uR φ / y ≤ 0.503 := by rw [div_le_iff₀ hy0]; linarith
  have huy0 : 0 < uR φ / y := by positivity
  have hlogv : |Real.log v| ≤ |g| + 1.56 := by
    have := abs_add_le (Real.log v - g) g; rw [sub_add_cancel] at this; linarith
  have hgbig : |g| ≤ 2 ^ 15 + 2 := by
    have h4 := hvv.log_le hφ hvp
    have := abs_add_le (g - Real.log v) (Real.log v); rw [sub_add_cancel, abs_sub_comm] at this; linarith
  have hug : uR φ * |g| ≤ 1 / 400 := by
    have := mul_le_mul hu hgbig (abs_nonneg _) (by norm_num); norm_num at this ⊢; linarith
  have hgp := abs_nonneg g
  have hm : Near φ (L.log ((rndQ φ 1).add φ ((rndQ φ 1).div φ (ofF x)).neg)) g (2 * uR φ * |g| + 3.2 * uR φ + 3.1 * (uR φ / y)) := by
    refine ((hL.log _ _ hvv hvp).shift hgv).mono ?_
    have : 2 * uR φ * |Real.log v| ≤ 2 * uR φ * (|g| + 1.56) := by gcongr
    nlinarith
  have hll : SN φ (L.log (ofF x)) l 0.7 2.01 := sn_log hφ hL hx (by linarith) (by rw [abs_of_nonneg hl0]; exact hl7) (by norm_num) (by norm_num)
  have hh : SN φ (rndQ φ 0.5) ((1/2 : ℚ) : ℝ) (1/2) 0 := (vl_half hφ).sn (by norm_num [abs_of_pos]) (by norm_num) (by norm_num)
  have s1 := (hh.mul hφ hll (by norm_num) (by norm_num)).mono (A' := 0.35) (a' := 3.12) (by norm_num) (by norm_num)
  have s1n := s1.near.mono (e' := 1.12 * uR φ) (by nlinarith)
  have hin : |g + ((1/2:ℚ):ℝ) * l| ≤ |g| + 0.35 := by
    refine (abs_add_le _ _).trans ?_
    push_cast
    rw [abs_of_nonneg (a := 1 / 2 * l) (by positivity)]; linarith
  have s2 := (hm.add hφ s1n (by norm_num at hgbig ⊢; linarith)).mono (e' := 3 * uR φ * |g| + 3.1 * (uR φ / y) + 6.6 * uR φ) (by
    have e0 : 2 * uR φ * |g| + 3.2 * uR φ + 3.1 * (uR φ / y) + 1.12 * uR φ ≤ 1.8 := by
      have : uR φ ≤ 1 / 1000 := by linarith
      linarith
    have e1 : uR φ * (|g + ((1/2:ℚ):ℝ) * l| + (2 * uR φ * |g| + 3.2 * uR φ + 3.1 * (uR φ / y) + 1.12 * uR φ)) ≤ uR φ * (|g| + 0.35 + 1.8) := by
      apply mul_le_mul_of_nonneg_left _ hu0.le; linarith
    linarith)
  set ein := 3 * uR φ * |g| + 3.1 * (uR φ / y) + 6.6 * uR φ with hein
  have hein0 : 0 ≤ ein := by positivity
  have hein1 : ein ≤ 1.8 := by
    have : uR φ ≤ 1 / 1000 := by linarith
    linarith
  have hlein : l * ein ≤ 14 * uR φ := by
    have e1 : l * ein = 3 * uR φ * (l * |g|) + 3.1 * (uR φ / y) * l + 6.6 * uR φ * l := by rw [hein]; ring
    have e2 : 3.1 * (uR φ / y) * l ≤ 3.1 * (uR φ / y) * (2 * y) := by gcongr
    have e3 : 3.1 * (uR φ / y) * (2 * y) = 6.2 * uR φ := by field_simp; ring
    have e4 : 3 * uR φ * (l * |g|) ≤ 3 * uR φ * 1 := by gcongr
    have e5 : 6.6 * uR φ * l ≤ 6.6 * uR φ * 0.7 := by gcongr
    linarith
  set inn := g + ((1/2:ℚ):ℝ) * l with hinn
  have hlin : l * |inn| ≤ 1.25 := by
    have : l * |inn| ≤ l * (|g| + 0.35) := by gcongr
    have e : l * (|g| + 0.35) = l * |g| + 0.35 * l := by ring
    linarith
  have hln := hL.log _ _ hx (by linarith)
  rw [← hl, abs_of_nonneg hl0] at hln
  have hu2 : uR φ ^ 2 ≤ 0.001 * uR φ := by rw [pow_two]; apply mul_le_mul_of_nonneg_right _ hu0.le; linarith
  have huin : uR φ * |inn| ≤ 1 / 300 := by
    have : uR φ * |inn| ≤ uR φ * (|g| + 0.35) := by gcongr
    have : uR φ ≤ 1 / 2000 := by linarith
    linarith
  have g1 : (2 * uR φ * l + uR φ ^ 2) * |inn| ≤ 2.51 * uR φ := by
    have : (2 * uR φ * l + uR φ ^ 2) * |inn| = 2 * uR φ * (l * |inn|) + uR φ * (uR φ * |inn|) := by ring
    rw [this]
    have k1 : 2 * uR φ * (l * |inn|) ≤ 2 * uR φ * 1.25 := by gcongr
    have k2 := mul_le_mul_of_nonneg_left huin hu0.le
    linarith
  have g3 : (2 * uR φ * l + uR φ ^ 2) * ein ≤ 0.001 * uR φ := by
    have : (2 * uR φ * l + uR φ ^ 2) * ein = 2 * uR φ * (l * ein) + uR φ ^ 2 * ein := by ring
    rw [this]
    have k1 : 2 * uR φ * (l * ein) ≤ 2 * uR φ * (14 * uR φ) := by gcongr
    have k2 : uR φ ^ 2 * ein ≤ uR φ ^ 2 * 1.8 := by gcongr
    have k3 : uR φ ^ 2 ≤ 0.00001 * uR φ := by rw [pow_two]; apply mul_le_mul_of_nonneg_right _ hu0.le; linarith
    have k4 : 2 * uR φ * (14 * uR φ) = 28 * uR φ ^ 2 := by ring
    linarith
  have e0 : (l + (2 * uR φ * l + uR φ ^ 2)) * (|inn| + ein) ≤ 1.3 := by
    have : (l + (2 * uR φ * l + uR φ ^ 2)) * (|inn| + ein) = l * |inn| + l * ein + (2 * uR φ * l + uR φ ^ 2) * |inn| + (2 * uR φ * l + uR φ ^ 2) * ein := by ring
    rw [this]
    have : uR φ ≤ 1 / 1000 := by linarith
    linarith
  have hprod : SN φ ((L.log (ofF x)).mul φ ((L.log ((rndQ φ 1).add φ ((rndQ φ 1).div φ (ofF x)).neg)).add φ ((rndQ φ 0.5).mul φ (L.log (ofF x))))) (l * inn) 1.25 15 := by
    refine ⟨(hln.mul hφ s2 (by rw [abs_of_nonneg hl0]; linarith)).mono ?_, by rw [abs_mul, abs_of_nonneg hl0]; exact hlin, by norm_num, by norm_num, by norm_num, by norm_num⟩
    rw [abs_of_nonneg hl0, mul_comm ein l]
    have g4 := mul_le_mul_of_nonneg_left e0 hu0.le
    linarith
  have hpi := sn_pisq hφ hPI (vl_nat hφ 6 (by norm_num)) (by norm_num) (by norm_num)
  push_cast at hpi
  have s4 := (hpi.sub hφ hprod (m := 15) (by norm_num) (by norm_num) le_rfl).mono (A' := 2.91) (a' := 16.01) (by norm_num) (by norm_num)
  have hfinal := hfin.sn hφ (y := (FOps.lit 1 : FP φ L) -. (FOps.lit 1 : FP φ L) /. x)
    (r := PI *. PI /. (FOps.lit 6 : FP φ L) -. (xlog x) *. ((xlog ((FOps.lit 1 : FP φ L) -. (FOps.lit 1 : FP φ L) /. x)) +. (FOps.lit 0.5 : FP φ L) *. (xlog x)))
    (s := (FOps.lit 1 : FP φ L)) (σ := 1) (y0 := y) (B := 60 * uR φ)
    hvv hv0 hv1 h1 (Or.inl rfl) s4 hy0.le hyh hve (by
      have h2 : (16.01 + 1.01) * 2.91 + 1 + 3.02 ≤ (60:ℝ) := by norm_num
      have := mul_le_mul_of_nonneg_left h2 hu0.le
      linarith)
  refine hfinal.congr ?_
  have hI := reLi_two_inv hq1R
  rw [← one_div] at hI
  have hix0 : 0 < 1 / (q:ℝ) := by positivity
  have hR := reLi_two_refl hix0 (by rw [div_lt_one (by linarith)]; exact hq1R)
  have hl' : Real.log (1 / (q:ℝ)) = -Real.log q := by rw [one_div, Real.log_inv]
  rw [hl'] at hR
  rw [hI, hR, hinn]; push_cast; ring

/-- all branches -/
theorem li2Gen_fp (x : FP φ L) {q : ℚ} (hx : Val φ (ofF x) q) (hE : 0 ≤ E) :
    Near φ (ofF (li2Gen fin PI x)) (reLi 2 q) (E + 60 * uR φ * (1 + Real.log (1 + |(q:ℝ)|) ^ 2)) := by
  have hu0 := uR_pos (φ := φ)
  set Λ2 := Real.log (1 + |(q:ℝ)|) ^ 2 with hΛ2
  have hΛ0 : 0 ≤ Λ2 := by positivity
  have hp : 0 ≤ uR φ * Λ2 := by positivity
  have h1 := vl_one hφ
  have e0 : (ofF x).lt (rndQ φ 1).neg = decide (q < -1) := hx.lt h1.neg
  have e1 : (ofF x).eq (rndQ φ 1).neg = decide (q = -1) := hx.eq h1.neg
  have e2 : (ofF x).lt (rndQ φ 0) = decide (q < 0) := hx.lt (vl_zero hφ)
  have e3 : (ofF x).eq (rndQ φ 0) = decide (q = 0) := hx.eq (vl_zero hφ)
  have e4 : (ofF x).lt (rndQ φ 0.5) = decide (q < 1 / 2) := hx.lt (vl_half hφ)
  have e5 : (ofF x).lt (rndQ φ 1) = decide (q < 1) := hx.lt h1
  have e6 : (ofF x).eq (rndQ φ 1) = decide (q = 1) := hx.eq h1
  have e7 : (ofF x).lt (rndQ φ 2) = decide (q < 2) := by
    have := hx.lt (vl_nat hφ 2 (by norm_num)); push_cast at this; exact this
  unfold li2Gen
  simp only [lt_F, eq_F, ofF_neg, ofF_lit, e0, e1, e2, e3, e4, e5, e6, e7, decide_eq_true_eq]
  split_ifs with h1 h2 h3 h4 h5 h6 h7 h8
  · exact (li2_b1 hφ hL hfin hPI x hx h1).mono (by rw [← hΛ2]; nlinarith)
  · subst h2
    have := li2_b2 hφ hL hfin hPI
    refine (this.mono ?_).congr (by push_cast; rfl)
    nlinarith
  · exact (li2_b3 hφ hL hfin hPI x hx (lt_of_le_of_ne (not_lt.1 h1) (Ne.symm h2)) h3).mono (by nlinarith)
  · subst h4
    refine (hx.near.mono ?_).congr (by simp [reLi_zero_right])
    nlinarith
  · exact (li2_b5 hφ hL hfin hPI x hx (lt_of_le_of_ne (not_lt.1 h3) (Ne.symm h4)) h5).mono (by nlinarith)
  · exact (li2_b6 hφ hL hfin hPI x hx (not_lt.1 h5) h6).mono (by nlinarith)
  · subst h7
    have := li2_b7 hφ hL hfin hPI
    refine (this.mono ?_).congr (by push_cast; rfl)
    nlinarith
  · exact (li2_b8 hφ hL hfin hPI x hx (lt_of_le_of_ne (not_lt.1 h6) (Ne.symm h7)) h8).mono (by nlinarith)
  · exact (li2_b9 hφ hL hfin hPI x hx (not_lt.1 h8)).mono (by rw [← hΛ2]; nlinarith)

end

end Polylog
