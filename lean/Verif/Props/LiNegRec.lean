import Verif.Props.LiNegAcc
import Verif.Proofs.NegSeries

/-!
# C21: `Li(n,z)` for `n < -1`: power series, recursion, depth
-/

namespace Polylog
open Finset

/-! ### the branches of `Li`, in every arithmetic -/
section
variable {F : Type} [FOps F]

/-- `4*PI*PI*nz < nl` (Li.cpp 198) -/
def negSeries (z : Cx F) : Bool :=
  (FOps.lit 4 : F) *. (FOps.lit 3.1415926535897932 : F) *. (FOps.lit 3.1415926535897932 : F) *. Cx.norm z <. Cx.norm (clog z)

/-- `nl < 0.512*0.512*4*PI*PI` (Li.cpp 200) -/
def negUnity (z : Cx F) : Bool :=
  Cx.norm (clog z) <. (FOps.lit 0.512 : F) *. (FOps.lit 0.512 : F) *. (FOps.lit 4 : F) *. (FOps.lit 3.1415926535897932 : F) *. (FOps.lit 3.1415926535897932 : F)

theorem Li_neg_series (fuel : ℕ) (n : Int) (hn : n < -1) (z : Cx F) (hr : Regular z) (h : negSeries z = true) : Li fuel n z = .ok (liSeries n z) := by
  unfold negSeries at h
  rw [Li.eq_def]
  simp only [hr.nan, hr.inf, hr.zero, hr.one, hr.mone, Bool.false_eq_true, if_false]
  rw [if_pos hn, if_pos h]; rfl

theorem Li_neg_unity (fuel : ℕ) (n : Int) (hn : n < -1) (z : Cx F) (hr : Regular z) (h : negSeries z = false) (h2 : negUnity z = true) :
    Li fuel n z = liUnityNeg n z := by
  unfold negSeries at h
  unfold negUnity at h2
  rw [Li.eq_def]
  simp only [hr.nan, hr.inf, hr.zero, hr.one, hr.mone, Bool.false_eq_true, if_false]
  rw [if_pos hn, if_neg (by rw [h]; simp), if_pos h2]

theorem Li_neg_rec (fuel : ℕ) (n : Int) (hn : n < -1) (z : Cx F) (hr : Regular z) (h : negSeries z = false) (h2 : negUnity z = false) :
    Li (fuel + 1) n z = (do
      let n1 ← i64sub n 1
      let a ← Li fuel n (Cx.sqrt z)
      let b ← Li fuel n ∸(Cx.sqrt z)
      pure (FOps.exp2 (FOps.ofInt n1 : F) *. (a +. b))) := by
  unfold negSeries at h
  unfold negUnity at h2
  rw [Li.eq_def]
  simp only [hr.nan, hr.inf, hr.zero, hr.one, hr.mone, Bool.false_eq_true, if_false]
  rw [if_pos hn, if_neg (by rw [h]; simp), if_neg (by rw [h2]; simp)]

theorem Li_neg_rec0 (n : Int) (hn : n < -1) (z : Cx F) (hr : Regular z) (h : negSeries z = false) (h2 : negUnity z = false) :
    Li 0 n z = .error .fuel := by
  unfold negSeries at h
  unfold negUnity at h2
  rw [Li.eq_def]
  simp only [hr.nan, hr.inf, hr.zero, hr.one, hr.mone, Bool.false_eq_true, if_false]
  rw [if_pos hn, if_neg (by rw [h]; simp), if_neg (by rw [h2]; simp)]
  rfl

end

noncomputable section
variable {S : RealSem} {u : ℝ}

/-! ### the branch conditions over the reals -/

theorem negSeries_R (hS : S.Lit u) (z : ℂ) : negSeries (ofC S z) = true ↔
    4 * ((S.rho 3.1415926535897932 : ℚ) : ℝ) ^ 2 * ‖z‖ ^ 2 < ‖(clog (ofC S z)).toC‖ ^ 2 := by
  unfold negSeries
  rw [lt_R, ofR_norm, ofR_mul, ofR_mul, ofR_mul, ofR_norm, decide_eq_true_eq, toC_ofC, Complex.normSq_eq_norm_sq, Complex.normSq_eq_norm_sq, ofR_lit, ofR_lit,
    hS.dy 4 4 0 (by norm_num) (by norm_num) (by norm_num)]
  have e : ((4:ℚ) : ℝ) * ((S.rho 3.1415926535897932 : ℚ) : ℝ) * ((S.rho 3.1415926535897932 : ℚ) : ℝ) * ‖z‖ ^ 2 = 4 * ((S.rho 3.1415926535897932 : ℚ) : ℝ) ^ 2 * ‖z‖ ^ 2 := by
    push_cast; ring
  rw [e]

theorem negUnity_R (hS : S.Lit u) (z : ℂ) : negUnity (ofC S z) = true ↔
    ‖(clog (ofC S z)).toC‖ ^ 2 < 4 * ((S.rho 0.512 : ℚ) : ℝ) ^ 2 * ((S.rho 3.1415926535897932 : ℚ) : ℝ) ^ 2 := by
  unfold negUnity
  rw [lt_R, ofR_norm, ofR_mul, ofR_mul, ofR_mul, ofR_mul, decide_eq_true_eq, Complex.normSq_eq_norm_sq, ofR_lit, ofR_lit, ofR_lit,
    hS.dy 4 4 0 (by norm_num) (by norm_num) (by norm_num)]
  have e : ((S.rho 0.512 : ℚ) : ℝ) * ((S.rho 0.512 : ℚ) : ℝ) * ((4:ℚ):ℝ) * ((S.rho 3.1415926535897932 : ℚ) : ℝ) * ((S.rho 3.1415926535897932 : ℚ) : ℝ) =
      4 * ((S.rho 0.512 : ℚ) : ℝ) ^ 2 * ((S.rho 3.1415926535897932 : ℚ) : ℝ) ^ 2 := by push_cast; ring
  rw [e]

/-- the literals of the branch conditions -/
theorem neg_lits (hS : S.Lit u) (hu6 : u ≤ 1e-6) : 3.14158 ≤ ((S.rho 3.1415926535897932 : ℚ) : ℝ) ∧ ((S.rho 3.1415926535897932 : ℚ) : ℝ) ≤ 3.1416 ∧
    0.511999 ≤ ((S.rho 0.512 : ℚ) : ℝ) ∧ ((S.rho 0.512 : ℚ) : ℝ) ≤ 0.512001 := by
  have hu := hS.u_nonneg
  have h1 := abs_le.mp (piLi_err hS)
  have h2 := hS.rel 0.512
  have e : (((0.512 : ℚ)) : ℝ) = 0.512 := by norm_num
  rw [e, abs_of_pos (by norm_num : (0:ℝ) < 0.512)] at h2
  have hp := Real.pi_gt_d6
  have hp2 := Real.pi_lt_d6
  generalize ((S.rho 0.512 : ℚ) : ℝ) = x at *
  generalize ((S.rho 3.1415926535897932 : ℚ) : ℝ) = y at *
  rw [abs_le] at h2
  refine ⟨?_, ?_, ?_, ?_⟩ <;> norm_num at * <;> linarith

/-- the squared modulus of the computed logarithm -/
theorem clog_sq (hS : S.Lit u) (hu6 : u ≤ 1e-6) {z : ℂ} (h0 : z ≠ 0) : ‖(clog (ofC S z)).toC‖ ^ 2 ≤ Real.log ‖z‖ ^ 2 + 9.8697 := by
  obtain ⟨p1, p2, _, _⟩ := neg_lits hS hu6
  have hL := C07_clog hS (ofC S z) (by rwa [toC_ofC])
  rw [toC_ofC] at hL
  rw [hL, ← Complex.normSq_eq_norm_sq, Complex.normSq_apply]
  split
  · rename_i h
    have e : |z.re| = ‖z‖ := by
      have : z = ((z.re : ℝ) : ℂ) := Complex.ext (by simp) (by simp [h.1])
      conv_rhs => rw [this, Complex.norm_real, Real.norm_eq_abs]
    dsimp only
    rw [e]
    nlinarith
  · rw [Complex.log_re, Complex.log_im]
    have h1 := Complex.abs_arg_le_pi z
    have hpi := Real.pi_lt_d6
    have hp0 := Real.pi_pos
    have : z.arg ^ 2 ≤ Real.pi ^ 2 := sq_le_sq' (by linarith [abs_le.mp h1]) (abs_le.mp h1).2
    nlinarith

/-- small arguments only go to the power series -/
theorem negSeries_small (hS : S.Lit u) (hu6 : u ≤ 1e-6) {z : ℂ} (h0 : z ≠ 0) (h : negSeries (ofC S z) = true) : ‖z‖ ≤ 0.52 := by
  rw [negSeries_R hS] at h
  have h2 := clog_sq hS hu6 h0
  obtain ⟨p1, p2, _, _⟩ := neg_lits hS hu6
  have hz : 0 < ‖z‖ := norm_pos_iff.mpr h0
  by_contra hc
  push Not at hc
  set r := ‖z‖ with hr
  have hP : 39.477 ≤ 4 * ((S.rho 3.1415926535897932 : ℚ) : ℝ) ^ 2 := by nlinarith
  have hlog : Real.log r ^ 2 ≤ 0.18 + r ^ 2 := by
    rcases le_or_gt r 1 with h1 | h1
    · have hl : Real.log r ≤ 0 := Real.log_nonpos hz.le h1
      have hl2 : -(0.66:ℝ) ≤ Real.log r := by
        rw [Real.le_log_iff_exp_le hz]
        have : Real.exp (-0.66) ≤ 0.52 := by
          have h4 := Real.sum_le_exp_of_nonneg (x := (0.66:ℝ)) (by norm_num) 7
          rw [Real.exp_neg]
          rw [inv_le_comm₀ (Real.exp_pos _) (by norm_num)]
          norm_num [Finset.sum_range_succ, Nat.factorial] at h4 ⊢
          linarith
        linarith
      nlinarith
    · have hl : 0 ≤ Real.log r := Real.log_nonneg h1.le
      have := Real.log_le_sub_one_of_pos hz
      nlinarith
  have h3 : (0.52:ℝ) ^ 2 ≤ r ^ 2 := pow_le_pow_left₀ (by norm_num) hc.le 2
  nlinarith

/-- arguments that are not near the unit circle only are halved -/
theorem negUnity_of_log (hS : S.Lit u) (hu6 : u ≤ 1e-6) {z : ℂ} (h0 : z ≠ 0) (h : |Real.log ‖z‖| ≤ 0.69) : negUnity (ofC S z) = true := by
  rw [negUnity_R hS]
  have h2 := clog_sq hS hu6 h0
  obtain ⟨p1, p2, p3, p4⟩ := neg_lits hS hu6
  have h3 : Real.log ‖z‖ ^ 2 ≤ 0.69 ^ 2 := sq_le_sq' (abs_le.mp h).1 (abs_le.mp h).2
  generalize ((S.rho 0.512 : ℚ) : ℝ) = x at *
  generalize ((S.rho 3.1415926535897932 : ℚ) : ℝ) = y at *
  have h4 : 0.511999 * 3.14158 ≤ x * y := mul_le_mul p3 p1 (by norm_num) (by linarith)
  have h5 : (0.511999 * 3.14158) ^ 2 ≤ (x * y) ^ 2 := pow_le_pow_left₀ (by norm_num) h4 2
  calc _ ≤ Real.log ‖z‖ ^ 2 + 9.8697 := h2
    _ ≤ 0.69 ^ 2 + 9.8697 := by linarith
    _ < 4 * (0.511999 * 3.14158) ^ 2 := by norm_num
    _ ≤ 4 * (x * y) ^ 2 := by linarith
    _ = _ := by ring

theorem negUnity_log (hS : S.Lit u) (hu6 : u ≤ 1e-6) {z : ℂ} (h0 : z ≠ 0) (h : negUnity (ofC S z) = true) :
    ‖(clog (ofC S z)).toC‖ ≤ 3.2171 ∧ ‖Complex.log z‖ + piErr u z ≤ 3.2172 := by
  have hu := hS.u_nonneg
  rw [negUnity_R hS] at h
  obtain ⟨p1, p2, p3, p4⟩ := neg_lits hS hu6
  have hd := clog_err hS h0
  have hd1 : piErr u z ≤ 4e-6 := by unfold piErr; split <;> norm_num at * <;> linarith
  have hk : ‖(clog (ofC S z)).toC‖ ≤ 3.2171 := by
    have e : 4 * ((S.rho 0.512 : ℚ) : ℝ) ^ 2 * ((S.rho 3.1415926535897932 : ℚ) : ℝ) ^ 2 = (2 * ((S.rho 0.512 : ℚ) : ℝ) * ((S.rho 3.1415926535897932 : ℚ) : ℝ)) ^ 2 := by ring
    rw [e] at h
    generalize ((S.rho 0.512 : ℚ) : ℝ) = x at *
    generalize ((S.rho 3.1415926535897932 : ℚ) : ℝ) = y at *
    have := abs_lt_of_sq_lt_sq h (by nlinarith)
    rw [abs_of_nonneg (norm_nonneg _)] at this
    nlinarith
  refine ⟨hk, ?_⟩
  have := norm_le_norm_add_norm_sub' (Complex.log z) (clog (ofC S z)).toC
  rw [norm_sub_rev] at this
  norm_num at *
  linarith

/-! ### the power series -/

/-- **C21 (power series, every stopping index).**  Exact elementary operations: after `m` passes of `Li_series(-N,z)` the partial sum differs
from `Li_{-N}(z)` by at most the next term `p` divided by `1 - q`, if `q < 1` bounds the ratio of the later terms. -/
theorem C21_series_stop (hS : S.Lit u) (N : ℕ) {z : ℂ} {r q : ℝ} (hz : ‖z‖ ≤ r) (hr : r < 1) (m : ℕ) (hq1 : q < 1)
    (hq : ((m:ℝ) + 2) ^ N * r ≤ q * ((m:ℝ) + 1) ^ N) :
    ‖(seriesTrace (-(N:ℤ)) (ofC S z) m).1.toC - pLiNeg N z‖ ≤ ((m:ℝ) + 1) ^ N * r ^ (m + 1) / (1 - q) := by
  rw [(seriesTrace_R hS (-(N:ℤ)) z m).1]
  refine le_trans (le_of_eq ?_) (pLiNeg_remainder N m hz hr hq1 hq)
  congr 2
  refine sum_congr rfl fun k _ => ?_
  rw [zpow_neg, zpow_natCast, div_inv_eq_mul, mul_comm]

/-- the terms beyond `m = 2000` are negligible -/
theorem neg_series_tiny (N m : ℕ) (hN : N ≤ 81) (hm : 2000 ≤ m) :
    ((m:ℝ) + 2) ^ N * 0.52 ≤ 0.6 * ((m:ℝ) + 1) ^ N ∧ ((m:ℝ) + 1) ^ N * 0.52 ^ (m + 1) / (1 - 0.6) ≤ 1e-100 := by
  have step : ∀ m : ℕ, 2000 ≤ m → ((m:ℝ) + 2) ^ N * 0.52 ≤ 0.6 * ((m:ℝ) + 1) ^ N := by
    intro m hm
    have hm' : (2000:ℝ) ≤ m := by exact_mod_cast hm
    have h1 : (((m:ℝ) + 2) / ((m:ℝ) + 1)) ^ N ≤ 1.1 := by
      calc (((m:ℝ) + 2) / ((m:ℝ) + 1)) ^ N ≤ (1.0005:ℝ) ^ N := by
            refine pow_le_pow_left₀ (by positivity) ?_ N
            rw [div_le_iff₀ (by positivity)]; linarith
        _ ≤ 1.0005 ^ 81 := pow_le_pow_right₀ (by norm_num) hN
        _ ≤ _ := by norm_num
    rw [div_pow, div_le_iff₀ (by positivity)] at h1
    have : (0:ℝ) ≤ ((m:ℝ) + 1) ^ N := by positivity
    linarith
  refine ⟨step m hm, ?_⟩
  have key : ((m:ℝ) + 1) ^ N * 0.52 ^ (m + 1) ≤ 1e-101 := by
    induction m, hm using Nat.le_induction with
    | base =>
      have h1 : ((2000:ℕ):ℝ) + 1 = 2001 := by norm_num
      rw [h1]
      have h2 : (0.52:ℝ) ^ (2000 + 1) = 0.52 * (0.52 ^ 10) ^ 200 := by rw [← pow_mul, pow_succ]; ring
      rw [h2]
      have h3 : (0.52:ℝ) ^ 10 ≤ 1 / 690 := by norm_num
      have h4 : ((0.52:ℝ) ^ 10) ^ 200 ≤ (1 / 690) ^ 200 := pow_le_pow_left₀ (by positivity) h3 _
      have h5 : (2001:ℝ) ^ N ≤ 2001 ^ 81 := pow_le_pow_right₀ (by norm_num) hN
      have h6 : (2001:ℝ) ^ 81 * (0.52 * (1 / 690) ^ 200) ≤ 1e-101 := by norm_num
      refine le_trans (mul_le_mul h5 (mul_le_mul_of_nonneg_left h4 (by norm_num)) (by positivity) (by positivity)) h6
    | succ m hm ih =>
      have := step m hm
      refine le_trans ?_ ih
      rw [pow_succ _ (m + 1)]
      push_cast
      rw [show (m:ℝ) + 1 + 1 = m + 2 by ring]
      have hp : (0:ℝ) ≤ 0.52 ^ (m + 1) := by positivity
      have hp2 : (0:ℝ) ≤ ((m:ℝ) + 1) ^ N := by positivity
      calc ((m:ℝ) + 2) ^ N * (0.52 ^ (m + 1) * 0.52) = (((m:ℝ) + 2) ^ N * 0.52) * 0.52 ^ (m + 1) := by ring
        _ ≤ (0.6 * ((m:ℝ) + 1) ^ N) * 0.52 ^ (m + 1) := mul_le_mul_of_nonneg_right this hp
        _ ≤ _ := mul_le_mul_of_nonneg_right (by linarith) hp
  rw [div_le_iff₀ (by norm_num)]
  refine key.trans (by norm_num)

/-- **C21 (power series).**  Order `-N`, `N ≤ 81`, where the code uses the power series -/
theorem C21_series (hS : S.Lit u) (N : ℕ) (hN : N ≤ 81) {z : ℂ} (h0 : z ≠ 0) (hz : ‖z‖ ≤ 0.52) :
    ‖(liSeries (-(N:ℤ)) (ofC S z)).toC - pLiNeg N z‖ ≤ 1e-100 := by
  rw [liSeries_R hS _ h0]
  obtain ⟨M, hM⟩ : ∃ M : ℕ, M = 2 ^ 63 - 3 := ⟨_, rfl⟩
  rw [← hM]
  have hM2 : 2000 ≤ M := by rw [hM]; norm_num
  clear hM
  obtain ⟨t1, t2⟩ := neg_series_tiny N M hN hM2
  have h := C21_series_stop hS N hz (by norm_num) M (by norm_num : (0.6:ℝ) < 1) t1
  rw [(seriesTrace_R hS (-(N:ℤ)) z M).1] at h
  exact h.trans t2

/-! ### what `Li_unity_neg` returns over the reals -/

theorem zcoef_odd_ne (N k : ℕ) (h : (N + k) % 2 = 1) : zcoef (-N) k ≠ 0 := by
  obtain ⟨m, hm⟩ : ∃ m, N + k + 1 = 2 * m := ⟨(N + k + 1) / 2, by omega⟩
  rw [zcoef, if_neg (by omega)]
  have e : (((-(N:ℤ) - (k:ℤ) : ℤ)) : ℂ) = 1 - 2 * (m:ℂ) := by
    have : (-(N:ℤ) - (k:ℤ)) = 1 - 2 * (m:ℤ) := by omega
    rw [this]; push_cast; ring
  rw [e, zeta_odd_bern m (by omega)]
  have hb := bern_size m (by omega)
  have hne : (bernoulli (2 * m) : ℝ) ≠ 0 := by
    intro h0
    rw [h0, mul_zero] at hb
    have h1 : 0 < 2 * ((2 * m).factorial : ℝ) / (2 * Real.pi) ^ (2 * m) := by
      have : (0:ℝ) < (2 * m).factorial := by exact_mod_cast Nat.factorial_pos _
      have := Real.pi_pos
      positivity
    linarith
  have hne' : bernoulli (2 * m) ≠ 0 := by exact_mod_cast hne
  have hm0 : (m:ℚ) ≠ 0 := by have : m ≠ 0 := by omega
                             exact_mod_cast this
  refine div_ne_zero ?_ (by exact_mod_cast k.factorial_ne_zero)
  have : (-(bernoulli (2 * m)) / (2 * m) : ℚ) ≠ 0 := div_ne_zero (neg_ne_zero.mpr hne') (by simpa using hm0)
  exact_mod_cast this

theorem ccn_ne (hS : S.Lit u) (hu6 : u ≤ 1e-6) (N k : ℕ) (hN : 1 ≤ N) (h1 : N + k ≤ 259) (h2 : k < 178) (h : (N + k) % 2 = 1) : ccn S N k ≠ 0 := by
  intro h0
  have he := ccn_err hS hu6 N k hN h1 h2
  have hu := hS.u_nonneg
  rw [h0, Complex.ofReal_zero, zero_sub, norm_neg] at he
  have hp := norm_pos_iff.mpr (zcoef_odd_ne N k h)
  have hc : (1.2e-16 + 2.1 * u) ≤ 1 / 2 := by norm_num at hu6 ⊢; linarith
  nlinarith

/-- number of passes of the loop of `Li_unity_neg` until `1/k!` is taken as zero -/
def negM (N : ℕ) : ℕ := if N % 2 = 0 then 89 else 88

theorem negK_M (N : ℕ) : negK N (negM N) = if N % 2 = 0 then 179 else 178 := by
  unfold negK negK0 negM; split <;> rfl

theorem negLoop_R (hS : S.Lit u) (hu6 : u ≤ 1e-6) (N : ℕ) (hN : 1 ≤ N) (hN2 : N ≤ 81) (z : Cx (R S)) (hL : (clog z).toC ≠ 0)
    (s : Cx (R S) × Cx (R S)) (X : ℂ)
    (h1 : s.1.toC = X + ∑ k ∈ range (negK0 N), (ccn S N k : ℂ) * (clog z).toC ^ k) (h2 : s.2.toC = (clog z).toC ^ negK0 N) (f : ℕ) :
    ∀ j m, m + j = negM N → ∃ w, liUnityNegLoop (-(N:ℤ)) (clog z *. clog z) (f + j + 1) ((negK N m : ℕ):ℤ)
      (unityNegTrace (-(N:ℤ)) (clog z *. clog z) (negK0 N : ℤ) s m).1 (unityNegTrace (-(N:ℤ)) (clog z *. clog z) (negK0 N : ℤ) s m).2 = .ok w ∧
      w.toC = (unityNegTrace (-(N:ℤ)) (clog z *. clog z) (negK0 N : ℤ) s (negM N)).1.toC := by
  intro j
  induction j with
  | zero =>
    intro m hm
    rw [add_zero] at hm
    rw [hm]
    have hK := negK_M N
    have hK2 : 178 ≤ negK N (negM N) ∧ negK N (negM N) ≤ 179 := by rw [hK]; split <;> omega
    set t := unityNegTrace (-(N:ℤ)) (clog z *. clog z) (negK0 N : ℤ) s (negM N) with ht
    generalize negK N (negM N) = K at *
    unfold liUnityNegLoop
    rw [bind_def (i64sub_ok (by simp only [i64min, i64max]; omega))]
    obtain ⟨zt, hzt⟩ := defined_zeta (F := R S) (-(N:ℤ) - (K:ℤ)) (by simp only [i64min]; omega) (by simp only [i64max]; omega)
    rw [bind_def hzt, bind_def (invFac_ifacV _)]
    dsimp only
    have hfin : cisFinite (zt *. ifacV (R S) (K:ℤ) *. t.2) = true := by simp [cisFinite, isfinite_R]
    rw [if_neg (by rw [hfin]; simp), bind_def (i64add_ok (by simp only [i64min, i64max]; omega))]
    have h0 : (t.1 +. zt *. ifacV (R S) (K:ℤ) *. t.2).toC = t.1.toC := by
      rw [toC_add, toC_rmul, ofR_mul, ifacR_V, ifacR_big hS K hK2.1]; simp
    rw [if_neg (by rw [Cx.bne, beq_R, h0]; simp)]
    exact ⟨_, rfl, h0⟩
  | succ j ih =>
    intro m hm
    have hlt : negK N m + 2 ≤ negK N (negM N) := by unfold negK; omega
    have hK := negK_M N
    have hK3 : negK N m < 178 := by rw [hK] at hlt; split at hlt <;> omega
    have hodd : (N + negK N m) % 2 = 1 := by unfold negK negK0; split <;> omega
    have hpos : 1 ≤ negK N m := by unfold negK negK0; split <;> omega
    obtain ⟨w, hw, hwv⟩ := ih (m + 1) (by omega)
    refine ⟨w, ?_, hwv⟩
    rw [← hw]
    conv_lhs => unfold liUnityNegLoop
    have hkk : ((negK N m : ℕ):ℤ) = (negK0 N : ℤ) + 2 * (m:ℤ) := by unfold negK; push_cast; rfl
    have hkk2 : ((negK N (m + 1) : ℕ):ℤ) = (negK N m : ℤ) + 2 := by unfold negK; push_cast; ring
    rw [bind_def (i64sub_ok (by simp only [i64min, i64max]; omega))]
    have hzt := zeta_zetaV (F := R S) (-(N:ℤ) - (negK N m:ℤ)) (defined_zeta _ (by simp only [i64min]; omega) (by simp only [i64max]; omega))
    rw [bind_def hzt, bind_def (invFac_ifacV _)]
    dsimp only
    have hfin : ∀ x : Cx (R S), cisFinite x = true := fun x => by simp [cisFinite, isfinite_R]
    rw [if_neg (by rw [hfin]; simp), bind_def (i64add_ok (by simp only [i64min, i64max]; omega))]
    have hstep : (unityNegTrace (-(N:ℤ)) (clog z *. clog z) (negK0 N : ℤ) s (m + 1)) =
      ((unityNegTrace (-(N:ℤ)) (clog z *. clog z) (negK0 N : ℤ) s m).1 +. zetaV (R S) (-(N:ℤ) - (negK N m:ℤ)) *. ifacV (R S) (negK N m:ℤ) *. (unityNegTrace (-(N:ℤ)) (clog z *. clog z) (negK0 N : ℤ) s m).2,
        (unityNegTrace (-(N:ℤ)) (clog z *. clog z) (negK0 N : ℤ) s m).2 *. (clog z *. clog z)) := by
      rw [hkk]; rfl
    have hne : (unityNegTrace (-(N:ℤ)) (clog z *. clog z) (negK0 N : ℤ) s (m + 1)).1.toC ≠ (unityNegTrace (-(N:ℤ)) (clog z *. clog z) (negK0 N : ℤ) s m).1.toC := by
      rw [(negTrace_R N z s X h1 h2 (m + 1)).1, (negTrace_R N z s X h1 h2 m).1, show negK0 N + 2 * (m + 1) = negK N m + 1 + 1 by unfold negK; ring]
      change X + ∑ k ∈ range (negK N m + 1 + 1), _ ≠ X + ∑ k ∈ range (negK N m), _
      rw [sum_range_succ, sum_range_succ]
      have e1 : ccn S N (negK N m + 1) = 0 := by rw [ccn, if_neg (by omega)]
      rw [e1]
      intro hh
      have hc := ccn_ne hS hu6 N (negK N m) hN (by rw [hK] at hlt; split at hlt <;> omega) hK3 hodd
      have : (ccn S N (negK N m) : ℂ) * (clog z).toC ^ negK N m = 0 := by
        have := add_left_cancel hh
        simpa using this
      rcases mul_eq_zero.mp this with h | h
      · exact hc (by exact_mod_cast h)
      · exact pow_ne_zero _ hL h
    rw [hstep] at hne ⊢
    dsimp only at hne ⊢
    rw [if_pos (by rw [Cx.bne, beq_R]; simpa using hne), hkk2]
    rfl

/-- `Li_unity_neg(-N, z)` over the reals, `N ≤ 81`: the partial sum up to `k ≤ 177` -/
theorem liUnityNeg_R (hS : S.Lit u) (hu6 : u ≤ 1e-6) (N : ℕ) (hN : 1 ≤ N) (hN2 : N ≤ 81) (z : Cx (R S)) (hL : (clog z).toC ≠ 0) :
    ∃ s w, liUnityNegHead (-(N:ℤ)) z = .ok s ∧ liUnityNeg (-(N:ℤ)) z = .ok w ∧
      w.toC = (unityNegTrace (-(N:ℤ)) (clog z *. clog z) s.2.2 (s.1, s.2.1) (negM N)).1.toC := by
  obtain ⟨s, hs, hs1, hs2, hs3⟩ := negHead_R hS N (by simp only [i64min]; omega) z hL
  have hM : negM N ≤ 89 := by unfold negM; split <;> omega
  obtain ⟨w, hw, hwv⟩ := negLoop_R hS hu6 N hN hN2 z hL (s.1, s.2.1) _ hs3 hs2 (2 ^ 62 - negM N - 1) (negM N) 0 (by omega)
  rw [show 2 ^ 62 - negM N - 1 + negM N + 1 = 2 ^ 62 by omega] at hw
  refine ⟨s, w, hs, ?_, ?_⟩
  · rw [liUnityNeg_eq, bind_def hs, hs1]; exact hw
  · rw [hs1]; exact hwv

/-- the error bound of `C21_Li`: literals and `PI`, truncation -/
def negBound (u : ℝ) (N : ℕ) : ℝ :=
  N.factorial * ((N + 1) * (3.6e-16 + 12.2 * u) / 3.065 ^ (N + 1) + 4 * ((N + 179).choose N : ℝ) * 0.5122 ^ 178 / 6.283 ^ N)

theorem negErr_le (hu : 0 ≤ u) (N : ℕ) (hN : 2 ≤ N) (K : ℕ) (hK : K = 178 ∨ K = 179) {z : ℂ} (hl : 0 < ‖Complex.log z‖)
    (hl2 : ‖Complex.log z‖ + piErr u z ≤ 3.2172) (hu6 : u ≤ 1e-6) :
    N.factorial * negErr u N K (piErr u z) ‖Complex.log z‖ (3 / 4) ≤ negBound u N := by
  have hpi := Real.pi_gt_d4
  have hpi2 := Real.pi_lt_d4
  have hδ0 := piErr_nonneg hu z
  rw [negBound]
  refine mul_le_mul_of_nonneg_left ?_ (by positivity)
  rw [negErr]
  set r := ‖Complex.log z‖ + piErr u z with hr
  have hr0 : 0 ≤ r := by positivity
  have hD : (0:ℝ) < 3.065 ^ (N + 1) := by positivity
  have hN' : (2:ℝ) ≤ N := by exact_mod_cast hN
  have t1 : (1.2e-16 + 2.1 * u) * (2 * Real.pi / (2 * Real.pi - r) ^ (N + 1)) ≤ ((N:ℝ) + 1) * (2.6e-16 + 4.4 * u) / 3.065 ^ (N + 1) := by
    have h1 : 2 * Real.pi / (2 * Real.pi - r) ^ (N + 1) ≤ 6.2832 / 3.065 ^ (N + 1) := by
      refine div_le_div₀ (by norm_num) (by linarith) hD (pow_le_pow_left₀ (by norm_num) (by linarith) _)
    calc _ ≤ (1.2e-16 + 2.1 * u) * (6.2832 / 3.065 ^ (N + 1)) := mul_le_mul_of_nonneg_left h1 (by positivity)
      _ = ((1.2e-16 + 2.1 * u) * 6.2832) / 3.065 ^ (N + 1) := by ring
      _ ≤ _ := by
        refine div_le_div_of_nonneg_right ?_ hD.le
        norm_num
        nlinarith
  have t2 : piErr u z * ((N + 1) * (1 / (‖Complex.log z‖ - piErr u z) ^ (N + 2) + 2 * Real.pi / (2 * Real.pi - r) ^ (N + 2))) ≤
      ((N:ℝ) + 1) * (9.6e-17 + 7.7 * u) / 3.065 ^ (N + 1) := by
    by_cases hc : z.im = 0 ∧ z.re < 0
    · have hp : piErr u z = 4e-17 + 3.2 * u := if_pos hc
      have hlog : Real.pi ≤ ‖Complex.log z‖ := by
        have h1 := Complex.abs_im_le_norm (Complex.log z)
        rw [Complex.log_im] at h1
        have : z.arg = Real.pi := by rw [Complex.arg_eq_pi_iff]; exact ⟨hc.2, hc.1⟩
        rw [this, abs_of_pos Real.pi_pos] at h1
        exact h1
      have hp2 : piErr u z ≤ 0.001 := by rw [hp]; norm_num at *; linarith
      have h2 : 1 / (‖Complex.log z‖ - piErr u z) ^ (N + 2) ≤ 1 / 3.065 ^ (N + 2) :=
        one_div_le_one_div_of_le (by positivity) (pow_le_pow_left₀ (by norm_num) (by linarith) _)
      have h1 : 2 * Real.pi / (2 * Real.pi - r) ^ (N + 2) ≤ 6.2832 / 3.065 ^ (N + 2) :=
        div_le_div₀ (by norm_num) (by linarith) (by positivity) (pow_le_pow_left₀ (by norm_num) (by linarith) _)
      calc _ ≤ piErr u z * ((N + 1) * (1 / 3.065 ^ (N + 2) + 6.2832 / 3.065 ^ (N + 2))) := by gcongr
        _ = ((N:ℝ) + 1) * (piErr u z * (7.2832 / 3.065)) / 3.065 ^ (N + 1) := by
          rw [pow_succ (3.065:ℝ) (N + 1)]; field_simp; ring
        _ ≤ _ := by
          refine div_le_div_of_nonneg_right (mul_le_mul_of_nonneg_left ?_ (by positivity)) hD.le
          rw [hp]; norm_num; linarith
    · have hp : piErr u z = 0 := if_neg hc
      rw [hp, zero_mul]; positivity
  have t3 : ((N + K).choose N : ℝ) / (2 * Real.pi) ^ (N + K) * r ^ K / (1 - 3 / 4) ≤ 4 * ((N + 179).choose N : ℝ) * 0.5122 ^ 178 / 6.283 ^ N := by
    have hch : ((N + K).choose N : ℝ) ≤ ((N + 179).choose N : ℝ) := by exact_mod_cast Nat.choose_le_choose N (by omega)
    have hrk : (r / (2 * Real.pi)) ^ K ≤ 0.5122 ^ 178 := by
      calc (r / (2 * Real.pi)) ^ K ≤ 0.5122 ^ K := by
            refine pow_le_pow_left₀ (by positivity) ?_ K
            rw [div_le_iff₀ (by positivity)]; linarith
        _ ≤ _ := pow_le_pow_of_le_one (by norm_num) (by norm_num) (by omega)
    have h1 : 1 / (2 * Real.pi) ^ N ≤ 1 / 6.283 ^ N := one_div_le_one_div_of_le (by positivity) (pow_le_pow_left₀ (by norm_num) (by linarith) _)
    calc ((N + K).choose N : ℝ) / (2 * Real.pi) ^ (N + K) * r ^ K / (1 - 3 / 4) = 4 * (((N + K).choose N : ℝ) * (r / (2 * Real.pi)) ^ K * (1 / (2 * Real.pi) ^ N)) := by
          rw [div_pow, pow_add]; field_simp; norm_num
      _ ≤ 4 * (((N + 179).choose N : ℝ) * 0.5122 ^ 178 * (1 / 6.283 ^ N)) := by gcongr
      _ = _ := by ring
  refine (add_le_add (add_le_add t1 t2) t3).trans ?_
  refine add_le_add ?_ le_rfl
  rw [← add_div, ← mul_add]
  refine div_le_div_of_nonneg_right (mul_le_mul_of_nonneg_left ?_ (by positivity)) hD.le
  norm_num
  linarith

/-- **C21 (expansion about 1): what the code returns.**  Order `-N`, `2 ≤ N ≤ 81` -/
theorem C21_unity_result (hS : S.Lit u) (hu6 : u ≤ 1e-6) (N : ℕ) (hN : 2 ≤ N) (hN2 : N ≤ 81) {z : ℂ} (h0 : z ≠ 0) (h1 : z ≠ 1)
    (h : negUnity (ofC S z) = true) : ∃ v, liUnityNeg (-(N:ℤ)) (ofC S z) = .ok v ∧ ‖v.toC - pLiNeg N z‖ ≤ negBound u N := by
  have hu := hS.u_nonneg
  have hpi := Real.pi_gt_d4
  obtain ⟨b1, b2⟩ := negUnity_log hS hu6 h0 h
  have hl : 0 < ‖Complex.log z‖ := by
    rw [norm_pos_iff]
    intro hh
    exact h1 (by rw [← Complex.exp_log h0, hh, Complex.exp_zero])
  have hlt : piErr u z < ‖Complex.log z‖ := by
    unfold piErr
    split
    · rename_i hc
      have h1 := Complex.abs_im_le_norm (Complex.log z)
      rw [Complex.log_im, Complex.arg_eq_pi_iff.mpr ⟨hc.2, hc.1⟩, abs_of_pos Real.pi_pos] at h1
      norm_num at *; linarith
    · exact hl
  have hK := negK_M N
  have hK2 : negK N (negM N) = 178 ∨ negK N (negM N) = 179 := by rw [hK]; split <;> simp
  have hK3 : N + negK N (negM N) ≤ 261 := by rw [hK]; split <;> omega
  have hq : ((N + negK N (negM N) + 1 : ℕ) : ℝ) * (‖Complex.log z‖ + piErr u z) ≤ 3 / 4 * (2 * Real.pi * (negK N (negM N) + 1 : ℕ)) := by
    have hN' : (N:ℝ) ≤ 81 := by exact_mod_cast hN2
    have hr0 := piErr_nonneg hu z
    have hN0 : (0:ℝ) ≤ N := Nat.cast_nonneg N
    have a1 : ((N + negK N (negM N) + 1 : ℕ) : ℝ) * (‖Complex.log z‖ + piErr u z) ≤ ((N + negK N (negM N) + 1 : ℕ) : ℝ) * 3.2172 :=
      mul_le_mul_of_nonneg_left b2 (by positivity)
    refine a1.trans ?_
    have a2 : 3 / 4 * (2 * 3.1415 * ((negK N (negM N) + 1 : ℕ) : ℝ)) ≤ 3 / 4 * (2 * Real.pi * ((negK N (negM N) + 1 : ℕ) : ℝ)) := by gcongr
    refine le_trans ?_ a2
    rcases hK2 with h | h <;> rw [h] <;> push_cast <;> first | (norm_num; done) | (norm_num; linarith)
  obtain ⟨s, hs, hb⟩ := C21_unity hS hu6 N (by omega) h0 hlt (by linarith) (negM N) hK3 (by omega) (by norm_num : (3/4:ℝ) < 1) hq
  have hL0 : (clog (ofC S z)).toC ≠ 0 := by
    intro hh
    have := clog_err hS h0
    rw [hh, zero_sub, norm_neg] at this
    linarith
  obtain ⟨s', w, hs', hw, hwv⟩ := liUnityNeg_R hS hu6 N (by omega) hN2 (ofC S z) hL0
  rw [hs] at hs'
  cases hs'
  refine ⟨w, hw, ?_⟩
  rw [hwv]
  exact hb.trans (negErr_le hu N hN _ hK2 hl b2 hu6)

/-! ### the recursion -/

/-- **C21 (value and recursion depth).**  Order `-N`, `2 ≤ N ≤ 81`, exact elementary operations: for every `z` other than `0, 1, -1` with
`|log|z|| ≤ 0.69·2^d`, a recursion depth of `d` suffices, and the value returned is within `negBound` (relative to the size `N!` of the problem:
literals and `PI`, truncated tails) of `Li_{-N}(z)`, the rational function -/
theorem C21_Li (hS : S.Lit u) (hu6 : u ≤ 1e-6) (N : ℕ) (hN : 2 ≤ N) (hN2 : N ≤ 81) (d : ℕ) : ∀ (fuel : ℕ) (z : ℂ), d ≤ fuel → z ≠ 0 → z ≠ 1 → z ≠ -1 →
    |Real.log ‖z‖| ≤ 0.69 * 2 ^ d → ∃ v, Li fuel (-(N:ℤ)) (ofC S z) = .ok v ∧ ‖v.toC - pLiNeg N z‖ ≤ negBound u N + 1e-100 := by
  have hu := hS.u_nonneg
  have hB : 0 ≤ negBound u N := by unfold negBound; positivity
  have leaf : ∀ (fuel : ℕ) (z : ℂ), z ≠ 0 → z ≠ 1 → z ≠ -1 → (negSeries (ofC S z) = true ∨ negUnity (ofC S z) = true) →
      ∃ v, Li fuel (-(N:ℤ)) (ofC S z) = .ok v ∧ ‖v.toC - pLiNeg N z‖ ≤ negBound u N + 1e-100 := by
    intro fuel z h0 h1 h2 h
    have hr : Regular (ofC S z) := regular_R hS _ (by rwa [toC_ofC]) (by rwa [toC_ofC]) (by rwa [toC_ofC])
    by_cases hs : negSeries (ofC S z) = true
    · refine ⟨_, Li_neg_series fuel _ (by omega) _ hr hs, ?_⟩
      exact (C21_series hS N hN2 h0 (negSeries_small hS hu6 h0 hs)).trans (by linarith)
    · have hs' : negSeries (ofC S z) = false := by simpa using hs
      have h' := h.resolve_left hs
      rw [Li_neg_unity fuel _ (by omega) _ hr hs' h']
      obtain ⟨v, hv, hb⟩ := C21_unity_result hS hu6 N hN hN2 h0 h1 h'
      exact ⟨v, hv, hb.trans (by norm_num)⟩
  induction d with
  | zero =>
    intro fuel z _ h0 h1 h2 hl
    exact leaf fuel z h0 h1 h2 (.inr (negUnity_of_log hS hu6 h0 (by simpa using hl)))
  | succ d ih =>
    intro fuel z hf h0 h1 h2 hl
    by_cases hb : negSeries (ofC S z) = true ∨ negUnity (ofC S z) = true
    · exact leaf fuel z h0 h1 h2 hb
    push Not at hb
    obtain ⟨f, rfl⟩ : ∃ f, fuel = f + 1 := ⟨fuel - 1, by omega⟩
    have hr : Regular (ofC S z) := regular_R hS _ (by rwa [toC_ofC]) (by rwa [toC_ofC]) (by rwa [toC_ofC])
    rw [Li_neg_rec f _ (by omega) _ hr (by simpa using hb.1) (by simpa using hb.2)]
    set w : ℂ := z ^ (1 / 2 : ℂ) with hw
    have hww : w ^ 2 = z := by
      rw [hw, ← Complex.cpow_nat_mul]; norm_num
    have hw0 : w ≠ 0 := fun h => h0 (by rw [← hww, h]; simp)
    have hw1 : w ≠ 1 := fun h => h1 (by rw [← hww, h]; simp)
    have hw2 : w ≠ -1 := fun h => h1 (by rw [← hww, h]; simp)
    have hlog : Real.log ‖w‖ = Real.log ‖z‖ / 2 := by
      rw [← hww, norm_pow, Real.log_pow]; push_cast; ring
    have hl2 : |Real.log ‖w‖| ≤ 0.69 * 2 ^ d := by
      rw [hlog, abs_div, abs_of_pos (by norm_num : (0:ℝ) < 2), div_le_iff₀ (by norm_num)]
      refine hl.trans (le_of_eq ?_)
      rw [pow_succ]; ring
    have e1 : Cx.sqrt (ofC S z) = ofC S w := by rw [← ofC_toC (Cx.sqrt (ofC S z)), toC_sqrt, toC_ofC]
    have e2 : (∸(Cx.sqrt (ofC S z)) : Cx (R S)) = ofC S (-w) := by rw [e1, ← ofC_toC (∸(ofC S w)), toC_neg, toC_ofC]
    obtain ⟨a, ha, ha2⟩ := ih f w (by omega) hw0 hw1 hw2 hl2
    obtain ⟨b, hb', hb2⟩ := ih f (-w) (by omega) (neg_ne_zero.mpr hw0) (fun h => hw2 (by rw [← h, neg_neg])) (fun h => hw1 (neg_injective h)) (by rwa [norm_neg])
    rw [bind_def (i64sub_ok (by simp only [i64min, i64max]; omega)), e1, bind_def ha, ← e1, e2, bind_def hb']
    refine ⟨_, rfl, ?_⟩
    have hx : ofR (FOps.exp2 (FOps.ofInt (-(N:ℤ) - 1) : R S)) = ((2:ℝ) ^ (N + 1))⁻¹ := by
      change (2:ℝ) ^ (((-(N:ℤ) - 1 : ℤ)) : ℝ) = _
      rw [Real.rpow_intCast, show (-(N:ℤ) - 1) = -((N + 1 : ℕ):ℤ) by push_cast; ring, zpow_neg, zpow_natCast]
    rw [toC_rmul, toC_add, hx]
    have hd := pLiNeg_dup N w hw1 hw2
    rw [hww] at hd
    have hz2 : pLiNeg N z = (((2:ℝ) ^ (N + 1))⁻¹ : ℝ) * (pLiNeg N w + pLiNeg N (-w)) := by
      rw [hd]; push_cast; field_simp
    rw [hz2, ← mul_sub, norm_mul, Complex.norm_real, Real.norm_of_nonneg (by positivity)]
    have h4 : ‖a.toC + b.toC - (pLiNeg N w + pLiNeg N (-w))‖ ≤ 2 * (negBound u N + 1e-100) := by
      have : a.toC + b.toC - (pLiNeg N w + pLiNeg N (-w)) = (a.toC - pLiNeg N w) + (b.toC - pLiNeg N (-w)) := by ring
      rw [this]
      refine (norm_add_le _ _).trans ?_
      linarith
    have h5 : ((2:ℝ) ^ (N + 1))⁻¹ ≤ 1 / 2 := by
      rw [inv_le_comm₀ (by positivity) (by norm_num)]
      have : (2:ℝ) ^ 1 ≤ 2 ^ (N + 1) := pow_le_pow_right₀ (by norm_num) (by omega)
      linarith
    calc _ ≤ (1 / 2) * (2 * (negBound u N + 1e-100)) := mul_le_mul h5 h4 (norm_nonneg _) (by norm_num)
      _ = _ := by ring

end
end Polylog
