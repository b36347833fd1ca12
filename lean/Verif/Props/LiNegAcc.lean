import Verif.Props.LiInvAcc
import Verif.Props.Conj
import Verif.Proofs.UnityNeg
import Verif.Proofs.Dup

/-!
# C21: `Li(n,z)` for `n < -1`: the expansion about 1
-/

namespace Polylog
open Finset

/-! ### what `Li_unity_neg` returns, in every arithmetic -/
section
variable {F : Type} [FOps F]

/-- the value of `inv_fac` -/
def ifacV (F : Type) [FOps F] (n : Int) : F := match (invFac n : M F) with
  | .ok v => v
  | .error _ => FOps.nan

theorem invFac_ifacV (n : Int) : (invFac n : M F) = .ok (ifacV F n) := by
  obtain ⟨v, h⟩ := C05_inv_fac (F := F) n; unfold ifacV; rw [h]

/-- `Li_unity_neg` up to its loop (Li.cpp 119-132): `sum`, `lnzk`, `k` -/
def liUnityNegHead (n : Int) (z : Cx F) : M (Cx F × Cx F × Int) := do
  let lnz := clog z
  let sp ← stablePow ∸lnz (← i64sub n 1)
  let sum := FOps.tgamma (FOps.ofInt (← i64sub 1 n) : F) *. sp
  if isEven n then pure (sum, lnz, 1)
  else do
    let zn : F ← zeta n
    pure (sum +. zn, lnz *. lnz, 2)

theorem liUnityNeg_eq (n : Int) (z : Cx F) : liUnityNeg n z = (do
    let s ← liUnityNegHead n z
    liUnityNegLoop n (clog z *. clog z) (2 ^ 62) s.2.2 s.1 s.2.1) := by
  unfold liUnityNeg liUnityNegHead
  generalize 2 ^ 62 = f
  cases isEven n
  · simp only [bind_assoc, pure_bind, Bool.false_eq_true, if_false]
  · simp only [bind_assoc, pure_bind, if_true]

/-- the summand of iteration `m` of the loop of `Li_unity_neg` that starts at `k0` -/
def unityNegTerm (n : Int) (k0 : Int) (m : ℕ) (lnzk : Cx F) : Cx F := zetaV F (n - (k0 + 2 * m)) *. ifacV F (k0 + 2 * m) *. lnzk

/-- `(sum, lnzk)` after `m` iterations of Li.cpp 134-141, not looking at the stop tests -/
def unityNegTrace (n : Int) (lnz2 : Cx F) (k0 : Int) (s : Cx F × Cx F) : ℕ → Cx F × Cx F
  | 0 => s
  | m + 1 =>
    let t := unityNegTrace n lnz2 k0 s m
    (t.1 +. unityNegTerm n k0 m t.2, t.2 *. lnz2)

theorem unityNegLoop_trace (n : Int) (lnz2 : Cx F) (k0 : Int) (s : Cx F × Cx F) : ∀ (fuel m : ℕ) (v : Cx F),
    liUnityNegLoop n lnz2 fuel (k0 + 2 * m) (unityNegTrace n lnz2 k0 s m).1 (unityNegTrace n lnz2 k0 s m).2 = .ok v →
    ∃ i, m ≤ i ∧ v = (unityNegTrace n lnz2 k0 s i).1 := by
  intro fuel
  induction fuel with
  | zero => intro m v h; cases h
  | succ f ih =>
    intro m v h
    unfold liUnityNegLoop at h
    cases h1 : i64sub n (k0 + 2 * (m:ℤ)) with
    | error e => rw [h1] at h; cases h
    | ok a =>
      have ha : a = n - (k0 + 2 * (m:ℤ)) := i64_val h1
      rw [bind_def h1] at h
      cases h2 : (zeta a : M F) with
      | error e => rw [h2] at h; cases h
      | ok zt =>
        have hz : zt = zetaV F a := by unfold zetaV; rw [h2]
        rw [bind_def h2, bind_def (invFac_ifacV _)] at h
        dsimp only at h
        rw [hz, ha] at h
        split at h
        · cases h; exact ⟨m, le_rfl, rfl⟩
        · cases h3 : i64add (k0 + 2 * (m:ℤ)) 2 with
          | error e => rw [h3] at h; cases h
          | ok b =>
            have hb : b = k0 + 2 * ((m + 1 : ℕ):ℤ) := by rw [i64_val h3]; push_cast; ring
            rw [bind_def h3, hb] at h
            split at h
            · obtain ⟨i, h4, h5⟩ := ih (m + 1) v h
              exact ⟨i, by omega, h5⟩
            · cases h; exact ⟨m + 1, by omega, rfl⟩

/-- **What `Li_unity_neg` returns**, in every arithmetic: a partial sum of its series. -/
theorem unityNeg_trace (n : Int) (z : Cx F) {v : Cx F} (h : liUnityNeg n z = .ok v) :
    ∃ s, liUnityNegHead n z = .ok s ∧ ∃ m, v = (unityNegTrace n (clog z *. clog z) s.2.2 (s.1, s.2.1) m).1 := by
  rw [liUnityNeg_eq] at h
  cases hs : liUnityNegHead n z with
  | error e => rw [hs] at h; cases h
  | ok s =>
    rw [bind_def hs] at h
    obtain ⟨i, _, hi⟩ := unityNegLoop_trace n (clog z *. clog z) s.2.2 (s.1, s.2.1) (2 ^ 62) 0 v (by simpa [unityNegTrace] using h)
    exact ⟨s, rfl, i, hi⟩

end

noncomputable section
variable {S : RealSem} {u : ℝ}

/-! ### the values over the reals -/

theorem I_zpow_mod (n : ℤ) : (n % 4 = 0 → (Complex.I : ℂ) ^ n = 1) ∧ (n % 4 = 1 → (Complex.I : ℂ) ^ n = Complex.I) ∧
    (n % 4 = 2 → (Complex.I : ℂ) ^ n = -1) ∧ (n % 4 = 3 → (Complex.I : ℂ) ^ n = -Complex.I) := by
  have h : (Complex.I : ℂ) ^ n = Complex.I ^ (n % 4) := by
    conv_lhs => rw [← Int.mul_ediv_add_emod n 4]
    rw [zpow_add₀ Complex.I_ne_zero, zpow_mul]
    have : (Complex.I : ℂ) ^ (4:ℤ) = 1 := by
      rw [show (4:ℤ) = ((4:ℕ):ℤ) by rfl, zpow_natCast, Complex.I_pow_four]
    rw [this, one_zpow, one_mul]
  refine ⟨fun e => ?_, fun e => ?_, fun e => ?_, fun e => ?_⟩ <;> rw [h, e]
  · simp
  · simp
  · rw [show (2:ℤ) = ((2:ℕ):ℤ) by rfl, zpow_natCast, Complex.I_sq]
  · rw [show (3:ℤ) = ((3:ℕ):ℤ) by rfl, zpow_natCast, Complex.I_pow_three]

/-- `stable_pow` is the integer power -/
theorem stablePow_R (hS : S.Lit u) (z : Cx (R S)) (hz : z.toC ≠ 0) (n : ℤ) (hn : i64min < n) (hn2 : n ≤ i64max) :
    ∃ w, stablePow z n = .ok w ∧ w.toC = z.toC ^ n := by
  simp only [i64min, i64max] at hn hn2
  unfold stablePow
  by_cases hi : ofR z.im = 0
  · rw [if_pos (by rw [eq_R, ofR_lit, hS.zero, hi]; simp)]
    refine ⟨_, rfl, ?_⟩
    have e : z.toC = ((ofR z.re : ℝ) : ℂ) := Complex.ext rfl hi
    have hr : ofR z.re ≠ 0 := fun h => hz (by rw [e, h]; simp)
    rw [toC_lit_lit0 hS, powi_zpow_R hr, e]
    push_cast; rfl
  rw [if_neg (by rw [eq_R, ofR_lit, hS.zero]; simpa using hi)]
  by_cases hr : ofR z.re = 0
  · rw [if_pos (by rw [eq_R, ofR_lit, hS.zero, hr]; simp)]
    dsimp only
    have e : z.toC = ((ofR z.im : ℝ) : ℂ) * Complex.I := Complex.ext (by simp; exact hr) (by simp; rfl)
    have h0 : ofR (FOps.lit 0 : R S) = 0 := by rw [ofR_lit, hS.zero]; simp
    have key : ∀ a b : R S, (Cx.mk a b).toC = ((ofR a : ℝ) : ℂ) + ((ofR b : ℝ) : ℂ) * Complex.I := fun a b => by
      apply Complex.ext <;> simp <;> rfl
    obtain ⟨m0, m1, m2, m3⟩ := I_zpow_mod n
    rw [e, mul_zpow]
    have hp := powi_zpow_R (x := z.im) hi n
    by_cases c1 : n.tmod 4 = 0
    · rw [if_pos c1]
      refine ⟨_, rfl, ?_⟩
      rw [key, h0, hp, m0 (Int.emod_eq_zero_of_dvd (Int.dvd_of_tmod_eq_zero c1))]; push_cast; ring
    rw [if_neg c1]
    have c1' : n % 4 ≠ 0 := fun h => c1 (Int.tmod_eq_zero_of_dvd (Int.dvd_of_emod_eq_zero h))
    by_cases c2 : n.tmod 2 = 0
    · rw [if_pos c2]
      refine ⟨_, rfl, ?_⟩
      have := Int.emod_eq_zero_of_dvd (Int.dvd_of_tmod_eq_zero c2)
      rw [key, ofR_neg, h0, hp, m2 (by omega)]; push_cast; ring
    rw [if_neg c2]
    have c2' : n % 2 ≠ 0 := fun h => c2 (Int.tmod_eq_zero_of_dvd (Int.dvd_of_emod_eq_zero h))
    rw [bind_def (i64sub_ok (by simp only [i64min, i64max]; omega))]
    by_cases c3 : (n - 1).tmod 4 = 0
    · rw [if_pos c3]
      refine ⟨_, rfl, ?_⟩
      have := Int.emod_eq_zero_of_dvd (Int.dvd_of_tmod_eq_zero c3)
      rw [key, h0, hp, m1 (by omega)]; push_cast; ring
    · rw [if_neg c3]
      refine ⟨_, rfl, ?_⟩
      have c3' : (n - 1) % 4 ≠ 0 := fun h => c3 (Int.tmod_eq_zero_of_dvd (Int.dvd_of_emod_eq_zero h))
      rw [key, ofR_neg, h0, hp, m3 (by omega)]; push_cast; ring
  · rw [if_neg (by rw [eq_R, ofR_lit, hS.zero]; simpa using hr)]
    exact ⟨_, rfl, toC_pow (Or.inl hz)⟩

/-- the coefficients of the expansion about 1 used by the code, order `-N` -/
def ccn (S : RealSem) (N k : ℕ) : ℝ := if (N + k) % 2 = 1 then (if k = 0 then zr S (-(N:ℤ)) else zr S (-(N:ℤ) - k) * ifacR S k) else 0

theorem ifacR_V (k : ℤ) : ofR (ifacV (R S) k) = ifacR S k := invFac_ifacR (invFac_ifacV k)

/-- the first index of the loop -/
def negK0 (N : ℕ) : ℕ := if N % 2 = 0 then 1 else 2

/-- `Li_unity_neg` up to its loop, over the reals -/
theorem negHead_R (hS : S.Lit u) (N : ℕ) (hN : i64min + 8 < -(N:ℤ)) (z : Cx (R S)) (hL : (clog z).toC ≠ 0) :
    ∃ s, liUnityNegHead (-(N:ℤ)) z = .ok s ∧ s.2.2 = (negK0 N : ℤ) ∧ s.2.1.toC = (clog z).toC ^ negK0 N ∧
      s.1.toC = N.factorial * (-(clog z).toC)⁻¹ ^ (N + 1) + ∑ k ∈ range (negK0 N), (ccn S N k : ℂ) * (clog z).toC ^ k := by
  have hN' := hN
  simp only [i64min] at hN'
  set L := (clog z).toC with hLd
  have hneg : (∸(clog z)).toC = -L := by rw [toC_neg]
  obtain ⟨w, hw, hwv⟩ := stablePow_R hS (∸(clog z)) (by rw [hneg]; simpa using hL) (-(N:ℤ) - 1) (by simp only [i64min]; omega) (by simp only [i64max]; omega)
  have hmain : (FOps.tgamma (FOps.ofInt (1 - -(N:ℤ)) : R S) *. w).toC = N.factorial * (-L)⁻¹ ^ (N + 1) := by
    have hg : ofR (FOps.tgamma (FOps.ofInt (1 - -(N:ℤ)) : R S)) = (N.factorial : ℝ) := by
      show (if 0 < (((1 - -(N:ℤ) : ℤ)) : ℝ) then Real.Gamma (((1 - -(N:ℤ) : ℤ)) : ℝ) else _) = _
      have e : (((1 - -(N:ℤ) : ℤ)) : ℝ) = (N:ℝ) + 1 := by push_cast; ring
      rw [if_pos (by rw [e]; positivity)]
      rw [e, Real.Gamma_nat_eq_factorial]
    rw [toC_rmul, hg, hwv, hneg, show -(N:ℤ) - 1 = -((N + 1 : ℕ):ℤ) by push_cast; ring, zpow_neg, zpow_natCast, inv_pow]
    push_cast; rfl
  unfold liUnityNegHead
  dsimp only
  rw [bind_def (i64sub_ok (by simp only [i64min, i64max]; omega)), bind_def hw, bind_def (i64sub_ok (by simp only [i64min, i64max]; omega))]
  have hev := isEven_iff (-(N:ℤ))
  by_cases he : N % 2 = 0
  · rw [if_pos (hev.mpr (by omega))]
    have hk : negK0 N = 1 := if_pos he
    refine ⟨_, rfl, by rw [hk]; rfl, by rw [hk, pow_one], ?_⟩
    rw [hk, sum_range_one]
    have : ccn S N 0 = 0 := by rw [ccn, if_neg (by omega)]
    rw [this, hmain]; simp
  · rw [if_neg (fun h => by have := hev.mp h; omega)]
    have hk : negK0 N = 2 := if_neg he
    obtain ⟨zn, hzn⟩ := defined_zeta (F := R S) (-(N:ℤ)) (by simp only [i64min]; omega) (by simp only [i64max]; omega)
    rw [bind_def hzn]
    refine ⟨_, rfl, by rw [hk]; rfl, by rw [hk, toC_mul]; ring, ?_⟩
    rw [hk, sum_range_succ, sum_range_one]
    have h1 : ccn S N 1 = 0 := by rw [ccn, if_neg (by omega)]
    have h2 : ccn S N 0 = zr S (-(N:ℤ)) := by rw [ccn, if_pos (by omega), if_pos rfl]
    rw [h1, h2, toC_addr, hmain, zeta_zr hzn]; simp

/-- the partial sums over the reals -/
theorem negTrace_R (N : ℕ) (z : Cx (R S)) (s : Cx (R S) × Cx (R S)) (M : ℂ)
    (h1 : s.1.toC = M + ∑ k ∈ range (negK0 N), (ccn S N k : ℂ) * (clog z).toC ^ k) (h2 : s.2.toC = (clog z).toC ^ negK0 N) (m : ℕ) :
    (unityNegTrace (-(N:ℤ)) (clog z *. clog z) (negK0 N : ℤ) s m).1.toC = M + ∑ k ∈ range (negK0 N + 2 * m), (ccn S N k : ℂ) * (clog z).toC ^ k ∧
    (unityNegTrace (-(N:ℤ)) (clog z *. clog z) (negK0 N : ℤ) s m).2.toC = (clog z).toC ^ (negK0 N + 2 * m) := by
  induction m with
  | zero => exact ⟨h1, h2⟩
  | succ m ih =>
    have hk : (N + (negK0 N + 2 * m)) % 2 = 1 := by unfold negK0; split <;> omega
    have hk0 : negK0 N + 2 * m ≠ 0 := by unfold negK0; split <;> omega
    refine ⟨?_, ?_⟩
    · rw [unityNegTrace]
      dsimp only
      rw [toC_add, ih.1, unityNegTerm, toC_rmul, ofR_mul, ih.2, show negK0 N + 2 * (m + 1) = (negK0 N + 2 * m) + 1 + 1 by ring, sum_range_succ, sum_range_succ]
      have e1 : ccn S N (negK0 N + 2 * m + 1) = 0 := by rw [ccn, if_neg (by omega)]
      have e2 : ccn S N (negK0 N + 2 * m) = zr S (-(N:ℤ) - ((negK0 N : ℤ) + 2 * m)) * ifacR S ((negK0 N : ℤ) + 2 * m) := by
        rw [ccn, if_pos hk, if_neg hk0]; push_cast; rfl
      rw [e1, e2, ifacR_V]
      show _ + ((zr S _ * ifacR S _ : ℝ) : ℂ) * _ = _
      push_cast; ring
    · rw [unityNegTrace]
      dsimp only
      rw [toC_mul, ih.2, toC_mul]; ring

/-- the coefficients of the code against the exact ones -/
theorem ccn_err (hS : S.Lit u) (hu6 : u ≤ 1e-6) (N k : ℕ) (hN : 1 ≤ N) (h1 : N + k ≤ 259) (h2 : k < 178) :
    ‖(ccn S N k : ℂ) - zcoef (-N) k‖ ≤ (1.2e-16 + 2.1 * u) * ‖zcoef (-N) k‖ := by
  have hu := hS.u_nonneg
  rw [ccn]
  split
  · rename_i hodd
    obtain ⟨m, hm⟩ : ∃ m, N + k + 1 = 2 * m := ⟨(N + k + 1) / 2, by omega⟩
    have hz := zr_odd hS m (by omega) (by omega)
    have e1 : (1 - 2 * (m:ℤ)) = -(N:ℤ) - k := by omega
    have e2 : (1 - 2 * (m:ℂ)) = (((-(N:ℤ) - k : ℤ)) : ℂ) := by rw [← e1]; push_cast; ring
    rw [e1, e2] at hz
    have hzc : zcoef (-N) k = riemannZeta (((-(N:ℤ) - k : ℤ)) : ℂ) * (((1 / (k.factorial : ℝ) : ℝ)) : ℂ) := by
      rw [zcoef, if_neg (by omega)]; push_cast; ring
    rw [hzc]
    generalize riemannZeta (((-(N:ℤ) - k : ℤ)) : ℂ) = Z at *
    split
    · rename_i hk
      subst hk
      have : zr S (-(N:ℤ) - ((0:ℕ):ℤ)) = zr S (-(N:ℤ)) := by simp
      rw [this] at hz
      simp only [Nat.factorial_zero, Nat.cast_one, div_one, Complex.ofReal_one, mul_one]
      refine hz.trans (mul_le_mul_of_nonneg_right ?_ (norm_nonneg _))
      norm_num at *; linarith
    · have hf := ifacR_err hS k h2
      have hf0 : (0:ℝ) < 1 / (k.factorial : ℝ) := by positivity
      have hif : |ifacR S (k:ℤ)| ≤ 1.00001 * (1 / (k.factorial : ℝ)) := by
        rw [abs_le] at hf ⊢
        constructor <;> nlinarith
      generalize (1 / (k.factorial : ℝ)) = f at *
      generalize ifacR S (k:ℤ) = i at *
      generalize zr S (-(N:ℤ) - k) = zz at *
      have e : ((zz * i : ℝ) : ℂ) - Z * (f : ℂ) = ((zz : ℂ) - Z) * (i : ℂ) + Z * ((i - f : ℝ) : ℂ) := by push_cast; ring
      rw [e]
      refine (norm_add_le _ _).trans ?_
      rw [norm_mul, norm_mul, norm_mul, Complex.norm_real, Complex.norm_real, Complex.norm_real, Real.norm_eq_abs, Real.norm_eq_abs, Real.norm_eq_abs, abs_of_pos hf0]
      have hZ := norm_nonneg Z
      have b1 : ‖(zz : ℂ) - Z‖ * |i| ≤ ((6.01e-17 + 1.01 * u) * ‖Z‖) * (1.00001 * f) := mul_le_mul hz hif (abs_nonneg _) (by positivity)
      have b2 : ‖Z‖ * |i - f| ≤ ‖Z‖ * ((5.01e-17 + 1.01 * u) * f) := mul_le_mul_of_nonneg_left hf hZ
      refine (add_le_add b1 b2).trans ?_
      have : 0 ≤ ‖Z‖ * f := by positivity
      have e3 : (6.01e-17 + 1.01 * u) * ‖Z‖ * (1.00001 * f) + ‖Z‖ * ((5.01e-17 + 1.01 * u) * f) = ((6.01e-17 + 1.01 * u) * 1.00001 + (5.01e-17 + 1.01 * u)) * (‖Z‖ * f) := by ring
      have e4 : (1.2e-16 + 2.1 * u) * (‖Z‖ * f) = (1.2e-16 + 2.1 * u) * (‖Z‖ * f) := rfl
      rw [e3]
      refine mul_le_mul_of_nonneg_right ?_ this
      norm_num; linarith
  · rename_i hev
    obtain ⟨m, hm⟩ : ∃ m, N + k = 2 * (m + 1) := ⟨(N + k) / 2 - 1, by omega⟩
    have hz : zcoef (-N) k = 0 := by
      rw [zcoef, if_neg (by omega)]
      have e : (((-(N:ℤ) - (k:ℤ) : ℤ)) : ℂ) = -2 * ((m:ℂ) + 1) := by
        have : (-(N:ℤ) - (k:ℤ)) = -2 * ((m:ℤ) + 1) := by omega
        rw [this]; push_cast; ring
      rw [e, riemannZeta_neg_two_mul_nat_add_one, zero_div]
    rw [hz]; simp

/-- the first index the loop has not used after `m` passes -/
def negK (N m : ℕ) : ℕ := negK0 N + 2 * m

/-- the error of `PI` enters for negative real `z` only -/
def piErr (u : ℝ) (z : ℂ) : ℝ := if z.im = 0 ∧ z.re < 0 then 4e-17 + 3.2 * u else 0

theorem piErr_nonneg (hu : 0 ≤ u) (z : ℂ) : 0 ≤ piErr u z := by unfold piErr; split <;> positivity

theorem clog_err (hS : S.Lit u) {z : ℂ} (h0 : z ≠ 0) : ‖(clog (ofC S z)).toC - Complex.log z‖ ≤ piErr u z := by
  have hu := hS.u_nonneg
  have hL := C07_clog hS (ofC S z) (by rwa [toC_ofC])
  rw [toC_ofC] at hL
  rw [hL, piErr]
  split
  · rename_i h
    have e : z = -(((-z.re : ℝ)) : ℂ) := by
      apply Complex.ext
      · simp
      · simp [h.1]
    have e2 : Complex.log z = ⟨Real.log (-z.re), Real.pi⟩ := by
      rw [e, clog_neg_pos (by linarith [h.2])]; apply Complex.ext <;> simp
    rw [e2, abs_of_neg h.2]
    have e3 : (⟨Real.log (-z.re), ((S.rho 3.1415926535897932 : ℚ) : ℝ)⟩ - ⟨Real.log (-z.re), Real.pi⟩ : ℂ) =
        ((((S.rho 3.1415926535897932 : ℚ) : ℝ) - Real.pi : ℝ) : ℂ) * Complex.I := by
      apply Complex.ext
      · simp
      · simp
    rw [e3, norm_mul, Complex.norm_I, mul_one, Complex.norm_real, Real.norm_eq_abs]
    exact piLi_err hS
  · rw [sub_self, norm_zero]

/-- the error bound of `C21_unity`, divided by `N!`: literals, error of `PI`, truncation at index `K` -/
def negErr (u : ℝ) (N K : ℕ) (δ l q : ℝ) : ℝ :=
  (1.2e-16 + 2.1 * u) * (2 * Real.pi / (2 * Real.pi - (l + δ)) ^ (N + 1)) +
  δ * ((N + 1) * (1 / (l - δ) ^ (N + 2) + 2 * Real.pi / (2 * Real.pi - (l + δ)) ^ (N + 2))) +
  ((N + K).choose N : ℝ) / (2 * Real.pi) ^ (N + K) * (l + δ) ^ K / (1 - q)

theorem segment_norm {a b x : ℂ} {lo hi : ℝ} (hx : x ∈ segment ℝ a b) (h : ‖b - a‖ ≤ hi - ‖a‖) (h2 : lo ≤ ‖a‖ - ‖b - a‖) : ‖x‖ ≤ hi ∧ lo ≤ ‖x‖ := by
  rw [segment_eq_image'] at hx
  obtain ⟨t, ht, rfl⟩ := hx
  have hn : ‖t • (b - a)‖ ≤ ‖b - a‖ := by
    rw [norm_smul, Real.norm_of_nonneg ht.1]
    exact mul_le_of_le_one_left (norm_nonneg _) ht.2
  have h3 := norm_add_le a (t • (b - a))
  have h4 := norm_sub_norm_le a (-(t • (b - a)))
  rw [norm_neg, sub_neg_eq_add] at h4
  constructor
  · linarith
  · linarith

/-- **C21 (expansion about 1).**  For every order `-N`, `N ≥ 1`, every `z ≠ 0` with `0 < |log z| < 2π` and every number `m` of
passes of the loop of `Li_unity_neg` that stays in the tables (exact elementary operations, literals with relative error
`u`): the partial sum is `Li_{-N}(z)` up to `N! * negErr`. -/
theorem C21_unity (hS : S.Lit u) (hu6 : u ≤ 1e-6) (N : ℕ) (hN : 1 ≤ N) {z : ℂ} (h0 : z ≠ 0)
    (hl : piErr u z < ‖Complex.log z‖) (hl2 : ‖Complex.log z‖ + piErr u z < 2 * Real.pi) (m : ℕ) (hm1 : N + negK N m ≤ 261) (hm2 : negK N m ≤ 179)
    {q : ℝ} (hq1 : q < 1) (hq : ((N + negK N m + 1 : ℕ) : ℝ) * (‖Complex.log z‖ + piErr u z) ≤ q * (2 * Real.pi * (negK N m + 1 : ℕ))) :
    ∃ s, liUnityNegHead (-(N:ℤ)) (ofC S z) = .ok s ∧
      ‖(unityNegTrace (-(N:ℤ)) (clog (ofC S z) *. clog (ofC S z)) s.2.2 (s.1, s.2.1) m).1.toC - pLiNeg N z‖ ≤
        N.factorial * negErr u N (negK N m) (piErr u z) ‖Complex.log z‖ q := by
  have hu := hS.u_nonneg
  have hpi := Real.pi_pos
  have hδ := clog_err hS h0
  have hδ0 := piErr_nonneg hu z
  set δ := piErr u z with hδd
  set l := ‖Complex.log z‖ with hld
  set L := (clog (ofC S z)).toC with hLd
  have hl0 : 0 < l := lt_of_le_of_lt hδ0 hl
  have hLr : ‖L‖ ≤ l + δ := by
    have := norm_le_norm_add_norm_sub' L (Complex.log z); linarith
  have hLl : l - δ ≤ ‖L‖ := by
    have := norm_le_norm_add_norm_sub' (Complex.log z) L
    rw [norm_sub_rev] at this; linarith
  have hL0 : L ≠ 0 := by intro h; rw [h, norm_zero] at hLl; linarith
  obtain ⟨s, hs, hs1, hs2, hs3⟩ := negHead_R hS N (by simp only [i64min]; omega) (ofC S z) hL0
  refine ⟨s, hs, ?_⟩
  rw [hs1, (negTrace_R N (ofC S z) (s.1, s.2.1) _ hs3 hs2 m).1, ← hLd]
  change ‖_ + ∑ k ∈ range (negK N m), _ - _‖ ≤ _
  set K := negK N m with hKd
  -- the literals
  have hodd : (N + K) % 2 = 1 := by rw [hKd, negK, negK0]; split <;> omega
  have E1 : ‖∑ k ∈ range K, (ccn S N k : ℂ) * L ^ k - ∑ k ∈ range K, zcoef (-N) k * L ^ k‖ ≤
      (1.2e-16 + 2.1 * u) * (2 * Real.pi * N.factorial / (2 * Real.pi - (l + δ)) ^ (N + 1)) := by
    rw [← sum_sub_distrib]
    refine (norm_sum_le _ _).trans ?_
    refine le_trans (sum_le_sum (g := fun k => (1.2e-16 + 2.1 * u) * (‖zcoef (-N) k‖ * (l + δ) ^ k)) fun k hk => ?_) ?_
    · rw [mem_range] at hk
      rw [← sub_mul, norm_mul, norm_pow, ← mul_assoc]
      have hp : ‖L‖ ^ k ≤ (l + δ) ^ k := pow_le_pow_left₀ (norm_nonneg _) hLr k
      by_cases hlast : k + 1 = K
      · -- the coefficient of the other parity is zero on both sides
        have hc : (ccn S N k : ℂ) = 0 := by rw [ccn, if_neg (by omega)]; simp
        obtain ⟨j, hj⟩ : ∃ j, N + k = 2 * (j + 1) := ⟨(N + k) / 2 - 1, by omega⟩
        have hz : zcoef (-N) k = 0 := by
          rw [zcoef, if_neg (by omega)]
          have e : (((-(N:ℤ) - (k:ℤ) : ℤ)) : ℂ) = -2 * ((j:ℂ) + 1) := by
            have : (-(N:ℤ) - (k:ℤ)) = -2 * ((j:ℤ) + 1) := by omega
            rw [this]; push_cast; ring
          rw [e, riemannZeta_neg_two_mul_nat_add_one, zero_div]
        rw [hc, hz]; simp
      · exact mul_le_mul (ccn_err hS hu6 N k hN (by omega) (by omega)) hp (by positivity) (by positivity)
    · rw [← mul_sum]
      exact mul_le_mul_of_nonneg_left (zcoef_neg_abs_sum N K (by linarith) hl2) (by positivity)
  have E2 := psum_zcoef_neg_tail N K hLr hl2 hq1 hq
  -- the logarithm
  have E3 : ‖pLiNeg N (Complex.exp L) - pLiNeg N z‖ ≤ δ * (((N + 1).factorial : ℝ) * (1 / (l - δ) ^ (N + 2) + 2 * Real.pi / (2 * Real.pi - (l + δ)) ^ (N + 2))) := by
    have hz : Complex.exp (Complex.log z) = z := Complex.exp_log h0
    conv_lhs => rw [← hz]
    have hseg : ∀ x ∈ segment ℝ (Complex.log z) L, ‖x‖ ≤ l + δ ∧ l - δ ≤ ‖x‖ := fun x hx =>
      segment_norm hx (by rw [← hld]; linarith) (by rw [← hld]; linarith)
    have hx0 : ∀ x ∈ segment ℝ (Complex.log z) L, x ≠ 0 := fun x hx h => by
      have := (hseg x hx).2; rw [h, norm_zero] at this; linarith
    have := (convex_segment (𝕜 := ℝ) (Complex.log z) L).norm_image_sub_le_of_norm_hasDerivWithin_le (𝕜 := ℂ)
      (f := fun u => pLiNeg N (Complex.exp u)) (f' := fun u => pLiNeg (N + 1) (Complex.exp u))
      (C := ((N + 1).factorial : ℝ) * (1 / (l - δ) ^ (N + 2) + 2 * Real.pi / (2 * Real.pi - (l + δ)) ^ (N + 2)))
      (fun x hx => (pLiNeg_exp_hasDerivAt N (exp_ne_one_disc (hx0 x hx) ((hseg x hx).1.trans_lt hl2))).hasDerivWithinAt)
      (fun x hx => by
        refine (pLiNeg_exp_le (N + 1) (hx0 x hx) ((hseg x hx).1.trans_lt hl2)).trans ?_
        have a1 := (hseg x hx).1
        have a2 := (hseg x hx).2
        have a3 : 0 < l - δ := by linarith
        have a4 : 0 < 2 * Real.pi - (l + δ) := by linarith
        gcongr) (left_mem_segment ℝ _ _) (right_mem_segment ℝ _ _)
    refine this.trans ?_
    rw [mul_comm]
    have a3 : 0 < l - δ := by linarith
    have a4 : 0 < 2 * Real.pi - (l + δ) := by linarith
    exact mul_le_mul_of_nonneg_right hδ (by positivity)
  have hexp := pLiNeg_exp_disc N hL0 (hLr.trans_lt hl2)
  have e : (N.factorial : ℂ) * (-L)⁻¹ ^ (N + 1) + ∑ k ∈ range K, (ccn S N k : ℂ) * L ^ k - pLiNeg N z =
      (∑ k ∈ range K, (ccn S N k : ℂ) * L ^ k - ∑ k ∈ range K, zcoef (-N) k * L ^ k) +
      (∑ k ∈ range K, zcoef (-N) k * L ^ k - psum (zcoef (-N)) L) + (pLiNeg N (Complex.exp L) - pLiNeg N z) := by
    rw [hexp]; ring
  rw [e]
  refine (norm_add₃_le.trans (add_le_add (add_le_add E1 E2) E3)).trans_eq ?_
  rw [negErr, Nat.factorial_succ]
  push_cast
  ring

end
end Polylog
