import Verif.Props.LiSeriesAcc
import Verif.Props.C04
import Verif.Props.Horner
import Verif.Proofs.UnityAcc

/-!
# C20: the expansion of `Li(n,z)` about `z = 1`
-/

namespace Polylog
open Finset
noncomputable section
variable {S : RealSem} {u : ℝ}

/-- the real value of `zeta(k)` computed by the code -/
def zr (S : RealSem) (k : ℤ) : ℝ := ofR (zetaV (R S) k)

theorem zeta_zr {k : ℤ} {v : R S} (h : zeta k = .ok v) : ofR v = zr S k := by
  unfold zr zetaV; rw [h]

theorem toC_lit_lit0 (hS : S.Lit u) (x : R S) : (Cx.mk x (FOps.lit 0 : R S)).toC = (ofR x : ℂ) := by
  apply Complex.ext
  · rfl
  · show ((S.rho 0 : ℚ) : ℝ) = _
    rw [hS.zero]; simp

theorem pow_div_step (L : ℂ) (k : ℕ) : L ^ k / (k.factorial : ℂ) * (L / ((k:ℂ) + 1)) = L ^ (k + 1) / ((k + 1).factorial : ℂ) := by
  rw [Nat.factorial_succ, pow_succ]
  push_cast
  rw [div_mul_div_comm, mul_comm ((k:ℂ) + 1)]

/-- first loop of `Li_unity_pos` over the reals -/
theorem loop1_R (n : ℕ) (hn : (n:ℤ) < i64max) (lnz : Cx (R S)) : ∀ (f k : ℕ) (sum p : Cx (R S)), k + f + 1 < n →
    p.toC = lnz.toC ^ k / (k.factorial : ℂ) →
    ∃ s, liUnityPosLoop1 (n:ℤ) lnz f ((k:ℤ) + 1) sum p = .ok s ∧
      s.1.toC = sum.toC + ∑ i ∈ range f, (zr S ((n:ℤ) - ((k + 1 + i : ℕ) : ℤ)) : ℂ) * (lnz.toC ^ (k + 1 + i) / ((k + 1 + i).factorial : ℂ)) ∧
      s.2.toC = lnz.toC ^ (k + f) / ((k + f).factorial : ℂ) := by
  simp only [i64max] at hn
  intro f
  induction f with
  | zero => intro k sum p _ hp; exact ⟨_, rfl, by simp, by simpa using hp⟩
  | succ f ih =>
    intro k sum p hk hp
    unfold liUnityPosLoop1
    dsimp only
    rw [bind_def (i64sub_ok (by simp only [i64min, i64max]; omega))]
    obtain ⟨v, hv⟩ := defined_zeta (F := R S) ((n:ℤ) - ((k:ℤ) + 1)) (by simp only [i64min]; omega) (by simp only [i64max]; omega)
    rw [bind_def hv]
    have hp' : (p *. (lnz /. (FOps.ofInt ((k:ℤ) + 1) : R S))).toC = lnz.toC ^ (k + 1) / ((k + 1).factorial : ℂ) := by
      have : ofR (FOps.ofInt ((k:ℤ) + 1) : R S) = (k:ℝ) + 1 := by rw [ofR_ofInt]; push_cast; rfl
      rw [toC_mul, toC_divr (by rw [this]; positivity), this, hp, ← pow_div_step]
      push_cast; rfl
    obtain ⟨s, h1, h2, h3⟩ := ih (k + 1) (sum +. v *. (p *. (lnz /. (FOps.ofInt ((k:ℤ) + 1) : R S)))) _ (by omega) hp'
    refine ⟨s, ?_, ?_, ?_⟩
    · rw [← h1]; push_cast; rfl
    · rw [h2, toC_add, toC_rmul, hp', zeta_zr hv, sum_range_succ']
      have e : ∀ i, k + 1 + 1 + i = k + 1 + (i + 1) := fun i => by ring
      simp only [e, add_zero]
      push_cast
      ring
    · rw [h3, show k + 1 + f = k + (f + 1) by ring]

theorem head_R (hS : S.Lit u) (N : ℕ) (hN : ((N + 2 : ℕ):ℤ) < i64max) (z : Cx (R S)) :
    ∃ (s : Cx (R S) × Cx (R S)) (h : R S), liUnityHead ((N + 2 : ℕ):ℤ) z = .ok s ∧ harmonic ((N + 1 : ℕ) : ℤ) = .ok h ∧
      s.1.toC = ∑ j ∈ range (N + 1), (zr S (((N + 2 : ℕ):ℤ) - (j:ℤ)) : ℂ) * ((clog z).toC ^ j / (j.factorial : ℂ)) +
        ((ofR h : ℂ) - (clog ∸(clog z)).toC) * ((clog z).toC ^ (N + 1) / ((N + 1).factorial : ℂ)) +
        (zr S 0 : ℂ) * ((clog z).toC ^ (N + 2) / ((N + 2).factorial : ℂ)) +
        (zr S (-1) : ℂ) * ((clog z).toC ^ (N + 3) / ((N + 3).factorial : ℂ)) ∧
      s.2.toC = (clog z).toC ^ (N + 3) / ((N + 3).factorial : ℂ) := by
  have hN' := hN
  simp only [i64max] at hN'
  set L := (clog z).toC with hL
  obtain ⟨zn, hzn⟩ := defined_zeta (F := R S) ((N + 2 : ℕ):ℤ) (by simp only [i64min]; omega) (by simp only [i64max]; omega)
  obtain ⟨hh, hhh⟩ := defined_harmonic (F := R S) ((N + 1 : ℕ):ℤ) (by simp only [i64min]; omega) (by simp only [i64max]; omega)
  obtain ⟨z0, hz0⟩ := defined_zeta (F := R S) 0 (by simp only [i64min]; omega) (by simp only [i64max]; omega)
  obtain ⟨z1, hz1⟩ := defined_zeta (F := R S) (-1) (by simp only [i64min]; omega) (by simp only [i64max]; omega)
  obtain ⟨s, hs, hs1, hs2⟩ := loop1_R (S := S) (N + 2) hN (clog z) N 0 ⟨zn, (FOps.lit 0 : R S)⟩ ⟨(FOps.lit 1 : R S), (FOps.lit 0 : R S)⟩ (by omega)
    (by rw [toC_lit_lit0 hS, ofR_lit, hS.one]; simp)
  have e1 : ((N + 2 : ℕ):ℤ) - 1 = ((N + 1 : ℕ):ℤ) := by push_cast; ring
  have e2 : (((N + 1 : ℕ):ℤ) - 1).toNat = N := by omega
  have step : ∀ (p : Cx (R S)) (k : ℕ), p.toC = L ^ k / (k.factorial : ℂ) → (p *. (clog z /. (FOps.ofInt ((k + 1 : ℕ):ℤ) : R S))).toC = L ^ (k + 1) / ((k + 1).factorial : ℂ) := by
    intro p k hp
    have : ofR (FOps.ofInt ((k + 1 : ℕ):ℤ) : R S) = (k:ℝ) + 1 := by rw [ofR_ofInt]; push_cast; rfl
    rw [toC_mul, toC_divr (by rw [this]; positivity), this, hp, ← pow_div_step, hL]
    push_cast; rfl
  have p0 : s.2.toC = L ^ N / (N.factorial : ℂ) := by rw [hs2]; simp [hL]
  obtain ⟨P1, hP1⟩ : ∃ P, P = s.2 *. (clog z /. (FOps.ofInt ((N + 1 : ℕ):ℤ) : R S)) := ⟨_, rfl⟩
  obtain ⟨P2, hP2⟩ : ∃ P, P = P1 *. (clog z /. (FOps.ofInt ((N + 2 : ℕ):ℤ) : R S)) := ⟨_, rfl⟩
  obtain ⟨P3, hP3⟩ : ∃ P, P = P2 *. (clog z /. (FOps.ofInt ((N + 3 : ℕ):ℤ) : R S)) := ⟨_, rfl⟩
  have p1 : P1.toC = L ^ (N + 1) / ((N + 1).factorial : ℂ) := by rw [hP1]; exact step _ N p0
  have p2 : P2.toC = L ^ (N + 2) / ((N + 2).factorial : ℂ) := by rw [hP2]; exact step _ (N + 1) p1
  have p3 : P3.toC = L ^ (N + 3) / ((N + 3).factorial : ℂ) := by rw [hP3]; exact step _ (N + 2) p2
  have e3 : i64add ((N + 2 : ℕ):ℤ) 1 = .ok ((N + 3 : ℕ):ℤ) := by
    rw [i64add_ok (by simp only [i64min, i64max]; omega)]; push_cast; ring_nf
  refine ⟨(s.1 +. (hh -. clog ∸(clog z)) *. P1 +. z0 *. P2 +. z1 *. P3, P3), hh, ?_, hhh, ?_, p3⟩
  · unfold liUnityHead
    dsimp only
    rw [bind_def hzn, bind_def (i64sub_ok (by simp only [i64min, i64max]; omega)), e1, e2]
    have hs' := hs
    rw [show ((0:ℕ):ℤ) + 1 = 1 by norm_num] at hs'
    rw [bind_def hs', bind_def hhh, bind_def hz0, bind_def e3, bind_def hz1, hP3, hP2, hP1]
    rfl
  · dsimp only
    rw [toC_add, toC_add, toC_add, toC_rmul, toC_rmul, toC_mul, toC_rsub, p1, p2, p3, zeta_zr hz0, zeta_zr hz1, hs1, toC_lit_lit0 hS,
      zeta_zr hzn, sum_range_succ', ← hL]
    have e : ∀ i, 0 + 1 + i = i + 1 := fun i => by ring
    simp only [e]
    simp only [pow_zero, Nat.factorial_zero, Nat.cast_zero, sub_zero, Nat.cast_one, div_one, mul_one]
    ring

/-- the trace of the second loop over the reals -/
theorem trace_R (N : ℕ) (z : Cx (R S)) (s : Cx (R S) × Cx (R S)) (hs : s.2.toC = (clog z).toC ^ (N + 3) / ((N + 3).factorial : ℂ)) (m : ℕ) :
    (unityTrace ((N + 2 : ℕ):ℤ) (clog z *. clog z) s m).1.toC =
      s.1.toC + ∑ i ∈ range m, (zr S (-3 - 2 * (i:ℤ)) : ℂ) * ((clog z).toC ^ (N + 5 + 2 * i) / ((N + 5 + 2 * i).factorial : ℂ)) ∧
    (unityTrace ((N + 2 : ℕ):ℤ) (clog z *. clog z) s m).2.toC = (clog z).toC ^ (N + 3 + 2 * m) / ((N + 3 + 2 * m).factorial : ℂ) := by
  induction m with
  | zero => exact ⟨by simp [unityTrace], by simpa [unityTrace] using hs⟩
  | succ m ih =>
    have hj : ((N + 2 : ℕ):ℤ) + 3 + 2 * (m:ℤ) = ((N + 5 + 2 * m : ℕ) : ℤ) := by push_cast; ring
    have hp : (unityTrace ((N + 2 : ℕ):ℤ) (clog z *. clog z) s (m + 1)).2.toC = (clog z).toC ^ (N + 3 + 2 * m + 1 + 1) / ((N + 3 + 2 * m + 1 + 1).factorial : ℂ) := by
      rw [unityTrace]
      dsimp only
      rw [hj]
      have e : ofR (FOps.ofInt ((((N + 5 + 2 * m : ℕ) : ℤ) - 1) * ((N + 5 + 2 * m : ℕ) : ℤ)) : R S) = (((N + 3 + 2 * m : ℕ):ℝ) + 1) * (((N + 3 + 2 * m + 1 : ℕ):ℝ) + 1) := by
        rw [ofR_ofInt]; push_cast; ring
      rw [toC_mul, toC_divr (by rw [e]; positivity), e, ih.2, toC_mul, ← pow_div_step, ← pow_div_step]
      push_cast
      simp only [div_eq_mul_inv, mul_inv]
      ring
    refine ⟨?_, ?_⟩
    · rw [sum_range_succ, ← add_assoc, ← ih.1]
      rw [unityTrace] at hp ⊢
      dsimp only at hp ⊢
      rw [toC_add, toC_rmul, hp, hj]
      have e4 : ((N + 2 : ℕ):ℤ) - ((N + 5 + 2 * m : ℕ):ℤ) = -3 - 2 * (m:ℤ) := by push_cast; ring
      rw [e4]
      have e5 : N + 3 + 2 * m + 1 + 1 = N + 5 + 2 * m := by ring
      rw [e5]
      rfl
    · rw [hp, show N + 3 + 2 * m + 1 + 1 = N + 3 + 2 * (m + 1) by ring]

/-! ### literal errors -/

theorem zr_pos (hS : S.Lit u) (n : ℕ) (hn : 2 ≤ n) (hi : (n:ℤ) ≤ i64max) :
    ‖(zr S n : ℂ) - riemannZeta n‖ ≤ (6.01e-17 + 1.01 * u) * ‖riemannZeta n‖ := by
  obtain ⟨v, hv, h⟩ := C01_pos hS n hn hi
  rwa [← zeta_zr hv]

theorem zr_zero (hS : S.Lit u) : (zr S 0 : ℂ) = riemannZeta 0 := by
  obtain ⟨v, hv, h⟩ := C01_zero hS
  rwa [← zeta_zr hv]

theorem zr_odd (hS : S.Lit u) (m : ℕ) (h0 : 0 < m) (hm : m ≤ 130) :
    ‖(zr S (1 - 2 * (m:ℤ)) : ℂ) - riemannZeta (1 - 2 * (m:ℂ))‖ ≤ (6.01e-17 + 1.01 * u) * ‖riemannZeta (1 - 2 * (m:ℂ))‖ := by
  obtain ⟨v, hv, h⟩ := C01_neg_odd hS m h0 hm
  rw [← zeta_zr hv]
  refine h.trans ?_
  gcongr
  norm_num

/-- `j!` times the coefficient of `log(z)^j` used by the code (order `N + 2`), without the logarithmic term -/
def ccf (S : RealSem) (N j : ℕ) : ℝ :=
  if j = N + 1 then 0 else if j ≤ N + 2 ∨ (j - N) % 2 = 1 then zr S (((N + 2 : ℕ):ℤ) - j) else 0

theorem ccf_err (hS : S.Lit u) (N j : ℕ) (hN : ((N + 2 : ℕ):ℤ) ≤ i64max) (hj : j ≤ N + 261) :
    ‖(ccf S N j : ℂ) * (1 / (j.factorial : ℂ)) - zcoef ((N + 2 : ℕ):ℤ) j‖ ≤ (6.01e-17 + 1.01 * u) * ‖zcoef ((N + 2 : ℕ):ℤ) j‖ := by
  have hu := hS.u_nonneg
  have key : ∀ x y f : ℂ, ‖x - y‖ ≤ (6.01e-17 + 1.01 * u) * ‖y‖ → ‖x * (1 / f) - y / f‖ ≤ (6.01e-17 + 1.01 * u) * ‖y / f‖ := by
    intro x y f h
    rw [mul_one_div, ← sub_div, norm_div, norm_div, ← mul_div_assoc]
    gcongr
  unfold ccf zcoef
  by_cases h : j = N + 1
  · rw [if_pos (show ((N + 2 : ℕ):ℤ) - (j:ℤ) = 1 by subst h; push_cast; ring), if_pos h]
    simp
  · rw [if_neg (show ¬ ((N + 2 : ℕ):ℤ) - (j:ℤ) = 1 by push_cast; omega), if_neg h]
    apply key
    by_cases h2 : j ≤ N + 2 ∨ (j - N) % 2 = 1
    · rw [if_pos h2]
      rcases lt_or_ge j (N + 1) with h3 | h3
      · obtain ⟨k, hk⟩ : ∃ k : ℕ, N + 2 = j + k := ⟨N + 2 - j, by omega⟩
        have e : ((N + 2 : ℕ):ℤ) - (j:ℤ) = (k:ℤ) := by rw [hk]; push_cast; ring
        rw [e]
        exact_mod_cast zr_pos hS k (by omega) (by omega)
      · rcases eq_or_lt_of_le (show N + 2 ≤ j by omega) with h4 | h4
        · have e : ((N + 2 : ℕ):ℤ) - (j:ℤ) = 0 := by rw [h4]; ring
          rw [e, zr_zero hS]
          push_cast
          rw [sub_self, norm_zero]; positivity
        · obtain ⟨m, hm⟩ : ∃ m : ℕ, j = N + 2 + (2 * m - 1) ∧ 0 < m := ⟨(j - N) / 2, by omega, by omega⟩
          have e : ((N + 2 : ℕ):ℤ) - (j:ℤ) = 1 - 2 * (m:ℤ) := by rw [hm.1]; push_cast; omega
          rw [e]
          have := zr_odd hS m hm.2 (by omega)
          push_cast at this ⊢
          exact this
    · rw [if_neg h2]
      push Not at h2
      obtain ⟨m, hm⟩ : ∃ m : ℕ, j = N + 2 + 2 * (m + 1) := ⟨(j - N) / 2 - 2, by omega⟩
      have e : ((((N + 2 : ℕ):ℤ) - (j:ℤ) : ℤ) : ℂ) = -2 * ((m:ℂ) + 1) := by rw [hm]; push_cast; ring
      rw [e, riemannZeta_neg_two_mul_nat_add_one]
      simp

/-- the value of the trace as a polynomial in `log z` -/
theorem trace_eq (hS : S.Lit u) (N : ℕ) (hN : ((N + 2 : ℕ):ℤ) < i64max) (z : Cx (R S)) :
    ∃ (s : Cx (R S) × Cx (R S)) (h : R S), liUnityHead ((N + 2 : ℕ):ℤ) z = .ok s ∧ harmonic ((N + 1 : ℕ) : ℤ) = .ok h ∧
      ∀ m, (unityTrace ((N + 2 : ℕ):ℤ) (clog z *. clog z) s m).1.toC =
        ∑ j ∈ range (N + 2 + (2 + 2 * m)), ((ccf S N j : ℂ) * (1 / (j.factorial : ℂ))) * (clog z).toC ^ j +
        ((ofR h : ℂ) - (clog ∸(clog z)).toC) * ((clog z).toC ^ (N + 1) / ((N + 1).factorial : ℂ)) := by
  obtain ⟨s, h, h1, h2, h3, h4⟩ := head_R hS N hN z
  refine ⟨s, h, h1, h2, fun m => ?_⟩
  rw [(trace_R N z s h4 m).1, h3]
  set L := (clog z).toC
  induction m with
  | zero =>
    rw [sum_range_zero, show N + 2 + (2 + 2 * 0) = N + 1 + 1 + 1 + 1 by ring, sum_range_succ _ (N + 1 + 1 + 1), sum_range_succ _ (N + 1 + 1),
      sum_range_succ (fun j => (ccf S N j : ℂ) * (1 / (j.factorial : ℂ)) * L ^ j) (N + 1)]
    have e1 : ∀ j ∈ range (N + 1), (ccf S N j : ℂ) * (1 / (j.factorial : ℂ)) * L ^ j = (zr S (((N + 2 : ℕ):ℤ) - (j:ℤ)) : ℂ) * (L ^ j / (j.factorial : ℂ)) := by
      intro j hj
      rw [mem_range] at hj
      rw [ccf, if_neg (by omega), if_pos (Or.inl (by omega))]; ring
    rw [sum_congr rfl e1]
    have e2 : ccf S N (N + 1) = 0 := by rw [ccf, if_pos rfl]
    have e3 : ccf S N (N + 1 + 1) = zr S 0 := by
      rw [ccf, if_neg (by omega), if_pos (Or.inl (by omega))]; congr 1; push_cast; ring
    have e4 : ccf S N (N + 1 + 1 + 1) = zr S (-1) := by
      rw [ccf, if_neg (by omega), if_pos (Or.inr (by omega))]; congr 1; push_cast; ring
    rw [e2, e3, e4]
    push_cast
    ring
  | succ m ih =>
    rw [sum_range_succ _ m, ← add_assoc, ih, show N + 2 + (2 + 2 * (m + 1)) = N + 2 + (2 + 2 * m) + 1 + 1 by ring, sum_range_succ _ (N + 2 + (2 + 2 * m) + 1),
      sum_range_succ _ (N + 2 + (2 + 2 * m))]
    have e1 : ccf S N (N + 2 + (2 + 2 * m)) = 0 := by
      rw [ccf, if_neg (by omega), if_neg (by omega)]
    have e2 : ccf S N (N + 2 + (2 + 2 * m) + 1) = zr S (-3 - 2 * (m:ℤ)) := by
      rw [ccf, if_neg (by omega), if_pos (Or.inr (by omega))]; congr 1; push_cast; ring
    rw [e1, e2, show N + 2 + (2 + 2 * m) + 1 = N + 5 + 2 * m by ring]
    push_cast
    ring

/-! ### accuracy -/

theorem pow_fac_le {r : ℝ} (h0 : 0 ≤ r) (hr : r ≤ 3.17) (k : ℕ) : r ^ (k + 6) / ((k + 6).factorial : ℝ) ≤ 1.41 := by
  induction k with
  | zero =>
    rw [zero_add, div_le_iff₀ (by positivity)]
    calc r ^ 6 ≤ 3.17 ^ 6 := by gcongr
      _ ≤ 1.41 * ((Nat.factorial 6 : ℕ) : ℝ) := by norm_num [Nat.factorial]
  | succ k ih =>
    rw [show k + 1 + 6 = (k + 6) + 1 by ring, Nat.factorial_succ, pow_succ]
    push_cast
    have e : r ^ (k + 6) * r / (((k:ℝ) + 6 + 1) * ((k + 6).factorial : ℝ)) = r ^ (k + 6) / ((k + 6).factorial : ℝ) * (r / ((k:ℝ) + 6 + 1)) := by
      field_simp
    rw [e]
    have h1 : r / ((k:ℝ) + 6 + 1) ≤ 1 := by
      rw [div_le_one (by positivity)]; linarith [(Nat.cast_nonneg k : (0:ℝ) ≤ k)]
    have h2 : 0 ≤ r / ((k:ℝ) + 6 + 1) := by positivity
    have h3 : 0 ≤ r ^ (k + 6) / ((k + 6).factorial : ℝ) := by positivity
    nlinarith

theorem pow_fac_le' {r : ℝ} (h0 : 0 ≤ r) (hr : r ≤ 3.17) (k : ℕ) : r ^ (k + 7) / ((k + 7).factorial : ℝ) ≤ 0.64 := by
  have h := pow_fac_le h0 hr k
  rw [show k + 7 = (k + 6) + 1 by ring, Nat.factorial_succ, pow_succ]
  push_cast
  have e : r ^ (k + 6) * r / (((k:ℝ) + 6 + 1) * ((k + 6).factorial : ℝ)) = r ^ (k + 6) / ((k + 6).factorial : ℝ) * (r / ((k:ℝ) + 6 + 1)) := by
    field_simp
  rw [e]
  have h1 : r / ((k:ℝ) + 6 + 1) ≤ 3.17 / 7 := by
    rw [div_le_div_iff₀ (by positivity) (by norm_num)]
    nlinarith [(Nat.cast_nonneg k : (0:ℝ) ≤ k)]
  have h2 : 0 ≤ r / ((k:ℝ) + 6 + 1) := by positivity
  have h3 : 0 ≤ r ^ (k + 6) / ((k + 6).factorial : ℝ) := by positivity
  calc _ ≤ 1.41 * (3.17 / 7) := mul_le_mul h h1 h2 (by norm_num)
    _ ≤ _ := by norm_num

theorem exp_317 : Real.exp 3.17 ≤ 24.21 := by
  have h1 := Real.exp_one_lt_d9
  have h2 : Real.exp 0.17 ≤ 1 / (1 - 0.17) := by
    have h := Real.add_one_le_exp (-0.17)
    rw [Real.exp_neg] at h
    rw [le_div_iff₀ (by norm_num)]
    have hp := Real.exp_pos 0.17
    rw [le_inv_comm₀ (by norm_num) hp] at h
    norm_num at h ⊢
    linarith
  have e : Real.exp 3.17 = Real.exp 1 ^ 3 * Real.exp 0.17 := by
    rw [← Real.exp_nat_mul, ← Real.exp_add]; norm_num
  rw [e]
  calc Real.exp 1 ^ 3 * Real.exp 0.17 ≤ (2.7182818286:ℝ) ^ 3 * (1 / (1 - 0.17)) := by gcongr
    _ ≤ _ := by norm_num

/-- the expansion with the literals of the code, any logarithm values near the exact ones -/
theorem unity_core (hS : S.Lit u) (N : ℕ) (h5 : 5 ≤ N) (hN : ((N + 2 : ℕ):ℤ) < i64max) (z : Cx (R S)) (δ : ℝ)
    (hL : ‖(clog z).toC‖ ≤ 3.17) (hδ : ‖(clog ∸(clog z)).toC - Complex.log (-(clog z).toC)‖ ≤ δ) :
    ∃ s : Cx (R S) × Cx (R S), liUnityHead ((N + 2 : ℕ):ℤ) z = .ok s ∧ ∀ m ≤ 129,
      ‖(unityTrace ((N + 2 : ℕ):ℤ) (clog z *. clog z) s m).1.toC -
        (psum (zcoef ((N + 1 + 1 : ℕ) : ℤ)) (clog z).toC + singU (N + 1) (clog z).toC)‖ ≤
        2.49e-15 + 42 * u + 1.41 * (8e-19 + 0.6 * u + δ) + 0.35 * 0.26 ^ m := by
  have hu := hS.u_nonneg
  obtain ⟨s, h, h1, h2, h3⟩ := trace_eq hS N hN z
  obtain ⟨h', h2', hh⟩ := C04_harmonic hS (N + 1) (by omega) (by push_cast at hN ⊢; omega)
  rw [h2] at h2'
  cases h2'
  refine ⟨s, h1, fun m hm => ?_⟩
  rw [h3]
  set L := (clog z).toC with hLd
  set r := ‖L‖ with hr
  have hr0 : 0 ≤ r := norm_nonneg _
  have hpi := Real.pi_gt_d2
  -- literals
  have A : ‖∑ j ∈ range (N + 2 + (2 + 2 * m)), ((ccf S N j : ℂ) * (1 / (j.factorial : ℂ))) * L ^ j - ∑ j ∈ range (N + 2 + (2 + 2 * m)), zcoef ((N + 2 : ℕ):ℤ) j * L ^ j‖ ≤
      (6.01e-17 + 1.01 * u) * 41.3 := by
    rw [← sum_sub_distrib]
    refine (norm_sum_le _ _).trans ?_
    have hb := zcoef_abs_sum (N + 2) (2 + 2 * m) hr0 (by linarith)
    have h1 : Real.exp r ≤ 24.21 := (Real.exp_le_exp.mpr hL).trans exp_317
    obtain ⟨k, rfl⟩ : ∃ k, N = k + 5 := ⟨N - 5, by omega⟩
    have h2 := pow_fac_le' hr0 hL k
    rw [show k + 5 + 2 = k + 7 by ring] at hb ⊢
    calc _ ≤ ∑ j ∈ range (k + 7 + (2 + 2 * m)), (6.01e-17 + 1.01 * u) * (‖zcoef ((k + 7 : ℕ):ℤ) j‖ * r ^ j) := by
          refine sum_le_sum fun j hj => ?_
          rw [mem_range] at hj
          rw [← sub_mul, norm_mul, norm_pow, ← mul_assoc]
          refine mul_le_mul_of_nonneg_right ?_ (by positivity)
          exact ccf_err hS (k + 5) j hN.le (by omega)
      _ ≤ _ := by
          rw [← mul_sum]
          refine mul_le_mul_of_nonneg_left ?_ (by positivity)
          linarith
  -- truncation
  have B : ‖∑ j ∈ range (N + 2 + (2 + 2 * m)), zcoef ((N + 2 : ℕ):ℤ) j * L ^ j - psum (zcoef ((N + 2 : ℕ) : ℤ)) L‖ ≤ 0.35 * 0.26 ^ m := by
    refine (psum_zcoef_tail (N + 2) (2 + 2 * m) (L := L) (by rw [← hr]; linarith)).trans ?_
    rw [← hr]
    obtain ⟨k, rfl⟩ : ∃ k, N = k + 5 := ⟨N - 5, by omega⟩
    have h2 := pow_fac_le' hr0 hL k
    have hq : r / (2 * Real.pi) ≤ 0.5048 := by rw [div_le_iff₀ (by positivity)]; linarith
    have hq0 : 0 ≤ r / (2 * Real.pi) := by positivity
    calc _ ≤ 2.1 * 0.64 * (0.5048:ℝ) ^ (2 + 2 * m) := by gcongr
      _ = 2.1 * 0.64 * 0.5048 ^ 2 * (0.5048 ^ 2) ^ m := by rw [pow_add, pow_mul]; ring
      _ ≤ 0.35 * 0.26 ^ m := by
          have : ((0.5048:ℝ) ^ 2) ^ m ≤ 0.26 ^ m := by gcongr; norm_num
          have h0 : (0:ℝ) ≤ (0.5048 ^ 2) ^ m := by positivity
          nlinarith
  -- logarithmic term
  have C : ‖((ofR h : ℂ) - (clog ∸(clog z)).toC) * (L ^ (N + 1) / ((N + 1).factorial : ℂ)) - singU (N + 1) L‖ ≤ 1.41 * (8e-19 + 0.6 * u + δ) := by
    rw [singU]
    have e : ((ofR h : ℂ) - (clog ∸(clog z)).toC) * (L ^ (N + 1) / ((N + 1).factorial : ℂ)) -
        L ^ (N + 1) / ((N + 1).factorial : ℂ) * (((_root_.harmonic (N + 1) : ℚ) : ℂ) - Complex.log (-L)) =
        (L ^ (N + 1) / ((N + 1).factorial : ℂ)) * ((((ofR h - ((_root_.harmonic (N + 1) : ℚ) : ℝ)) : ℝ) : ℂ) - ((clog ∸(clog z)).toC - Complex.log (-L))) := by
      push_cast; ring
    rw [e, norm_mul, norm_div, norm_pow, ← hr, Complex.norm_natCast]
    obtain ⟨k, rfl⟩ : ∃ k, N = k + 5 := ⟨N - 5, by omega⟩
    have h2 := pow_fac_le hr0 hL k
    refine mul_le_mul h2 ?_ (norm_nonneg _) (by norm_num)
    refine (norm_sub_le _ _).trans ?_
    rw [Complex.norm_real, Real.norm_eq_abs]
    linarith
  have e : ∀ a b c d e : ℂ, a + b - (c + d) = (a - e) + (e - c) + (b - d) := fun a b c d e => by ring
  rw [e _ _ _ _ (∑ j ∈ range (N + 2 + (2 + 2 * m)), zcoef ((N + 2 : ℕ):ℤ) j * L ^ j)]
  refine (norm_add₃_le).trans ?_
  have := add_le_add (add_le_add A B) C
  refine this.trans ?_
  linarith

/-- the literal `PI` of Li.cpp -/
theorem piLi_err (hS : S.Lit u) : |((S.rho 3.1415926535897932 : ℚ) : ℝ) - Real.pi| ≤ 4e-17 + 3.2 * u := by
  have h := hS.rel 3.1415926535897932
  have h1 := Real.pi_gt_d20
  have h2 := Real.pi_lt_d20
  have hu := hS.u_nonneg
  have e : (((3.1415926535897932 : ℚ)) : ℝ) = 3.1415926535897932 := by norm_num
  rw [e, abs_of_pos (by norm_num : (0:ℝ) < 3.1415926535897932)] at h
  rw [abs_le] at h ⊢
  constructor <;> norm_num at * <;> nlinarith

/-- **C20 (expansion about 1).** For every `n ≥ 7` and every `z` with `0.75 < |z| < 1.4`, `z ≠ ±1` (exact elementary
operations, literals with relative error `u`): after any number `m ≤ 129` of passes of the second loop of
`Li_unity_pos`, the partial sum is `Li_n(z)` up to `0.35 * 0.26^m` (truncation) and `2.6e-15 + 52 u` (literals). -/
theorem C20_unity (hS : S.Lit u) (hu6 : u ≤ 1e-6) (n : ℕ) (h7 : 7 ≤ n) (hn : (n:ℤ) < i64max) {z : ℂ} (h1 : z ≠ 1)
    (hz1 : 3 / 4 < ‖z‖) (hz2 : ‖z‖ < ((S.rho 1.4 : ℚ) : ℝ)) :
    ∃ s : Cx (R S) × Cx (R S), liUnityHead (n:ℤ) (ofC S z) = .ok s ∧ ∀ m ≤ 129,
      ‖(unityTrace (n:ℤ) (clog (ofC S z) *. clog (ofC S z)) s m).1.toC - pLi n z‖ ≤ 2.6e-15 + 52 * u + 0.35 * 0.26 ^ m := by
  have hu := hS.u_nonneg
  have h0 : z ≠ 0 := by rintro rfl; norm_num at hz1
  have hpe := piLi_err hS
  have hpi := Real.pi_gt_d4
  have hpi2 := Real.pi_lt_d4
  have hz3 : ‖z‖ ≤ 1.4001 := by
    have := (abs_le.mp (hS.rel 1.4)).2
    have e : (((1.4 : ℚ)) : ℝ) = 1.4 := by norm_num
    rw [e, abs_of_pos (by norm_num : (0:ℝ) < 1.4)] at this
    linarith
  have hzp : 0 < ‖z‖ := norm_pos_iff.mpr h0
  have hlog : |Real.log ‖z‖| ≤ 0.4001 := by
    rw [abs_le]
    constructor
    · have := Real.one_sub_inv_le_log_of_pos hzp
      have h2 : ‖z‖⁻¹ ≤ 4 / 3 := by rw [inv_le_comm₀ hzp (by norm_num)]; linarith
      linarith
    · have := Real.log_le_sub_one_of_pos hzp
      linarith
  obtain ⟨N, rfl⟩ : ∃ N, n = N + 2 := ⟨n - 2, by omega⟩
  have hc := C07_clog hS (ofC S z) (by simpa using h0)
  rw [toC_ofC] at hc
  have hnorm : ∀ a b : ℝ, |a| ≤ 0.4001 → |b| ≤ 3.1417 → ‖(⟨a, b⟩ : ℂ)‖ ≤ 3.17 := by
    intro a b ha hb
    rw [Complex.norm_eq_sqrt_sq_add_sq, Real.sqrt_le_left (by norm_num)]
    have h3 : a ^ 2 ≤ 0.4001 ^ 2 := by rw [← sq_abs]; gcongr
    have h4 : b ^ 2 ≤ 3.1417 ^ 2 := by rw [← sq_abs b]; gcongr
    dsimp only
    norm_num at *
    linarith
  by_cases hneg : z.im = 0 ∧ z.re < 0
  · -- negative real axis
    rw [if_pos hneg] at hc
    set P : ℝ := ((S.rho 3.1415926535897932 : ℚ) : ℝ) with hP
    have hre : z = -((|z.re| : ℝ) : ℂ) := by
      apply Complex.ext
      · simp [abs_of_neg hneg.2]
      · simp [hneg.1]
    have hab : ‖z‖ = |z.re| := by rw [hre]; simp
    rw [← hab] at hc
    have hPb := abs_le.mp hpe
    have hL : ‖(clog (ofC S z)).toC‖ ≤ 3.17 := by
      rw [hc]
      exact hnorm _ _ hlog (by rw [abs_le]; constructor <;> linarith)
    have hLim : (clog (ofC S z)).toC.im ≠ 0 := by rw [hc]; dsimp only; intro h; linarith
    have hL0 : (clog (ofC S z)).toC ≠ 0 := fun h => hLim (by rw [h]; rfl)
    have hc2 := C07_clog hS (∸(clog (ofC S z))) (by rw [toC_neg]; simpa using hL0)
    rw [toC_neg, if_neg (by rw [Complex.neg_im]; intro h; exact hLim (by linarith [h.1]))] at hc2
    obtain ⟨s, hs, h⟩ := unity_core hS N (by omega) hn (ofC S z) 0 hL (by rw [hc2, sub_self, norm_zero])
    refine ⟨s, hs, fun m hm => ?_⟩
    have hu' := pLi_exp (N + 1) (clog (ofC S z)).toC ⟨by
      rw [Metric.mem_ball, dist_zero_right]; linarith, by rw [mem_negPlane]; right; exact hLim⟩
    have h := h m hm
    rw [← hu'] at h
    have hlip := pLi_arg_lip (N + 1) (a := Real.log ‖z‖) (θ := P) (by linarith) (by linarith)
    rw [Real.exp_log hzp] at hlip
    have e1 : ((Real.log ‖z‖ : ℂ) + (P:ℂ) * Complex.I) = (clog (ofC S z)).toC := by
      rw [hc]; apply Complex.ext <;> simp
    have e2 : (-((‖z‖ : ℝ) : ℂ)) = z := by rw [hab, ← hre]
    rw [e1, e2] at hlip
    have h9 : ‖z‖ * |P - Real.pi| ≤ 1.4001 * (4e-17 + 3.2 * u) := by gcongr
    have := norm_sub_le_norm_sub_add_norm_sub ((unityTrace ((N + 2 : ℕ):ℤ) (clog (ofC S z) *. clog (ofC S z)) s m).1.toC)
      (pLi (N + 1 + 1) (Complex.exp (clog (ofC S z)).toC)) (pLi (N + 2) z)
    refine this.trans ((add_le_add h (hlip.trans h9)).trans ?_)
    linarith
  · rw [if_neg hneg] at hc
    have hL : ‖(clog (ofC S z)).toC‖ ≤ 3.17 := by
      rw [hc, ← Complex.re_add_im (Complex.log z), Complex.log_re, Complex.log_im, ← Complex.mk_eq_add_mul_I]
      refine hnorm _ _ hlog ?_
      have := Complex.abs_arg_le_pi z
      linarith
    have hL0 : (clog (ofC S z)).toC ≠ 0 := by
      rw [hc]; intro h; apply h1; rw [← Complex.exp_log h0, h, Complex.exp_zero]
    have hc2 := C07_clog hS (∸(clog (ofC S z))) (by rw [toC_neg]; simpa using hL0)
    have hδ : ‖(clog ∸(clog (ofC S z))).toC - Complex.log (-(clog (ofC S z)).toC)‖ ≤ 4e-17 + 3.2 * u := by
      rw [hc2, toC_neg]
      split
      · rename_i h
        set L := (clog (ofC S z)).toC
        have hLp : 0 < L.re := by have := h.2; rw [Complex.neg_re] at this; linarith
        have e : L = ((L.re : ℝ) : ℂ) := by
          apply Complex.ext
          · simp
          · have := h.1; rw [Complex.neg_im] at this; simp; linarith
        have e2 : Complex.log (-L) = ⟨Real.log L.re, Real.pi⟩ := by
          rw [e, clog_neg_pos (by simpa using hLp)]; apply Complex.ext <;> simp
        rw [e2]
        have e3 : (⟨Real.log |(-L).re|, ((S.rho 3.1415926535897932 : ℚ) : ℝ)⟩ - ⟨Real.log L.re, Real.pi⟩ : ℂ) =
            ((((S.rho 3.1415926535897932 : ℚ) : ℝ) - Real.pi : ℝ) : ℂ) * Complex.I := by
          apply Complex.ext
          · simp
          · simp
        rw [e3, norm_mul, Complex.norm_I, mul_one, Complex.norm_real, Real.norm_eq_abs]
        exact hpe
      · rw [sub_self, norm_zero]; positivity
    obtain ⟨s, hs, h⟩ := unity_core hS N (by omega) hn (ofC S z) _ hL hδ
    refine ⟨s, hs, fun m hm => ?_⟩
    have h := h m hm
    have hu' := pLi_unity (N + 1) h0 h1 (by rw [← hc]; linarith)
    rw [← hc] at hu'
    rw [← hu'] at h
    refine h.trans ?_
    linarith

/-- **C20 (expansion about 1): what `Li` returns.**  For `7 ≤ n ≤ 2^31` and `z ≠ ±1` in the region `0.75 < |z| < 1.4`:
`Li(n,z)` returns one of the partial sums of `C20_unity` (the first one that equals its predecessor), or the loop
counter overflows after more than `4·10^8` passes without that. -/
theorem C20_unity_result (hS : S.Lit u) (hu6 : u ≤ 1e-6) (fuel n : ℕ) (h7 : 7 ≤ n) (hn : n ≤ 2 ^ 31) {z : ℂ} (h1 : z ≠ 1) (h2 : z ≠ -1)
    (hz1 : 3 / 4 < ‖z‖) (hz2 : ‖z‖ < ((S.rho 1.4 : ℚ) : ℝ)) :
    ∃ s : Cx (R S) × Cx (R S), liUnityHead (n:ℤ) (ofC S z) = .ok s ∧
      ((∃ m : ℕ, (unityStop (n:ℤ) (clog (ofC S z) *. clog (ofC S z)) s m = true ∧ ∀ i < m, unityStop (n:ℤ) (clog (ofC S z) *. clog (ofC S z)) s i = false) ∧
        Li fuel (n:ℤ) (ofC S z) = .ok (unityTrace (n:ℤ) (clog (ofC S z) *. clog (ofC S z)) s (m + 1)).1 ∧
        (m < 129 → ‖(unityTrace (n:ℤ) (clog (ofC S z) *. clog (ofC S z)) s (m + 1)).1.toC - pLi n z‖ ≤ 2.6e-15 + 52 * u + 0.35 * 0.26 ^ (m + 1))) ∨
       ((∀ m ≤ 400000000, unityStop (n:ℤ) (clog (ofC S z) *. clog (ofC S z)) s m = false) ∧ Li fuel (n:ℤ) (ofC S z) = .error .overflow)) := by
  have h0 : z ≠ 0 := by rintro rfl; norm_num at hz1
  have hr14 : (0:ℝ) ≤ ((S.rho 1.4 : ℚ) : ℝ) := le_trans (norm_nonneg z) hz2.le
  have hso : ¬ SeriesOrInv (ofC S z) := by
    rintro (h | h)
    · rw [norm_le_075 hS] at h; linarith
    · rw [ge_R, ofR_norm, ofR_mul, ofR_lit, decide_eq_true_eq, toC_ofC, Complex.normSq_eq_norm_sq] at h
      nlinarith [norm_nonneg z]
  obtain ⟨s, hs, hb⟩ := C20_unity hS hu6 n h7 (by simp only [i64max]; omega) h1 hz1 hz2
  obtain ⟨s', hs', h⟩ := unityPos_outcome (n:ℤ) (by omega) (by omega) (ofC S z)
  rw [hs] at hs'
  cases hs'
  refine ⟨s, hs, ?_⟩
  have hLi := Li_unity fuel (n:ℤ) (by omega) (ofC S z) (regular_R hS _ h0 h1 h2) hso
  rcases h with ⟨m, hm1, hm2, hm3, hm4⟩ | ⟨h3, h4⟩
  · exact Or.inl ⟨m, ⟨hm2, hm3⟩, by rw [hLi, hm4], fun hm => hb (m + 1) (by omega)⟩
  · exact Or.inr ⟨fun m hm => h3 m (by simp only [jMax]; omega), by rw [hLi, h4]⟩

/-- non-vacuity: `z = -1.2`, `z = 1.2 i`, decimal literals -/
example : RealSem.dec.Lit 0 ∧ (3:ℝ) / 4 < ‖(-1.2 : ℂ)‖ ∧ ‖(-1.2 : ℂ)‖ < ((RealSem.dec.rho 1.4 : ℚ) : ℝ) := by
  refine ⟨RealSem.dec_lit, ?_, ?_⟩
  · norm_num
  · show _ < (((1.4:ℚ)) : ℝ)
    norm_num

end
end Polylog
