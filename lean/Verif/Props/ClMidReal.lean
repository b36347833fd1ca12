import Verif.Proofs.ClBTab
import Verif.Props.SlSeries

/-! # `Cl(n, x)`, n = 7, 8, 9 over the reals -/

noncomputable section
namespace Polylog
open Finset
variable {S : RealSem} {u : ℝ}

theorem powi_R {x : R S} (h : 0 ≤ ofR x) (n : ℕ) (hn : 0 < n) : ofR (powi x (n:ℤ)) = ofR x ^ n := by
  show realPow S.powJ (ofR x) (((n:ℤ)) : ℝ) = _
  rw [realPow]
  rcases h.lt_or_eq with h | h
  · rw [if_pos h, Int.cast_natCast, Real.rpow_natCast]
  · rw [if_neg (by linarith), if_pos ⟨h.symm, by exact_mod_cast hn⟩, ← h, zero_pow hn.ne']

/-- stored entry of the table `B[]` -/
def bS (S : RealSem) (k : ℕ) : ℝ := if h : k < 202 then ((S.rho clB[k] : ℚ) : ℝ) else 0

theorem clB_ne : ∀ i : Fin 202, clB[i.1] ≠ 0 := by decide +kernel

theorem lC_ne_zero {k : ℕ} (hk : k < 202) : (lC (k + 1) : ℝ) ≠ 0 := by
  intro h
  have h2 := clB_close k hk
  rw [h] at h2
  simp at h2
  exact clB_ne ⟨k, hk⟩ h2

theorem bS_close (hS : S.Lit u) (k : ℕ) (hk : k < 202) : |bS S k + 2 * (k + 1) * lC (k + 1)| ≤ (6e-17 + 1.1 * u) * (2 * (k + 1) * |lC (k + 1)|) := by
  have h := clB_close k hk
  have h2 := hS.rel clB[k]
  rw [bS, dif_pos hk]
  have hk0 : (0:ℝ) ≤ k := Nat.cast_nonneg k
  have hu := hS.u_nonneg
  rw [abs_mul, abs_of_nonneg (by positivity : (0:ℝ) ≤ 2 * (k + 1))] at h
  generalize ((S.rho clB[k] : ℚ) : ℝ) = r at *
  generalize ((clB[k] : ℚ) : ℝ) = b at *
  have hL : 0 ≤ 2 * ((k:ℝ) + 1) * |lC (k + 1)| := by positivity
  have h3 : |b| ≤ 1.1 * (2 * ((k:ℝ) + 1) * |lC (k + 1)|) := by
    have := abs_sub_abs_le_abs_sub b (-(2 * (k + 1) * lC (k + 1)))
    rw [abs_neg, abs_mul, abs_of_nonneg (by positivity : (0:ℝ) ≤ 2 * (k + 1)), sub_neg_eq_add] at this
    linarith
  have e : r + 2 * (k + 1) * lC (k + 1) = (r - b) + (b + 2 * (k + 1) * lC (k + 1)) := by ring
  rw [e]
  refine (abs_add_le _ _).trans ?_
  have := mul_le_mul_of_nonneg_left h3 hu
  generalize 2 * ((k:ℝ) + 1) * |lC (k + 1)| = L at *
  linarith

theorem bS_ne (hS : S.Lit u) (hu : u ≤ 1e-6) (k : ℕ) (hk : k < 202) : bS S k ≠ 0 := by
  intro h
  have h1 := bS_close hS k hk
  have h2 := abs_pos.mpr (lC_ne_zero hk)
  have hk0 : (0:ℝ) ≤ k := Nat.cast_nonneg k
  rw [h, zero_add, abs_mul, abs_of_nonneg (by positivity : (0:ℝ) ≤ 2 * (k + 1))] at h1
  have : 0 < 2 * ((k:ℝ) + 1) * |lC (k + 1)| := by positivity
  have hu := hS.u_nonneg
  nlinarith

/-- the loop of `ncal` runs over the whole table unless `x = 0` -/
theorem ncalLoop_R (hS : S.Lit u) (hu : u ≤ 1e-6) (n : ℕ) (x2 : R S) (fuel : ℕ) : ∀ (k : ℕ) (sum xn : R S), k + fuel = 202 →
    ∃ v, ncalLoop (n:ℤ) x2 fuel ((k:ℤ) + 1) sum xn = .ok v ∧
      ofR v = ofR sum + ∑ i ∈ range fuel, bS S (k + i) * (ofR xn * ofR x2 ^ i) / (2 * ((k + i : ℕ) + 1) + n + 1) := by
  induction fuel with
  | zero => intro k sum xn hk; exact ⟨sum, rfl, by simp⟩
  | succ f ih =>
    intro k sum xn hk
    have hk2 : k < 202 := by omega
    have ha : arrGet clB ((k:ℤ) + 1 - 1) = .ok clB[k] := by
      rw [add_sub_cancel_right, arrGet, dif_pos ⟨by omega, by simpa using hk2⟩]; rfl
    have hden : (2 * ((k:ℝ) + 1) + n + 1) ≠ 0 := by positivity
    have hdi : ofR (FOps.ofInt (2 * ((k:ℤ) + 1) + (n:ℤ) + 1) : R S) = 2 * ((k:ℝ) + 1) + n + 1 := by rw [ofR_ofInt]; push_cast; ring
    have ht : ofR (sum +. (FOps.lit clB[k] : R S) *. xn /. (FOps.ofInt (2 * ((k:ℤ) + 1) + (n:ℤ) + 1) : R S)) = ofR sum + bS S k * ofR xn / (2 * ((k:ℝ) + 1) + n + 1) := by
      rw [ofR_add, ofR_div (by rw [hdi]; exact hden), hdi, ofR_mul, bS, dif_pos hk2]; rfl
    rw [ncalLoop, ha]
    simp only [bind_ok]
    rw [eq_R, ht]
    by_cases hz : ofR sum + bS S k * ofR xn / (2 * ((k:ℝ) + 1) + n + 1) = ofR sum
    · rw [if_pos (by simpa using hz)]
      refine ⟨_, rfl, ?_⟩
      have hxn : ofR xn = 0 := by
        have h3 : bS S k * ofR xn / (2 * ((k:ℝ) + 1) + n + 1) = 0 := by linarith
        rcases div_eq_zero_iff.mp h3 with h4 | h4
        · exact (mul_eq_zero.mp h4).resolve_left (bS_ne hS hu k hk2)
        · exact absurd h4 hden
      rw [ht, hz, Finset.sum_eq_zero fun i _ => by rw [hxn]; simp]; ring
    · rw [if_neg (by simpa using hz)]
      obtain ⟨v, hv, hv2⟩ := ih (k + 1) _ (xn *. x2) (by omega)
      refine ⟨v, by rw [← hv]; push_cast; rfl, ?_⟩
      rw [hv2, ht, Finset.sum_range_succ', ofR_mul]
      have : ∀ i, bS S (k + 1 + i) * (ofR xn * ofR x2 * ofR x2 ^ i) / (2 * (((k + 1 + i : ℕ):ℝ) + 1) + n + 1) =
          bS S (k + (i + 1)) * (ofR xn * ofR x2 ^ (i + 1)) / (2 * (((k + (i + 1) : ℕ):ℝ) + 1) + n + 1) := fun i => by
        rw [show k + 1 + i = k + (i + 1) by ring, pow_succ]; ring
      simp only [this, add_zero, pow_zero, mul_one]
      ring

/-- sum over the table -/
def uS (S : RealSem) (x : ℝ) (c : ℕ → ℝ) : ℝ := ∑ k ∈ range 202, bS S k * (x ^ 2) ^ (k + 1) * c k

theorem ncal_R (hS : S.Lit u) (hu : u ≤ 1e-6) (n : ℕ) {x : R S} (hx : 0 ≤ ofR x) :
    ∃ v, ncal (n:ℤ) x = .ok v ∧ ofR v = ofR x ^ (n + 1) * (1 / (n + 1) + uS S (ofR x) (fun k => 1 / (2 * (k + 1) + n + 1))) / (n + 1) := by
  have hn : (n:ℝ) + 1 ≠ 0 := by positivity
  have hp : ofR (powi x ((n:ℤ) + 1)) = ofR x ^ (n + 1) := powi_R hx (n + 1) (by omega)
  obtain ⟨s, hs, hs2⟩ := ncalLoop_R hS hu n (x *. x) 202 0 (FOps.lit 0 : R S) (powi x ((n:ℤ) + 1) *. (x *. x)) (by norm_num)
  have hi : ofR (FOps.ofInt ((n:ℤ) + 1) : R S) = n + 1 := by rw [ofR_ofInt]; push_cast; ring
  refine ⟨(powi x ((n:ℤ) + 1) /. (FOps.ofInt ((n:ℤ) + 1) : R S) +. s) /. (FOps.ofInt ((n:ℤ) + 1) : R S), ?_, ?_⟩
  · rw [ncal]
    have hs' : ncalLoop (n:ℤ) (x *. x) 202 1 (FOps.lit 0 : R S) (powi x ((n:ℤ) + 1) *. (x *. x)) = .ok s := hs
    simp only [hs', bind_ok]; rfl
  · rw [ofR_div (by rw [hi]; exact hn), ofR_add, ofR_div (by rw [hi]; exact hn), hi, hp, hs2, lit0 hS, uS, mul_add, Finset.mul_sum, zero_add]
    congr 2
    · rw [mul_one_div]
    · refine Finset.sum_congr rfl fun k _ => ?_
      rw [ofR_mul, ofR_mul, hp, zero_add]; ring

theorem nsumLoop_step (n i : ℤ) (x s xn v : R S) (b : ℤ) (row : Vector ℤ 8) (f : ℕ) (h1 : arrGet clBinomial (n - 2) = .ok row) (h2 : arrGet row i = .ok b)
    (h3 : ncal (n - 2 - i) x = .ok v) : nsumLoop n x (f + 1) i s xn = nsumLoop n x f (i + 1) (s +. (FOps.ofInt b : R S) *. xn *. v) (xn *. ∸x) := by
  rw [nsumLoop, h1]; simp only [bind_ok, h2, h3]

theorem nsum7_R (hS : S.Lit u) (hu : u ≤ 1e-6) {x : R S} (hx : 0 ≤ ofR x) :
    ∃ v, nsum 7 x = .ok v ∧ ofR v = ofR x ^ 6 * ((-1) / 6) * (((_root_.harmonic 6 : ℚ) : ℝ) + uS S (ofR x) (fun k => -1 / (2 * (k + 1)) * dC 6 (k + 1))) := by
  obtain ⟨v0, h0, e0⟩ := ncal_R hS hu 0 hx
  obtain ⟨v1, h1, e1⟩ := ncal_R hS hu 1 hx
  obtain ⟨v2, h2, e2⟩ := ncal_R hS hu 2 hx
  obtain ⟨v3, h3, e3⟩ := ncal_R hS hu 3 hx
  obtain ⟨v4, h4, e4⟩ := ncal_R hS hu 4 hx
  obtain ⟨v5, h5, e5⟩ := ncal_R hS hu 5 hx
  refine ⟨((((((FOps.lit 0 : R S) +. (FOps.ofInt 1 : R S) *. (FOps.lit 1 : R S) *. v5) +. (FOps.ofInt 5 : R S) *. ((FOps.lit 1 : R S) *. ∸x) *. v4) +. (FOps.ofInt 10 : R S) *. (((FOps.lit 1 : R S) *. ∸x) *. ∸x) *. v3) +. (FOps.ofInt 10 : R S) *. ((((FOps.lit 1 : R S) *. ∸x) *. ∸x) *. ∸x) *. v2) +. (FOps.ofInt 5 : R S) *. (((((FOps.lit 1 : R S) *. ∸x) *. ∸x) *. ∸x) *. ∸x) *. v1) +. ((((((FOps.lit 1 : R S) *. ∸x) *. ∸x) *. ∸x) *. ∸x) *. ∸x) *. v0, ?_, ?_⟩
  · push_cast at h0 h1 h2 h3 h4 h5
    have e : nsumLoop 7 x 5 0 (FOps.lit 0 : R S) (FOps.lit 1 : R S) = .ok (((((((FOps.lit 0 : R S) +. (FOps.ofInt 1 : R S) *. (FOps.lit 1 : R S) *. v5) +. (FOps.ofInt 5 : R S) *. ((FOps.lit 1 : R S) *. ∸x) *. v4) +. (FOps.ofInt 10 : R S) *. (((FOps.lit 1 : R S) *. ∸x) *. ∸x) *. v3) +. (FOps.ofInt 10 : R S) *. ((((FOps.lit 1 : R S) *. ∸x) *. ∸x) *. ∸x) *. v2) +. (FOps.ofInt 5 : R S) *. (((((FOps.lit 1 : R S) *. ∸x) *. ∸x) *. ∸x) *. ∸x) *. v1), ((((((FOps.lit 1 : R S) *. ∸x) *. ∸x) *. ∸x) *. ∸x) *. ∸x)) :=
      (nsumLoop_step 7 0 x _ _ v5 _ _ 4 rfl rfl h5).trans <| (nsumLoop_step 7 1 x _ _ v4 _ _ 3 rfl rfl h4).trans <| (nsumLoop_step 7 2 x _ _ v3 _ _ 2 rfl rfl h3).trans <| (nsumLoop_step 7 3 x _ _ v2 _ _ 1 rfl rfl h2).trans <| (nsumLoop_step 7 4 x _ _ v1 _ _ 0 rfl rfl h1).trans <| rfl
    have e2 : nsum 7 x = (nsumLoop 7 x 5 0 (FOps.lit 0 : R S) (FOps.lit 1 : R S) >>= fun r => ncal 0 x >>= fun n0 => pure (r.1 +. r.2 *. n0)) := rfl
    rw [e2, e, bind_ok, h0, bind_ok]; rfl
  · simp only [ofR_add, ofR_mul, ofR_neg, ofR_ofInt, e0, e1, e2, e3, e4, e5, lit0 hS, lit1 hS]
    have hH : ((_root_.harmonic 6 : ℚ) : ℝ) = 49 / 20 := by
      simp only [_root_.harmonic, Finset.sum_range_succ, Finset.sum_range_zero]; norm_num
    rw [hH]
    simp only [uS]
    have hd : ∀ k : ℕ, dC 6 (k + 1) = 720 / ((2*(k+1)+1)*(2*(k+1)+2)*(2*(k+1)+3)*(2*(k+1)+4)*(2*(k+1)+5)*(2*(k+1)+6)) - 1 := fun k => by
      rw [dC]
      have : ((2 * (k + 1)).factorial : ℝ) ≠ 0 := by exact_mod_cast Nat.factorial_ne_zero _
      have h2 : ((2 * (k + 1) + 6).factorial : ℝ) = ((2*(k+1)+1)*(2*(k+1)+2)*(2*(k+1)+3)*(2*(k+1)+4)*(2*(k+1)+5)*(2*(k+1)+6)) * (2 * (k + 1)).factorial := by
        simp only [Nat.factorial_succ]; push_cast; ring
      rw [h2, show ((Nat.factorial 6 : ℕ) : ℝ) = 720 by norm_num [Nat.factorial]]
      have hD : ((2*(k+1)+1)*(2*(k+1)+2)*(2*(k+1)+3)*(2*(k+1)+4)*(2*(k+1)+5)*(2*(k+1)+6) : ℝ) ≠ 0 := by positivity
      field_simp
    have key : ∑ k ∈ range 202, bS S k * (ofR x ^ 2) ^ (k + 1) * (-1 / (2 * (k + 1)) * dC 6 (k + 1)) =
        (-6) * ((1) / 6 * ∑ k ∈ range 202, bS S k * (ofR x ^ 2) ^ (k + 1) * (1 / (2 * (k + 1) + 5 + 1)) + (-5) / 5 * ∑ k ∈ range 202, bS S k * (ofR x ^ 2) ^ (k + 1) * (1 / (2 * (k + 1) + 4 + 1)) + (10) / 4 * ∑ k ∈ range 202, bS S k * (ofR x ^ 2) ^ (k + 1) * (1 / (2 * (k + 1) + 3 + 1)) + (-10) / 3 * ∑ k ∈ range 202, bS S k * (ofR x ^ 2) ^ (k + 1) * (1 / (2 * (k + 1) + 2 + 1)) + (5) / 2 * ∑ k ∈ range 202, bS S k * (ofR x ^ 2) ^ (k + 1) * (1 / (2 * (k + 1) + 1 + 1)) + (-1) / 1 * ∑ k ∈ range 202, bS S k * (ofR x ^ 2) ^ (k + 1) * (1 / (2 * (k + 1) + 0 + 1))) := by
      simp only [Finset.mul_sum, ← Finset.sum_add_distrib]
      refine Finset.sum_congr rfl fun k _ => ?_
      rw [hd]
      have : (k:ℝ) + 1 ≠ 0 := by positivity
      generalize bS S k * (ofR x ^ 2) ^ (k + 1) = t
      have hk : (0:ℝ) ≤ k := Nat.cast_nonneg k
      field_simp
      ring
    rw [key]
    push_cast
    ring


theorem nsum8_R (hS : S.Lit u) (hu : u ≤ 1e-6) {x : R S} (hx : 0 ≤ ofR x) :
    ∃ v, nsum 8 x = .ok v ∧ ofR v = ofR x ^ 7 * ((1) / 7) * (((_root_.harmonic 7 : ℚ) : ℝ) + uS S (ofR x) (fun k => -1 / (2 * (k + 1)) * dC 7 (k + 1))) := by
  obtain ⟨v0, h0, e0⟩ := ncal_R hS hu 0 hx
  obtain ⟨v1, h1, e1⟩ := ncal_R hS hu 1 hx
  obtain ⟨v2, h2, e2⟩ := ncal_R hS hu 2 hx
  obtain ⟨v3, h3, e3⟩ := ncal_R hS hu 3 hx
  obtain ⟨v4, h4, e4⟩ := ncal_R hS hu 4 hx
  obtain ⟨v5, h5, e5⟩ := ncal_R hS hu 5 hx
  obtain ⟨v6, h6, e6⟩ := ncal_R hS hu 6 hx
  refine ⟨(((((((FOps.lit 0 : R S) +. (FOps.ofInt 1 : R S) *. (FOps.lit 1 : R S) *. v6) +. (FOps.ofInt 6 : R S) *. ((FOps.lit 1 : R S) *. ∸x) *. v5) +. (FOps.ofInt 15 : R S) *. (((FOps.lit 1 : R S) *. ∸x) *. ∸x) *. v4) +. (FOps.ofInt 20 : R S) *. ((((FOps.lit 1 : R S) *. ∸x) *. ∸x) *. ∸x) *. v3) +. (FOps.ofInt 15 : R S) *. (((((FOps.lit 1 : R S) *. ∸x) *. ∸x) *. ∸x) *. ∸x) *. v2) +. (FOps.ofInt 6 : R S) *. ((((((FOps.lit 1 : R S) *. ∸x) *. ∸x) *. ∸x) *. ∸x) *. ∸x) *. v1) +. (((((((FOps.lit 1 : R S) *. ∸x) *. ∸x) *. ∸x) *. ∸x) *. ∸x) *. ∸x) *. v0, ?_, ?_⟩
  · push_cast at h0 h1 h2 h3 h4 h5 h6
    have e : nsumLoop 8 x 6 0 (FOps.lit 0 : R S) (FOps.lit 1 : R S) = .ok ((((((((FOps.lit 0 : R S) +. (FOps.ofInt 1 : R S) *. (FOps.lit 1 : R S) *. v6) +. (FOps.ofInt 6 : R S) *. ((FOps.lit 1 : R S) *. ∸x) *. v5) +. (FOps.ofInt 15 : R S) *. (((FOps.lit 1 : R S) *. ∸x) *. ∸x) *. v4) +. (FOps.ofInt 20 : R S) *. ((((FOps.lit 1 : R S) *. ∸x) *. ∸x) *. ∸x) *. v3) +. (FOps.ofInt 15 : R S) *. (((((FOps.lit 1 : R S) *. ∸x) *. ∸x) *. ∸x) *. ∸x) *. v2) +. (FOps.ofInt 6 : R S) *. ((((((FOps.lit 1 : R S) *. ∸x) *. ∸x) *. ∸x) *. ∸x) *. ∸x) *. v1), (((((((FOps.lit 1 : R S) *. ∸x) *. ∸x) *. ∸x) *. ∸x) *. ∸x) *. ∸x)) :=
      (nsumLoop_step 8 0 x _ _ v6 _ _ 5 rfl rfl h6).trans <| (nsumLoop_step 8 1 x _ _ v5 _ _ 4 rfl rfl h5).trans <| (nsumLoop_step 8 2 x _ _ v4 _ _ 3 rfl rfl h4).trans <| (nsumLoop_step 8 3 x _ _ v3 _ _ 2 rfl rfl h3).trans <| (nsumLoop_step 8 4 x _ _ v2 _ _ 1 rfl rfl h2).trans <| (nsumLoop_step 8 5 x _ _ v1 _ _ 0 rfl rfl h1).trans <| rfl
    have e2 : nsum 8 x = (nsumLoop 8 x 6 0 (FOps.lit 0 : R S) (FOps.lit 1 : R S) >>= fun r => ncal 0 x >>= fun n0 => pure (r.1 +. r.2 *. n0)) := rfl
    rw [e2, e, bind_ok, h0, bind_ok]; rfl
  · simp only [ofR_add, ofR_mul, ofR_neg, ofR_ofInt, e0, e1, e2, e3, e4, e5, e6, lit0 hS, lit1 hS]
    have hH : ((_root_.harmonic 7 : ℚ) : ℝ) = 363 / 140 := by
      simp only [_root_.harmonic, Finset.sum_range_succ, Finset.sum_range_zero]; norm_num
    rw [hH]
    simp only [uS]
    have hd : ∀ k : ℕ, dC 7 (k + 1) = 5040 / ((2*(k+1)+1)*(2*(k+1)+2)*(2*(k+1)+3)*(2*(k+1)+4)*(2*(k+1)+5)*(2*(k+1)+6)*(2*(k+1)+7)) - 1 := fun k => by
      rw [dC]
      have : ((2 * (k + 1)).factorial : ℝ) ≠ 0 := by exact_mod_cast Nat.factorial_ne_zero _
      have h2 : ((2 * (k + 1) + 7).factorial : ℝ) = ((2*(k+1)+1)*(2*(k+1)+2)*(2*(k+1)+3)*(2*(k+1)+4)*(2*(k+1)+5)*(2*(k+1)+6)*(2*(k+1)+7)) * (2 * (k + 1)).factorial := by
        simp only [Nat.factorial_succ]; push_cast; ring
      rw [h2, show ((Nat.factorial 7 : ℕ) : ℝ) = 5040 by norm_num [Nat.factorial]]
      have hD : ((2*(k+1)+1)*(2*(k+1)+2)*(2*(k+1)+3)*(2*(k+1)+4)*(2*(k+1)+5)*(2*(k+1)+6)*(2*(k+1)+7) : ℝ) ≠ 0 := by positivity
      field_simp
    have key : ∑ k ∈ range 202, bS S k * (ofR x ^ 2) ^ (k + 1) * (-1 / (2 * (k + 1)) * dC 7 (k + 1)) =
        (7) * ((1) / 7 * ∑ k ∈ range 202, bS S k * (ofR x ^ 2) ^ (k + 1) * (1 / (2 * (k + 1) + 6 + 1)) + (-6) / 6 * ∑ k ∈ range 202, bS S k * (ofR x ^ 2) ^ (k + 1) * (1 / (2 * (k + 1) + 5 + 1)) + (15) / 5 * ∑ k ∈ range 202, bS S k * (ofR x ^ 2) ^ (k + 1) * (1 / (2 * (k + 1) + 4 + 1)) + (-20) / 4 * ∑ k ∈ range 202, bS S k * (ofR x ^ 2) ^ (k + 1) * (1 / (2 * (k + 1) + 3 + 1)) + (15) / 3 * ∑ k ∈ range 202, bS S k * (ofR x ^ 2) ^ (k + 1) * (1 / (2 * (k + 1) + 2 + 1)) + (-6) / 2 * ∑ k ∈ range 202, bS S k * (ofR x ^ 2) ^ (k + 1) * (1 / (2 * (k + 1) + 1 + 1)) + (1) / 1 * ∑ k ∈ range 202, bS S k * (ofR x ^ 2) ^ (k + 1) * (1 / (2 * (k + 1) + 0 + 1))) := by
      simp only [Finset.mul_sum, ← Finset.sum_add_distrib]
      refine Finset.sum_congr rfl fun k _ => ?_
      rw [hd]
      have : (k:ℝ) + 1 ≠ 0 := by positivity
      generalize bS S k * (ofR x ^ 2) ^ (k + 1) = t
      have hk : (0:ℝ) ≤ k := Nat.cast_nonneg k
      field_simp
      ring
    rw [key]
    push_cast
    ring


theorem nsum9_R (hS : S.Lit u) (hu : u ≤ 1e-6) {x : R S} (hx : 0 ≤ ofR x) :
    ∃ v, nsum 9 x = .ok v ∧ ofR v = ofR x ^ 8 * ((-1) / 8) * (((_root_.harmonic 8 : ℚ) : ℝ) + uS S (ofR x) (fun k => -1 / (2 * (k + 1)) * dC 8 (k + 1))) := by
  obtain ⟨v0, h0, e0⟩ := ncal_R hS hu 0 hx
  obtain ⟨v1, h1, e1⟩ := ncal_R hS hu 1 hx
  obtain ⟨v2, h2, e2⟩ := ncal_R hS hu 2 hx
  obtain ⟨v3, h3, e3⟩ := ncal_R hS hu 3 hx
  obtain ⟨v4, h4, e4⟩ := ncal_R hS hu 4 hx
  obtain ⟨v5, h5, e5⟩ := ncal_R hS hu 5 hx
  obtain ⟨v6, h6, e6⟩ := ncal_R hS hu 6 hx
  obtain ⟨v7, h7, e7⟩ := ncal_R hS hu 7 hx
  refine ⟨((((((((FOps.lit 0 : R S) +. (FOps.ofInt 1 : R S) *. (FOps.lit 1 : R S) *. v7) +. (FOps.ofInt 7 : R S) *. ((FOps.lit 1 : R S) *. ∸x) *. v6) +. (FOps.ofInt 21 : R S) *. (((FOps.lit 1 : R S) *. ∸x) *. ∸x) *. v5) +. (FOps.ofInt 35 : R S) *. ((((FOps.lit 1 : R S) *. ∸x) *. ∸x) *. ∸x) *. v4) +. (FOps.ofInt 35 : R S) *. (((((FOps.lit 1 : R S) *. ∸x) *. ∸x) *. ∸x) *. ∸x) *. v3) +. (FOps.ofInt 21 : R S) *. ((((((FOps.lit 1 : R S) *. ∸x) *. ∸x) *. ∸x) *. ∸x) *. ∸x) *. v2) +. (FOps.ofInt 7 : R S) *. (((((((FOps.lit 1 : R S) *. ∸x) *. ∸x) *. ∸x) *. ∸x) *. ∸x) *. ∸x) *. v1) +. ((((((((FOps.lit 1 : R S) *. ∸x) *. ∸x) *. ∸x) *. ∸x) *. ∸x) *. ∸x) *. ∸x) *. v0, ?_, ?_⟩
  · push_cast at h0 h1 h2 h3 h4 h5 h6 h7
    have e : nsumLoop 9 x 7 0 (FOps.lit 0 : R S) (FOps.lit 1 : R S) = .ok (((((((((FOps.lit 0 : R S) +. (FOps.ofInt 1 : R S) *. (FOps.lit 1 : R S) *. v7) +. (FOps.ofInt 7 : R S) *. ((FOps.lit 1 : R S) *. ∸x) *. v6) +. (FOps.ofInt 21 : R S) *. (((FOps.lit 1 : R S) *. ∸x) *. ∸x) *. v5) +. (FOps.ofInt 35 : R S) *. ((((FOps.lit 1 : R S) *. ∸x) *. ∸x) *. ∸x) *. v4) +. (FOps.ofInt 35 : R S) *. (((((FOps.lit 1 : R S) *. ∸x) *. ∸x) *. ∸x) *. ∸x) *. v3) +. (FOps.ofInt 21 : R S) *. ((((((FOps.lit 1 : R S) *. ∸x) *. ∸x) *. ∸x) *. ∸x) *. ∸x) *. v2) +. (FOps.ofInt 7 : R S) *. (((((((FOps.lit 1 : R S) *. ∸x) *. ∸x) *. ∸x) *. ∸x) *. ∸x) *. ∸x) *. v1), ((((((((FOps.lit 1 : R S) *. ∸x) *. ∸x) *. ∸x) *. ∸x) *. ∸x) *. ∸x) *. ∸x)) :=
      (nsumLoop_step 9 0 x _ _ v7 _ _ 6 rfl rfl h7).trans <| (nsumLoop_step 9 1 x _ _ v6 _ _ 5 rfl rfl h6).trans <| (nsumLoop_step 9 2 x _ _ v5 _ _ 4 rfl rfl h5).trans <| (nsumLoop_step 9 3 x _ _ v4 _ _ 3 rfl rfl h4).trans <| (nsumLoop_step 9 4 x _ _ v3 _ _ 2 rfl rfl h3).trans <| (nsumLoop_step 9 5 x _ _ v2 _ _ 1 rfl rfl h2).trans <| (nsumLoop_step 9 6 x _ _ v1 _ _ 0 rfl rfl h1).trans <| rfl
    have e2 : nsum 9 x = (nsumLoop 9 x 7 0 (FOps.lit 0 : R S) (FOps.lit 1 : R S) >>= fun r => ncal 0 x >>= fun n0 => pure (r.1 +. r.2 *. n0)) := rfl
    rw [e2, e, bind_ok, h0, bind_ok]; rfl
  · simp only [ofR_add, ofR_mul, ofR_neg, ofR_ofInt, e0, e1, e2, e3, e4, e5, e6, e7, lit0 hS, lit1 hS]
    have hH : ((_root_.harmonic 8 : ℚ) : ℝ) = 761 / 280 := by
      simp only [_root_.harmonic, Finset.sum_range_succ, Finset.sum_range_zero]; norm_num
    rw [hH]
    simp only [uS]
    have hd : ∀ k : ℕ, dC 8 (k + 1) = 40320 / ((2*(k+1)+1)*(2*(k+1)+2)*(2*(k+1)+3)*(2*(k+1)+4)*(2*(k+1)+5)*(2*(k+1)+6)*(2*(k+1)+7)*(2*(k+1)+8)) - 1 := fun k => by
      rw [dC]
      have : ((2 * (k + 1)).factorial : ℝ) ≠ 0 := by exact_mod_cast Nat.factorial_ne_zero _
      have h2 : ((2 * (k + 1) + 8).factorial : ℝ) = ((2*(k+1)+1)*(2*(k+1)+2)*(2*(k+1)+3)*(2*(k+1)+4)*(2*(k+1)+5)*(2*(k+1)+6)*(2*(k+1)+7)*(2*(k+1)+8)) * (2 * (k + 1)).factorial := by
        simp only [Nat.factorial_succ]; push_cast; ring
      rw [h2, show ((Nat.factorial 8 : ℕ) : ℝ) = 40320 by norm_num [Nat.factorial]]
      have hD : ((2*(k+1)+1)*(2*(k+1)+2)*(2*(k+1)+3)*(2*(k+1)+4)*(2*(k+1)+5)*(2*(k+1)+6)*(2*(k+1)+7)*(2*(k+1)+8) : ℝ) ≠ 0 := by positivity
      field_simp
    have key : ∑ k ∈ range 202, bS S k * (ofR x ^ 2) ^ (k + 1) * (-1 / (2 * (k + 1)) * dC 8 (k + 1)) =
        (-8) * ((1) / 8 * ∑ k ∈ range 202, bS S k * (ofR x ^ 2) ^ (k + 1) * (1 / (2 * (k + 1) + 7 + 1)) + (-7) / 7 * ∑ k ∈ range 202, bS S k * (ofR x ^ 2) ^ (k + 1) * (1 / (2 * (k + 1) + 6 + 1)) + (21) / 6 * ∑ k ∈ range 202, bS S k * (ofR x ^ 2) ^ (k + 1) * (1 / (2 * (k + 1) + 5 + 1)) + (-35) / 5 * ∑ k ∈ range 202, bS S k * (ofR x ^ 2) ^ (k + 1) * (1 / (2 * (k + 1) + 4 + 1)) + (35) / 4 * ∑ k ∈ range 202, bS S k * (ofR x ^ 2) ^ (k + 1) * (1 / (2 * (k + 1) + 3 + 1)) + (-21) / 3 * ∑ k ∈ range 202, bS S k * (ofR x ^ 2) ^ (k + 1) * (1 / (2 * (k + 1) + 2 + 1)) + (7) / 2 * ∑ k ∈ range 202, bS S k * (ofR x ^ 2) ^ (k + 1) * (1 / (2 * (k + 1) + 1 + 1)) + (-1) / 1 * ∑ k ∈ range 202, bS S k * (ofR x ^ 2) ^ (k + 1) * (1 / (2 * (k + 1) + 0 + 1))) := by
      simp only [Finset.mul_sum, ← Finset.sum_add_distrib]
      refine Finset.sum_congr rfl fun k _ => ?_
      rw [hd]
      have : (k:ℝ) + 1 ≠ 0 := by positivity
      generalize bS S k * (ofR x ^ 2) ^ (k + 1) = t
      have hk : (0:ℝ) ≤ k := Nat.cast_nonneg k
      field_simp
      ring
    rw [key]
    push_cast
    ring

end Polylog
