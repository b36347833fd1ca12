import Verif.Props.ClMidReal
import Verif.Props.ZetaVals
/-! # `Cl(n, x)`, n = 7, 8, 9: error of the middle branch (second half generated by tools/cl/gencl8.py) -/

noncomputable section
namespace Polylog
open Finset
variable {S : RealSem} {u : ℝ}

theorem sin_ge_half {t : ℝ} (h0 : 0 ≤ t) (h1 : t ≤ 1.571) : t / 2 ≤ Real.sin t := by
  have hp1 := pi_gt; have hp2 := pi_lt
  rcases le_or_gt t (Real.pi / 2) with h | h
  · refine le_trans ?_ (Real.mul_le_sin h0 h)
    rw [div_mul_eq_mul_div, le_div_iff₀ Real.pi_pos]
    nlinarith
  · rw [← Real.sin_pi_sub]
    refine le_trans ?_ (Real.mul_le_sin (by linarith) (by linarith))
    rw [div_mul_eq_mul_div, le_div_iff₀ Real.pi_pos]
    nlinarith

theorem log_sin_le {x : ℝ} (h0 : 0 < x) (h1 : x ≤ 3.1417) : |Real.log (2 * Real.sin (x / 2))| ≤ 1 + 2 / x := by
  have h := sin_ge_half (t := x / 2) (by linarith) (by linarith)
  have hs := Real.sin_le_one (x / 2)
  set y := 2 * Real.sin (x / 2) with hy
  have hy0 : x / 2 ≤ y := by rw [hy]; linarith
  have hyp : 0 < y := by linarith
  have hl := Real.log_le_sub_one_of_pos hyp
  have hl2 := Real.one_sub_inv_le_log_of_pos hyp
  have h3 : y⁻¹ ≤ 2 / x := by
    rw [inv_eq_one_div, div_le_div_iff₀ hyp h0]; linarith
  have : 0 < 2 / x := by positivity
  rw [abs_le]; constructor <;> linarith

/-- sum of the absolute values of the expansion -/
theorem lC_sum_le {x : ℝ} (h0 : 0 < x) (h1 : x ≤ 3.1417) : (∀ k, |lC (k + 1)| * (x ^ 2) ^ (k + 1) ≤ 1.573 * 0.2502 ^ k) := by
  intro k
  have h := lC_abs (k + 1) (by omega)
  have hp1 := pi_gt; have hp2 := pi_lt
  have hq : 1 / (4 * Real.pi ^ 2) * x ^ 2 ≤ 0.2502 := by
    rw [one_div_mul_eq_div, div_le_iff₀ (by positivity)]
    nlinarith
  calc |lC (k + 1)| * (x ^ 2) ^ (k + 1) ≤ 2 * Real.pi * (1 / (4 * Real.pi ^ 2)) ^ (k + 1) * (x ^ 2) ^ (k + 1) := mul_le_mul_of_nonneg_right h (by positivity)
    _ = 2 * Real.pi * (1 / (4 * Real.pi ^ 2) * x ^ 2) ^ (k + 1) := by rw [mul_assoc, mul_pow]
    _ ≤ 6.2832 * 0.2502 ^ (k + 1) := by
      refine mul_le_mul (by linarith) (pow_le_pow_left₀ (by positivity) hq _) (by positivity) (by norm_num)
    _ ≤ _ := by rw [pow_succ]; have : (0:ℝ) ≤ 0.2502 ^ k := by positivity
                nlinarith

theorem geo_le (n : ℕ) : ∑ k ∈ range n, (0.2502:ℝ) ^ k ≤ 1.334 := by
  rw [geom_sum_eq (by norm_num)]
  have : (0:ℝ) ≤ 0.2502 ^ n := by positivity
  rw [div_le_iff_of_neg (by norm_num)]; linarith

theorem uS_close (hS : S.Lit u) {x Q : ℝ} (h0 : 0 < x) (h1 : x ≤ 3.1417) (N : ℕ)
    (hQ : HasSum (fun k => lC (k + 1) * dC N (k + 1) * (x ^ 2) ^ (k + 1)) Q) :
    |uS S x (fun k => -1 / (2 * (k + 1)) * dC N (k + 1)) - Q| ≤ 1.27e-16 + 2.32 * u := by
  have hb := lC_sum_le h0 h1
  have hu0 := hS.u_nonneg
  -- tail
  have ht : |Q - ∑ k ∈ range 202, lC (k + 1) * dC N (k + 1) * (x ^ 2) ^ (k + 1)| ≤ 1e-40 := by
    have h2 := (hasSum_nat_add_iff' 202).mpr hQ
    have hg : HasSum (fun k : ℕ => 1.573 * (0.2502:ℝ) ^ (k + 202)) (1.573 * 0.2502 ^ 202 * (1 - 0.2502)⁻¹) := by
      have := (hasSum_geometric_of_lt_one (r := (0.2502:ℝ)) (by norm_num) (by norm_num)).mul_left (1.573 * 0.2502 ^ 202)
      refine HasSum.congr_fun' this fun k => ?_
      rw [pow_add]; ring
    have := tsum_of_norm_bounded hg (f := fun k => lC (k + 202 + 1) * dC N (k + 202 + 1) * (x ^ 2) ^ (k + 202 + 1)) fun k => by
      rw [Real.norm_eq_abs, abs_mul, abs_mul, abs_of_nonneg (by positivity : (0:ℝ) ≤ (x ^ 2) ^ (k + 202 + 1))]
      refine le_trans ?_ (hb (k + 202))
      refine mul_le_mul_of_nonneg_right ?_ (by positivity)
      exact mul_le_of_le_one_right (abs_nonneg _) (dC_abs _ _)
    rw [h2.tsum_eq, Real.norm_eq_abs] at this
    refine this.trans ?_
    norm_num
  have hm : |uS S x (fun k => -1 / (2 * (k + 1)) * dC N (k + 1)) - ∑ k ∈ range 202, lC (k + 1) * dC N (k + 1) * (x ^ 2) ^ (k + 1)| ≤ (6e-17 + 1.1 * u) * 2.0984 := by
    rw [uS, ← Finset.sum_sub_distrib]
    refine (Finset.abs_sum_le_sum_abs _ _).trans ((Finset.sum_le_sum (g := fun k => (6e-17 + 1.1 * u) * (1.573 * 0.2502 ^ k)) fun k hk => ?_).trans ?_)
    · have hk2 := bS_close hS k (mem_range.mp hk)
      have hk0 : (0:ℝ) ≤ k := Nat.cast_nonneg k
      have e : bS S k * (x ^ 2) ^ (k + 1) * (-1 / (2 * (k + 1)) * dC N (k + 1)) - lC (k + 1) * dC N (k + 1) * (x ^ 2) ^ (k + 1) =
          -((bS S k + 2 * (k + 1) * lC (k + 1)) * ((x ^ 2) ^ (k + 1) * dC N (k + 1) / (2 * (k + 1)))) := by field_simp; ring
      rw [e, abs_neg, abs_mul, abs_div, abs_mul, abs_of_nonneg (by positivity : (0:ℝ) ≤ (x ^ 2) ^ (k + 1)), abs_of_nonneg (by positivity : (0:ℝ) ≤ 2 * ((k:ℝ) + 1))]
      calc _ ≤ (6e-17 + 1.1 * u) * (2 * (k + 1) * |lC (k + 1)|) * ((x ^ 2) ^ (k + 1) * 1 / (2 * (k + 1))) := by
            refine mul_le_mul hk2 ?_ (by positivity) (by positivity)
            refine div_le_div_of_nonneg_right ?_ (by positivity)
            exact mul_le_mul_of_nonneg_left (dC_abs _ _) (by positivity)
        _ = (6e-17 + 1.1 * u) * (|lC (k + 1)| * (x ^ 2) ^ (k + 1)) := by field_simp
        _ ≤ _ := mul_le_mul_of_nonneg_left (hb k) (by positivity)
    · rw [← Finset.mul_sum, ← Finset.mul_sum]
      refine mul_le_mul_of_nonneg_left ?_ (by positivity)
      have := geo_le 202
      linarith
  have := abs_sub_le (uS S x (fun k => -1 / (2 * (k + 1)) * dC N (k + 1))) (∑ k ∈ range 202, lC (k + 1) * dC N (k + 1) * (x ^ 2) ^ (k + 1)) Q
  rw [abs_sub_comm Q] at ht
  linarith

/-- error of the recombination, `N = 2m + p` -/
theorem mid_real (m p : ℕ) (hp : p < 2) {x f g U P δ : ℝ} (h0 : 0 < x) (h1 : x ≤ 3.1417) (hu0 : 0 ≤ u) (hu : u ≤ 1e-6)
    (hN : (3.1417:ℝ) ^ (2 * m + p) / (2 * m + p).factorial ≤ 1.336) (hH : ((_root_.harmonic (2 * m + p) : ℚ) : ℝ) ≤ 2.72) (hm : 1 ≤ m)
    (hf : |f - 1 / (2 * m + p).factorial| ≤ u * (1 / (2 * m + p).factorial)) (hg : |g - 1 / (2 * m + p).factorial| ≤ u * (1 / (2 * m + p).factorial))
    (hU : ∀ Q, HasSum (fun k => lC (k + 1) * dC (2 * m + p) (k + 1) * (x ^ 2) ^ (k + 1)) Q → |U - Q| ≤ 1.27e-16 + 2.32 * u)
    (hP : |P - x ^ p * ∑ j ∈ range m, loC m p j * (x ^ 2) ^ j| ≤ δ) :
    |(-(-1) ^ m * x ^ (2 * m + p) * f * Real.log (2 * Real.sin (x / 2)) + (P + (-1) ^ m * g * x ^ (2 * m + p) * (((_root_.harmonic (2 * m + p) : ℚ) : ℝ) + U))) - clausen (2 * m + 1 + p) x| ≤
      δ + 1.7e-16 + 14 * u := by
  obtain ⟨Q, hQ, hc⟩ := clausen_mid m p hp h0 (by linarith [pi_gt])
  have hU := hU Q hQ
  have hlog := log_sin_le h0 h1
  have hH0 : (0:ℝ) ≤ ((_root_.harmonic (2 * m + p) : ℚ) : ℝ) := by
    have : (0:ℚ) ≤ _root_.harmonic (2 * m + p) := Finset.sum_nonneg fun i _ => by positivity
    exact_mod_cast this
  have hQb : |Q| ≤ 2.1 := by
    have hg : HasSum (fun k : ℕ => 1.573 * (0.2502:ℝ) ^ k) (1.573 * (1 - 0.2502)⁻¹) :=
      (hasSum_geometric_of_lt_one (r := (0.2502:ℝ)) (by norm_num) (by norm_num)).mul_left _
    have := tsum_of_norm_bounded hg (f := fun k => lC (k + 1) * dC (2 * m + p) (k + 1) * (x ^ 2) ^ (k + 1)) fun k => by
      rw [Real.norm_eq_abs, abs_mul, abs_mul, abs_of_nonneg (by positivity : (0:ℝ) ≤ (x ^ 2) ^ (k + 1))]
      refine le_trans ?_ (lC_sum_le h0 h1 k)
      refine mul_le_mul_of_nonneg_right ?_ (by positivity)
      exact mul_le_of_le_one_right (abs_nonneg _) (dC_abs _ _)
    rw [hQ.tsum_eq, Real.norm_eq_abs] at this
    refine this.trans ?_
    norm_num
  obtain ⟨M, hM⟩ : ∃ M, 2 * m + p = M + 1 := ⟨2 * m + p - 1, by omega⟩
  rw [hc]
  clear hc hQ
  have hxN : x ^ (2 * m + p) / (2 * m + p).factorial ≤ 1.336 := le_trans (div_le_div_of_nonneg_right (pow_le_pow_left₀ h0.le h1 _) (by positivity)) hN
  have hxL : x ^ (2 * m + p) / (2 * m + p).factorial * |Real.log (2 * Real.sin (x / 2))| ≤ 2.2 := by
    calc _ ≤ x ^ (2 * m + p) / (2 * m + p).factorial * (1 + 2 / x) := mul_le_mul_of_nonneg_left hlog (by positivity)
      _ = (x ^ (M + 1) + 2 * x ^ M) / (2 * m + p).factorial := by rw [hM, pow_succ]; field_simp
      _ ≤ (3.1417 ^ (M + 1) + 2 * 3.1417 ^ M) / (2 * m + p).factorial := by
        refine div_le_div_of_nonneg_right (add_le_add (pow_le_pow_left₀ h0.le h1 _) (mul_le_mul_of_nonneg_left (pow_le_pow_left₀ h0.le h1 _) (by norm_num))) (by positivity)
      _ = 3.1417 ^ (2 * m + p) / (2 * m + p).factorial * (1 + 2 / 3.1417) := by rw [hM, pow_succ]; field_simp
      _ ≤ 1.336 * (1 + 2 / 3.1417) := mul_le_mul_of_nonneg_right hN (by norm_num)
      _ ≤ 2.2 := by norm_num
  have hs : |(-1:ℝ) ^ m| = 1 := by rw [abs_pow, abs_neg, abs_one, one_pow]
  have hF : (0:ℝ) < (2 * m + p).factorial := by positivity
  generalize Real.log (2 * Real.sin (x / 2)) = L at *
  generalize ((_root_.harmonic (2 * m + p) : ℚ) : ℝ) = H at *
  generalize x ^ p * ∑ j ∈ range m, loC m p j * (x ^ 2) ^ j = P0 at *
  generalize ((2 * m + p).factorial : ℝ) = F at *
  have hX0 : 0 ≤ x ^ (2 * m + p) := by positivity
  generalize x ^ (2 * m + p) = X at *
  generalize (-1:ℝ) ^ m = s at *
  have e : (-s * X * f * L + (P + s * g * X * (H + U))) - (P0 + s / F * X * (H + Q - L)) =
      (P - P0) + s * (-(X * L * (f - 1 / F)) + X * (g - 1 / F) * (H + Q) + X * g * (U - Q)) := by field_simp; ring
  rw [e]
  have t1 : |X * L * (f - 1 / F)| ≤ 2.2 * u := by
    rw [abs_mul, abs_mul, abs_of_nonneg hX0]
    calc X * |L| * |f - 1 / F| ≤ X * |L| * (u * (1 / F)) := mul_le_mul_of_nonneg_left hf (by positivity)
      _ = (X / F * |L|) * u := by field_simp
      _ ≤ 2.2 * u := mul_le_mul_of_nonneg_right hxL hu0
  have hHQ : |H + Q| ≤ 4.82 := (abs_add_le _ _).trans (by rw [abs_of_nonneg hH0]; linarith)
  have t2 : |X * (g - 1 / F) * (H + Q)| ≤ 6.5 * u := by
    rw [abs_mul, abs_mul, abs_of_nonneg hX0]
    calc X * |g - 1 / F| * |H + Q| ≤ X * (u * (1 / F)) * 4.82 := mul_le_mul (mul_le_mul_of_nonneg_left hg hX0) hHQ (abs_nonneg _) (by positivity)
      _ = X / F * (4.82 * u) := by field_simp
      _ ≤ 1.336 * (4.82 * u) := mul_le_mul_of_nonneg_right hxN (by positivity)
      _ ≤ _ := by nlinarith
  have hgb : X * |g| ≤ 1.337 := by
    have : |g| ≤ (1 + u) * (1 / F) := by
      have h := abs_sub_abs_le_abs_sub g (1 / F)
      rw [abs_of_pos (by positivity : (0:ℝ) < 1 / F)] at h
      linarith
    calc X * |g| ≤ X * ((1 + u) * (1 / F)) := mul_le_mul_of_nonneg_left this hX0
      _ = X / F * (1 + u) := by field_simp
      _ ≤ 1.336 * (1 + 1e-6) := mul_le_mul hxN (by linarith) (by positivity) (by norm_num)
      _ ≤ _ := by norm_num
  have t3 : |X * g * (U - Q)| ≤ 1.7e-16 + 3.2 * u := by
    rw [abs_mul, abs_mul, abs_of_nonneg hX0]
    calc X * |g| * |U - Q| ≤ 1.337 * (1.27e-16 + 2.32 * u) := mul_le_mul hgb hU (abs_nonneg _) (by norm_num)
      _ ≤ _ := by linarith
  have a1 := abs_add_le (P - P0) (s * (-(X * L * (f - 1 / F)) + X * (g - 1 / F) * (H + Q) + X * g * (U - Q)))
  rw [abs_mul, hs, one_mul] at a1
  have a2 := abs_add_le (-(X * L * (f - 1 / F)) + X * (g - 1 / F) * (H + Q)) (X * g * (U - Q))
  have a3 := abs_add_le (-(X * L * (f - 1 / F))) (X * (g - 1 / F) * (H + Q))
  rw [abs_neg] at a3
  linarith
/-! ## literals -/

theorem clZeta_cert : ∀ i : Fin 8, |clZeta[i.1] - zQ i.1| ≤ 3.99e-17 := by decide +kernel

theorem clZeta_le : ∀ i : Fin 8, |clZeta[i.1]| ≤ 1.65 := by decide +kernel

/-- stored entry of `zeta[]` -/
theorem clZeta_close (hS : S.Lit u) (k : ℕ) (hk : k < 8) : |((S.rho clZeta[k] : ℚ) : ℝ) - reLi (k + 2) 1| ≤ 4e-17 + 1.7 * u := by
  have h := clZeta_cert ⟨k, hk⟩
  have h' := (Rat.cast_le (K := ℝ)).mpr h
  push_cast at h'
  have h2 := hS.rel clZeta[k]
  have h3 := zQ_approx k (by omega)
  rw [abs_sub_comm] at h3
  have hb : |((clZeta[k] : ℚ) : ℝ)| ≤ 1.7 := by
    have := (Rat.cast_le (K := ℝ)).mpr (clZeta_le ⟨k, hk⟩)
    push_cast at this; linarith
  have hu := hS.u_nonneg
  have := mul_le_mul_of_nonneg_left hb hu
  generalize ((S.rho clZeta[k] : ℚ) : ℝ) = r at *
  have a1 := abs_sub_le r ((clZeta[k] : ℚ) : ℝ) (reLi (k + 2) 1)
  have a2 := abs_sub_le ((clZeta[k] : ℚ) : ℝ) ((zQ k : ℚ) : ℝ) (reLi (k + 2) 1)
  generalize ((clZeta[k] : ℚ) : ℝ) = z at *
  generalize ((zQ k : ℚ) : ℝ) = z' at *
  linarith

theorem reLi_one_le (k : ℕ) (hk : k < 8) : |reLi (k + 2) 1| ≤ 1.7 := by
  have h := clZeta_close (lit_id RealSem.dec rfl) k hk
  have hb := (Rat.cast_le (K := ℝ)).mpr (clZeta_le ⟨k, hk⟩)
  push_cast at hb
  rw [abs_sub_comm] at h
  have := abs_sub_abs_le_abs_sub (reLi (k + 2) 1) ((clZeta[k] : ℚ) : ℝ)
  have e : RealSem.dec.rho clZeta[k] = clZeta[k] := rfl
  rw [e] at h
  linarith

/-- one coefficient of `pcal` -/
theorem pc_coef (hS : S.Lit u) (hu : u ≤ 1e-6) (k : ℕ) (hk : k < 8) (q : ℚ) (s : ℝ) (hs : |s| = 1) :
    |s * ((S.rho clZeta[k] : ℚ) : ℝ) * ((S.rho q : ℚ) : ℝ) - s * reLi (k + 2) 1 * (q:ℝ)| ≤ |(q:ℝ)| * (4.1e-17 + 3.5 * u) := by
  have h1 := clZeta_close hS k hk
  have h2 := hS.rel q
  have h3 := reLi_one_le k hk
  have hu0 := hS.u_nonneg
  generalize ((S.rho clZeta[k] : ℚ) : ℝ) = z at *
  generalize ((S.rho q : ℚ) : ℝ) = r at *
  generalize reLi (k + 2) 1 = w at *
  have e : s * z * r - s * w * q = s * ((z - w) * r + w * (r - q)) := by ring
  rw [e, abs_mul, hs, one_mul]
  have hr : |r| ≤ |(q:ℝ)| * (1 + u) := by
    have := abs_sub_abs_le_abs_sub r q
    linarith
  have a := abs_add_le ((z - w) * r) (w * (r - q))
  rw [abs_mul, abs_mul] at a
  have b1 := mul_le_mul h1 hr (abs_nonneg _) (by linarith)
  have b2 := mul_le_mul h3 h2 (abs_nonneg _) (by norm_num)
  have hq := abs_nonneg (q:ℝ)
  have : (4e-17 + 1.7 * u) * (|(q:ℝ)| * (1 + u)) ≤ |(q:ℝ)| * (4.05e-17 + 1.75 * u) := by
    have : (4e-17 + 1.7 * u) * (1 + u) ≤ 4.05e-17 + 1.75 * u := by nlinarith
    nlinarith
  nlinarith

theorem abs4 (a b c d : ℝ) : |a + b + c + d| ≤ |a| + |b| + |c| + |d| :=
  (abs_add_le _ _).trans (add_le_add_left (abs_add_three a b c) _)

theorem pcal7_R (hS : S.Lit u) (hu : u ≤ 1e-6) {x : R S} (h0 : 0 ≤ ofR x) (h1 : ofR x ≤ 3.1417) :
    ∃ v, pcal 7 x = .ok v ∧ |ofR v - ofR x ^ 0 * ∑ j ∈ range 3, loC 3 0 j * (ofR x ^ 2) ^ j| ≤ 10.0 * (4.1e-17 + 3.5 * u) := by
  refine ⟨(x *. x *. (x *. x *. (x *. x *. (FOps.lit 0 : R S) +. (FOps.lit 1 : R S) *. (FOps.lit clZeta[1] : R S) *. (FOps.lit clInvFac[4] : R S)) +. (∸(FOps.lit 1 : R S)) *. (FOps.lit clZeta[3] : R S) *. (FOps.lit clInvFac[2] : R S)) +. (FOps.lit 1 : R S) *. (FOps.lit clZeta[5] : R S) *. (FOps.lit clInvFac[0] : R S)), rfl, ?_⟩
  have hl : ∀ q : ℚ, ofR (FOps.lit q : R S) = ((S.rho q : ℚ) : ℝ) := fun _ => rfl
  simp only [ofR_add, ofR_mul, ofR_neg, lit0 hS, lit1 hS, Finset.sum_range_succ, Finset.sum_range_zero]
  generalize ofR x = x0 at *
  rw [hl clZeta[5], hl clInvFac[0], hl clZeta[3], hl clInvFac[2], hl clZeta[1], hl clInvFac[4]]
  have hu0 := hS.u_nonneg
  have n0 : ((clInvFac[0] : ℚ) : ℝ) = 1 := by
    show (((1 : ℚ)) : ℝ) = _
    norm_num
  have b0 : |((1 : ℝ) * ((S.rho clZeta[5] : ℚ) : ℝ) * ((S.rho clInvFac[0] : ℚ) : ℝ) - loC 3 0 0) * x0 ^ 0| ≤ 1 * (4.1e-17 + 3.5 * u) * 3.1417 ^ 0 := by
    have c := pc_coef hS hu 5 (by norm_num) clInvFac[0] (1) (by norm_num)
    rw [n0, abs_of_pos (by norm_num : (0:ℝ) < 1)] at c
    have l : loC 3 0 0 = (1 : ℝ) * reLi (5 + 2) 1 * (1) := by
      rw [loC_lt 3 0 0 (by norm_num)]
      norm_num [Nat.factorial]
      try ring
    rw [← l] at c
    rw [abs_mul, abs_of_nonneg (pow_nonneg h0 0)]
    exact mul_le_mul c (pow_le_pow_left₀ h0 h1 0) (by positivity) (by positivity)
  have n1 : ((clInvFac[2] : ℚ) : ℝ) = 1 / 2 := by
    show (((1 / 2 : ℚ)) : ℝ) = _
    norm_num
  have b1 : |((-1 : ℝ) * ((S.rho clZeta[3] : ℚ) : ℝ) * ((S.rho clInvFac[2] : ℚ) : ℝ) - loC 3 0 1) * x0 ^ 2| ≤ 1 / 2 * (4.1e-17 + 3.5 * u) * 3.1417 ^ 2 := by
    have c := pc_coef hS hu 3 (by norm_num) clInvFac[2] (-1) (by norm_num)
    rw [n1, abs_of_pos (by norm_num : (0:ℝ) < 1 / 2)] at c
    have l : loC 3 0 1 = (-1 : ℝ) * reLi (3 + 2) 1 * (1 / 2) := by
      rw [loC_lt 3 0 1 (by norm_num)]
      norm_num [Nat.factorial]
      try ring
    rw [← l] at c
    rw [abs_mul, abs_of_nonneg (pow_nonneg h0 2)]
    exact mul_le_mul c (pow_le_pow_left₀ h0 h1 2) (by positivity) (by positivity)
  have n2 : ((clInvFac[4] : ℚ) : ℝ) = 1 / 24 := by
    show (((1 / 24 : ℚ)) : ℝ) = _
    norm_num
  have b2 : |((1 : ℝ) * ((S.rho clZeta[1] : ℚ) : ℝ) * ((S.rho clInvFac[4] : ℚ) : ℝ) - loC 3 0 2) * x0 ^ 4| ≤ 1 / 24 * (4.1e-17 + 3.5 * u) * 3.1417 ^ 4 := by
    have c := pc_coef hS hu 1 (by norm_num) clInvFac[4] (1) (by norm_num)
    rw [n2, abs_of_pos (by norm_num : (0:ℝ) < 1 / 24)] at c
    have l : loC 3 0 2 = (1 : ℝ) * reLi (1 + 2) 1 * (1 / 24) := by
      rw [loC_lt 3 0 2 (by norm_num)]
      norm_num [Nat.factorial]
      try ring
    rw [← l] at c
    rw [abs_mul, abs_of_nonneg (pow_nonneg h0 4)]
    exact mul_le_mul c (pow_le_pow_left₀ h0 h1 4) (by positivity) (by positivity)
  have e : ∀ y : ℝ, y = ((1 : ℝ) * ((S.rho clZeta[5] : ℚ) : ℝ) * ((S.rho clInvFac[0] : ℚ) : ℝ) - loC 3 0 0) * x0 ^ 0 + ((-1 : ℝ) * ((S.rho clZeta[3] : ℚ) : ℝ) * ((S.rho clInvFac[2] : ℚ) : ℝ) - loC 3 0 1) * x0 ^ 2 + ((1 : ℝ) * ((S.rho clZeta[1] : ℚ) : ℝ) * ((S.rho clInvFac[4] : ℚ) : ℝ) - loC 3 0 2) * x0 ^ 4 → |y| ≤ 10.0 * (4.1e-17 + 3.5 * u) := fun y hy => by
    rw [hy]
    have := abs_add_three (((1 : ℝ) * ((S.rho clZeta[5] : ℚ) : ℝ) * ((S.rho clInvFac[0] : ℚ) : ℝ) - loC 3 0 0) * x0 ^ 0) (((-1 : ℝ) * ((S.rho clZeta[3] : ℚ) : ℝ) * ((S.rho clInvFac[2] : ℚ) : ℝ) - loC 3 0 1) * x0 ^ 2) (((1 : ℝ) * ((S.rho clZeta[1] : ℚ) : ℝ) * ((S.rho clInvFac[4] : ℚ) : ℝ) - loC 3 0 2) * x0 ^ 4)
    linarith
  refine e _ ?_
  ring

theorem clMid7_acc (hS : S.Lit u) (hu : u ≤ 1e-6) {x : R S} (h0 : 0 ≤ ofR x) (h1 : ofR x ≤ 3.1417) :
    ∃ c : R S, (∀ s, clMid 7 x s = .ok (s *. c)) ∧ |ofR c - clausen 7 (ofR x)| ≤ 7e-16 + 54 * u := by
  have hu0 := hS.u_nonneg
  obtain ⟨pc, hpc, epc⟩ := pcal7_R hS hu (x := x) h0 h1
  obtain ⟨ns, hns, ens⟩ := nsum7_R hS hu (x := x) h0
  have hp := powi_R (x := x) h0 6 (by norm_num)
  push_cast at hp
  have h2 := litnat hS 2 (by norm_num)
  push_cast at h2
  let c : R S := (if x ==. (FOps.lit 0 : R S) then (FOps.lit 0 : R S) else (FOps.lit 1 : R S) *. powi x 6 *. (FOps.lit clInvFac[6] : R S) *. FOps.log ((FOps.lit 2 : R S) *. FOps.sin (x /. (FOps.lit 2 : R S)))) +.
    (pc -. ∸(FOps.lit 1 : R S) *. (FOps.lit clInvFac[5] : R S) *. ns)
  refine ⟨c, fun s => ?_, ?_⟩
  · have e : clMid 7 x s = (pcal 7 x >>= fun pc => nsum 7 x >>= fun ns => pure (s *. ((if x ==. (FOps.lit 0 : R S) then (FOps.lit 0 : R S) else (FOps.lit 1 : R S) *. powi x 6 *. (FOps.lit clInvFac[6] : R S) *. FOps.log ((FOps.lit 2 : R S) *. FOps.sin (x /. (FOps.lit 2 : R S)))) +.
      (pc -. ∸(FOps.lit 1 : R S) *. (FOps.lit clInvFac[5] : R S) *. ns)))) := rfl
    rw [e, hpc, bind_ok, hns, bind_ok]; rfl
  have f1 := hS.rel clInvFac[6]
  have f2 := hS.rel clInvFac[5]
  have g1 : ((clInvFac[6] : ℚ) : ℝ) = 1 / 720 := by
    show ((1 / 720 : ℚ) : ℝ) = _; norm_num
  have g2 : ((clInvFac[5] : ℚ) : ℝ) = 1 / 120 := by
    show ((1 / 120 : ℚ) : ℝ) = _; norm_num
  rw [g1, abs_of_pos (by norm_num : (0:ℝ) < 1 / 720)] at f1
  rw [g2, abs_of_pos (by norm_num : (0:ℝ) < 1 / 120)] at f2
  have hl1 : ofR (FOps.lit clInvFac[6] : R S) = ((S.rho clInvFac[6] : ℚ) : ℝ) := rfl
  have hl2 : ofR (FOps.lit clInvFac[5] : R S) = ((S.rho clInvFac[5] : ℚ) : ℝ) := rfl
  have ec : ofR c = ofR (if x ==. (FOps.lit 0 : R S) then (FOps.lit 0 : R S) else (FOps.lit 1 : R S) *. powi x 6 *. (FOps.lit clInvFac[6] : R S) *. FOps.log ((FOps.lit 2 : R S) *. FOps.sin (x /. (FOps.lit 2 : R S)))) +
    (ofR pc - (-1 : ℝ) * ofR (FOps.lit clInvFac[5] : R S) * ofR ns) := by
    simp only [c, ofR_add, ofR_sub, ofR_mul, ofR_neg, lit1 hS]
  rw [ec, ens]
  rcases eq_or_lt_of_le h0 with hz | hz
  · rw [eq_R, lit0 hS, ← hz, if_pos (by simp), lit0 hS]
    have hc := clausen_odd_zero 3
    norm_num at hc
    rw [hc]
    rw [← hz, Finset.sum_range_succ'] at epc
    simp [loC_lt 3 0 0 (by norm_num)] at epc
    simp
    refine epc.trans ?_
    norm_num
    linarith
  · rw [eq_R, lit0 hS, if_neg (by simpa using hz.ne')]
    have hs2 : ofR (FOps.log ((FOps.lit 2 : R S) *. FOps.sin (x /. (FOps.lit 2 : R S)))) = Real.log (2 * Real.sin (ofR x / 2)) := by
      have := sin_ge_half (t := ofR x / 2) (by linarith) (by linarith)
      rw [ofR_log (by rw [ofR_mul, h2, ofR_sin, half_R hS]; linarith), ofR_mul, h2, ofR_sin, half_R hS]
    simp only [ofR_mul, ofR_neg, lit1 hS, hs2, hp, hl1, hl2]
    have hF : ((Nat.factorial (2 * 3 + 0) : ℕ) : ℝ) = 720 := by norm_num [Nat.factorial]
    have key := mid_real (u := u) 3 0 (by norm_num) (x := ofR x) (f := ((S.rho clInvFac[6] : ℚ) : ℝ)) (g := ((S.rho clInvFac[5] : ℚ) : ℝ) / 6) (U := uS S (ofR x) (fun k => -1 / (2 * (k + 1)) * dC 6 (k + 1)))
      (P := ofR pc) hz h1 hu0 hu (by rw [hF]; norm_num) (by
        simp only [_root_.harmonic, Finset.sum_range_succ, Finset.sum_range_zero]; norm_num) (by norm_num)
      (by rw [hF]; exact f1) (by
        rw [hF]
        have e : ((S.rho clInvFac[5] : ℚ) : ℝ) / (6:ℝ) - (1:ℝ) / (720:ℝ) = (((S.rho clInvFac[5] : ℚ) : ℝ) - 1 / 120) / 6 := by ring
        rw [e, abs_div, abs_of_pos (by norm_num : (0:ℝ) < 6), div_le_iff₀ (by norm_num)]
        refine f2.trans (le_of_eq (by ring))) (fun Q hQ => uS_close hS hz h1 6 hQ) epc
    norm_num at key ⊢
    refine le_trans (le_of_eq ?_) (key.trans (by linarith))
    congr 1
    ring


theorem pcal8_R (hS : S.Lit u) (hu : u ≤ 1e-6) {x : R S} (h0 : 0 ≤ ofR x) (h1 : ofR x ≤ 3.1417) :
    ∃ v, pcal 8 x = .ok v ∧ |ofR v - ofR x ^ 1 * ∑ j ∈ range 3, loC 3 1 j * (ofR x ^ 2) ^ j| ≤ 10.87 * (4.1e-17 + 3.5 * u) := by
  refine ⟨(x *. x *. (x *. x *. (x *. x *. (FOps.lit 0 : R S) +. (FOps.lit 1 : R S) *. (FOps.lit clZeta[1] : R S) *. (FOps.lit clInvFac[5] : R S)) +. (∸(FOps.lit 1 : R S)) *. (FOps.lit clZeta[3] : R S) *. (FOps.lit clInvFac[3] : R S)) +. (FOps.lit 1 : R S) *. (FOps.lit clZeta[5] : R S) *. (FOps.lit clInvFac[1] : R S)) *. x, rfl, ?_⟩
  have hl : ∀ q : ℚ, ofR (FOps.lit q : R S) = ((S.rho q : ℚ) : ℝ) := fun _ => rfl
  simp only [ofR_add, ofR_mul, ofR_neg, lit0 hS, lit1 hS, Finset.sum_range_succ, Finset.sum_range_zero]
  generalize ofR x = x0 at *
  rw [hl clZeta[5], hl clInvFac[1], hl clZeta[3], hl clInvFac[3], hl clZeta[1], hl clInvFac[5]]
  have hu0 := hS.u_nonneg
  have n0 : ((clInvFac[1] : ℚ) : ℝ) = 1 := by
    show (((1 : ℚ)) : ℝ) = _
    norm_num
  have b0 : |((1 : ℝ) * ((S.rho clZeta[5] : ℚ) : ℝ) * ((S.rho clInvFac[1] : ℚ) : ℝ) - loC 3 1 0) * x0 ^ 1| ≤ 1 * (4.1e-17 + 3.5 * u) * 3.1417 ^ 1 := by
    have c := pc_coef hS hu 5 (by norm_num) clInvFac[1] (1) (by norm_num)
    rw [n0, abs_of_pos (by norm_num : (0:ℝ) < 1)] at c
    have l : loC 3 1 0 = (1 : ℝ) * reLi (5 + 2) 1 * (1) := by
      rw [loC_lt 3 1 0 (by norm_num)]
      norm_num [Nat.factorial]
      try ring
    rw [← l] at c
    rw [abs_mul, abs_of_nonneg (pow_nonneg h0 1)]
    exact mul_le_mul c (pow_le_pow_left₀ h0 h1 1) (by positivity) (by positivity)
  have n1 : ((clInvFac[3] : ℚ) : ℝ) = 1 / 6 := by
    show (((1 / 6 : ℚ)) : ℝ) = _
    norm_num
  have b1 : |((-1 : ℝ) * ((S.rho clZeta[3] : ℚ) : ℝ) * ((S.rho clInvFac[3] : ℚ) : ℝ) - loC 3 1 1) * x0 ^ 3| ≤ 1 / 6 * (4.1e-17 + 3.5 * u) * 3.1417 ^ 3 := by
    have c := pc_coef hS hu 3 (by norm_num) clInvFac[3] (-1) (by norm_num)
    rw [n1, abs_of_pos (by norm_num : (0:ℝ) < 1 / 6)] at c
    have l : loC 3 1 1 = (-1 : ℝ) * reLi (3 + 2) 1 * (1 / 6) := by
      rw [loC_lt 3 1 1 (by norm_num)]
      norm_num [Nat.factorial]
      try ring
    rw [← l] at c
    rw [abs_mul, abs_of_nonneg (pow_nonneg h0 3)]
    exact mul_le_mul c (pow_le_pow_left₀ h0 h1 3) (by positivity) (by positivity)
  have n2 : ((clInvFac[5] : ℚ) : ℝ) = 1 / 120 := by
    show (((1 / 120 : ℚ)) : ℝ) = _
    norm_num
  have b2 : |((1 : ℝ) * ((S.rho clZeta[1] : ℚ) : ℝ) * ((S.rho clInvFac[5] : ℚ) : ℝ) - loC 3 1 2) * x0 ^ 5| ≤ 1 / 120 * (4.1e-17 + 3.5 * u) * 3.1417 ^ 5 := by
    have c := pc_coef hS hu 1 (by norm_num) clInvFac[5] (1) (by norm_num)
    rw [n2, abs_of_pos (by norm_num : (0:ℝ) < 1 / 120)] at c
    have l : loC 3 1 2 = (1 : ℝ) * reLi (1 + 2) 1 * (1 / 120) := by
      rw [loC_lt 3 1 2 (by norm_num)]
      norm_num [Nat.factorial]
      try ring
    rw [← l] at c
    rw [abs_mul, abs_of_nonneg (pow_nonneg h0 5)]
    exact mul_le_mul c (pow_le_pow_left₀ h0 h1 5) (by positivity) (by positivity)
  have e : ∀ y : ℝ, y = ((1 : ℝ) * ((S.rho clZeta[5] : ℚ) : ℝ) * ((S.rho clInvFac[1] : ℚ) : ℝ) - loC 3 1 0) * x0 ^ 1 + ((-1 : ℝ) * ((S.rho clZeta[3] : ℚ) : ℝ) * ((S.rho clInvFac[3] : ℚ) : ℝ) - loC 3 1 1) * x0 ^ 3 + ((1 : ℝ) * ((S.rho clZeta[1] : ℚ) : ℝ) * ((S.rho clInvFac[5] : ℚ) : ℝ) - loC 3 1 2) * x0 ^ 5 → |y| ≤ 10.87 * (4.1e-17 + 3.5 * u) := fun y hy => by
    rw [hy]
    have := abs_add_three (((1 : ℝ) * ((S.rho clZeta[5] : ℚ) : ℝ) * ((S.rho clInvFac[1] : ℚ) : ℝ) - loC 3 1 0) * x0 ^ 1) (((-1 : ℝ) * ((S.rho clZeta[3] : ℚ) : ℝ) * ((S.rho clInvFac[3] : ℚ) : ℝ) - loC 3 1 1) * x0 ^ 3) (((1 : ℝ) * ((S.rho clZeta[1] : ℚ) : ℝ) * ((S.rho clInvFac[5] : ℚ) : ℝ) - loC 3 1 2) * x0 ^ 5)
    linarith
  refine e _ ?_
  ring

theorem clMid8_acc (hS : S.Lit u) (hu : u ≤ 1e-6) {x : R S} (h0 : 0 < ofR x) (h1 : ofR x ≤ 3.1417) :
    ∃ c : R S, (∀ s, clMid 8 x s = .ok (s *. c)) ∧ |ofR c - clausen 8 (ofR x)| ≤ 7e-16 + 54 * u := by
  have hu0 := hS.u_nonneg
  obtain ⟨pc, hpc, epc⟩ := pcal8_R hS hu (x := x) h0.le h1
  obtain ⟨ns, hns, ens⟩ := nsum8_R hS hu (x := x) h0.le
  have hp := powi_R (x := x) h0.le 7 (by norm_num)
  push_cast at hp
  have h2 := litnat hS 2 (by norm_num)
  push_cast at h2
  let c : R S := (if x ==. (FOps.lit 0 : R S) then (FOps.lit 0 : R S) else (FOps.lit 1 : R S) *. powi x 7 *. (FOps.lit clInvFac[7] : R S) *. FOps.log ((FOps.lit 2 : R S) *. FOps.sin (x /. (FOps.lit 2 : R S)))) +.
    (pc -. (FOps.lit 1 : R S) *. (FOps.lit clInvFac[6] : R S) *. ns)
  refine ⟨c, fun s => ?_, ?_⟩
  · have e : clMid 8 x s = (pcal 8 x >>= fun pc => nsum 8 x >>= fun ns => pure (s *. ((if x ==. (FOps.lit 0 : R S) then (FOps.lit 0 : R S) else (FOps.lit 1 : R S) *. powi x 7 *. (FOps.lit clInvFac[7] : R S) *. FOps.log ((FOps.lit 2 : R S) *. FOps.sin (x /. (FOps.lit 2 : R S)))) +.
      (pc -. (FOps.lit 1 : R S) *. (FOps.lit clInvFac[6] : R S) *. ns)))) := rfl
    rw [e, hpc, bind_ok, hns, bind_ok]; rfl
  have f1 := hS.rel clInvFac[7]
  have f2 := hS.rel clInvFac[6]
  have g1 : ((clInvFac[7] : ℚ) : ℝ) = 1 / 5040 := by
    show ((1 / 5040 : ℚ) : ℝ) = _; norm_num
  have g2 : ((clInvFac[6] : ℚ) : ℝ) = 1 / 720 := by
    show ((1 / 720 : ℚ) : ℝ) = _; norm_num
  rw [g1, abs_of_pos (by norm_num : (0:ℝ) < 1 / 5040)] at f1
  rw [g2, abs_of_pos (by norm_num : (0:ℝ) < 1 / 720)] at f2
  have hl1 : ofR (FOps.lit clInvFac[7] : R S) = ((S.rho clInvFac[7] : ℚ) : ℝ) := rfl
  have hl2 : ofR (FOps.lit clInvFac[6] : R S) = ((S.rho clInvFac[6] : ℚ) : ℝ) := rfl
  have ec : ofR c = ofR (if x ==. (FOps.lit 0 : R S) then (FOps.lit 0 : R S) else (FOps.lit 1 : R S) *. powi x 7 *. (FOps.lit clInvFac[7] : R S) *. FOps.log ((FOps.lit 2 : R S) *. FOps.sin (x /. (FOps.lit 2 : R S)))) +
    (ofR pc - (1 : ℝ) * ofR (FOps.lit clInvFac[6] : R S) * ofR ns) := by
    simp only [c, ofR_add, ofR_sub, ofR_mul, ofR_neg, lit1 hS]
  rw [ec, ens]
  have hz := h0
  · rw [eq_R, lit0 hS, if_neg (by simpa using hz.ne')]
    have hs2 : ofR (FOps.log ((FOps.lit 2 : R S) *. FOps.sin (x /. (FOps.lit 2 : R S)))) = Real.log (2 * Real.sin (ofR x / 2)) := by
      have := sin_ge_half (t := ofR x / 2) (by linarith) (by linarith)
      rw [ofR_log (by rw [ofR_mul, h2, ofR_sin, half_R hS]; linarith), ofR_mul, h2, ofR_sin, half_R hS]
    simp only [ofR_mul, ofR_neg, lit1 hS, hs2, hp, hl1, hl2]
    have hF : ((Nat.factorial (2 * 3 + 1) : ℕ) : ℝ) = 5040 := by norm_num [Nat.factorial]
    have key := mid_real (u := u) 3 1 (by norm_num) (x := ofR x) (f := ((S.rho clInvFac[7] : ℚ) : ℝ)) (g := ((S.rho clInvFac[6] : ℚ) : ℝ) / 7) (U := uS S (ofR x) (fun k => -1 / (2 * (k + 1)) * dC 7 (k + 1)))
      (P := ofR pc) hz h1 hu0 hu (by rw [hF]; norm_num) (by
        simp only [_root_.harmonic, Finset.sum_range_succ, Finset.sum_range_zero]; norm_num) (by norm_num)
      (by rw [hF]; exact f1) (by
        rw [hF]
        have e : ((S.rho clInvFac[6] : ℚ) : ℝ) / (7:ℝ) - (1:ℝ) / (5040:ℝ) = (((S.rho clInvFac[6] : ℚ) : ℝ) - 1 / 720) / 7 := by ring
        rw [e, abs_div, abs_of_pos (by norm_num : (0:ℝ) < 7), div_le_iff₀ (by norm_num)]
        refine f2.trans (le_of_eq (by ring))) (fun Q hQ => uS_close hS hz h1 7 hQ) epc
    norm_num at key ⊢
    refine le_trans (le_of_eq ?_) (key.trans (by linarith))
    congr 1
    ring


theorem pcal9_R (hS : S.Lit u) (hu : u ≤ 1e-6) {x : R S} (h0 : 0 ≤ ofR x) (h1 : ofR x ≤ 3.1417) :
    ∃ v, pcal 9 x = .ok v ∧ |ofR v - ofR x ^ 0 * ∑ j ∈ range 4, loC 4 0 j * (ofR x ^ 2) ^ j| ≤ 11.33 * (4.1e-17 + 3.5 * u) := by
  refine ⟨(x *. x *. (x *. x *. (x *. x *. (x *. x *. (FOps.lit 0 : R S) +. (∸(FOps.lit 1 : R S)) *. (FOps.lit clZeta[1] : R S) *. (FOps.lit clInvFac[6] : R S)) +. (FOps.lit 1 : R S) *. (FOps.lit clZeta[3] : R S) *. (FOps.lit clInvFac[4] : R S)) +. (∸(FOps.lit 1 : R S)) *. (FOps.lit clZeta[5] : R S) *. (FOps.lit clInvFac[2] : R S)) +. (FOps.lit 1 : R S) *. (FOps.lit clZeta[7] : R S) *. (FOps.lit clInvFac[0] : R S)), rfl, ?_⟩
  have hl : ∀ q : ℚ, ofR (FOps.lit q : R S) = ((S.rho q : ℚ) : ℝ) := fun _ => rfl
  simp only [ofR_add, ofR_mul, ofR_neg, lit0 hS, lit1 hS, Finset.sum_range_succ, Finset.sum_range_zero]
  generalize ofR x = x0 at *
  rw [hl clZeta[7], hl clInvFac[0], hl clZeta[5], hl clInvFac[2], hl clZeta[3], hl clInvFac[4], hl clZeta[1], hl clInvFac[6]]
  have hu0 := hS.u_nonneg
  have n0 : ((clInvFac[0] : ℚ) : ℝ) = 1 := by
    show (((1 : ℚ)) : ℝ) = _
    norm_num
  have b0 : |((1 : ℝ) * ((S.rho clZeta[7] : ℚ) : ℝ) * ((S.rho clInvFac[0] : ℚ) : ℝ) - loC 4 0 0) * x0 ^ 0| ≤ 1 * (4.1e-17 + 3.5 * u) * 3.1417 ^ 0 := by
    have c := pc_coef hS hu 7 (by norm_num) clInvFac[0] (1) (by norm_num)
    rw [n0, abs_of_pos (by norm_num : (0:ℝ) < 1)] at c
    have l : loC 4 0 0 = (1 : ℝ) * reLi (7 + 2) 1 * (1) := by
      rw [loC_lt 4 0 0 (by norm_num)]
      norm_num [Nat.factorial]
      try ring
    rw [← l] at c
    rw [abs_mul, abs_of_nonneg (pow_nonneg h0 0)]
    exact mul_le_mul c (pow_le_pow_left₀ h0 h1 0) (by positivity) (by positivity)
  have n1 : ((clInvFac[2] : ℚ) : ℝ) = 1 / 2 := by
    show (((1 / 2 : ℚ)) : ℝ) = _
    norm_num
  have b1 : |((-1 : ℝ) * ((S.rho clZeta[5] : ℚ) : ℝ) * ((S.rho clInvFac[2] : ℚ) : ℝ) - loC 4 0 1) * x0 ^ 2| ≤ 1 / 2 * (4.1e-17 + 3.5 * u) * 3.1417 ^ 2 := by
    have c := pc_coef hS hu 5 (by norm_num) clInvFac[2] (-1) (by norm_num)
    rw [n1, abs_of_pos (by norm_num : (0:ℝ) < 1 / 2)] at c
    have l : loC 4 0 1 = (-1 : ℝ) * reLi (5 + 2) 1 * (1 / 2) := by
      rw [loC_lt 4 0 1 (by norm_num)]
      norm_num [Nat.factorial]
      try ring
    rw [← l] at c
    rw [abs_mul, abs_of_nonneg (pow_nonneg h0 2)]
    exact mul_le_mul c (pow_le_pow_left₀ h0 h1 2) (by positivity) (by positivity)
  have n2 : ((clInvFac[4] : ℚ) : ℝ) = 1 / 24 := by
    show (((1 / 24 : ℚ)) : ℝ) = _
    norm_num
  have b2 : |((1 : ℝ) * ((S.rho clZeta[3] : ℚ) : ℝ) * ((S.rho clInvFac[4] : ℚ) : ℝ) - loC 4 0 2) * x0 ^ 4| ≤ 1 / 24 * (4.1e-17 + 3.5 * u) * 3.1417 ^ 4 := by
    have c := pc_coef hS hu 3 (by norm_num) clInvFac[4] (1) (by norm_num)
    rw [n2, abs_of_pos (by norm_num : (0:ℝ) < 1 / 24)] at c
    have l : loC 4 0 2 = (1 : ℝ) * reLi (3 + 2) 1 * (1 / 24) := by
      rw [loC_lt 4 0 2 (by norm_num)]
      norm_num [Nat.factorial]
      try ring
    rw [← l] at c
    rw [abs_mul, abs_of_nonneg (pow_nonneg h0 4)]
    exact mul_le_mul c (pow_le_pow_left₀ h0 h1 4) (by positivity) (by positivity)
  have n3 : ((clInvFac[6] : ℚ) : ℝ) = 1 / 720 := by
    show (((1 / 720 : ℚ)) : ℝ) = _
    norm_num
  have b3 : |((-1 : ℝ) * ((S.rho clZeta[1] : ℚ) : ℝ) * ((S.rho clInvFac[6] : ℚ) : ℝ) - loC 4 0 3) * x0 ^ 6| ≤ 1 / 720 * (4.1e-17 + 3.5 * u) * 3.1417 ^ 6 := by
    have c := pc_coef hS hu 1 (by norm_num) clInvFac[6] (-1) (by norm_num)
    rw [n3, abs_of_pos (by norm_num : (0:ℝ) < 1 / 720)] at c
    have l : loC 4 0 3 = (-1 : ℝ) * reLi (1 + 2) 1 * (1 / 720) := by
      rw [loC_lt 4 0 3 (by norm_num)]
      norm_num [Nat.factorial]
      try ring
    rw [← l] at c
    rw [abs_mul, abs_of_nonneg (pow_nonneg h0 6)]
    exact mul_le_mul c (pow_le_pow_left₀ h0 h1 6) (by positivity) (by positivity)
  have e : ∀ y : ℝ, y = ((1 : ℝ) * ((S.rho clZeta[7] : ℚ) : ℝ) * ((S.rho clInvFac[0] : ℚ) : ℝ) - loC 4 0 0) * x0 ^ 0 + ((-1 : ℝ) * ((S.rho clZeta[5] : ℚ) : ℝ) * ((S.rho clInvFac[2] : ℚ) : ℝ) - loC 4 0 1) * x0 ^ 2 + ((1 : ℝ) * ((S.rho clZeta[3] : ℚ) : ℝ) * ((S.rho clInvFac[4] : ℚ) : ℝ) - loC 4 0 2) * x0 ^ 4 + ((-1 : ℝ) * ((S.rho clZeta[1] : ℚ) : ℝ) * ((S.rho clInvFac[6] : ℚ) : ℝ) - loC 4 0 3) * x0 ^ 6 → |y| ≤ 11.33 * (4.1e-17 + 3.5 * u) := fun y hy => by
    rw [hy]
    have := abs4 (((1 : ℝ) * ((S.rho clZeta[7] : ℚ) : ℝ) * ((S.rho clInvFac[0] : ℚ) : ℝ) - loC 4 0 0) * x0 ^ 0) (((-1 : ℝ) * ((S.rho clZeta[5] : ℚ) : ℝ) * ((S.rho clInvFac[2] : ℚ) : ℝ) - loC 4 0 1) * x0 ^ 2) (((1 : ℝ) * ((S.rho clZeta[3] : ℚ) : ℝ) * ((S.rho clInvFac[4] : ℚ) : ℝ) - loC 4 0 2) * x0 ^ 4) (((-1 : ℝ) * ((S.rho clZeta[1] : ℚ) : ℝ) * ((S.rho clInvFac[6] : ℚ) : ℝ) - loC 4 0 3) * x0 ^ 6)
    linarith
  refine e _ ?_
  ring

theorem clMid9_acc (hS : S.Lit u) (hu : u ≤ 1e-6) {x : R S} (h0 : 0 ≤ ofR x) (h1 : ofR x ≤ 3.1417) :
    ∃ c : R S, (∀ s, clMid 9 x s = .ok (s *. c)) ∧ |ofR c - clausen 9 (ofR x)| ≤ 7e-16 + 54 * u := by
  have hu0 := hS.u_nonneg
  obtain ⟨pc, hpc, epc⟩ := pcal9_R hS hu (x := x) h0 h1
  obtain ⟨ns, hns, ens⟩ := nsum9_R hS hu (x := x) h0
  have hp := powi_R (x := x) h0 8 (by norm_num)
  push_cast at hp
  have h2 := litnat hS 2 (by norm_num)
  push_cast at h2
  let c : R S := (if x ==. (FOps.lit 0 : R S) then (FOps.lit 0 : R S) else ∸(FOps.lit 1 : R S) *. powi x 8 *. (FOps.lit clInvFac[8] : R S) *. FOps.log ((FOps.lit 2 : R S) *. FOps.sin (x /. (FOps.lit 2 : R S)))) +.
    (pc -. (FOps.lit 1 : R S) *. (FOps.lit clInvFac[7] : R S) *. ns)
  refine ⟨c, fun s => ?_, ?_⟩
  · have e : clMid 9 x s = (pcal 9 x >>= fun pc => nsum 9 x >>= fun ns => pure (s *. ((if x ==. (FOps.lit 0 : R S) then (FOps.lit 0 : R S) else ∸(FOps.lit 1 : R S) *. powi x 8 *. (FOps.lit clInvFac[8] : R S) *. FOps.log ((FOps.lit 2 : R S) *. FOps.sin (x /. (FOps.lit 2 : R S)))) +.
      (pc -. (FOps.lit 1 : R S) *. (FOps.lit clInvFac[7] : R S) *. ns)))) := rfl
    rw [e, hpc, bind_ok, hns, bind_ok]; rfl
  have f1 := hS.rel clInvFac[8]
  have f2 := hS.rel clInvFac[7]
  have g1 : ((clInvFac[8] : ℚ) : ℝ) = 1 / 40320 := by
    show ((1 / 40320 : ℚ) : ℝ) = _; norm_num
  have g2 : ((clInvFac[7] : ℚ) : ℝ) = 1 / 5040 := by
    show ((1 / 5040 : ℚ) : ℝ) = _; norm_num
  rw [g1, abs_of_pos (by norm_num : (0:ℝ) < 1 / 40320)] at f1
  rw [g2, abs_of_pos (by norm_num : (0:ℝ) < 1 / 5040)] at f2
  have hl1 : ofR (FOps.lit clInvFac[8] : R S) = ((S.rho clInvFac[8] : ℚ) : ℝ) := rfl
  have hl2 : ofR (FOps.lit clInvFac[7] : R S) = ((S.rho clInvFac[7] : ℚ) : ℝ) := rfl
  have ec : ofR c = ofR (if x ==. (FOps.lit 0 : R S) then (FOps.lit 0 : R S) else ∸(FOps.lit 1 : R S) *. powi x 8 *. (FOps.lit clInvFac[8] : R S) *. FOps.log ((FOps.lit 2 : R S) *. FOps.sin (x /. (FOps.lit 2 : R S)))) +
    (ofR pc - (1 : ℝ) * ofR (FOps.lit clInvFac[7] : R S) * ofR ns) := by
    simp only [c, ofR_add, ofR_sub, ofR_mul, ofR_neg, lit1 hS]
  rw [ec, ens]
  rcases eq_or_lt_of_le h0 with hz | hz
  · rw [eq_R, lit0 hS, ← hz, if_pos (by simp), lit0 hS]
    have hc := clausen_odd_zero 4
    norm_num at hc
    rw [hc]
    rw [← hz, Finset.sum_range_succ'] at epc
    simp [loC_lt 4 0 0 (by norm_num)] at epc
    simp
    refine epc.trans ?_
    norm_num
    linarith
  · rw [eq_R, lit0 hS, if_neg (by simpa using hz.ne')]
    have hs2 : ofR (FOps.log ((FOps.lit 2 : R S) *. FOps.sin (x /. (FOps.lit 2 : R S)))) = Real.log (2 * Real.sin (ofR x / 2)) := by
      have := sin_ge_half (t := ofR x / 2) (by linarith) (by linarith)
      rw [ofR_log (by rw [ofR_mul, h2, ofR_sin, half_R hS]; linarith), ofR_mul, h2, ofR_sin, half_R hS]
    simp only [ofR_mul, ofR_neg, lit1 hS, hs2, hp, hl1, hl2]
    have hF : ((Nat.factorial (2 * 4 + 0) : ℕ) : ℝ) = 40320 := by norm_num [Nat.factorial]
    have key := mid_real (u := u) 4 0 (by norm_num) (x := ofR x) (f := ((S.rho clInvFac[8] : ℚ) : ℝ)) (g := ((S.rho clInvFac[7] : ℚ) : ℝ) / 8) (U := uS S (ofR x) (fun k => -1 / (2 * (k + 1)) * dC 8 (k + 1)))
      (P := ofR pc) hz h1 hu0 hu (by rw [hF]; norm_num) (by
        simp only [_root_.harmonic, Finset.sum_range_succ, Finset.sum_range_zero]; norm_num) (by norm_num)
      (by rw [hF]; exact f1) (by
        rw [hF]
        have e : ((S.rho clInvFac[7] : ℚ) : ℝ) / (8:ℝ) - (1:ℝ) / (40320:ℝ) = (((S.rho clInvFac[7] : ℚ) : ℝ) - 1 / 5040) / 8 := by ring
        rw [e, abs_div, abs_of_pos (by norm_num : (0:ℝ) < 8), div_le_iff₀ (by norm_num)]
        refine f2.trans (le_of_eq (by ring))) (fun Q hQ => uS_close hS hz h1 8 hQ) epc
    norm_num at key ⊢
    refine le_trans (le_of_eq ?_) (key.trans (by linarith))
    congr 1
    ring

end Polylog
