import Verif.Proofs.UnityCut
import Verif.Proofs.CutIm
import Verif.Proofs.Zeta
import Verif.Spec.Polylog

/-! # Expansions of the Clausen functions about `0` and about `π`, parity, periodicity, Lipschitz bounds

The order is written `2m+1+p` with `p = 0` (cosine series) or `p = 1` (sine series). -/

noncomputable section
namespace Polylog
open Complex Finset

/-- `Re` for `p = 0`, `Im` otherwise -/
def part (p : ℕ) (z : ℂ) : ℝ := if p = 0 then z.re else z.im

theorem clausen_part (m p : ℕ) (hp : p < 2) (x : ℝ) : clausen (2 * m + 1 + p) x = part p (pLi (2 * m + 1 + p) (exp (x * I))) := by
  rw [clausen, part]
  rcases (by omega : p = 0 ∨ p = 1) with rfl | rfl
  · rw [if_neg (by omega), if_pos rfl]
  · rw [if_pos (by omega), if_neg (by omega)]

theorem part_add (p : ℕ) (a b : ℂ) : part p (a + b) = part p a + part p b := by
  unfold part; split <;> simp
theorem part_sub (p : ℕ) (a b : ℂ) : part p (a - b) = part p a - part p b := by
  unfold part; split <;> simp
theorem part_real_mul (p : ℕ) (a : ℝ) (b : ℂ) : part p (a * b) = a * part p b := by
  unfold part; split <;> simp
theorem part_hasSum (p : ℕ) {f : ℕ → ℂ} {s : ℂ} (h : HasSum f s) : HasSum (fun k => part p (f k)) (part p s) := by
  unfold part; split
  · exact Complex.hasSum_re h
  · exact Complex.hasSum_im h
theorem abs_part_le (p : ℕ) (z : ℂ) : |part p z| ≤ ‖z‖ := by
  unfold part; split
  · exact Complex.abs_re_le_norm z
  · exact Complex.abs_im_le_norm z

/-- `zeta` is real at the integers -/
theorem zcoef_real (ν k : ℕ) : zcoef ((ν + 1 : ℕ) : ℤ) k = (((zcoef ((ν + 1 : ℕ) : ℤ) k).re : ℝ) : ℂ) := by
  have key : ∃ r : ℝ, zcoef ((ν + 1 : ℕ) : ℤ) k = (r : ℂ) := by
    rcases lt_trichotomy k ν with h | h | h
    · rw [zcoef, if_neg (by push_cast; omega)]
      obtain ⟨i, hi⟩ : ∃ i, ν + 1 - k = i + 2 := ⟨ν - 1 - k, by omega⟩
      have e1 : ((((ν + 1 : ℕ) : ℤ) - (k:ℤ) : ℤ) : ℂ) = (i : ℂ) + 2 := by
        have : ((ν + 1 : ℕ) : ℤ) - (k:ℤ) = (i:ℤ) + 2 := by omega
        rw [this]; push_cast; rfl
      rw [e1, ← reLi_one_eq_zeta]
      exact ⟨reLi (i + 2) 1 / k.factorial, by push_cast; rfl⟩
    · exact ⟨0, by rw [zcoef, if_pos (by push_cast; omega)]; simp⟩
    · rw [zcoef, if_neg (by push_cast; omega)]
      obtain ⟨i, rfl⟩ : ∃ i, k = ν + 1 + i := ⟨k - ν - 1, by omega⟩
      have e1 : ((((ν + 1 : ℕ) : ℤ) - ((ν + 1 + i : ℕ) : ℤ) : ℤ) : ℂ) = -(i:ℂ) := by push_cast; ring
      rw [e1, riemannZeta_neg_nat_eq_bernoulli]
      exact ⟨((-1) ^ i * (bernoulli (i + 1) : ℝ) / ((i:ℝ) + 1)) / (ν + 1 + i).factorial, by push_cast; rfl⟩
  obtain ⟨r, hr⟩ := key
  rw [hr, Complex.ofReal_re]

/-- coefficients of the expansion about `0` (the harmonic number included) -/
def loC (m p j : ℕ) : ℝ :=
  if j = m then (-1) ^ m * ((_root_.harmonic (2 * m + p) : ℚ) : ℝ) / (2 * m + p).factorial
  else (-1) ^ j * (zcoef ((2 * m + p + 1 : ℕ) : ℤ) (2 * j + p)).re

theorem xI_pow (x : ℝ) (j p : ℕ) : ((x : ℂ) * I) ^ (2 * j + p) = (((-1) ^ j * (x ^ 2) ^ j * x ^ p : ℝ) : ℂ) * I ^ p := by
  rw [pow_add, pow_mul, mul_pow, I_sq, mul_pow, mul_pow]
  push_cast; ring

theorem part_I (p : ℕ) (hp : p < 2) (r : ℝ) : part p ((r : ℂ) * I ^ p) = r := by
  rcases (by omega : p = 0 ∨ p = 1) with rfl | rfl <;> simp [part]

/-- the other parity drops out -/
theorem part_I' (p k : ℕ) (hp : p < 2) (hk : ∀ j, k ≠ 2 * j + p) (r x : ℝ) : part p ((r : ℂ) * ((x : ℂ) * I) ^ k) = 0 := by
  rcases (by omega : p = 0 ∨ p = 1) with rfl | rfl
  · obtain ⟨j, rfl⟩ : ∃ j, k = 2 * j + 1 := by
      rcases Nat.even_or_odd' k with ⟨j, h | h⟩
      · exact absurd h (hk j)
      · exact ⟨j, h⟩
    rw [xI_pow, ← mul_assoc, ← Complex.ofReal_mul, part, if_pos rfl, Complex.re_ofReal_mul]
    simp
  · obtain ⟨j, rfl⟩ : ∃ j, k = 2 * j + 0 := by
      rcases Nat.even_or_odd' k with ⟨j, h | h⟩
      · exact ⟨j, h⟩
      · exact absurd h (hk j)
    rw [xI_pow, ← mul_assoc, ← Complex.ofReal_mul, part, if_neg (by omega), pow_zero I, mul_one, Complex.ofReal_im]

theorem log_neg_xI {x : ℝ} (hx : 0 < x) : Complex.log (-((x : ℂ) * I)) = Real.log x - Real.pi / 2 * I := by
  have : -((x : ℂ) * I) = (x : ℂ) * (-I) := by ring
  rw [this, Complex.log_ofReal_mul hx (by simp), Complex.log_neg_I]
  push_cast; ring

/-- expansion about `0` -/
theorem clausen_lo (m p : ℕ) (hp : p < 2) {x : ℝ} (h0 : 0 < x) (h1 : x < 2 * Real.pi) :
    ∃ s, HasSum (fun j => loC m p j * (x ^ 2) ^ j) s ∧
      clausen (2 * m + 1 + p) x = x ^ p * (s - (-1) ^ m * (x ^ 2) ^ m / (2 * m + p).factorial * Real.log x) := by
  have hu : (x : ℂ) * I ∈ slitDisc := by
    refine ⟨?_, ?_⟩
    · simpa [abs_of_pos h0] using h1
    · rw [mem_negPlane]; right; simpa using h0.ne'
  have hL := pLi_exp (2 * m + p) _ hu
  obtain ⟨C, hC⟩ := zcoef_bound_nat (2 * m + p + 1)
  have hs := hC.hasSum (by positivity) (slitDisc_norm hu)
  have hs2 := part_hasSum p hs
  have hinj : Function.Injective (fun j : ℕ => 2 * j + p) := fun a b h => by
    simp only at h; omega
  rw [← hinj.hasSum_iff] at hs2
  swap
  · intro k hk
    rw [zcoef_real]
    exact part_I' p k hp (fun j h => hk ⟨j, h.symm⟩) _ _
  have hterm : ∀ j : ℕ, part p (zcoef ((2 * m + p + 1 : ℕ) : ℤ) (2 * j + p) * ((x : ℂ) * I) ^ (2 * j + p)) =
      x ^ p * ((-1) ^ j * (zcoef ((2 * m + p + 1 : ℕ) : ℤ) (2 * j + p)).re * (x ^ 2) ^ j) := by
    intro j
    rw [zcoef_real, xI_pow, ← mul_assoc, ← Complex.ofReal_mul, part_I p hp, Complex.ofReal_re]
    ring
  have hs3 : HasSum (fun j : ℕ => x ^ p * ((-1) ^ j * (zcoef ((2 * m + p + 1 : ℕ) : ℤ) (2 * j + p)).re * (x ^ 2) ^ j))
      (part p (psum (zcoef ((2 * m + p + 1 : ℕ) : ℤ)) ((x : ℂ) * I))) := by
    refine HasSum.congr_fun' hs2 fun j => ?_
    exact (hterm j).symm
  have hx : x ^ p ≠ 0 := (pow_pos h0 p).ne'
  have hs4 := hs3.mul_left (x ^ p)⁻¹
  have hs5 : HasSum (fun j : ℕ => (-1) ^ j * (zcoef ((2 * m + p + 1 : ℕ) : ℤ) (2 * j + p)).re * (x ^ 2) ^ j)
      ((x ^ p)⁻¹ * part p (psum (zcoef ((2 * m + p + 1 : ℕ) : ℤ)) ((x : ℂ) * I))) := by
    refine HasSum.congr_fun' hs4 fun j => ?_
    rw [inv_mul_cancel_left₀ hx]
  set H : ℝ := (-1) ^ m * ((_root_.harmonic (2 * m + p) : ℚ) : ℝ) / (2 * m + p).factorial with hH
  have hs6 := hs5.add (hasSum_ite_eq m (H * (x ^ 2) ^ m))
  refine ⟨_, HasSum.congr_fun' hs6 fun j => ?_, ?_⟩
  · rw [loC]
    split_ifs with h
    · subst h
      rw [zcoef, if_pos (by push_cast; ring), Complex.zero_re, mul_zero, zero_mul, zero_add]
    · rw [add_zero]
  · rw [clausen_part m p hp, show 2 * m + 1 + p = 2 * m + p + 1 by ring, hL, part_add]
    have e : singU (2 * m + p) ((x : ℂ) * I) = (((-1) ^ m * (x ^ 2) ^ m * x ^ p / (2 * m + p).factorial *
        (((_root_.harmonic (2 * m + p) : ℚ) : ℝ) - Real.log x) : ℝ) : ℂ) * I ^ p +
        ((((-1) ^ m * (x ^ 2) ^ m * x ^ p / (2 * m + p).factorial) * (Real.pi / 2) : ℝ) : ℂ) * I ^ (p + 1) := by
      rw [singU, log_neg_xI h0, xI_pow]
      push_cast; ring
    have e2 : ∀ r : ℝ, part p ((r : ℂ) * I ^ (p + 1)) = 0 := by
      intro r
      rcases (by omega : p = 0 ∨ p = 1) with rfl | rfl <;> simp [part]
    rw [e, part_add, part_I p hp, e2, hH]
    field_simp
    ring

/-! ## duplication -/

theorem pLi_dup (n : ℕ) {z : ℂ} (hz : ‖z‖ ≤ 1) : pLi (n + 2) z + pLi (n + 2) (-z) = (1 / 2) ^ (n + 1) * pLi (n + 2) (z ^ 2) := by
  have h1 := pLi_hasSum n z hz
  have h2 := pLi_hasSum n (-z) (by simpa using hz)
  have h3 := h1.add h2
  have h0 := pLi_hasSum n (z ^ 2) (by rw [norm_pow]; exact pow_le_one₀ (norm_nonneg _) hz)
  have h4 := h0.mul_left ((1 / 2 : ℂ) ^ (n + 1))
  have h5 : HasSum (fun k : ℕ => z ^ (k + 1) / ((k:ℂ) + 1) ^ (n + 2) + (-z) ^ (k + 1) / ((k:ℂ) + 1) ^ (n + 2))
      (0 + (1 / 2 : ℂ) ^ (n + 1) * pLi (n + 2) (z ^ 2)) := by
    refine HasSum.even_add_odd (f := fun k : ℕ => z ^ (k + 1) / ((k:ℂ) + 1) ^ (n + 2) + (-z) ^ (k + 1) / ((k:ℂ) + 1) ^ (n + 2)) ?_ ?_
    · have : (fun k : ℕ => z ^ (2 * k + 1) / (((2 * k : ℕ):ℂ) + 1) ^ (n + 2) + (-z) ^ (2 * k + 1) / (((2 * k : ℕ):ℂ) + 1) ^ (n + 2)) = fun _ => 0 := by
        ext k
        rw [Odd.neg_pow ⟨k, rfl⟩]; ring
      rw [this]; exact hasSum_zero
    · refine HasSum.congr_fun' h4 fun k => ?_
      have e2 : (((2 * k + 1 : ℕ) : ℂ) + 1) = 2 * (k + 1) := by push_cast; ring
      have hk : ((k:ℂ) + 1) ≠ 0 := by exact_mod_cast Nat.succ_ne_zero k
      rw [Even.neg_pow (by exact ⟨k + 1, by ring⟩), e2, mul_pow, ← pow_mul, show 2 * (k + 1) = 2 * k + 1 + 1 by ring, pow_succ (2:ℂ) (n + 1), div_pow, one_pow]
      field_simp
      ring
  rw [h3.unique h5, zero_add]

/-! ## symmetries -/

theorem pLi_conj_unit (n : ℕ) {z : ℂ} (hz : ‖z‖ ≤ 1) : pLi (n + 2) (starRingEnd ℂ z) = starRingEnd ℂ (pLi (n + 2) z) := by
  have h1 := pLi_hasSum n z hz
  have h2 := pLi_hasSum n (starRingEnd ℂ z) (by simpa using hz)
  have h3 := (Complex.hasSum_conj' (f := fun k : ℕ => z ^ (k + 1) / ((k : ℂ) + 1) ^ (n + 2))).mpr (by simpa using h1)
  refine h2.unique (HasSum.congr_fun' h3 fun k => ?_)
  simp

theorem part_conj (p : ℕ) (hp : p < 2) (z : ℂ) : part p (starRingEnd ℂ z) = (-1) ^ p * part p z := by
  rcases (by omega : p = 0 ∨ p = 1) with rfl | rfl <;> simp [part]

theorem exp_neg_I (x : ℝ) : exp (((-x : ℝ) : ℂ) * I) = starRingEnd ℂ (exp (x * I)) := by
  rw [← Complex.exp_conj]; congr 1; simp

theorem norm_exp_I (x : ℝ) : ‖exp ((x : ℂ) * I)‖ = 1 := Complex.norm_exp_ofReal_mul_I x

theorem clausen_neg (m p : ℕ) (hp : p < 2) (hn : 2 ≤ 2 * m + 1 + p) (x : ℝ) :
    clausen (2 * m + 1 + p) (-x) = (-1) ^ p * clausen (2 * m + 1 + p) x := by
  rw [clausen_part m p hp, clausen_part m p hp, exp_neg_I, show 2 * m + 1 + p = 2 * m + p - 1 + 2 by omega,
    pLi_conj_unit _ (norm_exp_I x).le, part_conj p hp]

theorem clausen_add_two_pi (n : ℕ) (x : ℝ) : clausen n (x + 2 * Real.pi) = clausen n x := by
  have : exp (((x + 2 * Real.pi : ℝ) : ℂ) * I) = exp (x * I) := by
    push_cast; rw [add_mul, Complex.exp_add, Complex.exp_two_pi_mul_I, mul_one]
  simp only [clausen, this]

theorem clausen_sub_two_pi (n : ℕ) (x : ℝ) : clausen n (x - 2 * Real.pi) = clausen n x := by
  rw [← clausen_add_two_pi n (x - 2 * Real.pi), sub_add_cancel]

theorem clausen_two_pi_sub (m p : ℕ) (hp : p < 2) (hn : 2 ≤ 2 * m + 1 + p) (x : ℝ) :
    clausen (2 * m + 1 + p) (2 * Real.pi - x) = (-1) ^ p * clausen (2 * m + 1 + p) x := by
  rw [← clausen_neg m p hp hn, ← clausen_sub_two_pi _ (2 * Real.pi - x)]
  congr 1; ring

theorem clausen_pi_sub (m p : ℕ) (hp : p < 2) (hn : 2 ≤ 2 * m + 1 + p) (y : ℝ) :
    clausen (2 * m + 1 + p) (Real.pi - y) = (-1) ^ p * ((1 / 2) ^ (2 * m + p) * clausen (2 * m + 1 + p) (2 * y) - clausen (2 * m + 1 + p) y) := by
  have e : exp (((Real.pi - y : ℝ) : ℂ) * I) = starRingEnd ℂ (-exp (y * I)) := by
    rw [map_neg, ← exp_neg_I]; push_cast
    rw [sub_mul, Complex.exp_sub, Complex.exp_pi_mul_I, neg_mul, Complex.exp_neg]; ring
  have e2 : exp (((2 * y : ℝ) : ℂ) * I) = exp (y * I) ^ 2 := by
    rw [← Complex.exp_nat_mul]; congr 1; push_cast; ring
  rw [clausen_part m p hp, clausen_part m p hp, clausen_part m p hp, e, e2]
  have hd := pLi_dup (2 * m + p - 1) (norm_exp_I y).le
  rw [show 2 * m + 1 + p = 2 * m + p - 1 + 2 by omega, pLi_conj_unit _ (by rw [norm_neg]; exact (norm_exp_I y).le), part_conj p hp]
  have : pLi (2 * m + p - 1 + 2) (-exp (y * I)) = (((1 / 2 : ℝ) ^ (2 * m + p) : ℝ) : ℂ) * pLi (2 * m + p - 1 + 2) (exp (y * I) ^ 2) - pLi (2 * m + p - 1 + 2) (exp (y * I)) := by
    rw [show 2 * m + p - 1 + 1 = 2 * m + p by omega] at hd
    push_cast
    linear_combination hd
  rw [this, part_sub, part_real_mul]

/-- coefficients of the expansion about `π` -/
def hiC (m p j : ℕ) : ℝ :=
  (-1) ^ p * (if j = m then -((-1) ^ m * Real.log 2 / (2 * m + p).factorial) else ((4:ℝ) ^ j / 4 ^ m - 1) * loC m p j)

/-- expansion about `π` -/
theorem clausen_hi (m p : ℕ) (hp : p < 2) (hn : 2 ≤ 2 * m + 1 + p) {y : ℝ} (h0 : 0 ≤ y) (h1 : y < Real.pi) :
    ∃ s, HasSum (fun j => hiC m p j * (y ^ 2) ^ j) s ∧ clausen (2 * m + 1 + p) (Real.pi - y) = y ^ p * s := by
  rcases h0.eq_or_lt with rfl | h0
  · refine ⟨hiC m p 0, ?_, ?_⟩
    · have := hasSum_ite_eq 0 (hiC m p 0)
      refine HasSum.congr_fun' this fun j => ?_
      rcases j with _ | j <;> simp
    · rw [sub_zero, clausen_part m p hp, Complex.exp_pi_mul_I]
      have hr : pLi (2 * m + p - 1 + 2) (-1) = -(1 - (1 / 2) ^ (2 * m + p - 1 + 1)) * riemannZeta (((2 * m + p - 1 : ℕ) : ℂ) + 2) := by
        have h := pLi_real_of_abs_le (2 * m + p - 1) (x := -1) (by simp)
        have h2 := reLi_neg_one_eq (2 * m + p - 1)
        rw [← reLi_one_eq_zeta]
        have e : ((-1 : ℝ) : ℂ) = -1 := by push_cast; rfl
        rw [e] at h
        rw [h, h2]
        push_cast; ring
      rw [show 2 * m + 1 + p = 2 * m + p - 1 + 2 by omega, hr, ← reLi_one_eq_zeta]
      have e3 : (-(1 - (1 / 2 : ℂ) ^ (2 * m + p - 1 + 1)) * ((reLi (2 * m + p - 1 + 2) 1 : ℝ) : ℂ)) =
          ((-(1 - (1 / 2 : ℝ) ^ (2 * m + p - 1 + 1)) * reLi (2 * m + p - 1 + 2) 1 : ℝ) : ℂ) := by push_cast; rfl
      rw [e3]
      rcases (by omega : p = 0 ∨ p = 1) with rfl | rfl
      · rw [part, if_pos rfl, Complex.ofReal_re, pow_zero, one_mul, hiC, if_neg (by omega), loC, if_neg (by omega), zcoef, if_neg (by push_cast; omega)]
        have e4 : ((((2 * m + 0 + 1 : ℕ) : ℤ) - ((2 * 0 + 0 : ℕ) : ℤ) : ℤ) : ℂ) = ((2 * m + 0 - 1 : ℕ) : ℂ) + 2 := by
          have : ((2 * m + 0 + 1 : ℕ) : ℤ) - ((2 * 0 + 0 : ℕ) : ℤ) = ((2 * m + 0 - 1 : ℕ) : ℤ) + 2 := by omega
          rw [this]; push_cast; rfl
        rw [e4, ← reLi_one_eq_zeta]
        simp only [pow_zero, mul_zero, Nat.factorial_zero, Nat.cast_one, div_one, Complex.ofReal_re, one_mul, add_zero]
        rw [show 2 * m - 1 + 1 = 2 * m by omega, pow_mul]
        have e5 : ((1 / 2 : ℝ) ^ 2) ^ m = 1 / 4 ^ m := by rw [show (1 / 2 : ℝ) ^ 2 = 1 / 4 by norm_num, div_pow, one_pow]
        rw [e5]; ring
      · rw [part, if_neg (by omega), Complex.ofReal_im]; simp
  · obtain ⟨s1, hs1, hc1⟩ := clausen_lo m p hp (x := 2 * y) (by linarith) (by linarith)
    obtain ⟨s2, hs2, hc2⟩ := clausen_lo m p hp (x := y) h0 (by linarith)
    have h3 := ((hs1.div_const (4 ^ m)).sub hs2).add (hasSum_ite_eq m (-((-1) ^ m * Real.log 2 / (2 * m + p).factorial * (y ^ 2) ^ m)))
    have h4 := h3.mul_left ((-1) ^ p)
    refine ⟨_, HasSum.congr_fun' h4 fun j => ?_, ?_⟩
    · rw [hiC]
      have e : ((2 * y) ^ 2) ^ j = 4 ^ j * (y ^ 2) ^ j := by rw [← mul_pow]; congr 1; ring
      rw [e]
      split_ifs with h
      · subst h
        field_simp; ring
      · field_simp; ring
    · rw [clausen_pi_sub m p hp hn, hc1, hc2, Real.log_mul (by norm_num) h0.ne']
      have e : ((2 * y) ^ 2) ^ m = 4 ^ m * (y ^ 2) ^ m := by rw [← mul_pow]; congr 1; ring
      have e2 : (1 / 2 : ℝ) ^ (2 * m + p) * 2 ^ p = 1 / 4 ^ m := by
        rw [pow_add, pow_mul, mul_assoc, ← mul_pow, show (1 / 2 : ℝ) ^ 2 = 1 / 4 by norm_num, div_pow, one_pow]; norm_num
      have e3 : (1 / 2 : ℝ) ^ (2 * m + p) * ((2 * y) ^ p * (s1 - (-1) ^ m * ((2 * y) ^ 2) ^ m / (2 * m + p).factorial * (Real.log 2 + Real.log y))) =
          1 / 4 ^ m * (y ^ p * (s1 - (-1) ^ m * (4 ^ m * (y ^ 2) ^ m) / (2 * m + p).factorial * (Real.log 2 + Real.log y))) := by
        rw [e, mul_pow, ← e2]; ring
      rw [e3]
      field_simp
      ring

/-! ## coefficient bounds -/

theorem loC_abs (m p j : ℕ) (hj : j ≠ m) : |loC m p j| ≤ (2 * Real.pi) ^ (2 * m + 1) * (1 / (4 * Real.pi ^ 2)) ^ j := by
  have hpi := Real.pi_pos
  rw [loC, if_neg hj, abs_mul, abs_pow, abs_neg, abs_one, one_pow, one_mul]
  have h := zcoef_bound (2 * m + p + 1) (2 * j + p)
  have h2 := Complex.abs_re_le_norm (zcoef ((2 * m + p + 1 : ℕ) : ℤ) (2 * j + p))
  refine h2.trans ?_
  have e : (2 * Real.pi) ^ (2 * m + 1) * (1 / (4 * Real.pi ^ 2)) ^ j = (2 * Real.pi) ^ (2 * m + p + 1) / (2 * Real.pi) ^ (2 * j + p) := by
    rw [show 4 * Real.pi ^ 2 = (2 * Real.pi) ^ 2 by ring, one_div, inv_pow, ← pow_mul, show 2 * m + p + 1 = 2 * m + 1 + p by ring, pow_add _ (2 * m + 1) p, pow_add _ (2 * j) p]
    field_simp
  rw [e, le_div_iff₀ (by positivity)]
  exact h

theorem hiC_abs (m p j : ℕ) (hj : m < j) : |hiC m p j| ≤ 2 * Real.pi * Real.pi ^ (2 * m) * (1 / Real.pi ^ 2) ^ j := by
  have hpi := Real.pi_pos
  rw [hiC, if_neg hj.ne', abs_mul, abs_pow, abs_neg, abs_one, one_pow, one_mul, abs_mul]
  have h1 : |(4:ℝ) ^ j / 4 ^ m - 1| ≤ 4 ^ j / 4 ^ m := by
    have : 1 ≤ (4:ℝ) ^ j / 4 ^ m := by
      rw [le_div_iff₀ (by positivity), one_mul]; exact pow_le_pow_right₀ (by norm_num) hj.le
    rw [abs_of_nonneg (by linarith)]; linarith
  calc _ ≤ (4:ℝ) ^ j / 4 ^ m * ((2 * Real.pi) ^ (2 * m + 1) * (1 / (4 * Real.pi ^ 2)) ^ j) :=
        mul_le_mul h1 (loC_abs m p j hj.ne') (abs_nonneg _) (by positivity)
    _ = _ := by
        rw [one_div, one_div, inv_pow, inv_pow, mul_pow, mul_pow 4, pow_succ (2:ℝ), pow_mul (2:ℝ), pow_succ Real.pi]
        field_simp
        norm_num

end Polylog
