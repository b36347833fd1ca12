import Verif.Props.ClGen
import Verif.Model.Cl1
import Verif.Sem.LitBits

/-! # C13: accuracy of `Cl1`

`Cl_1(x) = -log |1 - e^{ix}|` has a logarithmic pole at the multiples of `2π`; the error of the range reduction
is compared with the distance `|1 - e^{ix}|` from the pole. -/

noncomputable section
namespace Polylog
variable {S : RealSem}

theorem norm_one_sub_exp (x : ℝ) : ‖1 - Complex.exp (x * Complex.I)‖ = 2 * |Real.sin (x / 2)| := by
  rw [norm_sub_rev, mul_comm, Complex.norm_exp_I_mul_ofReal_sub_one, Real.norm_eq_abs, abs_mul, abs_of_pos (by norm_num : (0:ℝ) < 2)]

theorem clausen_one (x : ℝ) : clausen 1 x = -Real.log ‖1 - Complex.exp (x * Complex.I)‖ := by
  rw [clausen, if_neg (by norm_num), pLi, Complex.neg_re, Complex.log_re]

theorem sin_half_sub_nat (k : ℕ) (x : ℝ) : |Real.sin ((x - 2 * Real.pi * k) / 2)| = |Real.sin (x / 2)| := by
  rw [show (x - 2 * Real.pi * k) / 2 = x / 2 - k * Real.pi by ring, Real.sin_sub_nat_mul_pi, abs_mul, abs_pow]
  simp

theorem reduce_sin {P p1 x d e r : ℝ} (hP : 3 ≤ P) (hd : |P - Real.pi| ≤ d) (he : |6.28125 + p1 - 2 * Real.pi| ≤ e)
    (hr : r = if P < wrap P x then 6.28125 - wrap P x + p1 else wrap P x) (hw : wrap P x ≤ 6.28125 + p1) :
    0 ≤ r ∧ r ≤ P + (e + 2 * d) ∧ ∃ t, |r - t| ≤ e + 2 * d * ⌊|x| / (2 * P)⌋₊ ∧ |Real.sin (x / 2)| = |Real.sin (t / 2)| := by
  have hd' := abs_le.mp hd
  have he' := abs_le.mp he
  have hd0 : 0 ≤ d := le_trans (abs_nonneg _) hd
  have he0 : 0 ≤ e := le_trans (abs_nonneg _) he
  have hw0 := wrap_nonneg (by linarith : 0 < P) x
  set k := ⌊|x| / (2 * P)⌋₊ with hk
  have hkd : |(P - Real.pi) * k| ≤ d * k := by
    rw [abs_mul, Nat.abs_cast]; exact mul_le_mul_of_nonneg_right hd (Nat.cast_nonneg _)
  have hkd' := abs_le.mp hkd
  have hx : |Real.sin (x / 2)| = |Real.sin (|x| / 2)| := by
    rcases abs_cases x with ⟨h, _⟩ | ⟨h, _⟩ <;> rw [h]
    rw [neg_div, Real.sin_neg, abs_neg]
  rw [← sin_half_sub_nat k |x|] at hx
  have hwx : wrap P x = |x| - 2 * P * k := rfl
  by_cases h : P < wrap P x
  · rw [if_pos h] at hr
    refine ⟨by linarith, by linarith, 2 * Real.pi - (|x| - 2 * Real.pi * k), ?_, ?_⟩
    · have : r - (2 * Real.pi - (|x| - 2 * Real.pi * k)) = (6.28125 + p1 - 2 * Real.pi) + 2 * ((P - Real.pi) * k) := by
        rw [hr, hwx]; ring
      rw [this, abs_le]; constructor <;> linarith
    · rw [hx, show (2 * Real.pi - (|x| - 2 * Real.pi * k)) / 2 = Real.pi - (|x| - 2 * Real.pi * k) / 2 by ring, Real.sin_pi_sub]
  · rw [if_neg h] at hr
    refine ⟨by linarith, by linarith, |x| - 2 * Real.pi * k, ?_, hx⟩
    have : r - (|x| - 2 * Real.pi * k) = -(2 * ((P - Real.pi) * k)) := by rw [hr, hwx]; ring
    rw [this, abs_le]; constructor <;> linarith

/-- the value returned for a nonzero reduced argument -/
theorem Cl1d_R {u : ℝ} (hS : S.Lit u) (x : R S)
    (h0 : 0 < ofR (reduceAbs (FOps.lit 3.14159265358979324 : R S) (FOps.lit 0.0019353071795864769253 : R S) x))
    (h1 : ofR (reduceAbs (FOps.lit 3.14159265358979324 : R S) (FOps.lit 0.0019353071795864769253 : R S) x) < 2 * Real.pi) :
    ofR (Cl1d x) = -Real.log (2 * Real.sin (ofR (reduceAbs (FOps.lit 3.14159265358979324 : R S) (FOps.lit 0.0019353071795864769253 : R S) x) / 2)) := by
  simp only [Cl1d]
  generalize reduceAbs (FOps.lit 3.14159265358979324 : R S) (FOps.lit 0.0019353071795864769253 : R S) x = r at *
  rw [eq_R, lit0 hS, if_neg (by simpa using h0.ne')]
  have h5 : ofR (FOps.lit 0.5 : R S) = 1 / 2 := by
    show ((S.rho 0.5 : ℚ) : ℝ) = _
    rw [hS.half]; norm_num
  have h2 : ofR (FOps.lit 2 : R S) = 2 := by have := litnat hS 2 (by norm_num); push_cast at this; exact this
  have e : ofR ((FOps.lit 2 : R S) *. FOps.sin ((FOps.lit 0.5 : R S) *. r)) = 2 * Real.sin (ofR r / 2) := by
    rw [ofR_mul, h2]
    show 2 * Real.sin (ofR (FOps.lit 0.5 : R S) * ofR r) = _
    rw [h5]; ring_nf
  have hp : 0 < ofR ((FOps.lit 2 : R S) *. FOps.sin ((FOps.lit 0.5 : R S) *. r)) := by
    rw [e]
    have := Real.sin_pos_of_pos_of_lt_pi (x := ofR r / 2) (by linarith) (by linarith)
    linarith
  show -(ofR (xlog ((FOps.lit 2 : R S) *. FOps.sin ((FOps.lit 0.5 : R S) *. r)))) = _
  rw [xlog_R, ofR_log hp, e]

/-- `Cl1`, every argument: the error is at most twice the error `h` of the range reduction divided by the
distance from the pole.  `h = 1.4e-23 + 0.002 u` plus, for each period subtracted, the error of `2 PI` -/
theorem C13_Cl1 {u : ℝ} (hS : S.Lit u) (hu : u ≤ 1e-6) (x : ℝ)
    (hw : wrap (ofR (FOps.lit 3.14159265358979324 : R S)) x ≤ 6.28125 + ofR (FOps.lit 0.0019353071795864769253 : R S)) {h : ℝ}
    (hh : h = 1.4e-23 + 0.002 * u + 2 * (1.6e-18 + 3.15 * u) * ⌊|x| / (2 * ofR (FOps.lit 3.14159265358979324 : R S))⌋₊)
    (hx : 2 * h ≤ ‖1 - Complex.exp (x * Complex.I)‖) :
    |ofR (Cl1d (toR S x)) - clausen 1 x| ≤ 2 * h / ‖1 - Complex.exp (x * Complex.I)‖ := by
  have hu0 := hS.u_nonneg
  have hd := PId hS
  have he := P1d hS
  have hpi := pi_gt
  have hP3 : 3 ≤ ofR (FOps.lit 3.14159265358979324 : R S) := by have := (abs_le.mp hd).1; linarith
  have hP4 := (abs_le.mp hd).2
  have hr := reduceAbs_R hS (PI := (FOps.lit 3.14159265358979324 : R S)) (p1 := (FOps.lit 0.0019353071795864769253 : R S)) (x := toR S x) (by linarith)
  obtain ⟨r0, r1, t, ht, hs⟩ := reduce_sin hP3 hd he hr hw
  have hsx : |Real.sin (x / 2)| = |Real.sin (t / 2)| := hs
  have hfl : (0:ℝ) ≤ (1.6e-18 + 3.15 * u) * ⌊|x| / (2 * ofR (FOps.lit 3.14159265358979324 : R S))⌋₊ := by positivity
  have hh0 : 0 < h := by rw [hh]; linarith
  have ht' : |ofR (reduceAbs (FOps.lit 3.14159265358979324 : R S) (FOps.lit 0.0019353071795864769253 : R S) (toR S x)) - t| ≤ h := by
    rw [hh]; exact ht
  set r := ofR (reduceAbs (FOps.lit 3.14159265358979324 : R S) (FOps.lit 0.0019353071795864769253 : R S) (toR S x)) with hrd
  have hB : ‖1 - Complex.exp (x * Complex.I)‖ = 2 * |Real.sin (t / 2)| := by rw [norm_one_sub_exp, hsx]
  have hlip : |2 * Real.sin (r / 2)| - 2 * |Real.sin (t / 2)| ≤ h ∧ 2 * |Real.sin (t / 2)| - |2 * Real.sin (r / 2)| ≤ h := by
    have hl : |Real.sin (r / 2) - Real.sin (t / 2)| ≤ |r / 2 - t / 2| := Real.abs_sin_sub_sin_le _ _
    have e2 : |r / 2 - t / 2| = |r - t| / 2 := by rw [← sub_div, abs_div, abs_of_pos (by norm_num : (0:ℝ) < 2)]
    rw [e2] at hl
    have h1 := abs_sub_abs_le_abs_sub (Real.sin (r / 2)) (Real.sin (t / 2))
    have h2 := abs_sub_abs_le_abs_sub (Real.sin (t / 2)) (Real.sin (r / 2))
    rw [abs_sub_comm] at h2
    rw [abs_mul, abs_of_pos (by norm_num : (0:ℝ) < 2)]
    constructor <;> linarith
  rw [hB] at hx
  rw [clausen_one, hB]
  set B := 2 * |Real.sin (t / 2)| with hBd
  have hr2 : r < 2 * Real.pi := by linarith
  have hrpos : 0 < r := by
    refine lt_of_le_of_ne r0 fun h0 => ?_
    rw [← h0] at hlip
    simp only [zero_div, Real.sin_zero, mul_zero, abs_zero, zero_sub, sub_zero] at hlip
    linarith [hlip.2]
  have hsr := Real.sin_pos_of_pos_of_lt_pi (x := r / 2) (by linarith) (by linarith)
  rw [Cl1d_R hS _ hrpos hr2, ← hrd, neg_sub_neg, abs_sub_comm]
  rw [abs_of_pos (by linarith)] at hlip
  set A := 2 * Real.sin (r / 2) with hA
  have hA0 : 0 < A := by linarith
  have hB0 : 0 < B := by linarith
  -- log A - log B
  have l1 : Real.log A - Real.log B ≤ h / B := by
    rw [← Real.log_div hA0.ne' hB0.ne']
    refine (Real.log_le_sub_one_of_pos (by positivity)).trans ?_
    rw [div_sub_one hB0.ne', div_le_div_iff_of_pos_right hB0]; linarith
  have l2 : Real.log B - Real.log A ≤ 2 * h / B := by
    rw [← Real.log_div hB0.ne' hA0.ne']
    refine (Real.log_le_sub_one_of_pos (by positivity)).trans ?_
    rw [div_sub_one hA0.ne', div_le_div_iff₀ hA0 hB0]
    nlinarith
  have l3 : h / B ≤ 2 * h / B := by rw [div_le_div_iff_of_pos_right hB0]; linarith
  rw [abs_le]
  constructor <;> linarith

/-- `Cl1` is exact (for exact elementary operations) on `0 < |x| ≤ PI` -/
theorem C13_Cl1_exact {u : ℝ} (hS : S.Lit u) (hu : u ≤ 1e-6) (x : ℝ) (h0 : x ≠ 0)
    (h1 : |x| ≤ ofR (FOps.lit 3.14159265358979324 : R S)) : ofR (Cl1d (toR S x)) = clausen 1 x := by
  have hu0 := hS.u_nonneg
  have hd := PId hS
  have hpi := pi_gt
  have hP3 : 3 ≤ ofR (FOps.lit 3.14159265358979324 : R S) := by have := (abs_le.mp hd).1; linarith
  have hP4 := (abs_le.mp hd).2
  have hr := reduceAbs_R hS (PI := (FOps.lit 3.14159265358979324 : R S)) (p1 := (FOps.lit 0.0019353071795864769253 : R S)) (x := toR S x) (by linarith)
  have hx : ofR (toR S x) = x := rfl
  rw [hx, wrap_of_lt (by linarith), if_neg (not_lt.mpr h1)] at hr
  have hxp : 0 < |x| := abs_pos.mpr h0
  rw [Cl1d_R hS _ (by rw [hr]; exact hxp) (by rw [hr]; linarith), hr, clausen_one, norm_one_sub_exp]
  have hs := Real.sin_pos_of_pos_of_lt_pi (x := |x| / 2) (by linarith) (by linarith)
  have : |Real.sin (x / 2)| = Real.sin (|x| / 2) := by
    rw [← abs_of_pos hs]
    rcases abs_cases x with ⟨h, _⟩ | ⟨h, _⟩ <;> rw [h]
    rw [neg_div, Real.sin_neg, abs_neg]
  rw [this]

/-- instance: decimal literals, `x = 1` (no error) -/
example : ofR (Cl1d (toR RealSem.dec 1)) = clausen 1 1 :=
  C13_Cl1_exact RealSem.dec_lit (by norm_num) 1 one_ne_zero (by
    have := (abs_le.mp (PId RealSem.dec_lit)).1
    have := pi_gt
    rw [abs_one]; linarith)

end Polylog
