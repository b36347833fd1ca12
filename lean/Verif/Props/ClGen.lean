import Verif.Proofs.ClLip
import Verif.Proofs.ClApxTab
import Verif.Props.ZetaVals

/-! # Range reduction of the Clausen functions over the reals -/

noncomputable section
namespace Polylog
variable {S : RealSem}

/-- the argument modulo the period used by the code -/
def wrap (P x : ℝ) : ℝ := |x| - 2 * P * ⌊|x| / (2 * P)⌋₊

theorem wrap_nonneg {P : ℝ} (hP : 0 < P) (x : ℝ) : 0 ≤ wrap P x := by
  have h := Nat.floor_le (a := |x| / (2 * P)) (by positivity)
  rw [le_div_iff₀ (by positivity)] at h
  rw [wrap]; linarith

theorem wrap_lt {P : ℝ} (hP : 0 < P) (x : ℝ) : wrap P x < 2 * P := by
  have h := Nat.lt_floor_add_one (|x| / (2 * P))
  rw [div_lt_iff₀ (by positivity)] at h
  rw [wrap]; linarith

theorem wrap_of_lt {P x : ℝ} (hx : |x| < 2 * P) : wrap P x = |x| := by
  have hP : 0 < 2 * P := lt_of_le_of_lt (abs_nonneg _) hx
  have : ⌊|x| / (2 * P)⌋₊ = 0 := by
    rw [Nat.floor_eq_zero, div_lt_one hP]; exact hx
  rw [wrap, this]; simp

theorem reduceAbs_R {u : ℝ} (hS : S.Lit u) {PI p1 x : R S} (hP : 0 < ofR PI) :
    ofR (reduceAbs PI p1 x) = if ofR PI < wrap (ofR PI) (ofR x) then 6.28125 - wrap (ofR PI) (ofR x) + ofR p1 else wrap (ofR PI) (ofR x) := by
  have h628 : ofR (FOps.lit 6.28125 : R S) = 6.28125 := by
    show ((S.rho 6.28125 : ℚ) : ℝ) = _
    rw [hS.dy 6.28125 201 5 (by norm_num) (by norm_num) (by norm_num)]; norm_num
  have h2 : ofR ((FOps.lit 2 : R S) *. PI) = 2 * ofR PI := by
    show ((S.rho 2 : ℚ) : ℝ) * ofR PI = _
    rw [hS.two]; norm_num
  have h0 : ofR (FOps.lit 0 : R S) = 0 := by
    show ((S.rho 0 : ℚ) : ℝ) = 0
    rw [hS.zero]; norm_num
  set X : R S := if x <. FOps.lit 0 then ∸x else x with hX
  have hXa : ofR X = |ofR x| := by
    rw [hX, lt_R, h0]
    by_cases h : ofR x < 0
    · rw [if_pos (by simpa using h), abs_of_neg h]; rfl
    · rw [if_neg (by simpa using h), abs_of_nonneg (not_lt.mp h)]
  set W : R S := if X >=. ((FOps.lit 2 : R S) *. PI) then FOps.fmod X ((FOps.lit 2 : R S) *. PI) else X with hW
  have hWa : ofR W = wrap (ofR PI) (ofR x) := by
    rw [hW, ge_R, h2, hXa]
    by_cases h : 2 * ofR PI ≤ |ofR x|
    · rw [if_pos (by simpa using h)]
      show (if ofR ((FOps.lit 2 : R S) *. PI) = 0 then S.fmodJ (ofR X) else realFmod (ofR X) (ofR ((FOps.lit 2 : R S) *. PI))) = _
      rw [h2, if_neg (by positivity), hXa, realFmod, if_pos (by positivity), wrap, natCast_floor_eq_intCast_floor (by positivity)]
    · rw [if_neg (by simpa using h), hXa, wrap_of_lt (not_le.mp h)]
  have e : reduceAbs PI p1 x = if W >. PI then (FOps.lit 6.28125 -. W) +. p1 else W := rfl
  rw [e, gt_R, hWa]
  by_cases h : ofR PI < wrap (ofR PI) (ofR x)
  · rw [if_pos (by simpa using h), if_pos h]
    show ofR (FOps.lit 6.28125 : R S) - ofR W + ofR p1 = _
    rw [h628, hWa]
  · rw [if_neg (by simpa using h), if_neg h, hWa]

theorem reduceSgn_R_fst (PI p1 x : R S) : (reduceSgn PI p1 x).1 = reduceAbs PI p1 x := by
  simp only [reduceSgn, reduceAbs, apply_ite Prod.fst]

theorem reduceSgn_R_snd {u : ℝ} (hS : S.Lit u) {PI p1 x : R S} (hP : 0 < ofR PI) :
    ofR (reduceSgn PI p1 x).2 = (if ofR x < 0 then -1 else 1) * (if ofR PI < wrap (ofR PI) (ofR x) then -1 else 1) := by
  have h2 : ofR ((FOps.lit 2 : R S) *. PI) = 2 * ofR PI := by
    show ((S.rho 2 : ℚ) : ℝ) * ofR PI = _
    rw [hS.two]; norm_num
  have h0 : ofR (FOps.lit 0 : R S) = 0 := by
    show ((S.rho 0 : ℚ) : ℝ) = 0
    rw [hS.zero]; norm_num
  have h1 : ofR (FOps.lit 1 : R S) = 1 := by
    show ((S.rho 1 : ℚ) : ℝ) = 1
    rw [hS.one]; norm_num
  set X : R S := if x <. FOps.lit 0 then ∸x else x with hX
  have hXa : ofR X = |ofR x| := by
    rw [hX, lt_R, h0]
    by_cases h : ofR x < 0
    · rw [if_pos (by simpa using h), abs_of_neg h]; rfl
    · rw [if_neg (by simpa using h), abs_of_nonneg (not_lt.mp h)]
  set s : R S := if x <. FOps.lit 0 then ∸(FOps.lit 1) else FOps.lit 1 with hs
  have hsa : ofR s = if ofR x < 0 then -1 else 1 := by
    rw [hs, lt_R, h0]
    by_cases h : ofR x < 0
    · rw [if_pos (by simpa using h), if_pos h]; show -ofR (FOps.lit 1 : R S) = _; rw [h1]
    · rw [if_neg (by simpa using h), if_neg h, h1]
  set W : R S := if X >=. ((FOps.lit 2 : R S) *. PI) then FOps.fmod X ((FOps.lit 2 : R S) *. PI) else X with hW
  have hWa : ofR W = wrap (ofR PI) (ofR x) := by
    rw [hW, ge_R, h2, hXa]
    by_cases h : 2 * ofR PI ≤ |ofR x|
    · rw [if_pos (by simpa using h)]
      show (if ofR ((FOps.lit 2 : R S) *. PI) = 0 then S.fmodJ (ofR X) else realFmod (ofR X) (ofR ((FOps.lit 2 : R S) *. PI))) = _
      rw [h2, if_neg (by positivity), hXa, realFmod, if_pos (by positivity), wrap, natCast_floor_eq_intCast_floor (by positivity)]
    · rw [if_neg (by simpa using h), hXa, wrap_of_lt (not_le.mp h)]
  have e : (reduceSgn PI p1 x).2 = if W >. PI then ∸s else s := by
    simp only [reduceSgn, apply_ite Prod.snd, apply_ite Prod.fst, hW, hs, hX]
  rw [e, gt_R, hWa, ← hsa]
  by_cases h : ofR PI < wrap (ofR PI) (ofR x)
  · rw [if_pos (by simpa using h), if_pos h]
    show -ofR s = _
    ring
  · rw [if_neg (by simpa using h), if_neg h, mul_one]

theorem clausen_sub_nat (n k : ℕ) (x : ℝ) : clausen n (x - 2 * Real.pi * k) = clausen n x := by
  induction k with
  | zero => simp
  | succ k ih =>
    rw [← ih, ← clausen_sub_two_pi n (x - 2 * Real.pi * k)]
    congr 1; push_cast; ring

/-- what the range reduction achieves, without the bounds on the reduced argument -/
theorem reduce_spec' (m p : ℕ) (hp : p < 2) (hn : 2 ≤ 2 * m + 1 + p) {P p1 x d e r s : ℝ}
    (hd : |P - Real.pi| ≤ d) (he : |6.28125 + p1 - 2 * Real.pi| ≤ e)
    (hr : r = if P < wrap P x then 6.28125 - wrap P x + p1 else wrap P x)
    (hs : s = ((if x < 0 then -1 else 1) * (if P < wrap P x then -1 else 1)) ^ p) :
    ∃ t, |r - t| ≤ e + 2 * d * ⌊|x| / (2 * P)⌋₊ ∧ clausen (2 * m + 1 + p) x = s * clausen (2 * m + 1 + p) t := by
  have hd' := abs_le.mp hd
  have he' := abs_le.mp he
  have he0 : 0 ≤ e := le_trans (abs_nonneg _) he
  set k := ⌊|x| / (2 * P)⌋₊ with hk
  have hkd : |(P - Real.pi) * k| ≤ d * k := by
    rw [abs_mul, Nat.abs_cast]; exact mul_le_mul_of_nonneg_right hd (Nat.cast_nonneg _)
  have hkd' := abs_le.mp hkd
  -- sign of x
  have hx : clausen (2 * m + 1 + p) x = (if x < 0 then -1 else 1) ^ p * clausen (2 * m + 1 + p) |x| := by
    split_ifs with h
    · rw [abs_of_neg h, clausen_neg m p hp hn, ← mul_assoc, ← mul_pow]; norm_num
    · rw [abs_of_nonneg (not_lt.mp h)]; simp
  have hx2 := clausen_sub_nat (2 * m + 1 + p) k |x|
  rw [← hx2] at hx
  have hwx : wrap P x = |x| - 2 * P * k := rfl
  by_cases h : P < wrap P x
  · rw [if_pos h] at hr hs
    refine ⟨2 * Real.pi - (|x| - 2 * Real.pi * k), ?_, ?_⟩
    · have : r - (2 * Real.pi - (|x| - 2 * Real.pi * k)) = (6.28125 + p1 - 2 * Real.pi) + 2 * ((P - Real.pi) * k) := by
        rw [hr, hwx]; ring
      rw [this, abs_le]; constructor <;> linarith
    · rw [clausen_two_pi_sub m p hp hn, hx, hs, mul_pow]
      have : ((-1:ℝ) ^ p) * (-1) ^ p = 1 := by rw [← mul_pow]; norm_num
      linear_combination (-(if x < 0 then (-1:ℝ) else 1) ^ p * clausen (2 * m + 1 + p) (|x| - 2 * Real.pi * k)) * this
  · rw [if_neg h] at hr hs
    refine ⟨|x| - 2 * Real.pi * k, ?_, ?_⟩
    · have : r - (|x| - 2 * Real.pi * k) = -(2 * ((P - Real.pi) * k)) := by rw [hr, hwx]; ring
      rw [this, abs_le]; constructor <;> linarith
    · rw [hx, hs, mul_one]

/-- what the range reduction achieves: the reduced argument is within `e + 2kd` of an argument `t` with
`Cl_n(x) = ± Cl_n(t)`, where `k` periods were subtracted -/
theorem reduce_spec (m p : ℕ) (hp : p < 2) (hn : 2 ≤ 2 * m + 1 + p) {P p1 x d e r s : ℝ} (hP : 3 ≤ P)
    (hd : |P - Real.pi| ≤ d) (he : |6.28125 + p1 - 2 * Real.pi| ≤ e)
    (hr : r = if P < wrap P x then 6.28125 - wrap P x + p1 else wrap P x)
    (hs : s = ((if x < 0 then -1 else 1) * (if P < wrap P x then -1 else 1)) ^ p)
    (hw : wrap P x ≤ 6.28125 + p1) :
    0 ≤ r ∧ r ≤ P + (e + 2 * d) ∧ ∃ t, |r - t| ≤ e + 2 * d * ⌊|x| / (2 * P)⌋₊ ∧ clausen (2 * m + 1 + p) x = s * clausen (2 * m + 1 + p) t := by
  have hd' := abs_le.mp hd
  have he' := abs_le.mp he
  have he0 : 0 ≤ e := le_trans (abs_nonneg _) he
  have hd0 : 0 ≤ d := le_trans (abs_nonneg _) hd
  have hw0 := wrap_nonneg (by linarith : 0 < P) x
  have ht := reduce_spec' m p hp hn hd he hr hs
  by_cases h : P < wrap P x
  · rw [if_pos h] at hr
    exact ⟨by linarith, by linarith, ht⟩
  · rw [if_neg h] at hr
    exact ⟨by linarith, by linarith, ht⟩

/-! ## branches -/

/-- branch about `π` -/
theorem hi_branch (m p : ℕ) (hp : p < 2) (hn : 2 ≤ 2 * m + 1 + p) {P r d : ℝ} (hd : |P - Real.pi| ≤ d) (hd1 : d ≤ 1e-5)
    (hr : P / 2 - 1e-6 ≤ r) (hr2 : r ≤ P + 1e-4) :
    ∃ f, HasSum (fun j => hiC m p j * ((Real.pi - r) ^ 2) ^ j) f ∧ clausen (2 * m + 1 + p) r = (Real.pi - r) ^ p * f ∧
      0 ≤ (Real.pi - r) ^ 2 ∧ (Real.pi - r) ^ 2 ≤ 2.4676 ∧ |P - r| ≤ 1.571 ∧ |(P - r) * (P - r) - P * P / 8| ≤ 1.2338 ∧
      |(P - r) * (P - r) - P * P / 8 + Real.pi ^ 2 / 8 - (Real.pi - r) ^ 2| ≤ 2.4 * d := by
  have h1 := pi_gt; have h2 := pi_lt
  have hd' := abs_le.mp hd
  have hy1 : Real.pi - r ≤ 1.57083 := by linarith
  have hy2 : -1.57083 ≤ Real.pi - r := by linarith
  have hy3 : |Real.pi - r| < Real.pi := by rw [abs_lt]; constructor <;> linarith
  obtain ⟨f, hf, hc⟩ := clausen_hi' m p hp hn hy3
  rw [sub_sub_cancel] at hc
  refine ⟨f, hf, hc, sq_nonneg _, ?_, ?_, ?_, ?_⟩
  · nlinarith
  · rw [abs_le]; constructor <;> linarith
  · have hP : P * P / 8 ≤ 1.2338 := by nlinarith
    have h4 : |P - r| ≤ P / 2 + 1e-6 := by rw [abs_le]; constructor <;> linarith
    have h5 : (P - r) * (P - r) ≤ P * P / 4 + 4e-6 := by
      rw [← abs_mul_abs_self (P - r)]
      nlinarith [abs_nonneg (P - r)]
    rw [abs_le]; constructor <;> nlinarith [mul_self_nonneg (P - r)]
  · have e : (P - r) * (P - r) - P * P / 8 + Real.pi ^ 2 / 8 - (Real.pi - r) ^ 2 = (P - Real.pi) * ((P - r) + (Real.pi - r) - (P + Real.pi) / 8) := by ring
    rw [e, abs_mul, mul_comm]
    refine mul_le_mul ?_ hd (abs_nonneg _) (by norm_num)
    rw [abs_le]; constructor <;> linarith

/-- combination for the odd orders (`p = 0`) and the even orders (`p = 1`) -/
theorem hi_even {y y0 A f d E F : ℝ} (h : |A - f| ≤ E) (hy : |y| ≤ 1.571) (hd : |y - y0| ≤ d) (hf : |f| ≤ F) :
    |y * A - y0 * f| ≤ 1.571 * E + d * F := by
  have e : y * A - y0 * f = y * (A - f) + (y - y0) * f := by ring
  rw [e]
  refine (abs_add_le _ _).trans ?_
  rw [abs_mul, abs_mul]
  exact add_le_add (mul_le_mul hy h (abs_nonneg _) (by norm_num)) (mul_le_mul hd hf (abs_nonneg _) (le_trans (abs_nonneg _) hd))

/-- branch about `0` -/
theorem lo_branch (m p : ℕ) (hp : p < 2) {P r d : ℝ} (hd : |P - Real.pi| ≤ d) (hd1 : d ≤ 1e-5) (h0 : 0 < r) (hr : r < P / 2) :
    ∃ f, HasSum (fun j => loC m p j * (r * r) ^ j) f ∧
      clausen (2 * m + 1 + p) r = r ^ p * (f - (-1) ^ m * (r ^ 2) ^ m / (2 * m + p).factorial * Real.log r) ∧
      0 < r * r ∧ r * r ≤ 2.4676 ∧ r ≤ 1.571 ∧ |r * r - P * P / 8| ≤ 1.2338 ∧
      |r * r - P * P / 8 + Real.pi ^ 2 / 8 - r * r| ≤ 0.8 * d := by
  have h1 := pi_gt; have h2 := pi_lt
  have hd' := abs_le.mp hd
  have hr1 : r ≤ 1.57083 := by linarith
  obtain ⟨f, hf, hc⟩ := clausen_lo m p hp h0 (by linarith)
  rw [pow_two r] at hf
  refine ⟨f, hf, hc, mul_pos h0 h0, by nlinarith, by linarith, ?_, ?_⟩
  · have hP : P * P / 8 ≤ 1.2338 := by nlinarith
    have h5 : r * r ≤ P * P / 4 := by nlinarith
    rw [abs_le]; constructor <;> nlinarith [mul_self_nonneg r]
  · have e : r * r - P * P / 8 + Real.pi ^ 2 / 8 - r * r = -((P - Real.pi) * ((P + Real.pi) / 8)) := by ring
    rw [e, abs_neg, abs_mul, mul_comm]
    refine mul_le_mul ?_ hd (abs_nonneg _) (by norm_num)
    rw [abs_le]; constructor <;> linarith

theorem hasSum_drop {a : ℕ → ℝ} {t f : ℝ} (ht : t ≠ 0) (h : HasSum (fun j => a j * t ^ j) f) :
    HasSum (fun j => a (j + 1) * t ^ j) ((f - a 0) / t) := by
  have h2 := ((hasSum_nat_add_iff' 1).mpr h).div_const t
  simp only [Finset.sum_range_one, pow_zero, mul_one] at h2
  refine HasSum.congr_fun' h2 fun j => ?_
  rw [pow_succ]; field_simp

/-- final assembly -/
theorem cl_final (m p : ℕ) {x r s v c C Λ κ h : ℝ} (hs : |s| ≤ 1) (hv : v = s * c) (hc : |c - clausen (2 * m + 1 + p) r| ≤ C)
    (hmod : ∀ a b, |clausen (2 * m + 1 + p) a - clausen (2 * m + 1 + p) b| ≤ Λ * |a - b| + κ) (hΛ : 0 ≤ Λ)
    (ht : ∃ t, |r - t| ≤ h ∧ clausen (2 * m + 1 + p) x = s * clausen (2 * m + 1 + p) t) :
    |v - clausen (2 * m + 1 + p) x| ≤ C + (Λ * h + κ) := by
  obtain ⟨t, ht, hx⟩ := ht
  rw [hx, hv, ← mul_sub, abs_mul]
  have h1 : |c - clausen (2 * m + 1 + p) t| ≤ C + (Λ * h + κ) := by
    calc _ ≤ _ := abs_sub_le _ (clausen (2 * m + 1 + p) r) _
      _ ≤ C + (Λ * |r - t| + κ) := add_le_add hc (hmod r t)
      _ ≤ _ := by have := mul_le_mul_of_nonneg_left ht hΛ; linarith
  calc _ ≤ 1 * |c - clausen (2 * m + 1 + p) t| := mul_le_mul_of_nonneg_right hs (abs_nonneg _)
    _ ≤ _ := by rw [one_mul]; exact h1

theorem sgn_abs (a b : Prop) [Decidable a] [Decidable b] (p : ℕ) : |(((if a then -1 else 1) * (if b then -1 else 1)) ^ p : ℝ)| ≤ 1 := by
  have : |((if a then -1 else 1) * (if b then -1 else 1) : ℝ)| = 1 := by split_ifs <;> norm_num
  rw [abs_pow, this, one_pow]

/-! ## literals and evaluation -/

section
variable {S : RealSem} {u : ℝ} (hS : S.Lit u)
include hS

theorem lit1 : ofR (FOps.lit 1 : R S) = 1 := by
  show ((S.rho 1 : ℚ) : ℝ) = 1
  rw [hS.one]; norm_num
theorem lit0 : ofR (FOps.lit 0 : R S) = 0 := by
  show ((S.rho 0 : ℚ) : ℝ) = 0
  rw [hS.zero]; norm_num
theorem litnat (n : ℕ) (hn : n < 2 ^ 24) : ofR (FOps.lit (n : ℚ) : R S) = n := by
  show ((S.rho n : ℚ) : ℝ) = n
  rw [hS.nat n hn]; norm_num

theorem half_R (x : R S) : ofR (x /. (FOps.lit 2 : R S)) = ofR x / 2 := by
  have h := litnat hS 2 (by norm_num)
  push_cast at h
  rw [ofR_div (by rw [h]; norm_num), h]
theorem sq8_R (x : R S) : ofR (x *. x /. (FOps.lit 8 : R S)) = ofR x * ofR x / 8 := by
  have h := litnat hS 8 (by norm_num)
  push_cast at h
  rw [ofR_div (by rw [h]; norm_num), h, ofR_mul]

/-- low branch of order 2 -/
theorem lo2_R (x y p q : R S) (hx : 0 < ofR x) (hq : ofR q ≠ 0) :
    ofR (x *. ((FOps.lit 1 : R S) -. (xlog x) +. y *. p /. q)) = ofR x * (1 - Real.log (ofR x) + ofR y * (ofR p / ofR q)) := by
  rw [ofR_mul, ofR_add, ofR_sub, lit1 hS, xlog_R, ofR_log hx, ofR_div hq, ofR_mul, mul_div_assoc]

theorem lo3_R (x y p q z : R S) (hx : 0 < ofR x) (hq : ofR q ≠ 0) :
    ofR (z +. y *. (p /. q +. (FOps.lit 0.5 : R S) *. (xlog x))) = ofR z + ofR y * (ofR p / ofR q + 1 / 2 * Real.log (ofR x)) := by
  have h5 : ofR (FOps.lit 0.5 : R S) = 1 / 2 := by
    show ((S.rho 0.5 : ℚ) : ℝ) = _
    rw [hS.half]; norm_num
  rw [ofR_add, ofR_mul, ofR_add, ofR_mul, h5, xlog_R, ofR_log hx, ofR_div hq]

theorem lo4_R (x y p q z : R S) (hx : 0 < ofR x) (hq : ofR q ≠ 0) :
    ofR (x *. (z +. y *. (p /. q +. (FOps.lit 1 : R S) /. (FOps.lit 6 : R S) *. (xlog x)))) =
      ofR x * (ofR z + ofR y * (ofR p / ofR q + 1 / 6 * Real.log (ofR x))) := by
  have h6 := litnat hS 6 (by norm_num)
  push_cast at h6
  rw [ofR_mul, ofR_add, ofR_mul, ofR_add, ofR_mul, ofR_div hq, ofR_div (by rw [h6]; norm_num), lit1 hS, h6, xlog_R, ofR_log hx]

theorem lo5_R (x y p q : R S) (hx : 0 < ofR x) (hq : ofR q ≠ 0) :
    ofR (p /. q -. (FOps.lit 1 : R S) /. (FOps.lit 24 : R S) *. (y *. y) *. (xlog x)) =
      ofR p / ofR q - 1 / 24 * (ofR y * ofR y) * Real.log (ofR x) := by
  have h6 := litnat hS 24 (by norm_num)
  push_cast at h6
  rw [ofR_sub, ofR_mul, ofR_mul, ofR_div hq, ofR_div (by rw [h6]; norm_num), lit1 hS, h6, xlog_R, ofR_log hx, ofR_mul]

theorem lo6_R (x y p q : R S) (hx : 0 < ofR x) (hq : ofR q ≠ 0) :
    ofR (x *. (p /. q -. (FOps.lit 1 : R S) /. (FOps.lit 120 : R S) *. (y *. y) *. (xlog x))) =
      ofR x * (ofR p / ofR q - 1 / 120 * (ofR y * ofR y) * Real.log (ofR x)) := by
  have h6 := litnat hS 120 (by norm_num)
  push_cast at h6
  rw [ofR_mul, ofR_sub, ofR_mul, ofR_mul, ofR_div hq, ofR_div (by rw [h6]; norm_num), lit1 hS, h6, xlog_R, ofR_log hx, ofR_mul]

omit hS in
theorem hiE_R (y p q : R S) (hq : ofR q ≠ 0) : ofR (y *. p /. q) = ofR y * (ofR p / ofR q) := by
  rw [ofR_div hq, ofR_mul, mul_div_assoc]

/-- a literal close to a real number -/
theorem lit_close {q : ℚ} {v ε : ℝ} {c : ℝ} (h : |(q:ℝ) - v| ≤ ε) (hq : |(q:ℝ)| ≤ c) : |ofR (FOps.lit q : R S) - v| ≤ ε + c * u := by
  have h1 := hS.rel q
  have h2 : |ofR (FOps.lit q : R S) - (q:ℝ)| ≤ c * u := by
    refine h1.trans ?_
    rw [mul_comm]; exact mul_le_mul_of_nonneg_right hq hS.u_nonneg
  calc _ ≤ _ := abs_sub_le _ (q:ℝ) _
    _ ≤ _ := by linarith

theorem PId : |ofR (FOps.lit 3.14159265358979324 : R S) - Real.pi| ≤ 1.6e-18 + 3.15 * u := by
  refine lit_close hS ?_ (by rw [abs_of_pos] <;> norm_num)
  have h1 := Real.pi_gt_d20; have h2 := Real.pi_lt_d20
  rw [abs_le]; push_cast; constructor <;> linarith

omit hS in
theorem pi_close {q : ℚ} {ε : ℚ} (h : |q - piQ| ≤ ε - 1 / 10 ^ 49) : |(q:ℝ) - Real.pi| ≤ ε := by
  have h' := (Rat.cast_le (K := ℝ)).mpr h
  push_cast at h'
  have h2 := pi_approx
  rw [abs_sub_comm] at h2
  have := abs_sub_le (q:ℝ) (piQ:ℝ) Real.pi
  linarith

theorem PIl : |ofR (FOps.lit 3.14159265358979323846264338327950288 : R S) - Real.pi| ≤ 4.2e-36 + 3.15 * u := by
  refine lit_close hS ?_ (by rw [abs_of_pos] <;> norm_num)
  have := pi_close (q := 3.14159265358979323846264338327950288) (ε := 4.2e-36) (by decide +kernel)
  push_cast at this ⊢; exact this

theorem p1_close {q : ℚ} {ε : ℚ} {c : ℝ} (hq : |(q:ℝ)| ≤ c) (h : |(6.28125 + q) / 2 - piQ| ≤ ε / 2 - 1 / 10 ^ 49) :
    |6.28125 + ofR (FOps.lit q : R S) - 2 * Real.pi| ≤ ε + c * u := by
  have h1 := pi_close (q := (6.28125 + q) / 2) (ε := ε / 2) h
  have h2 := lit_close hS (q := q) (v := q) (ε := 0) (by simp) hq
  push_cast at h1
  rw [abs_le] at *
  constructor <;> linarith [h1.1, h1.2, h2.1, h2.2]

theorem P1d : |6.28125 + ofR (FOps.lit 0.0019353071795864769253 : R S) - 2 * Real.pi| ≤ 1.4e-23 + 0.002 * u := by
  have := p1_close hS (q := 0.0019353071795864769253) (ε := 1.4e-23) (c := 0.002) (by rw [abs_of_pos] <;> norm_num) (by decide +kernel)
  push_cast at this ⊢; exact this

theorem P1l : |6.28125 + ofR (FOps.lit 0.0019353071795864769252867665590057683943 : R S) - 2 * Real.pi| ≤ 5e-41 + 0.002 * u := by
  have := p1_close hS (q := 0.0019353071795864769252867665590057683943) (ε := 5e-41) (c := 0.002) (by rw [abs_of_pos] <;> norm_num) (by decide +kernel)
  push_cast at this ⊢; exact this

theorem zeta_close (n : ℕ) (hn : n < 5) {q : ℚ} {ε : ℚ} {c : ℝ} (hq : |(q:ℝ)| ≤ c) (h : |q - zA.getD (n + 2) 0| ≤ ε - 6e-42) :
    |ofR (FOps.lit q : R S) - reLi (n + 2) 1| ≤ ε + c * u := by
  refine lit_close hS ?_ hq
  have h1 := zA_approx n hn
  rw [abs_sub_comm] at h1
  have h' := (Rat.cast_le (K := ℝ)).mpr h
  push_cast at h'
  have := abs_sub_le (q:ℝ) ((zA.getD (n + 2) 0 : ℚ) : ℝ) (reLi (n + 2) 1)
  linarith

theorem Z3d : |ofR (FOps.lit 1.2020569031595943 : R S) - reLi 3 1| ≤ 1.5e-17 + 1.21 * u := by
  have := zeta_close hS 1 (by norm_num) (q := 1.2020569031595943) (ε := 1.5e-17) (c := 1.21) (by rw [abs_of_pos] <;> norm_num) (by decide +kernel)
  push_cast at this ⊢; exact this
theorem Z3l : |ofR (FOps.lit 1.2020569031595942853997381615114499908 : R S) - reLi 3 1| ≤ 4e-38 + 1.21 * u := by
  have := zeta_close hS 1 (by norm_num) (q := 1.2020569031595942853997381615114499908) (ε := 4e-38) (c := 1.21) (by rw [abs_of_pos] <;> norm_num) (by decide +kernel)
  push_cast at this ⊢; exact this
theorem Z5d : |ofR (FOps.lit 1.0369277551433699 : R S) - reLi 5 1| ≤ 3e-17 + 1.04 * u := by
  have := zeta_close hS 3 (by norm_num) (q := 1.0369277551433699) (ε := 3e-17) (c := 1.04) (by rw [abs_of_pos] <;> norm_num) (by decide +kernel)
  push_cast at this ⊢; exact this
theorem Z5l : |ofR (FOps.lit 1.036927755143369926331365486457034168057 : R S) - reLi 5 1| ≤ 1e-40 + 1.04 * u := by
  have := zeta_close hS 3 (by norm_num) (q := 1.036927755143369926331365486457034168057) (ε := 1e-40) (c := 1.04) (by rw [abs_of_pos] <;> norm_num) (by decide +kernel)
  push_cast at this ⊢; exact this

end

theorem clausen_odd_zero (m : ℕ) : clausen (2 * m + 1 + 0) 0 = reLi (2 * m + 1) 1 := by
  rw [clausen_part m 0 (by norm_num), part, if_pos rfl, reLi]
  simp

theorem clausen_even_zero (m : ℕ) : clausen (2 * m + 1 + 1) 0 = 0 := by
  have h := clausen_neg m 1 (by norm_num) (by omega) 0
  rw [neg_zero, pow_one] at h
  linarith

/-- the number of subtracted periods times the error of the period -/
theorem periods {P x d : ℝ} (hP : 3 ≤ P) (hd : 0 ≤ d) : 2 * d * ⌊|x| / (2 * P)⌋₊ ≤ d * |x| / 3 := by
  have h := Nat.floor_le (a := |x| / (2 * P)) (by positivity)
  rw [le_div_iff₀ (by positivity)] at h
  have h2 : (⌊|x| / (2 * P)⌋₊ : ℝ) * 6 ≤ |x| := by
    have : (0:ℝ) ≤ ⌊|x| / (2 * P)⌋₊ := Nat.cast_nonneg _
    nlinarith
  nlinarith

end Polylog
