import Verif.Props.ClGen
import Verif.Proofs.Glaisher
import Verif.Model.Sl

/-! # `Sl` over the reals: range reduction, polynomials -/

noncomputable section
namespace Polylog
open Finset
variable {S : RealSem}

/-- `reduce_spec` for a function `f` of period `2π` and parity `p` -/
theorem reduce_gen (p : ℕ) {f : ℝ → ℝ} (hneg : ∀ x, f (-x) = (-1) ^ p * f x) (hper : ∀ x, f (x - 2 * Real.pi) = f x)
    {P p1 x d e r s : ℝ} (hP : 3 ≤ P)
    (hd : |P - Real.pi| ≤ d) (he : |6.28125 + p1 - 2 * Real.pi| ≤ e)
    (hr : r = if P < wrap P x then 6.28125 - wrap P x + p1 else wrap P x)
    (hs : s = ((if x < 0 then -1 else 1) * (if P < wrap P x then -1 else 1)) ^ p)
    (hw : wrap P x ≤ 6.28125 + p1) :
    0 ≤ r ∧ r ≤ P + (e + 2 * d) ∧ ∃ t, |r - t| ≤ e + 2 * d * ⌊|x| / (2 * P)⌋₊ ∧ f x = s * f t := by
  have hd' := abs_le.mp hd
  have he' := abs_le.mp he
  have hd0 : 0 ≤ d := le_trans (abs_nonneg _) hd
  have he0 : 0 ≤ e := le_trans (abs_nonneg _) he
  have hw0 := wrap_nonneg (by linarith : 0 < P) x
  have hpn : ∀ (k : ℕ) x, f (x - 2 * Real.pi * k) = f x := by
    intro k x
    induction k with
    | zero => simp
    | succ k ih => rw [← ih, ← hper (x - 2 * Real.pi * k)]; congr 1; push_cast; ring
  set k := ⌊|x| / (2 * P)⌋₊ with hk
  have hkd : |(P - Real.pi) * k| ≤ d * k := by
    rw [abs_mul, Nat.abs_cast]; exact mul_le_mul_of_nonneg_right hd (Nat.cast_nonneg _)
  have hkd' := abs_le.mp hkd
  have hx : f x = (if x < 0 then -1 else 1) ^ p * f |x| := by
    split_ifs with h
    · rw [abs_of_neg h, hneg, ← mul_assoc, ← mul_pow]; norm_num
    · rw [abs_of_nonneg (not_lt.mp h)]; simp
  rw [← hpn k |x|] at hx
  have hwx : wrap P x = |x| - 2 * P * k := rfl
  by_cases h : P < wrap P x
  · rw [if_pos h] at hr hs
    refine ⟨by linarith, by linarith, 2 * Real.pi - (|x| - 2 * Real.pi * k), ?_, ?_⟩
    · have : r - (2 * Real.pi - (|x| - 2 * Real.pi * k)) = (6.28125 + p1 - 2 * Real.pi) + 2 * ((P - Real.pi) * k) := by
        rw [hr, hwx]; ring
      rw [this, abs_le]; constructor <;> linarith
    · have h2 : f (2 * Real.pi - (|x| - 2 * Real.pi * k)) = (-1) ^ p * f (|x| - 2 * Real.pi * k) := by
        rw [← hneg, ← hper (2 * Real.pi - _)]; congr 1; ring
      rw [h2, hx, hs, mul_pow]
      have : ((-1:ℝ) ^ p) * (-1) ^ p = 1 := by rw [← mul_pow]; norm_num
      linear_combination (-(if x < 0 then (-1:ℝ) else 1) ^ p * f (|x| - 2 * Real.pi * k)) * this
  · rw [if_neg h] at hr hs
    refine ⟨by linarith, by linarith, |x| - 2 * Real.pi * k, ?_, ?_⟩
    · have : r - (|x| - 2 * Real.pi * k) = -(2 * ((P - Real.pi) * k)) := by rw [hr, hwx]; ring
      rw [this, abs_le]; constructor <;> linarith
    · rw [hx, hs, mul_one]

/-- `cl_final` for any function -/
theorem fin_gen {f : ℝ → ℝ} {x r s v c C Λ κ h : ℝ} (hs : |s| ≤ 1) (hv : v = s * c) (hc : |c - f r| ≤ C)
    (hmod : ∀ a b, |f a - f b| ≤ Λ * |a - b| + κ) (hΛ : 0 ≤ Λ) (ht : ∃ t, |r - t| ≤ h ∧ f x = s * f t) :
    |v - f x| ≤ C + (Λ * h + κ) := by
  obtain ⟨t, ht, hx⟩ := ht
  rw [hx, hv, ← mul_sub, abs_mul]
  have h1 : |c - f t| ≤ C + (Λ * h + κ) := by
    calc _ ≤ _ := abs_sub_le _ (f r) _
      _ ≤ C + (Λ * |r - t| + κ) := add_le_add hc (hmod r t)
      _ ≤ _ := by have := mul_le_mul_of_nonneg_left ht hΛ; linarith
  calc _ ≤ 1 * |c - f t| := mul_le_mul_of_nonneg_right hs (abs_nonneg _)
    _ ≤ _ := by rw [one_mul]; exact h1

/-! ## polynomials with stored coefficients -/

/-- value of a polynomial whose coefficients are literals with a sign -/
def lv (S : RealSem) : List (ℤ × ℚ) → ℝ → ℝ
  | [], _ => 0
  | (s, q) :: L, r => ((s : ℤ) : ℝ) * ((S.rho q : ℚ) : ℝ) + r * lv S L r

theorem lv_eq (S : RealSem) (L : List (ℤ × ℚ)) (r : ℝ) :
    lv S L r = ∑ k ∈ range L.length, (((L.getD k (0, 0)).1 : ℝ) * ((S.rho (L.getD k (0, 0)).2 : ℚ) : ℝ)) * r ^ k := by
  induction L with
  | nil => simp [lv]
  | cons a L ih =>
    obtain ⟨s, q⟩ := a
    rw [lv, ih, List.length_cons, Finset.sum_range_succ', Finset.mul_sum]
    simp only [List.getD_cons_zero, List.getD_cons_succ, pow_zero, mul_one]
    rw [add_comm]
    congr 1
    exact Finset.sum_congr rfl fun k _ => by rw [pow_succ]; ring

/-- sum used in the rational certificates -/
def lsum (f : ℕ → ℚ) (R : ℚ) (N : ℕ) : ℚ := ((List.range N).map fun k => f k * R ^ k).sum

theorem lsum_eq (f : ℕ → ℚ) (R : ℚ) (N : ℕ) : lsum f R N = ∑ k ∈ range N, f k * R ^ k := by
  induction N with
  | zero => simp [lsum]
  | succ N ih =>
    rw [Finset.sum_range_succ, ← ih]
    simp [lsum, List.range_succ]

/-- a stored polynomial is close to a polynomial with coefficients `g` -/
theorem lv_close {u : ℝ} (hS : S.Lit u) (L : List (ℤ × ℚ)) (N : ℕ) (hL : L.length = N) (g : ℕ → ℝ) (gq : ℕ → ℚ) {δ E B : ℚ} {R : ℚ}
    (hg : ∀ k < N, |g k - ((gq k : ℚ) : ℝ)| ≤ δ)
    (hsg : ∀ k < N, |(L.getD k (0, 0)).1| ≤ 1)
    (hE : lsum (fun k => |(L.getD k (0, 0)).1 * (L.getD k (0, 0)).2 - gq k| + δ) R N ≤ E)
    (hB : lsum (fun k => |(L.getD k (0, 0)).2|) R N ≤ B) {r : ℝ} (h0 : 0 ≤ r) (h1 : r ≤ R) :
    |lv S L r - ∑ k ∈ range N, g k * r ^ k| ≤ E + B * u := by
  have hu := hS.u_nonneg
  rw [lv_eq, hL, ← Finset.sum_sub_distrib]
  refine (Finset.abs_sum_le_sum_abs _ _).trans ?_
  have key : ∀ k ∈ range N, |(((L.getD k (0, 0)).1 : ℝ) * ((S.rho (L.getD k (0, 0)).2 : ℚ) : ℝ)) * r ^ k - g k * r ^ k| ≤
      (((|(L.getD k (0, 0)).1 * (L.getD k (0, 0)).2 - gq k| + δ) * R ^ k : ℚ) : ℝ) + ((|(L.getD k (0, 0)).2| * R ^ k : ℚ) : ℝ) * u := by
    intro k hk
    have hk := Finset.mem_range.mp hk
    have h2 := hg k hk
    have h3 := hsg k hk
    generalize L.getD k (0, 0) = a at *
    obtain ⟨s, q⟩ := a
    simp only at *
    have h4 := hS.rel q
    rw [← sub_mul, abs_mul, abs_of_nonneg (pow_nonneg h0 k)]
    push_cast
    have h5 : |(s:ℝ) * ((S.rho q : ℚ) : ℝ) - g k| ≤ |(s:ℝ) * q - gq k| + δ + |(q:ℝ)| * u := by
      have e : (s:ℝ) * ((S.rho q : ℚ) : ℝ) - g k = (s:ℝ) * (((S.rho q : ℚ) : ℝ) - q) + (((s:ℝ) * q - gq k) - (g k - gq k)) := by ring
      have h6 : |(s:ℝ)| ≤ 1 := by
        have : ((|s| : ℤ) : ℝ) ≤ ((1 : ℤ) : ℝ) := Int.cast_le.mpr h3
        push_cast at this; exact this
      have h7 : |(s:ℝ) * (((S.rho q : ℚ) : ℝ) - q)| ≤ u * |(q:ℝ)| := by
        rw [abs_mul]
        calc _ ≤ 1 * (u * |(q:ℝ)|) := mul_le_mul h6 h4 (abs_nonneg _) (by norm_num)
          _ = _ := one_mul _
      rw [e]
      refine (abs_add_le _ _).trans ?_
      have := abs_sub ((s:ℝ) * q - gq k) (g k - gq k)
      nlinarith
    have h8 : r ^ k ≤ (R:ℝ) ^ k := pow_le_pow_left₀ h0 h1 k
    calc _ ≤ (|(s:ℝ) * q - gq k| + δ + |(q:ℝ)| * u) * (R:ℝ) ^ k :=
          mul_le_mul h5 h8 (pow_nonneg h0 k) (le_trans (abs_nonneg _) h5)
      _ = _ := by ring
  refine (Finset.sum_le_sum key).trans ?_
  rw [Finset.sum_add_distrib, ← Finset.sum_mul, ← Rat.cast_sum, ← Rat.cast_sum, ← lsum_eq (fun k => _ + δ), ← lsum_eq (fun k => |_|)]
  have h1' : ((lsum (fun k => |(L.getD k (0, 0)).1 * (L.getD k (0, 0)).2 - gq k| + δ) R N : ℚ) : ℝ) ≤ E := Rat.cast_le.mpr hE
  have h2' : ((lsum (fun k => |(L.getD k (0, 0)).2|) R N : ℚ) : ℝ) ≤ B := Rat.cast_le.mpr hB
  have := mul_le_mul_of_nonneg_right h2' hu
  linarith

/-! ## rational coefficients of the Glaisher polynomials -/

/-- `ζ(2i+2)` -/
def zE : List ℚ := [1.644934066848226436472415166646025189218949901,
  1.082323233711138191516003696541167902774750952,
  1.017343061984449139714517929790920527901817490,
  1.004077356197944339378685238508652465258960791,
  1.000994575127818085337145958900319017006019532,
  1.000246086553308048298637998047739670960416088,
  1.000061248135058704829258545105135333747481696,
  1.000015282259408651871732571487636722023237389,
  1.000003817293264999839856461644621939730454697,
  1.000000953962033872796113152038683449345943794,
  1.000000238450502727732990003648186752994935042,
  1.000000059608189051259479612440207935801227504]

theorem zE_cert : ∀ i : Fin 12, |zE.getD i.1 0 - zQ (2 * i.1)| ≤ 4e-42 := by decide +kernel

theorem zE_approx (i : ℕ) (hi : i < 12) : |reLi (2 * i + 2) 1 - ((zE.getD i 0 : ℚ) : ℝ)| ≤ 6e-42 := by
  have h1 := zQ_approx (2 * i) (by omega)
  have h2 := (Rat.cast_le (K := ℝ)).mpr (zE_cert ⟨i, hi⟩)
  push_cast at h2
  rw [abs_le] at *
  constructor <;> linarith [h1.1, h1.2, h2.1, h2.2]

/-- rational approximations of `glC` -/
def glQ (m p ν k : ℕ) : ℚ :=
  if k % 2 = p ∧ k < ν then (-1) ^ (k / 2) * zE.getD ((ν - 1 - k) / 2) 0 / k.factorial
  else if k = ν then (-1) ^ m * (piQ / 2) / ν.factorial
  else if k = ν + 1 then -((-1) ^ m / 2) / (ν + 1).factorial
  else 0

theorem glQ_approx (m p ν : ℕ) (hp : p < 2) (hν : 2 * m + p = ν + 1) (hm : m ≤ 12) (k : ℕ) : |glC m p ν k - ((glQ m p ν k : ℚ) : ℝ)| ≤ ((1e-41 : ℚ) : ℝ) := by
  have fac : ∀ k : ℕ, (1:ℝ) ≤ k.factorial := fun k => by exact_mod_cast Nat.one_le_iff_ne_zero.mpr (Nat.factorial_ne_zero k)
  rw [glC, glQ]
  split_ifs with h1 h2 h3
  · obtain ⟨i, hi⟩ : ∃ i, ν - 1 - k = 2 * i := ⟨(ν - 1 - k) / 2, by omega⟩
    have e1 : ν + 1 - k = 2 * i + 2 := by omega
    have e2 : (ν - 1 - k) / 2 = i := by omega
    rw [e1, e2]
    have := zE_approx i (by omega)
    push_cast
    have e : (-1:ℝ) ^ (k / 2) * reLi (2 * i + 2) 1 / k.factorial - (-1) ^ (k / 2) * ((zE.getD i 0 : ℚ) : ℝ) / k.factorial
      = (-1) ^ (k / 2) * (reLi (2 * i + 2) 1 - ((zE.getD i 0 : ℚ) : ℝ)) / k.factorial := by ring
    rw [e, abs_div, abs_mul, abs_pow, abs_neg, abs_one, one_pow, one_mul, Nat.abs_cast, div_le_iff₀ (by linarith [fac k])]
    have := fac k
    nlinarith [abs_nonneg (reLi (2 * i + 2) 1 - ((zE.getD i 0 : ℚ) : ℝ))]
  · have := pi_approx
    push_cast
    have e : (-1:ℝ) ^ m * (Real.pi / 2) / ν.factorial - (-1) ^ m * (piQ / 2) / ν.factorial = (-1) ^ m * (Real.pi - piQ) / 2 / ν.factorial := by ring
    rw [e, abs_div, abs_div, abs_mul, abs_pow, abs_neg, abs_one, one_pow, one_mul, Nat.abs_cast, div_le_iff₀ (by linarith [fac ν])]
    have := fac ν
    rw [abs_of_pos (by norm_num : (0:ℝ) < 2)]
    nlinarith [abs_nonneg (Real.pi - piQ)]
  · push_cast; simp; norm_num
  · simp; norm_num

/-- certificate for the polynomial of order `n` -/
def slCert (L : List (ℤ × ℚ)) (m p ν : ℕ) (R E B : ℚ) : Bool :=
  decide (L.length = ν + 2) && decide (∀ k < ν + 2, |(L.getD k (0, 0)).1| ≤ 1) &&
  decide (lsum (fun k => |(L.getD k (0, 0)).1 * (L.getD k (0, 0)).2 - glQ m p ν k| + 1e-41) R (ν + 2) ≤ E) &&
  decide (lsum (fun k => |(L.getD k (0, 0)).2|) R (ν + 2) ≤ B)

theorem sl_poly {u : ℝ} (hS : S.Lit u) {L : List (ℤ × ℚ)} {m p ν : ℕ} {R E B : ℚ} (hc : slCert L m p ν R E B = true)
    (hp : p < 2) (hν : 2 * m + p = ν + 1) (hm : m ≤ 12) (hn : 1 ≤ ν) {r : ℝ} (h0 : 0 ≤ r) (h1 : r ≤ R) (h2 : r < 2 * Real.pi) :
    |lv S L r - glaisher (ν + 1) r| ≤ E + B * u := by
  simp only [slCert, Bool.and_eq_true, decide_eq_true_eq] at hc
  obtain ⟨⟨⟨a, b⟩, c⟩, d⟩ := hc
  rw [glaisher_poly m p ν hp hν hn h0 h2]
  exact lv_close hS L (ν + 2) a _ (glQ m p ν) (fun k _ => glQ_approx m p ν hp hν hm k) b c d h0 h1

/-! ## assembling a result of `Sl` -/

section
variable {u : ℝ} (hS : S.Lit u) (hu : u ≤ 1e-6)
include hS hu

theorem sl_PI : 3 ≤ ofR (FOps.lit 3.14159265358979324 : R S) ∧ ofR (FOps.lit 3.14159265358979324 : R S) + (1.4e-23 + 0.002 * u + 2 * (1.6e-18 + 3.15 * u)) ≤ 3.1417 := by
  have h := abs_le.mp (PId hS)
  have h1 := pi_gt; have h2 := pi_lt
  constructor <;> linarith

/-- even orders -/
theorem sl_even (m : ℕ) (hm : 1 ≤ m) (core : R S → R S) {C Λ κ : ℝ} (hΛ : 0 ≤ Λ)
    (hmod : ∀ a b, |glaisher (2 * m) a - glaisher (2 * m) b| ≤ Λ * |a - b| + κ)
    (hc : ∀ r : R S, 0 ≤ ofR r → ofR r ≤ 3.1417 → |ofR (core r) - glaisher (2 * m) (ofR r)| ≤ C) (x : ℝ)
    (hw : wrap (ofR (FOps.lit 3.14159265358979324 : R S)) x ≤ 6.28125 + ofR (FOps.lit 0.0019353071795864769253 : R S)) :
    |ofR ((FOps.lit 1 : R S) *. core (reduceAbs (FOps.lit 3.14159265358979324 : R S) (FOps.lit 0.0019353071795864769253 : R S) (toR S x))) - glaisher (2 * m) x| ≤
      C + (Λ * (1.4e-23 + 0.002 * u + 2 * (1.6e-18 + 3.15 * u) * ⌊|x| / (2 * ofR (FOps.lit 3.14159265358979324 : R S))⌋₊) + κ) := by
  obtain ⟨hP, hP2⟩ := sl_PI hS hu
  have hr := reduceAbs_R (S := S) hS (PI := (FOps.lit 3.14159265358979324 : R S)) (p1 := (FOps.lit 0.0019353071795864769253 : R S)) (x := toR S x) (by linarith)
  rw [ofR_toR] at hr
  obtain ⟨h0, h1, ht⟩ := reduce_gen 0 (f := glaisher (2 * m)) (glaisher_neg m 0 (by norm_num) (by omega)) (glaisher_sub_two_pi _) hP (PId hS) (P1d hS) hr rfl hw
  refine fin_gen (by simp) ?_ (hc _ h0 (h1.trans hP2)) hmod hΛ ht
  rw [ofR_mul, lit1 hS, pow_zero]

omit hS hu in
theorem glaisher_odd_zero (m : ℕ) (hm : 1 ≤ m) : glaisher (2 * m + 1) 0 = 0 := by
  have h := glaisher_neg m 1 (by norm_num) (by omega) 0
  rw [neg_zero, pow_one] at h
  linarith

/-- odd orders -/
theorem sl_odd (m : ℕ) (hm : 1 ≤ m) (core : R S → R S) {C Λ κ : ℝ} (hΛ : 0 ≤ Λ)
    (hmod : ∀ a b, |glaisher (2 * m + 1) a - glaisher (2 * m + 1) b| ≤ Λ * |a - b| + κ)
    (hc : ∀ r : R S, 0 ≤ ofR r → ofR r ≤ 3.1417 → |ofR (core r) - glaisher (2 * m + 1) (ofR r)| ≤ C) (x : ℝ)
    (hw : wrap (ofR (FOps.lit 3.14159265358979324 : R S)) x ≤ 6.28125 + ofR (FOps.lit 0.0019353071795864769253 : R S)) :
    |ofR (let xs := reduceSgn (FOps.lit 3.14159265358979324 : R S) (FOps.lit 0.0019353071795864769253 : R S) (toR S x)
          if xs.1 ==. (FOps.lit 0 : R S) then xs.1 else xs.2 *. core xs.1) - glaisher (2 * m + 1) x| ≤
      C + (Λ * (1.4e-23 + 0.002 * u + 2 * (1.6e-18 + 3.15 * u) * ⌊|x| / (2 * ofR (FOps.lit 3.14159265358979324 : R S))⌋₊) + κ) := by
  obtain ⟨hP, hP2⟩ := sl_PI hS hu
  have hr := reduceAbs_R (S := S) hS (PI := (FOps.lit 3.14159265358979324 : R S)) (p1 := (FOps.lit 0.0019353071795864769253 : R S)) (x := toR S x) (by linarith)
  have hs := reduceSgn_R_snd (S := S) hS (PI := (FOps.lit 3.14159265358979324 : R S)) (p1 := (FOps.lit 0.0019353071795864769253 : R S)) (x := toR S x) (by linarith)
  rw [← reduceSgn_R_fst] at hr
  rw [ofR_toR] at hr hs
  rw [← pow_one (_ * _)] at hs
  obtain ⟨h0, h1, ht⟩ := reduce_gen 1 (f := glaisher (2 * m + 1)) (glaisher_neg m 1 (by norm_num) (by omega)) (glaisher_sub_two_pi _) hP (PId hS) (P1d hS) hr hs hw
  have hsa : |ofR (reduceSgn (FOps.lit 3.14159265358979324 : R S) (FOps.lit 0.0019353071795864769253 : R S) (toR S x)).2| ≤ 1 := by
    rw [hs]; exact sgn_abs _ _ _
  clear hr hs
  generalize reduceSgn (FOps.lit 3.14159265358979324 : R S) (FOps.lit 0.0019353071795864769253 : R S) (toR S x) = rs at *
  obtain ⟨r, s⟩ := rs
  simp only at *
  by_cases hz : ofR r = 0
  · rw [eq_R, lit0 hS, if_pos (by simpa using hz)]
    refine fin_gen (c := 0) hsa (by rw [hz]; ring) ?_ hmod hΛ ht
    rw [hz, glaisher_odd_zero m hm, sub_self, abs_zero]
    exact le_trans (abs_nonneg _) (hc r h0 (h1.trans hP2))
  · rw [eq_R, lit0 hS, if_neg (by simpa using hz)]
    exact fin_gen hsa (ofR_mul _ _) (hc r h0 (h1.trans hP2)) hmod hΛ ht

end

end Polylog
