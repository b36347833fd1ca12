import Verif.Props.ClMidAcc
import Verif.Props.SlSeries
import Verif.Props.SlGen
import Verif.Props.C13
import Verif.Props.C16
import Verif.Props.Cl1Real

/-! # C15: `Cl(n, x)`, every order

`clausen n x` is the textbook function of Spec/Polylog.lean. -/

noncomputable section
namespace Polylog
open Finset
variable {S : RealSem}

/-- the literal `PI` of `Cl.cpp` -/
local notation "PIs" => (FOps.lit 3.14159265358979324 : R S)
local notation "P1s" => (FOps.lit 0.0019353071795864769253 : R S)

/-- the part of `Cl` after the range reduction and the special points: `n ≤ 9` or the series -/
def clTail {F : Type} [FOps F] (n : ℤ) (x sgn : F) : M F :=
  if n ≤ 9 then clMid n x sgn else clSeries n x >>= fun s => pure (sgn *. s)

theorem isEven_mod2 (n : ℕ) : isEven (n:ℤ) = decide (n % 2 = 0) := by
  rw [isEven, Int.tmod_eq_emod_of_nonneg (by omega)]
  by_cases h : n % 2 = 0
  · rw [decide_eq_true h]; simpa using by omega
  · rw [decide_eq_false h]; simp; omega

theorem Cl_odd_eq {F : Type} [FOps F] (n : ℕ) (hn : 7 ≤ n) (h : n % 2 = 1) (x : F) :
    Cl (n:ℤ) x = clTail (n:ℤ) (reduceAbs (FOps.lit 3.14159265358979324 : F) (FOps.lit 0.0019353071795864769253 : F) x) (FOps.lit 1 : F) := by
  rw [Cl]
  iterate 7 rw [if_neg (by omega)]
  simp only [clReduce, isEven_mod2, h, one_ne_zero, decide_false, Bool.false_eq_true, if_false, Bool.false_and]
  rfl

theorem Cl_even_eq {F : Type} [FOps F] (n : ℕ) (hn : 7 ≤ n) (h : n % 2 = 0) (x : F) :
    Cl (n:ℤ) x = (let xs := reduceSgn (FOps.lit 3.14159265358979324 : F) (FOps.lit 0.0019353071795864769253 : F) x
      if xs.1 ==. (FOps.lit 0 : F) then pure xs.1 else if xs.1 ==. (FOps.lit 3.14159265358979324 : F) then pure (FOps.lit 0 : F) else clTail (n:ℤ) xs.1 xs.2) := by
  rw [Cl]
  iterate 7 rw [if_neg (by omega)]
  simp only [clReduce, isEven_mod2, h, decide_true, if_true, Bool.true_and]
  rfl

section
variable {u : ℝ} (hS : S.Lit u) (hu : u ≤ 1e-6)
include hS

/-- n ≥ 10: the truncated series -/
theorem clSeries_acc (he : S.eps = 1 / 2 ^ 52) (m p : ℕ) (hp : p < 2) (hn : 10 ≤ 2 * m + 1 + p) (x : R S) :
    ∃ c : R S, (∀ s, clTail ((2 * m + 1 + p : ℕ):ℤ) x s = .ok (s *. c)) ∧ |ofR c - clausen (2 * m + 1 + p) (ofR x)| ≤ 9.2e-16 := by
  obtain ⟨K, h1, h2, h3, h4⟩ := seriesKmax_R hS he (2 * m + 1 + p) (by omega)
  have h37 : K ≤ 37 := by
    refine h4 37 ?_
    calc 2 ^ 52 ≤ 37 ^ 10 := by norm_num
      _ ≤ 37 ^ (2 * m + 1 + p) := Nat.pow_le_pow_right (by norm_num) hn
  obtain ⟨ν, hν⟩ : ∃ ν, 2 * m + 1 + p = ν + 2 := ⟨2 * m + p - 1, by omega⟩
  have hrem : 1 / (((ν:ℝ) + 1) * (K:ℝ) ^ (ν + 1)) ≤ 9.2e-16 := by
    rw [hν] at h3
    refine (rem_le ν K 37 h37 h2 h3).trans ?_
    have h8 : (8:ℝ) ≤ ν := by exact_mod_cast (by omega : 8 ≤ ν)
    have : ((37:ℕ):ℝ) / ((ν:ℝ) + 1) / 2 ^ 52 ≤ 37 / 9 / 2 ^ 52 := by
      refine div_le_div_of_nonneg_right ?_ (by norm_num)
      push_cast
      exact div_le_div_of_nonneg_left (by norm_num) (by norm_num) (by linarith)
    refine this.trans ?_
    norm_num
  have hc := clausen_part m p hp (ofR x)
  have ht : ∀ s, clTail ((2 * m + 1 + p : ℕ):ℤ) x s = clSeries ((2 * m + 1 + p : ℕ):ℤ) x >>= fun t => pure (s *. t) := fun s => by
    rw [clTail, if_neg (by omega)]
  rcases (by omega : p = 0 ∨ p = 1) with rfl | rfl
  · refine ⟨slCosLoop ((2 * m + 1 + 0 : ℕ):ℤ) (FOps.cos x) ((K:ℤ) - 1).toNat 2 (FOps.lit 1 : R S) (FOps.cos x) (FOps.cos x), fun s => ?_, ?_⟩
    · rw [ht, clSeries, h1, bind_ok]
      simp only [isEven_mod2]
      rw [if_neg (by simp)]
      rfl
    · rw [cosSeries_R hS.two hS.one _ K h2, hc, hν, abs_sub_comm]
      exact (part_series 0 ν K (by omega) _).trans hrem
  · refine ⟨slSinLoop ((2 * m + 1 + 1 : ℕ):ℤ) (FOps.cos x) ((K:ℤ) - 1).toNat 2 (FOps.lit 0 : R S) (FOps.sin x) (FOps.sin x), fun s => ?_, ?_⟩
    · rw [ht, clSeries, h1, bind_ok]
      simp only [isEven_mod2]
      rw [if_pos (by simp; omega)]
      rfl
    · rw [sinSeries_R hS.two hS.zero _ K h2, hc, hν, abs_sub_comm]
      exact (part_series 1 ν K (by omega) _).trans hrem

include hu

/-- the reduced argument, n ≥ 7 -/
theorem clTail_acc (he : S.eps = 1 / 2 ^ 52) (m p : ℕ) (hp : p < 2) (hn : 7 ≤ 2 * m + 1 + p) (x : R S) (h0 : 0 ≤ ofR x) (h0' : p = 1 → 0 < ofR x) (h1 : ofR x ≤ 3.1417) :
    ∃ c : R S, (∀ s, clTail ((2 * m + 1 + p : ℕ):ℤ) x s = .ok (s *. c)) ∧ |ofR c - clausen (2 * m + 1 + p) (ofR x)| ≤ 9.2e-16 + 54 * u := by
  have hu0 := hS.u_nonneg
  rcases lt_or_ge (2 * m + 1 + p) 10 with h | h
  · rcases (by omega : (m = 3 ∧ p = 0) ∨ (m = 3 ∧ p = 1) ∨ (m = 4 ∧ p = 0)) with ⟨rfl, rfl⟩ | ⟨rfl, rfl⟩ | ⟨rfl, rfl⟩
    · obtain ⟨c, a, b⟩ := clMid7_acc hS hu h0 h1
      exact ⟨c, a, b.trans (by linarith)⟩
    · obtain ⟨c, a, b⟩ := clMid8_acc hS hu (h0' rfl) h1
      exact ⟨c, a, b.trans (by linarith)⟩
    · obtain ⟨c, a, b⟩ := clMid9_acc hS hu h0 h1
      exact ⟨c, a, b.trans (by linarith)⟩
  · obtain ⟨c, a, b⟩ := clSeries_acc hS he m p hp h x
    exact ⟨c, a, b.trans (by linarith)⟩

/-- n ≥ 7; `⌊|x| / (2 PI)⌋₊` is the number of periods removed by the code -/
theorem Cl_acc (he : S.eps = 1 / 2 ^ 52) (n : ℕ) (hn : 7 ≤ n) (x : ℝ) (hw : wrap (ofR PIs) x ≤ 6.28125 + ofR P1s) :
    ∃ v, Cl (n:ℤ) (toR S x) = .ok v ∧ |ofR v - clausen n x| ≤
      9.2e-16 + 54 * u + 2 * (1.4e-23 + 0.002 * u + 2 * (1.6e-18 + 3.15 * u) * ⌊|x| / (2 * ofR PIs)⌋₊) := by
  have hu0 := hS.u_nonneg
  obtain ⟨hP, hP2⟩ := sl_PI hS hu
  have hr := reduceAbs_R (S := S) hS (PI := PIs) (p1 := P1s) (x := toR S x) (by linarith)
  rcases Nat.even_or_odd' n with ⟨m, rfl | rfl⟩
  · obtain ⟨m, rfl⟩ : ∃ k, m = k + 1 := ⟨m - 1, by omega⟩
    rw [show 2 * (m + 1) = 2 * m + 1 + 1 by ring] at *
    have hs := reduceSgn_R_snd (S := S) hS (PI := PIs) (p1 := P1s) (x := toR S x) (by linarith)
    rw [← reduceSgn_R_fst] at hr
    rw [ofR_toR] at hr hs
    rw [← pow_one (_ * _)] at hs
    obtain ⟨h0, h1, t, ht1, ht2⟩ := reduce_spec m 1 (by norm_num) (by omega) hP (PId hS) (P1d hS) hr hs hw
    have hsa : |ofR (reduceSgn PIs P1s (toR S x)).2| ≤ 1 := by rw [hs]; exact sgn_abs _ _ _
    rw [Cl_even_eq _ hn (by omega)]
    clear hr hs
    generalize reduceSgn PIs P1s (toR S x) = rs at *
    obtain ⟨r, s⟩ := rs
    simp only at *
    have hl : |clausen (2 * m + 1 + 1) (ofR r) - clausen (2 * m + 1 + 1) t| ≤ 2 * (1.4e-23 + 0.002 * u + 2 * (1.6e-18 + 3.15 * u) * ⌊|x| / (2 * ofR PIs)⌋₊) :=
      (clausen_lip m 1 (by norm_num) (by omega) _ _).trans (by linarith)
    -- a value `c` near `clausen r`, multiplied by the sign
    have fin : ∀ (v : R S) (c : ℝ), ofR v = ofR s * c → |c - clausen (2 * m + 1 + 1) (ofR r)| ≤ 9.2e-16 + 54 * u →
        |ofR v - clausen (2 * m + 1 + 1) x| ≤ 9.2e-16 + 54 * u + 2 * (1.4e-23 + 0.002 * u + 2 * (1.6e-18 + 3.15 * u) * ⌊|x| / (2 * ofR PIs)⌋₊) := fun v c hv hc => by
      have e : ofR v - clausen (2 * m + 1 + 1) x = ofR s * ((c - clausen (2 * m + 1 + 1) (ofR r)) + (clausen (2 * m + 1 + 1) (ofR r) - clausen (2 * m + 1 + 1) t)) := by
        rw [hv, ht2]; ring
      rw [e, abs_mul]
      refine (mul_le_of_le_one_left (abs_nonneg _) hsa).trans ((abs_add_le _ _).trans (add_le_add hc hl))
    by_cases hz : ofR r = 0
    · rw [eq_R, lit0 hS, if_pos (by simpa using hz)]
      refine ⟨r, rfl, fin r 0 (by rw [hz, mul_zero]) ?_⟩
      rw [hz, clausen_even_zero, sub_zero, abs_zero]; positivity
    rw [eq_R, lit0 hS, if_neg (by simpa using hz)]
    by_cases hpi : ofR r = ofR PIs
    · rw [eq_R, if_pos (by simpa using hpi)]
      refine ⟨_, rfl, fin _ 0 (by rw [lit0 hS, mul_zero]) ?_⟩
      have h := clausen_lip m 1 (by norm_num) (by omega) (ofR r) Real.pi
      have h2 := clausen_two_pi_sub m 1 (by norm_num) (by omega) Real.pi
      rw [show 2 * Real.pi - Real.pi = Real.pi by ring, pow_one] at h2
      have h3 : clausen (2 * m + 1 + 1) Real.pi = 0 := by linarith
      rw [h3, sub_zero, hpi] at h
      rw [zero_sub, abs_neg, hpi]
      refine h.trans ?_
      have := PId hS
      linarith
    rw [eq_R, if_neg (by simpa using hpi)]
    obtain ⟨c, hc1, hc2⟩ := clTail_acc hS hu he m 1 (by norm_num) hn r h0 (fun _ => lt_of_le_of_ne h0 (Ne.symm hz)) (h1.trans hP2)
    exact ⟨_, hc1 s, fin _ (ofR c) (ofR_mul _ _) hc2⟩
  · rw [ofR_toR] at hr
    obtain ⟨h0, h1, t, ht1, ht2⟩ := reduce_spec m 0 (by norm_num) (by omega) hP (PId hS) (P1d hS) hr rfl hw
    rw [Cl_odd_eq _ hn (by omega)]
    obtain ⟨c, hc1, hc2⟩ := clTail_acc hS hu he m 0 (by norm_num) hn _ h0 (fun h => absurd h (by norm_num)) (h1.trans hP2)
    refine ⟨_, hc1 _, ?_⟩
    rw [pow_zero, one_mul] at ht2
    simp only [add_zero] at hc2 ht2
    rw [ofR_mul, lit1 hS, one_mul, ht2]
    have hl := (clausen_lip m 0 (by norm_num) (by omega) (ofR (reduceAbs PIs P1s (toR S x))) t)
    simp only [add_zero] at hl
    have := abs_sub_le (ofR c) (clausen (2 * m + 1) (ofR (reduceAbs PIs P1s (toR S x)))) (clausen (2 * m + 1) t)
    linarith

/-- **C15, order n ≥ 7**: any literals within relative `u` of the source text; every argument -/
theorem C15_Cl (he : S.eps = 1 / 2 ^ 52) (n : ℕ) (hn : 7 ≤ n) (x : ℝ) (hw : wrap (ofR PIs) x ≤ 6.28125 + ofR P1s) :
    ∃ v, Cl (n:ℤ) (toR S x) = .ok v ∧ |ofR v - clausen n x| ≤ 9.3e-16 + 54.1 * u + (1.1e-18 + 2.1 * u) * |x| := by
  obtain ⟨v, hv, h⟩ := Cl_acc hS hu he n hn x hw
  refine ⟨v, hv, h.trans ?_⟩
  have hu0 := hS.u_nonneg
  have h := periods (x := x) (P := ofR PIs) (d := 1.6e-18 + 3.15 * u) (sl_PI hS hu).1 (by linarith)
  have hx := abs_nonneg x
  have hux := mul_nonneg hu0 hx
  generalize 2 * (1.6e-18 + 3.15 * u) * (⌊|x| / (2 * ofR PIs)⌋₊ : ℝ) = K at *
  nlinarith

end

/-- **C15**: `n < 1` gives NaN, in every arithmetic -/
theorem C15_nan {F : Type} [FOps F] (n : ℤ) (h : n < 1) (x : F) : Cl n x = .ok FOps.nan := by
  rw [Cl, if_pos h]; rfl

/-- **C15**: `n = 1 … 6` are the dedicated routines (C13 states their accuracy), in every arithmetic -/
theorem C15_dedicated {F : Type} [FOps F] (x : F) :
    Cl 1 x = .ok (Cl1d x) ∧ Cl 2 x = .ok (Cl2d x) ∧ Cl 3 x = .ok (Cl3d x) ∧ Cl 4 x = .ok (Cl4d x) ∧ Cl 5 x = .ok (Cl5d x) ∧ Cl 6 x = .ok (Cl6d x) :=
  ⟨rfl, rfl, rfl, rfl, rfl, rfl⟩

/-- **C15, every order n ≥ 2, the literals of the source text, `|x| ≤ 2π`** -/
theorem C15_dec (h : S.rho = id) (he : S.eps = 1 / 2 ^ 52) (n : ℕ) (hn : 2 ≤ n) {x : ℝ} (hx : |x| ≤ 2 * Real.pi) :
    ∃ v, Cl (n:ℤ) (toR S x) = .ok v ∧ |ofR v - clausen n x| ≤ 9.3e-16 := by
  rcases lt_or_ge n 7 with h7 | h7
  · interval_cases n
    · exact ⟨_, rfl, (C13_Cl2_dec h hx).trans (by norm_num)⟩
    · exact ⟨_, rfl, (C13_Cl3_dec h hx).trans (by norm_num)⟩
    · exact ⟨_, rfl, (C13_Cl4_dec h hx).trans (by norm_num)⟩
    · exact ⟨_, rfl, (C13_Cl5_dec h hx).trans (by norm_num)⟩
    · exact ⟨_, rfl, (C13_Cl6_dec h hx).trans (by norm_num)⟩
  · obtain ⟨h1, h2⟩ := dec_wrapd h hx
    obtain ⟨v, hv, hh⟩ := Cl_acc (lit_id S h) (by norm_num) he n h7 x h1
    refine ⟨v, hv, hh.trans ?_⟩
    rw [h2]; norm_num

/-- **C15, order 1, the literals of the source text**: exact on `0 < |x| ≤ PI` (in particular on `(0, π]`) -/
theorem C15_Cl1_dec (h : S.rho = id) {x : ℝ} (h0 : x ≠ 0) (hx : |x| ≤ Real.pi) :
    ∃ v, Cl 1 (toR S x) = .ok v ∧ ofR v = clausen 1 x := by
  refine ⟨_, rfl, C13_Cl1_exact (lit_id S h) (by norm_num) x h0 ?_⟩
  have e1 : ofR PIs = ((3.14159265358979324 : ℚ) : ℝ) := by show ((S.rho _ : ℚ) : ℝ) = _; rw [h]; rfl
  have := Real.pi_lt_d20
  rw [e1]; push_cast; norm_num at this ⊢; linarith

/-- **C15, every order n ≥ 2, the literals stored in binary64, every real argument** -/
theorem C15_binary64 (h : S.rho = rhoBits 53) (he : S.eps = 1 / 2 ^ 52) (n : ℕ) (hn : 2 ≤ n) (x : ℝ) :
    ∃ v, Cl (n:ℤ) (toR S x) = .ok v ∧ |ofR v - clausen n x| ≤ 7e-15 + 6.8e-15 * |x| := by
  have hx := abs_nonneg x
  rcases lt_or_ge n 7 with h7 | h7
  · interval_cases n
    · exact ⟨_, rfl, (C13_Cl2_binary64 h x).trans (by linarith)⟩
    · exact ⟨_, rfl, (C13_Cl3_binary64 h x).trans (by linarith)⟩
    · exact ⟨_, rfl, (C13_Cl4_binary64 h x).trans (by linarith)⟩
    · exact ⟨_, rfl, (C13_Cl5_binary64 h x).trans (by linarith)⟩
    · exact ⟨_, rfl, (C13_Cl6_binary64 h x).trans (by linarith)⟩
  · obtain ⟨v, hv, hh⟩ := C15_Cl (RealSem.lit_of_bits (by norm_num) h) (by norm_num) he n h7 x (wrap_le_b64d x h)
    refine ⟨v, hv, hh.trans ?_⟩
    generalize |x| = y at hx ⊢
    norm_num; linarith

/-- a concrete case: `Cl(7, 3)`, `Cl(8, -5)`, `Cl(40, 6)` -/
example : (∃ v, Cl 7 (toR RealSem.decEps 3) = .ok v ∧ |ofR v - clausen 7 3| ≤ 9.3e-16) ∧
    (∃ v, Cl 8 (toR RealSem.decEps (-5)) = .ok v ∧ |ofR v - clausen 8 (-5)| ≤ 9.3e-16) ∧
    (∃ v, Cl 40 (toR RealSem.decEps 6) = .ok v ∧ |ofR v - clausen 40 6| ≤ 9.3e-16) :=
  ⟨C15_dec rfl rfl 7 (by norm_num) (by rw [abs_of_pos (by norm_num)]; linarith [pi_gt]),
   C15_dec rfl rfl 8 (by norm_num) (by rw [abs_of_neg (by norm_num)]; linarith [pi_gt]),
   C15_dec rfl rfl 40 (by norm_num) (by rw [abs_of_pos (by norm_num)]; linarith [pi_gt])⟩

end Polylog
