import Verif.Props.FPHang
import Verif.Sem.FPAbsorb

/-!
# C22: the loop of `Li_series` for real arguments stops within 130 iterations in binary64
-/

namespace Polylog
open MC

section
variable {L : Lib}

local notation "φ₀" => binary64

/-- what is required of `pow(a, n)` for a positive order: between 0 and 1, and less than 1/64 near 1/2 -/
def PowUnit (L : Lib) (n : Int) : Prop := ∀ a : ℚ, Repr φ₀ a → 1 / 2 ≤ a → a ≤ 1 →
  ∃ w : ℚ, Val φ₀ (L.pow (.fin false a) (rndQ φ₀ n)) w ∧ 0 ≤ w ∧ w ≤ 1 ∧ (a ≤ 51 / 100 → w ≤ 1 / 64)

theorem unit_val {n : Int} (hL : PowUnit L n) (m : ℕ) (hm : ((m : ℤ) + 1) ≤ 2 ^ 63) :
    ∃ w : ℚ, Val φ₀ (ofF (powi ((FOps.ofInt ((m : Int) + 1) : FP φ₀ L) /. ((FOps.lit 1 : FP φ₀ L) +. (FOps.ofInt ((m : Int) + 1) : FP φ₀ L))) n)) w ∧
      0 ≤ w ∧ w ≤ 1 ∧ (m = 0 → w ≤ 1 / 64) := by
  obtain ⟨a, e, hv, h1, h2, h3⟩ := ratio_val (L := L) ((m : ℤ) + 1) (by omega) hm
  obtain ⟨s, a', e1, -, hr, -⟩ := hv
  obtain ⟨rfl, rfl⟩ := FV.fin.inj e1
  obtain ⟨w, hw, h4, h5, h6⟩ := hL a hr h1 h2
  refine ⟨w, ?_, h4, h5, fun h0 => h6 ?_⟩
  · show Val φ₀ (L.pow (ofF ((FOps.ofInt ((m : Int) + 1) : FP φ₀ L) /. ((FOps.lit 1 : FP φ₀ L) +. (FOps.ofInt ((m : Int) + 1) : FP φ₀ L)))) (rndQ φ₀ n)) w
    rw [e]; exact hw
  · subst h0
    have := (abs_le.1 h3).2
    push_cast at this
    norm_num at this ⊢
    linarith

/-- one iteration for a real argument: the imaginary parts stay zero -/
theorem real_step {n : Int} (hL : PowUnit L n) {z : Cx (FP φ₀ L)} {x : ℚ} (hx : Val φ₀ (ofF z.re) x) (hy : Val φ₀ (ofF z.im) 0) (bx : |x| ≤ 3 / 4)
    (m : ℕ) (hm : ((m : ℤ) + 1) ≤ 2 ^ 63) {A : ℚ} (hA : Val φ₀ (ofF (serTr n z m).2.re) A) (hB : Val φ₀ (ofF (serTr n z m).2.im) 0) (bA : |A| ≤ 1) :
    ∃ X : ℚ, |X| ≤ |x| ∧ (m = 0 → |X| ≤ 3 / 256) ∧ Val φ₀ (ofF (serTr n z (m + 1)).2.re) (rq φ₀ (A * X)) ∧ Val φ₀ (ofF (serTr n z (m + 1)).2.im) 0 := by
  obtain ⟨w, vw, w0, w1, w2⟩ := unit_val hL m hm
  obtain ⟨v1, v2⟩ := step_val (p := (serTr n z m).2) hA hB hx hy vw (bA.trans (by norm_num)) (by norm_num) (bx.trans (by norm_num)) (by norm_num) (by rw [abs_of_nonneg w0]; linarith)
  have hX : |rq φ₀ (x * w)| ≤ |x| := abs_rq_le hx.repr (by rw [abs_mul, abs_of_nonneg w0]; nlinarith [abs_nonneg x])
  refine ⟨rq φ₀ (x * w), hX, fun h0 => ?_, ?_, ?_⟩
  · refine abs_rq_le ⟨3, -8, by decide, by simp only [binary64]; norm_num, by norm_num⟩ ?_
    rw [abs_mul, abs_of_nonneg w0]
    have := mul_le_mul bx (w2 h0) w0 (by norm_num)
    linarith
  · simp only [zero_mul, mul_zero, rq_zero, sub_zero] at v1
    rw [rq_repr (repr_rq _)] at v1
    exact v1
  · simp only [zero_mul, mul_zero, rq_zero, add_zero] at v2
    exact v2

/-- state of the loop for a real argument `x` after `m` iterations, `m ≥ 1` -/
def RealInv (n : Int) (z : Cx (FP φ₀ L)) (x : ℚ) (m : ℕ) : Prop := ∃ A S : ℚ,
  Val φ₀ (ofF (serTr n z m).2.re) A ∧ Val φ₀ (ofF (serTr n z m).2.im) 0 ∧ Val φ₀ (ofF (serTr n z m).1.re) S ∧ Val φ₀ (ofF (serTr n z m).1.im) 0 ∧
  |A| ≤ |x| * (118 / 10000 * (7501 / 10000) ^ (m - 1)) + 21 / 10 * 2 ^ (binary64).emin ∧
  |S - x| ≤ |x| * (1 / 20 * (1 - (7501 / 10000) ^ (m - 1)) + m / 2 ^ 50)

theorem val_zero : Val φ₀ (ofF (FOps.lit 0 : FP φ₀ L)) 0 := by
  have := val_rndQ (φ := φ₀) (q := 0) (by rw [rq_zero, abs_zero]; positivity)
  rw [rq_zero] at this
  exact this

theorem real_one {n : Int} (hL : PowUnit L n) {z : Cx (FP φ₀ L)} {x : ℚ} (hx : Val φ₀ (ofF z.re) x) (hy : Val φ₀ (ofF z.im) 0) (bx : |x| ≤ 3 / 4) :
    RealInv n z x 1 ∧ (|x| ≤ 2 ^ (-540 : ℤ) → Val φ₀ (ofF (serTr n z 1).2.re) 0) := by
  obtain ⟨X, h1, h2, h3, h4⟩ := real_step hL hx hy bx 0 (by norm_num) (A := x) hx hy (bx.trans (by norm_num))
  have hS : Val φ₀ (ofF (serTr n z 1).1.re) x := by
    have := (val_zero (L := L)).add hx (by rw [zero_add, rq_repr hx.repr]; exact hx.lt_max)
    rw [zero_add, rq_repr hx.repr] at this
    exact this
  have hT : Val φ₀ (ofF (serTr n z 1).1.im) 0 := by
    have := (val_zero (L := L)).add hy (by rw [zero_add, rq_repr hy.repr]; exact hy.lt_max)
    rw [zero_add, rq_zero] at this
    exact this
  obtain ⟨e0, e1, e2⟩ := eta_small
  have hx0 := abs_nonneg x
  refine ⟨⟨rq φ₀ (x * X), x, h3, h4, hS, hT, ?_, by rw [sub_self, abs_zero]; norm_num⟩, fun hs => ?_⟩
  · have h5 := rq_err' (φ := φ₀) (x * X)
    rw [b64_u, e2] at h5
    have h6 : |x * X| ≤ |x| * (3 / 256) := by rw [abs_mul]; exact mul_le_mul_of_nonneg_left (h2 rfl) hx0
    have h7 : |rq φ₀ (x * X)| ≤ |x * X| + |rq φ₀ (x * X) - x * X| := by
      have := abs_add_le (x * X) (rq φ₀ (x * X) - x * X); rwa [add_sub_cancel] at this
    norm_num at h5 ⊢
    nlinarith
  · have : rq φ₀ (x * X) = 0 := by
      refine rq_tiny ?_
      have h8 : |x * X| ≤ 2 ^ (-540 : ℤ) * 2 ^ (-540 : ℤ) := by rw [abs_mul]; exact mul_le_mul hs (h1.trans hs) (abs_nonneg _) (by positivity)
      refine lt_of_le_of_lt h8 ?_
      rw [← zpow_add₀ (by norm_num)]
      exact zpow_lt_zpow_right₀ (by norm_num) (by decide)
    rw [this] at h3; exact h3

theorem real_next {n : Int} (hL : PowUnit L n) {z : Cx (FP φ₀ L)} {x : ℚ} (hx : Val φ₀ (ofF z.re) x) (hy : Val φ₀ (ofF z.im) 0) (bx : |x| ≤ 3 / 4)
    (hb : 2 ^ (-540 : ℤ) ≤ |x|) (m : ℕ) (hm1 : 1 ≤ m) (hm : m ≤ 1000) (h : RealInv n z x m) : RealInv n z x (m + 1) := by
  obtain ⟨A, S, vA, vB, vS, vT, bA, bS⟩ := h
  obtain ⟨e0, e1, e2⟩ := eta_small
  obtain ⟨k, rfl⟩ : ∃ k, m = k + 1 := ⟨m - 1, by omega⟩
  rw [Nat.add_sub_cancel] at bA bS
  set q : ℚ := (7501 / 10000) ^ k with hq
  have hq0 : 0 ≤ q := by positivity
  have hq1 : q ≤ 1 := pow_le_one₀ (by norm_num) (by norm_num)
  have hη : 2 ^ (binary64).emin ≤ |x| / 2 ^ 60 := by
    rw [le_div_iff₀ (by norm_num)]
    refine le_trans ?_ hb
    rw [show (2:ℚ) ^ 60 = 2 ^ (60:ℤ) by norm_num, ← zpow_add₀ (by norm_num)]
    exact zpow_le_zpow_right₀ (by norm_num) (by decide)
  have hx0 : 0 < |x| := lt_of_lt_of_le (by positivity) hb
  clear hb
  have bA1 : |A| ≤ |x| * (1 / 50) := by
    have : |x| * (118 / 10000 * q) ≤ |x| * (118 / 10000) := mul_le_mul_of_nonneg_left (by linarith) hx0.le
    have : |x| / 2 ^ 60 ≤ |x| / 1000 := div_le_div_of_nonneg_left hx0.le (by norm_num) (by norm_num)
    linarith
  have hk : (((k + 1 : ℕ)) : ℚ) ≤ 1000 := by exact_mod_cast hm
  have bS1 : |S - x| ≤ |x| * (1 / 15) := by
    refine bS.trans (mul_le_mul_of_nonneg_left ?_ hx0.le)
    have : (((k + 1 : ℕ)) : ℚ) / 2 ^ 50 ≤ 1 / 1000 := by rw [div_le_iff₀ (by norm_num)]; refine hk.trans ?_; norm_num
    linarith
  obtain ⟨X, h1, -, h3, h4⟩ := real_step hL hx hy bx (k + 1) (by push_cast; omega) vA vB (by linarith)
  -- the sum
  have hSx : |S| ≤ |x| * (16 / 15) := by
    have := abs_add_le (S - x) x; rw [sub_add_cancel] at this; linarith
  have hSA : |S + A| ≤ 2 * |x| := by
    have := abs_add_le S A; linarith
  have hlt : |rq φ₀ (S + A)| < 2 ^ (binary64).emax := near_lt (hSA.trans (by linarith))
  have vS' := vS.add vA hlt
  have vT' := vT.add vB (by rw [zero_add, rq_zero, abs_zero]; positivity)
  rw [zero_add, rq_zero] at vT'
  refine ⟨rq φ₀ (A * X), rq φ₀ (S + A), h3, h4, vS', vT', ?_, ?_⟩
  · rw [Nat.add_sub_cancel, pow_succ, ← hq]
    have h5 := rq_err' (φ := φ₀) (A * X)
    rw [b64_u, e2] at h5
    have h6 : |A * X| ≤ |A| * (3 / 4) := by rw [abs_mul]; exact mul_le_mul_of_nonneg_left (h1.trans bx) (abs_nonneg _)
    have h7 : |rq φ₀ (A * X)| ≤ |A * X| + |rq φ₀ (A * X) - A * X| := by
      have := abs_add_le (A * X) (rq φ₀ (A * X) - A * X); rwa [add_sub_cancel] at this
    have h8 : |A * X| * (1 / 2 ^ 53) ≤ |A| * (1 / 10 ^ 5) := by
      have := mul_le_mul h6 (show (1:ℚ) / 2 ^ 53 ≤ 1 / 10 ^ 5 by norm_num) (by norm_num) (by positivity)
      nlinarith [abs_nonneg A]
    have h9 : |rq φ₀ (A * X)| ≤ |A| * (75001 / 100000) + 2 ^ (binary64).emin / 2 := by linarith
    have h10 : 0 ≤ |x| * (118 / 10000 * q) := by positivity
    nlinarith
  · rw [Nat.add_sub_cancel, pow_succ, ← hq]
    have h5 := rq_add_err vS.repr vA.repr
    rw [b64_u] at h5
    have h6 : |rq φ₀ (S + A) - x| ≤ |rq φ₀ (S + A) - (S + A)| + |S - x| + |A| := by
      have e : rq φ₀ (S + A) - x = (rq φ₀ (S + A) - (S + A)) + (S - x) + A := by ring
      rw [e]; exact (abs_add_le _ _).trans (add_le_add_left (abs_add_le _ _) _)
    have h7 : |S + A| * (1 / 2 ^ 53) ≤ |x| * (1 / 2 ^ 52) := by
      have := mul_le_mul_of_nonneg_right hSA (show (0:ℚ) ≤ 1 / 2 ^ 53 by norm_num)
      norm_num at this ⊢; linarith
    have h8 : |x| * q ≥ 0 := by positivity
    push_cast at bS ⊢
    norm_num at bS h7 bA hη ⊢
    linarith

/-- the stop test succeeds when neither part of the sum changes -/
theorem stop_val {n : Int} {z : Cx (FP φ₀ L)} (m : ℕ) {S T A B : ℚ} (vS : Val φ₀ (ofF (serTr n z m).1.re) S) (vT : Val φ₀ (ofF (serTr n z m).1.im) T)
    (vA : Val φ₀ (ofF (serTr n z m).2.re) A) (vB : Val φ₀ (ofF (serTr n z m).2.im) B) (e1 : rq φ₀ (S + A) = S) (e2 : rq φ₀ (T + B) = T) :
    Cx.bne (serTr n z (m + 1)).1 (serTr n z m).1 = false := by
  have v1 := vS.add vA (by rw [e1]; exact vS.lt_max)
  have v2 := vT.add vB (by rw [e2]; exact vT.lt_max)
  rw [e1] at v1
  rw [e2] at v2
  show (!(FV.eq (ofF (serTr n z (m + 1)).1.re) (ofF (serTr n z m).1.re) && FV.eq (ofF (serTr n z (m + 1)).1.im) (ofF (serTr n z m).1.im))) = false
  have f1 : FV.eq (ofF (serTr n z (m + 1)).1.re) (ofF (serTr n z m).1.re) = true := (v1.eq vS).trans (by simp)
  have f2 : FV.eq (ofF (serTr n z (m + 1)).1.im) (ofF (serTr n z m).1.im) = true := (v2.eq vT).trans (by simp)
  rw [f1, f2]; rfl

/-- **C22 (real arguments).** In binary64, with a `pow` that maps `[1/2,1]` into `[0,1]` (and `[1/2,0.51]` below 1/64, as holds for every order `n ≥ 7`): for every real
`x` with `|x| ≤ 3/4` the loop of `Li_series` stops within 130 iterations. -/
theorem C22_series_real {n : Int} (hL : PowUnit L n) {z : Cx (FP φ₀ L)} {x : ℚ} (hx : Val φ₀ (ofF z.re) x) (hy : Val φ₀ (ofF z.im) 0) (bx : |x| ≤ 3 / 4) :
    (liSeriesC n z).cost ≤ 130 := by
  obtain ⟨i1, hs⟩ := real_one hL hx hy bx
  have stop := fun m S T A B => stop_val (n := n) (z := z) m (S := S) (T := T) (A := A) (B := B)
  rcases le_total (|x|) (2 ^ (-540 : ℤ)) with hb | hb
  · obtain ⟨A, S, vA, vB, vS, vT, -⟩ := i1
    refine (cost_of_stop n z 1 (stop 1 S 0 0 0 vS vT (hs hb) vB ?_ ?_)).trans (by norm_num)
    · rw [add_zero, rq_repr vS.repr]
    · rw [add_zero, rq_zero]
  · have inv : ∀ d : ℕ, d ≤ 127 → RealInv n z x (d + 1) := by
      intro d
      induction d with
      | zero => exact fun _ => i1
      | succ d ih => intro hd; exact real_next hL hx hy bx hb (d + 1) (by omega) (by omega) (ih (by omega))
    obtain ⟨A, S, vA, vB, vS, vT, bA, bS⟩ := inv 127 le_rfl
    refine (cost_of_stop n z 128 (stop 128 S 0 A 0 vS vT vA vB (rq_absorb vS.repr ?_) (by rw [add_zero, rq_zero]))).trans (by norm_num)
    have hη : 2 ^ (binary64).emin ≤ |x| / 2 ^ 60 := by
      rw [le_div_iff₀ (by norm_num)]
      refine le_trans ?_ hb
      rw [show (2:ℚ) ^ 60 = 2 ^ (60:ℤ) by norm_num, ← zpow_add₀ (by norm_num)]
      exact zpow_le_zpow_right₀ (by norm_num) (by decide)
    have e4 : (2:ℚ) ^ (-((binary64).p : ℤ) - 2) = 1 / 2 ^ 55 := by show (2:ℚ) ^ (-(53:ℤ) - 2) = _; norm_num
    rw [e4]
    have hx0 := abs_nonneg x
    clear hb
    have hS : |x| * (9 / 10) ≤ |S| := by
      have h1 : |S - x| ≤ |x| * (1 / 10) := by
        refine bS.trans (mul_le_mul_of_nonneg_left ?_ hx0)
        have : (0:ℚ) ≤ (7501 / 10000) ^ (127 + 1 - 1) := by positivity
        norm_num at this ⊢
      have := abs_add_le (x - S) S
      rw [sub_add_cancel, abs_sub_comm] at this
      linarith
    have hA : |A| ≤ |x| * (3 / 2 ^ 57) := by
      refine bA.trans ?_
      have h1 : (118 / 10000 * (7501 / 10000) ^ (127 + 1 - 1) : ℚ) ≤ 1 / 2 ^ 58 := by norm_num
      have h2 := mul_le_mul_of_nonneg_left h1 hx0
      norm_num at h2 hη ⊢
      linarith
    norm_num at hA ⊢
    linarith

/-- the hypothesis on `pow` is met, e.g., by `x ↦ x^7` rounded towards the nearest -/
example : PowUnit { zeroLib with pow := fun x _ => match x with | .fin _ a => rndQ binary64 (a ^ 7) | _ => .nan } 7 := by
  intro a _ h1 h2
  have h0 : 0 ≤ a ^ 7 := by positivity
  have h3 : a ^ 7 ≤ 1 := pow_le_one₀ (by linarith) h2
  have r1 : Repr φ₀ 1 := by simpa using b64_int (k := 1) (by norm_num) (by norm_num)
  have r2 : Repr φ₀ (1 / 64) := ⟨1, -6, by decide, by simp only [binary64]; norm_num, by norm_num⟩
  refine ⟨rq φ₀ (a ^ 7), val_rndQ (near_lt (by rw [abs_of_nonneg h0]; linarith)), rq_nonneg h0, ?_, fun h => ?_⟩
  · exact (le_abs_self _).trans (abs_rq_le r1 (by rw [abs_of_nonneg h0]; exact h3))
  · refine (le_abs_self _).trans (abs_rq_le r2 ?_)
    rw [abs_of_nonneg h0]
    exact (pow_le_pow_left₀ (by linarith) h 7).trans (by norm_num)

end
end Polylog
