import Verif.Model.Horner
import Verif.Model.Li
import Verif.Sem.Lit
import Mathlib.Algebra.BigOperators.Fin
import Mathlib.Algebra.BigOperators.Intervals

/-! # C06: polynomial evaluation; C07: the logarithm helpers -/

noncomputable section
namespace Polylog
open Finset

variable {S : RealSem}

theorem hornerLoop_eq {N : Nat} (x : R S) (c : Vector ℚ N) (k : ℕ) (hk : k ≤ N) (p : R S) :
    ofR (hornerLoop x c k hk p) =
      (∑ i : Fin k, (S.rho (c[i.1]'(by omega)) : ℝ) * ofR x ^ i.1) + ofR p * ofR x ^ k := by
  induction k generalizing p with
  | zero => simp [hornerLoop]
  | succ k ih =>
    rw [hornerLoop, ih (by omega), Fin.sum_univ_castSucc]
    simp only [rsem, Fin.val_castSucc, Fin.val_last]
    ring

/-- **C06 (real).** `horner(x, c)` returns `∑ c[i] x^i`. -/
theorem C06_horner {n : ℕ} (x : R S) (c : Vector ℚ (n + 1)) :
    ofR (horner x c) = ∑ i : Fin (n + 1), (S.rho c[i.1] : ℝ) * ofR x ^ i.1 := by
  rw [horner, hornerLoop_eq, Fin.sum_univ_castSucc]
  simp only [rsem, Fin.val_castSucc, Fin.val_last]

theorem hornerCLoop_eq {N : Nat} (m : ℕ) (z : Cx (R S)) (c : Vector ℚ N) (k : ℕ) (hk : k ≤ N)
    (hm : m ≤ k) (a b : R S) :
    let ab := hornerCLoop m (z.re +. z.re) (Cx.norm z) c k hk a b
    (ofR ab.1 : ℂ) * z.toC + ofR ab.2 =
      (∑ i ∈ (univ : Finset (Fin k)).filter (fun i => m ≤ i.1), ((S.rho (c[i.1]'(by omega)) : ℝ) : ℂ) * z.toC ^ (i.1 - m))
        + (ofR a * z.toC + ofR b) * z.toC ^ (k - m) := by
  induction k generalizing a b with
  | zero =>
    have : m = 0 := by omega
    subst this
    simp [hornerCLoop]
  | succ k ih =>
    dsimp only
    rw [hornerCLoop]
    rcases Nat.lt_or_ge k m with h | h
    · have hmk : m = k + 1 := by omega
      subst hmk
      rw [if_neg (by omega)]
      have : (univ : Finset (Fin (k+1))).filter (fun i => k + 1 ≤ i.1) = ∅ := by
        ext i; simp; omega
      rw [this, Finset.sum_empty]; simp
    · rw [if_pos h]
      have := ih (by omega) h (b +. (z.re +. z.re) *. a) ((FOps.lit c[k] : R S) -. Cx.norm z *. a)
      dsimp only at this
      rw [this]
      have hs : (∑ i ∈ (univ : Finset (Fin (k+1))).filter (fun i => m ≤ i.1),
          ((S.rho (c[i.1]'(by omega)) : ℝ) : ℂ) * z.toC ^ (i.1 - m)) =
          (∑ i ∈ (univ : Finset (Fin k)).filter (fun i => m ≤ i.1),
          ((S.rho (c[i.1]'(by omega)) : ℝ) : ℂ) * z.toC ^ (i.1 - m)) +
          ((S.rho (c[k]'(by omega)) : ℝ) : ℂ) * z.toC ^ (k - m) := by
        simp only [Finset.sum_filter]
        rw [Fin.sum_univ_castSucc]
        simp [h]
      rw [hs]
      have e : k + 1 - m = (k - m) + 1 := by omega
      rw [e, pow_succ]
      have key : ((ofR (b +. (z.re +. z.re) *. a) : ℝ) : ℂ) * z.toC + (ofR ((FOps.lit c[k] : R S) -. Cx.norm z *. a) : ℝ)
         = (ofR a * z.toC + ofR b) * z.toC + ((S.rho (c[k]'(by omega)) : ℝ) : ℂ) := by
        simp only [rsem]
        apply Complex.ext
        · simp [Complex.normSq_apply]; ring
        · simp; ring
      rw [key]; ring

/-- **C06 (complex).** `horner<Nstart>(z, c)` returns `∑_{i ≥ Nstart} c[i] z^(i - Nstart)` for an array of
size `N = n + 2` and every `Nstart ≤ N - 2`. -/
theorem C06_hornerC {n : ℕ} (m : ℕ) (hm : m ≤ n) (z : Cx (R S)) (c : Vector ℚ (n + 2)) :
    (hornerC m z c).toC =
      ∑ i ∈ (univ : Finset (Fin (n + 2))).filter (fun i => m ≤ i.1),
        ((S.rho c[i.1] : ℝ) : ℂ) * z.toC ^ (i.1 - m) := by
  have h := hornerCLoop_eq m z c n (by omega) hm (FOps.lit c[n+1]) (FOps.lit c[n])
  dsimp only at h
  have e : (hornerC m z c).toC =
      (ofR (hornerCLoop m (z.re +. z.re) (Cx.norm z) c n (by omega) (FOps.lit c[n+1]) (FOps.lit c[n])).1 : ℂ) * z.toC
       + ofR (hornerCLoop m (z.re +. z.re) (Cx.norm z) c n (by omega) (FOps.lit c[n+1]) (FOps.lit c[n])).2 := by
    rw [hornerC]; simp only [rsem]
    apply Complex.ext <;> simp <;> ring
  rw [e, h]
  simp only [Finset.sum_filter]
  rw [Fin.sum_univ_castSucc, Fin.sum_univ_castSucc]
  simp only [Fin.val_castSucc, Fin.val_last, if_pos hm, if_pos (show m ≤ n + 1 by omega)]
  have e1 : n + 1 - m = (n - m) + 1 := by omega
  rw [e1, pow_succ]
  simp only [rsem]; ring

/-- A finding: the `static_assert` also admits `Nstart = N - 1`, but then the result is
`c[N-2] + c[N-1] z` instead of the documented `c[N-1]`. -/
theorem C06_hornerC_last {n : ℕ} (z : Cx (R S)) (c : Vector ℚ (n + 2)) :
    (hornerC (n + 1) z c).toC = ((S.rho c[n] : ℝ) : ℂ) + ((S.rho c[n + 1] : ℝ) : ℂ) * z.toC := by
  have : hornerCLoop (n + 1) (z.re +. z.re) (Cx.norm z) c n (by omega) (FOps.lit c[n+1]) (FOps.lit c[n])
      = (FOps.lit c[n+1], FOps.lit c[n]) := by
    cases n with
    | zero => rfl
    | succ n => rw [hornerCLoop, if_neg (by omega)]
  rw [hornerC, this]; simp only [rsem]
  apply Complex.ext <;> simp <;> ring

/-- non-vacuity: the quadratic `1 + 2 z + 3 z^2`, `Nstart = 1` -/
example : (1 : ℕ) ≤ 1 ∧ (#v[1, 2, 3] : Vector ℚ (1 + 2))[2] = 3 := by decide

/-! ## C07 -/

/-- **C07.** complex `log1p(z) = log(1 + z)` for every `z ≠ -1`. -/
theorem C07_log1p {u : ℝ} (hS : S.Lit u) (z : Cx (R S)) (hz : z.toC ≠ -1) :
    (clog1p z).toC = Complex.log (1 + z.toC) := by
  have hu : ((FOps.lit 1 : R S) +. z : Cx (R S)).toC = 1 + z.toC := by
    simp [rsem, hS.one]
  have hne : ((FOps.lit 1 : R S) +. z : Cx (R S)).toC ≠ 0 := by
    rw [hu]; intro h; exact hz (by linear_combination h)
  unfold clog1p
  dsimp only
  split
  · rename_i h
    simp only [rsem, hS.one, hS.zero, Bool.and_eq_true, decide_eq_true_eq] at h
    have hz0 : z.toC = 0 := by
      apply Complex.ext
      · have := h.1; simp at this; simpa using this
      · have := h.2; simp at this; simpa using this
    simp [hz0]
  · split
    · rw [toC_log hne, hu]
    · rename_i h1 h2
      have hd : (((FOps.lit 1 : R S) +. z : Cx (R S)) -. (FOps.lit 1 : R S)).toC = z.toC := by
        rw [toC_subr, hu]; simp [rsem, hS.one]
      have hz0 : z.toC ≠ 0 := by
        intro h0
        apply h1
        simp only [rsem, hS.one, hS.zero, h0]
        simp
      rw [toC_mul, toC_log hne, toC_div (by rw [hd]; exact hz0), hd, hu, div_self hz0, mul_one]

/-- **C07.** `pos_log(z) = log z` (principal branch, imaginary part in `(-π, π]`) for every `z ≠ 0`. -/
theorem C07_pos_log {u : ℝ} (hS : S.Lit u) (z : Cx (R S)) (hz : z.toC ≠ 0) :
    (posLog z).toC = Complex.log z.toC := by
  unfold posLog
  split
  · rename_i h
    simp only [rsem, hS.zero, Bool.and_eq_true, decide_eq_true_eq, Rat.cast_zero] at h
    have e : z.toC = (z.toC.re : ℂ) := Complex.ext rfl (by simp [h.1])
    rw [toC_mk, ofR_log (by simpa [rsem] using h.2), ofR_re, ofR_lit, hS.zero]
    rw [e]; simp only [Complex.ofReal_re]
    rw [← Complex.ofReal_log h.2.le]
    apply Complex.ext <;> simp
  · split
    · rename_i h1 h
      simp only [rsem, hS.zero, Bool.and_eq_true, decide_eq_true_eq, Rat.cast_zero, not_and, not_lt] at h h1
      have hre : z.toC.re < 0 := lt_of_le_of_ne (h1 h) (fun h0 => hz (Complex.ext h0 h))
      have e : z.toC = (z.toC.re : ℂ) := Complex.ext rfl (by simp [h])
      rw [toC_mk, ofR_log (by simpa [rsem] using hre), ofR_neg, ofR_re]
      apply Complex.ext
      · rw [Complex.log_re, e]; simp [abs_of_neg hre]
      · rw [Complex.log_im, e, Complex.arg_ofReal_of_neg hre]
        simp only [rsem, hS.four, hS.one]
        simp; ring
    · exact toC_log hz

/-- **C07.** `clog(z)` of `Li.cpp` is the principal logarithm off the negative real axis, and
`log|x| + i PI` on it, where `PI` is the literal of the source. -/
theorem C07_clog {u : ℝ} (hS : S.Lit u) (z : Cx (R S)) (hz : z.toC ≠ 0) :
    (clog z).toC = if z.toC.im = 0 ∧ z.toC.re < 0
      then ⟨Real.log |z.toC.re|, ((S.rho 3.1415926535897932 : ℚ) : ℝ)⟩ else Complex.log z.toC := by
  unfold clog
  split
  · rename_i h
    simp only [rsem, hS.zero, Bool.and_eq_true, decide_eq_true_eq, Rat.cast_zero] at h
    rw [if_neg (by rintro ⟨_, h'⟩; linarith [h.2])]
    have e : z.toC = (z.toC.re : ℂ) := Complex.ext rfl (by simp [h.1])
    rw [toC_mk, ofR_log (by simpa [rsem] using h.2), ofR_re, ofR_lit, hS.zero]
    rw [e]; simp only [Complex.ofReal_re]
    rw [← Complex.ofReal_log h.2.le]
    apply Complex.ext <;> simp
  · split
    · rename_i h1 h
      simp only [rsem, hS.zero, Bool.and_eq_true, decide_eq_true_eq, Rat.cast_zero, not_and, not_lt] at h h1
      have hre : z.toC.re < 0 := lt_of_le_of_ne (h1 h) (fun h0 => hz (Complex.ext h0 h))
      rw [if_pos ⟨h, hre⟩, toC_mk, ofR_log (by simpa [rsem] using hre), ofR_neg, ofR_re, abs_of_neg hre]
      rfl
    · rename_i h1 h
      simp only [rsem, hS.zero, decide_eq_true_eq, Rat.cast_zero] at h
      rw [if_neg (by rintro ⟨h', _⟩; exact h h')]
      exact toC_log hz

/-- non-vacuity: a point on the cut and one off it -/
example : RealSem.dec.Lit 0 ∧ (ofC RealSem.dec (-2)).toC ≠ 0 ∧ (ofC RealSem.dec (-2)).toC ≠ -1 :=
  ⟨RealSem.dec_lit, by rw [toC_ofC]; norm_num⟩

end Polylog
