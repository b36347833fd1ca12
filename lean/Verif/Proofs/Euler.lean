import Verif.Proofs.RealLi
import Verif.Proofs.PowSer

/-! # Euler transform: `Li_{n+1}(w/(w-1)) = -∑ e^{(n)}_k w^{k+1}`, `0 < w < 1` -/

noncomputable section
namespace Polylog
open Filter Topology Set

/-- `e^{(0)}_k = 1/(k+1)`, `e^{(n+1)}_k = (e^{(n)}_0 + ... + e^{(n)}_k)/(k+1)` -/
def eul : ℕ → ℕ → ℝ
  | 0, k => 1 / (k + 1)
  | n + 1, k => (∑ j ∈ Finset.range (k + 1), eul n j) / (k + 1)

theorem eul_nonneg (n k : ℕ) : 0 ≤ eul n k := by
  induction n generalizing k with
  | zero => rw [eul]; positivity
  | succ n ih => rw [eul]; exact div_nonneg (Finset.sum_nonneg fun j _ => ih j) (by positivity)

theorem eul_le_one (n k : ℕ) : eul n k ≤ 1 := by
  induction n generalizing k with
  | zero => rw [eul, div_le_one (by positivity)]; linarith [Nat.cast_nonneg (α := ℝ) k]
  | succ n ih =>
    rw [eul, div_le_one (by positivity)]
    calc _ ≤ ∑ j ∈ Finset.range (k + 1), (1:ℝ) := Finset.sum_le_sum fun j _ => ih j
      _ = _ := by simp

theorem eul_bound (n : ℕ) : CoefBound (fun k => (eul n k : ℂ)) 1 1 := by
  intro k
  rw [Complex.norm_real, Real.norm_eq_abs, abs_of_nonneg (eul_nonneg n k), one_pow, mul_one]
  exact eul_le_one n k

/-- coefficients of `∑ e_k w^{k+1}` -/
def eulS (n : ℕ) : ℕ → ℂ
  | 0 => 0
  | k + 1 => (eul n k : ℂ)

theorem eulS_bound (n : ℕ) : CoefBound (eulS n) 1 1 := by
  intro k
  cases k with
  | zero => simp [eulS]
  | succ k => have := eul_bound n k; simpa [eulS] using this

theorem psum_eulS (n : ℕ) {w : ℂ} (hw : ‖w‖ < 1) : psum (eulS n) w = w * psum (fun k => (eul n k : ℂ)) w := by
  rw [psum, ((eulS_bound n).hasSum one_pos hw).summable.tsum_eq_zero_add, psum, ← tsum_mul_left]
  simp only [eulS, zero_mul, zero_add]
  congr 1; ext k; ring

theorem psum_one {w : ℂ} (hw : ‖w‖ < 1) : psum (fun _ => 1) w = (1 - w)⁻¹ := by
  rw [psum]; simp only [one_mul]; exact tsum_geometric_of_norm_lt_one hw

theorem psum_eulS_deriv (n : ℕ) {w : ℂ} (hw : ‖w‖ < 1) :
    psum (dcoef (eulS (n + 1))) w = psum (fun k => (eul n k : ℂ)) w / (1 - w) := by
  rw [div_eq_mul_inv, ← psum_one hw, psum_mul (eul_bound n) (B := 1) (fun k => by simp) one_pos hw]
  congr 1; ext k
  rw [dcoef, eulS, eul, Finset.Nat.sum_antidiagonal_eq_sum_range_succ_mk]
  have : ((k : ℂ) + 1) ≠ 0 := by exact_mod_cast Nat.succ_ne_zero k
  push_cast
  field_simp

theorem reLi_euler (n : ℕ) : ∀ w ∈ Ioo (0:ℝ) 1, reLi (n + 1) (w / (w - 1)) = -(psum (eulS n) (w : ℂ)).re := by
  have hnorm : ∀ w ∈ Ioo (0:ℝ) 1, ‖(w : ℂ)‖ < 1 := fun w hw => by
    rw [Complex.norm_real, Real.norm_eq_abs, abs_of_pos hw.1]; exact hw.2
  induction n with
  | zero =>
    intro w hw
    have h1 : 1 - w ≠ 0 := by linarith [hw.2]
    have h2 : w - 1 ≠ 0 := by linarith [hw.2]
    have e : 1 - w / (w - 1) = (1 - w)⁻¹ := by field_simp; ring
    rw [zero_add, reLi_one, e, Real.log_inv, neg_neg]
    have hs := reLi_hasSum_lt 0 (x := w) (by rw [abs_of_pos hw.1]; exact hw.2)
    have e2 : psum (eulS 0) (w : ℂ) = ((reLi 1 w : ℝ) : ℂ) := by
      rw [psum, ((eulS_bound 0).hasSum one_pos (hnorm w hw)).summable.tsum_eq_zero_add, ← (show _ = reLi 1 w from hs.tsum_eq),
        Complex.ofReal_tsum]
      simp only [eulS, zero_mul, zero_add]
      congr 1; ext k
      rw [eul]; push_cast; ring
    rw [e2, Complex.ofReal_re, reLi_one, neg_neg]
  | succ n ih =>
    refine eqOn_of_hasDerivAt (𝕜 := ℝ) isOpen_Ioo isPreconnected_Ioo
      (f' := fun w => -(psum (fun k => (eul n k : ℂ)) (w : ℂ) / (1 - w)).re) ?_ ?_ (l := 𝓝[>] 0)
      (Ioo_mem_nhdsGT one_pos) ?_
    · intro w hw
      have hw1 : w - 1 < 0 := by linarith [hw.2]
      have hx : w / (w - 1) < 0 := div_neg_of_pos_of_neg hw.1 hw1
      have hs : HasDerivAt (fun w : ℝ => w / (w - 1)) (-1 / (w - 1) ^ 2) w := by
        refine ((hasDerivAt_id w).div ((hasDerivAt_id w).sub_const 1) hw1.ne).congr_deriv ?_
        simp
      refine (HasDerivAt.comp w (reLi_hasDerivAt n hx.ne (by linarith)) hs).congr_deriv ?_
      rw [ih w hw, psum_eulS n (hnorm w hw)]
      have e1 : ((w : ℂ) * psum (fun k => (eul n k : ℂ)) (w : ℂ)).re = w * (psum (fun k => (eul n k : ℂ)) (w : ℂ)).re :=
        Complex.re_ofReal_mul _ _
      have e2 : (psum (fun k => (eul n k : ℂ)) (w : ℂ) / (1 - w)).re = (psum (fun k => (eul n k : ℂ)) (w : ℂ)).re / (1 - w) := by
        rw [show (1 - (w:ℂ)) = ((1 - w : ℝ) : ℂ) by push_cast; rfl, Complex.div_ofReal_re]
      rw [e1, e2]
      have := hw.1.ne'
      have h1 := hw1.ne
      have h2 : 1 - w ≠ 0 := by linarith [hw.2]
      field_simp
      ring
    · intro w hw
      have h := ((eulS_bound (n + 1)).hasDerivAt one_pos (hnorm w hw)).real_of_complex
      rw [psum_eulS_deriv n (hnorm w hw)] at h
      exact h.neg
    · have h1 : ContinuousAt (fun w : ℝ => w / (w - 1)) 0 := continuousAt_id.div (by fun_prop) (by norm_num)
      have h2 : ContinuousAt (fun w : ℝ => reLi (n + 2) (w / (w - 1))) 0 :=
        ContinuousAt.comp (g := reLi (n + 2)) (reLi_continuous n).continuousAt h1
      have h3 : ContinuousAt (fun w : ℝ => -(psum (eulS (n + 1)) (w : ℂ)).re) 0 := by
        have h4 : ContinuousAt (psum (eulS (n + 1))) ((0:ℝ) : ℂ) := (eulS_bound (n + 1)).continuousAt one_pos (by simp)
        have h5 : ContinuousAt (fun w : ℝ => psum (eulS (n + 1)) (w : ℂ)) 0 :=
          ContinuousAt.comp (g := psum (eulS (n + 1))) h4 Complex.continuous_ofReal.continuousAt
        exact (Complex.continuous_re.continuousAt.comp h5).neg
      have e0 : reLi (n + 2) (0 / (0 - 1)) - -(psum (eulS (n + 1)) ((0:ℝ) : ℂ)).re = 0 := by
        rw [Complex.ofReal_zero, psum_zero, zero_div, reLi_zero_right]; simp [eulS]
      have : Tendsto (fun w : ℝ => reLi (n + 2) (w / (w - 1)) - -(psum (eulS (n + 1)) (w : ℂ)).re) (𝓝[>] 0)
          (𝓝 (reLi (n + 2) (0 / (0 - 1)) - -(psum (eulS (n + 1)) ((0:ℝ) : ℂ)).re)) :=
        (h2.sub h3).tendsto.mono_left (nhdsWithin_le_nhds (s := Ioi 0))
      rw [e0] at this
      exact this

/-- the Euler series of `Li_{n+1}` on `(-∞, 0)` -/
theorem reLi_euler_hasSum (n : ℕ) {w : ℝ} (h0 : 0 < w) (h1 : w < 1) :
    HasSum (fun k : ℕ => eul n k * w ^ k) (-reLi (n + 1) (w / (w - 1)) / w) := by
  have hw : ‖(w : ℂ)‖ < 1 := by rw [Complex.norm_real, Real.norm_eq_abs, abs_of_pos h0]; exact h1
  have h := Complex.hasSum_re ((eul_bound n).hasSum one_pos hw)
  have e : (psum (fun k => (eul n k : ℂ)) (w : ℂ)).re = -reLi (n + 1) (w / (w - 1)) / w := by
    rw [reLi_euler n w ⟨h0, h1⟩, psum_eulS n hw, Complex.re_ofReal_mul]
    field_simp
  rw [e] at h
  refine HasSum.congr_fun' h fun k => ?_
  rw [← Complex.ofReal_pow, ← Complex.ofReal_mul, Complex.ofReal_re]

/-! ## integer approximations -/

/-- running averages `(l_0 + ... + l_k)/(k+1)`, rounded down; `s` the sum so far, `k` the index -/
def avgL : ℕ → ℕ → List ℕ → List ℕ
  | _, _, [] => []
  | s, k, a :: l => (s + a) / (k + 1) :: avgL (s + a) (k + 1) l

/-- `M e^{(n)}_k`, `k < K`, rounded down at every step -/
def eulL : ℕ → ℕ → ℕ → List ℕ
  | 0, M, K => (List.range K).map (fun k => M / (k + 1))
  | n + 1, M, K => avgL 0 0 (eulL n M K)

theorem avgL_length (s k : ℕ) (l : List ℕ) : (avgL s k l).length = l.length := by
  induction l generalizing s k with
  | nil => rfl
  | cons a l ih => simp [avgL, ih]

theorem eulL_length (n M K : ℕ) : (eulL n M K).length = K := by
  induction n with
  | zero => simp [eulL]
  | succ n ih => rw [eulL, avgL_length, ih]

theorem avgL_getD (s k : ℕ) (l : List ℕ) (i : ℕ) (hi : i < l.length) :
    (avgL s k l).getD i 0 = (s + ∑ j ∈ Finset.range (i + 1), l.getD j 0) / (k + i + 1) := by
  induction l generalizing s k i with
  | nil => simp at hi
  | cons a l ih =>
    cases i with
    | zero => simp [avgL]
    | succ i =>
      rw [avgL, List.getD_cons_succ, ih _ _ _ (by simpa using hi), Finset.sum_range_succ' _ (i + 1)]
      simp only [List.getD_cons_succ, List.getD_cons_zero]
      congr 1 <;> ring

theorem eulL_approx (n M K k : ℕ) (hk : k < K) :
    |((eulL n M K).getD k 0 : ℝ) - M * eul n k| ≤ n + 1 := by
  induction n generalizing k with
  | zero =>
    have e : (eulL 0 M K).getD k 0 = M / (k + 1) := by
      rw [eulL, List.getD_eq_getElem _ _ (by simpa using hk)]; simp
    rw [e, eul]
    have h1 : ((M / (k + 1) : ℕ) : ℝ) ≤ M / ((k + 1 : ℕ) : ℝ) := Nat.cast_div_le
    have h2 : (M : ℝ) < ((M / (k + 1) * (k + 1) + (k + 1) : ℕ) : ℝ) := by
      exact_mod_cast Nat.lt_div_mul_add (Nat.succ_pos k) (a := M)
    have h3 : (M : ℝ) / ((k + 1 : ℕ) : ℝ) < (M / (k + 1) : ℕ) + 1 := by
      rw [div_lt_iff₀ (by positivity)]; push_cast at h2 ⊢; linarith
    rw [mul_one_div, abs_le]
    push_cast at h1 h3 ⊢
    constructor <;> linarith
  | succ n ih =>
    rw [eulL, avgL_getD _ _ _ _ (by rw [eulL_length]; exact hk), eul, zero_add, zero_add]
    set s := ∑ j ∈ Finset.range (k + 1), (eulL n M K).getD j 0 with hs
    have h1 : ((s / (k + 1) : ℕ) : ℝ) ≤ s / ((k + 1 : ℕ) : ℝ) := Nat.cast_div_le
    have h2 : (s : ℝ) < ((s / (k + 1) * (k + 1) + (k + 1) : ℕ) : ℝ) := by
      exact_mod_cast Nat.lt_div_mul_add (Nat.succ_pos k) (a := s)
    have h3 : (s : ℝ) / ((k + 1 : ℕ) : ℝ) < (s / (k + 1) : ℕ) + 1 := by
      rw [div_lt_iff₀ (by positivity)]; push_cast at h2 ⊢; linarith
    have h4 : |(s : ℝ) / ((k + 1 : ℕ) : ℝ) - M * ((∑ j ∈ Finset.range (k + 1), eul n j) / (k + 1))| ≤ n + 1 := by
      have e : (s : ℝ) / ((k + 1 : ℕ) : ℝ) - M * ((∑ j ∈ Finset.range (k + 1), eul n j) / (k + 1))
        = (∑ j ∈ Finset.range (k + 1), (((eulL n M K).getD j 0 : ℝ) - M * eul n j)) / (k + 1) := by
        rw [Finset.sum_sub_distrib, ← Finset.mul_sum, hs]; push_cast; ring
      rw [e, abs_div, abs_of_pos (by positivity : (0:ℝ) < (k:ℝ) + 1), div_le_iff₀ (by positivity)]
      refine (Finset.abs_sum_le_sum_abs _ _).trans ?_
      calc _ ≤ ∑ j ∈ Finset.range (k + 1), ((n:ℝ) + 1) := Finset.sum_le_sum fun j hj => ih j (by rw [Finset.mem_range] at hj; omega)
        _ = _ := by simp; ring
    have h5 := abs_le.mp h4
    rw [abs_le]; push_cast at *
    constructor <;> linarith

end Polylog
