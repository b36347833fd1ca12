import Verif.Proofs.PowSer
import Verif.Proofs.PolylogCut
import Verif.Proofs.RealLi

/-! # Expansion of `Li_n` in `u = -log(1-z)` (T6)

`Li_{n+1}(1 - e^{-u}) = u ∑ d^{(n)}_k u^k` for `|u| < 2π`, `|Im u| < π`, with rational coefficients given by
`d^{(0)} = (1, 0, 0, ...)`, `(k+1) d^{(n+1)}_k = ∑_{j ≤ k} d^{(n)}_j B_{k-j}/(k-j)!`. -/

noncomputable section
namespace Polylog
open Complex Filter Topology Set Metric

/-- `d^{(n)}_k` -/
def bserQ : ℕ → ℕ → ℚ
  | 0, k => if k = 0 then 1 else 0
  | n + 1, k => (∑ ij ∈ Finset.antidiagonal k, bserQ n ij.1 * (bernoulli ij.2 / ij.2.factorial)) / (k + 1)

def bserC (n k : ℕ) : ℂ := (bserQ n k : ℂ)

theorem bserC_succ (n k : ℕ) : bserC (n + 1) k = (∑ ij ∈ Finset.antidiagonal k, bserC n ij.1 * bernC ij.2) / (k + 1) := by
  rw [bserC, bserQ]; push_cast [bserC, bernC]; rfl

theorem bserC_bound (n : ℕ) : CoefBound (bserC n) (2 * Real.pi) (4 ^ n) := by
  induction n with
  | zero =>
    intro k
    rw [bserC, bserQ]
    split
    · rename_i h; subst h; simp
    · simp
  | succ n ih =>
    intro k
    rw [bserC_succ, norm_div]
    have e : ‖((k:ℂ) + 1)‖ = (k:ℝ) + 1 := by
      rw [show ((k:ℂ) + 1) = ((k + 1 : ℕ) : ℂ) by push_cast; rfl, Complex.norm_natCast]; push_cast; rfl
    rw [e, div_mul_eq_mul_div, div_le_iff₀ (by positivity)]
    have h1 : ‖∑ ij ∈ Finset.antidiagonal k, bserC n ij.1 * bernC ij.2‖ * (2 * Real.pi) ^ k
        ≤ ∑ ij ∈ Finset.antidiagonal k, (4:ℝ) ^ n * 4 := by
      refine (mul_le_mul_of_nonneg_right (norm_sum_le _ _) (by positivity)).trans ?_
      rw [Finset.sum_mul]
      refine Finset.sum_le_sum fun ij hij => ?_
      have hk : ij.1 + ij.2 = k := Finset.mem_antidiagonal.mp hij
      rw [norm_mul, ← hk, pow_add, mul_mul_mul_comm]
      exact mul_le_mul (ih _) (bernC_bound _) (by positivity) (by positivity)
    refine h1.trans (le_of_eq ?_)
    rw [Finset.sum_const, Finset.Nat.card_antidiagonal, nsmul_eq_mul, pow_succ]; push_cast; ring

/-- the domain -/
def strip : Set ℂ := ball 0 (2 * Real.pi) ∩ {u | |u.im| < Real.pi}

theorem isOpen_strip : IsOpen strip :=
  isOpen_ball.inter (isOpen_lt (by fun_prop) continuous_const)

theorem convex_strip : Convex ℝ strip := by
  refine (convex_ball _ _).inter ?_
  have : {u : ℂ | |u.im| < Real.pi} = Complex.imCLM ⁻¹' (ball (0:ℝ) Real.pi) := by
    ext u; simp [mem_ball]
  rw [this]
  exact (convex_ball (0:ℝ) Real.pi).linear_preimage (Complex.imCLM : ℂ →ₗ[ℝ] ℝ)

theorem zero_mem_strip : (0:ℂ) ∈ strip := ⟨by simp [Real.pi_pos], by simp [Real.pi_pos]⟩

theorem strip_norm {u : ℂ} (hu : u ∈ strip) : ‖u‖ < 2 * Real.pi := by simpa using hu.1

theorem strip_im {u : ℂ} (hu : u ∈ strip) : |u.im| < Real.pi := hu.2

theorem strip_exp_slit {u : ℂ} (hu : u ∈ strip) : Complex.exp (-u) ∈ slitPlane := by
  have h := abs_lt.mp (strip_im hu)
  rw [mem_slitPlane_iff_arg]
  refine ⟨?_, Complex.exp_ne_zero _⟩
  rw [← Complex.log_im, Complex.log_exp (by simp; linarith) (by simp; linarith)]
  simp; linarith

theorem strip_cut {u : ℂ} (hu : u ∈ strip) : 1 - Complex.exp (-u) ∈ cutPlane := by
  show 1 - (1 - Complex.exp (-u)) ∈ slitPlane
  rw [sub_sub_cancel]; exact strip_exp_slit hu

theorem strip_exp_ne_one {u : ℂ} (hu : u ∈ strip) (h0 : u ≠ 0) : Complex.exp u ≠ 1 := by
  intro h
  have h2 := abs_lt.mp (strip_im hu)
  have := Complex.log_exp (x := u) (by linarith) (by linarith)
  rw [h, Complex.log_one] at this
  exact h0 this.symm

/-- `u ↦ u ∑ a_k u^k` -/
theorem xpsum_hasDerivAt {a b : ℕ → ℂ} {ρ C D : ℝ} (ha : CoefBound a ρ C) (hb : CoefBound b ρ D) (hρ : 0 < ρ)
    (hab : ∀ k : ℕ, ((k:ℂ) + 1) * a k = b k) {z : ℂ} (hz : ‖z‖ < ρ) :
    HasDerivAt (fun u => u * psum a u) (psum b z) z := by
  have h := (hasDerivAt_id z).mul (ha.hasDerivAt hρ hz)
  refine h.congr_deriv ?_
  have s1 := ha.hasSum hρ hz
  have s2 : HasSum (fun k : ℕ => (k : ℂ) * a k * z ^ k) (z * psum (dcoef a) z) := by
    have hsb := hb.hasSum hρ hz
    have : HasSum (fun k : ℕ => (k : ℂ) * a k * z ^ k) (psum b z - psum a z) :=
      HasSum.congr_fun' (hsb.sub s1) fun k => by rw [← hab k]; ring
    have h3 := (hasSum_nat_add_iff' 1).mpr this
    simp only [Finset.range_one, Finset.sum_singleton, Nat.cast_zero, zero_mul, sub_zero] at h3
    have e : psum b z - psum a z = z * psum (dcoef a) z := by
      rw [← h3.tsum_eq, psum, ← tsum_mul_left]
      congr 1; ext k; rw [dcoef]; push_cast; ring
    rwa [e] at this
  have h3 := (HasSum.congr_fun' (s1.add s2) (fun k => by
    show b k * z ^ k = a k * z ^ k + (k:ℂ) * a k * z ^ k
    rw [← hab k]; ring)).unique (hb.hasSum hρ hz)
  simp only [id]
  linear_combination h3

/-- **T6** -/
theorem pLi_bser (n : ℕ) : ∀ u ∈ strip, pLi (n + 1) (1 - Complex.exp (-u)) = u * psum (bserC n) u := by
  have hpi : (0:ℝ) < 2 * Real.pi := by positivity
  induction n with
  | zero =>
    intro u hu
    have h := abs_lt.mp (strip_im hu)
    rw [zero_add, pLi, sub_sub_cancel, Complex.log_exp (by simp; linarith) (by simp; linarith), neg_neg]
    have : psum (bserC 0) u = 1 := by
      rw [psum, tsum_eq_single 0]
      · simp [bserC, bserQ]
      · intro k hk; simp [bserC, bserQ, hk]
    rw [this, mul_one]
  | succ n ih =>
    have hder : ∀ u ∈ strip, u ≠ 0 → pLi (n + 1) (1 - Complex.exp (-u)) / (1 - Complex.exp (-u)) * Complex.exp (-u)
        = psum (fun k => ∑ ij ∈ Finset.antidiagonal k, bserC n ij.1 * bernC ij.2) u := by
      intro u hu h0
      rw [← psum_mul (bserC_bound n) bernC_bound hpi (strip_norm hu), ih u hu, psum_bern (strip_norm hu) (strip_exp_ne_one hu h0)]
      have h1 : Complex.exp u - 1 ≠ 0 := sub_ne_zero.mpr (strip_exp_ne_one hu h0)
      have h2 : Complex.exp u ≠ 0 := Complex.exp_ne_zero u
      rw [Complex.exp_neg]
      have h3 : 1 - (Complex.exp u)⁻¹ ≠ 0 := by
        intro h
        apply h1
        have : Complex.exp u * (1 - (Complex.exp u)⁻¹) = 0 := by rw [h, mul_zero]
        rw [mul_sub, mul_inv_cancel₀ h2, mul_one] at this
        exact this
      field_simp
    -- the product series converges in the whole disc: use radius just above |u|
    have hser : ∀ u ∈ strip, HasDerivAt (fun u => u * psum (bserC (n + 1)) u)
        (psum (fun k => ∑ ij ∈ Finset.antidiagonal k, bserC n ij.1 * bernC ij.2) u) u := by
      intro u hu
      obtain ⟨r, hr1, hr2⟩ := exists_between (strip_norm hu)
      have hr0 : 0 < r := (norm_nonneg u).trans_lt hr1
      obtain ⟨C, hC⟩ := (show ∃ C, CoefBound (fun k => ∑ ij ∈ Finset.antidiagonal k, bserC n ij.1 * bernC ij.2) r C by
        have hq : r / (2 * Real.pi) < 1 := (div_lt_one hpi).mpr hr2
        have hq0 : 0 ≤ r / (2 * Real.pi) := by positivity
        have hs : Summable fun k : ℕ => ((k:ℝ) + 1) * (r / (2 * Real.pi)) ^ k := by
          have h1 := summable_pow_mul_geometric_of_norm_lt_one (R := ℝ) 1 (r := r / (2 * Real.pi))
            (by rw [Real.norm_eq_abs, abs_of_nonneg hq0]; exact hq)
          have h2 := summable_geometric_of_lt_one hq0 hq
          refine (h1.add h2).congr fun k => ?_
          rw [pow_one]; ring
        refine ⟨4 ^ n * 4 * ∑' k : ℕ, ((k:ℝ) + 1) * (r / (2 * Real.pi)) ^ k, fun k => ?_⟩
        have h4 := hs.le_tsum k (fun j _ => by positivity)
        have h5 : ‖∑ ij ∈ Finset.antidiagonal k, bserC n ij.1 * bernC ij.2‖ * (2 * Real.pi) ^ k
          ≤ ∑ ij ∈ Finset.antidiagonal k, (4:ℝ) ^ n * 4 := by
          refine (mul_le_mul_of_nonneg_right (norm_sum_le _ _) (by positivity)).trans ?_
          rw [Finset.sum_mul]
          refine Finset.sum_le_sum fun ij hij => ?_
          have hk : ij.1 + ij.2 = k := Finset.mem_antidiagonal.mp hij
          rw [norm_mul, ← hk, pow_add, mul_mul_mul_comm]
          exact mul_le_mul (bserC_bound n _) (bernC_bound _) (by positivity) (by positivity)
        rw [Finset.sum_const, Finset.Nat.card_antidiagonal, nsmul_eq_mul] at h5
        have e : r ^ k = (2 * Real.pi) ^ k * (r / (2 * Real.pi)) ^ k := by
          rw [← mul_pow]; congr 1; field_simp
        rw [e, ← mul_assoc]
        push_cast at h5
        calc _ ≤ ((k:ℝ) + 1) * (4 ^ n * 4) * (r / (2 * Real.pi)) ^ k := mul_le_mul_of_nonneg_right h5 (by positivity)
          _ = 4 ^ n * 4 * (((k:ℝ) + 1) * (r / (2 * Real.pi)) ^ k) := by ring
          _ ≤ _ := by gcongr)
      have hA : CoefBound (bserC (n + 1)) r (4 ^ (n + 1)) := fun k =>
        (mul_le_mul_of_nonneg_left (pow_le_pow_left₀ hr0.le hr2.le k) (norm_nonneg _)).trans (bserC_bound (n + 1) k)
      refine xpsum_hasDerivAt hA hC hr0 (fun k => ?_) hr1
      rw [bserC_succ]
      have : ((k:ℂ) + 1) ≠ 0 := by exact_mod_cast Nat.succ_ne_zero k
      field_simp
    have hd0 := (hser 0 zero_mem_strip)
    refine eqOn_of_hasDerivAt' isOpen_strip convex_strip.isPreconnected
      (f' := psum (fun k => ∑ ij ∈ Finset.antidiagonal k, bserC n ij.1 * bernC ij.2)) (fun u hu => ?_) hser zero_mem_strip
      (by simp [pLi_zero_right])
    have hinner : HasDerivAt (fun u : ℂ => 1 - Complex.exp (-u)) (Complex.exp (-u)) u := by
      have := ((hasDerivAt_neg u).cexp).const_sub 1
      refine this.congr_deriv ?_
      ring
    by_cases h0 : u = 0
    · subst h0
      have hd := (pLi_differentiableOn n).2 0 zero_mem_cutPlane
      rw [dslope_same] at hd
      have h1 : HasDerivAt (pLi (n + 2)) (deriv (pLi (n + 1)) 0) (1 - Complex.exp (-0)) := by simpa using hd
      refine (HasDerivAt.comp (0:ℂ) h1 hinner).congr_deriv ?_
      rw [psum_zero]
      simp only [Finset.Nat.antidiagonal_zero, Finset.sum_singleton, neg_zero, Complex.exp_zero, mul_one]
      have hb0 : bernC 0 = 1 := by simp [bernC]
      rw [hb0, mul_one]
      -- deriv of pLi (n+1) at 0 from the induction hypothesis
      have e1 : HasDerivAt (fun u => pLi (n + 1) (1 - Complex.exp (-u))) (deriv (pLi (n + 1)) 0 * 1) 0 := by
        have hdd : HasDerivAt (pLi (n + 1)) (deriv (pLi (n + 1)) 0) (1 - Complex.exp (-0)) := by
          simpa using (pLi_differentiableAt (n + 1) zero_mem_cutPlane).hasDerivAt
        exact (HasDerivAt.comp (0:ℂ) hdd hinner).congr_deriv (by simp)
      have e2 : HasDerivAt (fun u => u * psum (bserC n) u) (bserC n 0) 0 := by
        have := (hasDerivAt_id (0:ℂ)).mul ((bserC_bound n).hasDerivAt hpi (z := 0) (by simpa using Real.pi_pos))
        refine this.congr_deriv ?_
        simp [psum_zero]
      have ev : (fun u => pLi (n + 1) (1 - Complex.exp (-u))) =ᶠ[𝓝 0] fun u => u * psum (bserC n) u := by
        filter_upwards [isOpen_strip.mem_nhds zero_mem_strip] with v hv using ih v hv
      have := e1.unique (e2.congr_of_eventuallyEq ev)
      rw [mul_one] at this
      exact this
    · have hz0 : 1 - Complex.exp (-u) ≠ 0 := by
        intro h
        have : Complex.exp (-u) = 1 := by linear_combination -h
        apply strip_exp_ne_one hu h0
        rw [Complex.exp_neg] at this
        rw [← inv_inv (Complex.exp u), this, inv_one]
      have := HasDerivAt.comp u (pLi_hasDerivAt (n + 1) (strip_cut hu) hz0) hinner
      exact this.congr_deriv (hder u hu h0)

/-- in terms of `z` : `u = -log(1-z)` -/
theorem pLi_bser_log (n : ℕ) {z : ℂ} (hz : z ∈ cutPlane) (hu : ‖Complex.log (1 - z)‖ < 2 * Real.pi) :
    pLi (n + 1) z = -Complex.log (1 - z) * psum (bserC n) (-Complex.log (1 - z)) := by
  have hne : 1 - z ≠ 0 := slitPlane_ne_zero hz
  have harg := (mem_slitPlane_iff_arg.mp hz).1
  have hmem : -Complex.log (1 - z) ∈ strip := by
    refine ⟨by simpa using hu, ?_⟩
    show |(-Complex.log (1 - z)).im| < Real.pi
    rw [neg_im, abs_neg, Complex.log_im, abs_lt]
    exact ⟨Complex.neg_pi_lt_arg _, lt_of_le_of_ne (Complex.arg_le_pi _) harg⟩
  have := pLi_bser n _ hmem
  rwa [neg_neg, Complex.exp_log hne, sub_sub_cancel] at this

end Polylog
