import Verif.Proofs.RealLi

/-! # Conjugation, imaginary part on the cut, reflection of the dilogarithm -/

noncomputable section
namespace Polylog
open Complex Set Filter Topology
open scoped ComplexConjugate

theorem conj_cutPlane {z : ℂ} (hz : z ∈ cutPlane) : conj z ∈ cutPlane := by
  rw [mem_cutPlane] at hz ⊢; simpa using hz

theorem pLi_conj (n : ℕ) : ∀ z ∈ cutPlane, pLi n (conj z) = conj (pLi n z) := by
  induction n with
  | zero => intro z _; simp [pLi]
  | succ n ih =>
    cases n with
    | zero =>
      intro z hz
      have h1 : 1 - z ∈ slitPlane := hz
      rw [pLi, pLi, map_neg, ← Complex.log_conj _ (slitPlane_arg_ne_pi h1)]
      simp
    | succ n =>
      intro z hz
      rw [pLi, pLi, ← intervalIntegral.intervalIntegral_conj]
      refine intervalIntegral.integral_congr fun t ht => ?_
      rw [uIcc_of_le zero_le_one] at ht
      have := ih _ (cutPlane_star z hz t ht.1 ht.2)
      simp only [map_mul, conj_ofReal, map_div₀] at this ⊢
      rw [this]

theorem pLi_im_le_one (n : ℕ) {x : ℝ} (hx : x < 1) : (pLi n (x : ℂ)).im = 0 := by
  have := pLi_conj n _ (real_mem_cutPlane hx)
  rw [conj_ofReal] at this
  exact Complex.conj_eq_iff_im.mp this.symm

theorem pLi_im_one (n : ℕ) : (pLi (n + 2) 1).im = 0 := by
  have h := pLi_real_of_abs_le n (x := 1) (by simp)
  rw [ofReal_one] at h
  rw [h, ofReal_im]

/-- imaginary part on the branch cut -/
theorem pLi_im_cut (n : ℕ) : ∀ x : ℝ, 1 < x → (pLi (n + 1) (x : ℂ)).im = -Real.pi * Real.log x ^ n / n.factorial := by
  induction n with
  | zero => intro x hx; rw [zero_add, pLi_one_ofReal, if_pos hx]; simp
  | succ n ih =>
    refine eqOn_of_hasDerivAt (𝕜 := ℝ) isOpen_Ioi isPreconnected_Ioi
      (f' := fun x => (-Real.pi * Real.log x ^ n / n.factorial) / x) ?_ ?_ (l := 𝓝[>] 1) self_mem_nhdsWithin ?_
    · intro x hx
      rw [mem_Ioi] at hx
      have h := pLi_real_hasDerivAt n (show x ≠ 0 by linarith) hx.ne'
      have h2 := Complex.imCLM.hasFDerivAt.comp_hasDerivAt x h
      refine h2.congr_deriv ?_
      rw [← ih x hx]
      simp [Complex.div_ofReal_im]
    · intro x hx
      rw [mem_Ioi] at hx
      have h := (((Real.hasDerivAt_log (show x ≠ 0 by linarith)).pow (n + 1)).const_mul (-Real.pi)).div_const ((n + 1).factorial : ℝ)
      refine h.congr_deriv ?_
      have h0 : x ≠ 0 := by linarith
      have : (n.factorial : ℝ) ≠ 0 := by positivity
      rw [Nat.factorial_succ]; push_cast
      field_simp
    · have h1 : Tendsto (fun x : ℝ => (pLi (n + 2) (x : ℂ)).im) (𝓝[>] 1) (𝓝 (pLi (n + 2) ((1:ℝ) : ℂ)).im) :=
        ((Complex.continuous_im.comp (pLi_real_continuous n)).tendsto 1).mono_left nhdsWithin_le_nhds
      have h2 : Tendsto (fun x : ℝ => -Real.pi * Real.log x ^ (n + 1) / (n + 1).factorial) (𝓝[>] 1)
          (𝓝 (-Real.pi * Real.log 1 ^ (n + 1) / (n + 1).factorial)) := by
        have := (Real.continuousAt_log (x := 1) one_ne_zero).tendsto
        exact (((this.pow (n + 1)).const_mul (-Real.pi)).div_const _).mono_left nhdsWithin_le_nhds
      have := h1.sub h2
      rw [ofReal_one, pLi_im_one, Real.log_one] at this
      simpa using this

/-- the plane cut along `(-∞,0]` and `[1,∞)` -/
def twoCut : Set ℂ := {z | z ∈ slitPlane ∧ z ∈ cutPlane}

theorem mem_twoCut {z : ℂ} : z ∈ twoCut ↔ (0 < z.re ∧ z.re < 1) ∨ z.im ≠ 0 := by
  rw [twoCut, Set.mem_ofPred_eq, mem_cutPlane, mem_slitPlane_iff]; tauto

theorem isOpen_twoCut : IsOpen twoCut := isOpen_slitPlane.inter isOpen_cutPlane

theorem starConvex_twoCut : StarConvex ℝ (1 / 2 : ℂ) twoCut := by
  rw [starConvex_iff_forall_pos ?_]
  · intro z hz a b ha hb hab
    rw [mem_twoCut] at hz ⊢
    have hre : ((a • (1 / 2 : ℂ) + b • z)).re = a / 2 + b * z.re := by simp; ring
    have him : ((a • (1 / 2 : ℂ) + b • z)).im = b * z.im := by simp
    rw [hre, him]
    rcases hz with hz | hz
    · left; constructor <;> nlinarith
    · right; exact mul_ne_zero hb.ne' hz
  · rw [mem_twoCut]; left; norm_num

/-- reflection formula of the complex dilogarithm -/
theorem pLi_two_refl {z : ℂ} (hz : z ∈ twoCut) :
    pLi 2 z + pLi 2 (1 - z) = (Real.pi : ℂ) ^ 2 / 6 - Complex.log z * Complex.log (1 - z) := by
  have hm : ∀ z ∈ twoCut, z ∈ cutPlane ∧ 1 - z ∈ cutPlane ∧ z ∈ slitPlane ∧ 1 - z ∈ slitPlane := by
    intro z hz
    rw [mem_twoCut] at hz
    refine ⟨?_, ?_, ?_, ?_⟩
    · rw [mem_cutPlane]; tauto
    · rw [mem_cutPlane]; simpa using hz.imp (fun h => h.1) id
    · rw [mem_slitPlane_iff]; tauto
    · rw [mem_slitPlane_iff]; simpa using hz.imp (fun h => h.2) id
  have hh : (1 / 2 : ℂ) ∈ twoCut := by rw [mem_twoCut]; left; norm_num
  refine eqOn_of_hasDerivAt' (𝕜 := ℂ) (f := fun z => pLi 2 z + pLi 2 (1 - z))
    (g := fun z => (Real.pi : ℂ) ^ 2 / 6 - Complex.log z * Complex.log (1 - z)) isOpen_twoCut
    (starConvex_twoCut.isPathConnected hh).isConnected.isPreconnected
    (f' := fun z => Complex.log z / (1 - z) - Complex.log (1 - z) / z) ?_ ?_ hh ?_ z hz
  · intro z hz
    obtain ⟨h1, h2, h3, h4⟩ := hm z hz
    have z0 := slitPlane_ne_zero h3
    have z1 := slitPlane_ne_zero h4
    have ha := pLi_hasDerivAt 1 h1 z0
    have hs : HasDerivAt (fun x : ℂ => 1 - x) (-1) z := by simpa using (hasDerivAt_id z).const_sub 1
    have hb := HasDerivAt.comp z (pLi_hasDerivAt 1 h2 z1) hs
    refine (ha.add hb).congr_deriv ?_
    rw [pLi, pLi, sub_sub_cancel]; ring
  · intro z hz
    obtain ⟨h1, h2, h3, h4⟩ := hm z hz
    have z0 := slitPlane_ne_zero h3
    have z1 := slitPlane_ne_zero h4
    have hs : HasDerivAt (fun x : ℂ => 1 - x) (-1) z := by simpa using (hasDerivAt_id z).const_sub 1
    have hl1 := Complex.hasDerivAt_log h3
    have hl2 := hs.clog h4
    refine ((hl1.mul hl2).const_sub ((Real.pi:ℂ) ^ 2 / 6)).congr_deriv ?_
    field_simp; ring
  · have h := reLi_two_refl (x := 1 / 2) (by norm_num) (by norm_num)
    have e1 := pLi_real_of_abs_le 0 (x := 1/2) (by norm_num [abs_of_pos])
    have e2 : (1 / 2 : ℂ) = ((1 / 2 : ℝ) : ℂ) := by push_cast; rfl
    have e3 : (1 : ℂ) - ((1 / 2 : ℝ) : ℂ) = ((1 / 2 : ℝ) : ℂ) := by push_cast; norm_num
    have e4 : (1 : ℝ) - 1 / 2 = 1 / 2 := by norm_num
    rw [zero_add] at e1
    rw [e4] at h
    rw [e2, e3, e1, ← Complex.ofReal_log (by norm_num)]
    exact_mod_cast (by linarith : reLi 2 (1/2) + reLi 2 (1/2) = Real.pi ^ 2 / 6 - Real.log (1/2) * Real.log (1/2))

/-- inversion formula of the complex dilogarithm -/
theorem appell_two (l : ℂ) : appell invC 2 l = -l ^ 2 / 2 - (Real.pi : ℂ) ^ 2 / 6 := by
  have h0 : pLi 0 (-1) = -1/2 := by rw [pLi]; norm_num
  simp [appell, Finset.sum_range_succ, invC, h0, pLi_two_neg_one]
  ring

end Polylog
