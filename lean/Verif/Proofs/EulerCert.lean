import Verif.Proofs.LiTaylor
import Verif.Proofs.Zeta

/-! # Certificates for rational approximations of `Li_n` on `(-1, 0)`, via the Euler transformation `w = x/(x-1)` -/

noncomputable section
namespace Polylog
variable {S : RealSem}

/-- `((1-w)^(N-1) l(-w/(1-w)), (1-w)^N)` for `N = l.length` -/
def phomAux : List ℤ → List ℤ × List ℤ
  | [] => ([], [1])
  | a :: l => let r := phomAux l; (padd (0 :: psmul (-1) r.1) (psmul a r.2), pmul [1, -1] r.2)

/-- homogenised list: `(1-w)^(N-1) l(-w/(1-w))` -/
def phom (l : List ℤ) : List ℤ := (phomAux l).1

theorem phomAux_snd (l : List ℤ) (w : ℝ) : pev (phomAux l).2 w = (1 - w) ^ l.length := by
  induction l with
  | nil => simp [phomAux]
  | cons a l ih =>
    rw [phomAux, pev_pmul, ih, List.length_cons, pow_succ]
    simp; ring

theorem pev_phom (l : List ℤ) {w : ℝ} (hw : w ≠ 1) :
    (1 - w) * pev (phom l) w = (1 - w) ^ l.length * pev l (w / (w - 1)) := by
  have h1 : w - 1 ≠ 0 := sub_ne_zero.mpr hw
  unfold phom
  induction l with
  | nil => simp [phomAux]
  | cons a l ih =>
    rw [phomAux]
    dsimp only
    rw [pev_padd, pev_psmul, phomAux_snd, pev_cons, pev_psmul, pev_cons, List.length_cons, pow_succ]
    have e : (1 - w) * (w / (w - 1)) = -w := by field_simp; ring
    push_cast
    linear_combination (-w) * ih - (1 - w) ^ l.length * pev l (w / (w - 1)) * e

/-- `Li_{n+1}(x)/x`, `x ∈ [-1, 0)`, in terms of `w = x/(x-1)` -/
theorem reLi_euler_taylor (n : ℕ) {M K : ℕ} (hM : 0 < M) {x : ℝ} (h0 : x < 0) (h1 : -1 ≤ x) :
    |reLi (n + 1) x / x - (1 - x / (x - 1)) * (pev ((eulL n M K).map (fun m : ℕ => (m : ℤ))) (x / (x - 1)) / M)| ≤
      2 * ((n + 1) / M + (1 / 2) ^ K) := by
  have hx1 : x - 1 < 0 := by linarith
  set w := x / (x - 1) with hw
  have hw0 : 0 < w := div_pos_of_neg_of_neg h0 hx1
  have hw1 : w ≤ 1 / 2 := by rw [hw, div_le_iff_of_neg hx1]; linarith
  have hwx : w / (w - 1) = x := by
    have : w - 1 = 1 / (x - 1) := by rw [hw]; field_simp [hx1.ne]; ring
    rw [this, hw]; field_simp [hx1.ne]
  have h := reLi_euler_hasSum n hw0 (by linarith)
  rw [hwx] at h
  have hM' : (0:ℝ) < M := by exact_mod_cast hM
  have h2 := taylor_floorD (a := eul n) (T := fun k => (((eulL n M K).getD k 0 : ℕ) : ℤ)) (K := K) (M := M) (A := 1) (D := n + 1) (X := 1/2) hM'
    (by positivity) h (by rw [abs_of_pos hw0]; exact hw1) (by norm_num)
    (fun k hk => by have := eulL_approx n M K k hk; push_cast at this ⊢; exact this)
    (fun k _ => by rw [abs_of_nonneg (eul_nonneg n k)]; exact eul_le_one n k)
  have el : (List.range K).map (fun k => (((eulL n M K).getD k 0 : ℕ) : ℤ)) = (eulL n M K).map (fun m : ℕ => (m : ℤ)) := by
    apply List.ext_getElem
    · simp [eulL_length]
    · intro i h1 h2
      simp only [List.length_map, List.length_range] at h1
      have h3 : i < (eulL n M K).length := by rw [eulL_length]; exact h1
      simp only [List.getElem_map, List.getElem_range, List.getD_eq_getElem _ _ h3]
  rw [el] at h2
  set Tw := pev ((eulL n M K).map (fun m : ℕ => (m : ℤ))) w / (M:ℝ)
  have e : reLi (n + 1) x / x - (1 - w) * Tw = (1 - w) * (-reLi (n + 1) x / w - Tw) := by
    have hxw : x * (w - 1) = w := by
      have : w - 1 ≠ 0 := by linarith
      have h3 : x = w / (w - 1) := hwx.symm
      rw [h3]; field_simp
    have h4 : reLi (n + 1) x / x = (1 - w) * (-reLi (n + 1) x / w) := by
      have := hw0.ne'; have := h0.ne
      field_simp
      linear_combination (-reLi (n + 1) x) * hxw
    rw [h4]; ring
  rw [e, abs_mul, abs_of_pos (by linarith : (0:ℝ) < 1 - w)]
  norm_num at h2 ⊢
  have hb : 0 ≤ |-reLi (n + 1) x / w - Tw| := abs_nonneg _
  nlinarith

theorem reLi_euler_abs_le (n : ℕ) {x : ℝ} (h0 : x < 0) (h1 : -1 ≤ x) : |reLi (n + 1) x / x| ≤ 1 := by
  have hx1 : x - 1 < 0 := by linarith
  set w := x / (x - 1) with hw
  have hw0 : 0 < w := div_pos_of_neg_of_neg h0 hx1
  have hw1 : w ≤ 1 / 2 := by rw [hw, div_le_iff_of_neg hx1]; linarith
  have hwx : w / (w - 1) = x := by
    have : w - 1 = 1 / (x - 1) := by rw [hw]; field_simp [hx1.ne]; ring
    rw [this, hw]; field_simp [hx1.ne]
  have h := reLi_euler_hasSum n hw0 (by linarith)
  rw [hwx] at h
  clear_value w
  have hxw : x * (w - 1) = w := by
    have : w - 1 ≠ 0 := by linarith
    have h3 : x = w / (w - 1) := hwx.symm
    rw [h3]; field_simp
  have h4 : reLi (n + 1) x / x = (1 - w) * (-reLi (n + 1) x / w) := by
    have := hw0.ne'; have := h0.ne
    field_simp
    linear_combination (-reLi (n + 1) x) * hxw
  have hs0 : 0 ≤ -reLi (n + 1) x / w := h.nonneg fun k => mul_nonneg (eul_nonneg n k) (by positivity)
  have hs1 : -reLi (n + 1) x / w ≤ (1 - w)⁻¹ := hasSum_le (fun k => by
    have := mul_le_mul_of_nonneg_right (eul_le_one n k) (pow_nonneg hw0.le k)
    simpa using this) h (hasSum_geometric_of_lt_one hw0.le (by linarith))
  have h5 : 0 < 1 - w := by linarith
  rw [h4, abs_of_nonneg (mul_nonneg h5.le hs0)]
  calc (1 - w) * (-reLi (n + 1) x / w) ≤ (1 - w) * (1 - w)⁻¹ := mul_le_mul_of_nonneg_left hs1 h5.le
    _ = 1 := mul_inv_cancel₀ h5.ne'

/-- certificate for `p(x)/q(x) ≈ Li_{n+1}(x)/x` on `(-1, 0)` -/
theorem euler_ratio (n : ℕ) {a : ℕ} (P : Vector ℚ a) (Q : Vector ℚ (a + 1)) {u : ℝ} (hS : S.Lit u) {N : ℚ} {j i : ℕ}
    {E En δ : ℤ} {M K : ℕ} {ε B : ℝ} {BP BQ : ℚ} {x : ℝ}
    (h : rcert j i 1 1 4 (phom (vZ N P)) (phom (vZ N Q)) ((eulL n M K).map (fun m : ℕ => (m : ℤ))) M E En δ = true)
    (hQ : pcert j i (-1) 1 2 (psub0 N.num (vZ N Q)) = true) (hNd : N.den = 1)
    (hden : (P.toList ++ Q.toList).all (fun q => (q * N).den == 1) = true)
    (hpos : 0 < N ∧ 0 < En ∧ 0 < δ ∧ 0 < M) (hx0 : x < 0) (hx1 : -1 < x)
    (hε : (E : ℝ) / En + 2 * ((n + 1) / M + (1 / 2) ^ K) ≤ ε) (hε1 : ε ≤ 1 / 10)
    (hB : vAbs P 1 ≤ BP ∧ vAbs Q 1 ≤ BQ) (hu : u * BQ ≤ 1 / 2) (hK : 2 * (BP + 1.1 * BQ) ≤ B) :
    0 < rv S Q x ∧ |rv S P x / rv S Q x - reLi (n + 1) x / x| ≤ ε + u * B := by
  obtain ⟨hN, hEn, hδ, hM⟩ := hpos
  have hx : x - 1 < 0 := by linarith
  set w := x / (x - 1) with hw
  have hw0 : 0 < w := div_pos_of_neg_of_neg hx0 hx
  have hw1 : w ≤ 1 / 2 := by rw [hw, div_le_iff_of_neg hx]; linarith
  have hwx : w / (w - 1) = x := by
    have : w - 1 = 1 / (x - 1) := by rw [hw]; field_simp [hx.ne]; ring
    rw [this, hw]; field_simp [hx.ne]
  obtain ⟨hq, hr⟩ := rcert_sound h one_pos (by norm_num) (by exact_mod_cast hM) hEn hδ (x := w) (by norm_num; exact hw0) (by norm_num; linarith)
  have hT := reLi_euler_taylor n (K := K) hM hx0 hx1.le
  rw [← hw] at hT
  rw [List.all_append, Bool.and_eq_true] at hden
  have hP' := pev_vZ hden.1 x
  have hQ' := pev_vZ hden.2 x
  have hqx := pcert_sound one_pos (by norm_num) hQ (x := x) (by norm_num; exact hx1) (by norm_num; exact hx0.le)
  rw [pev_psub0, hQ'] at hqx
  have hNn : ((N.num : ℤ) : ℝ) = (N : ℝ) := by
    have := Rat.num_div_den N
    rw [hNd] at this
    have h2 : ((N.num : ℤ) : ℚ) = N := by simpa using this
    exact_mod_cast congrArg (Rat.cast (K := ℝ)) h2
  have hNR : (0:ℝ) < N := by exact_mod_cast hN
  have hq1 : 1 ≤ qv Q x := by
    rw [hNn] at hqx
    have : 0 ≤ (N:ℝ) * (qv Q x - 1) := by linarith
    have := nonneg_of_mul_nonneg_right this hNR
    linarith
  have hp1 := pev_phom (vZ N P) (w := w) (by linarith)
  have hp2 := pev_phom (vZ N Q) (w := w) (by linarith)
  rw [hwx, hP'] at hp1
  rw [hwx, hQ'] at hp2
  have l1 : (vZ N P).length = a := by simp [vZ]
  have l2 : (vZ N Q).length = a + 1 := by simp [vZ]
  rw [l1] at hp1
  rw [l2] at hp2
  have h1w : 0 < 1 - w := by linarith
  have hratio : qv P x / qv Q x = (1 - w) * (pev (phom (vZ N P)) w / pev (phom (vZ N Q)) w) := by
    have e1 : pev (phom (vZ N P)) w = (1 - w) ^ a * (N * qv P x) / (1 - w) := by rw [eq_div_iff h1w.ne', mul_comm]; exact hp1
    have e2 : pev (phom (vZ N Q)) w = (1 - w) ^ (a + 1) * (N * qv Q x) / (1 - w) := by rw [eq_div_iff h1w.ne', mul_comm]; exact hp2
    have : qv Q x ≠ 0 := by linarith
    have := hNR.ne'
    have h3 := h1w.ne'
    rw [e1, e2]
    field_simp
    ring
  have h5 : |qv P x / qv Q x - reLi (n + 1) x / x| ≤ ε := by
    rw [abs_sub_comm] at hT
    have : |qv P x / qv Q x - (1 - w) * (pev ((eulL n M K).map (fun m : ℕ => (m : ℤ))) w / M)| ≤ (E:ℝ) / En := by
      rw [hratio, ← mul_sub, abs_mul, abs_of_pos h1w]
      push_cast at hr
      calc _ ≤ 1 * |pev (phom (vZ N P)) w / pev (phom (vZ N Q)) w - pev ((eulL n M K).map (fun m : ℕ => (m : ℤ))) w / M| := by
            apply mul_le_mul_of_nonneg_right (by linarith) (abs_nonneg _)
        _ ≤ _ := by rw [one_mul]; exact hr
    calc _ ≤ _ := abs_sub_le _ _ _
      _ ≤ _ := add_le_add this hT
      _ ≤ ε := hε
  refine rat_approx P Q hS (X := 1) (C := 1.1) (by rw [abs_le]; push_cast; constructor <;> linarith) one_pos hq1 h5 (by have := reLi_euler_abs_le n hx0 hx1.le; linarith) hB.1 hB.2
    (by linarith) (by linarith)

end Polylog
