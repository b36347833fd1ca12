import Verif.Proofs.ClTab
import Verif.Proofs.Pi

/-! # Rational approximations of the Clausen expansions: generic error analysis -/

noncomputable section
namespace Polylog
open Finset

theorem lo_tab {m p : ℕ} (hm : m ≤ 2) {T : List ℤ} (hlen : T.length ≤ 41) (hchk : tabChk (2 ^ 190) (loQ m p) m 0 T (bernL 40) = true) :
    ∀ k < T.length, |((T.getD k 0 : ℤ) : ℝ) - 2 ^ 190 * loC m p k| ≤ if k < m then 1 + 2 ^ 190 * 6e-42 else 1 := by
  intro k hk
  have h := tabChk_sound (bernL 40) (j0 := 0) (L := bernL 40) (by intro i; simp) hchk k hk
  rw [zero_add, ← bernL_prefix (k - m) 40 202 (by omega) (by norm_num)] at h
  have h' := (Rat.cast_le (K := ℝ)).mpr h
  push_cast at h'
  split_ifs with hkm
  · have h2 := loC_loQ m p k hm (by omega)
    calc _ ≤ _ := abs_sub_le _ (2 ^ 190 * ((loQ m p k ((bernL 202).getD (k - m) 0) : ℚ) : ℝ)) _
      _ ≤ 1 + 2 ^ 190 * 6e-42 := by
        refine add_le_add h' ?_
        rw [← mul_sub, abs_mul, abs_of_pos (by positivity), abs_sub_comm]
        exact mul_le_mul_of_nonneg_left h2 (by positivity)
  · rw [loC_loQ_ge m p k (by omega) (by omega)]
    exact h'

theorem hi_tab {m p : ℕ} (hm : m ≤ 2) {T : List ℤ} (hlen : T.length ≤ 76) (hchk : tabChk (2 ^ 240) (hiQ m p) m 0 T (bernL 75) = true) :
    ∀ k < T.length, |((T.getD k 0 : ℤ) : ℝ) - 2 ^ 240 * hiC m p k| ≤ if k < 3 then 1 + 2 ^ 240 * 6e-42 else 1 := by
  intro k hk
  have h := tabChk_sound (bernL 75) (j0 := 0) (L := bernL 75) (by intro i; simp) hchk k hk
  rw [zero_add, ← bernL_prefix (k - m) 75 202 (by omega) (by norm_num)] at h
  have h' := (Rat.cast_le (K := ℝ)).mpr h
  push_cast at h'
  split_ifs with hkm
  · have h2 := hiC_hiQ m p k hm (by omega)
    calc _ ≤ _ := abs_sub_le _ (2 ^ 240 * ((hiQ m p k ((bernL 202).getD (k - m) 0) : ℚ) : ℝ)) _
      _ ≤ 1 + 2 ^ 240 * 6e-42 := by
        refine add_le_add h' ?_
        rw [← mul_sub, abs_mul, abs_of_pos (by positivity), abs_sub_comm]
        exact mul_le_mul_of_nonneg_left h2 (by positivity)
  · rw [hiC_hiQ_gt m p k (by omega) (by omega)]
    exact h'

theorem pi_gt : (3.1415926:ℝ) < Real.pi := by have := Real.pi_gt_d6; linarith [Real.pi_gt_d20]
theorem pi_lt : Real.pi < 3.1415927 := by linarith [Real.pi_lt_d20]

/-- truncated expansion about `0` -/
theorem lo_taylor {m p : ℕ} (hm : m ≤ 2) {T : List ℤ} (hlen : T.length ≤ 41) (hchk : tabChk (2 ^ 190) (loQ m p) m 0 T (bernL 40) = true)
    (K : ℕ) (hK : K ≤ T.length) (hmK : m < K)
    {t f : ℝ} (h0 : 0 ≤ t) (h1 : t ≤ 2.4677) (hs : HasSum (fun k => loC m p k * t ^ k) f) :
    |f - pev (T.take K) t / 2 ^ 190| ≤ (10 * (1 + 2 ^ 190 * 6e-42) + 2 * 2.4677 ^ K) / 2 ^ 190 + 9900 * 0.0626 ^ K / (1 - 0.0626) := by
  have hl : (T.take K).length = K := by simp [hK]
  have := taylor_cl (T := T.take K) (M := 2 ^ 190) (D := 1 + 2 ^ 190 * 6e-42) (A := 9900) (q := 0.0626) (by positivity) hs h0 h1
    (by norm_num) (by norm_num) (by
      intro k hk
      rw [hl] at hk
      have h := lo_tab hm hlen hchk k (by omega)
      have e : (T.take K).getD k 0 = T.getD k 0 := by simp [List.getElem?_take, hk]
      rw [e]
      refine h.trans ?_
      split_ifs
      · exact le_rfl
      · omega
      · norm_num
      · exact le_rfl) (by norm_num) (by norm_num) (by
      intro k hk
      rw [hl] at hk
      refine (mul_le_mul_of_nonneg_right (loC_abs m p k (by omega)) (by positivity)).trans ?_
      rw [mul_assoc, ← mul_pow]
      have hpi := pi_gt; have hpi2 := pi_lt
      have hq : 1 / (4 * Real.pi ^ 2) * 2.4677 ≤ 0.0626 := by
        rw [div_mul_eq_mul_div, div_le_iff₀ (by positivity)]
        nlinarith
      have hA : (2 * Real.pi) ^ (2 * m + 1) ≤ 9900 := by
        calc _ ≤ (2 * Real.pi) ^ 5 := pow_le_pow_right₀ (by linarith) (by omega)
          _ ≤ (6.2832) ^ 5 := pow_le_pow_left₀ (by positivity) (by linarith) _
          _ ≤ _ := by norm_num
      exact mul_le_mul hA (pow_le_pow_left₀ (by positivity) hq _) (by positivity) (by norm_num))
  rwa [hl] at this

/-- truncated expansion about `0` without the first term -/
theorem lo_taylor1 {m p : ℕ} (hm : m ≤ 1) {T : List ℤ} (hlen : T.length ≤ 41) (hchk : tabChk (2 ^ 190) (loQ m p) m 0 T (bernL 40) = true)
    (K : ℕ) (hK : K + 1 ≤ T.length) (hmK : m < K)
    {t f : ℝ} (h0 : 0 ≤ t) (h1 : t ≤ 2.4677) (hs : HasSum (fun k => loC m p (k + 1) * t ^ k) f) :
    |f - pev ((T.drop 1).take K) t / 2 ^ 190| ≤ (10 + 2 * 2.4677 ^ K) / 2 ^ 190 + 7 * 0.0626 ^ K / (1 - 0.0626) := by
  have hl : ((T.drop 1).take K).length = K := by simp; omega
  have := taylor_cl (T := (T.drop 1).take K) (M := 2 ^ 190) (D := 1) (A := 7) (q := 0.0626) (by positivity) hs h0 h1
    (by norm_num) (by norm_num) (by
      intro k hk
      rw [hl] at hk
      have h := lo_tab (by omega) hlen hchk (k + 1) (by omega)
      have e : ((T.drop 1).take K).getD k 0 = T.getD (k + 1) 0 := by
        simp [List.getElem?_take, hk]
      rw [e]
      refine h.trans ?_
      rw [if_neg (by omega)]; split_ifs <;> exact le_rfl) (by norm_num) (by norm_num) (by
      intro k hk
      rw [hl] at hk
      refine (mul_le_mul_of_nonneg_right (loC_abs m p (k + 1) (by omega)) (by positivity)).trans ?_
      rw [pow_succ _ k, mul_assoc, mul_comm _ (1 / (4 * Real.pi ^ 2)), mul_assoc, ← mul_assoc, ← mul_pow]
      have hpi := pi_gt; have hpi2 := pi_lt
      have hq : 1 / (4 * Real.pi ^ 2) * 2.4677 ≤ 0.0626 := by
        rw [div_mul_eq_mul_div, div_le_iff₀ (by positivity)]
        nlinarith
      have hA : (2 * Real.pi) ^ (2 * m + 1) * (1 / (4 * Real.pi ^ 2)) ≤ 7 := by
        have : (2 * Real.pi) ^ (2 * m + 1) ≤ (2 * Real.pi) ^ 3 := pow_le_pow_right₀ (by linarith) (by omega)
        rw [mul_one_div, div_le_iff₀ (by positivity)]
        refine this.trans ?_
        nlinarith [sq_nonneg Real.pi]
      exact mul_le_mul hA (pow_le_pow_left₀ (by positivity) hq _) (by positivity) (by norm_num))
  rw [hl] at this
  simpa using this

/-- truncated expansion about `π` -/
theorem hi_taylor {m p : ℕ} (hm : m ≤ 2) {T : List ℤ} (hlen : T.length ≤ 76) (hchk : tabChk (2 ^ 240) (hiQ m p) m 0 T (bernL 75) = true)
    (K : ℕ) (hK : K ≤ T.length) (hmK : m < K)
    {t f : ℝ} (h0 : 0 ≤ t) (h1 : t ≤ 2.4677) (hs : HasSum (fun k => hiC m p k * t ^ k) f) :
    |f - pev (T.take K) t / 2 ^ 240| ≤ (10 * (1 + 2 ^ 240 * 6e-42) + 2 * 2.4677 ^ K) / 2 ^ 240 + 620 * 0.2501 ^ K / (1 - 0.2501) := by
  have hl : (T.take K).length = K := by simp [hK]
  have := taylor_cl (T := T.take K) (M := 2 ^ 240) (D := 1 + 2 ^ 240 * 6e-42) (A := 620) (q := 0.2501) (by positivity) hs h0 h1
    (by norm_num) (by norm_num) (by
      intro k hk
      rw [hl] at hk
      have h := hi_tab hm hlen hchk k (by omega)
      have e : (T.take K).getD k 0 = T.getD k 0 := by simp [List.getElem?_take, hk]
      rw [e]; exact h) (by norm_num) (by norm_num) (by
      intro k hk
      rw [hl] at hk
      refine (mul_le_mul_of_nonneg_right (hiC_abs m p k (by omega)) (by positivity)).trans ?_
      rw [mul_assoc, ← mul_pow]
      have hpi := pi_gt; have hpi2 := pi_lt
      have hq : 1 / Real.pi ^ 2 * 2.4677 ≤ 0.2501 := by
        rw [div_mul_eq_mul_div, div_le_iff₀ (by positivity)]
        nlinarith
      have hA : 2 * Real.pi * Real.pi ^ (2 * m) ≤ 620 := by
        calc _ ≤ 2 * Real.pi * Real.pi ^ 4 := mul_le_mul_of_nonneg_left (pow_le_pow_right₀ (by linarith) (by omega)) (by positivity)
          _ = 2 * Real.pi ^ 5 := by ring
          _ ≤ 2 * 3.1415927 ^ 5 := by gcongr
          _ ≤ _ := by norm_num
      exact mul_le_mul hA (pow_le_pow_left₀ (by positivity) hq _) (by positivity) (by norm_num))
  rwa [hl] at this

/-! ## Lipschitz bounds of polynomials -/

/-- `∑ |a_k| X^k` and `∑ k |a_k| X^(k-1)` -/
def lipB (X : ℚ) : List ℤ → ℚ × ℚ
  | [] => (0, 0)
  | a :: l => let r := lipB X l; (|(a : ℚ)| + X * r.1, r.1 + X * r.2)

theorem lipB_sound {X : ℚ} {a b : ℝ} (ha : |a| ≤ X) (hb : |b| ≤ X) (l : List ℤ) :
    |pev l a| ≤ (lipB X l).1 ∧ |pev l b| ≤ (lipB X l).1 ∧ |pev l a - pev l b| ≤ (lipB X l).2 * |a - b| := by
  have hX : (0:ℝ) ≤ X := le_trans (abs_nonneg _) ha
  induction l with
  | nil => simp [lipB]
  | cons c l ih =>
    obtain ⟨h1, h2, h3⟩ := ih
    have h10 : (0:ℝ) ≤ (lipB X l).1 := le_trans (abs_nonneg _) h1
    simp only [pev_cons, lipB, Rat.cast_add, Rat.cast_mul, Rat.cast_abs, Rat.cast_intCast]
    refine ⟨?_, ?_, ?_⟩
    · refine (abs_add_le _ _).trans (add_le_add le_rfl ?_)
      rw [abs_mul]; exact mul_le_mul ha h1 (abs_nonneg _) hX
    · refine (abs_add_le _ _).trans (add_le_add le_rfl ?_)
      rw [abs_mul]; exact mul_le_mul hb h2 (abs_nonneg _) hX
    · have e : (c:ℝ) + a * pev l a - (c + b * pev l b) = (a - b) * pev l a + b * (pev l a - pev l b) := by ring
      rw [e]
      refine (abs_add_le _ _).trans ?_
      rw [abs_mul, abs_mul, add_mul]
      refine add_le_add ?_ ?_
      · rw [mul_comm]; exact mul_le_mul_of_nonneg_right h1 (abs_nonneg _)
      · rw [mul_assoc]; exact mul_le_mul hb h3 (abs_nonneg _) hX

variable {S : RealSem}

/-- rational approximation in the unshifted variable -/
theorem apx0 {a b : ℕ} {P : Vector ℚ a} {Q : Vector ℚ b} {N : ℚ} {j n : ℕ} {T : List ℤ} {M E En δ : ℤ}
    (hcert : rcert j n 12337 12337 9999 (vZ N P) (vZ N Q) T M E En δ = true)
    (hden : (P.toList ++ Q.toList).all (fun q => (q * N).den == 1) = true)
    (hN : 0 < N) (hM : 0 < M) (hEn : 0 < En) (hδ : 0 < δ)
    {BP BQ C B : ℚ} (hBP : vAbs P 2.4677 ≤ BP) (hBQ : vAbs Q 2.4677 ≤ BQ) (hL : (lipB 2.4677 T).1 ≤ C * M)
    {δ' : ℚ} (hδ0 : 0 < δ') (hδ' : δ' * N ≤ δ) (hB : 2 * (BP + (C + E / En) * BQ) / δ' ≤ B)
    {u : ℝ} (hS : S.Lit u) (hu : u * BQ ≤ δ' / 2)
    {t f τ ε : ℝ} (h0 : 0 < t) (h1 : t ≤ 2.4676) (hτ : |f - pev T t / M| ≤ τ) (hε : (E:ℝ) / En + τ ≤ ε) :
    0 < rv S Q t ∧ |rv S P t / rv S Q t - f| ≤ ε + u * B := by
  have hM' : (0:ℝ) < M := by exact_mod_cast hM
  have hN' : (0:ℝ) < N := by exact_mod_cast hN
  obtain ⟨h2, h3⟩ := rcert_qv (x := t) hcert hden hN (by norm_num) (by norm_num) hM hEn hδ (by push_cast; norm_num; exact h0)
    (by refine h1.trans ?_; push_cast; norm_num)
  have hd : (δ' : ℝ) ≤ (δ : ℝ) / N := by
    rw [le_div_iff₀ hN']
    have := (Rat.cast_le (K := ℝ)).mpr hδ'
    push_cast at this; exact this
  have habs : |t| ≤ ((2.4677 : ℚ) : ℝ) := by rw [abs_of_pos h0]; push_cast; linarith
  have hpe : |pev T t / M| ≤ C := by
    rw [abs_div, abs_of_pos hM', div_le_iff₀ hM']
    have hL' := (Rat.cast_le (K := ℝ)).mpr hL
    push_cast at hL'
    exact (lipB_sound habs habs T).1.trans hL'
  obtain ⟨h4, h5⟩ := rat_approx P Q hS (z := t) (f := pev T t / M) (X := 2.4677) (C := C + E / En) (K := B) habs
    (by exact_mod_cast hδ0) (hd.trans h2) h3 (by linarith) hBP hBQ hu (by
      have := (Rat.cast_le (K := ℝ)).mpr hB
      push_cast at this; exact this)
  refine ⟨h4, ?_⟩
  rw [abs_sub_comm] at hτ
  calc _ ≤ _ := abs_sub_le _ (pev T t / M) _
    _ ≤ ((E:ℝ) / En + u * B) + τ := add_le_add h5 hτ
    _ ≤ _ := by linarith

/-- rational approximation in the shifted variable `z = t - π²/8` -/
theorem apxS {a b : ℕ} {P : Vector ℚ a} {Q : Vector ℚ b} {N : ℚ} {j n K : ℕ} {T : List ℤ} {M E En δ cn cd : ℤ}
    (hcert : rcert j n 0 12337 9999 (vZ N P) (vZ N Q) (paff cn cd cd T) (M * cd ^ K) E En δ = true)
    (hK : T.length = K + 1) (hcd : 0 < cd) 
    (hden : (P.toList ++ Q.toList).all (fun q => (q * N).den == 1) = true)
    (hN : 0 < N) (hM : 0 < M) (hEn : 0 < En) (hδ : 0 < δ)
    {BP BQ C B L : ℚ} (hBP : vAbs P 1.2339 ≤ BP) (hBQ : vAbs Q 1.2339 ≤ BQ) (hC : (lipB 2.4677 T).1 ≤ C * M) (hL : (lipB 2.4677 T).2 ≤ L * M)
    {δ' : ℚ} (hδ0 : 0 < δ') (hδ' : δ' * N ≤ δ) (hB : 2 * (BP + (C + E / En) * BQ) / δ' ≤ B)
    {u : ℝ} (hS : S.Lit u) (hu : u * BQ ≤ δ' / 2)
    {z t f τ ε η γ : ℝ} (hz : |z| ≤ 1.2338) (hγ : |(cn:ℝ) / cd - Real.pi ^ 2 / 8| ≤ γ) (hη : |z + Real.pi ^ 2 / 8 - t| ≤ η) (hγ1 : γ ≤ 1e-6)
    (h0 : 0 ≤ t) (h1 : t ≤ 2.4676) (hτ : |f - pev T t / M| ≤ τ) (hε : (E:ℝ) / En + τ + L * γ ≤ ε) :
    0 < rv S Q z ∧ |rv S P z / rv S Q z - f| ≤ ε + u * B + L * η ∧ |f| ≤ C + τ := by
  have hM' : (0:ℝ) < M := by exact_mod_cast hM
  have hN' : (0:ℝ) < N := by exact_mod_cast hN
  have hcd' : (0:ℝ) < cd := by exact_mod_cast hcd
  have hzb := abs_le.mp hz
  obtain ⟨h2, h3⟩ := rcert_qv (x := z) hcert hden hN (by norm_num) (by norm_num) (by positivity) hEn hδ (by push_cast; norm_num; linarith)
    (by push_cast; norm_num; linarith)
  have hpp : pev (paff cn cd cd T) z / ((M * cd ^ K : ℤ) : ℝ) = pev T (cn / cd + z) / M := by
    rw [pev_paff hcd hK]
    push_cast
    rw [mul_comm (M:ℝ), mul_div_mul_left _ _ (by positivity)]
    congr 2; field_simp
  rw [hpp] at h3
  have hd : (δ' : ℝ) ≤ (δ : ℝ) / N := by
    rw [le_div_iff₀ hN']
    have := (Rat.cast_le (K := ℝ)).mpr hδ'
    push_cast at this; exact this
  have hpi := pi_gt; have hpi2 := pi_lt
  have hc : |(cn:ℝ) / cd + z| ≤ ((2.4677 : ℚ) : ℝ) := by
    have h3 := abs_le.mp hγ
    have h5 : Real.pi ^ 2 / 8 ≤ 1.23371 := by nlinarith
    have h6 : 1.2337 ≤ Real.pi ^ 2 / 8 := by nlinarith
    push_cast
    rw [abs_le]; constructor <;> linarith
  have ht : |t| ≤ ((2.4677 : ℚ) : ℝ) := by rw [abs_of_nonneg h0]; push_cast; linarith
  obtain ⟨l1, l2, l3⟩ := lipB_sound hc ht T
  have hC' := (Rat.cast_le (K := ℝ)).mpr hC
  have hL' := (Rat.cast_le (K := ℝ)).mpr hL
  push_cast at hC' hL'
  have hpe : |pev T (cn / cd + z) / M| ≤ C := by
    rw [abs_div, abs_of_pos hM', div_le_iff₀ hM']
    exact l1.trans hC'
  have hL0 : (0:ℝ) ≤ L := by
    have : 0 ≤ (lipB 2.4677 T).2 := by
      have h1 : ∀ l, 0 ≤ (lipB 2.4677 l).1 ∧ 0 ≤ (lipB 2.4677 l).2 := by
        intro l; induction l with
        | nil => simp [lipB]
        | cons a l ih => simp only [lipB]; exact ⟨by have := ih.1; positivity, by have := ih.1; have := ih.2; positivity⟩
      exact (h1 T).2
    have h3 := this.trans hL
    have : 0 ≤ L := by
      by_contra hneg
      push Not at hneg
      have : L * M < 0 := mul_neg_of_neg_of_pos hneg (by exact_mod_cast hM)
      linarith
    exact_mod_cast this
  have hdiff : |pev T (cn / cd + z) / M - pev T t / M| ≤ L * (η + γ) := by
    rw [← sub_div, abs_div, abs_of_pos hM', div_le_iff₀ hM']
    refine l3.trans ?_
    have h7 : |(cn:ℝ) / cd + z - t| ≤ η + γ := by
      have e : (cn:ℝ) / cd + z - t = (z + Real.pi ^ 2 / 8 - t) + ((cn:ℝ) / cd - Real.pi ^ 2 / 8) := by ring
      rw [e]; exact (abs_add_le _ _).trans (add_le_add hη hγ)
    calc _ ≤ (L * M) * (η + γ) := mul_le_mul hL' h7 (abs_nonneg _) (by positivity)
      _ = _ := by ring
  have habs : |z| ≤ ((1.2339 : ℚ) : ℝ) := by push_cast; linarith
  obtain ⟨h4, h5⟩ := rat_approx P Q hS (z := z) (f := pev T (cn / cd + z) / M) (X := 1.2339) (C := C + E / En) (K := B) habs
    (by exact_mod_cast hδ0) (hd.trans h2) h3 (by linarith) hBP hBQ hu (by
      have := (Rat.cast_le (K := ℝ)).mpr hB
      push_cast at this; exact this)
  refine ⟨h4, ?_, ?_⟩
  rotate_left
  · have hp2 : |pev T t / M| ≤ C := by
      rw [abs_div, abs_of_pos hM', div_le_iff₀ hM']
      exact l2.trans hC'
    have := abs_sub_abs_le_abs_sub f (pev T t / M)
    linarith
  rw [abs_sub_comm] at hτ
  calc _ ≤ _ := abs_sub_le _ (pev T (cn / cd + z) / M) _
    _ ≤ ((E:ℝ) / En + u * B) + (L * (η + γ) + τ) := add_le_add h5 ((abs_sub_le _ (pev T t / M) _).trans (add_le_add hdiff hτ))
    _ ≤ _ := by linarith

end Polylog
