import Verif.Proofs.Clausen
import Verif.Proofs.Bern
import Verif.Props.LiCxGen

/-! # Rational values of the coefficients of the Clausen functions -/

noncomputable section
namespace Polylog
open Finset

/-- harmonic numbers -/
def hq : ℕ → ℚ
  | 0 => 0
  | n + 1 => hq n + 1 / (n + 1)

theorem hq_eq (n : ℕ) : hq n = _root_.harmonic n := by
  induction n with
  | zero => simp [hq]
  | succ n ih => rw [hq, ih, _root_.harmonic_succ]; simp

theorem bernL_prefix (k m m' : ℕ) (h : k ≤ m) (h2 : m ≤ m') : (bernL m').getD k 0 = (bernL m).getD k 0 := by
  have hl : ∀ m, (bernL m).length = m + 1 := by
    intro m; induction m with
    | zero => rfl
    | succ m ih => simp [bernL, ih]
  induction m', h2 using Nat.le_induction with
  | base => rfl
  | succ m' hm ih => rw [← ih, bernL, List.getD_append _ _ _ _ (by rw [hl]; omega)]

/-- sign `(-1)^j`, by recursion -/
def sg : ℕ → ℚ
  | 0 => 1
  | n + 1 => -sg n
theorem sg_eq (n : ℕ) : sg n = (-1) ^ n := by
  induction n with
  | zero => rfl
  | succ n ih => rw [sg, ih]; ring

/-- rational value of `loC`; `b` is `bernDen * B_{2(j-m)}` -/
def loQ (m p j : ℕ) (b : ℤ) : ℚ :=
  if j = m then sg m * hq (2 * m + p) / (2 * m + p).factorial
  else if j < m then sg j * zA.getD (2 * m + 1 - 2 * j) 0 / (2 * j + p).factorial
  else -(sg j * b / (bernDen * (2 * (j - m) : ℕ) * (2 * j + p).factorial))

theorem loC_lt (m p j : ℕ) (hj : j < m) : loC m p j = (-1) ^ j * reLi (2 * (m - j - 1) + 1 + 2) 1 / (2 * j + p).factorial := by
  rw [loC, if_neg (by omega), zcoef, if_neg (by push_cast; omega)]
  have e1 : ((((2 * m + p + 1 : ℕ) : ℤ) - ((2 * j + p : ℕ) : ℤ) : ℤ) : ℂ) = ((2 * (m - j - 1) + 1 : ℕ) : ℂ) + 2 := by
    have : ((2 * m + p + 1 : ℕ) : ℤ) - ((2 * j + p : ℕ) : ℤ) = ((2 * (m - j - 1) + 1 : ℕ) : ℤ) + 2 := by omega
    rw [this]; push_cast; rfl
  rw [e1, ← reLi_one_eq_zeta, ← Complex.ofReal_natCast, ← Complex.ofReal_div, Complex.ofReal_re, mul_div_assoc]

theorem loC_gt (m p j : ℕ) (hj : m < j) :
    loC m p j = -((-1) ^ j * ((bernoulli (2 * (j - m)) : ℚ) : ℝ) / ((2 * (j - m) : ℕ) * (2 * j + p).factorial)) := by
  rw [loC, if_neg (by omega), zcoef, if_neg (by push_cast; omega)]
  obtain ⟨i, rfl⟩ : ∃ i, j = m + 1 + i := ⟨j - m - 1, by omega⟩
  have e1 : ((((2 * m + p + 1 : ℕ) : ℤ) - ((2 * (m + 1 + i) + p : ℕ) : ℤ) : ℤ) : ℂ) = -((2 * i + 1 : ℕ) : ℂ) := by push_cast; ring
  rw [e1, riemannZeta_neg_nat_eq_bernoulli]
  have e2 : ((-1 : ℂ) ^ (2 * i + 1) * ((bernoulli (2 * i + 1 + 1) : ℚ) : ℂ) / (((2 * i + 1 : ℕ) : ℂ) + 1)) / ((2 * (m + 1 + i) + p).factorial : ℂ)
      = (((-1 : ℝ) ^ (2 * i + 1) * ((bernoulli (2 * i + 1 + 1) : ℚ) : ℝ) / (((2 * i + 1 : ℕ) : ℝ) + 1) / ((2 * (m + 1 + i) + p).factorial : ℝ) : ℝ) : ℂ) := by
    push_cast; rfl
  rw [e2, Complex.ofReal_re, show 2 * (m + 1 + i - m) = 2 * i + 1 + 1 by omega, pow_succ, pow_mul]
  push_cast
  norm_num
  field_simp

theorem loC_loQ_ge (m p j : ℕ) (hj : m ≤ j) (h2 : j ≤ m + 202) : loC m p j = ((loQ m p j ((bernL 202).getD (j - m) 0) : ℚ) : ℝ) := by
  rcases hj.eq_or_lt with rfl | hj
  · rw [loC, if_pos rfl, loQ, if_pos rfl, hq_eq, sg_eq]; push_cast; rfl
  · rw [loC_gt m p j hj, loQ, if_neg (by omega), if_neg (by omega), bernoulli_even _ (by omega), sg_eq]
    push_cast
    have : (bernDen : ℝ) ≠ 0 := by exact_mod_cast bernDen_pos.ne'
    have h3 : ((j - m : ℕ) : ℝ) ≠ 0 := by
      have : j - m ≠ 0 := by omega
      exact_mod_cast this
    have h4 : ((2 * j + p).factorial : ℝ) ≠ 0 := by exact_mod_cast (Nat.factorial_ne_zero _)
    field_simp

theorem loC_loQ (m p j : ℕ) (hm : m ≤ 2) (h2 : j ≤ m + 202) : |loC m p j - ((loQ m p j ((bernL 202).getD (j - m) 0) : ℚ) : ℝ)| ≤ 6e-42 := by
  rcases le_or_gt m j with h | h
  · rw [loC_loQ_ge m p j h h2, sub_self, abs_zero]; norm_num
  · rw [loC_lt m p j h, loQ, if_neg (by omega), if_pos h, sg_eq]
    have hz := zA_approx (2 * (m - j - 1) + 1) (by omega)
    rw [show 2 * m + 1 - 2 * j = 2 * (m - j - 1) + 1 + 2 by omega]
    have hf : (1:ℝ) ≤ (2 * j + p).factorial := by exact_mod_cast Nat.one_le_iff_ne_zero.mpr (Nat.factorial_ne_zero _)
    have e : (-1) ^ j * reLi (2 * (m - j - 1) + 1 + 2) 1 / (2 * j + p).factorial
        - (((-1) ^ j * zA.getD (2 * (m - j - 1) + 1 + 2) 0 / (2 * j + p).factorial : ℚ) : ℝ)
        = (-1) ^ j * (reLi (2 * (m - j - 1) + 1 + 2) 1 - ((zA.getD (2 * (m - j - 1) + 1 + 2) 0 : ℚ) : ℝ)) / (2 * j + p).factorial := by
      push_cast; ring
    rw [e, abs_div, abs_mul, abs_pow, abs_neg, abs_one, one_pow, one_mul, Nat.abs_cast]
    exact (div_le_self (abs_nonneg _) hf).trans hz

/-- `log 2` -/
def l2Q : ℚ := 0.693147180559945309417232121458176568075500134360255

theorem l2_cert : |l2Q - eQ 0| ≤ 4e-42 := by decide +kernel

theorem l2Q_approx : |Real.log 2 - ((l2Q : ℚ) : ℝ)| ≤ 6e-42 := by
  have h1 := eQ_approx 0 (by norm_num)
  have h2 := (Rat.cast_le (K := ℝ)).mpr l2_cert
  have e : -reLi (0 + 1) (-1) = Real.log 2 := by
    rw [zero_add, reLi_one, neg_neg]; norm_num
  rw [e] at h1
  push_cast at h2
  rw [abs_sub_comm] at h2
  calc _ ≤ _ := abs_sub_le _ ((eQ 0 : ℚ) : ℝ) _
    _ ≤ 1e-42 + 4e-42 := add_le_add h1 h2
    _ ≤ _ := by norm_num

/-- rational value of `hiC` -/
def hiQ (m p j : ℕ) (b : ℤ) : ℚ :=
  sg p * (if j = m then -(sg m * l2Q / (2 * m + p).factorial) else ((4 ^ j : ℕ) / (4 ^ m : ℕ) - 1) * loQ m p j b)

theorem hiC_hiQ_gt (m p j : ℕ) (hj : m < j) (h2 : j ≤ m + 202) : hiC m p j = ((hiQ m p j ((bernL 202).getD (j - m) 0) : ℚ) : ℝ) := by
  rw [hiC, hiQ, if_neg (by omega), if_neg (by omega), loC_loQ_ge m p j hj.le h2, sg_eq]
  push_cast; rfl

theorem hiC_hiQ (m p j : ℕ) (hm : m ≤ 2) (h2 : j ≤ m + 202) : |hiC m p j - ((hiQ m p j ((bernL 202).getD (j - m) 0) : ℚ) : ℝ)| ≤ 6e-42 := by
  rcases lt_trichotomy j m with h | h | h
  · rw [hiC, hiQ, if_neg (by omega), if_neg (by omega), sg_eq]
    have hz := loC_loQ m p j hm h2
    have e : (-1) ^ p * (((4:ℝ) ^ j / 4 ^ m - 1) * loC m p j) - (((-1) ^ p * (((4 ^ j : ℕ) / (4 ^ m : ℕ) - 1) * loQ m p j ((bernL 202).getD (j - m) 0)) : ℚ) : ℝ)
        = (-1) ^ p * (((4:ℝ) ^ j / 4 ^ m - 1) * (loC m p j - ((loQ m p j ((bernL 202).getD (j - m) 0) : ℚ) : ℝ))) := by
      push_cast; ring
    have h3 : |(4:ℝ) ^ j / 4 ^ m - 1| ≤ 1 := by
      have h4 : (4:ℝ) ^ j / 4 ^ m ≤ 1 := by
        rw [div_le_one (by positivity)]; exact pow_le_pow_right₀ (by norm_num) h.le
      have h5 : 0 ≤ (4:ℝ) ^ j / 4 ^ m := by positivity
      rw [abs_le]; constructor <;> linarith
    rw [e, abs_mul, abs_pow, abs_neg, abs_one, one_pow, one_mul, abs_mul]
    calc _ ≤ 1 * 6e-42 := mul_le_mul h3 hz (abs_nonneg _) (by norm_num)
      _ = _ := one_mul _
  · subst h
    rw [hiC, hiQ, if_pos rfl, if_pos rfl, sg_eq, sg_eq]
    have hf : (1:ℝ) ≤ (2 * j + p).factorial := by exact_mod_cast Nat.one_le_iff_ne_zero.mpr (Nat.factorial_ne_zero _)
    have e : (-1:ℝ) ^ p * -((-1) ^ j * Real.log 2 / (2 * j + p).factorial) - (((-1) ^ p * -((-1) ^ j * l2Q / (2 * j + p).factorial) : ℚ) : ℝ)
        = -((-1) ^ p * ((-1) ^ j * (Real.log 2 - ((l2Q : ℚ) : ℝ)))) / (2 * j + p).factorial := by
      push_cast; ring
    rw [e, abs_div, abs_neg, abs_mul, abs_mul, abs_pow, abs_neg, abs_one, one_pow, one_mul, abs_pow, abs_neg, abs_one, one_pow, one_mul, Nat.abs_cast]
    exact (div_le_self (abs_nonneg _) hf).trans l2Q_approx
  · rw [hiC_hiQ_gt m p j h h2, sub_self, abs_zero]; norm_num

/-! ## integer tables -/

/-- `|T_j - M * f j b_j| ≤ 1`, `j ≥ j0` -/
def tabChk (M : ℚ) (f : ℕ → ℤ → ℚ) (m : ℕ) : ℕ → List ℤ → List ℤ → Bool
  | _, [], _ => true
  | j, t :: T, L => decide (|(t : ℚ) - M * f j (L.headD 0)| ≤ 1) && tabChk M f m (j + 1) T (if m ≤ j then L.tail else L)

theorem tabChk_sound {M : ℚ} {f : ℕ → ℤ → ℚ} {m : ℕ} (L0 : List ℤ) : ∀ {T : List ℤ} {j0 : ℕ} {L : List ℤ},
    (∀ i, L.getD i 0 = L0.getD (j0 - m + i) 0) → tabChk M f m j0 T L = true →
    ∀ k < T.length, |((T.getD k 0 : ℤ) : ℚ) - M * f (j0 + k) (L0.getD (j0 + k - m) 0)| ≤ 1 := by
  intro T
  induction T with
  | nil => intro j0 L _ _ k hk; simp at hk
  | cons t T ih =>
    intro j0 L hL h k hk
    rw [tabChk, Bool.and_eq_true, decide_eq_true_eq] at h
    rcases k with _ | k
    · have h0 := hL 0
      have : L.headD 0 = L0.getD (j0 - m) 0 := by
        rw [add_zero] at h0; rw [← h0]; cases L <;> simp
      rw [this] at h
      simpa using h.1
    · have := ih (j0 := j0 + 1) (L := if m ≤ j0 then L.tail else L) (by
        intro i
        split
        · rename_i hm
          have := hL (i + 1)
          rw [show j0 + 1 - m + i = j0 - m + (i + 1) by omega, ← this]
          cases L <;> simp
        · rename_i hm
          rw [show j0 + 1 - m = j0 - m by omega, hL i]) h.2 k (by simpa using hk)
      rw [show j0 + (k + 1) = j0 + 1 + k by omega]
      simpa using this

/-- truncated expansion with integer coefficients; the first three may be less accurate -/
theorem taylor_cl {a : ℕ → ℝ} {T : List ℤ} {M D A q x f : ℝ} (hM : 0 < M)
    (hs : HasSum (fun k => a k * x ^ k) f) (h0 : 0 ≤ x) (hx : x ≤ 2.4677) (hq0 : 0 ≤ q) (hq : q < 1)
    (hT : ∀ k < T.length, |((T.getD k 0 : ℤ) : ℝ) - M * a k| ≤ if k < 3 then D else 1)
    (hD : 1 ≤ D) (hA0 : 0 ≤ A)
    (hA : ∀ k, T.length ≤ k → |a k| * 2.4677 ^ k ≤ A * q ^ k) :
    |f - pev T x / M| ≤ (10 * D + 2 * 2.4677 ^ T.length) / M + A * q ^ T.length / (1 - q) := by
  set K := T.length with hK
  have hpev : pev T x = ∑ k ∈ range K, ((T.getD k 0 : ℤ) : ℝ) * x ^ k := by
    rw [← pev_range_map (fun k => T.getD k 0) K x]
    congr 1
    apply List.ext_getElem
    · simp [hK]
    · intro i h1 h2; simp [List.getElem?_eq_getElem h1]
  have hgeo := hasSum_geometric_of_lt_one hq0 hq
  have hs2 := (hasSum_nat_add_iff' K).mpr hs
  have hxk : ∀ k, |x ^ k| ≤ 2.4677 ^ k := fun k => by
    rw [abs_of_nonneg (by positivity)]; exact pow_le_pow_left₀ h0 hx k
  have htail : |f - ∑ k ∈ range K, a k * x ^ k| ≤ A * q ^ K * (1 - q)⁻¹ := by
    rw [← hs2.tsum_eq]
    have hb : ∀ k, ‖a (k + K) * x ^ (k + K)‖ ≤ A * q ^ K * q ^ k := by
      intro k
      rw [Real.norm_eq_abs, abs_mul]
      calc _ ≤ |a (k + K)| * 2.4677 ^ (k + K) := mul_le_mul_of_nonneg_left (hxk _) (abs_nonneg _)
        _ ≤ A * q ^ (k + K) := hA _ (by omega)
        _ = _ := by rw [pow_add]; ring
    have := tsum_of_norm_bounded (hgeo.mul_left (A * q ^ K)) hb
    rwa [Real.norm_eq_abs] at this
  have hsum : ∀ K, ∑ k ∈ range K, (if k < 3 then D else 1) * (2.4677 : ℝ) ^ k ≤ 10 * D + 2 * 2.4677 ^ K := by
    intro K
    have h1 : ∑ k ∈ range K, (if k < 3 then D else 1) * (2.4677 : ℝ) ^ k ≤ ∑ k ∈ range (K + 3), (if k < 3 then D else 1) * (2.4677 : ℝ) ^ k := by
      apply Finset.sum_le_sum_of_subset_of_nonneg (Finset.range_mono (by omega))
      intro i _ _; split_ifs <;> positivity
    have h2 : ∀ K, ∑ k ∈ range K, (if k < 3 then D else 1) * (2.4677 : ℝ) ^ k ≤ 10 * D + 2.4677 ^ K / 1.4677 := by
      intro K
      have h3 : ∀ k, (if k < 3 then D else 1) * (2.4677 : ℝ) ^ k ≤ (if k < 3 then (D - 1) * 2.4677 ^ k else 0) + 2.4677 ^ k := by
        intro k; split_ifs
        · exact le_of_eq (by ring)
        · simp
      refine (Finset.sum_le_sum fun k _ => h3 k).trans ?_
      rw [Finset.sum_add_distrib]
      have h4 : ∑ k ∈ range K, (if k < 3 then (D - 1) * (2.4677:ℝ) ^ k else 0) ≤ 10 * (D - 1) := by
        calc _ ≤ ∑ k ∈ range (K + 3), (if k < 3 then (D - 1) * (2.4677:ℝ) ^ k else 0) := by
              apply Finset.sum_le_sum_of_subset_of_nonneg (Finset.range_mono (by omega))
              intro i _ _; split_ifs
              · have : 0 ≤ D - 1 := by linarith
                positivity
              · rfl
          _ = ∑ k ∈ range 3, (D - 1) * (2.4677:ℝ) ^ k := by
              rw [add_comm, Finset.sum_range_add]
              rw [Finset.sum_congr rfl (g := fun k => (D - 1) * (2.4677:ℝ) ^ k) (fun k hk => by rw [if_pos (by simpa using hk)])]
              rw [add_eq_left]
              exact Finset.sum_eq_zero fun k _ => by rw [if_neg (by omega)]
          _ ≤ _ := by
              simp only [Finset.sum_range_succ, Finset.sum_range_zero]
              have : 0 ≤ D - 1 := by linarith
              nlinarith
      have h5 : ∑ k ∈ range K, (2.4677:ℝ) ^ k ≤ 2.4677 ^ K / 1.4677 := by
        rw [geom_sum_eq (by norm_num)]
        have : (0:ℝ) ≤ 2.4677 ^ K := by positivity
        rw [show (2.4677:ℝ) - 1 = 1.4677 by norm_num]
        apply div_le_div_of_nonneg_right _ (by norm_num)
        linarith
      linarith
    refine (h2 K).trans ?_
    have : (0:ℝ) ≤ 2.4677 ^ K := by positivity
    have : (2.4677:ℝ) ^ K / 1.4677 ≤ 2 * 2.4677 ^ K := by
      rw [div_le_iff₀ (by norm_num)]; linarith
    linarith
  have hhead : |∑ k ∈ range K, a k * x ^ k - pev T x / M| ≤ (10 * D + 2 * 2.4677 ^ K) / M := by
    rw [hpev, Finset.sum_div, ← Finset.sum_sub_distrib]
    refine (Finset.abs_sum_le_sum_abs _ _).trans ?_
    have : ∀ k ∈ range K, |a k * x ^ k - ((T.getD k 0 : ℤ) : ℝ) * x ^ k / M| ≤ (if k < 3 then D else 1) * 2.4677 ^ k / M := by
      intro k hk
      have e : a k * x ^ k - ((T.getD k 0 : ℤ) : ℝ) * x ^ k / M = -(((T.getD k 0 : ℤ) : ℝ) - M * a k) * x ^ k / M := by
        field_simp; ring
      rw [e, abs_div, abs_mul, abs_neg, abs_of_pos hM]
      apply div_le_div_of_nonneg_right _ hM.le
      exact mul_le_mul (hT k (by simpa using hk)) (hxk k) (abs_nonneg _) (by split_ifs <;> linarith)
    refine (Finset.sum_le_sum this).trans ?_
    rw [← Finset.sum_div]
    exact div_le_div_of_nonneg_right (hsum K) hM.le
  calc |f - pev T x / M|
      ≤ |f - ∑ k ∈ range K, a k * x ^ k| + |∑ k ∈ range K, a k * x ^ k - pev T x / M| := abs_sub_le _ _ _
    _ ≤ A * q ^ K * (1 - q)⁻¹ + (10 * D + 2 * 2.4677 ^ K) / M := add_le_add htail hhead
    _ = _ := by rw [div_eq_mul_inv (A * q ^ K)]; ring

end Polylog
