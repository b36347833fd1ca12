import Verif.Proofs.PolyCert
import Verif.Sem.Lit
import Mathlib.Analysis.SpecificLimits.Basic
import Mathlib.Algebra.BigOperators.Fin
import Mathlib.Algebra.BigOperators.Intervals

/-! # From certificates to error bounds

`rv S c x = ∑ rho(c_i) x^i` (compiled coefficients), `qv c x = ∑ c_i x^i` (decimal coefficients). -/

noncomputable section
namespace Polylog
open Finset

/-! ## Truncated power series with integer coefficients -/

theorem pev_range_map (T : ℕ → ℤ) (K : ℕ) (x : ℝ) :
    pev ((List.range K).map T) x = ∑ k ∈ range K, (T k : ℝ) * x ^ k := by
  induction K with
  | zero => simp
  | succ K ih =>
    rw [List.range_succ, List.map_append, pev_append, ih, Finset.sum_range_succ]
    simp; ring

theorem taylor_floor {a : ℕ → ℝ} {T : ℕ → ℤ} {K : ℕ} {M A x X f : ℝ} (hM : 0 < M)
    (hs : HasSum (fun k => a k * x ^ k) f) (hx : |x| ≤ X) (hX : X < 1)
    (hT : ∀ k < K, |(T k : ℝ) - M * a k| ≤ 1) (hA : ∀ k, K ≤ k → |a k| ≤ A) :
    |f - pev ((List.range K).map T) x / M| ≤ (1 / M + A * X ^ K) / (1 - X) := by
  have hX0 : 0 ≤ X := le_trans (abs_nonneg _) hx
  have h1X : 0 < 1 - X := by linarith
  have hgeo := hasSum_geometric_of_lt_one hX0 hX
  have hA0 : 0 ≤ A := le_trans (abs_nonneg _) (hA K le_rfl)
  have hs2 := (hasSum_nat_add_iff' K).mpr hs
  have htail : |f - ∑ k ∈ range K, a k * x ^ k| ≤ A * X ^ K * (1 - X)⁻¹ := by
    rw [← hs2.tsum_eq]
    have hb : ∀ k, ‖a (k + K) * x ^ (k + K)‖ ≤ A * X ^ K * X ^ k := by
      intro k
      rw [norm_mul, norm_pow, Real.norm_eq_abs, Real.norm_eq_abs, mul_assoc, ← pow_add, add_comm K k]
      exact mul_le_mul (hA _ (by omega)) (pow_le_pow_left₀ (abs_nonneg _) hx _) (by positivity) hA0
    have := tsum_of_norm_bounded (hgeo.mul_left (A * X ^ K)) hb
    rwa [Real.norm_eq_abs] at this
  have hhead : |∑ k ∈ range K, a k * x ^ k - pev ((List.range K).map T) x / M| ≤ 1 / M * (1 - X)⁻¹ := by
    rw [pev_range_map, Finset.sum_div, ← Finset.sum_sub_distrib]
    refine (Finset.abs_sum_le_sum_abs _ _).trans ?_
    have : ∀ k ∈ range K, |a k * x ^ k - (T k : ℝ) * x ^ k / M| ≤ 1 / M * X ^ k := by
      intro k hk
      have e : a k * x ^ k - (T k : ℝ) * x ^ k / M = -((T k : ℝ) - M * a k) * x ^ k / M := by
        field_simp; ring
      rw [e, abs_div, abs_mul, abs_neg, abs_of_pos hM, abs_pow, div_mul_eq_mul_div, one_mul]
      apply div_le_div_of_nonneg_right _ hM.le
      calc _ ≤ 1 * X ^ k := mul_le_mul (hT k (by simpa using hk)) (pow_le_pow_left₀ (abs_nonneg _) hx _) (by positivity) (by norm_num)
        _ = X ^ k := one_mul _
    refine (Finset.sum_le_sum this).trans ?_
    rw [← Finset.mul_sum]
    apply mul_le_mul_of_nonneg_left _ (by positivity)
    exact sum_le_hasSum _ (fun i _ => by positivity) hgeo
  calc |f - pev ((List.range K).map T) x / M|
      ≤ |f - ∑ k ∈ range K, a k * x ^ k| + |∑ k ∈ range K, a k * x ^ k - pev ((List.range K).map T) x / M| := abs_sub_le _ _ _
    _ ≤ A * X ^ K * (1 - X)⁻¹ + 1 / M * (1 - X)⁻¹ := add_le_add htail hhead
    _ = _ := by rw [div_eq_mul_inv]; ring

/-- integer approximations of `M / (k+1)^n` -/
def liT (n M : ℕ) (k : ℕ) : ℤ := ((M / (k + 1) ^ n : ℕ) : ℤ)

theorem nat_div_abs (M d : ℕ) (hd : 0 < d) : |(((M / d : ℕ) : ℤ) : ℝ) - M / d| ≤ 1 := by
  have h1 : ((M / d : ℕ) : ℝ) ≤ M / d := Nat.cast_div_le
  have h2 : (M : ℝ) / d < (M / d : ℕ) + 1 := by
    rw [div_lt_iff₀ (by exact_mod_cast hd)]
    have := Nat.lt_div_mul_add hd (a := M)
    have h3 : (M : ℝ) < ((M / d * d + d : ℕ) : ℝ) := by exact_mod_cast this
    push_cast at h3; linarith
  rw [Int.cast_natCast, abs_le]; constructor <;> linarith

theorem liT_abs (n M k : ℕ) : |(liT n M k : ℝ) - M * (1 / ((k : ℝ) + 1) ^ n)| ≤ 1 := by
  have := nat_div_abs M ((k + 1) ^ n) (by positivity)
  rw [liT]; push_cast at this ⊢
  rw [mul_one_div]; exact this

/-! ## Coefficient tables -/

variable {S : RealSem}

/-- `∑ rho(c_i) x^i` -/
def rv (S : RealSem) {n : ℕ} (c : Vector ℚ n) (x : ℝ) : ℝ := ∑ i : Fin n, ((S.rho c[i.1] : ℚ) : ℝ) * x ^ i.1
/-- `∑ c_i x^i` -/
def qv {n : ℕ} (c : Vector ℚ n) (x : ℝ) : ℝ := ∑ i : Fin n, ((c[i.1] : ℚ) : ℝ) * x ^ i.1
/-- integer numerators over the common denominator `N` -/
def vZ {n : ℕ} (N : ℚ) (c : Vector ℚ n) : List ℤ := c.toList.map (fun q => (q * N).num)
/-- `∑ |c_i| X^i` -/
def vAbs {n : ℕ} (c : Vector ℚ n) (X : ℚ) : ℚ := (c.toList.map (fun q => |q|)).foldr (fun a r => a + X * r) 0

theorem pev_list_num (N : ℚ) (l : List ℚ) (h : l.all (fun q => (q * N).den == 1) = true) (x : ℝ) :
    pev (l.map (fun q => (q * N).num)) x = N * ∑ i : Fin l.length, ((l[i] : ℚ) : ℝ) * x ^ i.1 := by
  induction l with
  | nil => simp
  | cons a l ih =>
    simp only [List.all_cons, Bool.and_eq_true, beq_iff_eq] at h
    have e : (((a * N).num : ℤ) : ℝ) = (a : ℝ) * N := by
      have : (((a * N).num : ℤ) : ℚ) = a * N := Rat.coe_int_num_of_den_eq_one h.1
      exact_mod_cast congrArg (fun q : ℚ => (q : ℝ)) this
    rw [List.map_cons, pev_cons, ih h.2, e]
    erw [Fin.sum_univ_succ (n := l.length)]
    simp only [Fin.getElem_fin, Fin.val_zero, List.getElem_cons_zero, pow_zero, mul_one, Fin.val_succ,
      List.getElem_cons_succ, pow_succ]
    simp only [mul_add, Finset.mul_sum]
    congr 1
    · ring
    · exact Finset.sum_congr rfl fun i _ => by ring

theorem pev_vZ {n : ℕ} {N : ℚ} {c : Vector ℚ n} (h : c.toList.all (fun q => (q * N).den == 1) = true) (x : ℝ) :
    pev (vZ N c) x = N * qv c x := by
  rw [vZ, pev_list_num N _ h, qv]
  congr 1
  obtain ⟨⟨l⟩, hl⟩ := c
  simp only [List.size_toArray] at hl
  subst hl
  rfl

theorem list_abs_foldr (l : List ℚ) (X : ℚ) :
    (((l.map (fun q => |q|)).foldr (fun a r => a + X * r) 0 : ℚ) : ℝ) = ∑ i : Fin l.length, |((l[i] : ℚ) : ℝ)| * (X : ℝ) ^ i.1 := by
  induction l with
  | nil => simp
  | cons a l ih =>
    rw [List.map_cons, List.foldr_cons, Rat.cast_add, Rat.cast_mul, ih, Finset.mul_sum]
    erw [Fin.sum_univ_succ (n := l.length)]
    simp only [Fin.getElem_fin, Fin.val_zero, List.getElem_cons_zero, pow_zero, mul_one, Fin.val_succ,
      List.getElem_cons_succ, pow_succ, Rat.cast_abs]
    congr 1
    exact Finset.sum_congr rfl fun i _ => by ring

theorem vAbs_eq {n : ℕ} (c : Vector ℚ n) (X : ℚ) :
    ((vAbs c X : ℚ) : ℝ) = ∑ i : Fin n, |((c[i.1] : ℚ) : ℝ)| * (X : ℝ) ^ i.1 := by
  rw [vAbs, list_abs_foldr]
  obtain ⟨⟨l⟩, hl⟩ := c
  simp only [List.size_toArray] at hl
  subst hl
  rfl

theorem rv_sub_qv {n : ℕ} {u : ℝ} (hS : S.Lit u) (c : Vector ℚ n) {x : ℝ} {X : ℚ} (hx : |x| ≤ X) :
    |rv S c x - qv c x| ≤ u * vAbs c X := by
  rw [rv, qv, ← Finset.sum_sub_distrib, vAbs_eq, Finset.mul_sum]
  refine (Finset.abs_sum_le_sum_abs _ _).trans (Finset.sum_le_sum fun i _ => ?_)
  rw [← sub_mul, abs_mul, abs_pow, ← mul_assoc]
  exact mul_le_mul (hS.rel _) (pow_le_pow_left₀ (abs_nonneg _) hx _) (by positivity)
    (mul_nonneg hS.u_nonneg (abs_nonneg _))

theorem qv_abs_le {n : ℕ} (c : Vector ℚ n) {x : ℝ} {X : ℚ} (hx : |x| ≤ X) : |qv c x| ≤ vAbs c X := by
  rw [qv, vAbs_eq]
  refine (Finset.abs_sum_le_sum_abs _ _).trans (Finset.sum_le_sum fun i _ => ?_)
  rw [abs_mul, abs_pow]
  exact mul_le_mul_of_nonneg_left (pow_le_pow_left₀ (abs_nonneg _) hx _) (abs_nonneg _)

/-- perturbed quotient -/
theorem quot_pert {p q p' q' ep eq δ C : ℝ} (hp : |p' - p| ≤ ep) (hq : |q' - q| ≤ eq) (hδ : 0 < δ) (hqδ : δ ≤ q)
    (he : eq ≤ δ / 2) (hC : |p / q| ≤ C) : δ / 2 ≤ q' ∧ |p' / q' - p / q| ≤ 2 * (ep + C * eq) / δ := by
  have hq0 : 0 < q := by linarith
  have hq' : δ / 2 ≤ q' := by have := (abs_le.mp hq).1; linarith
  have hq'0 : 0 < q' := by linarith
  refine ⟨hq', ?_⟩
  have e : p' / q' - p / q = ((p' - p) - (p / q) * (q' - q)) / q' := by field_simp; ring
  have hC0 : 0 ≤ C := le_trans (abs_nonneg _) hC
  rw [e, abs_div, abs_of_pos hq'0, div_le_div_iff₀ hq'0 hδ]
  have h1 : |p' - p - p / q * (q' - q)| ≤ ep + C * eq := by
    refine (abs_sub _ _).trans (add_le_add hp ?_)
    rw [abs_mul]; exact mul_le_mul hC hq (abs_nonneg _) hC0
  have h0 : 0 ≤ ep + C * eq := le_trans (abs_nonneg _) h1
  calc _ ≤ (ep + C * eq) * δ := mul_le_mul_of_nonneg_right h1 hδ.le
    _ ≤ 2 * (ep + C * eq) * q' := by nlinarith

/-- error of the compiled quotient from the error of the decimal one -/
theorem rat_approx {n m : ℕ} (P : Vector ℚ n) (Q : Vector ℚ m) {u : ℝ} (hS : S.Lit u) {z f ε δ C K : ℝ} {X BP BQ : ℚ}
    (hz : |z| ≤ X) (hδ : 0 < δ) (hQ : δ ≤ qv Q z) (hr : |qv P z / qv Q z - f| ≤ ε) (hf : |f| + ε ≤ C)
    (hBP : vAbs P X ≤ BP) (hBQ : vAbs Q X ≤ BQ) (hu : u * BQ ≤ δ / 2) (hK : 2 * (BP + C * BQ) / δ ≤ K) :
    0 < rv S Q z ∧ |rv S P z / rv S Q z - f| ≤ ε + u * K := by
  have hu0 := hS.u_nonneg
  have h1 : |rv S P z - qv P z| ≤ u * BP :=
    (rv_sub_qv hS P hz).trans (mul_le_mul_of_nonneg_left (by exact_mod_cast hBP) hu0)
  have h2 : |rv S Q z - qv Q z| ≤ u * BQ :=
    (rv_sub_qv hS Q hz).trans (mul_le_mul_of_nonneg_left (by exact_mod_cast hBQ) hu0)
  have hC : |qv P z / qv Q z| ≤ C := by
    have := abs_sub_abs_le_abs_sub (qv P z / qv Q z) f
    linarith
  obtain ⟨h3, h4⟩ := quot_pert h1 h2 hδ hQ hu hC
  refine ⟨by linarith, ?_⟩
  have e : 2 * (u * BP + C * (u * BQ)) / δ = u * (2 * (BP + C * BQ) / δ) := by ring
  rw [e] at h4
  have h5 := mul_le_mul_of_nonneg_left hK hu0
  calc _ ≤ |rv S P z / rv S Q z - qv P z / qv Q z| + |qv P z / qv Q z - f| := abs_sub_le _ _ _
    _ ≤ _ := by linarith

theorem rcert_qv {a b : ℕ} {P : Vector ℚ a} {Q : Vector ℚ b} {N : ℚ} {j n : ℕ} {p q d : ℤ} {T : List ℤ} {M E En δ : ℤ}
    (h : rcert j n p q d (vZ N P) (vZ N Q) T M E En δ = true)
    (hden : (P.toList ++ Q.toList).all (fun q => (q * N).den == 1) = true) (hN : 0 < N)
    (hq : 0 < q) (hd : 0 < d) (hM : 0 < M) (hEn : 0 < En) (hδ : 0 < δ)
    {x : ℝ} (h0 : ((p:ℝ) - q) / d < x) (h1 : x ≤ ((p:ℝ) + q) / d) :
    (δ : ℝ) / N ≤ qv Q x ∧ |qv P x / qv Q x - pev T x / M| ≤ (E : ℝ) / En := by
  rw [List.all_append, Bool.and_eq_true] at hden
  obtain ⟨h2, h3⟩ := rcert_sound h hq hd hM hEn hδ h0 h1
  have hN' : (0:ℝ) < N := by exact_mod_cast hN
  rw [pev_vZ hden.1, pev_vZ hden.2, mul_div_mul_left _ _ hN'.ne'] at h3
  rw [pev_vZ hden.2] at h2
  refine ⟨?_, h3⟩
  rw [div_le_iff₀ hN']; linarith

theorem pev_paff {p q d : ℤ} (hd : 0 < d) {l : List ℤ} {k : ℕ} (hk : l.length = k + 1) (t : ℝ) :
    pev (paff p q d l) t = (d : ℝ) ^ k * pev l ((p + q * t) / d) := by
  have h := pev_paffAux p q d hd l t
  have hd' : (d : ℝ) ≠ 0 := by exact_mod_cast hd.ne'
  rw [hk, pow_succ] at h
  have : (d : ℝ) * pev (paffAux p q d l).1 t = d * (d ^ k * pev l ((p + q * t) / d)) := by rw [h]; ring
  exact mul_left_cancel₀ hd' this

/-! ## evaluation at rational points -/

def vEv {n : ℕ} (c : Vector ℚ n) (X : ℚ) : ℚ := c.toList.foldr (fun a r => a + X * r) 0

theorem list_foldr_ev (l : List ℚ) (X : ℚ) :
    ((l.foldr (fun a r => a + X * r) 0 : ℚ) : ℝ) = ∑ i : Fin l.length, ((l[i] : ℚ) : ℝ) * (X : ℝ) ^ i.1 := by
  induction l with
  | nil => simp
  | cons a l ih =>
    rw [List.foldr_cons, Rat.cast_add, Rat.cast_mul, ih, Finset.mul_sum]
    erw [Fin.sum_univ_succ (n := l.length)]
    simp only [Fin.getElem_fin, Fin.val_zero, List.getElem_cons_zero, pow_zero, mul_one, Fin.val_succ,
      List.getElem_cons_succ, pow_succ]
    congr 1
    exact Finset.sum_congr rfl fun i _ => by ring

theorem qv_rat {n : ℕ} (c : Vector ℚ n) (X : ℚ) : qv c X = ((vEv c X : ℚ) : ℝ) := by
  rw [vEv, list_foldr_ev, qv]
  obtain ⟨⟨l⟩, hl⟩ := c
  simp only [List.size_toArray] at hl
  subst hl
  rfl

def pevQ (l : List ℤ) (X : ℚ) : ℚ := l.foldr (fun a r => a + X * r) 0

theorem pev_rat (l : List ℤ) (X : ℚ) : pev l X = ((pevQ l X : ℚ) : ℝ) := by
  induction l with
  | nil => simp [pevQ]
  | cons a l ih =>
    rw [pev_cons, ih]
    simp [pevQ]

theorem rv_id (h : S.rho = id) {n : ℕ} (c : Vector ℚ n) (x : ℝ) : rv S c x = qv c x := by
  simp [rv, qv, h]

end Polylog
