import Mathlib.Data.Real.Basic
import Mathlib.Algebra.Order.AbsoluteValue.Basic
import Mathlib.Tactic.Linarith
import Mathlib.Tactic.FieldSimp
import Mathlib.Tactic.Ring
import Mathlib.Tactic.Positivity
import Mathlib.Algebra.Order.Field.Basic

/-! # Certified nonnegativity of integer polynomials on intervals

Integer polynomials as coefficient lists; a checker, run by Lean's kernel (`decide +kernel`), for
`0 ≤ p(x)` on an interval: change of variable to `[-1,1]`, truncation of the small high-order
coefficients, Descartes test with bisection.  The checker is proved correct here. -/

namespace Polylog

/-- `∑ l_i x^i` -/
def pev : List ℤ → ℝ → ℝ
  | [], _ => 0
  | a :: l, x => a + x * pev l x

@[simp] theorem pev_nil (x : ℝ) : pev [] x = 0 := rfl
@[simp] theorem pev_cons (a : ℤ) (l : List ℤ) (x : ℝ) : pev (a :: l) x = a + x * pev l x := rfl

/-- addition -/
def padd : List ℤ → List ℤ → List ℤ
  | [], m => m
  | l, [] => l
  | a :: l, b :: m => (a + b) :: padd l m

theorem pev_padd (l m : List ℤ) (x : ℝ) : pev (padd l m) x = pev l x + pev m x := by
  induction l generalizing m with
  | nil => simp [padd]
  | cons a l ih =>
    cases m with
    | nil => simp [padd]
    | cons b m => simp [padd, ih]; ring

/-- scalar multiple -/
def psmul (c : ℤ) (l : List ℤ) : List ℤ := l.map (c * ·)

theorem pev_psmul (c : ℤ) (l : List ℤ) (x : ℝ) : pev (psmul c l) x = c * pev l x := by
  induction l with
  | nil => simp [psmul]
  | cons a l ih =>
    simp only [psmul, List.map_cons, pev_cons] at ih ⊢
    rw [ih]; push_cast; ring

/-- product -/
def pmul : List ℤ → List ℤ → List ℤ
  | [], _ => []
  | a :: l, m => padd (psmul a m) (0 :: pmul l m)

theorem pev_pmul (l m : List ℤ) (x : ℝ) : pev (pmul l m) x = pev l x * pev m x := by
  induction l with
  | nil => simp [pmul]
  | cons a l ih => simp [pmul, pev_padd, pev_psmul, ih]; ring

/-- `(p + q t) * l(t)`, `prev` the previous coefficient times `q` -/
def pmulLin (p q : ℤ) : ℤ → List ℤ → List ℤ
  | c, [] => [c]
  | c, a :: l => (p * a + c) :: pmulLin p q (q * a) l

theorem pev_pmulLin (p q c : ℤ) (l : List ℤ) (x : ℝ) :
    pev (pmulLin p q c l) x = c + (p + q * x) * pev l x := by
  induction l generalizing c with
  | nil => simp [pmulLin]
  | cons a l ih => simp only [pmulLin, pev_cons, ih]; push_cast; ring

/-- integer coefficients of `d^(length-1) * l((p + q t)/d)`; also returns `d^length` -/
def paffAux (p q d : ℤ) : List ℤ → List ℤ × ℤ
  | [] => ([], 1)
  | a :: l =>
    let r := paffAux p q d l
    (pmulLin p q (a * r.2) r.1, r.2 * d)

/-- integer coefficients of `d^(length-1) * l((p + q t)/d)` -/
def paff (p q d : ℤ) (l : List ℤ) : List ℤ := (paffAux p q d l).1

theorem paffAux_snd (p q d : ℤ) (l : List ℤ) : (paffAux p q d l).2 = d ^ l.length := by
  induction l with
  | nil => simp [paffAux]
  | cons a l ih => simp [paffAux, ih, pow_succ]

theorem pev_paffAux (p q d : ℤ) (hd : 0 < d) (l : List ℤ) (t : ℝ) :
    (d : ℝ) * pev (paffAux p q d l).1 t = (d : ℝ) ^ l.length * pev l ((p + q * t) / d) := by
  have hd' : (d : ℝ) ≠ 0 := by exact_mod_cast hd.ne'
  induction l with
  | nil => simp [paffAux]
  | cons a l ih =>
    simp only [paffAux, pev_pmulLin, paffAux_snd, List.length_cons, pev_cons]
    push_cast
    have : (d : ℝ) * ((a * d ^ l.length) + (p + q * t) * pev (paffAux p q d l).1 t)
      = a * d ^ (l.length + 1) + (p + q * t) * (d * pev (paffAux p q d l).1 t) := by ring
    rw [this, ih]; field_simp; ring

theorem pev_paff_nonneg {p q d : ℤ} (hd : 0 < d) {l : List ℤ} {t : ℝ} (h : 0 ≤ pev (paff p q d l) t) :
    0 ≤ pev l ((p + q * t) / d) := by
  have hd' : (0:ℝ) < d := by exact_mod_cast hd
  have h1 := pev_paffAux p q d hd l t
  have h2 : (0:ℝ) ≤ (d : ℝ) ^ l.length * pev l ((p + q * t) / d) := by
    rw [← h1]; exact mul_nonneg hd'.le h
  exact nonneg_of_mul_nonneg_right h2 (by positivity)

/-- `c + (1 + t) * l(t)` -/
def pmul1 : ℤ → List ℤ → List ℤ
  | c, [] => [c]
  | c, a :: l => (a + c) :: pmul1 a l

theorem pev_pmul1 (c : ℤ) (l : List ℤ) (x : ℝ) : pev (pmul1 c l) x = c + (1 + x) * pev l x := by
  induction l generalizing c with
  | nil => simp [pmul1]
  | cons a l ih => simp only [pmul1, pev_cons, ih]; push_cast; ring

/-- coefficients of `l(t+1)` -/
def pshift : List ℤ → List ℤ
  | [] => []
  | a :: l => pmul1 a (pshift l)

theorem pev_pshift (l : List ℤ) (x : ℝ) : pev (pshift l) x = pev l (1 + x) := by
  induction l with
  | nil => rfl
  | cons a l ih => rw [pshift, pev_pmul1, ih, pev_cons]

theorem pev_nonneg_of_all {l : List ℤ} (h : l.all (fun a => decide (0 ≤ a)) = true) {x : ℝ} (hx : 0 ≤ x) :
    0 ≤ pev l x := by
  induction l with
  | nil => simp
  | cons a l ih =>
    simp only [List.all_cons, Bool.and_eq_true, decide_eq_true_eq] at h
    have ha : (0:ℝ) ≤ a := by exact_mod_cast h.1
    have := ih h.2
    rw [pev_cons]; positivity

theorem pev_append (l m : List ℤ) (x : ℝ) : pev (l ++ m) x = pev l x + x ^ l.length * pev m x := by
  induction l with
  | nil => simp
  | cons a l ih => simp [ih, pow_succ]; ring

/-- `x^(n-1) l(1/x)` is the reversed polynomial -/
theorem pev_reverse (l : List ℤ) {x : ℝ} (hx : x ≠ 0) :
    x * pev l.reverse x = x ^ l.length * pev l x⁻¹ := by
  induction l with
  | nil => simp
  | cons a l ih =>
    rw [List.reverse_cons, pev_append, mul_add, ih, List.length_reverse, List.length_cons]
    simp only [pev_cons, pev_nil, mul_zero, add_zero]
    field_simp; ring

/-- scale `l(t/2) * 2^(n-1)`, in Horner order; returns also `2^length` -/
def phalfAux : List ℤ → List ℤ × ℤ
  | [] => ([], 1)
  | a :: l => let r := phalfAux l; (a * r.2 :: r.1, r.2 * 2)

theorem phalfAux_snd (l : List ℤ) : (phalfAux l).2 = 2 ^ l.length := by
  induction l with
  | nil => simp [phalfAux]
  | cons a l ih => simp [phalfAux, ih, pow_succ]

theorem pev_phalf (l : List ℤ) (t : ℝ) : 2 * pev (phalfAux l).1 t = 2 ^ l.length * pev l (t / 2) := by
  induction l with
  | nil => simp [phalfAux]
  | cons a l ih =>
    simp only [phalfAux, pev_cons, phalfAux_snd, List.length_cons]
    push_cast
    rw [mul_add, show (2:ℝ) * (t * pev (phalfAux l).1 t) = t * (2 * pev (phalfAux l).1 t) by ring, ih, pow_succ]
    ring

/-- nonnegativity on `(0,1]`: Descartes test and bisection -/
def pnn : ℕ → List ℤ → Bool
  | 0, l => (pshift l.reverse).all (fun a => decide (0 ≤ a))
  | n + 1, l =>
    match (pshift l.reverse).all (fun a => decide (0 ≤ a)) with
    | true => true
    | false =>
      let left := (phalfAux l).1
      match pnn n left with
      | true => pnn n (pshift left)
      | false => false

theorem pev_nonneg_of_shift {l : List ℤ} (h : (pshift l.reverse).all (fun a => decide (0 ≤ a)) = true)
    {y : ℝ} (h0 : 0 < y) (h1 : y ≤ 1) : 0 ≤ pev l y := by
  have hy : 0 ≤ y⁻¹ - 1 := by
    have := one_le_inv_iff₀.mpr ⟨h0, h1⟩; linarith
  have h2 := pev_nonneg_of_all h hy
  rw [pev_pshift, show 1 + (y⁻¹ - 1) = y⁻¹ by ring] at h2
  have h3 := pev_reverse l (inv_ne_zero h0.ne')
  rw [inv_inv] at h3
  have hyi : 0 < y⁻¹ := inv_pos.mpr h0
  have h4 : 0 ≤ y⁻¹ ^ l.length * pev l y := by rw [← h3]; exact mul_nonneg hyi.le h2
  exact nonneg_of_mul_nonneg_right h4 (by positivity)

theorem pnn_sound (n : ℕ) {l : List ℤ} (h : pnn n l = true) {y : ℝ} (h0 : 0 < y) (h1 : y ≤ 1) :
    0 ≤ pev l y := by
  induction n generalizing l y with
  | zero => exact pev_nonneg_of_shift h h0 h1
  | succ n ih =>
    rw [pnn] at h
    split at h
    · rename_i h2; exact pev_nonneg_of_shift h2 h0 h1
    · dsimp only at h
      split at h
      · rename_i hl
        have key : 0 ≤ pev (phalfAux l).1 (2 * y) := by
          rcases le_or_gt (2 * y) 1 with h2 | h2
          · exact ih hl (by linarith) h2
          · have := ih h (y := 2 * y - 1) (by linarith) (by linarith)
            rwa [pev_pshift, show 1 + (2 * y - 1) = 2 * y by ring] at this
        have h4 := pev_phalf l (2 * y)
        rw [show 2 * y / 2 = y by ring] at h4
        have h5 : 0 ≤ (2:ℝ) ^ l.length * pev l y := by rw [← h4]; positivity
        exact nonneg_of_mul_nonneg_right h5 (by positivity)
      · exact absurd h (by simp)

/-- sum of absolute values -/
def pabs : List ℤ → ℤ
  | [] => 0
  | a :: l => |a| + pabs l

theorem pev_abs_le (l : List ℤ) {x : ℝ} (hx : |x| ≤ 1) : |pev l x| ≤ pabs l := by
  induction l with
  | nil => simp [pabs]
  | cons a l ih =>
    simp only [pev_cons, pabs]
    push_cast
    calc |(a:ℝ) + x * pev l x| ≤ |(a:ℝ)| + |x * pev l x| := abs_add_le _ _
      _ ≤ |(a:ℝ)| + pabs l := by
        rw [abs_mul]
        have : |x| * |pev l x| ≤ 1 * pabs l := mul_le_mul hx ih (abs_nonneg _) (by norm_num)
        linarith

/-- subtract `c` from the constant coefficient -/
def psub0 (c : ℤ) : List ℤ → List ℤ
  | [] => [-c]
  | a :: l => (a - c) :: l

theorem pev_psub0 (c : ℤ) (l : List ℤ) (x : ℝ) : pev (psub0 c l) x = pev l x - c := by
  cases l <;> simp [psub0]; ring

/-- nonnegativity of `l` on `[(p-q)/d, (p+q)/d]`: keep `j` coefficients in the local variable, bisection
depth `n` -/
def pcert (j n : ℕ) (p q d : ℤ) (l : List ℤ) : Bool :=
  let l' := paff p q d l
  pnn n (paff (-1) 2 1 (psub0 (pabs (l'.drop j)) (l'.take j)))

theorem pcert_sound {j n : ℕ} {p q d : ℤ} (hq : 0 < q) (hd : 0 < d) {l : List ℤ} (h : pcert j n p q d l = true)
    {x : ℝ} (h0 : ((p:ℝ) - q) / d < x) (h1 : x ≤ ((p:ℝ) + q) / d) : 0 ≤ pev l x := by
  have hd' : (0:ℝ) < d := by exact_mod_cast hd
  have hq' : (0:ℝ) < q := by exact_mod_cast hq
  set t : ℝ := (d * x - p) / q with ht
  have hx : x = (p + q * t) / d := by rw [ht]; field_simp; ring
  have ht0 : -1 < t := by
    rw [ht, lt_div_iff₀ hq']
    rw [div_lt_iff₀ hd'] at h0; linarith
  have ht1 : t ≤ 1 := by
    rw [ht, div_le_iff₀ hq']
    rw [le_div_iff₀ hd'] at h1; linarith
  rw [hx]
  apply pev_paff_nonneg hd
  set l' := paff p q d l with hl'
  have hs := pnn_sound n h (y := (t + 1) / 2) (by linarith) (by linarith)
  have h2 := pev_paff_nonneg (p := -1) (q := 2) (d := 1) one_pos hs
  have e : (((-1:ℤ):ℝ) + ((2:ℤ):ℝ) * ((t + 1) / 2)) / ((1:ℤ):ℝ) = t := by push_cast; ring
  rw [e, pev_psub0] at h2
  have h3 : pev l' t = pev (l'.take j) t + t ^ (l'.take j).length * pev (l'.drop j) t := by
    rw [← pev_append, List.take_append_drop]
  have habs : |t| ≤ 1 := abs_le.mpr ⟨ht0.le, ht1⟩
  have h4 := pev_abs_le (l'.drop j) habs
  have h5 : |t ^ (l'.take j).length * pev (l'.drop j) t| ≤ pabs (l'.drop j) := by
    rw [abs_mul, abs_pow]
    calc _ ≤ 1 * |pev (l'.drop j) t| := by
          apply mul_le_mul_of_nonneg_right (pow_le_one₀ (abs_nonneg _) habs) (abs_nonneg _)
      _ ≤ _ := by rw [one_mul]; exact h4
  rw [h3]
  have := (abs_le.mp h5).1
  linarith

/-- certificate for `|P/Q - T/M| ≤ E/N` and `Q ≥ δ` (`Q`, `P` integer lists with a common scale) -/
def rcert (j n : ℕ) (p q d : ℤ) (P Q T : List ℤ) (M E N δ : ℤ) : Bool :=
  let A := psmul N (padd (psmul M P) (psmul (-1) (pmul T Q)))
  let B := psmul (E * M) Q
  pcert j n p q d (padd B A) && pcert j n p q d (padd B (psmul (-1) A)) && pcert j n p q d (psub0 δ Q)

theorem rcert_sound {j n : ℕ} {p q d : ℤ} {P Q T : List ℤ} {M E N δ : ℤ}
    (h : rcert j n p q d P Q T M E N δ = true) (hq : 0 < q) (hd : 0 < d) (hM : 0 < M) (hN : 0 < N) (hδ : 0 < δ)
    {x : ℝ} (h0 : ((p:ℝ) - q) / d < x) (h1 : x ≤ ((p:ℝ) + q) / d) :
    (δ : ℝ) ≤ pev Q x ∧ |pev P x / pev Q x - pev T x / M| ≤ (E : ℝ) / N := by
  simp only [rcert, Bool.and_eq_true] at h
  obtain ⟨⟨ha, hb⟩, hc⟩ := h
  have a := pcert_sound hq hd ha h0 h1
  have b := pcert_sound hq hd hb h0 h1
  have c := pcert_sound hq hd hc h0 h1
  simp only [pev_psub0, pev_padd, pev_psmul, pev_pmul] at a b c
  have hM' : (0:ℝ) < M := by exact_mod_cast hM
  have hN' : (0:ℝ) < N := by exact_mod_cast hN
  have hδ' : (0:ℝ) < δ := by exact_mod_cast hδ
  have hQ : 0 < pev Q x := by linarith
  refine ⟨by linarith, ?_⟩
  push_cast at a b
  have e : pev P x / pev Q x - pev T x / M = (M * pev P x - pev T x * pev Q x) / (M * pev Q x) := by
    field_simp
  rw [e, abs_div, abs_of_pos (mul_pos hM' hQ), div_le_div_iff₀ (mul_pos hM' hQ) hN']
  have e2 : |M * pev P x - pev T x * pev Q x| * N = |(M * pev P x - pev T x * pev Q x) * N| := by
    rw [abs_mul, abs_of_pos hN']
  rw [e2, abs_le]
  constructor <;> nlinarith

end Polylog
