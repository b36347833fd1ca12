import Verif.Sem.FPNear
import Verif.Sem.IEEELemmas
import Verif.Model.Horner
import Verif.Proofs.Approx

/-!
# Running the model on symbolic expressions

`FE` is itself an interpretation of the operations of the model (comparisons are all `false` and the library functions
are not interpreted, so only straight-line code is meaningful): evaluating a model function at variables yields the
expression it computes.  The theorems that use an expression show by `rfl` that its IEEE value is the IEEE value of the
model function.
-/

namespace Polylog

instance : FOps FE where
  lit := .lit
  ofInt n := .lit n
  add := .add
  sub := .sub
  mul := .mul
  div := .div
  neg := .neg
  lt _ _ := false
  le _ _ := false
  eq _ _ := false
  log x := x
  log1p x := x
  sin x := x
  cos x := x
  atan x := x
  ceil x := x
  exp2 x := x
  tgamma x := x
  pow x _ := x
  fmod x _ := x
  hypot x _ := x
  atan2 x _ := x
  inf := .lit 0
  nan := .lit 0
  eps := .lit 0
  isnan _ := false
  isinf _ := false
  isfinite _ := true
  toInt _ := none
  cmul x _ := x
  cdiv x _ := x
  csqrt x := x
  cpow x _ := x

/-- right operand -/
def FE.rhs : FE → FE
  | .add _ b => b
  | .sub _ b => b
  | .mul _ b => b
  | .div _ b => b
  | e => e
/-- left operand -/
def FE.lhs : FE → FE
  | .add a _ => a
  | .sub a _ => a
  | .mul a _ => a
  | .div a _ => a
  | e => e

theorem FE.re_hornerLoop {N : ℕ} (env : ℕ → ℝ) (x : FE) (c : Vector ℚ N) (k : ℕ) (hk : k ≤ N) (p : FE) :
    (hornerLoop x c k hk p).re env = (∑ i : Fin k, ((c[i.1]'(by omega) : ℚ) : ℝ) * (x.re env) ^ i.1) + p.re env * (x.re env) ^ k := by
  induction k generalizing p with
  | zero => simp [hornerLoop]
  | succ k ih =>
    rw [hornerLoop, ih (by omega), Fin.sum_univ_castSucc]
    have e : FE.re env (p *. x +. (FOps.lit (c[k]'(by omega)) : FE)) = p.re env * x.re env + ((c[k]'(by omega) : ℚ) : ℝ) := rfl
    rw [e]
    simp only [Fin.val_castSucc, Fin.val_last]
    ring

/-- the Horner scheme computes the polynomial -/
theorem FE.re_horner {n : ℕ} (env : ℕ → ℝ) (x : FE) (c : Vector ℚ (n + 1)) : (horner x c).re env = qv c (x.re env) := by
  rw [horner, FE.re_hornerLoop, qv, Fin.sum_univ_castSucc]
  simp only [Fin.val_castSucc, Fin.val_last]
  rfl

theorem FE.fp_hornerLoop {φ : Fmt} {L : Lib} {N : ℕ} (env : ℕ → FV) (x : FE) (c : Vector ℚ N) (k : ℕ) (hk : k ≤ N) (p : FE) :
    (hornerLoop x c k hk p).fp φ env = ofF (hornerLoop (toF φ L (x.fp φ env)) c k hk (toF φ L (p.fp φ env))) := by
  induction k generalizing p with
  | zero => rfl
  | succ k ih => rw [hornerLoop, hornerLoop, ih]; rfl

theorem FE.fp_horner {φ : Fmt} {L : Lib} {n : ℕ} (env : ℕ → FV) (x : FE) (c : Vector ℚ (n + 1)) :
    (horner x c).fp φ env = ofF (horner (toF φ L (x.fp φ env)) c) := by
  rw [horner, horner, FE.fp_hornerLoop (L := L)]; rfl

/-! ## covering an interval by boxes -/

/-- `chk` succeeds with error at most `B` on every box `[a + j d, a + (j+1) d]`, `j < n` (in units of `2^-K`), for the variable `0`; the other variables are in `env` -/
def boxes (p K : ℕ) (d : ℤ) (env : List IB) (e : FE) (B : ℤ) (a : ℤ) (n : ℕ) : Bool :=
  (List.range n).all fun j => match chk p K (⟨a + j * d, a + (j + 1) * d, 0⟩ :: env) e with
    | some b => decide (b.err ≤ B)
    | none => false

theorem boxes_sound {φ : Fmt} {K : ℕ} {d : ℤ} (hφ : FmtOK φ K) (hd : 0 < d) {env : List IB} {e : FE} {B a : ℤ} {n : ℕ} (h : boxes φ.p K d env e B a n = true)
    {fenv : ℕ → FV} {renv : ℕ → ℝ} (henv : ∀ i b, env[i]? = some b → Apx φ K (fenv (i + 1)) (renv (i + 1)) b)
    {y : ℚ} (hy : Val φ (fenv 0) y) (hr : renv 0 = y) (h0 : (a : ℝ) ≤ y * 2 ^ K) (h1 : (y : ℝ) * 2 ^ K ≤ ((a + n * d : ℤ) : ℝ)) (hn : 0 < n) :
    Near φ (e.fp φ fenv) (e.re renv) (B / 2 ^ K) := by
  have hdR : (0:ℝ) < d := by exact_mod_cast hd
  -- the box
  obtain ⟨j, hj, h2, h3⟩ : ∃ j : ℕ, j < n ∧ ((a + j * d : ℤ) : ℝ) ≤ y * 2 ^ K ∧ (y:ℝ) * 2 ^ K ≤ ((a + (j + 1) * d : ℤ) : ℝ) := by
    set t : ℝ := (y * 2 ^ K - a) / d with ht
    have et : (y:ℝ) * 2 ^ K = a + t * d := by rw [ht]; field_simp; ring
    have t0 : 0 ≤ t := by rw [ht]; apply div_nonneg _ hdR.le; linarith
    have t1 : t ≤ n := by
      rw [ht, div_le_iff₀ hdR]; push_cast at h1; linarith
    by_cases hlast : t = n
    · refine ⟨n - 1, by omega, ?_, ?_⟩
      · rw [et, hlast, Nat.cast_sub hn]; push_cast; nlinarith
      · rw [et, hlast, Nat.cast_sub hn]; push_cast; nlinarith
    · have hlt : t < n := lt_of_le_of_ne t1 hlast
      have f1 := Nat.floor_le t0
      have f2 := Nat.lt_floor_add_one t
      refine ⟨⌊t⌋₊, (Nat.floor_lt t0).2 hlt, ?_, ?_⟩
      · rw [et]; push_cast; nlinarith
      · rw [et]; push_cast; nlinarith
  have hb := List.all_eq_true.1 h j (List.mem_range.2 hj)
  have hA : Apx φ K (fenv 0) (renv 0) ⟨a + j * d, a + (j + 1) * d, 0⟩ := by
    refine ⟨y, hy, ?_, ?_, by rw [hr]; simp⟩
    · rw [hr]; exact h2
    · rw [hr]; exact h3
  split at hb
  swap; · simp at hb
  rename_i b hc
  have hs := chk_sound hφ (fenv := fenv) (renv := renv) (fun i b' hi => by
    cases i with
    | zero => simp at hi; rw [← hi]; exact hA
    | succ i => exact henv i b' (by simpa using hi)) e hc
  obtain ⟨q, hq, _, _, herr⟩ := hs
  refine ⟨q, hq, ?_⟩
  rw [le_div_iff₀ (by positivity)]
  refine herr.trans ?_
  exact_mod_cast of_decide_eq_true hb

/-- an exact variable -/
theorem apx_exact {φ : Fmt} {K : ℕ} {x : FV} {n : ℤ} (hx : Val φ x n) : Apx φ K x n ⟨n * 2 ^ K, n * 2 ^ K, 0⟩ :=
  ⟨n, hx, by push_cast; exact le_rfl, by push_cast; exact le_rfl, by simp⟩

end Polylog
