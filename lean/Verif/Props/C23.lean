import Verif.Props.TablesUB
import Verif.Props.SlSeries
import Verif.Model.Cl
import Verif.Model.Li
import Verif.Sem.IEEELemmas

/-!
# C23: undefined behaviour of `Cl(n,x)`, `Sl(n,x)` and `Li(n,z)`

`Defined m` says that `m` returns a value: no signed overflow, no out-of-bounds access, no conversion of an
unrepresentable number to `int64_t`, and no exhausted fuel.  The theorems without further hypotheses hold in
every arithmetic `F`, hence for every rounding, every library and every argument, including NaN and infinities.
-/

namespace Polylog

section
variable {F : Type} [FOps F]

theorem defined_bind {α β : Type} {m : M α} {f : α → M β} (hm : Defined m) (hf : ∀ a, m = .ok a → Defined (f a)) :
    Defined (m >>= f) := by
  obtain ⟨v, rfl⟩ := hm; exact hf v rfl
theorem defined_pure {α : Type} (a : α) : Defined (pure a : M α) := ⟨a, rfl⟩
theorem defined_i64 {v : Int} (h : i64min ≤ v ∧ v ≤ i64max) : Defined (i64 v) := ⟨v, i64_ok h⟩
theorem defined_arrGet {α : Type} {N : Nat} (a : Vector α N) (i : Int) (h : 0 ≤ i ∧ i.toNat < N) :
    Defined (arrGet a i) := ⟨_, arrGet_ok a i h⟩

theorem defined_ite {α : Type} {c : Prop} [Decidable c] {a b : M α} (ha : c → Defined a) (hb : ¬ c → Defined b) :
    Defined (if c then a else b) := by
  split
  · exact ha ‹_›
  · exact hb ‹_›

/-! ## `Cl` -/


theorem defined_pcalLoop (n : Int) (hn : n ≤ 9) (x2 : F) : ∀ (fuel : Nat) (i : Int) (s : F),
    2 ≤ i → i + 2 * fuel ≤ n + 2 → Defined (pcalLoop n x2 fuel i s) := by
  intro fuel
  induction fuel with
  | zero => intro i s _ _; exact defined_pure _
  | succ m ih =>
    intro i s h1 h2
    unfold pcalLoop
    refine defined_bind (defined_arrGet _ _ (by omega)) fun zi _ => ?_
    refine defined_bind (defined_arrGet _ _ (by omega)) fun fi _ => ?_
    exact ih _ _ (by omega) (by push_cast at h2; omega)

theorem defined_pcal (n : Int) (h7 : 7 ≤ n) (hn : n ≤ 9) (x : F) : Defined (pcal n x) := by
  unfold pcal
  refine defined_bind (defined_pcalLoop n hn _ _ _ _ (by omega) ?_) fun s _ => defined_pure _
  have : i64div (n - 1) 2 = (n - 1) / 2 := by unfold i64div; rw [Int.tdiv_eq_ediv_of_nonneg (by omega)]
  rw [this]; omega

theorem defined_ncalLoop (n : Int) (x2 : F) : ∀ (fuel : Nat) (k : Int) (s xn : F),
    1 ≤ k → k + fuel ≤ 203 → Defined (ncalLoop n x2 fuel k s xn) := by
  intro fuel
  induction fuel with
  | zero => intro k s xn _ _; exact defined_pure _
  | succ m ih =>
    intro k s xn h1 h2
    unfold ncalLoop
    refine defined_bind (defined_arrGet _ _ (by omega)) fun zi _ => ?_
    dsimp only
    split
    · exact defined_pure _
    · exact ih _ _ _ (by omega) (by push_cast at h2; omega)

theorem defined_ncal (n : Int) (x : F) : Defined (ncal n x) := by
  unfold ncal
  exact defined_bind (defined_ncalLoop _ _ _ _ _ _ (by omega) (by omega)) fun _ _ => defined_pure _

theorem defined_nsumLoop (n : Int) (h2 : 2 ≤ n) (hn : n ≤ 9) (x : F) : ∀ (fuel : Nat) (i : Int) (s xn : F),
    0 ≤ i → i + fuel ≤ 8 → Defined (nsumLoop n x fuel i s xn) := by
  intro fuel
  induction fuel with
  | zero => intro k s xn _ _; exact defined_pure _
  | succ m ih =>
    intro i s xn h0 h1
    unfold nsumLoop
    refine defined_bind (defined_arrGet _ _ (by omega)) fun row _ => ?_
    refine defined_bind (defined_arrGet _ _ (by omega)) fun b _ => ?_
    refine defined_bind (defined_ncal _ _) fun nc _ => ?_
    exact ih _ _ _ (by omega) (by push_cast at h1; omega)

theorem defined_nsum (n : Int) (h2 : 2 ≤ n) (hn : n ≤ 9) (x : F) : Defined (nsum n x) := by
  unfold nsum
  refine defined_bind (defined_nsumLoop n h2 hn x _ _ _ _ (by omega) (by omega)) fun r _ => ?_
  exact defined_bind (defined_ncal _ _) fun _ _ => defined_pure _

theorem defined_clMid (n : Int) (h7 : 7 ≤ n) (hn : n ≤ 9) (x sgn : F) : Defined (clMid n x sgn) := by
  unfold clMid
  refine defined_bind (defined_arrGet _ _ (by omega)) fun _ _ => ?_
  refine defined_bind (defined_arrGet _ _ (by omega)) fun _ _ => ?_
  refine defined_bind (defined_pcal n h7 hn _) fun _ _ => ?_
  exact defined_bind (defined_nsum n (by omega) hn _) fun _ _ => defined_pure _

/-- **C23 (Cl, n ≤ 9).** `Cl(n,x)` has defined behaviour for every `n ≤ 9` (also zero and negative orders) and
every `x`, in every arithmetic. -/
theorem C23_Cl_small (n : Int) (hn : n ≤ 9) (x : F) : Defined (Cl n x : M F) := by
  unfold Cl
  dsimp only
  repeat' split
  all_goals first | exact defined_pure _ | exact defined_clMid n (by omega) hn _ _ | (exfalso; omega)

/-- **C23 (Cl, n ≥ 10).** The only operation of `Cl(n,x)` that can be undefined is the conversion of
`ceil(pow(epsilon, -1/n))` to `int64_t`, which does not depend on `x`. -/
theorem C23_Cl_large (n : Int) (hk : Defined (seriesKmax F n)) (x : F) : Defined (Cl n x : M F) := by
  rcases le_or_gt n 9 with h | h
  · exact C23_Cl_small n h x
  unfold Cl
  dsimp only
  repeat' split
  all_goals first | exact defined_pure _ | (exfalso; omega) | skip
  refine defined_bind ?_ fun _ _ => defined_pure _
  unfold clSeries
  refine defined_bind hk fun k _ => ?_
  dsimp only
  split <;> exact defined_pure _

/-! ## `Sl` -/

/-- **C23 (Sl, n ≤ 25).** `Sl(n,x)` has defined behaviour for every `n ≤ 25` and every `x`, in every arithmetic. -/
theorem C23_Sl_small (n : Int) (hn : n ≤ 25) (x : F) : Defined (Sl n x : M F) := by
  unfold Sl
  dsimp only
  repeat refine defined_ite (fun _ => defined_pure _) fun _ => ?_
  exfalso; omega

/-- **C23 (Sl, n ≥ 26).** The only operation that can be undefined is the conversion of
`ceil(pow(epsilon, -1/n))` to `int64_t`. -/
theorem C23_Sl_large (n : Int) (hk : Defined (seriesKmax F n)) (x : F) : Defined (Sl n x : M F) := by
  unfold Sl
  dsimp only
  repeat refine defined_ite (fun _ => defined_pure _) fun _ => ?_
  refine defined_bind ?_ fun _ _ => defined_pure _
  unfold slSeries
  refine defined_bind hk fun k _ => ?_
  dsimp only
  split <;> exact defined_pure _

end

/-- **C23 (Cl and Sl, exact arithmetic).** With `pow` the real power function and `epsilon = 2^-52` every
`Cl(n,x)` and `Sl(n,x)` is defined. -/
theorem C23_ClSl_real {S : RealSem} {u : ℝ} (hS : S.Lit u) (he : S.eps = 1 / 2 ^ 52) (n : Int) (x : R S) :
    Defined (Cl n x) ∧ Defined (Sl n x) := by
  rcases le_or_gt n 0 with h | h
  · exact ⟨C23_Cl_small n (by omega) x, C23_Sl_small n (by omega) x⟩
  · obtain ⟨m, rfl⟩ : ∃ m : ℕ, n = m := ⟨n.toNat, by omega⟩
    obtain ⟨K, hK, -⟩ := seriesKmax_R hS he m (by omega)
    exact ⟨C23_Cl_large _ ⟨_, hK⟩ x, C23_Sl_large _ ⟨_, hK⟩ x⟩

/-- `pow(2^-52, -1/n)` returns a number in `[1, 2^53]`, as it does in every library whose relative error
is below one: the exact value is `2^(52/n)`, which lies in `[1, 2^52]`. -/
def PowSane (φ : Fmt) (L : Lib) : Prop := ∀ n : Int, 1 ≤ n → n ≤ i64max →
  ∃ a : ℚ, 1 ≤ a ∧ a ≤ 2 ^ 53 ∧
    L.pow (.fin false (2 ^ (1 - (φ.p : ℤ)))) ((rndQ φ 1).neg.div φ (rndQ φ n)) = .fin false a

/-- **C23 (Cl and Sl, IEEE arithmetic).** For every library with a sane `pow`, `Cl(n,x)` and `Sl(n,x)` are defined
for every `int64_t` order and every floating-point `x`, including NaN and infinities. -/
theorem C23_ClSl_IEEE (φ : Fmt) (L : Lib) (hp : PowSane φ L) (n : Int) (hn : InI64 n) (x : FP φ L) :
    Defined (Cl n x) ∧ Defined (Sl n x) := by
  rcases le_or_gt n 0 with h | h
  · exact ⟨C23_Cl_small n (by omega) x, C23_Sl_small n (by omega) x⟩
  obtain ⟨a, h1, h2, h3⟩ := hp n h hn.2
  have hk : Defined (seriesKmax (FP φ L) n) := by
    have hc : FOps.toInt (FOps.ceil (FOps.pow (FOps.eps : FP φ L) (∸(FOps.lit 1 : FP φ L) /. (FOps.ofInt n : FP φ L)))) = some ⌈a⌉ := by
      show FV.toInt (FV.ceil (L.pow (.fin false (2 ^ (1 - (φ.p : ℤ)))) ((rndQ φ 1).neg.div φ (rndQ φ n)))) = _
      rw [h3]
      simp only [FV.ceil, FV.toInt, Bool.false_eq_true, if_false, Int.floor_intCast]
      rw [if_pos]
      have h4 : (⌈a⌉ : ℤ) ≤ 2 ^ 53 := Int.ceil_le.2 (by push_cast; exact h2)
      have h5 : 0 ≤ ⌈a⌉ := Int.ceil_nonneg (by linarith)
      simp only [i64min, i64max]; constructor <;> omega
    unfold seriesKmax
    rw [hc]
    refine defined_i64 ?_
    have h4 : (⌈a⌉ : ℤ) ≤ 2 ^ 53 := Int.ceil_le.2 (by push_cast; exact h2)
    have h5 : 0 ≤ ⌈a⌉ := Int.ceil_nonneg (by linarith)
    simp only [i64min, i64max]; constructor <;> omega
  exact ⟨C23_Cl_large n hk x, C23_Sl_large n hk x⟩

/-- non-vacuity: there is a library with a sane `pow` (here: one that returns 2 everywhere) -/
example (φ : Fmt) (L : Lib) : PowSane φ { L with pow := fun _ _ => .fin false 2 } :=
  fun _ _ _ => ⟨2, by norm_num, by norm_num, rfl⟩

end Polylog
