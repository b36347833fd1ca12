import Verif.Props.C23
import Verif.Props.LiDispatch

/-!
# C23: undefined behaviour of `Li(n,z)`
-/

namespace Polylog

section
variable {F : Type} [FOps F]

theorem bind_def {α β : Type} {m : M α} {f : α → M β} {v : α} (h : m = .ok v) : (m >>= f) = f v := by
  rw [h]; rfl

theorem i64add_ok {a b : Int} (h : i64min ≤ a + b ∧ a + b ≤ i64max) : i64add a b = .ok (a + b) := i64_ok h
theorem i64sub_ok {a b : Int} (h : i64min ≤ a - b ∧ a - b ≤ i64max) : i64sub a b = .ok (a - b) := i64_ok h
theorem i64mul_ok {a b : Int} (h : i64min ≤ a * b ∧ a * b ≤ i64max) : i64mul a b = .ok (a * b) := i64_ok h

theorem defined_zeta (n : Int) (h1 : i64min + 1 < n) (h2 : n ≤ i64max) : Defined (zeta n : M F) :=
  (C05_zeta n ⟨by omega, h2⟩).2 (by omega)
theorem defined_negEta (n : Int) (h1 : i64min + 1 < n) (h2 : n ≤ i64max) : Defined (negEta n : M F) :=
  (C05_neg_eta n ⟨by omega, h2⟩).2 (by omega)
theorem defined_harmonic (n : Int) (h1 : i64min ≤ n) (h2 : n < i64max) : Defined (harmonic n : M F) :=
  (C05_harmonic n ⟨h1, by omega⟩).2 (by omega)

/-! ## `Li_rest` -/

theorem defined_liRestLoop (n : Int) (hn : n ≤ i64max) (lnz2 : Cx F) : ∀ (k : Nat) (sum p : Cx F),
    2 * (k : Int) ≤ n → Defined (liRestLoop n lnz2 k sum p) := by
  simp only [i64max] at hn
  intro k
  induction k with
  | zero => intro sum p _; exact defined_pure _
  | succ m ih =>
    intro sum p h
    push_cast at h
    unfold liRestLoop
    dsimp only
    rw [bind_def (i64mul_ok (by simp only [i64min, i64max]; omega))]
    rw [bind_def (i64sub_ok (by simp only [i64min, i64max]; omega))]
    refine defined_bind (C05_inv_fac _) fun ifac _ => ?_
    refine defined_ite (fun _ => defined_pure _) fun _ => ?_
    refine defined_bind (defined_negEta _ (by simp only [i64min]; omega) (by simp only [i64max]; omega)) fun ne _ => ?_
    exact defined_ite (fun _ => defined_pure _) fun _ => ih _ _ (by omega)

theorem defined_liRest (n : Int) (h0 : 0 ≤ n) (hn : n ≤ i64max) (z : Cx F) : Defined (liRest n z) := by
  unfold liRest
  dsimp only
  refine defined_bind (defined_liRestLoop n hn _ _ _ _ ?_) fun r _ => ?_
  · have h1 : i64div n 2 = n / 2 := by unfold i64div; rw [Int.tdiv_eq_ediv_of_nonneg h0]
    split
    · rw [h1]; omega
    · rename_i h
      have ho : n % 2 = 1 := by
        have := isEven_iff n; simp only [h] at this; simp at this; omega
      have h2 : i64div (n - 1) 2 = (n - 1) / 2 := by unfold i64div; rw [Int.tdiv_eq_ediv_of_nonneg (by omega)]
      rw [h2]; omega
  · cases r.1 with
    | some v => exact defined_pure _
    | none => exact defined_bind (C05_inv_fac _) fun _ _ => defined_pure _

/-! ## `Li_unity_pos` -/

theorem defined_liUnityPosLoop1 (n : Int) (hn : n ≤ i64max) (lnz : Cx F) : ∀ (fuel : Nat) (j : Int) (sum p : Cx F),
    0 ≤ j → j ≤ n → Defined (liUnityPosLoop1 n lnz fuel j sum p) ∨ n < j + fuel := by
  simp only [i64max] at hn
  intro fuel
  induction fuel with
  | zero => intro j sum p _ _; exact Or.inl (defined_pure _)
  | succ m ih =>
    intro j sum p h0 h1
    push_cast
    rcases le_or_gt (j + (m + 1 : Int)) n with h | h
    · left
      unfold liUnityPosLoop1
      dsimp only
      rw [bind_def (i64sub_ok (by simp only [i64min, i64max]; omega))]
      refine defined_bind (defined_zeta _ (by simp only [i64min]; omega) (by simp only [i64max]; omega)) fun zt _ => ?_
      rcases ih (j + 1) (sum +. zt *. (p *. (lnz /. (FOps.ofInt j : F)))) (p *. (lnz /. (FOps.ofInt j : F))) (by omega) (by omega) with h2 | h2
      · exact h2
      · omega
    · right; omega

/-- The part of `Li_unity_pos` before its second loop (Li.cpp 68-84): returns `(sum, p)`. -/
def liUnityHead (n : Int) (z : Cx F) : M (Cx F × Cx F) := do
  let lnz := clog z
  let zn : F ← zeta n
  let n1 ← i64sub n 1
  let sp ← liUnityPosLoop1 n lnz (n1 - 1).toNat 1 ⟨zn, (FOps.lit 0 : F)⟩ ⟨(FOps.lit 1 : F), (FOps.lit 0 : F)⟩
  let sum := sp.1
  let p := sp.2
  let p := p *. (lnz /. (FOps.ofInt n1 : F))
  let h : F ← harmonic n1
  let sum := sum +. (h -. clog ∸lnz) *. p
  let p := p *. (lnz /. (FOps.ofInt n : F))
  let z0 : F ← zeta 0
  let sum := sum +. z0 *. p
  let p := p *. (lnz /. (FOps.ofInt (← i64add n 1) : F))
  let zm1 : F ← zeta (-1)
  let sum := sum +. zm1 *. p
  pure (sum, p)

theorem liUnityPos_eq (n : Int) (z : Cx F) : liUnityPos n z = (do
    let sp ← liUnityHead n z
    let j ← i64add n 3
    liUnityPosLoop2 n (clog z *. clog z) (2 ^ 63) j sp.1 sp.2) := by
  unfold liUnityPos liUnityHead
  simp only [bind_assoc, pure_bind]

theorem defined_liUnityHead (n : Int) (h7 : 7 ≤ n) (hn : n < i64max) (z : Cx F) : Defined (liUnityHead n z) := by
  simp only [i64max] at hn
  unfold liUnityHead
  dsimp only
  refine defined_bind (defined_zeta _ (by simp only [i64min]; omega) (by simp only [i64max]; omega)) fun zn _ => ?_
  rw [bind_def (i64sub_ok (by simp only [i64min, i64max]; omega))]
  refine defined_bind ?_ fun sp _ => ?_
  · rcases defined_liUnityPosLoop1 n (by simp only [i64max]; omega) (clog z) (n - 1 - 1).toNat 1 ⟨zn, (FOps.lit 0 : F)⟩ ⟨(FOps.lit 1 : F), (FOps.lit 0 : F)⟩ (by omega) (by omega) with h | h
    · exact h
    · omega
  refine defined_bind (defined_harmonic _ (by simp only [i64min]; omega) (by simp only [i64max]; omega)) fun h _ => ?_
  refine defined_bind (defined_zeta _ (by decide) (by decide)) fun z0 _ => ?_
  rw [bind_def (i64add_ok (by simp only [i64min, i64max]; omega))]
  refine defined_bind (defined_zeta _ (by decide) (by decide)) fun zm _ => ?_
  exact defined_pure _

/-- the value of `zeta` where it is defined -/
def zetaV (F : Type) [FOps F] (n : Int) : F := match (zeta n : M F) with
  | .ok v => v
  | .error _ => FOps.nan

theorem zeta_zetaV (n : Int) (h : Defined (zeta n : M F)) : zeta n = .ok (zetaV F n) := by
  obtain ⟨v, h⟩ := h; unfold zetaV; rw [h]

/-- `(sum, p)` after `m` iterations of the second loop of `Li_unity_pos`, not looking at the stop test:
iteration `m` (from 0) has `j = n + 3 + 2 m`. -/
def unityTrace (n : Int) (lnz2 : Cx F) (s : Cx F × Cx F) : ℕ → Cx F × Cx F
  | 0 => s
  | m + 1 =>
    let t := unityTrace n lnz2 s m
    let j := n + 3 + 2 * (m : Int)
    let p := t.2 *. (lnz2 /. (FOps.ofInt ((j - 1) * j) : F))
    (t.1 +. zetaV F (n - j) *. p, p)

/-- the stop test `sum == old_sum` after iteration `m` -/
def unityStop (n : Int) (lnz2 : Cx F) (s : Cx F × Cx F) (m : ℕ) : Bool :=
  Cx.beq (unityTrace n lnz2 s (m + 1)).1 (unityTrace n lnz2 s m).1

/-- largest `j` for which `(j - 1) * j` does not overflow -/
def jMax : Int := 3037000500

theorem loop2_step (n : Int) (h7 : 7 ≤ n) (lnz2 : Cx F) (s : Cx F × Cx F) (m : ℕ) (hj : n + 3 + 2 * (m : Int) ≤ jMax) (fuel : Nat) :
    liUnityPosLoop2 n lnz2 (fuel + 1) (n + 3 + 2 * m) (unityTrace n lnz2 s m).1 (unityTrace n lnz2 s m).2 =
      if unityStop n lnz2 s m then .ok (unityTrace n lnz2 s (m + 1)).1
      else liUnityPosLoop2 n lnz2 fuel (n + 3 + 2 * ((m + 1 : ℕ) : Int)) (unityTrace n lnz2 s (m + 1)).1 (unityTrace n lnz2 s (m + 1)).2 := by
  simp only [jMax] at hj
  conv_lhs => unfold liUnityPosLoop2
  generalize hJ : n + 3 + 2 * (m : Int) = j at *
  have hm : (j - 1) * j ≤ 3037000499 * 3037000500 := by
    have h1 : 0 ≤ j - 1 := by omega
    have h2 : j - 1 ≤ 3037000499 := by omega
    exact mul_le_mul h2 hj (by omega) (by omega)
  have hm0 : 0 ≤ (j - 1) * j := mul_nonneg (by omega) (by omega)
  rw [if_pos (by simp only [i64max]; omega)]
  rw [bind_def (i64sub_ok (by simp only [i64min, i64max]; omega))]
  rw [bind_def (i64mul_ok (by simp only [i64min, i64max]; omega))]
  dsimp only
  rw [bind_def (i64sub_ok (by simp only [i64min, i64max]; omega))]
  rw [bind_def (v := zetaV F (n - j)) (zeta_zetaV _ (defined_zeta _ (by simp only [i64min]; omega) (by simp only [i64max]; omega)))]
  have e1 : (unityTrace n lnz2 s (m + 1)) = ((unityTrace n lnz2 s m).1 +. zetaV F (n - j) *. ((unityTrace n lnz2 s m).2 *. (lnz2 /. (FOps.ofInt ((j - 1) * j) : F))), (unityTrace n lnz2 s m).2 *. (lnz2 /. (FOps.ofInt ((j - 1) * j) : F))) := by
    subst hJ; rfl
  unfold unityStop
  rw [e1]
  dsimp only
  split
  · rfl
  · rw [bind_def (i64add_ok (by simp only [i64min, i64max]; omega))]
    congr 1
    push_cast; omega

theorem loop2_run (n : Int) (h7 : 7 ≤ n) (lnz2 : Cx F) (s : Cx F × Cx F) : ∀ (m fuel : ℕ), n + 3 + 2 * (m : Int) ≤ jMax + 2 →
    (∀ i < m, unityStop n lnz2 s i = false) →
    liUnityPosLoop2 n lnz2 (fuel + m) (n + 3) s.1 s.2 =
      liUnityPosLoop2 n lnz2 fuel (n + 3 + 2 * m) (unityTrace n lnz2 s m).1 (unityTrace n lnz2 s m).2 := by
  intro m
  induction m with
  | zero => intro fuel _ _; simp [unityTrace]
  | succ m ih =>
    intro fuel hj hs
    have := ih (fuel + 1) (by push_cast at hj; omega) fun i hi => hs i (by omega)
    rw [show fuel + (m + 1) = fuel + 1 + m by omega, this, loop2_step n h7 lnz2 s m (by push_cast at hj; omega) fuel,
      if_neg (by rw [hs m (by omega)]; exact Bool.false_ne_true)]

/-- **C23 (Li_unity_pos, characterisation).** For `7 ≤ n ≤ 2^31`: if the stop test first succeeds after iteration `m`
and `n + 3 + 2 m ≤ 3037000500`, `Li_unity_pos` returns the sum reached there; if it fails in all these
iterations (at least 444758425 of them), the integer product `(j - 1) * j` overflows. -/
theorem unityPos_outcome (n : Int) (h7 : 7 ≤ n) (hn : n ≤ 2 ^ 31) (z : Cx F) :
    ∃ s, liUnityHead n z = .ok s ∧
      ((∃ m : ℕ, n + 3 + 2 * (m : Int) ≤ jMax ∧ unityStop n (clog z *. clog z) s m = true ∧
          (∀ i < m, unityStop n (clog z *. clog z) s i = false) ∧
          liUnityPos n z = .ok (unityTrace n (clog z *. clog z) s (m + 1)).1) ∨
       ((∀ m : ℕ, n + 3 + 2 * (m : Int) ≤ jMax → unityStop n (clog z *. clog z) s m = false) ∧
          liUnityPos n z = .error .overflow)) := by
  obtain ⟨s, hs⟩ := defined_liUnityHead (F := F) n h7 (by simp only [i64max]; omega) z
  refine ⟨s, hs, ?_⟩
  rw [liUnityPos_eq, bind_def hs, bind_def (i64add_ok (by simp only [i64min, i64max]; omega))]
  by_cases h : ∃ m : ℕ, n + 3 + 2 * (m : Int) ≤ jMax ∧ unityStop n (clog z *. clog z) s m = true
  · left
    classical
    obtain ⟨m, ⟨h1, h2⟩, hmin⟩ : ∃ m : ℕ, (n + 3 + 2 * (m : Int) ≤ jMax ∧ unityStop n (clog z *. clog z) s m = true) ∧
        ∀ i < m, ¬ (n + 3 + 2 * (i : Int) ≤ jMax ∧ unityStop n (clog z *. clog z) s i = true) :=
      ⟨Nat.find h, Nat.find_spec h, fun i hi => Nat.find_min h hi⟩
    have h3 : ∀ i < m, unityStop n (clog z *. clog z) s i = false := by
      intro i hi
      have := hmin i hi
      push Not at this
      have := this (by omega)
      simpa using this
    refine ⟨m, h1, h2, h3, ?_⟩
    have hm : (m : Int) ≤ 2 ^ 33 := by simp only [jMax] at h1; omega
    obtain ⟨f, hf⟩ : ∃ f : ℕ, 2 ^ 63 = (f + 1) + m := ⟨2 ^ 63 - 1 - m, by omega⟩
    rw [hf, loop2_run n h7 _ s m (f + 1) (by omega) h3, loop2_step n h7 _ s m h1 f, if_pos h2]
  · right
    push Not at h
    have h' : ∀ m : ℕ, n + 3 + 2 * (m : Int) ≤ jMax → unityStop n (clog z *. clog z) s m = false := fun m hm => by
      simpa using h m hm
    refine ⟨h', ?_⟩
    obtain ⟨m, hm1, hm2⟩ : ∃ m : ℕ, n + 3 + 2 * (m : Int) ≤ jMax + 2 ∧ jMax < n + 3 + 2 * (m : Int) :=
      ⟨((jMax - (n + 3)) / 2 + 1).toNat, by simp only [jMax]; omega, by simp only [jMax]; omega⟩
    simp only [jMax] at hm1 hm2
    obtain ⟨f, hf⟩ : ∃ f : ℕ, 2 ^ 63 = (f + 1) + m := ⟨2 ^ 63 - 1 - m, by omega⟩
    rw [hf, loop2_run n h7 _ s m (f + 1) (by simp only [jMax]; omega) fun i hi => h' i (by simp only [jMax]; omega)]
    unfold liUnityPosLoop2
    rw [if_pos (by simp only [i64max]; omega)]
    rw [bind_def (i64sub_ok (by simp only [i64min, i64max]; omega))]
    have : i64mul (n + 3 + 2 * (m:Int) - 1) (n + 3 + 2 * (m:Int)) = .error .overflow := by
      refine i64_err ?_
      have : (3037000500 : Int) * 3037000501 ≤ (n + 3 + 2 * (m:Int) - 1) * (n + 3 + 2 * (m:Int)) :=
        mul_le_mul (by omega) (by omega) (by omega) (by omega)
      simp only [i64min, i64max]; omega
    rw [this]; rfl

/-! ## `Li` -/

/-- `z` is in the region in which `Li(n,z)`, `n ≥ 7`, uses the power series or the inversion formula -/
def SeriesOrInv (z : Cx F) : Prop :=
  (Cx.norm z <=. (FOps.lit 0.75 : F) *. (FOps.lit 0.75 : F)) = true ∨
  (Cx.norm z >=. (FOps.lit 1.4 : F) *. (FOps.lit 1.4 : F)) = true

/-- **C23 (Li, n ≥ -1 away from the unity region).** In every arithmetic, for every `-1 ≤ n ≤ INT64_MAX`: `Li(n,z)` has
defined behaviour if `n ≤ 6`, or if `z` is special (NaN, infinite, 0, 1, -1), or if `z` is in the region of the power
series or of the inversion formula. -/
theorem C23_Li_pos (fuel : ℕ) (n : Int) (h1 : -1 ≤ n) (h2 : n ≤ i64max) (z : Cx F)
    (h : n ≤ 6 ∨ ¬ Regular z ∨ SeriesOrInv z) : Defined (Li fuel n z) := by
  simp only [i64max] at h2
  rw [Li.eq_def]
  dsimp only
  refine defined_ite (fun _ => defined_pure _) fun c1 => ?_
  refine defined_ite (fun _ => defined_pure _) fun c2 => ?_
  refine defined_ite (fun _ => defined_pure _) fun c3 => ?_
  refine defined_ite (fun _ => defined_ite (fun _ => defined_pure _) fun _ => ?_) fun c4 => ?_
  · exact defined_bind (defined_zeta _ (by simp only [i64min]; omega) (by simp only [i64max]; omega)) fun _ _ => defined_pure _
  refine defined_ite (fun _ => ?_) fun c5 => ?_
  · exact defined_bind (defined_negEta _ (by simp only [i64min]; omega) (by simp only [i64max]; omega)) fun _ _ => defined_pure _
  rw [if_neg (by omega)]
  refine defined_ite (fun _ => defined_pure _) fun d1 => ?_
  refine defined_ite (fun _ => defined_pure _) fun d2 => ?_
  refine defined_ite (fun _ => defined_pure _) fun d3 => ?_
  refine defined_ite (fun _ => defined_pure _) fun d4 => ?_
  refine defined_ite (fun _ => defined_pure _) fun d5 => ?_
  refine defined_ite (fun _ => defined_pure _) fun d6 => ?_
  refine defined_ite (fun _ => defined_pure _) fun d7 => ?_
  refine defined_ite (fun _ => defined_pure _) fun d8 => ?_
  refine defined_ite (fun _ => defined_pure _) fun e1 => ?_
  refine defined_ite (fun _ => ?_) fun e2 => ?_
  · exact defined_bind (defined_liRest n (by omega) (by simp only [i64max]; omega) z) fun _ _ => defined_pure _
  exfalso
  rcases h with h | h | h
  · omega
  · exact h ⟨by simpa using c1, by simpa using c2, by simpa using c3, by simpa using c4, by simpa using c5⟩
  · rcases h with h | h
    · exact e1 h
    · exact e2 h

/-- On the unity region `Li(n,z)`, `n ≥ 7`, is `Li_unity_pos(n,z)`. -/
theorem Li_unity (fuel : ℕ) (n : Int) (h7 : 7 ≤ n) (z : Cx F) (hr : Regular z) (h : ¬ SeriesOrInv z) :
    Li fuel n z = liUnityPos n z := by
  unfold SeriesOrInv at h
  push Not at h
  rw [Li.eq_def]
  simp only [hr.nan, hr.inf, hr.zero, hr.one, hr.mone, Bool.false_eq_true, if_false]
  rw [if_neg (by omega), if_neg (by omega), if_neg (by omega), if_neg (by omega), if_neg (by omega), if_neg (by omega),
    if_neg (by omega), if_neg (by omega), if_neg (by omega), if_neg h.1, if_neg h.2]

/-- **C23 (Li, n ≥ 7, unity region), every arithmetic.** For `7 ≤ n ≤ 2^31`: `Li(n,z)` returns a value, or the
product `(j - 1) * j` overflows after the stop test of the expansion about 1 has failed in every iteration with
`j ≤ 3037000500`.  That the stop test succeeds in IEEE binary64 is `C23_Li_pos_IEEE` in `Props/UnityStop2.lean`. -/
theorem C23_Li_unity_any (fuel : ℕ) (n : Int) (h7 : 7 ≤ n) (hn : n ≤ 2 ^ 31) (z : Cx F) :
    Defined (Li fuel n z) ∨
    (Li fuel n z = .error .overflow ∧ ∃ s, liUnityHead n z = .ok s ∧
      ∀ m : ℕ, n + 3 + 2 * (m : Int) ≤ jMax → unityStop n (clog z *. clog z) s m = false) := by
  by_cases h : ¬ Regular z ∨ SeriesOrInv z
  · exact Or.inl (C23_Li_pos fuel n (by omega) (by simp only [i64max]; omega) z (Or.inr h))
  push Not at h
  rw [Li_unity fuel n h7 z h.1 h.2]
  obtain ⟨s, h1, ⟨m, _, _, _, h2⟩ | ⟨h2, h3⟩⟩ := unityPos_outcome n h7 hn z
  · exact Or.inl ⟨_, h2⟩
  · exact Or.inr ⟨h3, s, h1, h2⟩

end
end Polylog

/-! ## Orders `n < -1`, IEEE arithmetic -/

namespace Polylog
section
variable {φ : Fmt} {L : Lib}

/-- the zeta table ends at `zeta(-259)`; below it is infinite -/
theorem zeta_inf (m : Int) (ho : m % 2 = 1) (h1 : m ≤ -261) (h2 : i64min + 1 < m) :
    ∃ s, (zeta m : M (FP φ L)) = .ok (toF φ L (.inf s)) := by
  simp only [i64min] at h2
  unfold zeta
  have he : isEven m = false := by
    have := isEven_iff m
    cases h : isEven m
    · rfl
    · rw [h] at this; simp at this; omega
  rw [if_pos (by omega), he]
  simp only [Bool.false_eq_true, if_false]
  rw [bind_def (i64add_ok (by simp only [i64min, i64max]; omega))]
  have hneg : i64neg (1 + m) = .ok (-(1 + m)) := i64_ok (by simp only [i64min, i64max]; omega)
  rw [bind_def hneg]
  have hd : i64div (-(1 + m)) 2 = (-(1 + m)) / 2 := by
    unfold i64div; rw [Int.tdiv_eq_ediv_of_nonneg (by omega)]
  rw [hd, if_neg (by omega), bind_def (i64sub_ok (by simp only [i64min, i64max]; omega))]
  split
  · exact ⟨false, rfl⟩
  · exact ⟨true, rfl⟩

theorem inf_mul_not_fin (a b : FV) (h : a.isfin = false) : (FV.mul φ a b).isfin = false := by
  rcases a with _ | s | ⟨s, a⟩
  · rw [FV.nan_mul]; rfl
  · rcases b with _ | t | ⟨t, b⟩
    · rfl
    · rfl
    · simp only [FV.mul]
      split <;> rfl
  · simp [FV.isfin] at h

theorem mul_not_fin (a b : FV) (h : b.isfin = false) : (FV.mul φ a b).isfin = false := by
  rw [ZEq.mul_comm']; exact inf_mul_not_fin b a h

/-- one step of the loop of `Li_unity_neg` when the zeta value is infinite -/
theorem unityNeg_exit (n : Int) (lnz2 : Cx (FP φ L)) (fuel : ℕ) (k : Int) (sum lnzk : Cx (FP φ L))
    (ho : (n - k) % 2 = 1) (h1 : n - k ≤ -261) (h2 : i64min + 1 < n - k) :
    liUnityNegLoop n lnz2 (fuel + 1) k sum lnzk = .ok sum := by
  obtain ⟨s, hs⟩ := zeta_inf (φ := φ) (L := L) (n - k) ho h1 h2
  obtain ⟨v, hv⟩ := C05_inv_fac (F := FP φ L) k
  unfold liUnityNegLoop
  simp only [i64min] at h2
  rw [bind_def (i64sub_ok (by simp only [i64min, i64max]; omega)), bind_def hs, bind_def hv]
  dsimp only
  have hz : cisFinite (toF φ L (.inf s) *. v *. lnzk) = false := by
    have h3 : (FV.mul φ (ofF lnzk.re) (FV.mul φ (.inf s) (ofF v))).isfin = false :=
      mul_not_fin _ _ (inf_mul_not_fin _ _ rfl)
    unfold cisFinite
    have : FOps.isfinite (toF φ L (.inf s) *. v *. lnzk).re = (FV.mul φ (ofF lnzk.re) (FV.mul φ (.inf s) (ofF v))).isfin := rfl
    rw [this, h3]; rfl
  rw [hz]
  rfl

/-- **the loop of `Li_unity_neg` ends**: it returns a value if the fuel covers the zeta values `n - k, n - k - 2, ..., -261`. -/
theorem defined_unityNegLoop (n : Int) (hn1 : i64min + 8 < n) (hn2 : n < 0) (lnz2 : Cx (FP φ L)) :
    ∀ (fuel : ℕ) (k : Int) (sum lnzk : Cx (FP φ L)), (n - k) % 2 = 1 → 1 ≤ k → (k ≤ 2 ∨ -263 ≤ n - k) → 1 ≤ fuel →
      n - k + 263 ≤ 2 * fuel → Defined (liUnityNegLoop n lnz2 fuel k sum lnzk) := by
  simp only [i64min] at hn1
  intro fuel
  induction fuel with
  | zero => intro k sum lnzk _ _ _ h; omega
  | succ m ih =>
    intro k sum lnzk ho hk hk2 _ hf
    rcases le_or_gt (n - k) (-261) with h | h
    · exact ⟨_, unityNeg_exit n lnz2 m k sum lnzk ho h (by simp only [i64min]; omega)⟩
    · push_cast at hf
      unfold liUnityNegLoop
      rw [bind_def (i64sub_ok (by simp only [i64min, i64max]; omega))]
      refine defined_bind (defined_zeta _ (by simp only [i64min]; omega) (by simp only [i64max]; omega)) fun zt _ => ?_
      refine defined_bind (C05_inv_fac _) fun ifk _ => ?_
      dsimp only
      refine defined_ite (fun _ => defined_pure _) fun _ => ?_
      rw [bind_def (i64add_ok (by simp only [i64min, i64max]; omega))]
      refine defined_ite (fun _ => ?_) fun _ => defined_pure _
      exact ih _ _ _ (by omega) (by omega) (by omega) (by omega) (by omega)

theorem defined_stablePow {F : Type} [FOps F] (z : Cx F) (n : Int) (h1 : i64min < n) (h2 : n ≤ i64max) : Defined (stablePow z n) := by
  unfold stablePow
  refine defined_ite (fun _ => defined_pure _) fun _ => ?_
  refine defined_ite (fun _ => ?_) fun _ => defined_pure _
  dsimp only
  refine defined_ite (fun _ => defined_pure _) fun _ => ?_
  refine defined_ite (fun _ => defined_pure _) fun _ => ?_
  rw [bind_def (i64sub_ok (by simp only [i64min, i64max] at *; omega))]
  exact defined_ite (fun _ => defined_pure _) fun _ => defined_pure _

/-- **C23 (Li_unity_neg).** In IEEE arithmetic, whatever the library, `Li_unity_neg(n,z)` has defined behaviour for every
`n < 0` that is not within 8 of `INT64_MIN`, and every `z`. -/
theorem defined_liUnityNeg (n : Int) (hn1 : i64min + 8 < n) (hn2 : n < 0) (z : Cx (FP φ L)) : Defined (liUnityNeg n z) := by
  unfold liUnityNeg
  dsimp only
  simp only [i64min] at hn1
  rw [bind_def (i64sub_ok (by simp only [i64min, i64max]; omega))]
  refine defined_bind (defined_stablePow _ _ (by simp only [i64min]; omega) (by simp only [i64max]; omega)) fun sp _ => ?_
  rw [bind_def (i64sub_ok (by simp only [i64min, i64max]; omega))]
  have hb : (2 : ℕ) ^ 62 = 4611686018427387904 := by norm_num
  rw [hb]
  cases he : isEven n
  · have ho : n % 2 = 1 := by
      have := isEven_iff n; rw [he] at this; simp at this; omega
    simp only [Bool.false_eq_true, if_false]
    refine defined_bind (defined_zeta _ (by simp only [i64min]; omega) (by simp only [i64max]; omega)) fun zn _ => ?_
    exact defined_unityNegLoop n (by simp only [i64min]; omega) hn2 _ _ _ _ _ (by omega) (by omega) (by omega) (by omega) (by omega)
  · have ho : n % 2 = 0 := (isEven_iff n).1 he
    simp only [if_true]
    exact defined_unityNegLoop n (by simp only [i64min]; omega) hn2 _ _ _ _ _ (by omega) (by omega) (by omega) (by omega) (by omega)

/-- **C23 (Li, n < -1).** In IEEE arithmetic, whatever the library: `Li(n,z)` with recursion depth at most `fuel` returns a value
or exceeds that depth; there is no undefined behaviour.  (Over the reals the depth is bounded in `C21_depth`.) -/
theorem C23_Li_neg (fuel : ℕ) (n : Int) (hn1 : i64min + 8 < n) (hn2 : n < -1) (z : Cx (FP φ L)) :
    Defined (Li fuel n z) ∨ Li fuel n z = .error .fuel := by
  simp only [i64min] at hn1
  induction fuel generalizing z with
  | zero =>
    rw [Li.eq_def]
    dsimp only
    by_cases c1 : (FOps.isnan z.re || FOps.isnan z.im) = true
    · rw [if_pos c1]; exact Or.inl (defined_pure _)
    rw [if_neg c1]
    by_cases c2 : (FOps.isinf z.re || FOps.isinf z.im) = true
    · rw [if_pos c2]; exact Or.inl (defined_pure _)
    rw [if_neg c2]
    by_cases c3 : z.beqr (FOps.lit 0) = true
    · rw [if_pos c3]; exact Or.inl (defined_pure _)
    rw [if_neg c3]
    by_cases c4 : z.beqr (FOps.lit 1) = true
    · rw [if_pos c4, if_pos (by omega)]; exact Or.inl (defined_pure _)
    rw [if_neg c4]
    by_cases c5 : z.beqr ∸(FOps.lit 1) = true
    · rw [if_pos c5]
      exact Or.inl (defined_bind (defined_negEta _ (by simp only [i64min]; omega) (by simp only [i64max]; omega)) fun _ _ => defined_pure _)
    rw [if_neg c5, if_pos hn2]
    split
    · exact Or.inl (defined_pure _)
    split
    · exact Or.inl (defined_liUnityNeg n (by simp only [i64min]; omega) (by omega) z)
    · exact Or.inr rfl
  | succ fuel ih =>
    rw [Li.eq_def]
    dsimp only
    by_cases c1 : (FOps.isnan z.re || FOps.isnan z.im) = true
    · rw [if_pos c1]; exact Or.inl (defined_pure _)
    rw [if_neg c1]
    by_cases c2 : (FOps.isinf z.re || FOps.isinf z.im) = true
    · rw [if_pos c2]; exact Or.inl (defined_pure _)
    rw [if_neg c2]
    by_cases c3 : z.beqr (FOps.lit 0) = true
    · rw [if_pos c3]; exact Or.inl (defined_pure _)
    rw [if_neg c3]
    by_cases c4 : z.beqr (FOps.lit 1) = true
    · rw [if_pos c4, if_pos (by omega)]; exact Or.inl (defined_pure _)
    rw [if_neg c4]
    by_cases c5 : z.beqr ∸(FOps.lit 1) = true
    · rw [if_pos c5]
      exact Or.inl (defined_bind (defined_negEta _ (by simp only [i64min]; omega) (by simp only [i64max]; omega)) fun _ _ => defined_pure _)
    rw [if_neg c5, if_pos hn2]
    split
    · exact Or.inl (defined_pure _)
    split
    · exact Or.inl (defined_liUnityNeg n (by simp only [i64min]; omega) (by omega) z)
    · rw [bind_def (i64sub_ok (by simp only [i64min, i64max]; omega))]
      rcases ih z.sqrt with ⟨v, hv⟩ | hv
      · rw [bind_def hv]
        rcases ih ∸z.sqrt with ⟨w, hw⟩ | hw
        · rw [bind_def hw]; exact Or.inl (defined_pure _)
        · rw [hw]; exact Or.inr rfl
      · rw [hv]; exact Or.inr rfl

end
end Polylog
