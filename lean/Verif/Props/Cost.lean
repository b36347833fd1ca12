import Verif.Props.LiUB
import Verif.Props.LiNegLimit

/-!
# C22: number of loop iterations

Instrumented twins of the functions with loops (`Li.cpp`, `harmonic.cpp`, `Cl.cpp`, `Sl.cpp`): the same control flow, and each
execution of a loop body calls `tick`.  `…_erase` shows that forgetting the counter gives the model function; the bounds are
theorems about the counter.  Iterations executed before undefined behaviour are counted as well.
-/

namespace Polylog

/-- a computation with a counter: number of loop iterations executed, and the outcome -/
structure MC (α : Type) where
  cost : ℕ
  val : M α

namespace MC

instance : Monad MC where
  pure a := ⟨0, pure a⟩
  bind m f := match m.val with
    | .error e => ⟨m.cost, .error e⟩
    | .ok a => ⟨m.cost + (f a).cost, (f a).val⟩

/-- a computation without loops -/
def lift {α : Type} (m : M α) : MC α := ⟨0, m⟩
/-- execute one loop body -/
def tick : MC Unit := ⟨1, pure ()⟩

instance : MonadLift M MC := ⟨lift⟩

variable {α β : Type}

@[simp] theorem val_pure (a : α) : (pure a : MC α).val = pure a := (Eq.refl _).trans rfl
@[simp] theorem val_lift (m : M α) : (lift m).val = m := (Eq.refl _).trans rfl
@[simp] theorem val_liftM (m : M α) : (liftM m : MC α).val = m := (Eq.refl _).trans rfl
@[simp] theorem val_tick : tick.val = pure () := (Eq.refl _).trans rfl
@[simp] theorem val_bind (m : MC α) (f : α → MC β) : (m >>= f).val = (m.val >>= fun a => (f a).val) := by
  show (match m.val with | .error e => (⟨m.cost, .error e⟩ : MC β) | .ok a => ⟨m.cost + (f a).cost, (f a).val⟩).val = _
  cases m.val <;> rfl
@[simp] theorem val_ite (c : Prop) [Decidable c] (a b : MC α) : (if c then a else b).val = if c then a.val else b.val := by
  split <;> rfl

theorem val_tick_bind (f : Unit → MC β) : (tick >>= f).val = (f ()).val := rfl

theorem cost_pure (a : α) (b : ℕ) : (pure a : MC α).cost ≤ b := Nat.zero_le _
theorem cost_lift (m : M α) (b : ℕ) : (liftM m : MC α).cost ≤ b := Nat.zero_le _
theorem cost_bind {m : MC α} {f : α → MC β} {b c : ℕ} (h1 : m.cost ≤ b) (h2 : ∀ a, m.val = .ok a → (f a).cost ≤ c) :
    (m >>= f).cost ≤ b + c := by
  show (match m.val with | .error e => (⟨m.cost, .error e⟩ : MC β) | .ok a => ⟨m.cost + (f a).cost, (f a).val⟩).cost ≤ _
  cases h : m.val with
  | error e => dsimp only; omega
  | ok a => have := h2 a h; dsimp only; omega
theorem cost_bind0 {m : M α} {f : α → MC β} {c : ℕ} (h2 : ∀ a, m = .ok a → (f a).cost ≤ c) : ((liftM m : MC α) >>= f).cost ≤ c := by
  have := cost_bind (m := (liftM m : MC α)) (b := 0) (Nat.zero_le _) h2
  omega
theorem cost_tick {f : Unit → MC β} {c : ℕ} (h : (f ()).cost ≤ c) : (tick >>= f).cost ≤ c + 1 := by
  have := cost_bind (m := tick) (f := f) (b := 1) (c := c) le_rfl (fun _ _ => h)
  omega
theorem cost_ite {c : Prop} [Decidable c] {a b : MC α} {k : ℕ} (h1 : c → a.cost ≤ k) (h2 : ¬ c → b.cost ≤ k) : (if c then a else b).cost ≤ k := by
  split
  · exact h1 ‹_›
  · exact h2 ‹_›

end MC
open MC

section
variable {F : Type} [FOps F]

/-! ### the instrumented functions -/

/-- `liSeriesLoop` with counter -/
def liSeriesLoopC (n : Int) (z : Cx F) : (fuel : Nat) → (k : Int) → (sum p : Cx F) → MC (Cx F)
  | fuel, k, sum, p => do
    tick
    let k := k + 1
    let sumOld := sum
    let sum := sum +. p
    let p := p *. (z *. powi ((FOps.ofInt k : F) /. ((FOps.lit 1 : F) +. (FOps.ofInt k : F))) n)
    if !cisFinite p then pure sum
    else if Cx.bne sum sumOld then
      match fuel with
      | 0 => pure sum
      | fuel + 1 => liSeriesLoopC n z fuel k sum p
    else pure sum

/-- `liSeries` with counter -/
def liSeriesC (n : Int) (z : Cx F) : MC (Cx F) := liSeriesLoopC n z (i64max - 3).toNat 0 ⟨FOps.lit 0, FOps.lit 0⟩ z

/-- `liUnityPosLoop1` with counter -/
def liUnityPosLoop1C (n : Int) (lnz : Cx F) : (fuel : Nat) → (j : Int) → (sum p : Cx F) → MC (Cx F × Cx F)
  | 0, _, sum, p => pure (sum, p)
  | fuel + 1, j, sum, p => do
    tick
    let p := p *. (lnz /. (FOps.ofInt j : F))
    let nj ← (i64sub n j : M Int)
    let zt ← (zeta nj : M F)
    liUnityPosLoop1C n lnz fuel (j + 1) (sum +. zt *. p) p

/-- `liUnityPosLoop2` with counter -/
def liUnityPosLoop2C (n : Int) (lnz2 : Cx F) : (fuel : Nat) → (j : Int) → (sum p : Cx F) → MC (Cx F)
  | 0, _, sum, _ => pure sum
  | fuel + 1, j, sum, p =>
    if j < i64max - 2 then do
      tick
      let j1 ← (i64sub j 1 : M Int)
      let jj ← (i64mul j1 j : M Int)
      let p := p *. (lnz2 /. (FOps.ofInt jj : F))
      let oldSum := sum
      let nj ← (i64sub n j : M Int)
      let zt ← (zeta nj : M F)
      let sum := sum +. zt *. p
      if Cx.beq sum oldSum then pure sum
      else do
        let j2 ← (i64add j 2 : M Int)
        liUnityPosLoop2C n lnz2 fuel j2 sum p
    else pure sum

/-- `digammaLoop`, `harmonicLoop` with counter -/
def digammaLoopC (n : Int) : (fuel : Nat) → (nu : Int) → F → MC F
  | 0, _, res => pure res
  | fuel + 1, nu, res => do
    tick
    digammaLoopC n fuel (nu + 1) (res -. (FOps.lit 1 : F) /. (FOps.ofInt (n + nu) : F))

def harmonicLoopC : (fuel : Nat) → (k : Int) → F → MC F
  | 0, _, sum => pure sum
  | fuel + 1, k, sum => do
    tick
    harmonicLoopC fuel (k + 1) (sum +. (FOps.lit 1 : F) /. (FOps.ofInt k : F))

/-- `digamma` with counter -/
def digammaC' (n : Int) : MC F :=
  if n ≤ 0 then pure FOps.nan
  else do
    let st ← (if n < 7 then do
        let res ← digammaLoopC n (7 - n - 1).toNat 1 (FOps.lit 0 : F)
        pure (res -. (FOps.lit 1 : F) /. (FOps.ofInt n : F), 7)
      else pure ((FOps.lit 0 : F), n) : MC (F × Int))
    let res := st.1
    let n := st.2
    let t := (FOps.lit 1 : F) /. (FOps.ofInt n : F)
    let t2 := t *. t
    pure (res +. FOps.log (FOps.ofInt n : F) -. (FOps.lit 0.5 : F) *. t
      -. t2 *. ((FOps.lit digammaC[0] : F) +. t2 *. ((FOps.lit digammaC[1] : F) +. t2 *. ((FOps.lit digammaC[2] : F) +. t2 *. ((FOps.lit digammaC[3] : F) +. t2 *. ((FOps.lit digammaC[4] : F) +. t2 *. ((FOps.lit digammaC[5] : F) +. t2 *. ((FOps.lit digammaC[6] : F) +. t2 *. (FOps.lit digammaC[7] : F)))))))))

/-- `harmonic` with counter -/
def harmonicC (n : Int) : MC F :=
  if n ≤ 0 then pure FOps.nan
  else if n < 20 then harmonicLoopC (n - 1).toNat 2 (FOps.lit 1 : F)
  else do
    let n1 ← (i64add n 1 : M Int)
    let d ← (digammaC' n1 : MC F)
    pure ((FOps.lit 0.57721566490153286 : F) +. d)

/-- `liUnityPos` with counter -/
def liUnityPosC (n : Int) (z : Cx F) : MC (Cx F) := do
  let lnz := clog z
  let lnz2 := lnz *. lnz
  let zn ← (zeta n : M F)
  let n1 ← (i64sub n 1 : M Int)
  let sp ← liUnityPosLoop1C n lnz (n1 - 1).toNat 1 ⟨zn, FOps.lit 0⟩ ⟨FOps.lit 1, FOps.lit 0⟩
  let sum := sp.1
  let p := sp.2
  let p := p *. (lnz /. (FOps.ofInt n1 : F))
  let h ← (harmonicC n1 : MC F)
  let sum := sum +. (h -. clog ∸lnz) *. p
  let p := p *. (lnz /. (FOps.ofInt n : F))
  let z0 ← (zeta 0 : M F)
  let sum := sum +. z0 *. p
  let np ← (i64add n 1 : M Int)
  let p := p *. (lnz /. (FOps.ofInt np : F))
  let zm1 ← (zeta (-1) : M F)
  let sum := sum +. zm1 *. p
  let j ← (i64add n 3 : M Int)
  liUnityPosLoop2C n lnz2 (2 ^ 63) j sum p

/-- `liUnityNegLoop` with counter -/
def liUnityNegLoopC (n : Int) (lnz2 : Cx F) : (fuel : Nat) → (k : Int) → (sum lnzk : Cx F) → MC (Cx F)
  | 0, _, _, _ => liftM (throw .fuel : M (Cx F))
  | fuel + 1, k, sum, lnzk => do
    tick
    let nk ← (i64sub n k : M Int)
    let zt ← (zeta nk : M F)
    let ifk ← (invFac k : M F)
    let term := zt *. ifk *. lnzk
    if !cisFinite term then pure sum
    else do
      let sumOld := sum
      let sum := sum +. term
      let lnzk := lnzk *. lnz2
      let k ← (i64add k 2 : M Int)
      if Cx.bne sum sumOld then liUnityNegLoopC n lnz2 fuel k sum lnzk
      else pure sum

/-- `liUnityNeg` with counter -/
def liUnityNegC (n : Int) (z : Cx F) : MC (Cx F) := do
  let lnz := clog z
  let lnz2 := lnz *. lnz
  let n1 ← (i64sub n 1 : M Int)
  let sp ← (stablePow ∸lnz n1 : M (Cx F))
  let m1 ← (i64sub 1 n : M Int)
  let sum := FOps.tgamma (FOps.ofInt m1 : F) *. sp
  if isEven n then liUnityNegLoopC n lnz2 (2 ^ 62) 1 sum lnz
  else do
    let zn ← (zeta n : M F)
    liUnityNegLoopC n lnz2 (2 ^ 62) 2 (sum +. zn) lnz2

/-- the body of `liRestLoop` with counter; `k2m` is the evaluation of `2*k`, `cont` is the next iteration -/
def liRestBodyC (n : Int) (lnz2 : Cx F) (k2m : M Int) (sum p : Cx F) (cont : Cx F → Cx F → MC (Option (Cx F) × Cx F × Cx F)) :
    MC (Option (Cx F) × Cx F × Cx F) := do
  let k2 ← k2m
  let nk ← (i64sub n k2 : M Int)
  let ifac ← (invFac nk : M F)
  if ifac ==. (FOps.lit 0 : F) then pure (some ((FOps.lit 2 : F) *. sum), sum, p)
  else do
    let ne ← (negEta k2 : M F)
    let sum := sum +. ne *. ifac *. p
    let p := p *. lnz2
    if Cx.beq sum (⟨FOps.lit 0, FOps.lit 0⟩ : Cx F) then pure (none, sum, p)
    else cont sum p

/-- `liRestLoop` with counter -/
def liRestLoopC (n : Int) (lnz2 : Cx F) : (k : Nat) → (sum p : Cx F) → MC (Option (Cx F) × Cx F × Cx F)
  | 0, sum, p => pure (none, sum, p)
  | k + 1, sum, p => tick >>= fun _ => liRestBodyC n lnz2 (i64mul 2 ((k : Int) + 1)) sum p (liRestLoopC n lnz2 k)

/-- `liRest` with counter -/
def liRestC (n : Int) (z : Cx F) : MC (Cx F) := do
  let lnz := clog ∸z
  let lnz2 := lnz *. lnz
  let kmax := if isEven n then i64div n 2 else i64div (n - 1) 2
  let p : Cx F := if isEven n then Cx.ofReal (FOps.lit 1 : F) else lnz
  let r ← liRestLoopC n lnz2 kmax.toNat ⟨FOps.lit 0, FOps.lit 0⟩ p
  match r.1 with
  | some v => pure v
  | none => do
    let ifn ← (invFac n : M F)
    pure ((FOps.lit 2 : F) *. r.2.1 -. r.2.2 *. ifn)

theorem liSeriesLoopC_erase (n : Int) (z : Cx F) : ∀ (fuel : Nat) (k : Int) (sum p : Cx F),
    (liSeriesLoopC n z fuel k sum p).val = pure (liSeriesLoop n z fuel k sum p) := by
  intro fuel
  induction fuel with
  | zero => intro k sum p; unfold liSeriesLoopC liSeriesLoop; simp only [val_bind, val_tick, pure_bind, val_ite, val_pure]; split <;> [rfl; (split <;> rfl)]
  | succ f ih => 
    intro k sum p; unfold liSeriesLoopC liSeriesLoop; simp only [val_bind, val_tick, pure_bind, val_ite, val_pure, ih]; split <;> [rfl; (split <;> rfl)]

theorem liSeriesC_erase (n : Int) (z : Cx F) : (liSeriesC n z).val = pure (liSeries n z) := liSeriesLoopC_erase n z _ _ _ _

theorem liUnityPosLoop1C_erase (n : Int) (lnz : Cx F) : ∀ (fuel : Nat) (j : Int) (sum p : Cx F),
    (liUnityPosLoop1C n lnz fuel j sum p).val = liUnityPosLoop1 n lnz fuel j sum p := by
  intro fuel
  induction fuel with
  | zero => intro j sum p; rfl
  | succ f ih => intro j sum p; simp only [liUnityPosLoop1C, liUnityPosLoop1, val_bind, val_tick, val_liftM, pure_bind, ih]

theorem liUnityPosLoop2C_erase (n : Int) (lnz2 : Cx F) : ∀ (fuel : Nat) (j : Int) (sum p : Cx F),
    (liUnityPosLoop2C n lnz2 fuel j sum p).val = liUnityPosLoop2 n lnz2 fuel j sum p := by
  intro fuel
  induction fuel with
  | zero => intro j sum p; rfl
  | succ f ih => intro j sum p; simp only [liUnityPosLoop2C, liUnityPosLoop2, val_bind, val_tick, val_liftM, pure_bind, val_ite, val_pure, ih]

theorem digammaLoopC_erase (n : Int) : ∀ (fuel : Nat) (nu : Int) (res : F), (digammaLoopC n fuel nu res).val = pure (digammaLoop n fuel nu res) := by
  intro fuel
  induction fuel with
  | zero => intro nu res; rfl
  | succ f ih => intro nu res; simp only [digammaLoopC, digammaLoop, val_bind, val_tick, pure_bind, ih]

theorem harmonicLoopC_erase : ∀ (fuel : Nat) (k : Int) (s : F), (harmonicLoopC fuel k s).val = pure (harmonicLoop fuel k s) := by
  intro fuel
  induction fuel with
  | zero => intro nu res; rfl
  | succ f ih => intro nu res; simp only [harmonicLoopC, harmonicLoop, val_bind, val_tick, pure_bind, ih]

theorem digammaC'_erase (n : Int) : (digammaC' n : MC F).val = pure (digamma n) := by
  unfold digammaC' digamma
  by_cases h : n ≤ 0
  · rw [if_pos h, if_pos h]; rfl
  rw [if_neg h, if_neg h]
  by_cases h7 : n < 7
  · simp only [if_pos h7, val_bind, digammaLoopC_erase, pure_bind, val_pure]
  · simp only [if_neg h7, val_bind, pure_bind, val_pure]

theorem harmonicC_erase (n : Int) : (harmonicC n : MC F).val = harmonic n := by
  unfold harmonicC harmonic
  simp only [val_ite, val_bind, val_pure, harmonicLoopC_erase, digammaC'_erase, val_liftM, pure_bind]

theorem liUnityPosC_erase (n : Int) (z : Cx F) : (liUnityPosC n z).val = liUnityPos n z := by
  unfold liUnityPosC liUnityPos
  simp only [val_bind, val_liftM, liUnityPosLoop1C_erase, liUnityPosLoop2C_erase, harmonicC_erase]

theorem liUnityNegLoopC_erase (n : Int) (lnz2 : Cx F) : ∀ (fuel : Nat) (k : Int) (sum lnzk : Cx F),
    (liUnityNegLoopC n lnz2 fuel k sum lnzk).val = liUnityNegLoop n lnz2 fuel k sum lnzk := by
  intro fuel
  induction fuel with
  | zero => intro j sum p; rfl
  | succ f ih => intro j sum p; rw [liUnityNegLoopC, liUnityNegLoop]; simp only [val_bind, val_tick, val_liftM, pure_bind, val_ite, val_pure, ih]

theorem liUnityNegC_erase (n : Int) (z : Cx F) : (liUnityNegC n z).val = liUnityNeg n z := by
  unfold liUnityNegC liUnityNeg
  generalize (2 ^ 62 : ℕ) = f
  simp only [val_bind, val_liftM, val_ite, liUnityNegLoopC_erase]

/-- one iteration of `liRestLoop`, with the evaluation of `2*k` and the rest of the loop as parameters -/
def liRestStep (n : Int) (lnz2 : Cx F) (k2m : M Int) (sum p : Cx F) (cont : Cx F → Cx F → M (Option (Cx F) × Cx F × Cx F)) :
    M (Option (Cx F) × Cx F × Cx F) := do
  let k2 ← k2m
  let nk ← i64sub n k2
  let ifac : F ← invFac nk
  if ifac ==. (FOps.lit 0 : F) then pure (some ((FOps.lit 2 : F) *. sum), sum, p)
  else do
    let ne : F ← negEta k2
    let sum := sum +. ne *. ifac *. p
    let p := p *. lnz2
    if Cx.beq sum (⟨FOps.lit 0, FOps.lit 0⟩ : Cx F) then pure (none, sum, p)
    else cont sum p

theorem liRestBodyC_erase (n : Int) (lnz2 : Cx F) (k2m : M Int) (sum p : Cx F) (cont : Cx F → Cx F → MC (Option (Cx F) × Cx F × Cx F))
    (cont' : Cx F → Cx F → M (Option (Cx F) × Cx F × Cx F)) (h : ∀ s p, (cont s p).val = cont' s p) :
    (tick >>= fun _ => liRestBodyC n lnz2 k2m sum p cont).val = liRestStep n lnz2 k2m sum p cont' := by
  rw [liRestBodyC, liRestStep]
  simp only [val_bind, val_tick, pure_bind, val_liftM, val_ite, val_pure, h]

theorem liRestLoop_step (n : Int) (lnz2 : Cx F) (k : Nat) (sum p : Cx F) :
    liRestLoop n lnz2 (k + 1) sum p = liRestStep n lnz2 (i64mul 2 ((k : Int) + 1)) sum p (liRestLoop n lnz2 k) := by
  rw [liRestLoop.eq_2, liRestStep]

theorem liRestLoopC_erase (n : Int) (lnz2 : Cx F) : ∀ (k : Nat) (sum p : Cx F), (liRestLoopC n lnz2 k sum p).val = liRestLoop n lnz2 k sum p := by
  intro k
  induction k with
  | zero => intro sum p; rfl
  | succ k ih =>
    intro sum p
    exact ((congrArg MC.val (liRestLoopC.eq_2 n lnz2 sum p k)).trans (liRestBodyC_erase n lnz2 _ sum p _ _ ih)).trans
      (liRestLoop_step n lnz2 k sum p).symm

theorem liRestC_erase (n : Int) (z : Cx F) : (liRestC n z).val = liRest n z := by
  unfold liRestC liRest
  simp only [val_bind, liRestLoopC_erase]
  congr 1
  funext r
  cases r.1 with
  | some v => rfl
  | none => simp only [val_bind, val_liftM, val_pure]

end
end Polylog
