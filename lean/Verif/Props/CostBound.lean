import Verif.Props.Cost

/-!
# C22: bounds on the number of loop iterations

First part: the loops whose bound does not depend on the values of the floating-point operations, and those stopped by
the ends of the tables.
-/

namespace Polylog
open MC

section
variable {F : Type} [FOps F]

theorem cost_harmonicLoop : ∀ (fuel : ℕ) (k : Int) (s : F), (harmonicLoopC fuel k s).cost ≤ fuel := by
  intro fuel
  induction fuel with
  | zero => intro k s; exact cost_pure _ _
  | succ f ih => intro k s; exact cost_tick (ih _ _)

theorem cost_digammaLoop (n : Int) : ∀ (fuel : ℕ) (k : Int) (s : F), (digammaLoopC n fuel k s).cost ≤ fuel := by
  intro fuel
  induction fuel with
  | zero => intro k s; exact cost_pure _ _
  | succ f ih => intro k s; exact cost_tick (ih _ _)

theorem cost_digamma (n : Int) : (digammaC' n : MC F).cost ≤ 5 := by
  unfold digammaC'
  refine cost_ite (fun _ => cost_pure _ _) fun h => ?_
  refine cost_bind (b := 5) (c := 0) (cost_ite (fun h7 => ?_) fun _ => cost_pure _ _) fun a _ => cost_pure _ _
  refine cost_bind (b := 5) (c := 0) ((cost_digammaLoop n _ _ _).trans ?_) fun a _ => cost_pure _ _
  omega

/-- **C22 (harmonic).** `harmonic(n)` executes at most 18 loop iterations, for every `n`, in every arithmetic. -/
theorem C22_harmonic (n : Int) : (harmonicC n : MC F).cost ≤ 18 := by
  unfold harmonicC
  refine cost_ite (fun _ => cost_pure _ _) fun h => cost_ite (fun h2 => ?_) fun h2 => ?_
  · refine (cost_harmonicLoop _ _ _).trans ?_
    omega
  · refine cost_bind0 fun n1 _ => ?_
    exact (cost_bind (b := 5) (c := 0) (cost_digamma _) fun a _ => cost_pure _ _).trans (by norm_num)

/-! ### `Li_unity_pos` -/

theorem cost_loop1 (n : Int) (lnz : Cx F) : ∀ (fuel : ℕ) (j : Int) (s p : Cx F), (liUnityPosLoop1C n lnz fuel j s p).cost ≤ fuel := by
  intro fuel
  induction fuel with
  | zero => intro j s p; exact cost_pure _ _
  | succ f ih => 
    intro j s p
    exact cost_tick (cost_bind0 fun nj _ => cost_bind0 fun zt _ => ih _ _ _)

/-- the second loop of `Li_unity_pos`: after `j > 3037000500` the product `(j-1)*j` overflows -/
theorem cost_loop2 (n : Int) (lnz2 : Cx F) : ∀ (fuel : ℕ) (j : Int) (s p : Cx F), 2 ≤ j →
    (liUnityPosLoop2C n lnz2 fuel j s p).cost ≤ 1 + (if j ≤ jMax then ((jMax - j) / 2).toNat + 1 else 0) := by
  intro fuel
  induction fuel with
  | zero => intro j s p _; exact cost_pure _ _
  | succ f ih =>
    intro j s p hj
    unfold liUnityPosLoop2C
    refine cost_ite (fun hlt => ?_) fun _ => cost_pure _ _
    rw [Nat.add_comm 1]
    refine cost_tick (cost_bind0 fun j1 h1 => cost_bind0 fun jj h2 => ?_)
    have e1 : j1 = j - 1 := i64_val h1
    have e2 : jj = j1 * j := i64_val h2
    by_cases hJ : j ≤ jMax
    · rw [if_pos hJ]
      refine cost_bind0 fun nj _ => cost_bind0 fun zt _ => cost_ite (fun _ => cost_pure _ _) fun _ => cost_bind0 fun j2 h3 => ?_
      have e3 : j2 = j + 2 := i64_val h3
      refine (ih j2 _ _ (by omega)).trans ?_
      subst e3
      split_ifs <;> omega
    · exfalso
      rw [e1] at h2
      have : i64mul (j - 1) j = .error .overflow := by
        refine i64_err ?_
        simp only [jMax] at hJ
        have : (3037000500 : Int) * 3037000501 ≤ (j - 1) * j := mul_le_mul (by omega) (by omega) (by omega) (by omega)
        simp only [i64min, i64max]; omega
      rw [this] at h2
      cases h2

/-- **C22 (Li_unity_pos).** For `n ≥ 7` in every arithmetic: at most `n - 2` iterations of the first loop, 18 for the harmonic
number, and 1518500247 of the second loop (whose integer product overflows there if the stop test never succeeds). -/
theorem C22_unity_pos (n : Int) (hn : 7 ≤ n) (z : Cx F) : (liUnityPosC n z).cost ≤ (n - 2).toNat + (18 + 1518500247) := by
  unfold liUnityPosC
  dsimp only
  refine cost_bind0 fun zn _ => cost_bind0 fun n1 h1 => ?_
  have e1 : n1 = n - 1 := i64_val h1
  refine cost_bind ((cost_loop1 n _ _ _ _ _).trans (by subst e1; omega)) fun sp _ => ?_
  refine cost_bind (C22_harmonic _) fun h _ => ?_
  refine cost_bind0 fun z0 _ => cost_bind0 fun np _ => cost_bind0 fun zm _ => cost_bind0 fun j h3 => ?_
  have e3 : j = n + 3 := i64_val h3
  generalize (2 ^ 63 : ℕ) = f
  refine (cost_loop2 n _ f j _ _ (by omega)).trans ?_
  by_cases hJ : j ≤ jMax
  · rw [if_pos hJ]; simp only [jMax] at *; omega
  · rw [if_neg hJ]; omega

/-! ### `Li_series` -/

theorem cost_seriesLoop (n : Int) (z : Cx F) : ∀ (fuel : ℕ) (k : Int) (s p : Cx F), (liSeriesLoopC n z fuel k s p).cost ≤ fuel + 1 := by
  intro fuel
  induction fuel with
  | zero =>
    intro k s p; unfold liSeriesLoopC
    exact cost_tick (cost_ite (fun _ => cost_pure _ _) fun _ => cost_ite (fun _ => cost_pure _ _) fun _ => cost_pure _ _)
  | succ f ih =>
    intro k s p; unfold liSeriesLoopC
    exact cost_tick (cost_ite (fun _ => cost_pure _ _) fun _ => cost_ite (fun _ => ih _ _ _) fun _ => cost_pure _ _)

/-- **C22 (Li_series).** The counter bounds the loop in every arithmetic: at most `2^63 - 3` iterations. -/
theorem C22_series (n : Int) (z : Cx F) : (liSeriesC n z).cost ≤ 2 ^ 63 - 3 := by
  have h : (i64max - 3).toNat + 1 = 2 ^ 63 - 3 := by decide
  rw [← h]
  unfold liSeriesC
  generalize (i64max - 3).toNat = f
  exact cost_seriesLoop n z f _ _ _

/-! ### `Li_rest` -/

/-- the literal 0 compares equal to itself -/
def ZeroEq (F : Type) [FOps F] : Prop := ((FOps.lit 0 : F) ==. (FOps.lit 0 : F)) = true

theorem cost_restBody (h0 : ZeroEq F) (n : Int) (lnz2 : Cx F) (k2m : M Int) (s p : Cx F) (cont : Cx F → Cx F → MC (Option (Cx F) × Cx F × Cx F)) (c : ℕ)
    (hc : ∀ k2, k2m = .ok k2 → n - k2 < 178 → ∀ s p, (cont s p).cost ≤ c) :
    (tick >>= fun _ => liRestBodyC n lnz2 k2m s p cont).cost ≤ c + 1 := by
  refine cost_tick ?_
  unfold liRestBodyC
  refine cost_bind0 fun k2 h2 => cost_bind0 fun nk h3 => ?_
  have e3 : nk = n - k2 := i64_val h3
  refine cost_bind0 fun ifac h4 => ?_
  refine cost_ite (fun _ => cost_pure _ _) fun hne => ?_
  have hlt : nk < 178 := by
    by_contra hc
    unfold invFac at h4
    rw [if_neg (by omega), if_neg (by omega)] at h4
    cases h4
    exact hne h0
  exact cost_bind0 fun ne _ => cost_ite (fun _ => cost_pure _ _) fun _ => hc k2 h2 (by omega) _ _

theorem cost_restLoop (h0 : ZeroEq F) (n : Int) (lnz2 : Cx F) : ∀ (k : ℕ) (s p : Cx F),
    2 * (k : Int) ≤ n → (liRestLoopC n lnz2 k s p).cost ≤ 1 + (90 - (n - 2 * k) / 2).toNat := by
  intro k
  induction k with
  | zero => intro s p _; exact cost_pure _ _
  | succ k ih =>
    intro s p hk
    push_cast at hk
    rw [Nat.add_comm 1]
    refine (congrArg MC.cost (liRestLoopC.eq_2 n lnz2 s p k)).le.trans (cost_restBody h0 n lnz2 _ s p _ _ fun k2 h2 hlt s p => ?_)
    have e2 : k2 = 2 * ((k : Int) + 1) := i64_val h2
    refine (ih _ _ (by omega)).trans ?_
    omega

/-- **C22 (Li_rest).** At most 91 iterations for every `n ≥ 0`, in every arithmetic with `0 == 0`: the loop ends where the
table of inverse factorials ends. -/
theorem C22_rest (h0 : ZeroEq F) (n : Int) (hn : 0 ≤ n) (z : Cx F) : (liRestC n z).cost ≤ 91 := by
  have hd : ∀ m : Int, 0 ≤ m → i64div m 2 = m / 2 := fun m hm => by unfold i64div; rw [Int.tdiv_eq_ediv_of_nonneg hm]
  unfold liRestC
  dsimp only
  refine cost_bind (b := 91) (c := 0) ((cost_restLoop h0 n _ _ _ _ ?_).trans ?_) fun r _ => ?_
  · split
    · rw [hd n hn]; omega
    · rename_i h
      have ho : n % 2 = 1 := by
        have := isEven_iff n; simp only [h] at this; simp at this; omega
      rw [hd (n - 1) (by omega)]; omega
  · split
    · rw [hd n hn]; omega
    · rename_i h
      have ho : n % 2 = 1 := by
        have := isEven_iff n; simp only [h] at this; simp at this; omega
      rw [hd (n - 1) (by omega)]; omega
  · cases r.1 with
    | some v => exact cost_pure _ _
    | none => exact cost_bind0 fun _ _ => cost_pure _ _

end

theorem zeroEq_FP (φ : Fmt) (L : Lib) : ZeroEq (FP φ L) := by
  have : (FOps.lit 0 : FP φ L) = toF φ L (.fin false 0) := rndQ_zero
  unfold ZeroEq
  rw [this]; rfl

/-! ### `Li_unity_neg` -/
section
variable {φ : Fmt} {L : Lib}

theorem cost_unityNegLoop (n : Int) (hn1 : i64min + 8 < n) (hn2 : n < 0) (lnz2 : Cx (FP φ L)) :
    ∀ (fuel : ℕ) (k : Int) (sum lnzk : Cx (FP φ L)), (n - k) % 2 = 1 → 1 ≤ k → (k ≤ 2 ∨ -263 ≤ n - k) →
      (liUnityNegLoopC n lnz2 fuel k sum lnzk).cost ≤ 1 + ((n - k + 262) / 2).toNat := by
  simp only [i64min] at hn1
  intro fuel
  induction fuel with
  | zero => intro k sum lnzk _ _ _; exact Nat.zero_le _
  | succ m ih =>
    intro k sum lnzk ho hk hk2
    unfold liUnityNegLoopC
    rw [Nat.add_comm 1]
    refine cost_tick (cost_bind0 fun nk h1 => ?_)
    have e1 : nk = n - k := i64_val h1
    subst e1
    refine cost_bind0 fun zt h2 => cost_bind0 fun v h3 => ?_
    rcases le_or_gt (n - k) (-261) with h | h
    · obtain ⟨s, hs⟩ := zeta_inf (φ := φ) (L := L) (n - k) ho h (by simp only [i64min]; omega)
      have hzt : zt = toF φ L (.inf s) := by rw [hs] at h2; exact (Except.ok.inj h2).symm
      have hz : cisFinite (zt *. v *. lnzk) = false := by
        have h3 : (FV.mul φ (ofF lnzk.re) (FV.mul φ (.inf s) (ofF v))).isfin = false := mul_not_fin _ _ (inf_mul_not_fin _ _ rfl)
        unfold cisFinite
        have : FOps.isfinite (toF φ L (.inf s) *. v *. lnzk).re = (FV.mul φ (ofF lnzk.re) (FV.mul φ (.inf s) (ofF v))).isfin := rfl
        rw [hzt, this, h3]; rfl
      refine cost_ite (fun _ => cost_pure _ _) fun hc => absurd (by rw [hz]; rfl) hc
    · refine cost_ite (fun _ => cost_pure _ _) fun hc => ?_
      refine cost_bind0 fun k2 h4 => ?_
      have e4 : k2 = k + 2 := i64_val h4
      refine cost_ite (fun _ => (ih _ _ _ (by omega) (by omega) (by omega)).trans ?_) fun _ => cost_pure _ _
      omega

/-- **C22 (Li_unity_neg).** In IEEE arithmetic, whatever the library: at most 130 iterations, for every `z` and every
`n < 0` not within 8 of `INT64_MIN`; the loop ends where the table of zeta values ends. -/
theorem C22_unity_neg (n : Int) (hn1 : i64min + 8 < n) (hn2 : n < 0) (z : Cx (FP φ L)) : (liUnityNegC n z).cost ≤ 130 := by
  unfold liUnityNegC
  dsimp only
  refine cost_bind0 fun n1 _ => cost_bind0 fun sp _ => cost_bind0 fun m1 _ => ?_
  generalize (2 ^ 62 : ℕ) = f
  refine cost_ite (fun he => ?_) fun he => cost_bind0 fun zn _ => ?_
  · have := (isEven_iff n).1 he
    exact (cost_unityNegLoop n hn1 hn2 _ f 1 _ _ (by omega) (by omega) (by omega)).trans (by omega)
  · have : n % 2 = 1 := by
      have := isEven_iff n
      by_contra hc
      exact he (this.2 (by omega))
    exact (cost_unityNegLoop n hn1 hn2 _ f 2 _ _ (by omega) (by omega) (by omega)).trans (by omega)

end

/-! ### `Cl` and `Sl` -/
section
variable {F : Type} [FOps F]

/-- `pcalLoop`, `ncalLoop`, `nsumLoop`, `slCosLoop`, `slSinLoop` and the functions that use them, with counter -/
def pcalLoopC (n : Int) (x2 : F) : (fuel : Nat) → (i : Int) → F → MC F
  | 0, _, sum => pure sum
  | fuel + 1, i, sum => do
    tick
    let sign : F := if isEven (i64div (n - 1) 2 + i64div (i - 1) 2) then (FOps.lit 1 : F) else ∸(FOps.lit 1 : F)
    let zi ← (arrGet clZeta (i - 2) : M ℚ)
    let fi ← (arrGet clInvFac (n - i) : M ℚ)
    pcalLoopC n x2 fuel (i + 2) (x2 *. sum +. sign *. (FOps.lit zi : F) *. (FOps.lit fi : F))

def pcalC (n : Int) (x : F) : MC F := do
  let x2 := x *. x
  let sum ← pcalLoopC n x2 (i64div (n - 1) 2).toNat 3 (FOps.lit 0 : F)
  pure (if isEven n then sum *. x else sum)

def ncalLoopC (n : Int) (x2 : F) : (fuel : Nat) → (k : Int) → (sum xn : F) → MC F
  | 0, _, sum, _ => pure sum
  | fuel + 1, k, sum, xn => do
    tick
    let b ← (arrGet clB (k - 1) : M ℚ)
    let oldSum := sum
    let sum := sum +. (FOps.lit b : F) *. xn /. (FOps.ofInt (2*k + n + 1) : F)
    if sum ==. oldSum then pure sum
    else ncalLoopC n x2 fuel (k + 1) sum (xn *. x2)

def ncalC (n : Int) (x : F) : MC F := do
  let xn1 := powi x (n + 1)
  let x2 := x *. x
  let xn := xn1 *. x2
  let sum ← ncalLoopC n x2 202 1 (FOps.lit 0 : F) xn
  pure ((xn1 /. (FOps.ofInt (n + 1) : F) +. sum) /. (FOps.ofInt (n + 1) : F))

def nsumLoopC (n : Int) (x : F) : (fuel : Nat) → (i : Int) → (sum xn : F) → MC (F × F)
  | 0, _, sum, xn => pure (sum, xn)
  | fuel + 1, i, sum, xn => do
    tick
    let row ← (arrGet clBinomial (n - 2) : M (Vector Int 8))
    let b ← (arrGet row i : M Int)
    let nc ← ncalC (n - 2 - i) x
    nsumLoopC n x fuel (i + 1) (sum +. (FOps.ofInt b : F) *. xn *. nc) (xn *. ∸x)

def nsumC (n : Int) (x : F) : MC F := do
  let r ← nsumLoopC n x (n - 2).toNat 0 (FOps.lit 0 : F) (FOps.lit 1 : F)
  let n0 ← ncalC 0 x
  pure (r.1 +. r.2 *. n0)

def slCosLoopC (n : Int) (co : F) : (fuel : Nat) → (k : Int) → (co2 co1 sum : F) → MC F
  | 0, _, _, _, sum => pure sum
  | fuel + 1, k, co2, co1, sum => do
    tick
    let con := (FOps.lit 2 : F) *. co *. co1 -. co2
    slCosLoopC n co fuel (k + 1) co1 con (sum +. con *. FOps.pow (FOps.ofInt k : F) (FOps.ofInt (-n) : F))

def slSinLoopC (n : Int) (co : F) : (fuel : Nat) → (k : Int) → (si2 si1 sum : F) → MC F
  | 0, _, _, _, sum => pure sum
  | fuel + 1, k, si2, si1, sum => do
    tick
    let si := (FOps.lit 2 : F) *. co *. si1 -. si2
    slSinLoopC n co fuel (k + 1) si1 si (sum +. si *. FOps.pow (FOps.ofInt k : F) (FOps.ofInt (-n) : F))

def clSeriesC (n : Int) (x : F) : MC F := do
  let kmax ← (seriesKmax F n : M Int)
  let co := FOps.cos x
  if isEven n then
    let si := FOps.sin x
    slSinLoopC n co (kmax - 1).toNat 2 (FOps.lit 0 : F) si si
  else slCosLoopC n co (kmax - 1).toNat 2 (FOps.lit 1 : F) co co

def slSeriesC (n : Int) (x : F) : MC F := do
  let kmax ← (seriesKmax F n : M Int)
  let co := FOps.cos x
  if isEven n then slCosLoopC n co (kmax - 1).toNat 2 (FOps.lit 1 : F) co co
  else
    let si := FOps.sin x
    slSinLoopC n co (kmax - 1).toNat 2 (FOps.lit 0 : F) si si

def clMidC (n : Int) (x sgn : F) : MC F := do
  let sign1 : F := if isEven (i64div (n + 1) 2) then (FOps.lit 1 : F) else ∸(FOps.lit 1 : F)
  let f1 ← (arrGet clInvFac (n - 1) : M ℚ)
  let term1 : F := if x ==. (FOps.lit 0 : F) then (FOps.lit 0 : F)
    else sign1 *. powi x (n - 1) *. (FOps.lit f1 : F) *. FOps.log ((FOps.lit 2 : F) *. FOps.sin (x /. (FOps.lit 2 : F)))
  let sign2 : F := if isEven (i64div n 2) then (FOps.lit 1 : F) else ∸(FOps.lit 1 : F)
  let f2 ← (arrGet clInvFac (n - 2) : M ℚ)
  let pc ← pcalC n x
  let ns ← nsumC n x
  let term2 := pc -. sign2 *. (FOps.lit f2 : F) *. ns
  pure (sgn *. (term1 +. term2))

/-- `Cl` with counter; the functions `Cl1`, ..., `Cl6` called for `n ≤ 6` have no loops (the Horner templates are unrolled
recursions over array lengths fixed at compile time) -/
def ClC (n : Int) (x : F) : MC F :=
  let PI : F := FOps.lit 3.14159265358979324
  if n ≤ 6 then lift (Cl n x)
  else
    let xs := clReduce n x
    let x := xs.1
    let sgn := xs.2
    if isEven n && x ==. (FOps.lit 0 : F) then pure x
    else if isEven n && x ==. PI then pure (FOps.lit 0 : F)
    else if n ≤ 9 then clMidC n x sgn
    else do
      let s ← clSeriesC n x
      pure (sgn *. s)

/-- `Sl` with counter; for `n ≤ 25` it is a polynomial, without loops -/
def SlC (n : Int) (x : F) : MC F :=
  if n ≤ 25 then lift (Sl n x)
  else
    let xs := slReduce n x
    let x := xs.1
    let sgn := xs.2
    if !isEven n && x ==. (FOps.lit 0 : F) then pure x
    else do
      let s ← slSeriesC n x
      pure (sgn *. s)

theorem pcalLoopC_erase (n : Int) (x2 : F) : ∀ (fuel : Nat) (i : Int) (s : F), (pcalLoopC n x2 fuel i s).val = pcalLoop n x2 fuel i s := by
  intro fuel
  induction fuel with
  | zero => intro i s; rfl
  | succ f ih => intro i s; simp only [pcalLoopC, pcalLoop, val_bind, val_tick, val_liftM, pure_bind, ih]

theorem ncalLoopC_erase (n : Int) (x2 : F) : ∀ (fuel : Nat) (i : Int) (s p : F), (ncalLoopC n x2 fuel i s p).val = ncalLoop n x2 fuel i s p := by
  intro fuel
  induction fuel with
  | zero => intro i s p; rfl
  | succ f ih => intro i s p; simp only [ncalLoopC, ncalLoop, val_bind, val_tick, val_liftM, val_ite, val_pure, pure_bind, ih]

theorem pcalC_erase (n : Int) (x : F) : (pcalC n x).val = pcal n x := by
  unfold pcalC pcal
  simp only [val_bind, pcalLoopC_erase, val_pure]

theorem ncalC_erase (n : Int) (x : F) : (ncalC n x).val = ncal n x := by
  unfold ncalC ncal
  simp only [val_bind, ncalLoopC_erase, val_pure]

theorem nsumLoopC_erase (n : Int) (x : F) : ∀ (fuel : Nat) (i : Int) (s p : F), (nsumLoopC n x fuel i s p).val = nsumLoop n x fuel i s p := by
  intro fuel
  induction fuel with
  | zero => intro i s p; rfl
  | succ f ih => intro i s p; simp only [nsumLoopC, nsumLoop, val_bind, val_tick, val_liftM, pure_bind, ncalC_erase, ih]

theorem nsumC_erase (n : Int) (x : F) : (nsumC n x).val = nsum n x := by
  unfold nsumC nsum
  simp only [val_bind, nsumLoopC_erase, ncalC_erase, val_pure]

theorem slCosLoopC_erase (n : Int) (co : F) : ∀ (fuel : Nat) (i : Int) (a b s : F), (slCosLoopC n co fuel i a b s).val = pure (slCosLoop n co fuel i a b s) := by
  intro fuel
  induction fuel with
  | zero => intro i a b s; rfl
  | succ f ih => intro i a b s; simp only [slCosLoopC, slCosLoop, val_bind, val_tick, pure_bind, ih]

theorem slSinLoopC_erase (n : Int) (co : F) : ∀ (fuel : Nat) (i : Int) (a b s : F), (slSinLoopC n co fuel i a b s).val = pure (slSinLoop n co fuel i a b s) := by
  intro fuel
  induction fuel with
  | zero => intro i a b s; rfl
  | succ f ih => intro i a b s; simp only [slSinLoopC, slSinLoop, val_bind, val_tick, pure_bind, ih]

theorem clSeriesC_erase (n : Int) (x : F) : (clSeriesC n x).val = clSeries n x := by
  unfold clSeriesC clSeries
  simp only [val_bind, val_liftM, val_ite, slCosLoopC_erase, slSinLoopC_erase]

theorem slSeriesC_erase (n : Int) (x : F) : (slSeriesC n x).val = slSeries n x := by
  unfold slSeriesC slSeries
  simp only [val_bind, val_liftM, val_ite, slCosLoopC_erase, slSinLoopC_erase]

theorem clMidC_erase (n : Int) (x sgn : F) : (clMidC n x sgn).val = clMid n x sgn := by
  unfold clMidC clMid
  simp only [val_bind, val_liftM, pcalC_erase, nsumC_erase, val_pure]

theorem ClC_erase (n : Int) (x : F) : (ClC n x).val = Cl n x := by
  unfold ClC
  dsimp only
  rw [val_ite]
  by_cases h : n ≤ 6
  · rw [if_pos h]; rfl
  rw [if_neg h]
  unfold Cl
  dsimp only
  simp only [val_ite, val_pure, clMidC_erase, val_bind, clSeriesC_erase]
  rw [if_neg (show ¬ n < 1 by omega), if_neg (show ¬ n = 1 by omega), if_neg (show ¬ n = 2 by omega), if_neg (show ¬ n = 3 by omega),
    if_neg (show ¬ n = 4 by omega), if_neg (show ¬ n = 5 by omega), if_neg (show ¬ n = 6 by omega)]

theorem SlC_erase (n : Int) (x : F) : (SlC n x).val = Sl n x := by
  unfold SlC
  dsimp only
  rw [val_ite]
  by_cases h : n ≤ 25
  · rw [if_pos h]; rfl
  rw [if_neg h]
  unfold Sl
  dsimp only
  simp only [val_ite, val_pure, val_bind, slSeriesC_erase]
  rw [if_neg (show ¬ n < 1 by omega)]
  refine if_congr Iff.rfl rfl ?_
  rw [if_neg (show ¬ n = 1 by omega), if_neg (show ¬ n = 2 by omega), if_neg (show ¬ n = 3 by omega), if_neg (show ¬ n = 4 by omega), if_neg (show ¬ n = 5 by omega), if_neg (show ¬ n = 6 by omega), if_neg (show ¬ n = 7 by omega), if_neg (show ¬ n = 8 by omega), if_neg (show ¬ n = 9 by omega), if_neg (show ¬ n = 10 by omega), if_neg (show ¬ n = 11 by omega), if_neg (show ¬ n = 12 by omega), if_neg (show ¬ n = 13 by omega), if_neg (show ¬ n = 14 by omega), if_neg (show ¬ n = 15 by omega), if_neg (show ¬ n = 16 by omega), if_neg (show ¬ n = 17 by omega), if_neg (show ¬ n = 18 by omega), if_neg (show ¬ n = 19 by omega), if_neg (show ¬ n = 20 by omega), if_neg (show ¬ n = 21 by omega), if_neg (show ¬ n = 22 by omega), if_neg (show ¬ n = 23 by omega), if_neg (show ¬ n = 24 by omega), if_neg (show ¬ n = 25 by omega)]

theorem cost_pcal (n : Int) (hn : n ≤ 9) (x : F) : (pcalC n x).cost ≤ 4 := by
  have h : ∀ (fuel : ℕ) (i : Int) (s x2 : F), (pcalLoopC n x2 fuel i s).cost ≤ fuel := by
    intro fuel
    induction fuel with
    | zero => intro i s x2; exact cost_pure _ _
    | succ f ih => intro i s x2; exact cost_tick (cost_bind0 fun _ _ => cost_bind0 fun _ _ => ih _ _ _)
  refine cost_bind (b := 4) (c := 0) ((h _ _ _ _).trans ?_) fun _ _ => cost_pure _ _
  have : i64div (n - 1) 2 ≤ 4 := by
    unfold i64div
    rcases le_or_gt 0 (n - 1) with h | h
    · rw [Int.tdiv_eq_ediv_of_nonneg h]; omega
    · rw [show n - 1 = -(1 - n) by ring, Int.neg_tdiv, Int.tdiv_eq_ediv_of_nonneg (by omega)]; omega
  omega

theorem cost_ncal (n : Int) (x : F) : (ncalC n x).cost ≤ 202 := by
  have h : ∀ (fuel : ℕ) (i : Int) (s p x2 : F), (ncalLoopC n x2 fuel i s p).cost ≤ fuel := by
    intro fuel
    induction fuel with
    | zero => intro i s p x2; exact cost_pure _ _
    | succ f ih => intro i s p x2; exact cost_tick (cost_bind0 fun _ _ => cost_ite (fun _ => cost_pure _ _) fun _ => ih _ _ _ _)
  exact cost_bind (b := 202) (c := 0) (h _ _ _ _ _) fun _ _ => cost_pure _ _

theorem cost_nsum (n : Int) (hn : n ≤ 9) (x : F) : (nsumC n x).cost ≤ 7 * 203 + 202 := by
  have h : ∀ (fuel : ℕ) (i : Int) (s p : F), (nsumLoopC n x fuel i s p).cost ≤ fuel * 203 := by
    intro fuel
    induction fuel with
    | zero => intro i s p; exact cost_pure _ _
    | succ f ih =>
      intro i s p
      unfold nsumLoopC
      rw [show (f + 1) * 203 = (202 + f * 203) + 1 by ring]
      exact cost_tick (cost_bind0 fun _ _ => cost_bind0 fun _ _ => cost_bind (cost_ncal _ _) fun _ _ => ih _ _ _)
  unfold nsumC
  refine cost_bind ((h _ _ _ _).trans ?_) fun _ _ => ?_
  · exact Nat.mul_le_mul_right _ (by omega)
  · exact cost_bind (b := 202) (c := 0) (cost_ncal _ _) fun _ _ => cost_pure _ _

theorem cost_cosLoop (n : Int) (co : F) : ∀ (fuel : ℕ) (i : Int) (a b s : F), (slCosLoopC n co fuel i a b s).cost ≤ fuel := by
  intro fuel
  induction fuel with
  | zero => intro i a b s; exact cost_pure _ _
  | succ f ih => intro i a b s; exact cost_tick (ih _ _ _ _)

theorem cost_sinLoop (n : Int) (co : F) : ∀ (fuel : ℕ) (i : Int) (a b s : F), (slSinLoopC n co fuel i a b s).cost ≤ fuel := by
  intro fuel
  induction fuel with
  | zero => intro i a b s; exact cost_pure _ _
  | succ f ih => intro i a b s; exact cost_tick (ih _ _ _ _)

/-- **C22 (Cl, n ≤ 9).** Every arithmetic, every argument: at most 1627 iterations. -/
theorem C22_Cl_small (n : Int) (hn : n ≤ 9) (x : F) : (ClC n x).cost ≤ 1627 := by
  unfold ClC
  dsimp only
  refine cost_ite (fun _ => Nat.zero_le _) fun h6 => ?_
  refine cost_ite (fun _ => cost_pure _ _) fun _ => cost_ite (fun _ => cost_pure _ _) fun _ => ?_
  rw [if_pos hn]
  unfold clMidC
  refine cost_bind0 fun _ _ => cost_bind0 fun _ _ => ?_
  refine cost_bind (b := 4) (c := 1623) (cost_pcal n hn _) fun _ _ => ?_
  exact cost_bind (b := 1623) (c := 0) (cost_nsum n hn _) fun _ _ => cost_pure _ _

/-- **C22 (Cl, n ≥ 10).** At most `kmax - 1` iterations, where `kmax` is the value of `ceil(pow(eps, -1/n))`. -/
theorem C22_Cl_large (n : Int) (hn : 10 ≤ n) (K : ℕ) (hk : ∀ k, seriesKmax F n = .ok k → k ≤ K + 1) (x : F) : (ClC n x).cost ≤ K := by
  unfold ClC
  dsimp only
  rw [if_neg (by omega)]
  refine cost_ite (fun _ => cost_pure _ _) fun _ => cost_ite (fun _ => cost_pure _ _) fun _ => ?_
  rw [if_neg (by omega)]
  refine cost_bind (b := K) (c := 0) ?_ fun _ _ => cost_pure _ _
  unfold clSeriesC
  refine cost_bind0 fun k h => ?_
  have := hk k h
  exact cost_ite (fun _ => (cost_sinLoop n _ _ _ _ _ _).trans (by omega)) fun _ => (cost_cosLoop n _ _ _ _ _ _).trans (by omega)

/-- **C22 (Sl).** At most `kmax - 1` iterations for `n ≥ 26`, none for `n ≤ 25`. -/
theorem C22_Sl (n : Int) (K : ℕ) (hk : 26 ≤ n → ∀ k, seriesKmax F n = .ok k → k ≤ K + 1) (x : F) : (SlC n x).cost ≤ K := by
  unfold SlC
  dsimp only
  refine cost_ite (fun _ => Nat.zero_le _) fun h => ?_
  refine cost_ite (fun _ => cost_pure _ _) fun _ => ?_
  refine cost_bind (b := K) (c := 0) ?_ fun _ _ => cost_pure _ _
  unfold slSeriesC
  refine cost_bind0 fun k h' => ?_
  have := hk (by omega) k h'
  exact cost_ite (fun _ => (cost_cosLoop n _ _ _ _ _ _).trans (by omega)) fun _ => (cost_sinLoop n _ _ _ _ _ _).trans (by omega)

end

/-- For `n ≥ 10` the call `pow(2^-52, -1/n)` returns a number between 1 and 37 (the exact value is `2^(52/n) ≤ 36.76`), for
`n ≥ 26` one that is at most 5 (exact: at most 4). -/
def PowBound (φ : Fmt) (L : Lib) : Prop := ∀ n : Int, 10 ≤ n → n ≤ i64max →
  ∃ a : ℚ, 1 ≤ a ∧ a ≤ 37 ∧ (26 ≤ n → a ≤ 5) ∧
    L.pow (.fin false (2 ^ (1 - (φ.p : ℤ)))) ((rndQ φ 1).neg.div φ (rndQ φ n)) = .fin false a

theorem seriesKmax_le {φ : Fmt} {L : Lib} {n k : Int} {a : ℚ} {B : ℕ} (ha : 1 ≤ a) (hB : a ≤ B)
    (h : L.pow (.fin false (2 ^ (1 - (φ.p : ℤ)))) ((rndQ φ 1).neg.div φ (rndQ φ n)) = .fin false a)
    (hk : seriesKmax (FP φ L) n = .ok k) : k ≤ B := by
  have hc : FOps.ceil (FOps.pow (FOps.eps : FP φ L) (∸(FOps.lit 1 : FP φ L) /. (FOps.ofInt n : FP φ L))) = toF φ L (.fin false ⌈a⌉) := by
    show FV.ceil (L.pow (.fin false (2 ^ (1 - (φ.p : ℤ)))) ((rndQ φ 1).neg.div φ (rndQ φ n))) = _
    rw [h]; rfl
  have hB' : ⌈a⌉ ≤ B := Int.ceil_le.2 (by exact_mod_cast hB)
  unfold seriesKmax at hk
  rw [hc] at hk
  have ht : (FOps.toInt (toF φ L (.fin false ⌈a⌉)) : Option Int) = if i64min ≤ ⌈a⌉ ∧ ⌈a⌉ ≤ i64max then some ⌈a⌉ else none := by
    show FV.toInt (.fin false ⌈a⌉) = _
    simp only [FV.toInt, Bool.false_eq_true, if_false, Int.floor_intCast]
  rw [ht] at hk
  split_ifs at hk
  · have : k = ⌈a⌉ := i64_val hk
    omega

/-- **C22 (Cl and Sl, IEEE arithmetic).** With a sane `pow`: `Cl` executes at most 1627 loop iterations, `Sl` at most 4, for
every `int64_t` order and every argument, including NaN and infinities. -/
theorem C22_ClSl_IEEE (φ : Fmt) (L : Lib) (hp : PowBound φ L) (n : Int) (hn : InI64 n) (x : FP φ L) :
    (ClC n x).cost ≤ 1627 ∧ (ClC n x).val = Cl n x ∧ (SlC n x).cost ≤ 4 ∧ (SlC n x).val = Sl n x := by
  refine ⟨?_, ClC_erase n x, ?_, SlC_erase n x⟩
  · rcases le_or_gt n 9 with h | h
    · exact C22_Cl_small n h x
    · obtain ⟨a, h1, h2, -, h3⟩ := hp n (by omega) hn.2
      exact (C22_Cl_large n (by omega) 36 (fun k hk => seriesKmax_le (B := 37) h1 (by exact_mod_cast h2) h3 hk) x).trans (by norm_num)
  · refine C22_Sl n 4 (fun h26 k hk => ?_) x
    obtain ⟨a, h1, -, h2, h3⟩ := hp n (by omega) hn.2
    exact seriesKmax_le (B := 5) h1 (by exact_mod_cast h2 h26) h3 hk

/-- non-vacuity: a library with such a `pow` -/
example (φ : Fmt) (L : Lib) : PowBound φ { L with pow := fun _ _ => .fin false 2 } :=
  fun _ _ _ => ⟨2, by norm_num, by norm_num, fun _ => by norm_num, rfl⟩

/-! ### `Li` -/
section
variable {F : Type} [FOps F]

/-- `Li` with counter; the dedicated functions called for `-1 ≤ n ≤ 6` have no loops -/
def LiC (fuel : Nat) (n : Int) (z : Cx F) : MC (Cx F) :=
  let PI : F := (FOps.lit 3.1415926535897932 : F)
  if FOps.isnan z.re || FOps.isnan z.im then pure ⟨FOps.nan, FOps.nan⟩
  else if FOps.isinf z.re || FOps.isinf z.im then pure ⟨∸(FOps.inf : F), (FOps.lit 0 : F)⟩
  else if Cx.beqr z (FOps.lit 0 : F) then pure z
  else if Cx.beqr z (FOps.lit 1 : F) then
    if n ≤ 0 then pure ⟨FOps.inf, FOps.inf⟩
    else do
      let zn ← (zeta n : M F)
      pure ⟨zn, z.im⟩
  else if Cx.beqr z ∸(FOps.lit 1 : F) then do
    let e ← (negEta n : M F)
    pure ⟨e, z.im⟩
  else if n < -1 then
    let nz := (Cx.norm z)
    let nl := (Cx.norm ((clog z)))
    if (FOps.lit 4 : F) *. PI *. PI *. nz <. nl then liSeriesC n z
    else if nl <. (FOps.lit 0.512 : F) *. (FOps.lit 0.512 : F) *. (FOps.lit 4 : F) *. PI *. PI then liUnityNegC n z
    else
      match fuel with
      | 0 => liftM (throw .fuel : M (Cx F))
      | fuel + 1 => do
        let sqrtz := (Cx.sqrt z)
        let n1 ← (i64sub n 1 : M Int)
        let a ← LiC fuel n sqrtz
        let b ← LiC fuel n ∸sqrtz
        pure (FOps.exp2 (FOps.ofInt n1 : F) *. (a +. b))
  else if n ≤ 6 then lift (Li fuel n z)
  else if (Cx.norm z) <=. (FOps.lit 0.75 : F) *. (FOps.lit 0.75 : F) then liSeriesC n z
  else if (Cx.norm z) >=. (FOps.lit 1.4 : F) *. (FOps.lit 1.4 : F) then do
    let sgn : F := if isEven n then ∸(FOps.lit 1 : F) else (FOps.lit 1 : F)
    let r ← liRestC n z
    let s ← liSeriesC n ((FOps.lit 1 : F) /. z)
    pure (sgn *. s +. r)
  else liUnityPosC n z

theorem LiC_small_aux (n : Int) (fuel : ℕ) (z : Cx F) (h1 : ¬ n < -1) (h6 : n ≤ 6) (A B : MC (Cx F)) :
    (if (FOps.isnan z.re || FOps.isnan z.im) = true then (pure ⟨FOps.nan, FOps.nan⟩ : MC (Cx F))
      else if (FOps.isinf z.re || FOps.isinf z.im) = true then pure ⟨∸(FOps.inf : F), (FOps.lit 0 : F)⟩
      else if (Cx.beqr z (FOps.lit 0 : F)) = true then pure z
      else if (Cx.beqr z (FOps.lit 1 : F)) = true then
        if n ≤ 0 then pure ⟨FOps.inf, FOps.inf⟩
        else do
          let zn ← (zeta n : M F)
          pure ⟨zn, z.im⟩
      else if (Cx.beqr z ∸(FOps.lit 1 : F)) = true then do
        let e ← (negEta n : M F)
        pure ⟨e, z.im⟩
      else if n < -1 then A
      else if n ≤ 6 then lift (Li fuel n z)
      else B).val = Li fuel n z := by
  rw [if_neg h1, if_pos h6]
  by_cases c1 : (FOps.isnan z.re || FOps.isnan z.im) = true
  · rw [if_pos c1, Li.eq_def]; dsimp only; rw [if_pos c1]; rfl
  rw [if_neg c1]
  by_cases c2 : (FOps.isinf z.re || FOps.isinf z.im) = true
  · rw [if_pos c2, Li.eq_def]; dsimp only; rw [if_neg c1, if_pos c2]; rfl
  rw [if_neg c2]
  by_cases c3 : (Cx.beqr z (FOps.lit 0 : F)) = true
  · rw [if_pos c3, Li.eq_def]; dsimp only; rw [if_neg c1, if_neg c2, if_pos c3]; rfl
  rw [if_neg c3]
  by_cases c4 : (Cx.beqr z (FOps.lit 1 : F)) = true
  · rw [if_pos c4, Li.eq_def]; dsimp only; rw [if_neg c1, if_neg c2, if_neg c3, if_pos c4]
    simp only [val_ite, val_bind, val_liftM, val_pure]
  rw [if_neg c4]
  by_cases c5 : (Cx.beqr z ∸(FOps.lit 1 : F)) = true
  · rw [if_pos c5, Li.eq_def]; dsimp only; rw [if_neg c1, if_neg c2, if_neg c3, if_neg c4, if_pos c5]
    simp only [val_bind, val_liftM, val_pure]
  rw [if_neg c5]
  rfl

theorem LiC_erase (n : Int) : ∀ (fuel : ℕ) (z : Cx F), (LiC fuel n z).val = Li fuel n z := by
  intro fuel
  induction fuel with
  | zero =>
    intro z
    by_cases h1 : n < -1
    · rw [LiC.eq_def, Li.eq_def]
      dsimp only
      simp only [if_pos h1, val_ite, val_bind, val_liftM, val_pure, liSeriesC_erase, liUnityNegC_erase]
    · by_cases h6 : n ≤ 6
      · rw [LiC.eq_def]
        dsimp only
        exact LiC_small_aux n _ z h1 h6 _ _
      · rw [LiC.eq_def, Li.eq_def]
        dsimp only
        simp only [if_neg h1, if_neg h6, val_ite, val_bind, val_liftM, val_pure, val_lift, liSeriesC_erase, liUnityPosC_erase, liRestC_erase, pure_bind]
        rw [if_neg (show ¬ n = -1 by omega), if_neg (show ¬ n = 0 by omega), if_neg (show ¬ n = 1 by omega), if_neg (show ¬ n = 2 by omega),
          if_neg (show ¬ n = 3 by omega), if_neg (show ¬ n = 4 by omega), if_neg (show ¬ n = 5 by omega), if_neg (show ¬ n = 6 by omega)]
  | succ f ih =>
    intro z
    by_cases h1 : n < -1
    · rw [LiC.eq_def, Li.eq_def]
      dsimp only
      simp only [if_pos h1, val_ite, val_bind, val_liftM, val_pure, liSeriesC_erase, liUnityNegC_erase, ih]
    · by_cases h6 : n ≤ 6
      · rw [LiC.eq_def]
        dsimp only
        exact LiC_small_aux n _ z h1 h6 _ _
      · rw [LiC.eq_def, Li.eq_def]
        dsimp only
        simp only [if_neg h1, if_neg h6, val_ite, val_bind, val_liftM, val_pure, val_lift, liSeriesC_erase, liUnityPosC_erase, liRestC_erase, pure_bind]
        rw [if_neg (show ¬ n = -1 by omega), if_neg (show ¬ n = 0 by omega), if_neg (show ¬ n = 1 by omega), if_neg (show ¬ n = 2 by omega),
          if_neg (show ¬ n = 3 by omega), if_neg (show ¬ n = 4 by omega), if_neg (show ¬ n = 5 by omega), if_neg (show ¬ n = 6 by omega)]

/-- **C22 (Li, -1 ≤ n ≤ 6).** No loop is executed, in any arithmetic. -/
theorem C22_Li_small (fuel : ℕ) (n : Int) (h1 : -1 ≤ n) (h6 : n ≤ 6) (z : Cx F) : (LiC fuel n z).cost = 0 := by
  refine Nat.le_zero.1 ?_
  rw [LiC.eq_def]
  dsimp only
  rw [if_neg (show ¬ n < -1 by omega), if_pos h6]
  refine cost_ite (fun _ => cost_pure _ _) fun _ => ?_
  refine cost_ite (fun _ => cost_pure _ _) fun _ => ?_
  refine cost_ite (fun _ => cost_pure _ _) fun _ => ?_
  refine cost_ite (fun _ => cost_ite (fun _ => cost_pure _ _) fun _ => cost_bind0 fun _ _ => cost_pure _ _) fun _ => ?_
  refine cost_ite (fun _ => cost_bind0 fun _ _ => cost_pure _ _) fun _ => Nat.zero_le _

/-- **C22 (Li, n ≥ 7).** In every arithmetic with `0 == 0`, every argument: at most `2^63 + 88` iterations where the power series is used,
at most `n + 1518500263` in the region of the expansion about 1. -/
theorem C22_Li_pos (h0 : ZeroEq F) (fuel : ℕ) (n : Int) (h7 : 7 ≤ n) (z : Cx F) :
    (SeriesOrInv z → (LiC fuel n z).cost ≤ 2 ^ 63 + 88) ∧ (¬ SeriesOrInv z → (LiC fuel n z).cost ≤ (n + 1518500263).toNat) := by
  unfold SeriesOrInv
  rw [LiC.eq_def]
  dsimp only
  rw [if_neg (show ¬ n < -1 by omega), if_neg (show ¬ n ≤ 6 by omega)]
  have hs := fun z : Cx F => C22_series n z
  have hu := C22_unity_pos n h7 z
  have hr := C22_rest h0 n (by omega) z
  have h3 : 3 ≤ 2 ^ 63 := by decide
  generalize (2 ^ 63 : ℕ) = N at *
  constructor
  · intro h
    refine cost_ite (fun _ => cost_pure _ _) fun _ => ?_
    refine cost_ite (fun _ => cost_pure _ _) fun _ => ?_
    refine cost_ite (fun _ => cost_pure _ _) fun _ => ?_
    refine cost_ite (fun _ => cost_ite (fun _ => cost_pure _ _) fun _ => cost_bind0 fun _ _ => cost_pure _ _) fun _ => ?_
    refine cost_ite (fun _ => cost_bind0 fun _ _ => cost_pure _ _) fun _ => ?_
    refine cost_ite (fun _ => (hs z).trans (by omega)) fun e1 => ?_
    refine cost_ite (fun _ => ?_) fun e2 => absurd h (by push Not; exact ⟨e1, e2⟩)
    have := cost_bind (f := fun r => liSeriesC n ((FOps.lit 1 : F) /. z) >>= fun s => pure ((if isEven n then ∸(FOps.lit 1 : F) else (FOps.lit 1 : F)) *. s +. r)) (c := N - 3) hr
      (fun r _ => cost_bind (b := N - 3) (c := 0) (hs _) fun s _ => cost_pure _ _)
    exact this.trans (by omega)
  · intro h
    push Not at h
    refine cost_ite (fun _ => cost_pure _ _) fun _ => ?_
    refine cost_ite (fun _ => cost_pure _ _) fun _ => ?_
    refine cost_ite (fun _ => cost_pure _ _) fun _ => ?_
    refine cost_ite (fun _ => cost_ite (fun _ => cost_pure _ _) fun _ => cost_bind0 fun _ _ => cost_pure _ _) fun _ => ?_
    refine cost_ite (fun _ => cost_bind0 fun _ _ => cost_pure _ _) fun _ => ?_
    refine cost_ite (fun h' => absurd h' h.1) fun e1 => ?_
    refine cost_ite (fun h' => absurd h' h.2) fun e1 => ?_
    exact hu.trans (by omega)

end

/-- **C22 (Li, n < -1).** IEEE arithmetic, whatever the library, recursion depth at most `fuel`: at most `2^fuel (2^63 - 3)` iterations. -/
theorem C22_Li_neg {φ : Fmt} {L : Lib} (n : Int) (hn1 : i64min + 8 < n) (hn2 : n < -1) : ∀ (fuel : ℕ) (z : Cx (FP φ L)),
    (LiC fuel n z).cost ≤ 2 ^ fuel * (2 ^ 63 - 3) := by
  have hs := fun z : Cx (FP φ L) => C22_series n z
  have hu := fun z : Cx (FP φ L) => (C22_unity_neg n hn1 (by omega) z).trans (show 130 ≤ 2 ^ 63 - 3 by decide)
  generalize (2 ^ 63 - 3 : ℕ) = N at *
  intro fuel
  induction fuel with
  | zero =>
    intro z
    rw [LiC.eq_def]
    dsimp only
    rw [if_pos hn2, if_pos (show n ≤ 0 by omega), pow_zero, one_mul]
    refine cost_ite (fun _ => cost_pure _ _) fun _ => ?_
    refine cost_ite (fun _ => cost_pure _ _) fun _ => ?_
    refine cost_ite (fun _ => cost_pure _ _) fun _ => ?_
    refine cost_ite (fun _ => cost_pure _ _) fun _ => ?_
    refine cost_ite (fun _ => cost_bind0 fun _ _ => cost_pure _ _) fun _ => ?_
    exact cost_ite (fun _ => hs z) fun _ => cost_ite (fun _ => hu z) fun _ => Nat.zero_le _
  | succ f ih =>
    intro z
    have hN : N ≤ 2 ^ (f + 1) * N := Nat.le_mul_of_pos_left _ (by positivity)
    rw [LiC.eq_def]
    dsimp only
    rw [if_pos hn2, if_pos (show n ≤ 0 by omega)]
    refine cost_ite (fun _ => cost_pure _ _) fun _ => ?_
    refine cost_ite (fun _ => cost_pure _ _) fun _ => ?_
    refine cost_ite (fun _ => cost_pure _ _) fun _ => ?_
    refine cost_ite (fun _ => cost_pure _ _) fun _ => ?_
    refine cost_ite (fun _ => cost_bind0 fun _ _ => cost_pure _ _) fun _ => ?_
    refine cost_ite (fun _ => (hs z).trans hN) fun _ => cost_ite (fun _ => (hu z).trans hN) fun _ => ?_
    refine cost_bind0 fun n1 _ => ?_
    rw [show 2 ^ (f + 1) * N = 2 ^ f * N + 2 ^ f * N by ring]
    exact cost_bind (ih _) fun a _ => cost_bind (b := 2 ^ f * N) (c := 0) (ih _) fun b _ => cost_pure _ _

end Polylog
