import Verif.Sem.FPFast
import Verif.Sem.RealLemmas

/-!
# Straight-line programs

A program is a list of expressions, each of which may refer to the values of the preceding ones.  If the analyser accepts a program on
a covering set of boxes, the IEEE value is finite and close to the value of the same program in exact arithmetic, and no divisor vanishes.
-/

namespace Polylog

noncomputable section

/-- evaluation in the exact-real semantics of the model -/
def FE.rs (S : RealSem) (env : ℕ → R S) : FE → R S
  | var i => env i
  | lit q => FOps.lit q
  | add a b => a.rs S env +. b.rs S env
  | sub a b => a.rs S env -. b.rs S env
  | mul a b => a.rs S env *. b.rs S env
  | div a b => a.rs S env /. b.rs S env
  | neg a => ∸(a.rs S env)

/-- no divisor vanishes -/
def FE.dok (env : ℕ → ℝ) : FE → Prop
  | var _ => True
  | lit _ => True
  | add a b => a.dok env ∧ b.dok env
  | sub a b => a.dok env ∧ b.dok env
  | mul a b => a.dok env ∧ b.dok env
  | div a b => a.dok env ∧ b.dok env ∧ b.re env ≠ 0
  | neg a => a.dok env

theorem FE.rs_eq {S : RealSem} (hS : S.rho = id) {env : ℕ → ℝ} {env' : ℕ → R S} (he : ∀ i, ofR (env' i) = env i) (e : FE) (h : e.dok env) :
    ofR (e.rs S env') = e.re env := by
  induction e with
  | var i => exact he i
  | lit q => change ((S.rho q : ℚ) : ℝ) = _; rw [hS]; rfl
  | add a b ia ib => change ofR (a.rs S env') + ofR (b.rs S env') = _; rw [ia h.1, ib h.2]; rfl
  | sub a b ia ib => change ofR (a.rs S env') - ofR (b.rs S env') = _; rw [ia h.1, ib h.2]; rfl
  | mul a b ia ib => change ofR (a.rs S env') * ofR (b.rs S env') = _; rw [ia h.1, ib h.2]; rfl
  | div a b ia ib =>
    change (if ofR (b.rs S env') = 0 then S.divJ (ofR (a.rs S env')) else ofR (a.rs S env') / ofR (b.rs S env')) = _
    rw [ia h.1, ib h.2.1, if_neg h.2.2]; rfl
  | neg a ia => change -ofR (a.rs S env') = _; rw [ia h]; rfl

variable {φ : Fmt} {K : ℕ}

theorem divP_ne {p : ℕ} {a b c : IB} {y : FV} {s : ℝ} (hc : divP p K a b = some c) (hy : Apx φ K y s b) : s ≠ 0 := by
  have eb := hy.err_nonneg
  obtain ⟨t, ht, k1, k2, k3⟩ := hy
  unfold divP at hc
  split at hc
  swap; · simp at hc
  rename_i hpos
  have hlb : 0 < b.lo := by omega
  have hlbR : (0:ℝ) < b.lo := by exact_mod_cast hlb
  rintro rfl
  rw [zero_mul] at k1; linarith

theorem divB_ne {p : ℕ} {a b c : IB} {y : FV} {s : ℝ} (hc : divB p K a b = some c) (hy : Apx φ K y s b) : s ≠ 0 := by
  unfold divB at hc
  split at hc
  · exact neg_ne_zero.1 (divP_ne hc (negB_sound hy))
  · exact divP_ne hc hy

theorem chk_dok (hφ : FmtOK φ K) {env : List IB} {fenv : ℕ → FV} {renv : ℕ → ℝ} (henv : ∀ i b, env[i]? = some b → Apx φ K (fenv i) (renv i) b)
    (e : FE) {c : IB} (hc : chk φ.p K env e = some c) : e.dok renv := by
  induction e generalizing c with
  | var i => trivial
  | lit q => trivial
  | add a b iha ihb =>
    simp only [chk, Option.bind_eq_some_iff] at hc
    obtain ⟨x, hx, y, hy, hc⟩ := hc
    exact ⟨iha hx, ihb hy⟩
  | sub a b iha ihb =>
    simp only [chk, Option.bind_eq_some_iff] at hc
    obtain ⟨x, hx, y, hy, hc⟩ := hc
    exact ⟨iha hx, ihb hy⟩
  | mul a b iha ihb =>
    simp only [chk, Option.bind_eq_some_iff] at hc
    obtain ⟨x, hx, y, hy, hc⟩ := hc
    exact ⟨iha hx, ihb hy⟩
  | div a b iha ihb =>
    simp only [chk, Option.bind_eq_some_iff] at hc
    obtain ⟨x, hx, y, hy, hc⟩ := hc
    exact ⟨iha hx, ihb hy, divB_ne hc (chk_sound hφ henv b hy)⟩
  | neg a iha =>
    simp only [chk, Option.map_eq_some_iff] at hc
    obtain ⟨x, hx, hc⟩ := hc
    exact iha hx

/-! ## programs -/

/-- look-up -/
def lkF (l : List FV) (i : ℕ) : FV := l.getD i .nan
def lkR (l : List ℝ) (i : ℕ) : ℝ := l.getD i 0
def lkS (S : RealSem) (l : List (R S)) (i : ℕ) : R S := l.getD i (FOps.lit 0)

/-- IEEE value of the program `ds; e` -/
def fpP (φ : Fmt) : List FV → List FE → FE → FV
  | l, [], e => e.fp φ (lkF l)
  | l, d :: ds, e => fpP φ (l ++ [d.fp φ (lkF l)]) ds e
/-- exact value of the program in the real semantics of the model -/
def rsP (S : RealSem) : List (R S) → List FE → FE → R S
  | l, [], e => e.rs S (lkS S l)
  | l, d :: ds, e => rsP S (l ++ [d.rs S (lkS S l)]) ds e
def chkP (p K : ℕ) : List IB → List FE → FE → Option IB
  | l, [], e => chk p K l e
  | l, d :: ds, e => (chk p K l d).bind fun b => chkP p K (l ++ [b]) ds e

/-- lists of computed values, exact values and boxes in correspondence -/
inductive Env3 (φ : Fmt) (K : ℕ) (S : RealSem) : List FV → List (R S) → List IB → Prop
  | nil : Env3 φ K S [] [] []
  | cons {x : FV} {r : R S} {b : IB} {l m n} (h : Apx φ K x (ofR r) b) (t : Env3 φ K S l m n) : Env3 φ K S (x :: l) (r :: m) (b :: n)

theorem Env3.append {S : RealSem} {l m n} (h : Env3 φ K S l m n) {x : FV} {r : R S} {b : IB} (hx : Apx φ K x (ofR r) b) : Env3 φ K S (l ++ [x]) (m ++ [r]) (n ++ [b]) := by
  induction h with
  | nil => exact .cons hx .nil
  | cons h _ ih => exact .cons h ih

theorem Env3.get {S : RealSem} {l m n} (h : Env3 φ K S l m n) (i : ℕ) (b : IB) (hb : n[i]? = some b) : Apx φ K (lkF l i) (ofR (lkS S m i)) b := by
  induction h generalizing i with
  | nil => simp at hb
  | cons h _ ih =>
    cases i with
    | zero => simp at hb; subst hb; exact h
    | succ i => exact ih i (by simpa using hb)

theorem chkP_sound (hφ : FmtOK φ K) {S : RealSem} (hS : S.rho = id) {l m n} (h : Env3 φ K S l m n) (ds : List FE) (e : FE) {c : IB}
    (hc : chkP φ.p K n ds e = some c) : Apx φ K (fpP φ l ds e) (ofR (rsP S m ds e)) c := by
  induction ds generalizing l m n with
  | nil =>
    have hd := chk_dok hφ (renv := fun i => ofR (lkS S m i)) (fenv := lkF l) h.get e hc
    have := chk_sound hφ (renv := fun i => ofR (lkS S m i)) (fenv := lkF l) h.get e hc
    rwa [← FE.rs_eq hS (fun i => rfl) e hd] at this
  | cons d ds ih =>
    simp only [chkP, Option.bind_eq_some_iff] at hc
    obtain ⟨b, hb, hc⟩ := hc
    have hd := chk_dok hφ (renv := fun i => ofR (lkS S m i)) (fenv := lkF l) h.get d hb
    have hs := chk_sound hφ (renv := fun i => ofR (lkS S m i)) (fenv := lkF l) h.get d hb
    rw [← FE.rs_eq hS (fun i => rfl) d hd] at hs
    exact ih (h.append hs) hc

/-! ## kernel-friendly form -/

/-- run the converted program -/
def CE.chkP (w : FPar) (ds : List CE) (e : CE) : List IB → Option IB :=
  List.rec (motive := fun _ => List IB → Option IB) (fun l => e.chk w l) (fun d _ ih l => obind (d.chk w l) fun b => ih (l ++ [b])) ds

/-- convert the literals of a list of expressions -/
def compL {α : Type} (p K : ℕ) (none : α) (ds : List FE) : (List CE → α) → α :=
  List.rec (motive := fun _ => (List CE → α) → α) (fun k => k []) (fun d _ ih k => comp p K none d fun c => ih fun cs => k (c :: cs)) ds

/-- all boxes from `a`, stepping by `d`; the first variable has the error `e0` -/
def boxLP (w : FPar) (env : List IB) (e0 : ℤ) (ds : List CE) (e : CE) (B d : ℤ) (n : ℕ) : ℤ → Bool :=
  Nat.rec (motive := fun _ => ℤ → Bool) (fun _ => true)
    (fun _ ih a => seqI (a + d) fun a' => boolIf (Option.rec (motive := fun _ => Bool) false (fun b => ile b.err B) (CE.chkP w ds e (⟨a, a', e0⟩ :: env))) (ih a') false) n

/-- the program `ds; e` has error at most `B` on every box `[a + j d, a + (j+1) d]`, `j < n` (in units of `2^-K`) -/
def boxesP (p K : ℕ) (d : ℤ) (env : List IB) (e0 : ℤ) (ds : List FE) (e : FE) (B a : ℤ) (n : ℕ) : Bool :=
  seqI (2 ^ p) fun P => seqI (2 ^ K) fun S => seqI (2 ^ (K + 100)) fun T => seqI d fun d => seqI B fun B => seqI a fun a => seqI e0 fun e0 =>
    compL p K false ds fun cs => comp p K false e fun c => boxLP ⟨P, S, T⟩ env e0 cs c B d n a

variable {p : ℕ}

inductive CorL (p K : ℕ) : List FE → List CE → Prop
  | nil : CorL p K [] []
  | cons {d c ds cs} (h : Cor p K d c) (t : CorL p K ds cs) : CorL p K (d :: ds) (c :: cs)

theorem CorL.chk {ds : List FE} {cs : List CE} (h : CorL p K ds cs) {e : FE} {c : CE} (he : Cor p K e c) (env : List IB) :
    CE.chkP ⟨2 ^ p, 2 ^ K, 2 ^ (K + 100)⟩ cs c env = Polylog.chkP p K env ds e := by
  induction h generalizing env with
  | nil => exact he.chk env
  | @cons d c' ds cs h _ ih =>
    change obind (c'.chk _ env) (fun b => CE.chkP _ cs c (env ++ [b])) = _
    rw [obind_eq, h.chk, Polylog.chkP]
    congr 1; funext b; exact ih _

theorem compL_cor {ds : List FE} : ∀ {k : List CE → Bool}, compL p K false ds k = true → ∃ c, CorL p K ds c ∧ k c = true := by
  induction ds with
  | nil => intro k h; exact ⟨_, .nil, h⟩
  | cons d ds ih =>
    intro k h
    obtain ⟨c, hc, h⟩ := comp_cor (k := fun c => compL p K false ds fun cs => k (c :: cs)) h
    obtain ⟨cs, hcs, h⟩ := ih h
    exact ⟨_, .cons hc hcs, h⟩

theorem boxLP_all {w : FPar} {env : List IB} {e0 : ℤ} {ds : List CE} {e : CE} {B d : ℤ} {n : ℕ} {a : ℤ} (h : boxLP w env e0 ds e B d n a = true) {j : ℕ} (hj : j < n) :
    ∃ b, CE.chkP w ds e (⟨a + j * d, a + (j + 1) * d, e0⟩ :: env) = some b ∧ b.err ≤ B := by
  induction n generalizing a j with
  | zero => omega
  | succ n ih =>
    have h' : boolIf (Option.rec (motive := fun _ => Bool) false (fun b => ile b.err B) (CE.chkP w ds e (⟨a, a + d, e0⟩ :: env))) (boxLP w env e0 ds e B d n (a + d)) false = true := by
      have h2 : seqI (a + d) (fun a' => boolIf (Option.rec (motive := fun _ => Bool) false (fun b => ile b.err B) (CE.chkP w ds e (⟨a, a', e0⟩ :: env))) (boxLP w env e0 ds e B d n a') false) = true := h
      rwa [seqI_eq] at h2
    rw [boolIf_eq] at h'
    split at h'
    swap; · simp at h'
    rename_i hc
    cases j with
    | zero =>
      cases hq : CE.chkP w ds e (⟨a, a + d, e0⟩ :: env) with
      | none => rw [hq] at hc; simp at hc
      | some b => rw [hq] at hc; exact ⟨b, by simpa using hq, ile_iff.1 hc⟩
    | succ j =>
      obtain ⟨b, hb, hb'⟩ := ih h' (j := j) (by omega)
      refine ⟨b, ?_, hb'⟩
      rw [← hb]; congr 3 <;> push_cast <;> ring

/-- cover an interval by `n` boxes -/
theorem exists_box {a d : ℤ} {n : ℕ} (hd : 0 < d) (hn : 0 < n) {t : ℝ} (h0 : (a : ℝ) ≤ t) (h1 : t ≤ ((a + n * d : ℤ) : ℝ)) :
    ∃ j : ℕ, j < n ∧ ((a + j * d : ℤ) : ℝ) ≤ t ∧ t ≤ ((a + (j + 1) * d : ℤ) : ℝ) := by
  have hdR : (0:ℝ) < d := by exact_mod_cast hd
  set v : ℝ := (t - a) / d with ht
  have et : t = a + v * d := by rw [ht]; field_simp; ring
  have t0 : 0 ≤ v := by rw [ht]; apply div_nonneg _ hdR.le; linarith
  have t1 : v ≤ n := by
    rw [ht, div_le_iff₀ hdR]; push_cast at h1; linarith
  by_cases hlast : v = n
  · refine ⟨n - 1, by omega, ?_, ?_⟩
    · rw [et, hlast]; push_cast; rw [Nat.cast_sub hn]; push_cast; nlinarith
    · rw [et, hlast]; push_cast; rw [Nat.cast_sub hn]; push_cast; nlinarith
  · have hlt : v < n := lt_of_le_of_ne t1 hlast
    have f1 := Nat.floor_le t0
    have f2 := Nat.lt_floor_add_one v
    refine ⟨⌊v⌋₊, (Nat.floor_lt t0).2 hlt, ?_, ?_⟩
    · rw [et]; push_cast; nlinarith
    · rw [et]; push_cast; nlinarith

/-- soundness of the box loop: the first variable ranges over the covered interval, with error `e0`, the others are as described by `env` -/
theorem boxLP_sound (hφ : FmtOK φ K) {S : RealSem} (hS : S.rho = id) {d : ℤ} (hd : 0 < d) {env : List IB} {e0 : ℤ} {ds : List FE} {e : FE} {B a : ℤ} {n : ℕ} (hn : 0 < n)
    {cs : List CE} {c : CE} (hcs : CorL φ.p K ds cs) (hc : Cor φ.p K e c) (h : boxLP ⟨2 ^ φ.p, 2 ^ K, 2 ^ (K + 100)⟩ env e0 cs c B d n a = true)
    {l m} (henv : Env3 φ K S l m env) {x : FV} {r : R S} (hx : Near φ x (ofR r) (e0 / 2 ^ K))
    (h0 : (a : ℝ) ≤ ofR r * 2 ^ K) (h1 : ofR r * 2 ^ K ≤ ((a + n * d : ℤ) : ℝ)) :
    Near φ (fpP φ (x :: l) ds e) (ofR (rsP S (r :: m) ds e)) (B / 2 ^ K) := by
  obtain ⟨j, hj, h2, h3⟩ := exists_box hd hn h0 h1
  obtain ⟨b, hb, hB⟩ := boxLP_all h hj
  rw [hcs.chk hc] at hb
  obtain ⟨q, hq, he⟩ := hx
  have hA : Apx φ K x (ofR r) ⟨a + j * d, a + (j + 1) * d, e0⟩ := ⟨q, hq, h2, h3, by rwa [le_div_iff₀ (by positivity)] at he⟩
  obtain ⟨v, hv, -, -, he⟩ := chkP_sound hφ hS (.cons hA henv) ds e hb
  refine ⟨v, hv, ?_⟩
  rw [le_div_iff₀ (by positivity)]
  refine he.trans ?_
  exact_mod_cast hB

/-- soundness: the first variable ranges over the covered interval, with error `e0`, the others are as described by `env` -/
theorem boxesP_sound (hφ : FmtOK φ K) {S : RealSem} (hS : S.rho = id) {d : ℤ} (hd : 0 < d) {env : List IB} {e0 : ℤ} {ds : List FE} {e : FE} {B a : ℤ} {n : ℕ} (hn : 0 < n)
    (h : boxesP φ.p K d env e0 ds e B a n = true) {l m} (henv : Env3 φ K S l m env) {x : FV} {r : R S} (hx : Near φ x (ofR r) (e0 / 2 ^ K))
    (h0 : (a : ℝ) ≤ ofR r * 2 ^ K) (h1 : ofR r * 2 ^ K ≤ ((a + n * d : ℤ) : ℝ)) :
    Near φ (fpP φ (x :: l) ds e) (ofR (rsP S (r :: m) ds e)) (B / 2 ^ K) := by
  simp only [boxesP, seqI_eq] at h
  obtain ⟨cs, hcs, h⟩ := compL_cor h
  obtain ⟨c, hc, h⟩ := comp_cor h
  exact boxLP_sound hφ hS hd hn hcs hc h henv hx h0 h1

/-- one stretch of boxes: step, box of the second variable, start, number -/
structure Stretch where
  d : ℤ
  lo : ℤ
  hi : ℤ
  err : ℤ
  a : ℤ
  n : ℕ

/-- several stretches, literals converted once -/
def strL (w : FPar) (cs : List CE) (c : CE) (B : ℤ) (L : List Stretch) : Bool :=
  List.rec (motive := fun _ => Bool) true
    (fun s _ ih => seqI s.d fun d => seqI s.lo fun lo => seqI s.hi fun hi => seqI s.err fun err => seqI s.a fun a =>
      boolIf (boxLP w [⟨lo, hi, err⟩] 0 cs c B d s.n a) ih false) L

@[inherit_doc strL]
def stretches (p K : ℕ) (ds : List FE) (e : FE) (B : ℤ) (L : List Stretch) : Bool :=
  seqI (2 ^ p) fun P => seqI (2 ^ K) fun S => seqI (2 ^ (K + 100)) fun T => seqI B fun B =>
    compL p K false ds fun cs => comp p K false e fun c => strL ⟨P, S, T⟩ cs c B L

theorem strL_mem {w : FPar} {cs : List CE} {c : CE} {B : ℤ} {L : List Stretch} (h : strL w cs c B L = true) {s : Stretch} (hs : s ∈ L) :
    boxLP w [⟨s.lo, s.hi, s.err⟩] 0 cs c B s.d s.n s.a = true := by
  induction L with
  | nil => simp at hs
  | cons t L ih =>
    have h' : boolIf (boxLP w [⟨t.lo, t.hi, t.err⟩] 0 cs c B t.d t.n t.a) (strL w cs c B L) false = true := by
      have h2 : (seqI t.d fun d => seqI t.lo fun lo => seqI t.hi fun hi => seqI t.err fun err => seqI t.a fun a =>
        boolIf (boxLP w [⟨lo, hi, err⟩] 0 cs c B d t.n a) (strL w cs c B L) false) = true := h
      simpa only [seqI_eq] using h2
    rw [boolIf_eq] at h'
    split at h'
    swap; · simp at h'
    rename_i hc
    rcases List.mem_cons.1 hs with rfl | hm
    · exact hc
    · exact ih h' hm

theorem stretches_sound (hφ : FmtOK φ K) {S : RealSem} (hS : S.rho = id) {ds : List FE} {e : FE} {B : ℤ} {L : List Stretch}
    (h : stretches φ.p K ds e B L = true) {s : Stretch} (hs : s ∈ L) (hd : 0 < s.d) (hn : 0 < s.n) {x y : FV} {r t : R S}
    (hy : Apx φ K y (ofR t) ⟨s.lo, s.hi, s.err⟩) (hx : Near φ x (ofR r) (((0:ℤ):ℝ) / 2 ^ K))
    (h0 : (s.a : ℝ) ≤ ofR r * 2 ^ K) (h1 : ofR r * 2 ^ K ≤ ((s.a + s.n * s.d : ℤ) : ℝ)) :
    Near φ (fpP φ [x, y] ds e) (ofR (rsP S [r, t] ds e)) (B / 2 ^ K) := by
  simp only [stretches, seqI_eq] at h
  obtain ⟨cs, hcs, h⟩ := compL_cor h
  obtain ⟨c, hc, h⟩ := comp_cor h
  exact boxLP_sound hφ hS hd hn hcs hc (strL_mem h hs) (.cons hy .nil) hx h0 h1

end

end Polylog
