import Verif.Sem.FPReify

/-!
# Kernel-friendly form of the rounding-error analyser

`boxesF` implies `boxes` (`boxes_of_F`), with every intermediate integer forced to a literal, the literals of the expression
converted once, and the powers of two computed once, so that the kernel evaluates it quickly.  (The step `d` should be odd: the kernel's caches hash
large integers by their low bits.)
-/

namespace Polylog

noncomputable section

/-- force a natural number -/
def seqN {α : Type} (n : ℕ) (k : ℕ → α) : α := Nat.rec (k 0) (fun m _ => k (m + 1)) n
/-- force an integer -/
def seqI {α : Type} (x : ℤ) (k : ℤ → α) : α := Int.rec (fun n => seqN n fun n => k (.ofNat n)) (fun n => seqN n fun n => k (.negSucc n)) x
@[simp] theorem seqN_eq {α : Type} (n : ℕ) (k : ℕ → α) : seqN n k = k n := by cases n <;> rfl
@[simp] theorem seqI_eq {α : Type} (x : ℤ) (k : ℤ → α) : seqI x k = k x := by cases x <;> simp [seqI]

/-- `a ≤ b` -/
def ile (a b : ℤ) : Bool := Int.rec (fun _ => true) (fun _ => false) (b - a)
theorem ile_iff {a b : ℤ} : ile a b = true ↔ a ≤ b := by
  unfold ile
  cases h : b - a with
  | ofNat n => have : b - a = (n : ℤ) := h; simp only [true_iff]; omega
  | negSucc n => have := Int.negSucc_lt_zero n; simp only [Bool.false_eq_true, false_iff]; omega
def imax (a b : ℤ) : ℤ := Bool.rec a b (ile a b)
def imin (a b : ℤ) : ℤ := Bool.rec b a (ile a b)
def iabs (a : ℤ) : ℤ := Int.rec (fun n => .ofNat n) (fun n => .ofNat (n + 1)) a
@[simp] theorem imax_eq (a b : ℤ) : imax a b = max a b := by
  unfold imax
  cases h : ile a b with
  | true => rw [ile_iff] at h; simp [max_eq_right h]
  | false => have : ¬ a ≤ b := by rw [← ile_iff, h]; simp
             simp [max_eq_left (not_le.1 this).le]
@[simp] theorem imin_eq (a b : ℤ) : imin a b = min a b := by
  unfold imin
  cases h : ile a b with
  | true => rw [ile_iff] at h; simp [min_eq_left h]
  | false => have : ¬ a ≤ b := by rw [← ile_iff, h]; simp
             simp [min_eq_right (not_le.1 this).le]
@[simp] theorem iabs_eq (a : ℤ) : iabs a = |a| := by
  cases a with
  | ofNat n => simp [iabs]
  | negSucc n => simp [iabs, Int.negSucc_eq]; rw [abs_of_neg (by omega)]; omega

def boolIf {α : Type} (c : Bool) (a b : α) : α := Bool.rec b a c
@[simp] theorem boolIf_eq {α : Type} (c : Bool) (a b : α) : boolIf c a b = if c = true then a else b := by cases c <;> rfl

/-- parameters: `2^p`, `2^K`, `2^(K+100)` -/
structure FPar where
  P : ℤ
  S : ℤ
  T : ℤ

def fin1F (w : FPar) (lo hi e : ℤ) : Option IB :=
  seqI lo fun lo => seqI hi fun hi => seqI e fun e => seqI (imax (iabs lo) (iabs hi) + e) fun M =>
    boolIf (ile M w.T) (seqI (e + M / w.P + 2) fun e' => some ⟨lo, hi, e'⟩) none
def addF (w : FPar) (a b : IB) : Option IB := fin1F w (a.lo + b.lo) (a.hi + b.hi) (a.err + b.err)
def negF {α : Type} (a : IB) (k : IB → α) : α := seqI (-a.hi) fun lo => seqI (-a.lo) fun hi => k ⟨lo, hi, a.err⟩
def mulF (w : FPar) (a b : IB) : Option IB :=
  seqI (a.lo * b.lo) fun x => seqI (a.lo * b.hi) fun y => seqI (a.hi * b.lo) fun z => seqI (a.hi * b.hi) fun v =>
    fin1F w (imin (imin x y) (imin z v) / w.S) (imax (imax x y) (imax z v) / w.S + 1)
      ((a.err * (imax (iabs b.lo) (iabs b.hi) + b.err) + b.err * imax (iabs a.lo) (iabs a.hi)) / w.S + 1)
def divPF (w : FPar) (a b : IB) : Option IB :=
  boolIf (ile 1 (b.lo - b.err))
    (seqI (imin (a.lo * w.S / b.lo) (a.lo * w.S / b.hi)) fun lo => seqI (imax (a.hi * w.S / b.lo) (a.hi * w.S / b.hi) + 1) fun hi =>
      fin1F w lo hi ((a.err * w.S + imax (iabs lo) (iabs hi) * b.err) / (b.lo - b.err) + 1)) none
def divF (w : FPar) (a b : IB) : Option IB := boolIf (ile b.hi (-1)) (negF a fun a => negF b fun b => divPF w a b) (divPF w a b)

/-- expressions whose literals have been converted to boxes -/
inductive CE where
  | var (i : ℕ)
  | box (b : IB)
  | add (a b : CE)
  | sub (a b : CE)
  | mul (a b : CE)
  | div (a b : CE)
  | neg (a : CE)

def obind {α β : Type} (x : Option α) (f : α → Option β) : Option β := Option.rec none f x
theorem obind_eq {α β : Type} (x : Option α) (f : α → Option β) : obind x f = x.bind f := by cases x <;> rfl

def CE.chk (w : FPar) (env : List IB) (e : CE) : Option IB :=
  CE.rec (motive := fun _ => Option IB) (fun i => env[i]?) (fun b => some b)
    (fun _ _ x y => obind x fun x => obind y fun y => addF w x y)
    (fun _ _ x y => obind x fun x => obind y fun y => negF y fun y => addF w x y)
    (fun _ _ x y => obind x fun x => obind y fun y => mulF w x y)
    (fun _ _ x y => obind x fun x => obind y fun y => divF w x y)
    (fun _ x => obind x fun x => negF x some) e

def seqB {α : Type} (b : IB) (k : IB → α) : α := seqI b.lo fun lo => seqI b.hi fun hi => seqI b.err fun err => k ⟨lo, hi, err⟩
@[simp] theorem seqB_eq {α : Type} (b : IB) (k : IB → α) : seqB b k = k b := by simp [seqB]

/-- convert the literals -/
def comp {α : Type} (p K : ℕ) (none : α) (e : FE) : (CE → α) → α :=
  FE.rec (motive := fun _ => (CE → α) → α) (fun i k => k (.var i)) (fun q k => Option.rec none (fun b => seqB b fun b => k (.box b)) (litB p K q))
    (fun _ _ x y k => x fun a => y fun b => k (.add a b))
    (fun _ _ x y k => x fun a => y fun b => k (.sub a b))
    (fun _ _ x y k => x fun a => y fun b => k (.mul a b))
    (fun _ _ x y k => x fun a => y fun b => k (.div a b))
    (fun _ x k => x fun a => k (.neg a)) e

/-- all boxes from `a`, stepping by `d` -/
def boxL (w : FPar) (env : List IB) (e : CE) (B d : ℤ) (n : ℕ) : ℤ → Bool :=
  Nat.rec (motive := fun _ => ℤ → Bool) (fun _ => true)
    (fun _ ih a => seqI (a + d) fun a' => boolIf (Option.rec (motive := fun _ => Bool) false (fun b => ile b.err B) (e.chk w (⟨a, a', 0⟩ :: env))) (ih a') false) n

def boxesF (p K : ℕ) (d : ℤ) (env : List IB) (e : FE) (B a : ℤ) (n : ℕ) : Bool :=
  seqI (2 ^ p) fun P => seqI (2 ^ K) fun S => seqI (2 ^ (K + 100)) fun T => seqI d fun d => seqI B fun B => seqI a fun a =>
    comp p K false e fun c => boxL ⟨P, S, T⟩ env c B d n a

variable {p K : ℕ}

theorem fin1F_eq (lo hi e : ℤ) : fin1F ⟨2 ^ p, 2 ^ K, 2 ^ (K + 100)⟩ lo hi e = fin1 p K lo hi e := by
  simp [fin1F, fin1, ile_iff]
theorem addF_eq (a b : IB) : addF ⟨2 ^ p, 2 ^ K, 2 ^ (K + 100)⟩ a b = addB p K a b := fin1F_eq ..
@[simp] theorem negF_eq {α : Type} (a : IB) (k : IB → α) : negF a k = k (negB a) := by simp [negF, negB]
theorem mulF_eq (a b : IB) : mulF ⟨2 ^ p, 2 ^ K, 2 ^ (K + 100)⟩ a b = mulB p K a b := by
  simp [mulF, mulB, fin1F_eq, IB.mag]
theorem divPF_eq (a b : IB) : divPF ⟨2 ^ p, 2 ^ K, 2 ^ (K + 100)⟩ a b = divP p K a b := by
  simp only [divPF, divP, fin1F_eq, seqI_eq, boolIf_eq, imax_eq, imin_eq, iabs_eq, ile_iff]
  by_cases h : 0 < b.lo - b.err
  · rw [if_pos h, if_pos (by omega)]
  · rw [if_neg h, if_neg (by omega)]
theorem divF_eq (a b : IB) : divF ⟨2 ^ p, 2 ^ K, 2 ^ (K + 100)⟩ a b = divB p K a b := by
  simp only [divF, divB, negF_eq, boolIf_eq, ile_iff, divPF_eq]
  by_cases h : b.hi < 0
  · rw [if_pos h, if_pos (by omega)]
  · rw [if_neg h, if_neg (by omega)]

/-- an expression and its conversion -/
inductive Cor (p K : ℕ) : FE → CE → Prop
  | var (i : ℕ) : Cor p K (.var i) (.var i)
  | lit {q : ℚ} {b : IB} (h : litB p K q = some b) : Cor p K (.lit q) (.box b)
  | add {a b : FE} {a' b' : CE} (h1 : Cor p K a a') (h2 : Cor p K b b') : Cor p K (.add a b) (.add a' b')
  | sub {a b : FE} {a' b' : CE} (h1 : Cor p K a a') (h2 : Cor p K b b') : Cor p K (.sub a b) (.sub a' b')
  | mul {a b : FE} {a' b' : CE} (h1 : Cor p K a a') (h2 : Cor p K b b') : Cor p K (.mul a b) (.mul a' b')
  | div {a b : FE} {a' b' : CE} (h1 : Cor p K a a') (h2 : Cor p K b b') : Cor p K (.div a b) (.div a' b')
  | neg {a : FE} {a' : CE} (h1 : Cor p K a a') : Cor p K (.neg a) (.neg a')

theorem Cor.chk {e : FE} {c : CE} (h : Cor p K e c) (env : List IB) : c.chk ⟨2 ^ p, 2 ^ K, 2 ^ (K + 100)⟩ env = Polylog.chk p K env e := by
  induction h with
  | var i => rfl
  | lit h => exact h.symm
  | add _ _ i1 i2 => rw [Polylog.chk, ← i1, ← i2, ← obind_eq]; simp only [← obind_eq, ← addF_eq]; rfl
  | @sub a b a' b' _ _ i1 i2 =>
    rw [Polylog.chk, ← i1, ← i2]
    change obind (CE.chk _ env a') (fun x => obind (CE.chk _ env b') fun y => negF y fun y => addF _ x y) = _
    simp only [negF_eq, addF_eq, obind_eq]
  | mul _ _ i1 i2 => rw [Polylog.chk, ← i1, ← i2, ← obind_eq]; simp only [← obind_eq, ← mulF_eq]; rfl
  | div _ _ i1 i2 => rw [Polylog.chk, ← i1, ← i2, ← obind_eq]; simp only [← obind_eq, ← divF_eq]; rfl
  | @neg a a' _ i1 =>
    rw [Polylog.chk, ← i1, CE.chk]
    change obind (CE.chk _ env a') _ = _
    cases CE.chk ⟨2 ^ p, 2 ^ K, 2 ^ (K + 100)⟩ env a' <;> simp [obind]

theorem comp_cor {e : FE} : ∀ {k : CE → Bool}, comp p K false e k = true → ∃ c, Cor p K e c ∧ k c = true := by
  induction e with
  | var i => intro k h; exact ⟨_, .var i, h⟩
  | lit q =>
    intro k h
    have h' : Option.rec (motive := fun _ => Bool) false (fun b => seqB b fun b => k (.box b)) (litB p K q) = true := h
    cases hq : litB p K q with
    | none => rw [hq] at h'; simp at h'
    | some b => rw [hq] at h'; simp only [seqB_eq] at h'; exact ⟨_, .lit hq, h'⟩
  | add a b i1 i2 => intro k h; obtain ⟨c, hc, h⟩ := i1 h; obtain ⟨d, hd, h⟩ := i2 h; exact ⟨_, .add hc hd, h⟩
  | sub a b i1 i2 => intro k h; obtain ⟨c, hc, h⟩ := i1 h; obtain ⟨d, hd, h⟩ := i2 h; exact ⟨_, .sub hc hd, h⟩
  | mul a b i1 i2 => intro k h; obtain ⟨c, hc, h⟩ := i1 h; obtain ⟨d, hd, h⟩ := i2 h; exact ⟨_, .mul hc hd, h⟩
  | div a b i1 i2 => intro k h; obtain ⟨c, hc, h⟩ := i1 h; obtain ⟨d, hd, h⟩ := i2 h; exact ⟨_, .div hc hd, h⟩
  | neg a i1 => intro k h; obtain ⟨c, hc, h⟩ := i1 h; exact ⟨_, .neg hc, h⟩

theorem boxL_all {w : FPar} {env : List IB} {e : CE} {B d : ℤ} {n : ℕ} {a : ℤ} (h : boxL w env e B d n a = true) {j : ℕ} (hj : j < n) :
    ∃ b, e.chk w (⟨a + j * d, a + (j + 1) * d, 0⟩ :: env) = some b ∧ b.err ≤ B := by
  induction n generalizing a j with
  | zero => omega
  | succ n ih =>
    have h' : boolIf (Option.rec (motive := fun _ => Bool) false (fun b => ile b.err B) (e.chk w (⟨a, a + d, 0⟩ :: env))) (boxL w env e B d n (a + d)) false = true := by
      have h2 : seqI (a + d) (fun a' => boolIf (Option.rec (motive := fun _ => Bool) false (fun b => ile b.err B) (e.chk w (⟨a, a', 0⟩ :: env))) (boxL w env e B d n a') false) = true := h
      rwa [seqI_eq] at h2
    rw [boolIf_eq] at h'
    split at h'
    swap; · simp at h'
    rename_i hc
    cases j with
    | zero =>
      cases hq : e.chk w (⟨a, a + d, 0⟩ :: env) with
      | none => rw [hq] at hc; simp at hc
      | some b => rw [hq] at hc; exact ⟨b, by simpa using hq, ile_iff.1 hc⟩
    | succ j =>
      obtain ⟨b, hb, hb'⟩ := ih h' (j := j) (by omega)
      refine ⟨b, ?_, hb'⟩
      rw [← hb]; congr 3 <;> push_cast <;> ring

theorem boxes_of_F {d : ℤ} {env : List IB} {e : FE} {B a : ℤ} {n : ℕ} (h : boxesF p K d env e B a n = true) : boxes p K d env e B a n = true := by
  simp only [boxesF, seqI_eq] at h
  obtain ⟨c, hc, h⟩ := comp_cor h
  rw [boxes, List.all_eq_true]
  intro j hj
  obtain ⟨b, hb, hB⟩ := boxL_all h (List.mem_range.1 hj)
  rw [hc.chk] at hb
  rw [hb]
  exact decide_eq_true hB

end

end Polylog
