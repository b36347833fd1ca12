import Verif.Props.LiFPInst

/-!
# Horner schemes with many coefficients: the analysis of `CXE.chk` with sharing

`ceHorner` repeats sub-expressions, so its size is exponential in the number of coefficients.  `chkH` computes the same boxes with sharing.
-/

namespace Polylog
set_option linter.style.longLine false
set_option linter.unusedSimpArgs false

local notation:max "♯" q:max => (CXE.lit (q : ℚ))
local notation:max "÷" q:max => (DLit.mk (q : ℚ))

/-- replace the variable 7 by `H` -/
def CXE.subst (H : CXE true) : {b : Bool} → CXE b → CXE b
  | _, .lit q => .lit q
  | _, .var i => if i = 7 then H else .var i
  | _, .mk a b => .mk (CXE.subst H a) (CXE.subst H b)
  | _, .radd a b => .radd (CXE.subst H a) (CXE.subst H b)
  | _, .rsub a b => .rsub (CXE.subst H a) (CXE.subst H b)
  | _, .rmul a b => .rmul (CXE.subst H a) (CXE.subst H b)
  | _, .add a b => .add (CXE.subst H a) (CXE.subst H b)
  | _, .sub a b => .sub (CXE.subst H a) (CXE.subst H b)
  | _, .mul a b => .mul (CXE.subst H a) (CXE.subst H b)
  | _, .addr a b => .addr (CXE.subst H a) (CXE.subst H b)
  | _, .addl a b => .addl (CXE.subst H a) (CXE.subst H b)
  | _, .subl a b => .subl (CXE.subst H a) (CXE.subst H b)
  | _, .mulr a b => .mulr (CXE.subst H a) (CXE.subst H b)
  | _, .mull a b => .mull (CXE.subst H a) (CXE.subst H b)
  | _, .re a => .re (CXE.subst H a)
  | _, .im a => .im (CXE.subst H a)
  | _, .rneg a => .rneg (CXE.subst H a)
  | _, .neg a => .neg (CXE.subst H a)
  | _, .rdiv a q => .rdiv (CXE.subst H a) q
  | _, .div a q => .div (CXE.subst H a) q

def env7 (env : ℕ → Bx) (hb : Bx) : ℕ → Bx := fun i => if i = 7 then hb else env i

theorem chk_subst {l : ℕ} {env : ℕ → Bx} {H : CXE true} {hb : Bx} (h : H.chk l env = some hb) (hok : hb.ok l = true) :
    ∀ {b : Bool} (e : CXE b), (CXE.subst H e).chk l env = e.chk l (env7 env hb) := by
  intro b e
  induction e with
  | lit q => rfl
  | var i =>
    simp only [CXE.subst, CXE.chk, env7]
    split
    · simp [h, Bx.guard, hok]
    · simp [CXE.chk]
  | _ => simp_all only [CXE.subst, CXE.chk]

def bLit (q : ℚ) : Option Bx := if isLit q then some ⟨⌈|q| * (2 ^ 128 + 2 ^ 78)⌉₊, 0, 0⟩ else none

def chkHLoop (l : ℕ) (r s : Bx) {N : ℕ} (c : Vector ℚ N) : (k : ℕ) → k ≤ N → Bx → Bx → Option (Bx × Bx)
  | 0, _, a, b => some (a, b)
  | k + 1, h, a, b => do
    let a' ← (Bx.badd b (← (Bx.bmul 1 r a).guard l)).guard l
    let b' ← (Bx.badd (← bLit (c[k])) (← (Bx.bmul 1 s a).guard l)).guard l
    chkHLoop l r s c k (by omega) a' b'

def chkH (l : ℕ) (z : Bx) {n : ℕ} (c : Vector ℚ (n + 2)) : Option Bx := do
  let r ← (Bx.badd z z).guard l
  let zz ← (Bx.bmul 1 z z).guard l
  let s ← (Bx.badd zz zz).guard l
  let ab ← chkHLoop l r s c n (by omega) (← bLit c[n+1]) (← bLit c[n])
  let x ← (Bx.badd (← (Bx.bmul 1 z ab.1).guard l) ab.2).guard l
  let y ← (Bx.bmul 1 z ab.1).guard l
  Bx.guard l ⟨x.M + y.M, x.e + y.e, max x.d y.d⟩

theorem chkHLoop_spec {l : ℕ} {env : ℕ → Bx} {r s : CXE false} {R S : Bx} (hr : r.chk l env = some R) (hs : s.chk l env = some S) {N : ℕ} (c : Vector ℚ N) :
    ∀ (k : ℕ) (h : k ≤ N) {a b : CXE false} {A B : Bx} {P : Bx × Bx}, a.chk l env = some A → b.chk l env = some B → chkHLoop l R S c k h A B = some P →
      (ceHornerLoop r s c k h a b).1.chk l env = some P.1 ∧ (ceHornerLoop r s c k h a b).2.chk l env = some P.2
  | 0, _, a, b, A, B, P, ha, hb, hP => by
    simp only [chkHLoop, Option.some.injEq] at hP
    subst hP; exact ⟨ha, hb⟩
  | k + 1, h, a, b, A, B, P, ha, hb, hP => by
    simp only [chkHLoop, Option.bind_eq_bind, Option.bind_eq_some_iff] at hP
    obtain ⟨m, hm, a', ha', q, hq, m', hm', b', hb', hP⟩ := hP
    refine chkHLoop_spec hr hs c k (by omega) (A := a') (B := b') ?_ ?_ hP
    · show (CXE.radd b (CXE.rmul r a)).chk l env = _
      simp only [CXE.chk, ha, hb, hr, Option.bind_eq_bind, Option.bind_some, hm, ha']
    · show (CXE.rsub (CXE.lit c[k]) (CXE.rmul s a)).chk l env = _
      have hq' : (CXE.lit c[k]).chk l env = some q := hq
      simp only [CXE.chk] at hq'
      simp only [CXE.chk, ha, hs, Option.bind_eq_bind, Option.bind_some, hq', hm', hb']

theorem chkH_spec {l : ℕ} {env : ℕ → Bx} {z : CXE true} {Z : Bx} (hz : z.chk l env = some Z) {n : ℕ} (c : Vector ℚ (n + 2)) {P : Bx} (h : chkH l Z c = some P) :
    (ceHorner z c).chk l env = some P := by
  simp only [chkH, Option.bind_eq_bind, Option.bind_eq_some_iff] at h
  obtain ⟨r, hr, zz, hzz, s, hs, a0, ha0, b0, hb0, ab, hab, m, hm, x, hx, y, hy, h⟩ := h
  have hre : (CXE.re z +. CXE.re z).chk l env = some r := by
    show (CXE.radd (CXE.re z) (CXE.re z)).chk l env = _
    simp only [CXE.chk, hz, Option.bind_eq_bind, Option.bind_some, hr]
  have hse : (CXE.re z *. CXE.re z +. CXE.im z *. CXE.im z).chk l env = some s := by
    show (CXE.radd (CXE.rmul (CXE.re z) (CXE.re z)) (CXE.rmul (CXE.im z) (CXE.im z))).chk l env = _
    simp only [CXE.chk, hz, Option.bind_eq_bind, Option.bind_some, hzz, hs]
  have ha1 : (♯(c[n + 1])).chk l env = some a0 := ha0
  have hb1 : (♯(c[n])).chk l env = some b0 := hb0
  obtain ⟨h1, h2⟩ := chkHLoop_spec hre hse c n (by omega) ha1 hb1 hab
  show (CXE.mk (CXE.radd (CXE.rmul (CXE.re z) _) _) (CXE.rmul (CXE.im z) _)).chk l env = _
  simp only [CXE.chk, hz, h1, h2, Option.bind_eq_bind, Option.bind_some, hm, hx, hy, h]
  rw [hm] at hy
  simp_all

/-- the box of an expression with one Horner scheme (variable 7) -/
def chk7 (l : ℕ) (env : ℕ → Bx) (z : CXE true) {n : ℕ} (c : Vector ℚ (n + 2)) (e : CXE true) : Option Bx := do
  let Z ← z.chk l env
  let hb ← chkH l Z c
  e.chk l (env7 env hb)

theorem guard_ok {l : ℕ} {b b' : Bx} (h : Bx.guard l b = some b') : b'.ok l = true := by
  obtain ⟨h1, rfl⟩ := guard_some h; exact h1

theorem chk7_spec {l : ℕ} {env : ℕ → Bx} {z : CXE true} {n : ℕ} {c : Vector ℚ (n + 2)} {e : CXE true} {P : Bx} (h : chk7 l env z c e = some P) :
    (CXE.subst (ceHorner z c) e).chk l env = some P := by
  simp only [chk7, Option.bind_eq_bind, Option.bind_eq_some_iff] at h
  obtain ⟨Z, hZ, hb, hH, h⟩ := h
  rw [chk_subst (chkH_spec hZ c hH) ?_, h]
  simp only [chkH, Option.bind_eq_bind, Option.bind_eq_some_iff] at hH
  obtain ⟨r, hr, zz, hzz, s, hs, a0, ha0, b0, hb0, ab, hab, m, hm, x, hx, y, hy, h⟩ := hH
  exact guard_ok h

end Polylog
