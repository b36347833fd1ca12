import Verif.Sem.FPCE
import Verif.Props.Li3Cx
import Verif.Props.Li4Cx
import Verif.Props.Li5Cx
import Verif.Props.Li6Cx

/-!
# The branches of the complex polylogarithms as expressions of the language `CXE`

Variable 0 is `u`, variable 1 is `pos_log(-u)` or `log(-z)`.  The theorems `..._ev` say that the value of the expression is the
branch of the model, in every arithmetic.
-/

namespace Polylog
set_option linter.style.longLine false

instance : XAdd (CXE false) (CXE false) (CXE false) := ⟨.radd⟩
instance : XSub (CXE false) (CXE false) (CXE false) := ⟨.rsub⟩
instance : XMul (CXE false) (CXE false) (CXE false) := ⟨.rmul⟩
instance : XNeg (CXE false) := ⟨.rneg⟩
instance : XAdd (CXE true) (CXE true) (CXE true) := ⟨.add⟩
instance : XSub (CXE true) (CXE true) (CXE true) := ⟨.sub⟩
instance : XMul (CXE true) (CXE true) (CXE true) := ⟨.mul⟩
instance : XNeg (CXE true) := ⟨.neg⟩
instance : XAdd (CXE true) (CXE false) (CXE true) := ⟨.addr⟩
instance : XAdd (CXE false) (CXE true) (CXE true) := ⟨.addl⟩
instance : XSub (CXE false) (CXE true) (CXE true) := ⟨.subl⟩
instance : XMul (CXE true) (CXE false) (CXE true) := ⟨.mulr⟩
instance : XMul (CXE false) (CXE true) (CXE true) := ⟨.mull⟩
/-- divisor (an integer literal) -/
structure DLit where
  q : ℚ
instance : XDiv (CXE false) DLit (CXE false) := ⟨fun a d => .rdiv a d.q⟩
instance : XDiv (CXE true) DLit (CXE true) := ⟨fun a d => .div a d.q⟩

local notation:max "♯" q:max => (CXE.lit (q : ℚ))
local notation:max "÷" q:max => (DLit.mk (q : ℚ))

def ceHornerLoop {N : Nat} (r s : CXE false) (c : Vector ℚ N) : (k : Nat) → k ≤ N → CXE false → CXE false → CXE false × CXE false
  | 0, _, a, b => (a, b)
  | k + 1, h, a, b => ceHornerLoop r s c k (by omega) (b +. r *. a) (♯(c[k]) -. s *. a)

def ceHorner {n : Nat} (z : CXE true) (c : Vector ℚ (n + 2)) : CXE true :=
  let rz := CXE.re z
  let iz := CXE.im z
  let r := rz +. rz
  let s := rz *. rz +. iz *. iz
  let ab := ceHornerLoop r s c n (by omega) ♯(c[n + 1]) ♯(c[n])
  CXE.mk (rz *. ab.1 +. ab.2) (iz *. ab.1)

def cU : CXE true := .var 0
def cL : CXE true := .var 1

section
variable {F : Type} [FOps F]

def env2 (u l : Cx F) : ℕ → Cx F
  | 0 => u
  | _ => l

theorem ceHornerLoop_ev {N : Nat} (env : ℕ → Cx F) (r s : CXE false) (c : Vector ℚ N) (k : ℕ) (h : k ≤ N) (a b : CXE false) :
    hornerCLoop 0 (r.ev env : F) (s.ev env : F) c k h (a.ev env : F) (b.ev env : F) = ((ceHornerLoop r s c k h a b).1.ev env, (ceHornerLoop r s c k h a b).2.ev env) := by
  induction k generalizing a b with
  | zero => rfl
  | succ k ih =>
    unfold hornerCLoop ceHornerLoop
    rw [if_pos (Nat.zero_le _)]
    exact ih (by omega) (b +. r *. a) (♯(c[k]) -. s *. a)

theorem ceHorner_ev {n : Nat} (env : ℕ → Cx F) (z : CXE true) (c : Vector ℚ (n + 2)) : hornerC 0 (z.ev env : Cx F) c = (ceHorner z c).ev env := by
  have := ceHornerLoop_ev env (CXE.re z +. CXE.re z) (CXE.re z *. CXE.re z +. CXE.im z *. CXE.im z) c n (by omega) ♯(c[n + 1]) ♯(c[n])
  unfold hornerC
  show (⟨_, _⟩ : Cx F) = _
  refine Eq.trans (b := (⟨(z.ev env : Cx F).re *. (hornerCLoop 0 ((CXE.re z +. CXE.re z).ev env : F) ((CXE.re z *. CXE.re z +. CXE.im z *. CXE.im z).ev env : F) c n (by omega) ((♯(c[n + 1])).ev env : F) ((♯(c[n])).ev env : F)).1
    +. (hornerCLoop 0 ((CXE.re z +. CXE.re z).ev env : F) ((CXE.re z *. CXE.re z +. CXE.im z *. CXE.im z).ev env : F) c n (by omega) ((♯(c[n + 1])).ev env : F) ((♯(c[n])).ev env : F)).2,
    (z.ev env : Cx F).im *. (hornerCLoop 0 ((CXE.re z +. CXE.re z).ev env : F) ((CXE.re z *. CXE.re z +. CXE.im z *. CXE.im z).ev env : F) c n (by omega) ((♯(c[n + 1])).ev env : F) ((♯(c[n])).ev env : F)).1⟩ : Cx F)) rfl ?_
  rw [this]
  rfl
end

/-! ## tails of the branches -/

def ceFin18 (bf : Vector ℚ 18) (u rest : CXE true) : CXE true :=
        let u2 := u *. u
        let u4 := u2 *. u2
        let u8 := u4 *. u4
        rest +. u *. ♯(bf[0]) +. u2 *. (♯(bf[1]) +. u *. ♯(bf[2])) +. u4 *. (♯(bf[3]) +. u *. ♯(bf[4]) +. u2 *. (♯(bf[5]) +. u *. ♯(bf[6]))) +. u8 *. (♯(bf[7]) +. u *. ♯(bf[8]) +. u2 *. (♯(bf[9]) +. u *. ♯(bf[10])) +. u4 *. (♯(bf[11]) +. u *. ♯(bf[12]) +. u2 *. (♯(bf[13]) +. u *. ♯(bf[14])))) +. u8 *. u8 *. (♯(bf[15]) +. u *. ♯(bf[16]) +. u2 *. ♯(bf[17]))

def ceFin19 (bf : Vector ℚ 19) (u rest : CXE true) : CXE true :=
        let u2 := u *. u
        let u4 := u2 *. u2
        let u8 := u4 *. u4
        rest +. u *. ♯(bf[0]) +. u2 *. (♯(bf[1]) +. u *. ♯(bf[2])) +. u4 *. (♯(bf[3]) +. u *. ♯(bf[4]) +. u2 *. (♯(bf[5]) +. u *. ♯(bf[6]))) +. u8 *. (♯(bf[7]) +. u *. ♯(bf[8]) +. u2 *. (♯(bf[9]) +. u *. ♯(bf[10])) +. u4 *. (♯(bf[11]) +. u *. ♯(bf[12]) +. u2 *. (♯(bf[13]) +. u *. ♯(bf[14])))) +. u8 *. u8 *. (♯(bf[15]) +. u *. ♯(bf[16]) +. u2 *. (♯(bf[17]) +. u *. ♯(bf[18])))

def ceFin18s (bf : Vector ℚ 18) (u rest : CXE true) (sgn : CXE false) : CXE true :=
        let u2 := u *. u
        let u4 := u2 *. u2
        let u8 := u4 *. u4
        rest +. sgn *. (u *. ♯(bf[0]) +. u2 *. (♯(bf[1]) +. u *. ♯(bf[2])) +. u4 *. (♯(bf[3]) +. u *. ♯(bf[4]) +. u2 *. (♯(bf[5]) +. u *. ♯(bf[6]))) +. u8 *. (♯(bf[7]) +. u *. ♯(bf[8]) +. u2 *. (♯(bf[9]) +. u *. ♯(bf[10])) +. u4 *. (♯(bf[11]) +. u *. ♯(bf[12]) +. u2 *. (♯(bf[13]) +. u *. ♯(bf[14])))) +. u8 *. u8 *. (♯(bf[15]) +. u *. ♯(bf[16]) +. u2 *. ♯(bf[17])))

/-! ## the expressions -/

/-- the function with the branches `cN` (close to 1), `c1` (in the unit disc), `cI` (outside) -/
def cLiCE {F : Type} [FOps F] (p : ℚ) (cN c1 cI : CXE true) (z : Cx F) : Cx F :=
  cLiShape (FOps.lit p : F) (fun u => cN.ev (env2 u (posLog (∸u)))) (fun u => c1.ev (env2 u u)) (fun u l => cI.ev (env2 u l)) z

def ce0 : CXE true := CXE.mk ♯0 ♯0

def ceN3 (z3 z2 : ℚ) (cs : Vector ℚ 7) : CXE true :=
  let u := cU
  let u2 := u *. u
  let u4 := u2 *. u2
  let u8 := u4 *. u4
  let c0 := ♯z3 +. u *. (♯z2 -. u2 /. ÷12)
  let c1 := ♯0.25 *. (♯3 -. ♯2 *. cL)
  c0 +. c1 *. u2 +. u4 *. (♯(cs[0]) +. u2 *. ♯(cs[1])) +. u8 *. (♯(cs[2]) +. u2 *. ♯(cs[3]) +. u4 *. (♯(cs[4]) +. u2 *. ♯(cs[5]))) +. u8 *. u8 *. ♯(cs[6])

def ceI3 (z2 : ℚ) (bf : Vector ℚ 18) : CXE true := ceFin18 bf cU (∸cL *. (cL *. cL /. ÷6 +. ♯z2))

def ceN4 (z4 c1 c2 : ℚ) {m : ℕ} (cs : Vector ℚ (m + 2)) : CXE true :=
  let u := cU
  let c3 := (♯11 /. ÷6 -. cL) /. ÷6
  let c4 : CXE false := ∸♯1 /. ÷48
  let u2 := u *. u
  ♯z4 +. u2 *. (♯c2 +. u2 *. c4) +. u *. (♯c1 +. u2 *. (c3 +. u2 *. (ceHorner u2 cs)))

def ceI4 (p : ℚ) (bf : Vector ℚ 18) : CXE true :=
  let PI := ♯p
  let PI2 := PI *. PI
  let PI4 := PI2 *. PI2
  let lmz2 := cL *. cL
  ceFin18s bf cU (♯1 /. ÷360 *. (∸♯7 *. PI4 +. lmz2 *. (∸♯30 *. PI2 -. ♯15 *. lmz2))) ∸♯1

def ceN5 (z5 c1 c2 c3 : ℚ) {m : ℕ} (cs : Vector ℚ (m + 2)) : CXE true :=
  let u := cU
  let c4 := (♯25 /. ÷12 -. cL) /. ÷24
  let c5 : CXE false := ∸♯1 /. ÷240
  let u2 := u *. u
  ♯z5 +. u *. ♯c1 +. u2 *. (♯c2 +. u *. ♯c3 +. u2 *. (c4 +. u *. c5 +. u2 *. (ceHorner u2 cs)))

def ceI5 (p : ℚ) (bf : Vector ℚ 19) : CXE true :=
  let PI := ♯p
  let PI2 := PI *. PI
  let PI4 := PI2 *. PI2
  let lmz2 := cL *. cL
  ceFin19 bf cU (∸♯1 /. ÷360 *. cL *. (♯7 *. PI4 +. lmz2 *. (♯10 *. PI2 +. ♯3 *. lmz2)))

def ceN6 (z6 c1 c2 c3 c4 : ℚ) {m : ℕ} (cs : Vector ℚ (m + 2)) : CXE true :=
  let u := cU
  let c5 := (♯137 /. ÷60 -. cL) /. ÷120
  let c6 : CXE false := ∸♯1 /. ÷1440
  let u2 := u *. u
  ♯z6 +. u *. ♯c1 +. u2 *. (♯c2 +. u *. ♯c3 +. u2 *. (♯c4 +. u *. c5 +. u2 *. (c6 +. u *. (ceHorner u2 cs))))

def ceI6 (p : ℚ) (bf : Vector ℚ 18) : CXE true :=
  let PI := ♯p
  let PI2 := PI *. PI
  let PI4 := PI2 *. PI2
  let PI6 := PI2 *. PI4
  let lmz2 := cL *. cL
  ceFin18s bf cU (∸♯31 *. PI6 /. ÷15120 +. lmz2 *. (∸♯7 /. ÷720 *. PI4 +. lmz2 *. (∸♯1 /. ÷144 *. PI2 -. ♯1 /. ÷720 *. lmz2))) ∸♯1

/-! ## the model functions are these expressions -/
section
variable {F : Type} [FOps F]

theorem cLi3S_ev (p z3 z2 : ℚ) (cs : Vector ℚ 7) (bf : Vector ℚ 18) (z : Cx F) :
    cLi3S p z2 (near3d z3 z2 cs) (fin18 bf) z = cLiCE p (ceN3 z3 z2 cs) (ceFin18 bf cU ce0) (ceI3 z2 bf) z := rfl

theorem cLi4S_ev (p z4 c1 c2 : ℚ) {m : ℕ} (cs : Vector ℚ (m + 2)) (bf : Vector ℚ 18) (z : Cx F) :
    cLi4S p z4 c1 c2 cs (fin18s bf) z = cLiCE p (ceN4 z4 c1 c2 cs) (ceFin18s bf cU ce0 ♯1) (ceI4 p bf) z := by
  have h (u : Cx F) := ceHorner_ev (env2 u (posLog (∸u))) (cU *. cU) cs
  have h' (u : Cx F) : hornerC 0 (u *. u) cs = (ceHorner (cU *. cU) cs).ev (env2 u (posLog (∸u))) := h u
  unfold cLi4S
  simp only [h']
  rfl

theorem cLi5S_ev (p z5 c1 c2 c3 : ℚ) {m : ℕ} (cs : Vector ℚ (m + 2)) (bf : Vector ℚ 19) (z : Cx F) :
    cLi5S p z5 c1 c2 c3 cs (fin19 bf) z = cLiCE p (ceN5 z5 c1 c2 c3 cs) (ceFin19 bf cU ce0) (ceI5 p bf) z := by
  have h (u : Cx F) := ceHorner_ev (env2 u (posLog (∸u))) (cU *. cU) cs
  have h' (u : Cx F) : hornerC 0 (u *. u) cs = (ceHorner (cU *. cU) cs).ev (env2 u (posLog (∸u))) := h u
  unfold cLi5S
  simp only [h']
  rfl

theorem cLi6S_ev (p z6 c1 c2 c3 c4 : ℚ) {m : ℕ} (cs : Vector ℚ (m + 2)) (bf : Vector ℚ 18) (z : Cx F) :
    cLi6S p z6 c1 c2 c3 c4 cs (fin18s bf) z = cLiCE p (ceN6 z6 c1 c2 c3 c4 cs) (ceFin18s bf cU ce0 ♯1) (ceI6 p bf) z := by
  have h (u : Cx F) := ceHorner_ev (env2 u (posLog (∸u))) (cU *. cU) cs
  have h' (u : Cx F) : hornerC 0 (u *. u) cs = (ceHorner (cU *. cU) cs).ev (env2 u (posLog (∸u))) := h u
  unfold cLi6S
  simp only [h']
  rfl
end

/-! ## boxes -/
def envB (a b : Bx) : ℕ → Bx
  | 0 => a
  | _ => b

def bn (x : ℚ) : ℕ := ⌈x * 2 ^ 128⌉₊


end Polylog
