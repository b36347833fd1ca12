import Verif.Sem.IEEE

/-! # The operators of the model, unfolded for the IEEE semantics -/

namespace Polylog
variable {φ : Fmt} {L : Lib}

/-- reinterpret floating-point data as an element of the model's arithmetic type, and back -/
def toF (φ : Fmt) (L : Lib) (x : FV) : FP φ L := x
def ofF {φ : Fmt} {L : Lib} (x : FP φ L) : FV := x

@[simp] theorem ofF_toF (x : FV) : ofF (toF φ L x) = x := rfl

section
variable (a b : FP φ L)
theorem ofF_add : ofF (a +. b) = (ofF a).add φ (ofF b) := rfl
theorem ofF_sub : ofF (a -. b) = (ofF a).add φ (ofF b).neg := rfl
theorem ofF_mul : ofF (a *. b) = (ofF a).mul φ (ofF b) := rfl
theorem ofF_div : ofF (a /. b) = (ofF a).div φ (ofF b) := rfl
theorem ofF_neg : ofF (∸a) = (ofF a).neg := rfl
theorem ofF_log : ofF (xlog a) = L.log (ofF a) := rfl
theorem lt_F : (a <. b) = (ofF a).lt (ofF b) := rfl
theorem le_F : (a <=. b) = (ofF a).le (ofF b) := rfl
theorem eq_F : (a ==. b) = (ofF a).eq (ofF b) := rfl
theorem gt_F : (a >. b) = (ofF b).lt (ofF a) := rfl
theorem ge_F : (a >=. b) = (ofF b).le (ofF a) := rfl
theorem ofF_lit (q : ℚ) : ofF (FOps.lit q : FP φ L) = rndQ φ q := rfl
theorem ofF_ofInt (n : ℤ) : ofF (FOps.ofInt n : FP φ L) = rndQ φ n := rfl
theorem ofF_fmod : ofF (FOps.fmod a b) = (ofF a).fmod (ofF b) := rfl
theorem ofF_sin : ofF (FOps.sin a) = L.sin (ofF a) := rfl
theorem ofF_cos : ofF (FOps.cos a) = L.cos (ofF a) := rfl
theorem ofF_pow : ofF (FOps.pow a b) = L.pow (ofF a) (ofF b) := rfl
theorem ofF_inf : ofF (FOps.inf : FP φ L) = .inf false := rfl
theorem ofF_nan : ofF (FOps.nan : FP φ L) = .nan := rfl
theorem ofF_inj {a b : FP φ L} (h : ofF a = ofF b) : a = b := h
end

/-- equal up to the sign of a zero -/
def ZEq (a b : FV) : Prop := a = b ∨ (∃ s t, a = .fin s 0 ∧ b = .fin t 0)

namespace FV

@[simp] theorem neg_neg (a : FV) : a.neg.neg = a := by cases a <;> simp [neg]
@[simp] theorem neg_nan : nan.neg = nan := rfl

theorem nan_add (a : FV) : add φ nan a = nan := by cases a <;> rfl
theorem add_nan (a : FV) : add φ a nan = nan := by cases a <;> rfl
theorem nan_mul (a : FV) : mul φ nan a = nan := by cases a <;> rfl
theorem mul_nan (a : FV) : mul φ a nan = nan := by cases a <;> rfl
theorem nan_div (a : FV) : div φ nan a = nan := by cases a <;> rfl
theorem div_nan (a : FV) : div φ a nan = nan := by cases a <;> rfl
theorem nan_lt (a : FV) : lt nan a = false := by cases a <;> rfl
theorem lt_nan (a : FV) : lt a nan = false := by cases a <;> rfl
theorem nan_le (a : FV) : le nan a = false := by cases a <;> rfl
theorem le_nan (a : FV) : le a nan = false := by cases a <;> rfl
theorem nan_eq (a : FV) : eq nan a = false := by cases a <;> rfl
theorem eq_nan (a : FV) : eq a nan = false := by cases a <;> rfl
theorem nan_fmod (a : FV) : fmod nan a = nan := by cases a <;> rfl

theorem neg_mul (a b : FV) : mul φ a.neg b = (mul φ a b).neg := by
  cases a <;> cases b <;> simp [mul, neg] <;> first | done | (split_ifs <;> simp [neg]) | (simp [rnd]; split_ifs <;> simp [neg])

theorem sval_not (s : Bool) (a : ℚ) : sval (!s) a = -sval s a := by cases s <;> simp [sval]

theorem neg_lt_zero (s : Bool) (a : ℚ) :
    lt (fin (!s) a) (fin false 0) = decide (0 < sval s a) := by
  simp [lt, sval_not]; simp [sval]

end FV

namespace ZEq

@[refl] theorem refl (a : FV) : ZEq a a := Or.inl rfl
theorem symm {a b : FV} (h : ZEq a b) : ZEq b a := by
  rcases h with rfl | ⟨s, t, rfl, rfl⟩
  · exact refl _
  · exact Or.inr ⟨t, s, rfl, rfl⟩
theorem trans {a b c : FV} (h : ZEq a b) (h' : ZEq b c) : ZEq a c := by
  rcases h with rfl | ⟨s, t, rfl, rfl⟩
  · exact h'
  · rcases h' with rfl | ⟨s', t', h1, rfl⟩
    · exact Or.inr ⟨_, _, rfl, rfl⟩
    · exact Or.inr ⟨_, _, rfl, rfl⟩
theorem neg {a b : FV} (h : ZEq a b) : ZEq a.neg b.neg := by
  rcases h with rfl | ⟨s, t, rfl, rfl⟩
  · exact refl _
  · exact Or.inr ⟨_, _, rfl, rfl⟩

theorem sval_zero (s : Bool) : sval s 0 = 0 := by simp [sval]

theorem add_left {a b : FV} (h : ZEq a b) (c : FV) : ZEq (a.add φ c) (b.add φ c) := by
  rcases h with rfl | ⟨s, t, rfl, rfl⟩
  · exact refl _
  · cases c with
    | nan => exact refl _
    | inf u => exact refl _
    | fin u c =>
      simp only [FV.add, sval_zero, zero_add]
      by_cases hc : sval u c = 0
      · simp only [hc, if_true]
        split_ifs <;> exact Or.inr ⟨_, _, rfl, rfl⟩
      · simp only [hc, if_false]; exact refl _

theorem add_comm' (a b : FV) : ZEq (a.add φ b) (b.add φ a) := by
  cases a <;> cases b <;> simp only [FV.add] <;> try exact refl _
  · rename_i s t; by_cases h : s = t
    · subst h; exact refl _
    · simp only [h, Ne.symm h, if_false]; exact refl _
  · rename_i s a t b
    rw [_root_.add_comm (sval t b)]
    split_ifs <;> first | exact refl _ | exact Or.inr ⟨_, _, rfl, rfl⟩

theorem add {a b c d : FV} (h : ZEq a b) (h' : ZEq c d) : ZEq (a.add φ c) (b.add φ d) :=
  (add_left h c).trans ((add_comm' b c).trans ((add_left h' b).trans (add_comm' d b)))

theorem mul_left {a b : FV} (h : ZEq a b) (c : FV) : ZEq (a.mul φ c) (b.mul φ c) := by
  rcases h with rfl | ⟨s, t, rfl, rfl⟩
  · exact refl _
  · cases c with
    | nan => exact refl _
    | inf u => simp [FV.mul]; exact refl _
    | fin u c =>
      have h0 : Repr φ 0 := ⟨0, φ.emin, le_rfl, by positivity, by simp⟩
      simp only [FV.mul, zero_mul]
      rw [rnd_repr _ h0 (by positivity), rnd_repr _ h0 (by positivity)]
      exact Or.inr ⟨_, _, rfl, rfl⟩

theorem mul_comm' (a b : FV) : a.mul φ b = b.mul φ a := by
  cases a <;> cases b <;> simp only [FV.mul, Bool.xor_comm, _root_.mul_comm]

theorem mul {a b c d : FV} (h : ZEq a b) (h' : ZEq c d) : ZEq (a.mul φ c) (b.mul φ d) := by
  refine (mul_left h c).trans ?_
  rw [mul_comm' b c, mul_comm' b d]
  exact mul_left h' b

/-- division by something that is not changed -/
theorem div_left {a b : FV} (h : ZEq a b) (c : FV) : ZEq (a.div φ c) (b.div φ c) := by
  rcases h with rfl | ⟨s, t, rfl, rfl⟩
  · exact refl _
  · cases c with
    | nan => exact refl _
    | inf u => exact Or.inr ⟨_, _, rfl, rfl⟩
    | fin u c =>
      have h0 : Repr φ 0 := ⟨0, φ.emin, le_rfl, by positivity, by simp⟩
      simp only [FV.div, if_true, zero_div]
      split_ifs
      · exact refl _
      · rw [rnd_repr _ h0 (by positivity), rnd_repr _ h0 (by positivity)]
        exact Or.inr ⟨_, _, rfl, rfl⟩

theorem lt {a b c d : FV} (h : ZEq a b) (h' : ZEq c d) : a.lt c = b.lt d := by
  rcases h with rfl | ⟨s, t, rfl, rfl⟩ <;> rcases h' with rfl | ⟨s', t', rfl, rfl⟩ <;> try rfl
  · cases a <;> simp [FV.lt, sval_zero]
  · cases c <;> simp [FV.lt, sval_zero]
  · simp [FV.lt, sval_zero]

theorem le {a b c d : FV} (h : ZEq a b) (h' : ZEq c d) : a.le c = b.le d := by
  rcases h with rfl | ⟨s, t, rfl, rfl⟩ <;> rcases h' with rfl | ⟨s', t', rfl, rfl⟩ <;> try rfl
  · cases a <;> simp [FV.le, sval_zero]
  · cases c <;> simp [FV.le, sval_zero]
  · simp [FV.le, sval_zero]

theorem eq {a b c d : FV} (h : ZEq a b) (h' : ZEq c d) : a.eq c = b.eq d := by
  rcases h with rfl | ⟨s, t, rfl, rfl⟩ <;> rcases h' with rfl | ⟨s', t', rfl, rfl⟩ <;> try rfl
  · cases a <;> simp [FV.eq, sval_zero]
  · cases c <;> simp [FV.eq, sval_zero]
  · simp [FV.eq, sval_zero]

end ZEq

/-- a value that compares equal to zero is a zero -/
theorem eq_zero_iff (a : FV) : a.eq (.fin false 0) = true ↔ ∃ s, a = .fin s 0 := by
  cases a with
  | nan => simp [FV.eq]
  | inf s => simp [FV.eq]
  | fin s a => cases s <;> simp [FV.eq, sval]

end Polylog
