import Verif.Props.FPNan

/-!
# C24, C25: exact parity of the Clausen and Glaisher-Clausen functions in floating point

`ZEq a b` (see `Sem/IEEELemmas.lean`): the same floating-point datum, or two zeros.
-/

namespace Polylog
variable {φ : Fmt} {L : Lib}

/-- equality up to the sign of a zero, on values of the model's arithmetic type -/
def FEq (a b : FP φ L) : Prop := ZEq (ofF a) (ofF b)

/-- equality up to the sign of a zero for results that may be a fault -/
def FEqM (a b : M (FP φ L)) : Prop :=
  match a, b with
  | .ok a, .ok b => FEq a b
  | .error e, .error f => e = f
  | _, _ => False

theorem FEq.refl (a : FP φ L) : FEq a a := Or.inl rfl
theorem FEq.symm {a b : FP φ L} (h : FEq a b) : FEq b a := ZEq.symm h
theorem FEq.add {a b c d : FP φ L} (h : FEq a b) (h' : FEq c d) : FEq (a +. c) (b +. d) := ZEq.add h h'
theorem FEq.neg {a b : FP φ L} (h : FEq a b) : FEq (∸a) (∸b) := ZEq.neg h
theorem FEq.sub {a b c d : FP φ L} (h : FEq a b) (h' : FEq c d) : FEq (a -. c) (b -. d) :=
  ZEq.add h (ZEq.neg h')
theorem FEq.mul {a b c d : FP φ L} (h : FEq a b) (h' : FEq c d) : FEq (a *. c) (b *. d) := ZEq.mul h h'
theorem FEq.div {a b : FP φ L} (h : FEq a b) (c : FP φ L) : FEq (a /. c) (b /. c) := ZEq.div_left h c
theorem FEq.lt {a b c d : FP φ L} (h : FEq a b) (h' : FEq c d) : (a <. c) = (b <. d) := ZEq.lt h h'
theorem FEq.eq {a b c d : FP φ L} (h : FEq a b) (h' : FEq c d) : (a ==. c) = (b ==. d) := ZEq.eq h h'

theorem FEqM.refl (a : M (FP φ L)) : FEqM a a := by
  cases a with
  | error e => exact rfl
  | ok a => exact FEq.refl a

theorem FEqM.ok {a b : FP φ L} (h : FEq a b) : FEqM (pure a) (pure b) := h

theorem FEqM.bind {a b : M (FP φ L)} (h : FEqM a b) {f g : FP φ L → M (FP φ L)}
    (hfg : ∀ u v, FEq u v → FEqM (f u) (g v)) : FEqM (a >>= f) (b >>= g) := by
  cases a <;> cases b <;> simp only [FEqM] at h
  · exact h
  · exact hfg _ _ h

theorem FEqM.bind' {α : Type} (a : M α) {f g : α → M (FP φ L)}
    (hfg : ∀ u, FEqM (f u) (g u)) : FEqM (a >>= f) (a >>= g) := by
  cases a
  · exact rfl
  · exact hfg _

/-- the two zeros -/
def IsZ (a : FP φ L) : Prop := ∃ s, a = toF φ L (.fin s 0)

theorem isZ_iff (a : FP φ L) : (a ==. FOps.lit 0) = true ↔ IsZ a := by
  have : (FOps.lit 0 : FP φ L) = toF φ L (.fin false 0) := rndQ_zero
  rw [this]; exact eq_zero_iff a

theorem IsZ.feq {a b : FP φ L} (h : IsZ a) (h' : IsZ b) : FEq a b := by
  obtain ⟨s, rfl⟩ := h; obtain ⟨t, rfl⟩ := h'; exact Or.inr ⟨s, t, rfl, rfl⟩

theorem IsZ.neg {a : FP φ L} (h : IsZ a) : IsZ (∸a) := by
  obtain ⟨s, rfl⟩ := h; exact ⟨!s, rfl⟩

theorem isZ_zero : IsZ (FOps.lit 0 : FP φ L) := ⟨false, rndQ_zero⟩

theorem F_neg_neg (a : FP φ L) : ∸(∸a) = a := FV.neg_neg a
theorem F_neg_mul (a b : FP φ L) : ∸a *. b = ∸(a *. b) := FV.neg_mul a b

/-- `x` is NaN, a zero, or exactly one of `x`, `-x` is negative -/
theorem sign_cases (x : FP φ L) : x = FOps.nan ∨ IsZ x ∨
    ((x <. FOps.lit 0) = true ∧ (∸x <. FOps.lit 0) = false) ∨
    ((x <. FOps.lit 0) = false ∧ (∸x <. FOps.lit 0) = true) := by
  have h0 : (FOps.lit 0 : FP φ L) = toF φ L (.fin false 0) := rndQ_zero
  rw [h0]
  change (x : FV) = .nan ∨ (∃ s, (x : FV) = .fin s 0) ∨ (FV.lt x (.fin false 0) = true ∧ FV.lt (FV.neg x) (.fin false 0) = false) ∨
    (FV.lt x (.fin false 0) = false ∧ FV.lt (FV.neg x) (.fin false 0) = true)
  generalize (x : FV) = y
  cases y with
  | nan => exact Or.inl rfl
  | inf s => cases s <;> simp [FV.lt, FV.neg]
  | fin s a =>
    rcases lt_trichotomy a 0 with h | rfl | h
    · cases s <;> simp [FV.lt, FV.neg, sval, h, h.le]
    · exact Or.inr (Or.inl ⟨s, rfl⟩)
    · cases s <;> simp [FV.lt, FV.neg, sval, h, h.le]

theorem fmod_isZ {x y : FP φ L} (h : IsZ x) : IsZ (FOps.fmod x y) ∨ FOps.fmod x y = FOps.nan := by
  obtain ⟨s, rfl⟩ := h
  change (∃ t, FV.fmod (.fin s 0) y = .fin t 0) ∨ FV.fmod (.fin s 0) y = .nan
  generalize (y : FV) = y
  cases y with
  | nan => exact Or.inr rfl
  | inf t => exact Or.inl ⟨s, rfl⟩
  | fin t b =>
    by_cases hb : b = 0
    · exact Or.inr (by simp [FV.fmod, hb])
    · exact Or.inl ⟨s, by simp [FV.fmod, hb]⟩

/-- a rounded literal that is at least 2 -/
theorem lit_ge_two {q : ℚ} (h : 2 ≤ q) :
    rndQ φ q = .inf false ∨ ∃ m, 2 ≤ m ∧ rndQ φ q = .fin false m := by
  rw [rndQ_nonneg (by linarith)]
  have h2 : Repr φ 2 := by simpa using repr_two_pow (φ := φ) (e := 1) (by have := φ.hmin; omega)
  unfold rnd
  split_ifs
  · exact Or.inl rfl
  · exact Or.inr ⟨_, le_rndMag (by linarith) h2 h, rfl⟩

theorem lit_two : rndQ φ 2 = .fin false 2 := by
  rw [rndQ_nonneg (by norm_num)]
  refine rnd_repr _ (by simpa using repr_two_pow (φ := φ) (e := 1) (by have := φ.hmin; omega)) ?_
  have h3 : (2 : ℚ) ^ (3 : ℤ) ≤ 2 ^ φ.emax := zpow_le_zpow_right₀ (by norm_num) φ.hmax
  norm_num at h3; linarith

/-- zeros are below `PI` and `2*PI` -/
theorem zero_lt_pi {q : ℚ} (h : 2 ≤ q) {x : FP φ L} (hx : IsZ x) :
    (x >=. (FOps.lit 2 : FP φ L) *. (FOps.lit q : FP φ L)) = false ∧ (x >. (FOps.lit q : FP φ L)) = false := by
  obtain ⟨s, rfl⟩ := hx
  change FV.le (FV.mul φ (rndQ φ 2) (rndQ φ q)) (.fin s 0) = false ∧ FV.lt (rndQ φ q) (.fin s 0) = false
  rw [lit_two]
  rcases lit_ge_two (φ := φ) h with h | ⟨m, hm, h⟩
  · rw [h]; simp [FV.mul, FV.le, FV.lt]
  · rw [h]
    refine ⟨?_, by simp [FV.lt, sval]; linarith⟩
    have h2 : Repr φ 2 := by simpa using repr_two_pow (φ := φ) (e := 1) (by have := φ.hmin; omega)
    have h4 : 2 ≤ rndMag φ (2 * m) := le_rndMag (by linarith) h2 (by linarith)
    simp only [FV.mul, Bool.xor_false, rnd]
    split_ifs
    · rfl
    · simp [FV.le, sval]; linarith

theorem reduceAbs_isZ {q : ℚ} (hq : 2 ≤ q) (p : FP φ L) {x : FP φ L} (hx : IsZ x) :
    IsZ (reduceAbs (FOps.lit q) p x) := by
  simp only [reduceAbs]
  have h1 : ∀ y : FP φ L, IsZ y → IsZ (if y <. FOps.lit 0 then ∸y else y) := by
    intro y hy; split_ifs
    · exact hy.neg
    · exact hy
  simp only [(zero_lt_pi hq (h1 x hx)).1, (zero_lt_pi hq (h1 x hx)).2, Bool.false_eq_true, if_false]
  exact h1 x hx

theorem reduceSgn_isZ {q : ℚ} (hq : 2 ≤ q) (p : FP φ L) {x : FP φ L} (hx : IsZ x) :
    IsZ (reduceSgn (FOps.lit q) p x).1 := by
  simp only [reduceSgn]
  have h1 : ∀ y : FP φ L, IsZ y →
      IsZ (if y <. FOps.lit 0 then (∸y, ∸(FOps.lit 1 : FP φ L)) else (y, FOps.lit 1)).1 := by
    intro y hy; split_ifs
    · exact hy.neg
    · exact hy
  simp only [(zero_lt_pi hq (h1 x hx)).1, (zero_lt_pi hq (h1 x hx)).2, Bool.false_eq_true, if_false]
  exact h1 x hx

theorem reduceAbs_neg (P p : FP φ L) {x : FP φ L} (hx : ¬ IsZ x) :
    reduceAbs P p (∸x) = reduceAbs P p x := by
  rcases sign_cases x with rfl | h | ⟨h1, h2⟩ | ⟨h1, h2⟩
  · rfl
  · exact absurd h hx
  · simp only [reduceAbs, h1, h2, if_true, if_false, Bool.false_eq_true]
  · simp only [reduceAbs, h1, h2, if_true, if_false, Bool.false_eq_true, F_neg_neg]

theorem reduceSgn_neg (P p : FP φ L) {x : FP φ L} (hx : ¬ IsZ x) (hn : x ≠ FOps.nan) :
    (reduceSgn P p (∸x)).1 = (reduceSgn P p x).1 ∧ (reduceSgn P p (∸x)).2 = ∸(reduceSgn P p x).2 := by
  rcases sign_cases x with h | h | ⟨h1, h2⟩ | ⟨h1, h2⟩
  · exact absurd h hn
  · exact absurd h hx
  · simp only [reduceSgn, h1, h2, if_true, if_false, Bool.false_eq_true]
    constructor <;> split_ifs <;> simp only [F_neg_neg]
  · simp only [reduceSgn, h1, h2, if_true, if_false, Bool.false_eq_true, F_neg_neg]
    constructor <;> split_ifs <;> simp only [F_neg_neg]

/-- reduced arguments and signs of `x` and `-x` -/
theorem odd_cases {q : ℚ} (hq : 2 ≤ q) (p : FP φ L) (x : FP φ L) :
    x = FOps.nan ∨
    (IsZ (reduceSgn (FOps.lit q) p (∸x)).1 ∧ IsZ (reduceSgn (FOps.lit q) p x).1) ∨
    (¬ IsZ (reduceSgn (FOps.lit q) p x).1 ∧ (reduceSgn (FOps.lit q) p (∸x)).1 = (reduceSgn (FOps.lit q) p x).1 ∧
      (reduceSgn (FOps.lit q) p (∸x)).2 = ∸(reduceSgn (FOps.lit q) p x).2) := by
  by_cases hn : x = FOps.nan
  · exact Or.inl hn
  by_cases hx : IsZ x
  · exact Or.inr (Or.inl ⟨reduceSgn_isZ hq p hx.neg, reduceSgn_isZ hq p hx⟩)
  · obtain ⟨h1, h2⟩ := reduceSgn_neg (FOps.lit q) p hx hn
    by_cases hr : IsZ (reduceSgn (FOps.lit q) p x).1
    · exact Or.inr (Or.inl ⟨h1 ▸ hr, hr⟩)
    · exact Or.inr (Or.inr ⟨hr, h1, h2⟩)

theorem F_neg_zero_feq : FEq (FOps.lit 0 : FP φ L) (∸(FOps.lit 0)) := isZ_zero.feq isZ_zero.neg

/-- `Cl2d(-x) = -Cl2d(x)` for every floating-point `x` -/
theorem C24_Cl2d (φ : Fmt) (L : Lib) (x : FP φ L) : FEq (Cl2d (∸x)) (∸(Cl2d x)) := by
  rcases odd_cases (q := 3.14159265358979324) (by norm_num) (FOps.lit 0.0019353071795864769253) x with rfl | ⟨h1, h2⟩ | ⟨h, h1, h2⟩
  · rw [fn_neg, C31_Cl2d, fn_neg]; exact FEq.refl _
  · have e1 := (isZ_iff _).2 h1
    have e2 := (isZ_iff _).2 h2
    simp only [Cl2d, e1, e2, if_true]
    exact h1.feq h2.neg
  · rw [← isZ_iff] at h
    simp only [Cl2d, h1, h2, h, if_false, Bool.false_eq_true]
    split_ifs
    · exact F_neg_zero_feq
    · rw [F_neg_mul]; exact FEq.refl _
    · rw [F_neg_mul]; exact FEq.refl _

/-- `Cl2l(-x) = -Cl2l(x)` for every floating-point `x` -/
theorem C24_Cl2l (φ : Fmt) (L : Lib) (x : FP φ L) : FEq (Cl2l (∸x)) (∸(Cl2l x)) := by
  rcases odd_cases (q := 3.14159265358979323846264338327950288) (by norm_num) (FOps.lit 0.0019353071795864769252867665590057683943) x with rfl | ⟨h1, h2⟩ | ⟨h, h1, h2⟩
  · rw [fn_neg, C31_Cl2l, fn_neg]; exact FEq.refl _
  · have e1 := (isZ_iff _).2 h1
    have e2 := (isZ_iff _).2 h2
    simp only [Cl2l, e1, e2, if_true]
    exact h1.feq h2.neg
  · rw [← isZ_iff] at h
    simp only [Cl2l, h1, h2, h, if_false, Bool.false_eq_true]
    split_ifs
    · exact F_neg_zero_feq
    · rw [F_neg_mul]; exact FEq.refl _
    · rw [F_neg_mul]; exact FEq.refl _

/-- `Cl4d(-x) = -Cl4d(x)` for every floating-point `x` -/
theorem C24_Cl4d (φ : Fmt) (L : Lib) (x : FP φ L) : FEq (Cl4d (∸x)) (∸(Cl4d x)) := by
  rcases odd_cases (q := 3.14159265358979324) (by norm_num) (FOps.lit 0.0019353071795864769253) x with rfl | ⟨h1, h2⟩ | ⟨h, h1, h2⟩
  · rw [fn_neg, C31_Cl4d, fn_neg]; exact FEq.refl _
  · have e1 := (isZ_iff _).2 h1
    have e2 := (isZ_iff _).2 h2
    simp only [Cl4d, e1, e2, if_true]
    exact h1.feq h2.neg
  · rw [← isZ_iff] at h
    simp only [Cl4d, h1, h2, h, if_false, Bool.false_eq_true]
    split_ifs
    · exact F_neg_zero_feq
    · rw [F_neg_mul]; exact FEq.refl _
    · rw [F_neg_mul]; exact FEq.refl _

/-- `Cl4l(-x) = -Cl4l(x)` for every floating-point `x` -/
theorem C24_Cl4l (φ : Fmt) (L : Lib) (x : FP φ L) : FEq (Cl4l (∸x)) (∸(Cl4l x)) := by
  rcases odd_cases (q := 3.14159265358979323846264338327950288) (by norm_num) (FOps.lit 0.0019353071795864769252867665590057683943) x with rfl | ⟨h1, h2⟩ | ⟨h, h1, h2⟩
  · rw [fn_neg, C31_Cl4l, fn_neg]; exact FEq.refl _
  · have e1 := (isZ_iff _).2 h1
    have e2 := (isZ_iff _).2 h2
    simp only [Cl4l, e1, e2, if_true]
    exact h1.feq h2.neg
  · rw [← isZ_iff] at h
    simp only [Cl4l, h1, h2, h, if_false, Bool.false_eq_true]
    split_ifs
    · exact F_neg_zero_feq
    · rw [F_neg_mul]; exact FEq.refl _
    · rw [F_neg_mul]; exact FEq.refl _

/-- `Cl6d(-x) = -Cl6d(x)` for every floating-point `x` -/
theorem C24_Cl6d (φ : Fmt) (L : Lib) (x : FP φ L) : FEq (Cl6d (∸x)) (∸(Cl6d x)) := by
  rcases odd_cases (q := 3.14159265358979324) (by norm_num) (FOps.lit 0.0019353071795864769253) x with rfl | ⟨h1, h2⟩ | ⟨h, h1, h2⟩
  · rw [fn_neg, C31_Cl6d, fn_neg]; exact FEq.refl _
  · have e1 := (isZ_iff _).2 h1
    have e2 := (isZ_iff _).2 h2
    simp only [Cl6d, e1, e2, if_true]
    exact h1.feq h2.neg
  · rw [← isZ_iff] at h
    simp only [Cl6d, h1, h2, h, if_false, Bool.false_eq_true]
    split_ifs
    · exact F_neg_zero_feq
    · rw [F_neg_mul]; exact FEq.refl _
    · rw [F_neg_mul]; exact FEq.refl _

/-- `Cl6l(-x) = -Cl6l(x)` for every floating-point `x` -/
theorem C24_Cl6l (φ : Fmt) (L : Lib) (x : FP φ L) : FEq (Cl6l (∸x)) (∸(Cl6l x)) := by
  rcases odd_cases (q := 3.14159265358979323846264338327950288) (by norm_num) (FOps.lit 0.0019353071795864769252867665590057683943) x with rfl | ⟨h1, h2⟩ | ⟨h, h1, h2⟩
  · rw [fn_neg, C31_Cl6l, fn_neg]; exact FEq.refl _
  · have e1 := (isZ_iff _).2 h1
    have e2 := (isZ_iff _).2 h2
    simp only [Cl6l, e1, e2, if_true]
    exact h1.feq h2.neg
  · rw [← isZ_iff] at h
    simp only [Cl6l, h1, h2, h, if_false, Bool.false_eq_true]
    split_ifs
    · exact F_neg_zero_feq
    · rw [F_neg_mul]; exact FEq.refl _
    · rw [F_neg_mul]; exact FEq.refl _

/-- `Cl1d(-x) = Cl1d(x)` for every floating-point `x`, exactly -/
theorem C24_Cl1d (φ : Fmt) (L : Lib) (x : FP φ L) : Cl1d (∸x) = Cl1d x := by
  by_cases hx : IsZ x
  · have h1 := (isZ_iff _).2 (reduceAbs_isZ (q := 3.14159265358979324) (by norm_num) (FOps.lit 0.0019353071795864769253) hx)
    have h2 := (isZ_iff _).2 (reduceAbs_isZ (q := 3.14159265358979324) (by norm_num) (FOps.lit 0.0019353071795864769253) hx.neg)
    simp only [Cl1d, h1, h2, if_true]
  · simp only [Cl1d, reduceAbs_neg _ _ hx]

/-- `Cl3d(-x) = Cl3d(x)` for every floating-point `x`, exactly -/
theorem C24_Cl3d (φ : Fmt) (L : Lib) (x : FP φ L) : Cl3d (∸x) = Cl3d x := by
  by_cases hx : IsZ x
  · have h1 := (isZ_iff _).2 (reduceAbs_isZ (q := 3.14159265358979324) (by norm_num) (FOps.lit 0.0019353071795864769253) hx)
    have h2 := (isZ_iff _).2 (reduceAbs_isZ (q := 3.14159265358979324) (by norm_num) (FOps.lit 0.0019353071795864769253) hx.neg)
    simp only [Cl3d, h1, h2, if_true]
  · simp only [Cl3d, reduceAbs_neg _ _ hx]

/-- `Cl3l(-x) = Cl3l(x)` for every floating-point `x`, exactly -/
theorem C24_Cl3l (φ : Fmt) (L : Lib) (x : FP φ L) : Cl3l (∸x) = Cl3l x := by
  by_cases hx : IsZ x
  · have h1 := (isZ_iff _).2 (reduceAbs_isZ (q := 3.14159265358979323846264338327950288) (by norm_num) (FOps.lit 0.0019353071795864769252867665590057683943) hx)
    have h2 := (isZ_iff _).2 (reduceAbs_isZ (q := 3.14159265358979323846264338327950288) (by norm_num) (FOps.lit 0.0019353071795864769252867665590057683943) hx.neg)
    simp only [Cl3l, h1, h2, if_true]
  · simp only [Cl3l, reduceAbs_neg _ _ hx]

/-- `Cl5d(-x) = Cl5d(x)` for every floating-point `x`, exactly -/
theorem C24_Cl5d (φ : Fmt) (L : Lib) (x : FP φ L) : Cl5d (∸x) = Cl5d x := by
  by_cases hx : IsZ x
  · have h1 := (isZ_iff _).2 (reduceAbs_isZ (q := 3.14159265358979324) (by norm_num) (FOps.lit 0.0019353071795864769253) hx)
    have h2 := (isZ_iff _).2 (reduceAbs_isZ (q := 3.14159265358979324) (by norm_num) (FOps.lit 0.0019353071795864769253) hx.neg)
    simp only [Cl5d, h1, h2, if_true]
  · simp only [Cl5d, reduceAbs_neg _ _ hx]

/-- `Cl5l(-x) = Cl5l(x)` for every floating-point `x`, exactly -/
theorem C24_Cl5l (φ : Fmt) (L : Lib) (x : FP φ L) : Cl5l (∸x) = Cl5l x := by
  by_cases hx : IsZ x
  · have h1 := (isZ_iff _).2 (reduceAbs_isZ (q := 3.14159265358979323846264338327950288) (by norm_num) (FOps.lit 0.0019353071795864769252867665590057683943) hx)
    have h2 := (isZ_iff _).2 (reduceAbs_isZ (q := 3.14159265358979323846264338327950288) (by norm_num) (FOps.lit 0.0019353071795864769252867665590057683943) hx.neg)
    simp only [Cl5l, h1, h2, if_true]
  · simp only [Cl5l, reduceAbs_neg _ _ hx]

/-! ## `Cl(n,x)` and `Sl(n,x)` -/

/-- what is needed of the library at the two zeros: `cos(-0) = cos(+0)`, and `pow(-0,y)`, `pow(+0,y)` agree up to
the sign of a zero for `y > 0` (both hold by Annex F of the C standard) -/
structure Lib.ZeroOK (L : Lib) : Prop where
  cos : L.cos (.fin true 0) = L.cos (.fin false 0)
  pow : ∀ y, FV.lt (.fin false 0) y = true → ZEq (L.pow (.fin true 0) y) (L.pow (.fin false 0) y)

theorem Lib.ZeroOK.cosF (h : L.ZeroOK) {x y : FP φ L} (hx : IsZ x) (hy : IsZ y) : FOps.cos x = FOps.cos y := by
  obtain ⟨s, rfl⟩ := hx; obtain ⟨t, rfl⟩ := hy
  change L.cos _ = L.cos _
  have := h.cos
  cases s <;> cases t <;> first | rfl | exact this | exact this.symm

theorem ofInt_pos {k : ℤ} (hk : 1 ≤ k) : FV.lt (.fin false 0) (rndQ φ k) = true := by
  have hq : (1 : ℚ) ≤ k := by exact_mod_cast hk
  rw [rndQ_nonneg (by linarith)]
  have h1 : Repr φ 1 := by simpa using repr_two_pow (φ := φ) (e := 0) φ.hmin
  have := le_rndMag (φ := φ) (by linarith) h1 hq
  unfold rnd
  split_ifs
  · rfl
  · simp [FV.lt, sval]; linarith

theorem Lib.ZeroOK.powF (h : L.ZeroOK) {x y : FP φ L} (hx : IsZ x) (hy : IsZ y) {k : ℤ} (hk : 1 ≤ k) :
    FEq (powi x k) (powi y k) := by
  obtain ⟨s, rfl⟩ := hx; obtain ⟨t, rfl⟩ := hy
  have := h.pow _ (ofInt_pos (φ := φ) hk)
  change ZEq (L.pow _ _) (L.pow _ _)
  cases s <;> cases t <;> first | exact ZEq.refl _ | exact this | exact this.symm

theorem pcalLoop_feq (n : ℤ) {x2 y2 : FP φ L} (h : FEq x2 y2) : ∀ (fuel : ℕ) (i : ℤ) (s t : FP φ L), FEq s t →
    FEqM (pcalLoop n x2 fuel i s) (pcalLoop n y2 fuel i t)
  | 0, _, _, _, hs => hs
  | fuel + 1, i, s, t, hs => by
    simp only [pcalLoop]
    refine FEqM.bind' _ fun zi => FEqM.bind' _ fun fi => pcalLoop_feq n h fuel _ _ _ ?_
    exact (h.mul hs).add (FEq.refl _)

theorem pcal_feq (n : ℤ) {x y : FP φ L} (h : FEq x y) : FEqM (pcal n x) (pcal n y) := by
  simp only [pcal]
  refine FEqM.bind (pcalLoop_feq n (h.mul h) _ _ _ _ (FEq.refl _)) fun u v huv => ?_
  split_ifs
  · exact FEqM.ok (huv.mul h)
  · exact FEqM.ok huv

theorem ncalLoop_feq (n : ℤ) {x2 y2 : FP φ L} (h : FEq x2 y2) : ∀ (fuel : ℕ) (k : ℤ) (s t a b : FP φ L), FEq s t →
    FEq a b → FEqM (ncalLoop n x2 fuel k s a) (ncalLoop n y2 fuel k t b)
  | 0, _, _, _, _, _, hs, _ => hs
  | fuel + 1, k, s, t, a, b, hs, hab => by
    simp only [ncalLoop]
    refine FEqM.bind' _ fun bk => ?_
    have h1 := hs.add (((FEq.refl (FOps.lit bk)).mul hab).div (FOps.ofInt (2 * k + n + 1)))
    rw [h1.eq hs]
    split_ifs
    · exact FEqM.ok h1
    · exact ncalLoop_feq n h fuel _ _ _ _ _ h1 (hab.mul h)

theorem ncal_feq (hL : L.ZeroOK) {n : ℤ} (hn : 0 ≤ n) {x y : FP φ L} (hx : IsZ x) (hy : IsZ y) :
    FEqM (ncal n x) (ncal n y) := by
  have hp := hL.powF hx hy (k := n + 1) (by omega)
  have h := hx.feq hy
  simp only [ncal]
  refine FEqM.bind (ncalLoop_feq n (h.mul h) _ _ _ _ _ _ (FEq.refl _) (hp.mul (h.mul h))) fun u v huv => ?_
  exact FEqM.ok (((hp.div _).add huv).div _)

theorem nsumLoop_feq (hL : L.ZeroOK) (n : ℤ) {x y : FP φ L} (hx : IsZ x) (hy : IsZ y)
    (f g : FP φ L × FP φ L → M (FP φ L)) (hfg : ∀ u v, FEq u.1 v.1 → FEq u.2 v.2 → FEqM (f u) (g v)) :
    ∀ (fuel : ℕ) (i : ℤ) (s t a b : FP φ L), i + fuel ≤ n - 1 → FEq s t → FEq a b →
      FEqM (nsumLoop n x fuel i s a >>= f) (nsumLoop n y fuel i t b >>= g)
  | 0, _, s, t, a, b, _, hs, hab => hfg (s, a) (t, b) hs hab
  | fuel + 1, i, s, t, a, b, hi, hs, hab => by
    simp only [nsumLoop, bind_assoc]
    refine FEqM.bind' _ fun row => FEqM.bind' _ fun bi => ?_
    refine FEqM.bind (ncal_feq hL (by push_cast at hi; omega) hx hy) fun u v huv => ?_
    refine nsumLoop_feq hL n hx hy f g hfg fuel _ _ _ _ _ (by push_cast at hi; omega) ?_ ?_
    · exact hs.add (((FEq.refl _).mul hab).mul huv)
    · exact hab.mul (hx.feq hy).neg

theorem nsum_feq (hL : L.ZeroOK) {n : ℤ} (hn : 2 ≤ n) {x y : FP φ L} (hx : IsZ x) (hy : IsZ y) :
    FEqM (nsum n x) (nsum n y) := by
  simp only [nsum]
  refine nsumLoop_feq hL n hx hy _ _ ?_ _ _ _ _ _ _ (by omega) (FEq.refl _) (FEq.refl _)
  intro u v h1 h2
  refine FEqM.bind (ncal_feq hL le_rfl hx hy) fun a b hab => ?_
  exact FEqM.ok (h1.add (h2.mul hab))

theorem clMid_feq (hL : L.ZeroOK) {n : ℤ} (hn : 2 ≤ n) {x y s : FP φ L} (hx : IsZ x) (hy : IsZ y) :
    FEqM (clMid n x s) (clMid n y s) := by
  simp only [clMid, (isZ_iff x).2 hx, (isZ_iff y).2 hy, if_true]
  refine FEqM.bind' _ fun f1 => FEqM.bind' _ fun f2 => ?_
  refine FEqM.bind (pcal_feq n (hx.feq hy)) fun u v huv => ?_
  refine FEqM.bind (nsum_feq hL hn hx hy) fun a b hab => ?_
  exact FEqM.ok ((FEq.refl _).mul ((FEq.refl _).add (huv.sub ((FEq.refl _).mul hab))))

theorem clMid_neg (n : ℤ) (x s : FP φ L) : FEqM (clMid n x (∸s)) ((fun v => ∸v) <$> clMid n x s) := by
  simp only [clMid, map_bind]
  refine FEqM.bind' _ fun f1 => FEqM.bind' _ fun f2 => FEqM.bind' _ fun u => FEqM.bind' _ fun v => ?_
  rw [F_neg_mul]; exact FEq.refl _

/-- `Cl(n,-x) = Cl(n,x)` for odd `n` and every floating-point `x` -/
theorem C24_Cl_odd (φ : Fmt) (L : Lib) (hL : L.ZeroOK) (n : ℤ) (hn : isEven n = false) (x : FP φ L) :
    FEqM (Cl n (∸x)) (Cl n x) := by
  by_cases hx : IsZ x
  · unfold Cl
    simp only [C24_Cl1d, C24_Cl3d, C24_Cl5d, clReduce, hn, Bool.false_and, Bool.false_eq_true, if_false]
    have z1 := reduceAbs_isZ (q := 3.14159265358979324) (by norm_num) (FOps.lit 0.0019353071795864769253) hx
    have z2 := reduceAbs_isZ (q := 3.14159265358979324) (by norm_num) (FOps.lit 0.0019353071795864769253) hx.neg
    have e2 : n ≠ 2 := by rintro rfl; exact absurd hn (by decide)
    have e4 : n ≠ 4 := by rintro rfl; exact absurd hn (by decide)
    have e6 : n ≠ 6 := by rintro rfl; exact absurd hn (by decide)
    simp only [e2, e4, e6, if_false]
    split_ifs
    iterate 4 exact FEqM.refl _
    · exact clMid_feq hL (by omega) z2 z1
    · simp only [clSeries, hn, Bool.false_eq_true, if_false, hL.cosF z2 z1]
      exact FEqM.refl _
  · have e : Cl n (∸x) = Cl n x := by
      have e2 : n ≠ 2 := by rintro rfl; exact absurd hn (by decide)
      have e4 : n ≠ 4 := by rintro rfl; exact absurd hn (by decide)
      have e6 : n ≠ 6 := by rintro rfl; exact absurd hn (by decide)
      unfold Cl
      simp only [C24_Cl1d, C24_Cl3d, C24_Cl5d, e2, e4, e6, clReduce, hn, Bool.false_and, Bool.false_eq_true,
        if_false, reduceAbs_neg _ _ hx]
    rw [e]; exact FEqM.refl _

theorem FEqM.nan_neg {X : M (FP φ L)} (h : ∀ v, X = .ok v → v = FOps.nan) : FEqM X ((fun v => ∸v) <$> X) := by
  cases X with
  | error e => exact rfl
  | ok v => rw [h v rfl]; exact FEq.refl _

/-- `Cl(n,-x) = -Cl(n,x)` for even `n` and every floating-point `x` -/
theorem C24_Cl_even (φ : Fmt) (L : Lib) (hL : L.NanOK) (n : ℤ) (hn : isEven n = true) (x : FP φ L) :
    FEqM (Cl n (∸x)) ((fun v => ∸v) <$> Cl n x) := by
  by_cases hnan : x = FOps.nan
  · subst hnan; rw [fn_neg]; exact FEqM.nan_neg (C31_Cl φ L hL n)
  have e1 : n ≠ 1 := by rintro rfl; exact absurd hn (by decide)
  have e3 : n ≠ 3 := by rintro rfl; exact absurd hn (by decide)
  have e5 : n ≠ 5 := by rintro rfl; exact absurd hn (by decide)
  unfold Cl
  simp only [e1, e3, e5, if_false, clReduce, hn, Bool.true_and, if_true]
  by_cases h0 : n < 1
  · simp only [h0, if_true]; exact FEq.refl _
  by_cases h2 : n = 2
  · simp only [h2]; exact C24_Cl2d φ L x
  by_cases h4 : n = 4
  · simp only [h4]; exact C24_Cl4d φ L x
  by_cases h6 : n = 6
  · simp only [h6]; exact C24_Cl6d φ L x
  simp only [h0, h2, h4, h6, if_false]
  rcases odd_cases (q := 3.14159265358979324) (by norm_num) (FOps.lit 0.0019353071795864769253) x with h | ⟨z1, z2⟩ | ⟨h, z1, z2⟩
  · exact absurd h hnan
  · simp only [(isZ_iff _).2 z1, (isZ_iff _).2 z2, if_true]
    exact z1.feq z2.neg
  · rw [← isZ_iff] at h
    simp only [z1, z2, h, if_false, Bool.false_eq_true]
    split_ifs
    · exact F_neg_zero_feq
    · exact clMid_neg _ _ _
    · simp only [map_bind]
      refine FEqM.bind' _ fun v => ?_
      rw [F_neg_mul]; exact FEq.refl _

/-- `Sl(n,-x) = -Sl(n,x)` for odd `n` and every floating-point `x` -/
theorem C25_Sl_odd (φ : Fmt) (L : Lib) (hL : L.NanOK) (n : ℤ) (hn : isEven n = false) (x : FP φ L) :
    FEqM (Sl n (∸x)) ((fun v => ∸v) <$> Sl n x) := by
  by_cases hnan : x = FOps.nan
  · subst hnan; rw [fn_neg]; exact FEqM.nan_neg (C31_Sl φ L hL n)
  unfold Sl
  simp only [slReduce, hn, Bool.false_eq_true, if_false, Bool.not_false, Bool.true_and]
  by_cases h0 : n < 1
  · simp only [h0, if_true]; exact FEq.refl _
  simp only [h0, if_false]
  rcases odd_cases (q := 3.14159265358979324) (by norm_num) (FOps.lit 0.0019353071795864769253) x with h | ⟨z1, z2⟩ | ⟨h, z1, z2⟩
  · exact absurd h hnan
  · simp only [(isZ_iff _).2 z1, (isZ_iff _).2 z2, if_true]
    exact z1.feq z2.neg
  · rw [← isZ_iff] at h
    simp only [z1, z2, h, if_false, Bool.false_eq_true]
    have key : ∀ (c : Prop) [Decidable c] (s a : FP φ L) (X Y : M (FP φ L)),
        FEqM X ((fun v => ∸v) <$> Y) →
        FEqM (if c then pure (∸s *. a) else X) ((fun v => ∸v) <$> (if c then pure (s *. a) else Y)) := by
      intro c _ s a X Y h
      split_ifs
      · rw [F_neg_mul]; exact FEq.refl _
      · exact h
    iterate 25 refine key _ _ _ _ _ ?_
    simp only [map_bind]
    refine FEqM.bind' _ fun v => ?_
    rw [F_neg_mul]; exact FEq.refl _

/-- `Sl(n,-x) = Sl(n,x)` for even `n` and every floating-point `x` -/
theorem C25_Sl_even (φ : Fmt) (L : Lib) (hL : L.ZeroOK) (n : ℤ) (hn : isEven n = true) (x : FP φ L) :
    FEqM (Sl n (∸x)) (Sl n x) := by
  by_cases hx : IsZ x
  · have z1 := reduceAbs_isZ (q := 3.14159265358979324) (by norm_num) (FOps.lit 0.0019353071795864769253) hx
    have z2 := reduceAbs_isZ (q := 3.14159265358979324) (by norm_num) (FOps.lit 0.0019353071795864769253) hx.neg
    unfold Sl
    simp only [slReduce, hn, Bool.not_true, Bool.false_and, Bool.false_eq_true, if_false, if_true]
    have hf := z2.feq z1
    have hser : FEqM (slSeries n (reduceAbs (FOps.lit 3.14159265358979324) (FOps.lit 0.0019353071795864769253) ∸x))
        (slSeries n (reduceAbs (FOps.lit 3.14159265358979324) (FOps.lit 0.0019353071795864769253) x)) := by
      simp only [slSeries, hn, if_true, hL.cosF z2 z1]
      exact FEqM.refl _
    generalize reduceAbs (FOps.lit 3.14159265358979324) (FOps.lit 0.0019353071795864769253) ∸x = y at *
    generalize reduceAbs (FOps.lit 3.14159265358979324) (FOps.lit 0.0019353071795864769253) x = w at *
    have key : ∀ (c : Prop) [Decidable c] (a b : FP φ L) (X Y : M (FP φ L)),
        FEq a b → FEqM X Y →
        FEqM (if c then pure a else X) (if c then pure b else Y) := by
      intro c _ a b X Y h h'
      split_ifs
      · exact h
      · exact h'
    refine key _ _ _ _ _ (FEq.refl _) ?_
    iterate 25
      refine key _ _ _ _ _ ?_ ?_
      · repeat' first
          | exact FEq.refl _
          | exact hf
          | apply FEq.sub
          | apply FEq.mul
          | apply FEq.add
    exact FEqM.bind hser fun u v huv => (FEq.refl _).mul huv
  · have e : Sl n (∸x) = Sl n x := by
      unfold Sl
      simp only [slReduce, hn, if_true, reduceAbs_neg _ _ hx]
    rw [e]; exact FEqM.refl _

example : zeroLib.ZeroOK := ⟨rfl, fun y hy => by
  cases y with
  | nan => simp [FV.lt] at hy
  | inf s => exact ZEq.refl _
  | fin s a => exact ZEq.refl _⟩

end Polylog
