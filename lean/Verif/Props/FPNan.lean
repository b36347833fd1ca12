import Verif.Sem.IEEELemmas
import Verif.Model.Li
import Verif.Model.Cl

/-!
# C31: NaN propagates through the real functions

The value is computed in the IEEE semantics, for every format and every C library; what is needed of the
library is only that its functions propagate NaN (`NanOK`, guaranteed by Annex F of the C standard).
-/

namespace Polylog
variable {φ : Fmt} {L : Lib}

/-- the library functions used by `Cl` and `Sl` return NaN for a NaN argument (`pow` for a nonzero exponent only) -/
structure Lib.NanOK (L : Lib) : Prop where
  log : L.log .nan = .nan
  sin : L.sin .nan = .nan
  cos : L.cos .nan = .nan

abbrev fnan (φ : Fmt) (L : Lib) : FP φ L := FOps.nan

section
variable (a : FP φ L)
theorem fn_add : (FOps.nan : FP φ L) +. a = FOps.nan := FV.nan_add a
theorem fn_add' : a +. (FOps.nan : FP φ L) = FOps.nan := FV.add_nan a
theorem fn_sub : (FOps.nan : FP φ L) -. a = FOps.nan := FV.nan_add _
theorem fn_sub' : a -. (FOps.nan : FP φ L) = FOps.nan := FV.add_nan a
theorem fn_mul : (FOps.nan : FP φ L) *. a = FOps.nan := FV.nan_mul a
theorem fn_mul' : a *. (FOps.nan : FP φ L) = FOps.nan := FV.mul_nan a
theorem fn_div : (FOps.nan : FP φ L) /. a = FOps.nan := FV.nan_div a
theorem fn_div' : a /. (FOps.nan : FP φ L) = FOps.nan := FV.div_nan a
theorem fn_neg : ∸(FOps.nan : FP φ L) = FOps.nan := rfl
theorem fn_lt : ((FOps.nan : FP φ L) <. a) = false := FV.nan_lt a
theorem fn_lt' : (a <. (FOps.nan : FP φ L)) = false := FV.lt_nan a
theorem fn_gt : ((FOps.nan : FP φ L) >. a) = false := FV.lt_nan a
theorem fn_ge : ((FOps.nan : FP φ L) >=. a) = false := FV.le_nan a
theorem fn_le : ((FOps.nan : FP φ L) <=. a) = false := FV.nan_le a
theorem fn_eq : ((FOps.nan : FP φ L) ==. a) = false := FV.nan_eq a
theorem fn_fmod : FOps.fmod (FOps.nan : FP φ L) a = FOps.nan := FV.nan_fmod a
end

/-- rewriting with the NaN rules -/
macro "nan_simp" : tactic => `(tactic|
  simp only [fn_add, fn_add', fn_sub, fn_sub', fn_mul, fn_mul', fn_div, fn_div', fn_neg, fn_lt, fn_lt',
    fn_gt, fn_ge, fn_le, fn_eq, fn_fmod, if_false, Bool.false_eq_true])

theorem reduceAbs_nan (P p : FP φ L) : reduceAbs P p (fnan φ L) = FOps.nan := by
  simp only [reduceAbs]; nan_simp

theorem reduceSgn_nan (P p : FP φ L) : reduceSgn P p (fnan φ L) = (FOps.nan, FOps.lit 1) := by
  simp only [reduceSgn]; nan_simp

theorem C31_Li2f (φ : Fmt) (L : Lib) : Li2f (FOps.nan : FP φ L) = FOps.nan := by
  simp only [Li2f, li2fFin]; nan_simp
theorem C31_Li2d (φ : Fmt) (L : Lib) : Li2d (FOps.nan : FP φ L) = FOps.nan := by
  simp only [Li2d, li2dFin]; nan_simp
theorem C31_Li2l {n m : ℕ} (P : Vector ℚ (n + 1)) (Q : Vector ℚ (m + 1)) (φ : Fmt) (L : Lib) :
    Li2l P Q (FOps.nan : FP φ L) = FOps.nan := by
  simp only [Li2l, li2lFin]; nan_simp
theorem C31_Li3d (φ : Fmt) (L : Lib) : Li3d (FOps.nan : FP φ L) = FOps.nan := by
  simp only [Li3d, li3_pos]; nan_simp
theorem C31_Li4d (φ : Fmt) (L : Lib) (h : L.NanOK) : Li4d (FOps.nan : FP φ L) = FOps.nan := by
  have hl : xlog (FOps.nan : FP φ L) = FOps.nan := h.log
  simp only [Li4d, li4dFin, li4_one, hl]; nan_simp

theorem C31_Cl1d (φ : Fmt) (L : Lib) (h : L.NanOK) : Cl1d (FOps.nan : FP φ L) = FOps.nan := by
  have hs : FOps.sin (FOps.nan : FP φ L) = FOps.nan := h.sin
  have hl : xlog (FOps.nan : FP φ L) = FOps.nan := h.log
  simp only [Cl1d, reduceAbs_nan]; nan_simp
  simp only [hs]; nan_simp
  simp only [hl]; nan_simp
theorem C31_Cl2d (φ : Fmt) (L : Lib) : Cl2d (FOps.nan : FP φ L) = FOps.nan := by
  simp only [Cl2d, reduceSgn_nan]; nan_simp
theorem C31_Cl2l (φ : Fmt) (L : Lib) : Cl2l (FOps.nan : FP φ L) = FOps.nan := by
  simp only [Cl2l, reduceSgn_nan]; nan_simp
theorem C31_Cl3d (φ : Fmt) (L : Lib) : Cl3d (FOps.nan : FP φ L) = FOps.nan := by
  simp only [Cl3d, reduceAbs_nan]; nan_simp
theorem C31_Cl3l (φ : Fmt) (L : Lib) : Cl3l (FOps.nan : FP φ L) = FOps.nan := by
  simp only [Cl3l, reduceAbs_nan]; nan_simp
theorem C31_Cl4d (φ : Fmt) (L : Lib) : Cl4d (FOps.nan : FP φ L) = FOps.nan := by
  simp only [Cl4d, reduceSgn_nan]; nan_simp
theorem C31_Cl4l (φ : Fmt) (L : Lib) : Cl4l (FOps.nan : FP φ L) = FOps.nan := by
  simp only [Cl4l, reduceSgn_nan]; nan_simp
theorem C31_Cl5d (φ : Fmt) (L : Lib) : Cl5d (FOps.nan : FP φ L) = FOps.nan := by
  simp only [Cl5d, reduceAbs_nan]; nan_simp
theorem C31_Cl5l (φ : Fmt) (L : Lib) : Cl5l (FOps.nan : FP φ L) = FOps.nan := by
  simp only [Cl5l, reduceAbs_nan]; nan_simp
theorem C31_Cl6d (φ : Fmt) (L : Lib) : Cl6d (FOps.nan : FP φ L) = FOps.nan := by
  simp only [Cl6d, reduceSgn_nan]; nan_simp
theorem C31_Cl6l (φ : Fmt) (L : Lib) : Cl6l (FOps.nan : FP φ L) = FOps.nan := by
  simp only [Cl6l, reduceSgn_nan]; nan_simp

theorem slCosLoop_nan (n : ℤ) (co : FP φ L) : ∀ (fuel : ℕ) (k : ℤ) (c2 c1 : FP φ L),
    slCosLoop n co fuel k c2 c1 FOps.nan = FOps.nan
  | 0, _, _, _ => rfl
  | fuel + 1, k, c2, c1 => by
    simp only [slCosLoop]; nan_simp; exact slCosLoop_nan n co fuel _ _ _

theorem slSinLoop_nan (n : ℤ) (co : FP φ L) : ∀ (fuel : ℕ) (k : ℤ) (c2 c1 : FP φ L),
    slSinLoop n co fuel k c2 c1 FOps.nan = FOps.nan
  | 0, _, _, _ => rfl
  | fuel + 1, k, c2, c1 => by
    simp only [slSinLoop]; nan_simp; exact slSinLoop_nan n co fuel _ _ _

theorem M_bind_ok {α β : Type} {a : M α} {f : α → M β} {v : β} (h : (a >>= f) = .ok v) :
    ∃ u, a = .ok u ∧ f u = .ok v := by
  cases a with
  | error e => exact absurd h (by simp [bind, Except.bind])
  | ok u => exact ⟨u, rfl, h⟩

theorem M_pure_ok {α : Type} {a v : α} (h : (pure a : M α) = .ok v) : a = v := by
  simpa [pure, Except.pure] using h

theorem slSeries_nan (h : L.NanOK) (n : ℤ) (v : FP φ L) (hv : slSeries n (FOps.nan : FP φ L) = .ok v) :
    v = FOps.nan := by
  have hs : FOps.sin (FOps.nan : FP φ L) = FOps.nan := h.sin
  have hc : FOps.cos (FOps.nan : FP φ L) = FOps.nan := h.cos
  obtain ⟨k, -, hk⟩ := M_bind_ok hv
  simp only [hs, hc, slCosLoop_nan, slSinLoop_nan] at hk
  split at hk <;> exact (M_pure_ok hk).symm

theorem clSeries_nan (h : L.NanOK) (n : ℤ) (v : FP φ L) (hv : clSeries n (FOps.nan : FP φ L) = .ok v) :
    v = FOps.nan := by
  have hs : FOps.sin (FOps.nan : FP φ L) = FOps.nan := h.sin
  have hc : FOps.cos (FOps.nan : FP φ L) = FOps.nan := h.cos
  obtain ⟨k, -, hk⟩ := M_bind_ok hv
  simp only [hs, hc, slCosLoop_nan, slSinLoop_nan] at hk
  split at hk <;> exact (M_pure_ok hk).symm

theorem clMid_nan (h : L.NanOK) (n : ℤ) (s v : FP φ L) (hv : clMid n (FOps.nan : FP φ L) s = .ok v) :
    v = FOps.nan := by
  have hs : FOps.sin (FOps.nan : FP φ L) = FOps.nan := h.sin
  have hl : FOps.log (FOps.nan : FP φ L) = FOps.nan := h.log
  obtain ⟨f1, -, hv⟩ := M_bind_ok hv
  obtain ⟨f2, -, hv⟩ := M_bind_ok hv
  obtain ⟨pc, -, hv⟩ := M_bind_ok hv
  obtain ⟨ns, -, hv⟩ := M_bind_ok hv
  have hv := M_pure_ok hv
  rw [fn_eq, fn_div, hs, fn_mul', hl, fn_mul', if_neg (by simp), fn_add, fn_mul'] at hv
  exact hv.symm

/-- every value returned by `Cl(n, NaN)` is NaN, for every order -/
theorem C31_Cl (φ : Fmt) (L : Lib) (h : L.NanOK) (n : ℤ) (v : FP φ L)
    (hv : Cl n (FOps.nan : FP φ L) = .ok v) : v = FOps.nan := by
  unfold Cl at hv
  simp only [C31_Cl1d φ L h, C31_Cl2d, C31_Cl3d, C31_Cl4d, C31_Cl5d, C31_Cl6d] at hv
  have hr : (clReduce n (FOps.nan : FP φ L)).1 = FOps.nan := by
    unfold clReduce; simp only [reduceAbs_nan, reduceSgn_nan]; split <;> rfl
  simp only [hr, fn_eq, Bool.and_false, Bool.false_eq_true, if_false] at hv
  split_ifs at hv
  · exact (M_pure_ok hv).symm
  · exact (M_pure_ok hv).symm
  · exact (M_pure_ok hv).symm
  · exact (M_pure_ok hv).symm
  · exact (M_pure_ok hv).symm
  · exact (M_pure_ok hv).symm
  · exact (M_pure_ok hv).symm
  · exact clMid_nan h n _ v hv
  · obtain ⟨s, hs, hv⟩ := M_bind_ok hv
    rw [clSeries_nan h n s hs, fn_mul'] at hv
    exact (M_pure_ok hv).symm

theorem ite_nan {c : Prop} [Decidable c] {X : M (FP φ L)} {v : FP φ L}
    (hv : (if c then pure FOps.nan else X) = .ok v) (h : X = .ok v → v = FOps.nan) : v = FOps.nan := by
  split_ifs at hv
  · exact (M_pure_ok hv).symm
  · exact h hv

/-- every value returned by `Sl(n, NaN)` is NaN, for every order -/
theorem C31_Sl (φ : Fmt) (L : Lib) (h : L.NanOK) (n : ℤ) (v : FP φ L)
    (hv : Sl n (FOps.nan : FP φ L) = .ok v) : v = FOps.nan := by
  unfold Sl at hv
  have hr : (slReduce n (FOps.nan : FP φ L)).1 = FOps.nan := by
    unfold slReduce; simp only [reduceAbs_nan, reduceSgn_nan]; split <;> rfl
  simp only [hr, fn_eq, fn_mul, fn_mul', fn_add, fn_add', fn_sub, fn_sub', Bool.and_false, Bool.false_eq_true,
    if_false] at hv
  iterate 26 refine ite_nan hv fun hv => ?_
  obtain ⟨s, hs, hv⟩ := M_bind_ok hv
  rw [slSeries_nan h n s hs, fn_mul'] at hv
  exact (M_pure_ok hv).symm

/-- the hypothesis is met, e.g., by a library whose functions return NaN on NaN and 0 elsewhere -/
def zeroLib : Lib :=
  let f : FV → FV := fun a => if a = .nan then .nan else .fin false 0
  let g : FV → FV → FV := fun a b => if a = .nan ∨ b = .nan then .nan else .fin false 0
  ⟨f, f, f, f, f, f, f, g, g, g, fun a _ => a, fun a _ => a, id, fun a _ => a⟩

example : zeroLib.NanOK := ⟨rfl, rfl, rfl⟩

end Polylog
