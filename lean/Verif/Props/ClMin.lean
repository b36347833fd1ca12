import Verif.Props.FPNan
import Verif.Props.C23
import Verif.Props.C15
import Verif.Props.SerFPMain

/-! # C49, first part: `Cl(n, x)`, n = 1, 7, 8, 9, at the smallest subnormal double -/

namespace Polylog
set_option linter.style.longLine false

variable {L : Lib}

/-- the double `±2^-1074` (`std::numeric_limits<double>::denorm_min()` and its negative) -/
def denormMin (L : Lib) (s : Bool) : FP binary64 L := toF binary64 L (.fin s (1 / 2 ^ 1074))

/-- special values of the C library (C standard, Annex F): `sin(+0) = +0`, `log(+0) = -inf`; and `pow(2^-1074, k)` underflows to `+0` for k = 6, 7, 8
(the exact value is below `2^-6000`) -/
structure DenormLib (L : Lib) : Prop where
  sin : L.sin (.fin false 0) = .fin false 0
  log : L.log (.fin false 0) = .inf true
  pow : ∀ k : ℕ, 6 ≤ k → k ≤ 8 → L.pow (.fin false (1 / 2 ^ 1074)) (rndQ binary64 k) = .fin false 0

theorem denorm_half (L : Lib) : denormMin L false /. (FOps.lit 2 : FP binary64 L) = toF binary64 L (.fin false 0) := by
  show FV.div binary64 (.fin false (1 / 2 ^ 1074)) (rndQ binary64 2) = .fin false 0
  decide +kernel

theorem denorm_half' (L : Lib) : (FOps.lit 0.5 : FP binary64 L) *. denormMin L false = toF binary64 L (.fin false 0) := by
  show FV.mul binary64 (rndQ binary64 0.5) (.fin false (1 / 2 ^ 1074)) = .fin false 0
  decide +kernel

theorem denorm_ne (L : Lib) : (denormMin L false ==. (FOps.lit 0 : FP binary64 L)) = false := by
  show FV.eq (.fin false (1 / 2 ^ 1074)) (rndQ binary64 0) = false
  decide +kernel

theorem denorm_ne_pi (L : Lib) : (denormMin L false ==. (FOps.lit 3.14159265358979324 : FP binary64 L)) = false := by
  show FV.eq (.fin false (1 / 2 ^ 1074)) (rndQ binary64 3.14159265358979324) = false
  decide +kernel

theorem denorm_abs (L : Lib) (s : Bool) : (if denormMin L s <. (FOps.lit 0 : FP binary64 L) then ∸(denormMin L s) else denormMin L s) = denormMin L false := by
  show (if FV.lt (.fin s (1 / 2 ^ 1074)) (rndQ binary64 0) then FV.neg (.fin s (1 / 2 ^ 1074)) else .fin s (1 / 2 ^ 1074)) = .fin false (1 / 2 ^ 1074)
  cases s <;> decide +kernel

theorem denorm_ge (L : Lib) : (denormMin L false >=. (FOps.lit 2 : FP binary64 L) *. (FOps.lit 3.14159265358979324 : FP binary64 L)) = false := by
  show FV.le (FV.mul binary64 (rndQ binary64 2) (rndQ binary64 3.14159265358979324)) (.fin false (1 / 2 ^ 1074)) = false
  decide +kernel

theorem denorm_gt (L : Lib) : (denormMin L false >. (FOps.lit 3.14159265358979324 : FP binary64 L)) = false := by
  show FV.lt (rndQ binary64 3.14159265358979324) (.fin false (1 / 2 ^ 1074)) = false
  decide +kernel

theorem denorm_reduce (L : Lib) (p : FP binary64 L) (s : Bool) : reduceAbs (FOps.lit 3.14159265358979324 : FP binary64 L) p (denormMin L s) = denormMin L false := by
  simp only [reduceAbs, denorm_abs, denorm_ge, denorm_gt, Bool.false_eq_true, if_false]

theorem two_zero (L : Lib) : (FOps.lit 2 : FP binary64 L) *. toF binary64 L (.fin false 0) = toF binary64 L (.fin false 0) := by
  show FV.mul binary64 (rndQ binary64 2) (.fin false 0) = .fin false 0
  decide +kernel


theorem clMid_denorm (hL : DenormLib L) (n : ℕ) (h7 : 7 ≤ n) (h9 : n ≤ 9) (sgn : FP binary64 L) : clMid (n:ℤ) (denormMin L false) sgn = .ok FOps.nan := by
  obtain ⟨v, hv⟩ := defined_clMid (n:ℤ) (by omega) (by omega) (denormMin L false) sgn
  rw [hv]
  have hp : powi (denormMin L false) ((n:ℤ) - 1) = toF binary64 L (.fin false 0) := by
    have := hL.pow (n - 1) (by omega) (by omega)
    rw [show ((n:ℤ) - 1) = ((n - 1 : ℕ) : ℤ) by omega]
    show L.pow (.fin false (1 / 2 ^ 1074)) (rndQ binary64 (((n - 1 : ℕ) : ℤ) : ℚ)) = _
    rw [Int.cast_natCast]; exact this
  have hs : FOps.sin (toF binary64 L (.fin false 0)) = toF binary64 L (.fin false 0) := hL.sin
  have hl : FOps.log (toF binary64 L (.fin false 0)) = toF binary64 L (.inf true) := hL.log
  obtain ⟨f1, h1, hv⟩ := M_bind_ok hv
  obtain ⟨f2, -, hv⟩ := M_bind_ok hv
  obtain ⟨pc, -, hv⟩ := M_bind_ok hv
  obtain ⟨ns, -, hv⟩ := M_bind_ok hv
  have hv := M_pure_ok hv
  have hz : (if isEven (i64div ((n:ℤ) + 1) 2) then (FOps.lit 1 : FP binary64 L) else ∸(FOps.lit 1 : FP binary64 L)) *. toF binary64 L (.fin false 0) *. (FOps.lit f1 : FP binary64 L)
      *. toF binary64 L (.inf true) = FOps.nan := by
    have hn : n = 7 ∨ n = 8 ∨ n = 9 := by omega
    rcases hn with rfl | rfl | rfl
    · have : f1 = 1 / 720 := (M_pure_ok h1).symm
      subst this
      show FV.mul binary64 (FV.mul binary64 (FV.mul binary64 (rndQ binary64 1) (.fin false 0)) (rndQ binary64 (1 / 720))) (.inf true) = .nan
      decide +kernel
    · have : f1 = 1 / 5040 := (M_pure_ok h1).symm
      subst this
      show FV.mul binary64 (FV.mul binary64 (FV.mul binary64 (rndQ binary64 1) (.fin false 0)) (rndQ binary64 (1 / 5040))) (.inf true) = .nan
      decide +kernel
    · have : f1 = 1 / 40320 := (M_pure_ok h1).symm
      subst this
      show FV.mul binary64 (FV.mul binary64 (FV.mul binary64 (FV.neg (rndQ binary64 1)) (.fin false 0)) (rndQ binary64 (1 / 40320))) (.inf true) = .nan
      decide +kernel
  rw [denorm_ne, if_neg (by simp), denorm_half, hs, two_zero, hl, hp, hz, fn_add, fn_mul'] at hv
  rw [hv]

/-- **C49, the limit of `Cl(n, x)`, n = 7, 8, 9.** At the smallest subnormal double, of either sign, the result is NaN (the mathematical value is `ζ(7)`, 0, `ζ(9)` to
hundreds of digits): `x/2` rounds to zero, `log(2*sin(0))` is `-inf`, and it is multiplied by `pow(x, n - 1) = 0`. -/
theorem C49_denorm_nan (hL : DenormLib L) (n : ℕ) (h7 : 7 ≤ n) (h9 : n ≤ 9) (s : Bool) : Cl (n:ℤ) (denormMin L s) = .ok FOps.nan := by
  rcases Nat.mod_two_eq_zero_or_one n with h | h
  · rw [Cl_even_eq n h7 h]
    simp only [reduceSgn_fst, denorm_reduce, denorm_ne, denorm_ne_pi, Bool.false_eq_true, if_false, clTail]
    rw [if_pos (by omega)]
    exact clMid_denorm hL n h7 h9 _
  · rw [Cl_odd_eq n h7 h, denorm_reduce, clTail, if_pos (by omega)]
    exact clMid_denorm hL n h7 h9 _

/-- **C49, the limit of `Cl1`.** At the smallest subnormal double, of either sign, `Cl1` returns `+inf` (the mathematical value is `1074 log 2`, about 744.4). -/
theorem C49_Cl1_denorm (hL : DenormLib L) (s : Bool) : Cl 1 (denormMin L s) = .ok (toF binary64 L (.inf false)) := by
  have hs : FOps.sin (toF binary64 L (.fin false 0)) = toF binary64 L (.fin false 0) := hL.sin
  have hl : FOps.log (toF binary64 L (.fin false 0)) = toF binary64 L (.inf true) := hL.log
  show Except.ok (Cl1d _) = _
  simp only [Cl1d, denorm_reduce, denorm_ne, denorm_half', hs, two_zero, xlog, hl, Bool.false_eq_true, if_false]
  rfl

/-- a library meeting the contract -/
theorem exists_denormLib (L : Lib) : DenormLib { L with sin := fun x => x, log := fun x => if x = .fin false 0 then .inf true else L.log x, pow := fun x y => if x = .fin false (1 / 2 ^ 1074) then .fin false 0 else L.pow x y } :=
  ⟨rfl, by simp, fun k _ _ => by simp⟩

/-- the hypotheses of the theorems are met: `Cl(8, -2^-1074)` -/
example (L : Lib) : ∃ L' : Lib, DenormLib L' ∧ Cl 8 (denormMin L' true) = .ok FOps.nan :=
  ⟨_, exists_denormLib L, C49_denorm_nan (exists_denormLib L) 8 (by norm_num) (by norm_num) true⟩

end Polylog
