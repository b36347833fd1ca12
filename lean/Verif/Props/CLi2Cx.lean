import Verif.Props.PortCx
import Verif.Props.CReal
import Verif.Model.CLi2
import Verif.Model.FLi2

/-! # C37: the real `li2l` and the complex `cli2f`, `cli2`, `cli2l` of the C port, in exact arithmetic -/

noncomputable section
namespace Polylog
open Complex Finset

variable {S : RealSem}

/-! ## `hornerl` -/

theorem hornerlLoop_eq {N : ℕ} (x : R S) (c : Vector ℚ N) : ∀ (k : ℕ) (hk : k ≤ N) (p : R S), C.hornerlLoop x c k hk p = hornerLoop x c k hk p := by
  intro k
  induction k with
  | zero => intro hk p; rfl
  | succ k ih => intro hk p; rw [C.hornerlLoop, hornerLoop, ih]

theorem hornerl_eq {u : ℝ} (hS : S.Lit u) {n : ℕ} (x : R S) (c : Vector ℚ (n + 1)) : C.hornerl x c = horner x c := by
  rw [C.hornerl, C.hornerlLoop, hornerlLoop_eq, horner]
  congr 1
  show ofR ((FOps.lit 0 : R S) *. x +. (FOps.lit c[n] : R S)) = ofR (FOps.lit c[n] : R S)
  rw [ofR_add, ofR_mul, ofR_lit, hS.zero]
  simp

/-- **C37**, `li2l`: the value of the C++ function for every `x`. -/
theorem C37_li2l18 {u : ℝ} (hS : S.Lit u) (x : R S) : C.li2l18 x = Li2l18 x := by
  have h : ∀ y r s : R S, C.li2lFin C.li2l18P C.li2l18Q y r s = li2lFin li2l18P li2l18Q y r s := by
    intro y r s
    simp only [C.li2lFin, li2lFin, hornerl_eq hS]
    rfl
  simp only [C.li2l18, C.li2l, h]
  rfl

/-- **C37**, `li2l`, `LDBL_DIG > 18`. -/
theorem C37_li2l36 {u : ℝ} (hS : S.Lit u) (x : R S) : C.li2l36 x = Li2l36 x := by
  have h : ∀ y r s : R S, C.li2lFin C.li2l36P C.li2l36Q y r s = li2lFin li2l36P li2l36Q y r s := by
    intro y r s
    simp only [C.li2lFin, li2lFin, hornerl_eq hS]
    rfl
  simp only [C.li2l36, C.li2l, h]
  rfl

section
variable {F : Type} [FOps F]
local notation:max "♯" q:max => (FOps.lit (q : ℚ) : F)

/-- common shape of the complex dilogarithms (proof device); `l1`, `lI` are the logarithms of `1 - z` and `1 - 1/z` -/
def li2Shape (l1 lI : Cx F) (li2r : F → F) (PI : F) (fin : Cx F → Cx F → F → Cx F) (z : Cx F) : Cx F :=
  if z.im ==. ♯0 then
    if z.re <=. ♯1 then ⟨li2r z.re, z.im⟩
    else ⟨li2r z.re, ∸PI *. (xlog z.re)⟩
  else
    let nz := Cx.norm z
    if nz <. FOps.eps then z *. (♯1 +. ♯0.25 *. z)
    else if z.re <=. ♯0.5 then
      if nz >. ♯1 then
        let lz := (xlog (∸z))
        fin (∸lI) (∸♯0.5 *. lz *. lz -. PI *. PI /. ♯6) ∸♯1
      else fin (∸l1) (Cx.ofReal ♯0) ♯1
    else
      if nz <=. ♯2 *. z.re then
        let u := ∸(xlog z)
        fin u (u *. l1 +. PI *. PI /. ♯6) ∸♯1
      else
        let lz := (xlog (∸z))
        fin (∸lI) (∸♯0.5 *. lz *. lz -. PI *. PI /. ♯6) ∸♯1

/-- final sum of the C++ versions -/
def fin2 {n : ℕ} (bf : Vector ℚ (n + 2)) (u rest : Cx F) (sgn : F) : Cx F :=
  let u2 := u *. u
  sgn *. (u +. u2 *. (♯(bf[0]) +. u *. (hornerC 1 u2 bf))) +. rest

/-- final sum of `cli2f` -/
def cfin2f (bf : Vector ℚ 4) (u rest : Cx F) (sgn : F) : Cx F :=
  let u2 := u *. u
  let sum := u +. u2 *. (♯(bf[0]) +. u *. (♯(bf[1]) +. u2 *. (♯(bf[2]) +. u2 *. ♯(bf[3]))))
  sgn *. sum +. rest

/-- final sum of `cli2` and of the Fortran `cdli2` -/
def cfin2d (bf : Vector ℚ 10) (u rest : Cx F) (sgn : F) : Cx F :=
  let u2 := u *. u
  let u4 := u2 *. u2
  let sum := u +. u2 *. (♯(bf[0]) +. u *. (♯(bf[1]) +. u2 *. (♯(bf[2]) +. u2 *. ♯(bf[3]) +. u4 *. (♯(bf[4]) +. u2 *. ♯(bf[5])) +. u4 *. u4 *. (♯(bf[6]) +. u2 *. ♯(bf[7]) +. u4 *. (♯(bf[8]) +. u2 *. ♯(bf[9]))))))
  sgn *. sum +. rest

/-- final sum of `cli2l` -/
def cfin2l {n : ℕ} (bf : Vector ℚ (n + 2)) (u rest : Cx F) (sgn : F) : Cx F :=
  let u2 := u *. u
  let sum := C.csum 2 u2 bf
  let sum := u +. u2 *. (♯(bf[0]) +. u *. (♯(bf[1]) +. sum))
  sgn *. sum +. rest

theorem cLi2f_shape (z : Cx F) : cLi2f z = li2Shape (clog1p (∸z)) (clog1p (∸♯1 /. z)) Li2f ♯3.14159265 (fin2 cli2fBf) z := rfl
theorem cLi2d_shape (z : Cx F) : cLi2d z = li2Shape (clog1p (∸z)) (clog1p (∸♯1 /. z)) Li2d ♯3.1415926535897932 (fin2 cli2dBf) z := rfl
theorem cLi2l_shape (f : F → F) {n : ℕ} (bf : Vector ℚ (n + 2)) (z : Cx F) :
    cLi2l f bf z = li2Shape (clog1p (∸z)) (clog1p (∸♯1 /. z)) f ♯3.14159265358979323846264338327950288 (fin2 bf) z := rfl
theorem ccli2f_shape (z : Cx F) : C.cli2f z = li2Shape (xlog (♯1 -. z)) (xlog (♯1 -. ♯1 /. z)) Li2f ♯3.14159265 (cfin2f cli2fBf) z := rfl
theorem ccli2_shape (z : Cx F) : C.cli2 z = li2Shape (clog1p (∸z)) (clog1p (∸♯1 /. z)) Li2d ♯3.1415926535897932 (cfin2d cli2dBf) z := rfl
theorem ccli2l_shape (f : F → F) {n : ℕ} (bf : Vector ℚ (n + 2)) (z : Cx F) :
    C.cli2l f bf z = li2Shape (clog1p (∸z)) (clog1p (∸♯1 /. z)) f ♯3.14159265358979323846264338327950288 (cfin2l bf) z := rfl
end

theorem hornerC_one {n : ℕ} (z : Cx (R S)) (c : Vector ℚ (n + 3)) :
    (hornerC (n := n + 1) 1 z c).toC = ∑ i : Fin (n + 2), (((S.rho c[i.1 + 1] : ℚ) : ℝ) : ℂ) * z.toC ^ i.1 := by
  have h := C06_hornerC (n := n + 1) 1 (by omega) z c
  rw [h, Finset.sum_filter, Fin.sum_univ_succ]
  simp

theorem cfin2f_eq (w r : Cx (R S)) (s : R S) (bf : Vector ℚ 4) : cfin2f bf w r s = fin2 (n := 2) bf w r s := by
  apply cx_ext
  simp only [cfin2f, fin2, toC_add, toC_rmul, toC_mul, toC_radd, hornerC_one (n := 1), ofR_lit, toC_mulr]
  simp [Fin.sum_univ_succ]
  left; left
  ring

theorem cfin2d_eq (w r : Cx (R S)) (s : R S) (bf : Vector ℚ 10) : cfin2d bf w r s = fin2 (n := 8) bf w r s := by
  apply cx_ext
  simp only [cfin2d, fin2, toC_add, toC_rmul, toC_mul, toC_radd, hornerC_one (n := 7), ofR_lit, toC_mulr]
  simp [Fin.sum_univ_succ]
  left; left
  ring

theorem cfin2l_eq {u : ℝ} (hS : S.Lit u) {n : ℕ} (w r : Cx (R S)) (s : R S) (bf : Vector ℚ (n + 3)) : cfin2l (n := n + 1) bf w r s = fin2 (n := n + 1) bf w r s := by
  apply cx_ext
  simp only [cfin2l, fin2, toC_add, toC_rmul, toC_mul, toC_radd, hornerC_one, ofR_lit, csum_eq hS, Finset.sum_filter, Fin.sum_univ_succ]
  have h2 : 2 % (n + 1 + 2) = 2 := Nat.mod_eq_of_lt (by omega)
  simp [pow_succ, h2]
  left; left
  rw [mul_add, Finset.mul_sum]
  congr 1
  · ring
  exact Finset.sum_congr rfl fun i _ => by ring

theorem log1m_eq {u : ℝ} (hS : S.Lit u) {z : ℂ} (h : z.im ≠ 0) : (xlog ((FOps.lit 1 : R S) -. ofC S z) : Cx (R S)) = clog1p (∸(ofC S z)) := by
  have l1 : ofR (FOps.lit 1 : R S) = 1 := by rw [ofR_lit, hS.one]; norm_num
  have h1 : z ≠ 1 := fun h' => h (by rw [h']; rfl)
  have hn : ((FOps.lit 1 : R S) -. ofC S z : Cx (R S)).toC = 1 - z := by rw [toC_rsub, l1, toC_ofC, ofReal_one]
  apply cx_ext
  rw [toC_log (by rw [hn]; exact fun h' => h1 (by linear_combination -h')), hn, C07_log1p hS _ (by rw [toC_neg, toC_ofC]; simpa using h1), toC_neg, toC_ofC, sub_eq_add_neg]

theorem log1mi_eq {u : ℝ} (hS : S.Lit u) {z : ℂ} (h : z.im ≠ 0) :
    (xlog ((FOps.lit 1 : R S) -. (FOps.lit 1 : R S) /. ofC S z) : Cx (R S)) = clog1p (∸(FOps.lit 1 : R S) /. ofC S z) := by
  have l1 : ofR (FOps.lit 1 : R S) = 1 := by rw [ofR_lit, hS.one]; norm_num
  have h1 : z ≠ 1 := fun h' => h (by rw [h']; rfl)
  have h0 : z ≠ 0 := fun h' => h (by rw [h']; rfl)
  have hd : ((FOps.lit 1 : R S) /. ofC S z : Cx (R S)).toC = 1 / z := by rw [toC_rdiv hS.zero (by rw [toC_ofC]; exact h0), l1, toC_ofC, ofReal_one]
  have hd2 : (∸(FOps.lit 1 : R S) /. ofC S z : Cx (R S)).toC = -(1 / z) := by rw [toC_rdiv hS.zero (by rw [toC_ofC]; exact h0), ofR_neg, l1, toC_ofC, ofReal_neg, ofReal_one, neg_div]
  have hn : ((FOps.lit 1 : R S) -. (FOps.lit 1 : R S) /. ofC S z : Cx (R S)).toC = 1 - 1 / z := by rw [toC_rsub, l1, hd, ofReal_one]
  apply cx_ext
  rw [toC_log (by rw [hn]; intro h'; field_simp at h'; exact h1 (by linear_combination h')), hn, C07_log1p hS _ ?_, hd2, sub_eq_add_neg]
  rw [hd2]
  intro h'
  exact h1 (by field_simp at h'; linear_combination h')

/-- `li2Shape` depends on the two logarithms off the real axis only -/
theorem li2Shape_congr {u : ℝ} (hS : S.Lit u) {l1 lI l1' lI' : Cx (R S)} {f f' : R S → R S} {PI : R S} {fin fin' : Cx (R S) → Cx (R S) → R S → Cx (R S)} {z : ℂ}
    (h1 : z.im ≠ 0 → l1 = l1') (hI : z.im ≠ 0 → lI = lI') (hf : f = f') (hfin : fin = fin') :
    li2Shape l1 lI f PI fin (ofC S z) = li2Shape l1' lI' f' PI fin' (ofC S z) := by
  subst hf hfin
  by_cases h : z.im = 0
  · have : ((ofC S z).im ==. (FOps.lit 0 : R S)) = true := by
      simp only [rsem, hS.zero, decide_eq_true_eq, Rat.cast_zero]; exact h
    simp only [li2Shape, this, if_true]
  · rw [h1 h, hI h]

/-- **C37**, `cli2f`: the value of the C++ function for every `z`. -/
theorem C37_cli2f {u : ℝ} (hS : S.Lit u) (z : ℂ) : C.cli2f (ofC S z) = cLi2f (ofC S z) := by
  rw [ccli2f_shape, cLi2f_shape]
  exact li2Shape_congr hS (log1m_eq hS) (log1mi_eq hS) rfl (by funext w r s; exact cfin2f_eq w r s _)

/-- **C37**, `cli2`. -/
theorem C37_cli2 {u : ℝ} (hS : S.Lit u) (z : ℂ) : C.cli2 (ofC S z) = cLi2d (ofC S z) := by
  rw [ccli2_shape, cLi2d_shape]
  exact li2Shape_congr hS (fun _ => rfl) (fun _ => rfl) rfl (by funext w r s; exact cfin2d_eq w r s _)

/-- **C37**, `cli2l`, `LDBL_DIG <= 18`. -/
theorem C37_cli2l18 {u : ℝ} (hS : S.Lit u) (z : ℂ) : C.cli2l18 (ofC S z) = cLi2l18 (ofC S z) := by
  rw [C.cli2l18, cLi2l18, ccli2l_shape, cLi2l_shape]
  exact li2Shape_congr hS (fun _ => rfl) (fun _ => rfl) (by funext x; exact C37_li2l18 hS x) (by funext w r s; exact cfin2l_eq hS w r s cli2l18Bf)

/-- **C37**, `cli2l`, `LDBL_DIG > 18`. -/
theorem C37_cli2l36 {u : ℝ} (hS : S.Lit u) (z : ℂ) : C.cli2l36 (ofC S z) = cLi2l36 (ofC S z) := by
  rw [C.cli2l36, cLi2l36, ccli2l_shape, cLi2l_shape]
  exact li2Shape_congr hS (fun _ => rfl) (fun _ => rfl) (by funext x; exact C37_li2l36 hS x) (by funext w r s; exact cfin2l_eq hS w r s cli2l36Bf)

end Polylog
