import Verif.Props.SlGen

/-! # The polynomials of `Sl(n, x)`, n = 4, ..., 25 (generated by tools/sl/gensl.py)

`slL n` lists the coefficients of the polynomial of order `n` of the model (`Sl.cpp` 140-163), `slCert` compares them with
the exact coefficients (values of the zeta function and of `π`, certified in Proofs/Zeta.lean, Proofs/Pi.lean). -/

noncomputable section
namespace Polylog
set_option linter.style.longLine false
variable {S : RealSem}

/-- the expression of `Sl(4, x)` -/
def slCore4 {F : Type} [FOps F] (x : F) : F :=
  let x2 := x *. x
  (FOps.lit 1.08232323371113819151600369654116790324 : F) +. (∸(FOps.lit 0.82246703342411321823620758332301259476 : F) +. ((FOps.lit 0.26179938779914943653855361527329190704 : F) -. (FOps.lit 0.02083333333333333333333333333333333333 : F) *. x) *. x) *. x2
def slL4 : List (ℤ × ℚ) := [(1, 1.08232323371113819151600369654116790324), (0, 0), (-1, 0.82246703342411321823620758332301259476), (1, 0.26179938779914943653855361527329190704), (-1, 0.02083333333333333333333333333333333333)]
theorem slCore4_eq (x : R S) : ofR (slCore4 x) = lv S slL4 (ofR x) := by
  simp only [slCore4, slL4, lv, ofR_add, ofR_sub, ofR_mul, ofR_neg, ofR_lit, Int.cast_neg, Int.cast_one, Int.cast_zero]
  ring
theorem slCert4 : slCert slL4 2 0 3 3.1417 31e-37 20 = true := by decide +kernel
theorem slAcc4 {u : ℝ} (hS : S.Lit u) (r : R S) (h0 : 0 ≤ ofR r) (h1 : ofR r ≤ 3.1417) :
    |ofR (slCore4 r) - glaisher 4 (ofR r)| ≤ 31e-37 + 20 * u := by
  have h := sl_poly hS slCert4 (by norm_num) (by norm_num) (by norm_num) (by norm_num) h0 (by push_cast; exact h1) (by linarith [pi_gt])
  rw [slCore4_eq]
  push_cast at h; exact h

theorem Sl_4 {F : Type} [FOps F] (x : F) : Sl 4 x = pure ((FOps.lit 1 : F) *. slCore4 (reduceAbs (FOps.lit 3.14159265358979324 : F) (FOps.lit 0.0019353071795864769253 : F) x)) := rfl

/-- the expression of `Sl(5, x)` -/
def slCore5 {F : Type} [FOps F] (x : F) : F :=
  let x2 := x *. x
  x *. ((FOps.lit 1.08232323371113819151600369654116790324 : F) +. (∸(FOps.lit 0.27415567780803773941206919444100419825 : F) +. ((FOps.lit 0.06544984694978735913463840381832297676 : F) -. (FOps.lit 0.00416666666666666666666666666666666667 : F) *. x) *. x) *. x2)
def slL5 : List (ℤ × ℚ) := [(0, 0), (1, 1.08232323371113819151600369654116790324), (0, 0), (-1, 0.27415567780803773941206919444100419825), (1, 0.06544984694978735913463840381832297676), (-1, 0.00416666666666666666666666666666666667)]
theorem slCore5_eq (x : R S) : ofR (slCore5 x) = lv S slL5 (ofR x) := by
  simp only [slCore5, slL5, lv, ofR_add, ofR_sub, ofR_mul, ofR_neg, ofR_lit, Int.cast_neg, Int.cast_one, Int.cast_zero]
  ring
theorem slCert5 : slCert slL5 2 1 4 3.1417 46e-37 20 = true := by decide +kernel
theorem slAcc5 {u : ℝ} (hS : S.Lit u) (r : R S) (h0 : 0 ≤ ofR r) (h1 : ofR r ≤ 3.1417) :
    |ofR (slCore5 r) - glaisher 5 (ofR r)| ≤ 46e-37 + 20 * u := by
  have h := sl_poly hS slCert5 (by norm_num) (by norm_num) (by norm_num) (by norm_num) h0 (by push_cast; exact h1) (by linarith [pi_gt])
  rw [slCore5_eq]
  push_cast at h; exact h

theorem Sl_5 {F : Type} [FOps F] (x : F) : Sl 5 x = pure (
    let xs := reduceSgn (FOps.lit 3.14159265358979324 : F) (FOps.lit 0.0019353071795864769253 : F) x
    if xs.1 ==. (FOps.lit 0 : F) then xs.1 else xs.2 *. slCore5 xs.1) := by
  exact (apply_ite (pure : F → M F) _ _ _).symm

/-- the expression of `Sl(6, x)` -/
def slCore6 {F : Type} [FOps F] (x : F) : F :=
  let x2 := x *. x
  (FOps.lit 1.01734306198444913971451792979092052962 : F) +. x2 *. (∸(FOps.lit 0.54116161685556909575800184827058395148 : F) +. ((FOps.lit 0.06853891945200943485301729861025104957 : F) +. (∸(FOps.lit 0.01308996938995747182692768076366459535 : F) +. (FOps.lit 0.00069444444444444444444444444444444444 : F) *. x) *. x) *. x2)
def slL6 : List (ℤ × ℚ) := [(1, 1.01734306198444913971451792979092052962), (0, 0), (-1, 0.54116161685556909575800184827058395148), (0, 0), (1, 0.06853891945200943485301729861025104957), (-1, 0.01308996938995747182692768076366459535), (1, 0.00069444444444444444444444444444444444)]
theorem slCore6_eq (x : R S) : ofR (slCore6 x) = lv S slL6 (ofR x) := by
  simp only [slCore6, slL6, lv, ofR_add, ofR_sub, ofR_mul, ofR_neg, ofR_lit, Int.cast_neg, Int.cast_one, Int.cast_zero]
  ring
theorem slCert6 : slCert slL6 3 0 5 3.1417 92e-37 18 = true := by decide +kernel
theorem slAcc6 {u : ℝ} (hS : S.Lit u) (r : R S) (h0 : 0 ≤ ofR r) (h1 : ofR r ≤ 3.1417) :
    |ofR (slCore6 r) - glaisher 6 (ofR r)| ≤ 92e-37 + 18 * u := by
  have h := sl_poly hS slCert6 (by norm_num) (by norm_num) (by norm_num) (by norm_num) h0 (by push_cast; exact h1) (by linarith [pi_gt])
  rw [slCore6_eq]
  push_cast at h; exact h

theorem Sl_6 {F : Type} [FOps F] (x : F) : Sl 6 x = pure ((FOps.lit 1 : F) *. slCore6 (reduceAbs (FOps.lit 3.14159265358979324 : F) (FOps.lit 0.0019353071795864769253 : F) x)) := rfl

/-- the expression of `Sl(7, x)` -/
def slCore7 {F : Type} [FOps F] (x : F) : F :=
  let x2 := x *. x
  x *. ((FOps.lit 1.01734306198444913971451792979092052962 : F) +. x2 *. (∸(FOps.lit 0.18038720561852303191933394942352798392 : F) +. ((FOps.lit 0.0137077838904018869706034597220502099 : F) +. (∸(FOps.lit 0.00218166156499291197115461346061076589 : F) +. (FOps.lit 0.00009920634920634920634920634920634921 : F) *. x) *. x) *. x2))
def slL7 : List (ℤ × ℚ) := [(0, 0), (1, 1.01734306198444913971451792979092052962), (0, 0), (-1, 0.18038720561852303191933394942352798392), (0, 0), (1, 0.0137077838904018869706034597220502099), (-1, 0.00218166156499291197115461346061076589), (1, 0.00009920634920634920634920634920634921)]
theorem slCore7_eq (x : R S) : ofR (slCore7 x) = lv S slL7 (ofR x) := by
  simp only [slCore7, slL7, lv, ofR_add, ofR_sub, ofR_mul, ofR_neg, ofR_lit, Int.cast_neg, Int.cast_one, Int.cast_zero]
  ring
theorem slCert7 : slCert slL7 3 1 6 3.1417 26e-36 16 = true := by decide +kernel
theorem slAcc7 {u : ℝ} (hS : S.Lit u) (r : R S) (h0 : 0 ≤ ofR r) (h1 : ofR r ≤ 3.1417) :
    |ofR (slCore7 r) - glaisher 7 (ofR r)| ≤ 26e-36 + 16 * u := by
  have h := sl_poly hS slCert7 (by norm_num) (by norm_num) (by norm_num) (by norm_num) h0 (by push_cast; exact h1) (by linarith [pi_gt])
  rw [slCore7_eq]
  push_cast at h; exact h

theorem Sl_7 {F : Type} [FOps F] (x : F) : Sl 7 x = pure (
    let xs := reduceSgn (FOps.lit 3.14159265358979324 : F) (FOps.lit 0.0019353071795864769253 : F) x
    if xs.1 ==. (FOps.lit 0 : F) then xs.1 else xs.2 *. slCore7 xs.1) := by
  exact (apply_ite (pure : F → M F) _ _ _).symm

/-- the expression of `Sl(8, x)` -/
def slCore8 {F : Type} [FOps F] (x : F) : F :=
  let x2 := x *. x
  (FOps.lit 1.00407735619794433937868523850865245599 : F) +. x2 *. (∸(FOps.lit 0.50867153099222456985725896489546026481 : F) +. x2 *. ((FOps.lit 0.04509680140463075797983348735588199584 : F) +. (∸(FOps.lit 0.00228463064840031449510057662034170166 : F) +. ((FOps.lit 0.00031166593785613028159351620865868084 : F) -. (FOps.lit 0.00001240079365079365079365079365079365 : F) *. x) *. x) *. x2))
def slL8 : List (ℤ × ℚ) := [(1, 1.00407735619794433937868523850865245599), (0, 0), (-1, 0.50867153099222456985725896489546026481), (0, 0), (1, 0.04509680140463075797983348735588199584), (0, 0), (-1, 0.00228463064840031449510057662034170166), (1, 0.00031166593785613028159351620865868084), (-1, 0.00001240079365079365079365079365079365)]
theorem slCore8_eq (x : R S) : ofR (slCore8 x) = lv S slL8 (ofR x) := by
  simp only [slCore8, slL8, lv, ofR_add, ofR_sub, ofR_mul, ofR_neg, ofR_lit, Int.cast_neg, Int.cast_one, Int.cast_zero]
  ring
theorem slCert8 : slCert slL8 4 0 7 3.1417 50e-36 14 = true := by decide +kernel
theorem slAcc8 {u : ℝ} (hS : S.Lit u) (r : R S) (h0 : 0 ≤ ofR r) (h1 : ofR r ≤ 3.1417) :
    |ofR (slCore8 r) - glaisher 8 (ofR r)| ≤ 50e-36 + 14 * u := by
  have h := sl_poly hS slCert8 (by norm_num) (by norm_num) (by norm_num) (by norm_num) h0 (by push_cast; exact h1) (by linarith [pi_gt])
  rw [slCore8_eq]
  push_cast at h; exact h

theorem Sl_8 {F : Type} [FOps F] (x : F) : Sl 8 x = pure ((FOps.lit 1 : F) *. slCore8 (reduceAbs (FOps.lit 3.14159265358979324 : F) (FOps.lit 0.0019353071795864769253 : F) x)) := rfl

/-- the expression of `Sl(9, x)` -/
def slCore9 {F : Type} [FOps F] (x : F) : F :=
  let x2 := x *. x
  x *. ((FOps.lit 1.00407735619794433937868523850865245599 : F) +. x2 *. (∸(FOps.lit 0.1695571769974081899524196549651534216 : F) +. x2 *. ((FOps.lit 0.00901936028092615159596669747117639928 : F) +. (∸(FOps.lit 0.00032637580691433064215722523147738596 : F) +. ((FOps.lit 0.00003895824223201628519918952608233511 : F) -. (FOps.lit 1.37786596119929453262786596119929e-6 : F) *. x) *. x) *. x2)))
def slL9 : List (ℤ × ℚ) := [(0, 0), (1, 1.00407735619794433937868523850865245599), (0, 0), (-1, 0.1695571769974081899524196549651534216), (0, 0), (1, 0.00901936028092615159596669747117639928), (0, 0), (-1, 0.00032637580691433064215722523147738596), (1, 0.00003895824223201628519918952608233511), (-1, 1.37786596119929453262786596119929e-6)]
theorem slCore9_eq (x : R S) : ofR (slCore9 x) = lv S slL9 (ofR x) := by
  simp only [slCore9, slL9, lv, ofR_add, ofR_sub, ofR_mul, ofR_neg, ofR_lit, Int.cast_neg, Int.cast_one, Int.cast_zero]
  ring
theorem slCert9 : slCert slL9 4 1 8 3.1417 28e-35 13 = true := by decide +kernel
theorem slAcc9 {u : ℝ} (hS : S.Lit u) (r : R S) (h0 : 0 ≤ ofR r) (h1 : ofR r ≤ 3.1417) :
    |ofR (slCore9 r) - glaisher 9 (ofR r)| ≤ 28e-35 + 13 * u := by
  have h := sl_poly hS slCert9 (by norm_num) (by norm_num) (by norm_num) (by norm_num) h0 (by push_cast; exact h1) (by linarith [pi_gt])
  rw [slCore9_eq]
  push_cast at h; exact h

theorem Sl_9 {F : Type} [FOps F] (x : F) : Sl 9 x = pure (
    let xs := reduceSgn (FOps.lit 3.14159265358979324 : F) (FOps.lit 0.0019353071795864769253 : F) x
    if xs.1 ==. (FOps.lit 0 : F) then xs.1 else xs.2 *. slCore9 xs.1) := by
  exact (apply_ite (pure : F → M F) _ _ _).symm

/-- the expression of `Sl(10, x)` -/
def slCore10 {F : Type} [FOps F] (x : F) : F :=
  let x2 := x *. x
  (FOps.lit 1.00099457512781808533714595890031902742 : F) +. x2 *. (∸(FOps.lit 0.50203867809897216968934261925432624194 : F) +. x2 *. ((FOps.lit 0.0423892942493520474881049137412883547 : F) +. x2 *. (∸(FOps.lit 0.0015032267134876919326611162451960666 : F) +. ((FOps.lit 0.00004079697586429133026965315393467323 : F) +. (∸(FOps.lit 4.32869358133514279990994734248167e-6 : F) +. (FOps.lit 1.3778659611992945326278659611993e-7 : F) *. x) *. x) *. x2)))
def slL10 : List (ℤ × ℚ) := [(1, 1.00099457512781808533714595890031902742), (0, 0), (-1, 0.50203867809897216968934261925432624194), (0, 0), (1, 0.0423892942493520474881049137412883547), (0, 0), (-1, 0.0015032267134876919326611162451960666), (0, 0), (1, 0.00004079697586429133026965315393467323), (-1, 4.32869358133514279990994734248167e-6), (1, 1.3778659611992945326278659611993e-7)]
theorem slCore10_eq (x : R S) : ofR (slCore10 x) = lv S slL10 (ofR x) := by
  simp only [slCore10, slL10, lv, ofR_add, ofR_sub, ofR_mul, ofR_neg, ofR_lit, Int.cast_neg, Int.cast_one, Int.cast_zero]
  ring
theorem slCert10 : slCert slL10 5 0 9 3.1417 67e-35 13 = true := by decide +kernel
theorem slAcc10 {u : ℝ} (hS : S.Lit u) (r : R S) (h0 : 0 ≤ ofR r) (h1 : ofR r ≤ 3.1417) :
    |ofR (slCore10 r) - glaisher 10 (ofR r)| ≤ 67e-35 + 13 * u := by
  have h := sl_poly hS slCert10 (by norm_num) (by norm_num) (by norm_num) (by norm_num) h0 (by push_cast; exact h1) (by linarith [pi_gt])
  rw [slCore10_eq]
  push_cast at h; exact h

theorem Sl_10 {F : Type} [FOps F] (x : F) : Sl 10 x = pure ((FOps.lit 1 : F) *. slCore10 (reduceAbs (FOps.lit 3.14159265358979324 : F) (FOps.lit 0.0019353071795864769253 : F) x)) := rfl

/-- the expression of `Sl(11, x)` -/
def slCore11 {F : Type} [FOps F] (x : F) : F :=
  let x2 := x *. x
  x *. ((FOps.lit 1.00099457512781808533714595890031902742 : F) +. x2 *. (∸(FOps.lit 0.16734622603299072322978087308477541398 : F) +. x2 *. ((FOps.lit 0.00847785884987040949762098274825766981 : F) +. x2 *. (∸(FOps.lit 0.00021474667335538456180873089217086662 : F) +. ((FOps.lit 4.53299731825459225218368377051925e-6 : F) +. (∸(FOps.lit 4.3286935813351427999099473424817e-7 : F) +. (FOps.lit 1.252605419272085938752605419272e-8 : F) *. x) *. x) *. x2))))
def slL11 : List (ℤ × ℚ) := [(0, 0), (1, 1.00099457512781808533714595890031902742), (0, 0), (-1, 0.16734622603299072322978087308477541398), (0, 0), (1, 0.00847785884987040949762098274825766981), (0, 0), (-1, 0.00021474667335538456180873089217086662), (0, 0), (1, 4.53299731825459225218368377051925e-6), (-1, 4.3286935813351427999099473424817e-7), (1, 1.252605419272085938752605419272e-8)]
theorem slCore11_eq (x : R S) : ofR (slCore11 x) = lv S slL11 (ofR x) := by
  simp only [slCore11, slL11, lv, ofR_add, ofR_sub, ofR_mul, ofR_neg, ofR_lit, Int.cast_neg, Int.cast_one, Int.cast_zero]
  ring
theorem slCert11 : slCert slL11 5 1 10 3.1417 11e-34 12 = true := by decide +kernel
theorem slAcc11 {u : ℝ} (hS : S.Lit u) (r : R S) (h0 : 0 ≤ ofR r) (h1 : ofR r ≤ 3.1417) :
    |ofR (slCore11 r) - glaisher 11 (ofR r)| ≤ 11e-34 + 12 * u := by
  have h := sl_poly hS slCert11 (by norm_num) (by norm_num) (by norm_num) (by norm_num) h0 (by push_cast; exact h1) (by linarith [pi_gt])
  rw [slCore11_eq]
  push_cast at h; exact h

theorem Sl_11 {F : Type} [FOps F] (x : F) : Sl 11 x = pure (
    let xs := reduceSgn (FOps.lit 3.14159265358979324 : F) (FOps.lit 0.0019353071795864769253 : F) x
    if xs.1 ==. (FOps.lit 0 : F) then xs.1 else xs.2 *. slCore11 xs.1) := by
  exact (apply_ite (pure : F → M F) _ _ _).symm

/-- the expression of `Sl(12, x)` -/
def slCore12 {F : Type} [FOps F] (x : F) : F :=
  let x2 := x *. x
  (FOps.lit 1.00024608655330804829863799804773972216 : F) +. x2 *. (∸(FOps.lit 0.50049728756390904266857297945015937611 : F) +. x2 *. ((FOps.lit 0.04183655650824768080744521827119384652 : F) +. x2 *. (∸(FOps.lit 0.00141297647497840158293683045804294403 : F) +. x2 *. ((FOps.lit 0.00002684333416942307022609136152135836 : F) +. (∸(FOps.lit 4.5329973182545922521836837705192e-7 : F) +. ((FOps.lit 3.935175983031947999918133947711e-8 : F) -. (FOps.lit 1.04383784939340494896050451606e-9 : F) *. x) *. x) *. x2))))
def slL12 : List (ℤ × ℚ) := [(1, 1.00024608655330804829863799804773972216), (0, 0), (-1, 0.50049728756390904266857297945015937611), (0, 0), (1, 0.04183655650824768080744521827119384652), (0, 0), (-1, 0.00141297647497840158293683045804294403), (0, 0), (1, 0.00002684333416942307022609136152135836), (0, 0), (-1, 4.5329973182545922521836837705192e-7), (1, 3.935175983031947999918133947711e-8), (-1, 1.04383784939340494896050451606e-9)]
theorem slCore12_eq (x : R S) : ofR (slCore12 x) = lv S slL12 (ofR x) := by
  simp only [slCore12, slL12, lv, ofR_add, ofR_sub, ofR_mul, ofR_neg, ofR_lit, Int.cast_neg, Int.cast_one, Int.cast_zero]
  ring
theorem slCert12 : slCert slL12 6 0 11 3.1417 51e-34 12 = true := by decide +kernel
theorem slAcc12 {u : ℝ} (hS : S.Lit u) (r : R S) (h0 : 0 ≤ ofR r) (h1 : ofR r ≤ 3.1417) :
    |ofR (slCore12 r) - glaisher 12 (ofR r)| ≤ 51e-34 + 12 * u := by
  have h := sl_poly hS slCert12 (by norm_num) (by norm_num) (by norm_num) (by norm_num) h0 (by push_cast; exact h1) (by linarith [pi_gt])
  rw [slCore12_eq]
  push_cast at h; exact h

theorem Sl_12 {F : Type} [FOps F] (x : F) : Sl 12 x = pure ((FOps.lit 1 : F) *. slCore12 (reduceAbs (FOps.lit 3.14159265358979324 : F) (FOps.lit 0.0019353071795864769253 : F) x)) := rfl

/-- the expression of `Sl(13, x)` -/
def slCore13 {F : Type} [FOps F] (x : F) : F :=
  let x2 := x *. x
  x *. ((FOps.lit 1.00024608655330804829863799804773972216 : F) +. x2 *. (∸(FOps.lit 0.16683242918796968088952432648338636697 : F) +. x2 *. ((FOps.lit 0.00836731130164953616148904365423876373 : F) +. x2 *. (∸(FOps.lit 0.00020185378213977165470526149400613446 : F) +. x2 *. ((FOps.lit 2.98259268549145224734348461348417e-6 : F) +. (∸(FOps.lit 4.120906652958720229257894336836e-8 : F) +. ((FOps.lit 3.27931331919328999993177828976e-9 : F) -. (FOps.lit 8.029521918410807299696188585e-11 : F) *. x) *. x) *. x2)))))
def slL13 : List (ℤ × ℚ) := [(0, 0), (1, 1.00024608655330804829863799804773972216), (0, 0), (-1, 0.16683242918796968088952432648338636697), (0, 0), (1, 0.00836731130164953616148904365423876373), (0, 0), (-1, 0.00020185378213977165470526149400613446), (0, 0), (1, 2.98259268549145224734348461348417e-6), (0, 0), (-1, 4.120906652958720229257894336836e-8), (1, 3.27931331919328999993177828976e-9), (-1, 8.029521918410807299696188585e-11)]
theorem slCore13_eq (x : R S) : ofR (slCore13 x) = lv S slL13 (ofR x) := by
  simp only [slCore13, slL13, lv, ofR_add, ofR_sub, ofR_mul, ofR_neg, ofR_lit, Int.cast_neg, Int.cast_one, Int.cast_zero]
  ring
theorem slCert13 : slCert slL13 6 1 12 3.1417 16e-33 12 = true := by decide +kernel
theorem slAcc13 {u : ℝ} (hS : S.Lit u) (r : R S) (h0 : 0 ≤ ofR r) (h1 : ofR r ≤ 3.1417) :
    |ofR (slCore13 r) - glaisher 13 (ofR r)| ≤ 16e-33 + 12 * u := by
  have h := sl_poly hS slCert13 (by norm_num) (by norm_num) (by norm_num) (by norm_num) h0 (by push_cast; exact h1) (by linarith [pi_gt])
  rw [slCore13_eq]
  push_cast at h; exact h

theorem Sl_13 {F : Type} [FOps F] (x : F) : Sl 13 x = pure (
    let xs := reduceSgn (FOps.lit 3.14159265358979324 : F) (FOps.lit 0.0019353071795864769253 : F) x
    if xs.1 ==. (FOps.lit 0 : F) then xs.1 else xs.2 *. slCore13 xs.1) := by
  exact (apply_ite (pure : F → M F) _ _ _).symm

/-- the expression of `Sl(14, x)` -/
def slCore14 {F : Type} [FOps F] (x : F) : F :=
  let x2 := x *. x
  (FOps.lit 1.00006124813505870482925854510513864395 : F) +. x2 *. (∸(FOps.lit 0.50012304327665402414931899902386850299 : F) +. x2 *. ((FOps.lit 0.04170810729699242022238108162084659174 : F) +. x2 *. (∸(FOps.lit 0.0013945518836082560269148406090398079 : F) +. x2 *. ((FOps.lit 0.0000252317227674714568381576867507661 : F) +. x2 *. (∸(FOps.lit 2.9825926854914522473434846134856e-7 : F) +. ((FOps.lit 3.4340888774656001910482452807e-9 : F) +. (∸(FOps.lit 2.5225487070717615384090602229e-10 : F) +. (FOps.lit 5.73537279886486235692584899e-12 : F) *. x) *. x) *. x2)))))
def slL14 : List (ℤ × ℚ) := [(1, 1.00006124813505870482925854510513864395), (0, 0), (-1, 0.50012304327665402414931899902386850299), (0, 0), (1, 0.04170810729699242022238108162084659174), (0, 0), (-1, 0.0013945518836082560269148406090398079), (0, 0), (1, 0.0000252317227674714568381576867507661), (0, 0), (-1, 2.9825926854914522473434846134856e-7), (0, 0), (1, 3.4340888774656001910482452807e-9), (-1, 2.5225487070717615384090602229e-10), (1, 5.73537279886486235692584899e-12)]
theorem slCore14_eq (x : R S) : ofR (slCore14 x) = lv S slL14 (ofR x) := by
  simp only [slCore14, slL14, lv, ofR_add, ofR_sub, ofR_mul, ofR_neg, ofR_lit, Int.cast_neg, Int.cast_one, Int.cast_zero]
  ring
theorem slCert14 : slCert slL14 7 0 13 3.1417 65e-33 12 = true := by decide +kernel
theorem slAcc14 {u : ℝ} (hS : S.Lit u) (r : R S) (h0 : 0 ≤ ofR r) (h1 : ofR r ≤ 3.1417) :
    |ofR (slCore14 r) - glaisher 14 (ofR r)| ≤ 65e-33 + 12 * u := by
  have h := sl_poly hS slCert14 (by norm_num) (by norm_num) (by norm_num) (by norm_num) h0 (by push_cast; exact h1) (by linarith [pi_gt])
  rw [slCore14_eq]
  push_cast at h; exact h

theorem Sl_14 {F : Type} [FOps F] (x : F) : Sl 14 x = pure ((FOps.lit 1 : F) *. slCore14 (reduceAbs (FOps.lit 3.14159265358979324 : F) (FOps.lit 0.0019353071795864769253 : F) x)) := rfl

/-- the expression of `Sl(15, x)` -/
def slCore15 {F : Type} [FOps F] (x : F) : F :=
  let x2 := x *. x
  x *. ((FOps.lit 1.00006124813505870482925854510513864395 : F) +. x2 *. (∸(FOps.lit 0.16670768109221800804977299967462192893 : F) +. x2 *. ((FOps.lit 0.00834162145939848404447621632416931835 : F) +. x2 *. (∸(FOps.lit 0.00019922169765832228955926294414853602 : F) +. x2 *. ((FOps.lit 2.80352475194127298201752075008418e-6 : F) +. x2 *. (∸(FOps.lit 2.711447895901320224857713284997e-8 : F) +. ((FOps.lit 2.6416068288196924546524963697e-10 : F) +. (∸(FOps.lit 1.801820505051258241720757302e-11 : F) +. (FOps.lit 3.823581865909908237950565992894035222077550119e-13 : F) *. x) *. x) *. x2))))))
def slL15 : List (ℤ × ℚ) := [(0, 0), (1, 1.00006124813505870482925854510513864395), (0, 0), (-1, 0.16670768109221800804977299967462192893), (0, 0), (1, 0.00834162145939848404447621632416931835), (0, 0), (-1, 0.00019922169765832228955926294414853602), (0, 0), (1, 2.80352475194127298201752075008418e-6), (0, 0), (-1, 2.711447895901320224857713284997e-8), (0, 0), (1, 2.6416068288196924546524963697e-10), (-1, 1.801820505051258241720757302e-11), (1, 3.823581865909908237950565992894035222077550119e-13)]
theorem slCore15_eq (x : R S) : ofR (slCore15 x) = lv S slL15 (ofR x) := by
  simp only [slCore15, slL15, lv, ofR_add, ofR_sub, ofR_mul, ofR_neg, ofR_lit, Int.cast_neg, Int.cast_one, Int.cast_zero]
  ring
theorem slCert15 : slCert slL15 7 1 14 3.1417 17e-32 12 = true := by decide +kernel
theorem slAcc15 {u : ℝ} (hS : S.Lit u) (r : R S) (h0 : 0 ≤ ofR r) (h1 : ofR r ≤ 3.1417) :
    |ofR (slCore15 r) - glaisher 15 (ofR r)| ≤ 17e-32 + 12 * u := by
  have h := sl_poly hS slCert15 (by norm_num) (by norm_num) (by norm_num) (by norm_num) h0 (by push_cast; exact h1) (by linarith [pi_gt])
  rw [slCore15_eq]
  push_cast at h; exact h

theorem Sl_15 {F : Type} [FOps F] (x : F) : Sl 15 x = pure (
    let xs := reduceSgn (FOps.lit 3.14159265358979324 : F) (FOps.lit 0.0019353071795864769253 : F) x
    if xs.1 ==. (FOps.lit 0 : F) then xs.1 else xs.2 *. slCore15 xs.1) := by
  exact (apply_ite (pure : F → M F) _ _ _).symm

/-- the expression of `Sl(16, x)` -/
def slCore16 {F : Type} [FOps F] (x : F) : F :=
  let x2 := x *. x
  (FOps.lit 1.00001528225940865187173257148771504874 : F) +. x2 *. (∸(FOps.lit 0.50003062406752935241462927255256932198 : F) +. x2 *. ((FOps.lit 0.04167692027305450201244324991865684033 : F) +. x2 *. (∸(FOps.lit 0.00139027024323308067407936938736164479 : F) +. x2 *. ((FOps.lit 0.000024902712207290286194907868018567 : F) +. x2 *. (∸(FOps.lit 2.8035247519412729820175207500757e-7 : F) +. x2 *. ((FOps.lit 2.25953991325110018738142773754e-9 : F) +. (∸(FOps.lit 1.886862020585494610466068836e-11 : F) +. ((FOps.lit 1.2012136700341721611471715347102004543167177933e-12 : F) -. (FOps.lit 2.38973866619369264871910374555877201379846882e-14 : F) *. x) *. x) *. x2))))))
def slL16 : List (ℤ × ℚ) := [(1, 1.00001528225940865187173257148771504874), (0, 0), (-1, 0.50003062406752935241462927255256932198), (0, 0), (1, 0.04167692027305450201244324991865684033), (0, 0), (-1, 0.00139027024323308067407936938736164479), (0, 0), (1, 0.000024902712207290286194907868018567), (0, 0), (-1, 2.8035247519412729820175207500757e-7), (0, 0), (1, 2.25953991325110018738142773754e-9), (0, 0), (-1, 1.886862020585494610466068836e-11), (1, 1.2012136700341721611471715347102004543167177933e-12), (-1, 2.38973866619369264871910374555877201379846882e-14)]
theorem slCore16_eq (x : R S) : ofR (slCore16 x) = lv S slL16 (ofR x) := by
  simp only [slCore16, slL16, lv, ofR_add, ofR_sub, ofR_mul, ofR_neg, ofR_lit, Int.cast_neg, Int.cast_one, Int.cast_zero]
  ring
theorem slCert16 : slCert slL16 8 0 15 3.1417 48e-32 12 = true := by decide +kernel
theorem slAcc16 {u : ℝ} (hS : S.Lit u) (r : R S) (h0 : 0 ≤ ofR r) (h1 : ofR r ≤ 3.1417) :
    |ofR (slCore16 r) - glaisher 16 (ofR r)| ≤ 48e-32 + 12 * u := by
  have h := sl_poly hS slCert16 (by norm_num) (by norm_num) (by norm_num) (by norm_num) h0 (by push_cast; exact h1) (by linarith [pi_gt])
  rw [slCore16_eq]
  push_cast at h; exact h

theorem Sl_16 {F : Type} [FOps F] (x : F) : Sl 16 x = pure ((FOps.lit 1 : F) *. slCore16 (reduceAbs (FOps.lit 3.14159265358979324 : F) (FOps.lit 0.0019353071795864769253 : F) x)) := rfl

/-- the expression of `Sl(17, x)` -/
def slCore17 {F : Type} [FOps F] (x : F) : F :=
  let x2 := x *. x
  x *. ((FOps.lit 1.00001528225940865187173257148771504874 : F) +. x2 *. (∸(FOps.lit 0.16667687468917645080487642418418977399 : F) +. x2 *. ((FOps.lit 0.00833538405461090040248864998373245454 : F) +. x2 *. (∸(FOps.lit 0.00019861003474758295343990991248027429 : F) +. x2 *. ((FOps.lit 2.76696802303225402165642977983148e-6 : F) +. x2 *. (∸(FOps.lit 2.548658865401157256379564318122e-8 : F) +. x2 *. ((FOps.lit 1.7381076255777693749087905673e-10 : F) +. (∸(FOps.lit 1.2579080137236630736440458903649820484513744495e-12 : F) +. ((FOps.lit 7.5075854377135760071698220919387528394794862e-14 : F) -. (FOps.lit 1.4057286271727603815994727915051600081167463e-15 : F) *. x) *. x) *. x2)))))))
def slL17 : List (ℤ × ℚ) := [(0, 0), (1, 1.00001528225940865187173257148771504874), (0, 0), (-1, 0.16667687468917645080487642418418977399), (0, 0), (1, 0.00833538405461090040248864998373245454), (0, 0), (-1, 0.00019861003474758295343990991248027429), (0, 0), (1, 2.76696802303225402165642977983148e-6), (0, 0), (-1, 2.548658865401157256379564318122e-8), (0, 0), (1, 1.7381076255777693749087905673e-10), (0, 0), (-1, 1.2579080137236630736440458903649820484513744495e-12), (1, 7.5075854377135760071698220919387528394794862e-14), (-1, 1.4057286271727603815994727915051600081167463e-15)]
theorem slCore17_eq (x : R S) : ofR (slCore17 x) = lv S slL17 (ofR x) := by
  simp only [slCore17, slL17, lv, ofR_add, ofR_sub, ofR_mul, ofR_neg, ofR_lit, Int.cast_neg, Int.cast_one, Int.cast_zero]
  ring
theorem slCert17 : slCert slL17 8 1 16 3.1417 16e-31 12 = true := by decide +kernel
theorem slAcc17 {u : ℝ} (hS : S.Lit u) (r : R S) (h0 : 0 ≤ ofR r) (h1 : ofR r ≤ 3.1417) :
    |ofR (slCore17 r) - glaisher 17 (ofR r)| ≤ 16e-31 + 12 * u := by
  have h := sl_poly hS slCert17 (by norm_num) (by norm_num) (by norm_num) (by norm_num) h0 (by push_cast; exact h1) (by linarith [pi_gt])
  rw [slCore17_eq]
  push_cast at h; exact h

theorem Sl_17 {F : Type} [FOps F] (x : F) : Sl 17 x = pure (
    let xs := reduceSgn (FOps.lit 3.14159265358979324 : F) (FOps.lit 0.0019353071795864769253 : F) x
    if xs.1 ==. (FOps.lit 0 : F) then xs.1 else xs.2 *. slCore17 xs.1) := by
  exact (apply_ite (pure : F → M F) _ _ _).symm

/-- the expression of `Sl(18, x)` -/
def slCore18 {F : Type} [FOps F] (x : F) : F :=
  let x2 := x *. x
  (FOps.lit 1.00000381729326499983985646162931158806 : F) +. x2 *. (∸(FOps.lit 0.50000764112970432593586628574372523391 : F) +. x2 *. ((FOps.lit 0.04166921867229411270121910604605414541 : F) +. x2 *. (∸(FOps.lit 0.00138923067576848340041477499728783703 : F) +. x2 *. ((FOps.lit 0.00002482625434344786917998873906006869 : F) +. x2 *. (∸(FOps.lit 2.766968023032254021656429779943e-7 : F) +. x2 *. ((FOps.lit 2.12388238783429771364963693188e-9 : F) +. x2 *. (∸(FOps.lit 1.241505446841263839220564691e-11 : F) +. ((FOps.lit 7.86192508577289421027528681478113780282109019e-14 : F) +. (∸(FOps.lit 4.4162267280668094159822482893757369643996976e-15 : F) +. (FOps.lit 7.80960348429311323110818217502866671175969e-17 : F) *. x) *. x) *. x2)))))))
def slL18 : List (ℤ × ℚ) := [(1, 1.00000381729326499983985646162931158806), (0, 0), (-1, 0.50000764112970432593586628574372523391), (0, 0), (1, 0.04166921867229411270121910604605414541), (0, 0), (-1, 0.00138923067576848340041477499728783703), (0, 0), (1, 0.00002482625434344786917998873906006869), (0, 0), (-1, 2.766968023032254021656429779943e-7), (0, 0), (1, 2.12388238783429771364963693188e-9), (0, 0), (-1, 1.241505446841263839220564691e-11), (0, 0), (1, 7.86192508577289421027528681478113780282109019e-14), (-1, 4.4162267280668094159822482893757369643996976e-15), (1, 7.80960348429311323110818217502866671175969e-17)]
theorem slCore18_eq (x : R S) : ofR (slCore18 x) = lv S slL18 (ofR x) := by
  simp only [slCore18, slL18, lv, ofR_add, ofR_sub, ofR_mul, ofR_neg, ofR_lit, Int.cast_neg, Int.cast_one, Int.cast_zero]
  ring
theorem slCert18 : slCert slL18 9 0 17 3.1417 20e-30 12 = true := by decide +kernel
theorem slAcc18 {u : ℝ} (hS : S.Lit u) (r : R S) (h0 : 0 ≤ ofR r) (h1 : ofR r ≤ 3.1417) :
    |ofR (slCore18 r) - glaisher 18 (ofR r)| ≤ 20e-30 + 12 * u := by
  have h := sl_poly hS slCert18 (by norm_num) (by norm_num) (by norm_num) (by norm_num) h0 (by push_cast; exact h1) (by linarith [pi_gt])
  rw [slCore18_eq]
  push_cast at h; exact h

theorem Sl_18 {F : Type} [FOps F] (x : F) : Sl 18 x = pure ((FOps.lit 1 : F) *. slCore18 (reduceAbs (FOps.lit 3.14159265358979324 : F) (FOps.lit 0.0019353071795864769253 : F) x)) := rfl

/-- the expression of `Sl(19, x)` -/
def slCore19 {F : Type} [FOps F] (x : F) : F :=
  let x2 := x *. x
  x *. ((FOps.lit 1.00000381729326499983985646162931158806 : F) +. x2 *. (∸(FOps.lit 0.16666921370990144197862209524782021767 : F) +. x2 *. ((FOps.lit 0.00833384373445882254024382120921082908 : F) +. x2 *. (∸(FOps.lit 0.00019846152510978334291639642818358869 : F) +. x2 *. ((FOps.lit 2.75847270482754101999874878432976e-6 : F) +. x2 *. (∸(FOps.lit 2.515425475483867292414936163492e-8 : F) +. x2 *. ((FOps.lit 1.6337556829494597797304899476e-10 : F) +. x2 *. (∸(FOps.lit 8.276702978941758928137097939516758220936903338e-13 : F) +. ((FOps.lit 4.6246618151605260060442863616359634134241695e-15 : F) +. (∸(FOps.lit 2.453459293370449675545693494097631646888718e-16 : F) +. (FOps.lit 4.1103176233121648584779906184361403746102e-18 : F) *. x) *. x) *. x2))))))))
def slL19 : List (ℤ × ℚ) := [(0, 0), (1, 1.00000381729326499983985646162931158806), (0, 0), (-1, 0.16666921370990144197862209524782021767), (0, 0), (1, 0.00833384373445882254024382120921082908), (0, 0), (-1, 0.00019846152510978334291639642818358869), (0, 0), (1, 2.75847270482754101999874878432976e-6), (0, 0), (-1, 2.515425475483867292414936163492e-8), (0, 0), (1, 1.6337556829494597797304899476e-10), (0, 0), (-1, 8.276702978941758928137097939516758220936903338e-13), (0, 0), (1, 4.6246618151605260060442863616359634134241695e-15), (-1, 2.453459293370449675545693494097631646888718e-16), (1, 4.1103176233121648584779906184361403746102e-18)]
theorem slCore19_eq (x : R S) : ofR (slCore19 x) = lv S slL19 (ofR x) := by
  simp only [slCore19, slL19, lv, ofR_add, ofR_sub, ofR_mul, ofR_neg, ofR_lit, Int.cast_neg, Int.cast_one, Int.cast_zero]
  ring
theorem slCert19 : slCert slL19 9 1 18 3.1417 58e-30 12 = true := by decide +kernel
theorem slAcc19 {u : ℝ} (hS : S.Lit u) (r : R S) (h0 : 0 ≤ ofR r) (h1 : ofR r ≤ 3.1417) :
    |ofR (slCore19 r) - glaisher 19 (ofR r)| ≤ 58e-30 + 12 * u := by
  have h := sl_poly hS slCert19 (by norm_num) (by norm_num) (by norm_num) (by norm_num) h0 (by push_cast; exact h1) (by linarith [pi_gt])
  rw [slCore19_eq]
  push_cast at h; exact h

theorem Sl_19 {F : Type} [FOps F] (x : F) : Sl 19 x = pure (
    let xs := reduceSgn (FOps.lit 3.14159265358979324 : F) (FOps.lit 0.0019353071795864769253 : F) x
    if xs.1 ==. (FOps.lit 0 : F) then xs.1 else xs.2 *. slCore19 xs.1) := by
  exact (apply_ite (pure : F → M F) _ _ _).symm

/-- the expression of `Sl(20, x)` -/
def slCore20 {F : Type} [FOps F] (x : F) : F :=
  let x2 := x *. x
  (FOps.lit 1.00000095396203387279611315203997344306 : F) +. x2 *. (∸(FOps.lit 0.50000190864663249991992823081465579403 : F) +. x2 *. ((FOps.lit 0.04166730342747536049465552381188890919 : F) +. x2 *. (∸(FOps.lit 0.00138897395574313709004063686821074073 : F) +. x2 *. ((FOps.lit 0.00002480769063872291786454955352193002 : F) +. x2 *. (∸(FOps.lit 2.7584727048275410199987487844475e-7 : F) +. x2 *. ((FOps.lit 2.09618789623655607701244680291e-9 : F) +. x2 *. (∸(FOps.lit 1.166968344963899842664635677e-11 : F) +. x2 *. ((FOps.lit 5.17293936183859933008568621219797388808556372e-14 : F) +. (∸(FOps.lit 2.569256563978070003357936867575535229680093e-16 : F) +. ((FOps.lit 1.2912943649318156187082597337355956036256e-17 : F) -. (FOps.lit 2.055158811656082429238995309218070187304e-19 : F) *. x) *. x) *. x2))))))))
def slL20 : List (ℤ × ℚ) := [(1, 1.00000095396203387279611315203997344306), (0, 0), (-1, 0.50000190864663249991992823081465579403), (0, 0), (1, 0.04166730342747536049465552381188890919), (0, 0), (-1, 0.00138897395574313709004063686821074073), (0, 0), (1, 0.00002480769063872291786454955352193002), (0, 0), (-1, 2.7584727048275410199987487844475e-7), (0, 0), (1, 2.09618789623655607701244680291e-9), (0, 0), (-1, 1.166968344963899842664635677e-11), (0, 0), (1, 5.17293936183859933008568621219797388808556372e-14), (0, 0), (-1, 2.569256563978070003357936867575535229680093e-16), (1, 1.2912943649318156187082597337355956036256e-17), (-1, 2.055158811656082429238995309218070187304e-19)]
theorem slCore20_eq (x : R S) : ofR (slCore20 x) = lv S slL20 (ofR x) := by
  simp only [slCore20, slL20, lv, ofR_add, ofR_sub, ofR_mul, ofR_neg, ofR_lit, Int.cast_neg, Int.cast_one, Int.cast_zero]
  ring
theorem slCert20 : slCert slL20 10 0 19 3.1417 11e-29 12 = true := by decide +kernel
theorem slAcc20 {u : ℝ} (hS : S.Lit u) (r : R S) (h0 : 0 ≤ ofR r) (h1 : ofR r ≤ 3.1417) :
    |ofR (slCore20 r) - glaisher 20 (ofR r)| ≤ 11e-29 + 12 * u := by
  have h := sl_poly hS slCert20 (by norm_num) (by norm_num) (by norm_num) (by norm_num) h0 (by push_cast; exact h1) (by linarith [pi_gt])
  rw [slCore20_eq]
  push_cast at h; exact h

theorem Sl_20 {F : Type} [FOps F] (x : F) : Sl 20 x = pure ((FOps.lit 1 : F) *. slCore20 (reduceAbs (FOps.lit 3.14159265358979324 : F) (FOps.lit 0.0019353071795864769253 : F) x)) := rfl

/-- the expression of `Sl(21, x)` -/
def slCore21 {F : Type} [FOps F] (x : F) : F :=
  let x2 := x *. x
  x *. ((FOps.lit 1.00000095396203387279611315203997344306 : F) +. x2 *. (∸(FOps.lit 0.16666730288221083330664274360488526468 : F) +. x2 *. ((FOps.lit 0.0083334606854950720989311047624836142 : F) +. x2 *. (∸(FOps.lit 0.00019842485082044815572009098117679263 : F) +. x2 *. ((FOps.lit 2.7564100709692130960610615025566e-6 : F) +. x2 *. (∸(FOps.lit 2.507702458934128199998862531316e-8 : F) +. x2 *. ((FOps.lit 1.6124522278742739053941898484e-10 : F) +. x2 *. (∸(FOps.lit 7.779788966425998951097571179057633165274733065e-13 : F) +. x2 *. ((FOps.lit 3.0429055069638819588739330659988081694620908e-15 : F) +. (∸(FOps.lit 1.3522402968305631596620720355660711735158e-17 : F) +. ((FOps.lit 6.456471824659078093541298668677978018124e-19 : F) -. (FOps.lit 9.7864705316956306154237871867527151777e-21 : F) *. x) *. x) *. x2)))))))))
def slL21 : List (ℤ × ℚ) := [(0, 0), (1, 1.00000095396203387279611315203997344306), (0, 0), (-1, 0.16666730288221083330664274360488526468), (0, 0), (1, 0.0083334606854950720989311047624836142), (0, 0), (-1, 0.00019842485082044815572009098117679263), (0, 0), (1, 2.7564100709692130960610615025566e-6), (0, 0), (-1, 2.507702458934128199998862531316e-8), (0, 0), (1, 1.6124522278742739053941898484e-10), (0, 0), (-1, 7.779788966425998951097571179057633165274733065e-13), (0, 0), (1, 3.0429055069638819588739330659988081694620908e-15), (0, 0), (-1, 1.3522402968305631596620720355660711735158e-17), (1, 6.456471824659078093541298668677978018124e-19), (-1, 9.7864705316956306154237871867527151777e-21)]
theorem slCore21_eq (x : R S) : ofR (slCore21 x) = lv S slL21 (ofR x) := by
  simp only [slCore21, slL21, lv, ofR_add, ofR_sub, ofR_mul, ofR_neg, ofR_lit, Int.cast_neg, Int.cast_one, Int.cast_zero]
  ring
theorem slCert21 : slCert slL21 10 1 20 3.1417 13e-29 12 = true := by decide +kernel
theorem slAcc21 {u : ℝ} (hS : S.Lit u) (r : R S) (h0 : 0 ≤ ofR r) (h1 : ofR r ≤ 3.1417) :
    |ofR (slCore21 r) - glaisher 21 (ofR r)| ≤ 13e-29 + 12 * u := by
  have h := sl_poly hS slCert21 (by norm_num) (by norm_num) (by norm_num) (by norm_num) h0 (by push_cast; exact h1) (by linarith [pi_gt])
  rw [slCore21_eq]
  push_cast at h; exact h

theorem Sl_21 {F : Type} [FOps F] (x : F) : Sl 21 x = pure (
    let xs := reduceSgn (FOps.lit 3.14159265358979324 : F) (FOps.lit 0.0019353071795864769253 : F) x
    if xs.1 ==. (FOps.lit 0 : F) then xs.1 else xs.2 *. slCore21 xs.1) := by
  exact (apply_ite (pure : F → M F) _ _ _).symm

/-- the expression of `Sl(22, x)` -/
def slCore22 {F : Type} [FOps F] (x : F) : F :=
  let x2 := x *. x
  (FOps.lit 1.00000023845050272773299000364796200809 : F) +. x2 *. (∸(FOps.lit 0.50000047698101693639805657600710042819 : F) +. x2 *. ((FOps.lit 0.04166682572055270832666068589991566168 : F) +. x2 *. (∸(FOps.lit 0.00138891011424917868315518412712469919 : F) +. x2 *. ((FOps.lit 0.00002480310635255601946501137264645673 : F) +. x2 *. (∸(FOps.lit 2.7564100709692130960610615025566e-7 : F) +. x2 *. ((FOps.lit 2.08975204911177349999905210943e-9 : F) +. x2 *. (∸(FOps.lit 1.151751591338767075281564177e-11 : F) +. x2 *. ((FOps.lit 4.86236810401624934443598198691102072829670529e-14 : F) +. x2 *. (∸(FOps.lit 1.690503059424378866041073925554893427478879e-16 : F) +. ((FOps.lit 6.76120148415281579831036017783035586758e-19 : F) +. (∸(FOps.lit 3.07451039269479909216252317556094191341e-20 : F) +. (FOps.lit 4.448395696225286643374448721251234172e-22 : F) *. x) *. x) *. x2)))))))))
def slL22 : List (ℤ × ℚ) := [(1, 1.00000023845050272773299000364796200809), (0, 0), (-1, 0.50000047698101693639805657600710042819), (0, 0), (1, 0.04166682572055270832666068589991566168), (0, 0), (-1, 0.00138891011424917868315518412712469919), (0, 0), (1, 0.00002480310635255601946501137264645673), (0, 0), (-1, 2.7564100709692130960610615025566e-7), (0, 0), (1, 2.08975204911177349999905210943e-9), (0, 0), (-1, 1.151751591338767075281564177e-11), (0, 0), (1, 4.86236810401624934443598198691102072829670529e-14), (0, 0), (-1, 1.690503059424378866041073925554893427478879e-16), (0, 0), (1, 6.76120148415281579831036017783035586758e-19), (-1, 3.07451039269479909216252317556094191341e-20), (1, 4.448395696225286643374448721251234172e-22)]
theorem slCore22_eq (x : R S) : ofR (slCore22 x) = lv S slL22 (ofR x) := by
  simp only [slCore22, slL22, lv, ofR_add, ofR_sub, ofR_mul, ofR_neg, ofR_lit, Int.cast_neg, Int.cast_one, Int.cast_zero]
  ring
theorem slCert22 : slCert slL22 11 0 21 3.1417 38e-29 12 = true := by decide +kernel
theorem slAcc22 {u : ℝ} (hS : S.Lit u) (r : R S) (h0 : 0 ≤ ofR r) (h1 : ofR r ≤ 3.1417) :
    |ofR (slCore22 r) - glaisher 22 (ofR r)| ≤ 38e-29 + 12 * u := by
  have h := sl_poly hS slCert22 (by norm_num) (by norm_num) (by norm_num) (by norm_num) h0 (by push_cast; exact h1) (by linarith [pi_gt])
  rw [slCore22_eq]
  push_cast at h; exact h

theorem Sl_22 {F : Type} [FOps F] (x : F) : Sl 22 x = pure ((FOps.lit 1 : F) *. slCore22 (reduceAbs (FOps.lit 3.14159265358979324 : F) (FOps.lit 0.0019353071795864769253 : F) x)) := rfl

/-- the expression of `Sl(23, x)` -/
def slCore23 {F : Type} [FOps F] (x : F) : F :=
  let x2 := x *. x
  x *. ((FOps.lit 1.00000023845050272773299000364796200809 : F) +. x2 *. (∸(FOps.lit 0.16666682566033897879935219201095767162 : F) +. x2 *. ((FOps.lit 0.00833336514411054166533213718024137805 : F) +. x2 *. (∸(FOps.lit 0.00019841573060702552616502630386659459 : F) +. x2 *. ((FOps.lit 2.75590070583955771833459696071741e-6 : F) +. x2 *. (∸(FOps.lit 2.505827337244739178237328638688e-8 : F) +. x2 *. ((FOps.lit 1.6075015762398257692300400842e-10 : F) +. x2 *. (∸(FOps.lit 7.678343942258447168543761182819578413904206358e-13 : F) +. x2 *. ((FOps.lit 2.8602165317742643202564599923006004284098087e-15 : F) +. x2 *. (∸(FOps.lit 8.8973845232862045581109153976573338288322e-18 : F) +. ((FOps.lit 3.21961975435848371348112389420493136549e-20 : F) +. (∸(FOps.lit 1.397504723952181405528419625254973597e-21 : F) +. (FOps.lit 1.93408508531534201885845596576140617e-23 : F) *. x) *. x) *. x2))))))))))
def slL23 : List (ℤ × ℚ) := [(0, 0), (1, 1.00000023845050272773299000364796200809), (0, 0), (-1, 0.16666682566033897879935219201095767162), (0, 0), (1, 0.00833336514411054166533213718024137805), (0, 0), (-1, 0.00019841573060702552616502630386659459), (0, 0), (1, 2.75590070583955771833459696071741e-6), (0, 0), (-1, 2.505827337244739178237328638688e-8), (0, 0), (1, 1.6075015762398257692300400842e-10), (0, 0), (-1, 7.678343942258447168543761182819578413904206358e-13), (0, 0), (1, 2.8602165317742643202564599923006004284098087e-15), (0, 0), (-1, 8.8973845232862045581109153976573338288322e-18), (0, 0), (1, 3.21961975435848371348112389420493136549e-20), (-1, 1.397504723952181405528419625254973597e-21), (1, 1.93408508531534201885845596576140617e-23)]
theorem slCore23_eq (x : R S) : ofR (slCore23 x) = lv S slL23 (ofR x) := by
  simp only [slCore23, slL23, lv, ofR_add, ofR_sub, ofR_mul, ofR_neg, ofR_lit, Int.cast_neg, Int.cast_one, Int.cast_zero]
  ring
theorem slCert23 : slCert slL23 11 1 22 3.1417 19e-29 12 = true := by decide +kernel
theorem slAcc23 {u : ℝ} (hS : S.Lit u) (r : R S) (h0 : 0 ≤ ofR r) (h1 : ofR r ≤ 3.1417) :
    |ofR (slCore23 r) - glaisher 23 (ofR r)| ≤ 19e-29 + 12 * u := by
  have h := sl_poly hS slCert23 (by norm_num) (by norm_num) (by norm_num) (by norm_num) h0 (by push_cast; exact h1) (by linarith [pi_gt])
  rw [slCore23_eq]
  push_cast at h; exact h

theorem Sl_23 {F : Type} [FOps F] (x : F) : Sl 23 x = pure (
    let xs := reduceSgn (FOps.lit 3.14159265358979324 : F) (FOps.lit 0.0019353071795864769253 : F) x
    if xs.1 ==. (FOps.lit 0 : F) then xs.1 else xs.2 *. slCore23 xs.1) := by
  exact (apply_ite (pure : F → M F) _ _ _).symm

/-- the expression of `Sl(24, x)` -/
def slCore24 {F : Type} [FOps F] (x : F) : F :=
  let x2 := x *. x
  (FOps.lit 1.00000005960818905125947961244022532705 : F) +. x2 *. (∸(FOps.lit 0.50000011922525136386649500182398100405 : F) +. x2 *. ((FOps.lit 0.04166670641508474469983804800148527986 : F) +. x2 *. (∸(FOps.lit 0.00138889419068509027755535619670689634 : F) +. x2 *. ((FOps.lit 0.00002480196632587819077062828798332432 : F) +. x2 *. (∸(FOps.lit 2.7559007058395577183345969607174e-7 : F) +. x2 *. ((FOps.lit 2.08818944770394931519777386557e-9 : F) +. x2 *. (∸(FOps.lit 1.148215411599875549450028632e-11 : F) +. x2 *. ((FOps.lit 4.79896496391152948033985073926223650869004394e-14 : F) +. x2 *. (∸(FOps.lit 1.589009184319035733475811106833666904671266e-16 : F) +. x2 *. ((FOps.lit 4.448692261643102279055457698828666914377e-19 : F) +. (∸(FOps.lit 1.4634635247084016879459654064567869849e-21 : F) +. ((FOps.lit 6.0761074954442669805583461967607548e-23 : F) -. (FOps.lit 8.058687855480591745243566524005859e-25 : F) *. x) *. x) *. x2))))))))))
def slL24 : List (ℤ × ℚ) := [(1, 1.00000005960818905125947961244022532705), (0, 0), (-1, 0.50000011922525136386649500182398100405), (0, 0), (1, 0.04166670641508474469983804800148527986), (0, 0), (-1, 0.00138889419068509027755535619670689634), (0, 0), (1, 0.00002480196632587819077062828798332432), (0, 0), (-1, 2.7559007058395577183345969607174e-7), (0, 0), (1, 2.08818944770394931519777386557e-9), (0, 0), (-1, 1.148215411599875549450028632e-11), (0, 0), (1, 4.79896496391152948033985073926223650869004394e-14), (0, 0), (-1, 1.589009184319035733475811106833666904671266e-16), (0, 0), (1, 4.448692261643102279055457698828666914377e-19), (0, 0), (-1, 1.4634635247084016879459654064567869849e-21), (1, 6.0761074954442669805583461967607548e-23), (-1, 8.058687855480591745243566524005859e-25)]
theorem slCore24_eq (x : R S) : ofR (slCore24 x) = lv S slL24 (ofR x) := by
  simp only [slCore24, slL24, lv, ofR_add, ofR_sub, ofR_mul, ofR_neg, ofR_lit, Int.cast_neg, Int.cast_one, Int.cast_zero]
  ring
theorem slCert24 : slCert slL24 12 0 23 3.1417 48e-30 12 = true := by decide +kernel
theorem slAcc24 {u : ℝ} (hS : S.Lit u) (r : R S) (h0 : 0 ≤ ofR r) (h1 : ofR r ≤ 3.1417) :
    |ofR (slCore24 r) - glaisher 24 (ofR r)| ≤ 48e-30 + 12 * u := by
  have h := sl_poly hS slCert24 (by norm_num) (by norm_num) (by norm_num) (by norm_num) h0 (by push_cast; exact h1) (by linarith [pi_gt])
  rw [slCore24_eq]
  push_cast at h; exact h

theorem Sl_24 {F : Type} [FOps F] (x : F) : Sl 24 x = pure ((FOps.lit 1 : F) *. slCore24 (reduceAbs (FOps.lit 3.14159265358979324 : F) (FOps.lit 0.0019353071795864769253 : F) x)) := rfl

/-- the expression of `Sl(25, x)` -/
def slCore25 {F : Type} [FOps F] (x : F) : F :=
  let x2 := x *. x
  x *. ((FOps.lit 1.00000005960818905125947961244022532705 : F) +. x2 *. (∸(FOps.lit 0.16666670640841712128883166727466033468 : F) +. x2 *. ((FOps.lit 0.00833334128301694893996760960029705597 : F) +. x2 *. (∸(FOps.lit 0.00019841345581215575393647945667241376 : F) +. x2 *. ((FOps.lit 2.75577403620868786340314310925826e-6 : F) +. x2 *. (∸(FOps.lit 2.505364278035961562122360873379e-8 : F) +. x2 *. ((FOps.lit 1.6062995751568840886136722043e-10 : F) +. x2 *. (∸(FOps.lit 7.654769410665836996333524210366101004611481858e-13 : F) +. x2 *. ((FOps.lit 2.822920567006782047258735728977786181582112e-15 : F) +. x2 *. (∸(FOps.lit 8.3632062332580828077674268780719310772978e-18 : F) +. x2 *. ((FOps.lit 2.11842488649671537097878938039460329257e-20 : F) +. (∸(FOps.lit 6.3628848900365290780259365498121174e-23 : F) +. ((FOps.lit 2.5317114564351112418993109153169811e-24 : F) -. (FOps.lit 3.22347514219223669809742660960235e-26 : F) *. x) *. x) *. x2)))))))))))
def slL25 : List (ℤ × ℚ) := [(0, 0), (1, 1.00000005960818905125947961244022532705), (0, 0), (-1, 0.16666670640841712128883166727466033468), (0, 0), (1, 0.00833334128301694893996760960029705597), (0, 0), (-1, 0.00019841345581215575393647945667241376), (0, 0), (1, 2.75577403620868786340314310925826e-6), (0, 0), (-1, 2.505364278035961562122360873379e-8), (0, 0), (1, 1.6062995751568840886136722043e-10), (0, 0), (-1, 7.654769410665836996333524210366101004611481858e-13), (0, 0), (1, 2.822920567006782047258735728977786181582112e-15), (0, 0), (-1, 8.3632062332580828077674268780719310772978e-18), (0, 0), (1, 2.11842488649671537097878938039460329257e-20), (0, 0), (-1, 6.3628848900365290780259365498121174e-23), (1, 2.5317114564351112418993109153169811e-24), (-1, 3.22347514219223669809742660960235e-26)]
theorem slCore25_eq (x : R S) : ofR (slCore25 x) = lv S slL25 (ofR x) := by
  simp only [slCore25, slL25, lv, ofR_add, ofR_sub, ofR_mul, ofR_neg, ofR_lit, Int.cast_neg, Int.cast_one, Int.cast_zero]
  ring
theorem slCert25 : slCert slL25 12 1 24 3.1417 59e-30 12 = true := by decide +kernel
theorem slAcc25 {u : ℝ} (hS : S.Lit u) (r : R S) (h0 : 0 ≤ ofR r) (h1 : ofR r ≤ 3.1417) :
    |ofR (slCore25 r) - glaisher 25 (ofR r)| ≤ 59e-30 + 12 * u := by
  have h := sl_poly hS slCert25 (by norm_num) (by norm_num) (by norm_num) (by norm_num) h0 (by push_cast; exact h1) (by linarith [pi_gt])
  rw [slCore25_eq]
  push_cast at h; exact h

theorem Sl_25 {F : Type} [FOps F] (x : F) : Sl 25 x = pure (
    let xs := reduceSgn (FOps.lit 3.14159265358979324 : F) (FOps.lit 0.0019353071795864769253 : F) x
    if xs.1 ==. (FOps.lit 0 : F) then xs.1 else xs.2 *. slCore25 xs.1) := by
  exact (apply_ite (pure : F → M F) _ _ _).symm

end Polylog
