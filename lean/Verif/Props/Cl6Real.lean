import Verif.Props.ClGen
import Verif.Model.Cl6

/-! # Accuracy of `Cl6` (generated by tools/cl/gencl3.py) -/

noncomputable section
namespace Polylog
set_option linter.style.longLine false

section
variable {F : Type} [FOps F]
/-- numeric literal -/
local notation:max "♯" q:max => (FOps.lit (q : ℚ) : F)

/-- polynomial of `Cl6d` -/
def cl6dloPe (y : F) : F :=
  let y2 := y *. y
  ♯(cl6dloP[0]) +. y *. ♯(cl6dloP[1]) +. y2 *. (♯(cl6dloP[2]) +. y *. ♯(cl6dloP[3]))
/-- polynomial of `Cl6d` -/
def cl6dloQe (y : F) : F :=
  let y2 := y *. y
  ♯(cl6dloQ[0]) +. y *. ♯(cl6dloQ[1]) +. y2 *. (♯(cl6dloQ[2]) +. y *. ♯(cl6dloQ[3]))
/-- polynomial of `Cl6d` -/
def cl6dhiPe (z : F) : F :=
  let z2 := z *. z
  let z4 := z2 *. z2
  ♯(cl6dhiP[0]) +. z *. ♯(cl6dhiP[1]) +. z2 *. (♯(cl6dhiP[2]) +. z *. ♯(cl6dhiP[3])) +. z4 *. ♯(cl6dhiP[4])
/-- polynomial of `Cl6d` -/
def cl6dhiQe (z : F) : F :=
  let z2 := z *. z
  let z4 := z2 *. z2
  ♯(cl6dhiQ[0]) +. z *. ♯(cl6dhiQ[1]) +. z2 *. (♯(cl6dhiQ[2]) +. z *. ♯(cl6dhiQ[3])) +. z4 *. (♯(cl6dhiQ[4]) +. z *. ♯(cl6dhiQ[5]))
/-- low branch of `Cl6d` -/
def cl6dLo (x : F) : F :=
  x *. ((cl6dloPe (x *. x)) /. (cl6dloQe (x *. x)) -. ♯1 /. ♯120 *. (x *. x *. (x *. x)) *. (xlog x))
/-- high branch of `Cl6d` -/
def cl6dHi (x : F) : F :=
  let PI : F := ♯3.14159265358979324
  let PI28 := PI *. PI /. ♯8
  (PI -. x) *. cl6dhiPe ((PI -. x) *. (PI -. x) -. PI28) /. cl6dhiQe ((PI -. x) *. (PI -. x) -. PI28)
theorem Cl6d_split (x : F) : Cl6d x =
  (let PI : F := ♯3.14159265358979324
   let xs := reduceSgn PI ♯0.0019353071795864769253 x
   if xs.1 ==. ♯0 then xs.1 else if xs.1 ==. PI then ♯0 else if xs.1 <. PI /. ♯2 then xs.2 *. cl6dLo xs.1 else xs.2 *. cl6dHi xs.1) := rfl

/-- polynomial of `Cl6l` -/
def cl6lloPe (y : F) : F :=
  let y2 := y *. y
  let y4 := y2 *. y2
  let y8 := y4 *. y4
  ♯(cl6lloP[0]) +. y *. ♯(cl6lloP[1]) +. y2 *. (♯(cl6lloP[2]) +. y *. ♯(cl6lloP[3])) +. y4 *. (♯(cl6lloP[4]) +. y *. ♯(cl6lloP[5]) +. y2 *. (♯(cl6lloP[6]) +. y *. ♯(cl6lloP[7])))
/-- polynomial of `Cl6l` -/
def cl6lloQe (y : F) : F :=
  let y2 := y *. y
  let y4 := y2 *. y2
  let y8 := y4 *. y4
  ♯(cl6lloQ[0]) +. y *. ♯(cl6lloQ[1]) +. y2 *. (♯(cl6lloQ[2]) +. y *. ♯(cl6lloQ[3])) +. y4 *. (♯(cl6lloQ[4]) +. y *. ♯(cl6lloQ[5]) +. y2 *. (♯(cl6lloQ[6]) +. y *. ♯(cl6lloQ[7]))) +. y8 *. ♯(cl6lloQ[8])
/-- polynomial of `Cl6l` -/
def cl6lhiPe (z : F) : F :=
  let z2 := z *. z
  let z4 := z2 *. z2
  let z8 := z4 *. z4
  let z16 := z8 *. z8
  ♯(cl6lhiP[0]) +. z *. ♯(cl6lhiP[1]) +. z2 *. (♯(cl6lhiP[2]) +. z *. ♯(cl6lhiP[3])) +. z4 *. (♯(cl6lhiP[4]) +. z *. ♯(cl6lhiP[5]) +. z2 *. (♯(cl6lhiP[6]) +. z *. ♯(cl6lhiP[7]))) +. z8 *. (♯(cl6lhiP[8]) +. z *. ♯(cl6lhiP[9]) +. z2 *. (♯(cl6lhiP[10]) +. z *. ♯(cl6lhiP[11])) +. z4 *. (♯(cl6lhiP[12]) +. z *. ♯(cl6lhiP[13]) +. z2 *. (♯(cl6lhiP[14]) +. z *. ♯(cl6lhiP[15])))) +. z16 *. (♯(cl6lhiP[16]) +. z *. ♯(cl6lhiP[17]) +. z2 *. (♯(cl6lhiP[18]) +. z *. ♯(cl6lhiP[19])) +. z4 *. (♯(cl6lhiP[20]) +. z *. ♯(cl6lhiP[21]) +. z2 *. ♯(cl6lhiP[22])))
/-- polynomial of `Cl6l` -/
def cl6lhiQe (z : F) : F :=
  let z2 := z *. z
  let z4 := z2 *. z2
  let z8 := z4 *. z4
  let z16 := z8 *. z8
  ♯(cl6lhiQ[0]) +. z *. ♯(cl6lhiQ[1]) +. z2 *. (♯(cl6lhiQ[2]) +. z *. ♯(cl6lhiQ[3])) +. z4 *. (♯(cl6lhiQ[4]) +. z *. ♯(cl6lhiQ[5]) +. z2 *. (♯(cl6lhiQ[6]) +. z *. ♯(cl6lhiQ[7]))) +. z8 *. (♯(cl6lhiQ[8]) +. z *. ♯(cl6lhiQ[9]) +. z2 *. (♯(cl6lhiQ[10]) +. z *. ♯(cl6lhiQ[11])) +. z4 *. (♯(cl6lhiQ[12]) +. z *. ♯(cl6lhiQ[13]) +. z2 *. (♯(cl6lhiQ[14]) +. z *. ♯(cl6lhiQ[15])))) +. z16 *. (♯(cl6lhiQ[16]) +. z *. ♯(cl6lhiQ[17]) +. z2 *. (♯(cl6lhiQ[18]) +. z *. ♯(cl6lhiQ[19])) +. z4 *. (♯(cl6lhiQ[20]) +. z *. ♯(cl6lhiQ[21]) +. z2 *. ♯(cl6lhiQ[22])))
/-- low branch of `Cl6l` -/
def cl6lLo (x : F) : F :=
  x *. ((cl6lloPe (x *. x)) /. (cl6lloQe (x *. x)) -. ♯1 /. ♯120 *. (x *. x *. (x *. x)) *. (xlog x))
/-- high branch of `Cl6l` -/
def cl6lHi (x : F) : F :=
  let PI : F := ♯3.14159265358979323846264338327950288
  let PI28 := PI *. PI /. ♯8
  (PI -. x) *. cl6lhiPe ((PI -. x) *. (PI -. x) -. PI28) /. cl6lhiQe ((PI -. x) *. (PI -. x) -. PI28)
theorem Cl6l_split (x : F) : Cl6l x =
  (let PI : F := ♯3.14159265358979323846264338327950288
   let xs := reduceSgn PI ♯0.0019353071795864769252867665590057683943 x
   if xs.1 ==. ♯0 then xs.1 else if xs.1 ==. PI then ♯0 else if xs.1 <. PI /. ♯2 then xs.2 *. cl6lLo xs.1 else xs.2 *. cl6lHi xs.1) := rfl

end

variable {S : RealSem}

theorem cl6dloPe_R (z : R S) : ofR (cl6dloPe z) = rv S cl6dloP (ofR z) := by
  simp [cl6dloPe, rsem, rv, Fin.sum_univ_succ]; ring
theorem cl6dloQe_R (z : R S) : ofR (cl6dloQe z) = rv S cl6dloQ (ofR z) := by
  simp [cl6dloQe, rsem, rv, Fin.sum_univ_succ]; ring
theorem cl6dhiPe_R (z : R S) : ofR (cl6dhiPe z) = rv S cl6dhiP (ofR z) := by
  simp [cl6dhiPe, rsem, rv, Fin.sum_univ_succ]; ring
theorem cl6dhiQe_R (z : R S) : ofR (cl6dhiQe z) = rv S cl6dhiQ (ofR z) := by
  simp [cl6dhiQe, rsem, rv, Fin.sum_univ_succ]; ring

theorem cl6dLoQ_pos {u : ℝ} (hS : S.Lit u) (hu : u ≤ 1e-6) {r : R S} (h0 : 0 < ofR r) (h1 : ofR r < ofR (FOps.lit 3.14159265358979324 : R S) / 2) :
    0 < ofR (cl6dloQe (r *. r)) := by
  have hu0 := hS.u_nonneg
  have hd := PId hS
  obtain ⟨f, hf, hc, hy0, hy1, hr1, hz, hη⟩ := lo_branch 2 1 (by norm_num) hd (by linarith) h0 h1
  obtain ⟨hq, -⟩ := apx_cl6dlo hS (by linarith) hy0 hy1 hf
  have hzR : ofR (r *. r) = ofR r * ofR r := ofR_mul _ _
  rw [cl6dloQe_R, hzR]; exact hq

theorem cl6dLo_acc {u : ℝ} (hS : S.Lit u) (hu : u ≤ 1e-6) {r : R S} (h0 : 0 < ofR r) (h1 : ofR r < ofR (FOps.lit 3.14159265358979324 : R S) / 2) :
    |ofR (cl6dLo r) - clausen (2 * 2 + 1 + 1) (ofR r)| ≤ 411e-18 + 126e-1 * u := by
  have hu0 := hS.u_nonneg
  have hd := PId hS
  obtain ⟨f, hf, hc, hy0, hy1, hr1, hz, hη⟩ := lo_branch 2 1 (by norm_num) hd (by linarith) h0 h1
  obtain ⟨hq, ha⟩ := apx_cl6dlo hS (by linarith) hy0 hy1 hf
  have hzR : ofR (r *. r) = ofR r * ofR r := ofR_mul _ _
  have hq0 : ofR (cl6dloQe (r *. r)) ≠ 0 := by rw [cl6dloQe_R, hzR]; exact hq.ne'
  have ev : ofR (cl6dLo r) = _ := lo6_R hS r (r *. r) (cl6dloPe (r *. r)) (cl6dloQe (r *. r)) h0 hq0
  rw [ev, hc, cl6dloPe_R, cl6dloQe_R, hzR]
  generalize rv S cl6dloP (ofR r * ofR r) / rv S cl6dloQ (ofR r * ofR r) = A at *
  generalize Real.log (ofR r) = l at *
  clear ev hq0 hzR hq hf 
  generalize ofR r = x at *
  have e : x * (A - 1 / 120 * (x * x * (x * x)) * l) - x ^ 1 * (f - (-1) ^ 2 * (x ^ 2) ^ 2 / (2 * 2 + 1).factorial * l) = x * (A - f) := by
    norm_num [Nat.factorial]
    field_simp
    try ring
  rw [e]
  rw [abs_mul, abs_of_pos h0]
  refine (mul_le_mul hr1 ha (abs_nonneg _) (by norm_num)).trans ?_
  linarith

theorem cl6dHiQ_pos {u : ℝ} (hS : S.Lit u) (hu : u ≤ 1e-6) {r : R S} (h1 : ofR (FOps.lit 3.14159265358979324 : R S) / 2 ≤ ofR r) (h2 : ofR r ≤ ofR (FOps.lit 3.14159265358979324 : R S) + 1e-4) :
    0 < ofR (cl6dhiQe (((FOps.lit 3.14159265358979324 : R S) -. r) *. ((FOps.lit 3.14159265358979324 : R S) -. r) -. (FOps.lit 3.14159265358979324 : R S) *. (FOps.lit 3.14159265358979324 : R S) /. (FOps.lit 8 : R S))) := by
  have hu0 := hS.u_nonneg
  have hd := PId hS
  obtain ⟨f, hf, hc, hy0, hy1, hr1, hz, hη⟩ := hi_branch 2 1 (by norm_num) (by norm_num) hd (by linarith) (by linarith) h2
  obtain ⟨hq, -⟩ := apx_cl6dhi hS (by linarith) hz hη hy0 hy1 hf
  have hzR : ofR (((FOps.lit 3.14159265358979324 : R S) -. r) *. ((FOps.lit 3.14159265358979324 : R S) -. r) -. (FOps.lit 3.14159265358979324 : R S) *. (FOps.lit 3.14159265358979324 : R S) /. (FOps.lit 8 : R S)) = (ofR (FOps.lit 3.14159265358979324 : R S) - ofR r) * (ofR (FOps.lit 3.14159265358979324 : R S) - ofR r) - ofR (FOps.lit 3.14159265358979324 : R S) * ofR (FOps.lit 3.14159265358979324 : R S) / 8 := by
    rw [ofR_sub, ofR_mul, sq8_R hS, ofR_sub]
  rw [cl6dhiQe_R, hzR]; exact hq

theorem cl6dHi_acc {u : ℝ} (hS : S.Lit u) (hu : u ≤ 1e-6) {r : R S} (h1 : ofR (FOps.lit 3.14159265358979324 : R S) / 2 - 1e-6 ≤ ofR r) (h2 : ofR r ≤ ofR (FOps.lit 3.14159265358979324 : R S) + 1e-4) :
    (ofR r = ofR (FOps.lit 3.14159265358979324 : R S) → ofR (cl6dHi r) = 0) ∧ |ofR (cl6dHi r) - clausen (2 * 2 + 1 + 1) (ofR r)| ≤ 255e-19 + 175e-1 * u := by
  have hu0 := hS.u_nonneg
  have hd := PId hS
  obtain ⟨f, hf, hc, hy0, hy1, hr1, hz, hη⟩ := hi_branch 2 1 (by norm_num) (by norm_num) hd (by linarith) h1 h2
  obtain ⟨hq, ha, hF⟩ := apx_cl6dhi hS (by linarith) hz hη hy0 hy1 hf
  have hzR : ofR (((FOps.lit 3.14159265358979324 : R S) -. r) *. ((FOps.lit 3.14159265358979324 : R S) -. r) -. (FOps.lit 3.14159265358979324 : R S) *. (FOps.lit 3.14159265358979324 : R S) /. (FOps.lit 8 : R S)) = (ofR (FOps.lit 3.14159265358979324 : R S) - ofR r) * (ofR (FOps.lit 3.14159265358979324 : R S) - ofR r) - ofR (FOps.lit 3.14159265358979324 : R S) * ofR (FOps.lit 3.14159265358979324 : R S) / 8 := by
    rw [ofR_sub, ofR_mul, sq8_R hS, ofR_sub]
  have hq0 : ofR (cl6dhiQe (((FOps.lit 3.14159265358979324 : R S) -. r) *. ((FOps.lit 3.14159265358979324 : R S) -. r) -. (FOps.lit 3.14159265358979324 : R S) *. (FOps.lit 3.14159265358979324 : R S) /. (FOps.lit 8 : R S))) ≠ 0 := by rw [cl6dhiQe_R, hzR]; exact hq.ne'
  have ev : ofR (cl6dHi r) = _ := hiE_R ((FOps.lit 3.14159265358979324 : R S) -. r) (cl6dhiPe (((FOps.lit 3.14159265358979324 : R S) -. r) *. ((FOps.lit 3.14159265358979324 : R S) -. r) -. (FOps.lit 3.14159265358979324 : R S) *. (FOps.lit 3.14159265358979324 : R S) /. (FOps.lit 8 : R S))) (cl6dhiQe (((FOps.lit 3.14159265358979324 : R S) -. r) *. ((FOps.lit 3.14159265358979324 : R S) -. r) -. (FOps.lit 3.14159265358979324 : R S) *. (FOps.lit 3.14159265358979324 : R S) /. (FOps.lit 8 : R S))) hq0
  rw [cl6dhiPe_R, cl6dhiQe_R, hzR, ofR_sub] at ev
  refine ⟨fun h => by rw [ev, h, sub_self, zero_mul], ?_⟩
  rw [ev, hc, pow_one]
  have hdd : |ofR (FOps.lit 3.14159265358979324 : R S) - ofR r - (Real.pi - ofR r)| ≤ 1.6e-18 + 3.15 * u := by rw [sub_sub_sub_cancel_right]; exact hd
  refine (hi_even ha hr1 hdd hF).trans ?_
  linarith

/-- `Cl6d`, every argument; `⌊|x| / (2 PI)⌋` is the number of periods subtracted by `fmod` -/
theorem Cl6d_acc {u : ℝ} (hS : S.Lit u) (hu : u ≤ 1e-6) (x : ℝ)
    (hw : wrap (ofR (FOps.lit 3.14159265358979324 : R S)) x ≤ 6.28125 + ofR (FOps.lit 0.0019353071795864769253 : R S)) :
    |ofR (Cl6d (toR S x)) - clausen 6 x| ≤ 411e-18 + 18 * u
      + (2 * (1.4e-23 + 0.002 * u + 2 * (1.6e-18 + 3.15 * u) * ⌊|x| / (2 * ofR (FOps.lit 3.14159265358979324 : R S))⌋₊) + 0) := by
  have hu0 := hS.u_nonneg
  have hd := PId hS
  have he := P1d hS
  have hpi := pi_gt
  have hP3 : 3 ≤ ofR (FOps.lit 3.14159265358979324 : R S) := by have := (abs_le.mp hd).1; linarith
  rw [Cl6d_split]
  dsimp only
  have hr := reduceAbs_R hS (PI := (FOps.lit 3.14159265358979324 : R S)) (p1 := (FOps.lit 0.0019353071795864769253 : R S)) (x := toR S x) (by linarith)
  rw [← reduceSgn_R_fst] at hr
  have hs := reduceSgn_R_snd hS (PI := (FOps.lit 3.14159265358979324 : R S)) (p1 := (FOps.lit 0.0019353071795864769253 : R S)) (x := toR S x) (by linarith)
  obtain ⟨r0, r1, ht⟩ := reduce_spec 2 1 (by norm_num) (by norm_num) hP3 hd he hr rfl hw
  have hab := sgn_abs (ofR (toR S x) < 0) (ofR (FOps.lit 3.14159265358979324 : R S) < wrap (ofR (FOps.lit 3.14159265358979324 : R S)) (ofR (toR S x))) 1
  rw [pow_one, ← hs] at ht hab
  generalize reduceSgn (FOps.lit 3.14159265358979324 : R S) (FOps.lit 0.0019353071795864769253 : R S) (toR S x) = xs at *
  have key : ∃ c, ofR (if xs.1 ==. (FOps.lit 0 : R S) then xs.1 else if xs.1 ==. (FOps.lit 3.14159265358979324 : R S) then (FOps.lit 0 : R S) else if xs.1 <. (FOps.lit 3.14159265358979324 : R S) /. (FOps.lit 2 : R S) then xs.2 *. cl6dLo xs.1 else xs.2 *. cl6dHi xs.1) = ofR xs.2 * c
      ∧ |c - clausen (2 * 2 + 1 + 1) (ofR xs.1)| ≤ 411e-18 + 18 * u := by
    simp only [eq_R, lt_R, lit0 hS, half_R hS, decide_eq_true_eq]
    split_ifs with c1 c2 c3
    · refine ⟨0, by rw [c1, mul_zero], ?_⟩
      rw [c1, clausen_even_zero, sub_zero, abs_zero]; positivity
    · obtain ⟨g1, g2⟩ := cl6dHi_acc hS hu (r := xs.1) (by rw [c2]; linarith) (by linarith)
      refine ⟨0, by rw [lit0 hS, mul_zero], ?_⟩
      rw [← g1 c2]; exact g2.trans (by linarith)
    · have g := cl6dLo_acc hS hu (r := xs.1) (lt_of_le_of_ne r0 (Ne.symm c1)) c3
      exact ⟨_, ofR_mul _ _, g.trans (by linarith)⟩
    · obtain ⟨g1, g2⟩ := cl6dHi_acc hS hu (r := xs.1) (by linarith) (by linarith)
      exact ⟨_, ofR_mul _ _, g2.trans (by linarith)⟩
  obtain ⟨c, hc1, hc2⟩ := key
  exact cl_final 2 1 hab hc1 hc2 (fun a b => le_of_le_of_eq (clausen_lip 2 1 (by norm_num) (by norm_num) a b) (add_zero _).symm) (by norm_num) ht
theorem cl6lloPe_R (z : R S) : ofR (cl6lloPe z) = rv S cl6lloP (ofR z) := by
  simp [cl6lloPe, rsem, rv, Fin.sum_univ_succ]; ring
theorem cl6lloQe_R (z : R S) : ofR (cl6lloQe z) = rv S cl6lloQ (ofR z) := by
  simp [cl6lloQe, rsem, rv, Fin.sum_univ_succ]; ring
theorem cl6lhiPe_R (z : R S) : ofR (cl6lhiPe z) = rv S cl6lhiP (ofR z) := by
  simp [cl6lhiPe, rsem, rv, Fin.sum_univ_succ]; ring
theorem cl6lhiQe_R (z : R S) : ofR (cl6lhiQe z) = rv S cl6lhiQ (ofR z) := by
  simp [cl6lhiQe, rsem, rv, Fin.sum_univ_succ]; ring

theorem cl6lLoQ_pos {u : ℝ} (hS : S.Lit u) (hu : u ≤ 1e-6) {r : R S} (h0 : 0 < ofR r) (h1 : ofR r < ofR (FOps.lit 3.14159265358979323846264338327950288 : R S) / 2) :
    0 < ofR (cl6lloQe (r *. r)) := by
  have hu0 := hS.u_nonneg
  have hd := PIl hS
  obtain ⟨f, hf, hc, hy0, hy1, hr1, hz, hη⟩ := lo_branch 2 1 (by norm_num) hd (by linarith) h0 h1
  obtain ⟨hq, -⟩ := apx_cl6llo hS (by linarith) hy0 hy1 hf
  have hzR : ofR (r *. r) = ofR r * ofR r := ofR_mul _ _
  rw [cl6lloQe_R, hzR]; exact hq

theorem cl6lLo_acc {u : ℝ} (hS : S.Lit u) (hu : u ≤ 1e-6) {r : R S} (h0 : 0 < ofR r) (h1 : ofR r < ofR (FOps.lit 3.14159265358979323846264338327950288 : R S) / 2) :
    |ofR (cl6lLo r) - clausen (2 * 2 + 1 + 1) (ofR r)| ≤ 142e-40 + 158e-1 * u := by
  have hu0 := hS.u_nonneg
  have hd := PIl hS
  obtain ⟨f, hf, hc, hy0, hy1, hr1, hz, hη⟩ := lo_branch 2 1 (by norm_num) hd (by linarith) h0 h1
  obtain ⟨hq, ha⟩ := apx_cl6llo hS (by linarith) hy0 hy1 hf
  have hzR : ofR (r *. r) = ofR r * ofR r := ofR_mul _ _
  have hq0 : ofR (cl6lloQe (r *. r)) ≠ 0 := by rw [cl6lloQe_R, hzR]; exact hq.ne'
  have ev : ofR (cl6lLo r) = _ := lo6_R hS r (r *. r) (cl6lloPe (r *. r)) (cl6lloQe (r *. r)) h0 hq0
  rw [ev, hc, cl6lloPe_R, cl6lloQe_R, hzR]
  generalize rv S cl6lloP (ofR r * ofR r) / rv S cl6lloQ (ofR r * ofR r) = A at *
  generalize Real.log (ofR r) = l at *
  clear ev hq0 hzR hq hf 
  generalize ofR r = x at *
  have e : x * (A - 1 / 120 * (x * x * (x * x)) * l) - x ^ 1 * (f - (-1) ^ 2 * (x ^ 2) ^ 2 / (2 * 2 + 1).factorial * l) = x * (A - f) := by
    norm_num [Nat.factorial]
    field_simp
    try ring
  rw [e]
  rw [abs_mul, abs_of_pos h0]
  refine (mul_le_mul hr1 ha (abs_nonneg _) (by norm_num)).trans ?_
  linarith

theorem cl6lHiQ_pos {u : ℝ} (hS : S.Lit u) (hu : u ≤ 1e-6) {r : R S} (h1 : ofR (FOps.lit 3.14159265358979323846264338327950288 : R S) / 2 ≤ ofR r) (h2 : ofR r ≤ ofR (FOps.lit 3.14159265358979323846264338327950288 : R S) + 1e-4) :
    0 < ofR (cl6lhiQe (((FOps.lit 3.14159265358979323846264338327950288 : R S) -. r) *. ((FOps.lit 3.14159265358979323846264338327950288 : R S) -. r) -. (FOps.lit 3.14159265358979323846264338327950288 : R S) *. (FOps.lit 3.14159265358979323846264338327950288 : R S) /. (FOps.lit 8 : R S))) := by
  have hu0 := hS.u_nonneg
  have hd := PIl hS
  obtain ⟨f, hf, hc, hy0, hy1, hr1, hz, hη⟩ := hi_branch 2 1 (by norm_num) (by norm_num) hd (by linarith) (by linarith) h2
  obtain ⟨hq, -⟩ := apx_cl6lhi hS (by linarith) hz hη hy0 hy1 hf
  have hzR : ofR (((FOps.lit 3.14159265358979323846264338327950288 : R S) -. r) *. ((FOps.lit 3.14159265358979323846264338327950288 : R S) -. r) -. (FOps.lit 3.14159265358979323846264338327950288 : R S) *. (FOps.lit 3.14159265358979323846264338327950288 : R S) /. (FOps.lit 8 : R S)) = (ofR (FOps.lit 3.14159265358979323846264338327950288 : R S) - ofR r) * (ofR (FOps.lit 3.14159265358979323846264338327950288 : R S) - ofR r) - ofR (FOps.lit 3.14159265358979323846264338327950288 : R S) * ofR (FOps.lit 3.14159265358979323846264338327950288 : R S) / 8 := by
    rw [ofR_sub, ofR_mul, sq8_R hS, ofR_sub]
  rw [cl6lhiQe_R, hzR]; exact hq

theorem cl6lHi_acc {u : ℝ} (hS : S.Lit u) (hu : u ≤ 1e-6) {r : R S} (h1 : ofR (FOps.lit 3.14159265358979323846264338327950288 : R S) / 2 - 1e-6 ≤ ofR r) (h2 : ofR r ≤ ofR (FOps.lit 3.14159265358979323846264338327950288 : R S) + 1e-4) :
    (ofR r = ofR (FOps.lit 3.14159265358979323846264338327950288 : R S) → ofR (cl6lHi r) = 0) ∧ |ofR (cl6lHi r) - clausen (2 * 2 + 1 + 1) (ofR r)| ≤ 301e-28 + 2230 * u := by
  have hu0 := hS.u_nonneg
  have hd := PIl hS
  obtain ⟨f, hf, hc, hy0, hy1, hr1, hz, hη⟩ := hi_branch 2 1 (by norm_num) (by norm_num) hd (by linarith) h1 h2
  obtain ⟨hq, ha, hF⟩ := apx_cl6lhi hS (by linarith) hz hη hy0 hy1 hf
  have hzR : ofR (((FOps.lit 3.14159265358979323846264338327950288 : R S) -. r) *. ((FOps.lit 3.14159265358979323846264338327950288 : R S) -. r) -. (FOps.lit 3.14159265358979323846264338327950288 : R S) *. (FOps.lit 3.14159265358979323846264338327950288 : R S) /. (FOps.lit 8 : R S)) = (ofR (FOps.lit 3.14159265358979323846264338327950288 : R S) - ofR r) * (ofR (FOps.lit 3.14159265358979323846264338327950288 : R S) - ofR r) - ofR (FOps.lit 3.14159265358979323846264338327950288 : R S) * ofR (FOps.lit 3.14159265358979323846264338327950288 : R S) / 8 := by
    rw [ofR_sub, ofR_mul, sq8_R hS, ofR_sub]
  have hq0 : ofR (cl6lhiQe (((FOps.lit 3.14159265358979323846264338327950288 : R S) -. r) *. ((FOps.lit 3.14159265358979323846264338327950288 : R S) -. r) -. (FOps.lit 3.14159265358979323846264338327950288 : R S) *. (FOps.lit 3.14159265358979323846264338327950288 : R S) /. (FOps.lit 8 : R S))) ≠ 0 := by rw [cl6lhiQe_R, hzR]; exact hq.ne'
  have ev : ofR (cl6lHi r) = _ := hiE_R ((FOps.lit 3.14159265358979323846264338327950288 : R S) -. r) (cl6lhiPe (((FOps.lit 3.14159265358979323846264338327950288 : R S) -. r) *. ((FOps.lit 3.14159265358979323846264338327950288 : R S) -. r) -. (FOps.lit 3.14159265358979323846264338327950288 : R S) *. (FOps.lit 3.14159265358979323846264338327950288 : R S) /. (FOps.lit 8 : R S))) (cl6lhiQe (((FOps.lit 3.14159265358979323846264338327950288 : R S) -. r) *. ((FOps.lit 3.14159265358979323846264338327950288 : R S) -. r) -. (FOps.lit 3.14159265358979323846264338327950288 : R S) *. (FOps.lit 3.14159265358979323846264338327950288 : R S) /. (FOps.lit 8 : R S))) hq0
  rw [cl6lhiPe_R, cl6lhiQe_R, hzR, ofR_sub] at ev
  refine ⟨fun h => by rw [ev, h, sub_self, zero_mul], ?_⟩
  rw [ev, hc, pow_one]
  have hdd : |ofR (FOps.lit 3.14159265358979323846264338327950288 : R S) - ofR r - (Real.pi - ofR r)| ≤ 4.2e-36 + 3.15 * u := by rw [sub_sub_sub_cancel_right]; exact hd
  refine (hi_even ha hr1 hdd hF).trans ?_
  linarith

/-- `Cl6l`, every argument; `⌊|x| / (2 PI)⌋` is the number of periods subtracted by `fmod` -/
theorem Cl6l_acc {u : ℝ} (hS : S.Lit u) (hu : u ≤ 1e-6) (x : ℝ)
    (hw : wrap (ofR (FOps.lit 3.14159265358979323846264338327950288 : R S)) x ≤ 6.28125 + ofR (FOps.lit 0.0019353071795864769252867665590057683943 : R S)) :
    |ofR (Cl6l (toR S x)) - clausen 6 x| ≤ 301e-28 + 2230 * u
      + (2 * (5e-41 + 0.002 * u + 2 * (4.2e-36 + 3.15 * u) * ⌊|x| / (2 * ofR (FOps.lit 3.14159265358979323846264338327950288 : R S))⌋₊) + 0) := by
  have hu0 := hS.u_nonneg
  have hd := PIl hS
  have he := P1l hS
  have hpi := pi_gt
  have hP3 : 3 ≤ ofR (FOps.lit 3.14159265358979323846264338327950288 : R S) := by have := (abs_le.mp hd).1; linarith
  rw [Cl6l_split]
  dsimp only
  have hr := reduceAbs_R hS (PI := (FOps.lit 3.14159265358979323846264338327950288 : R S)) (p1 := (FOps.lit 0.0019353071795864769252867665590057683943 : R S)) (x := toR S x) (by linarith)
  rw [← reduceSgn_R_fst] at hr
  have hs := reduceSgn_R_snd hS (PI := (FOps.lit 3.14159265358979323846264338327950288 : R S)) (p1 := (FOps.lit 0.0019353071795864769252867665590057683943 : R S)) (x := toR S x) (by linarith)
  obtain ⟨r0, r1, ht⟩ := reduce_spec 2 1 (by norm_num) (by norm_num) hP3 hd he hr rfl hw
  have hab := sgn_abs (ofR (toR S x) < 0) (ofR (FOps.lit 3.14159265358979323846264338327950288 : R S) < wrap (ofR (FOps.lit 3.14159265358979323846264338327950288 : R S)) (ofR (toR S x))) 1
  rw [pow_one, ← hs] at ht hab
  generalize reduceSgn (FOps.lit 3.14159265358979323846264338327950288 : R S) (FOps.lit 0.0019353071795864769252867665590057683943 : R S) (toR S x) = xs at *
  have key : ∃ c, ofR (if xs.1 ==. (FOps.lit 0 : R S) then xs.1 else if xs.1 ==. (FOps.lit 3.14159265358979323846264338327950288 : R S) then (FOps.lit 0 : R S) else if xs.1 <. (FOps.lit 3.14159265358979323846264338327950288 : R S) /. (FOps.lit 2 : R S) then xs.2 *. cl6lLo xs.1 else xs.2 *. cl6lHi xs.1) = ofR xs.2 * c
      ∧ |c - clausen (2 * 2 + 1 + 1) (ofR xs.1)| ≤ 301e-28 + 2230 * u := by
    simp only [eq_R, lt_R, lit0 hS, half_R hS, decide_eq_true_eq]
    split_ifs with c1 c2 c3
    · refine ⟨0, by rw [c1, mul_zero], ?_⟩
      rw [c1, clausen_even_zero, sub_zero, abs_zero]; positivity
    · obtain ⟨g1, g2⟩ := cl6lHi_acc hS hu (r := xs.1) (by rw [c2]; linarith) (by linarith)
      refine ⟨0, by rw [lit0 hS, mul_zero], ?_⟩
      rw [← g1 c2]; exact g2.trans (by linarith)
    · have g := cl6lLo_acc hS hu (r := xs.1) (lt_of_le_of_ne r0 (Ne.symm c1)) c3
      exact ⟨_, ofR_mul _ _, g.trans (by linarith)⟩
    · obtain ⟨g1, g2⟩ := cl6lHi_acc hS hu (r := xs.1) (by linarith) (by linarith)
      exact ⟨_, ofR_mul _ _, g2.trans (by linarith)⟩
  obtain ⟨c, hc1, hc2⟩ := key
  exact cl_final 2 1 hab hc1 hc2 (fun a b => le_of_le_of_eq (clausen_lip 2 1 (by norm_num) (by norm_num) a b) (add_zero _).symm) (by norm_num) ht

/-- the denominators of `Cl6` are positive at every reduced argument: low branch (`0 < r < PI/2`) and high branch
(`PI/2 ≤ r ≤ PI + 1e-4`), both overloads -/
theorem C34_Cl6 {u : ℝ} (hS : S.Lit u) (hu : u ≤ 1e-6) (r : R S) :
    (0 < ofR r → ofR r < ofR (FOps.lit 3.14159265358979324 : R S) / 2 → 0 < ofR (cl6dloQe (r *. r))) ∧
    (ofR (FOps.lit 3.14159265358979324 : R S) / 2 ≤ ofR r → ofR r ≤ ofR (FOps.lit 3.14159265358979324 : R S) + 1e-4 → 0 < ofR (cl6dhiQe (((FOps.lit 3.14159265358979324 : R S) -. r) *. ((FOps.lit 3.14159265358979324 : R S) -. r) -. (FOps.lit 3.14159265358979324 : R S) *. (FOps.lit 3.14159265358979324 : R S) /. (FOps.lit 8 : R S)))) ∧
    (0 < ofR r → ofR r < ofR (FOps.lit 3.14159265358979323846264338327950288 : R S) / 2 → 0 < ofR (cl6lloQe (r *. r))) ∧
    (ofR (FOps.lit 3.14159265358979323846264338327950288 : R S) / 2 ≤ ofR r → ofR r ≤ ofR (FOps.lit 3.14159265358979323846264338327950288 : R S) + 1e-4 → 0 < ofR (cl6lhiQe (((FOps.lit 3.14159265358979323846264338327950288 : R S) -. r) *. ((FOps.lit 3.14159265358979323846264338327950288 : R S) -. r) -. (FOps.lit 3.14159265358979323846264338327950288 : R S) *. (FOps.lit 3.14159265358979323846264338327950288 : R S) /. (FOps.lit 8 : R S)))) :=
  ⟨cl6dLoQ_pos hS hu, cl6dHiQ_pos hS hu, cl6lLoQ_pos hS hu, cl6lHiQ_pos hS hu⟩

end Polylog
