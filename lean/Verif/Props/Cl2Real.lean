import Verif.Props.ClGen
import Verif.Model.Cl2

/-! # Accuracy of `Cl2` (generated by tools/cl/gencl3.py) -/

noncomputable section
namespace Polylog
set_option linter.style.longLine false

section
variable {F : Type} [FOps F]
/-- numeric literal -/
local notation:max "♯" q:max => (FOps.lit (q : ℚ) : F)

/-- polynomial of `Cl2d` -/
def cl2dloPe (y : F) : F :=
  let y2 := y *. y
  ♯(cl2dloP[0]) +. y *. ♯(cl2dloP[1]) +. y2 *. (♯(cl2dloP[2]) +. y *. ♯(cl2dloP[3]))
/-- polynomial of `Cl2d` -/
def cl2dloQe (y : F) : F :=
  let y2 := y *. y
  ♯(cl2dloQ[0]) +. y *. ♯(cl2dloQ[1]) +. y2 *. (♯(cl2dloQ[2]) +. y *. ♯(cl2dloQ[3]))
/-- polynomial of `Cl2d` -/
def cl2dhiPe (z : F) : F :=
  let z2 := z *. z
  let z4 := z2 *. z2
  ♯(cl2dhiP[0]) +. z *. ♯(cl2dhiP[1]) +. z2 *. (♯(cl2dhiP[2]) +. z *. ♯(cl2dhiP[3])) +. z4 *. (♯(cl2dhiP[4]) +. z *. ♯(cl2dhiP[5]))
/-- polynomial of `Cl2d` -/
def cl2dhiQe (z : F) : F :=
  let z2 := z *. z
  let z4 := z2 *. z2
  ♯(cl2dhiQ[0]) +. z *. ♯(cl2dhiQ[1]) +. z2 *. (♯(cl2dhiQ[2]) +. z *. ♯(cl2dhiQ[3])) +. z4 *. (♯(cl2dhiQ[4]) +. z *. ♯(cl2dhiQ[5]))
/-- low branch of `Cl2d` -/
def cl2dLo (x : F) : F :=
  x *. (♯1 -. (xlog x) +. x *. x *. (cl2dloPe (x *. x)) /. (cl2dloQe (x *. x)))
/-- high branch of `Cl2d` -/
def cl2dHi (x : F) : F :=
  let PI : F := ♯3.14159265358979324
  let PI28 := PI *. PI /. ♯8
  (PI -. x) *. cl2dhiPe ((PI -. x) *. (PI -. x) -. PI28) /. cl2dhiQe ((PI -. x) *. (PI -. x) -. PI28)
theorem Cl2d_split (x : F) : Cl2d x =
  (let PI : F := ♯3.14159265358979324
   let xs := reduceSgn PI ♯0.0019353071795864769253 x
   if xs.1 ==. ♯0 then xs.1 else if xs.1 ==. PI then ♯0 else if xs.1 <. PI /. ♯2 then xs.2 *. cl2dLo xs.1 else xs.2 *. cl2dHi xs.1) := rfl

/-- polynomial of `Cl2l` -/
def cl2lloPe (z : F) : F :=
  let z2 := z *. z
  let z4 := z2 *. z2
  let z8 := z4 *. z4
  ♯(cl2lloP[0]) +. z *. ♯(cl2lloP[1]) +. z2 *. (♯(cl2lloP[2]) +. z *. ♯(cl2lloP[3])) +. z4 *. (♯(cl2lloP[4]) +. z *. ♯(cl2lloP[5]) +. z2 *. (♯(cl2lloP[6]) +. z *. ♯(cl2lloP[7]))) +. z8 *. ♯(cl2lloP[8])
/-- polynomial of `Cl2l` -/
def cl2lloQe (z : F) : F :=
  let z2 := z *. z
  let z4 := z2 *. z2
  let z8 := z4 *. z4
  ♯(cl2lloQ[0]) +. z *. ♯(cl2lloQ[1]) +. z2 *. (♯(cl2lloQ[2]) +. z *. ♯(cl2lloQ[3])) +. z4 *. (♯(cl2lloQ[4]) +. z *. ♯(cl2lloQ[5]) +. z2 *. (♯(cl2lloQ[6]) +. z *. ♯(cl2lloQ[7]))) +. z8 *. ♯(cl2lloQ[8])
/-- polynomial of `Cl2l` -/
def cl2lhiPe (z : F) : F :=
  let z2 := z *. z
  let z4 := z2 *. z2
  let z8 := z4 *. z4
  ♯(cl2lhiP[0]) +. z *. ♯(cl2lhiP[1]) +. z2 *. (♯(cl2lhiP[2]) +. z *. ♯(cl2lhiP[3])) +. z4 *. (♯(cl2lhiP[4]) +. z *. ♯(cl2lhiP[5]) +. z2 *. (♯(cl2lhiP[6]) +. z *. ♯(cl2lhiP[7]))) +. z8 *. (♯(cl2lhiP[8]) +. z *. ♯(cl2lhiP[9]) +. z2 *. (♯(cl2lhiP[10]) +. z *. ♯(cl2lhiP[11])) +. z4 *. ♯(cl2lhiP[12]))
/-- polynomial of `Cl2l` -/
def cl2lhiQe (z : F) : F :=
  let z2 := z *. z
  let z4 := z2 *. z2
  let z8 := z4 *. z4
  ♯(cl2lhiQ[0]) +. z *. ♯(cl2lhiQ[1]) +. z2 *. (♯(cl2lhiQ[2]) +. z *. ♯(cl2lhiQ[3])) +. z4 *. (♯(cl2lhiQ[4]) +. z *. ♯(cl2lhiQ[5]) +. z2 *. (♯(cl2lhiQ[6]) +. z *. ♯(cl2lhiQ[7]))) +. z8 *. (♯(cl2lhiQ[8]) +. z *. ♯(cl2lhiQ[9]) +. z2 *. (♯(cl2lhiQ[10]) +. z *. ♯(cl2lhiQ[11])) +. z4 *. ♯(cl2lhiQ[12]))
/-- low branch of `Cl2l` -/
def cl2lLo (x : F) : F :=
  let PI : F := ♯3.14159265358979323846264338327950288
  let PI28 := PI *. PI /. ♯8
  x *. (♯1 -. (xlog x) +. x *. x *. (cl2lloPe (x *. x -. PI28)) /. (cl2lloQe (x *. x -. PI28)))
/-- high branch of `Cl2l` -/
def cl2lHi (x : F) : F :=
  let PI : F := ♯3.14159265358979323846264338327950288
  let PI28 := PI *. PI /. ♯8
  (PI -. x) *. cl2lhiPe ((PI -. x) *. (PI -. x) -. PI28) /. cl2lhiQe ((PI -. x) *. (PI -. x) -. PI28)
theorem Cl2l_split (x : F) : Cl2l x =
  (let PI : F := ♯3.14159265358979323846264338327950288
   let xs := reduceSgn PI ♯0.0019353071795864769252867665590057683943 x
   if xs.1 ==. ♯0 then xs.1 else if xs.1 ==. PI then ♯0 else if xs.1 <. PI /. ♯2 then xs.2 *. cl2lLo xs.1 else xs.2 *. cl2lHi xs.1) := rfl

end

variable {S : RealSem}

theorem cl2dloPe_R (z : R S) : ofR (cl2dloPe z) = rv S cl2dloP (ofR z) := by
  simp [cl2dloPe, rsem, rv, Fin.sum_univ_succ]; ring
theorem cl2dloQe_R (z : R S) : ofR (cl2dloQe z) = rv S cl2dloQ (ofR z) := by
  simp [cl2dloQe, rsem, rv, Fin.sum_univ_succ]; ring
theorem cl2dhiPe_R (z : R S) : ofR (cl2dhiPe z) = rv S cl2dhiP (ofR z) := by
  simp [cl2dhiPe, rsem, rv, Fin.sum_univ_succ]; ring
theorem cl2dhiQe_R (z : R S) : ofR (cl2dhiQe z) = rv S cl2dhiQ (ofR z) := by
  simp [cl2dhiQe, rsem, rv, Fin.sum_univ_succ]; ring

theorem cl2dLoQ_pos {u : ℝ} (hS : S.Lit u) (hu : u ≤ 1e-6) {r : R S} (h0 : 0 < ofR r) (h1 : ofR r < ofR (FOps.lit 3.14159265358979324 : R S) / 2) :
    0 < ofR (cl2dloQe (r *. r)) := by
  have hu0 := hS.u_nonneg
  have hd := PId hS
  obtain ⟨f, hf, hc, hy0, hy1, hr1, hz, hη⟩ := lo_branch 0 1 (by norm_num) hd (by linarith) h0 h1
  have hf1 := hasSum_drop hy0.ne' hf
  obtain ⟨hq, -⟩ := apx_cl2dlo hS (by linarith) hy0 hy1 hf1
  have hzR : ofR (r *. r) = ofR r * ofR r := ofR_mul _ _
  rw [cl2dloQe_R, hzR]; exact hq

theorem cl2dLo_acc {u : ℝ} (hS : S.Lit u) (hu : u ≤ 1e-6) {r : R S} (h0 : 0 < ofR r) (h1 : ofR r < ofR (FOps.lit 3.14159265358979324 : R S) / 2) :
    |ofR (cl2dLo r) - clausen (2 * 0 + 1 + 1) (ofR r)| ≤ 237e-20 + 388e-2 * u := by
  have hu0 := hS.u_nonneg
  have hd := PId hS
  obtain ⟨f, hf, hc, hy0, hy1, hr1, hz, hη⟩ := lo_branch 0 1 (by norm_num) hd (by linarith) h0 h1
  have hf1 := hasSum_drop hy0.ne' hf
  obtain ⟨hq, ha⟩ := apx_cl2dlo hS (by linarith) hy0 hy1 hf1
  have hzR : ofR (r *. r) = ofR r * ofR r := ofR_mul _ _
  have hq0 : ofR (cl2dloQe (r *. r)) ≠ 0 := by rw [cl2dloQe_R, hzR]; exact hq.ne'
  have ev : ofR (cl2dLo r) = _ := lo2_R hS r (r *. r) (cl2dloPe (r *. r)) (cl2dloQe (r *. r)) h0 hq0
  rw [ev, hc, cl2dloPe_R, cl2dloQe_R, hzR]
  generalize rv S cl2dloP (ofR r * ofR r) / rv S cl2dloQ (ofR r * ofR r) = A at *
  have hl0 : loC 0 1 0 = 1 := by simp [loC]
  rw [hl0] at ha
  generalize Real.log (ofR r) = l at *
  clear ev hq0 hzR hq hf hf1
  generalize ofR r = x at *
  have e : x * (1 - l + x * x * A) - x ^ 1 * (f - (-1) ^ 0 * (x ^ 2) ^ 0 / (2 * 0 + 1).factorial * l) = x * (x * x) * (A - (f - 1) / (x * x)) := by
    norm_num [Nat.factorial]
    field_simp
    try ring
  rw [e]
  rw [abs_mul, abs_of_pos (by positivity)]
  have hx3 : x * (x * x) ≤ 1.571 ^ 3 := by
    rw [← pow_two, ← pow_succ']; exact pow_le_pow_left₀ h0.le hr1 3
  refine (mul_le_mul hx3 ha (abs_nonneg _) (by norm_num)).trans ?_
  norm_num; linarith

theorem cl2dHiQ_pos {u : ℝ} (hS : S.Lit u) (hu : u ≤ 1e-6) {r : R S} (h1 : ofR (FOps.lit 3.14159265358979324 : R S) / 2 ≤ ofR r) (h2 : ofR r ≤ ofR (FOps.lit 3.14159265358979324 : R S) + 1e-4) :
    0 < ofR (cl2dhiQe (((FOps.lit 3.14159265358979324 : R S) -. r) *. ((FOps.lit 3.14159265358979324 : R S) -. r) -. (FOps.lit 3.14159265358979324 : R S) *. (FOps.lit 3.14159265358979324 : R S) /. (FOps.lit 8 : R S))) := by
  have hu0 := hS.u_nonneg
  have hd := PId hS
  obtain ⟨f, hf, hc, hy0, hy1, hr1, hz, hη⟩ := hi_branch 0 1 (by norm_num) (by norm_num) hd (by linarith) (by linarith) h2
  obtain ⟨hq, -⟩ := apx_cl2dhi hS (by linarith) hz hη hy0 hy1 hf
  have hzR : ofR (((FOps.lit 3.14159265358979324 : R S) -. r) *. ((FOps.lit 3.14159265358979324 : R S) -. r) -. (FOps.lit 3.14159265358979324 : R S) *. (FOps.lit 3.14159265358979324 : R S) /. (FOps.lit 8 : R S)) = (ofR (FOps.lit 3.14159265358979324 : R S) - ofR r) * (ofR (FOps.lit 3.14159265358979324 : R S) - ofR r) - ofR (FOps.lit 3.14159265358979324 : R S) * ofR (FOps.lit 3.14159265358979324 : R S) / 8 := by
    rw [ofR_sub, ofR_mul, sq8_R hS, ofR_sub]
  rw [cl2dhiQe_R, hzR]; exact hq

theorem cl2dHi_acc {u : ℝ} (hS : S.Lit u) (hu : u ≤ 1e-6) {r : R S} (h1 : ofR (FOps.lit 3.14159265358979324 : R S) / 2 - 1e-6 ≤ ofR r) (h2 : ofR r ≤ ofR (FOps.lit 3.14159265358979324 : R S) + 1e-4) :
    (ofR r = ofR (FOps.lit 3.14159265358979324 : R S) → ofR (cl2dHi r) = 0) ∧ |ofR (cl2dHi r) - clausen (2 * 0 + 1 + 1) (ofR r)| ≤ 109e-19 + 126e-1 * u := by
  have hu0 := hS.u_nonneg
  have hd := PId hS
  obtain ⟨f, hf, hc, hy0, hy1, hr1, hz, hη⟩ := hi_branch 0 1 (by norm_num) (by norm_num) hd (by linarith) h1 h2
  obtain ⟨hq, ha, hF⟩ := apx_cl2dhi hS (by linarith) hz hη hy0 hy1 hf
  have hzR : ofR (((FOps.lit 3.14159265358979324 : R S) -. r) *. ((FOps.lit 3.14159265358979324 : R S) -. r) -. (FOps.lit 3.14159265358979324 : R S) *. (FOps.lit 3.14159265358979324 : R S) /. (FOps.lit 8 : R S)) = (ofR (FOps.lit 3.14159265358979324 : R S) - ofR r) * (ofR (FOps.lit 3.14159265358979324 : R S) - ofR r) - ofR (FOps.lit 3.14159265358979324 : R S) * ofR (FOps.lit 3.14159265358979324 : R S) / 8 := by
    rw [ofR_sub, ofR_mul, sq8_R hS, ofR_sub]
  have hq0 : ofR (cl2dhiQe (((FOps.lit 3.14159265358979324 : R S) -. r) *. ((FOps.lit 3.14159265358979324 : R S) -. r) -. (FOps.lit 3.14159265358979324 : R S) *. (FOps.lit 3.14159265358979324 : R S) /. (FOps.lit 8 : R S))) ≠ 0 := by rw [cl2dhiQe_R, hzR]; exact hq.ne'
  have ev : ofR (cl2dHi r) = _ := hiE_R ((FOps.lit 3.14159265358979324 : R S) -. r) (cl2dhiPe (((FOps.lit 3.14159265358979324 : R S) -. r) *. ((FOps.lit 3.14159265358979324 : R S) -. r) -. (FOps.lit 3.14159265358979324 : R S) *. (FOps.lit 3.14159265358979324 : R S) /. (FOps.lit 8 : R S))) (cl2dhiQe (((FOps.lit 3.14159265358979324 : R S) -. r) *. ((FOps.lit 3.14159265358979324 : R S) -. r) -. (FOps.lit 3.14159265358979324 : R S) *. (FOps.lit 3.14159265358979324 : R S) /. (FOps.lit 8 : R S))) hq0
  rw [cl2dhiPe_R, cl2dhiQe_R, hzR, ofR_sub] at ev
  refine ⟨fun h => by rw [ev, h, sub_self, zero_mul], ?_⟩
  rw [ev, hc, pow_one]
  have hdd : |ofR (FOps.lit 3.14159265358979324 : R S) - ofR r - (Real.pi - ofR r)| ≤ 1.6e-18 + 3.15 * u := by rw [sub_sub_sub_cancel_right]; exact hd
  refine (hi_even ha hr1 hdd hF).trans ?_
  linarith

/-- `Cl2d`, every argument; `⌊|x| / (2 PI)⌋` is the number of periods subtracted by `fmod` -/
theorem Cl2d_acc {u : ℝ} (hS : S.Lit u) (hu : u ≤ 1e-6) (x : ℝ)
    (hw : wrap (ofR (FOps.lit 3.14159265358979324 : R S)) x ≤ 6.28125 + ofR (FOps.lit 0.0019353071795864769253 : R S)) :
    |ofR (Cl2d (toR S x)) - clausen 2 x| ≤ 109e-19 + 13 * u
      + (58 * (1.4e-23 + 0.002 * u + 2 * (1.6e-18 + 3.15 * u) * ⌊|x| / (2 * ofR (FOps.lit 3.14159265358979324 : R S))⌋₊) + 1e-24) := by
  have hu0 := hS.u_nonneg
  have hd := PId hS
  have he := P1d hS
  have hpi := pi_gt
  have hP3 : 3 ≤ ofR (FOps.lit 3.14159265358979324 : R S) := by have := (abs_le.mp hd).1; linarith
  rw [Cl2d_split]
  dsimp only
  have hr := reduceAbs_R hS (PI := (FOps.lit 3.14159265358979324 : R S)) (p1 := (FOps.lit 0.0019353071795864769253 : R S)) (x := toR S x) (by linarith)
  rw [← reduceSgn_R_fst] at hr
  have hs := reduceSgn_R_snd hS (PI := (FOps.lit 3.14159265358979324 : R S)) (p1 := (FOps.lit 0.0019353071795864769253 : R S)) (x := toR S x) (by linarith)
  obtain ⟨r0, r1, ht⟩ := reduce_spec 0 1 (by norm_num) (by norm_num) hP3 hd he hr rfl hw
  have hab := sgn_abs (ofR (toR S x) < 0) (ofR (FOps.lit 3.14159265358979324 : R S) < wrap (ofR (FOps.lit 3.14159265358979324 : R S)) (ofR (toR S x))) 1
  rw [pow_one, ← hs] at ht hab
  generalize reduceSgn (FOps.lit 3.14159265358979324 : R S) (FOps.lit 0.0019353071795864769253 : R S) (toR S x) = xs at *
  have key : ∃ c, ofR (if xs.1 ==. (FOps.lit 0 : R S) then xs.1 else if xs.1 ==. (FOps.lit 3.14159265358979324 : R S) then (FOps.lit 0 : R S) else if xs.1 <. (FOps.lit 3.14159265358979324 : R S) /. (FOps.lit 2 : R S) then xs.2 *. cl2dLo xs.1 else xs.2 *. cl2dHi xs.1) = ofR xs.2 * c
      ∧ |c - clausen (2 * 0 + 1 + 1) (ofR xs.1)| ≤ 109e-19 + 13 * u := by
    simp only [eq_R, lt_R, lit0 hS, half_R hS, decide_eq_true_eq]
    split_ifs with c1 c2 c3
    · refine ⟨0, by rw [c1, mul_zero], ?_⟩
      rw [c1, clausen_even_zero, sub_zero, abs_zero]; positivity
    · obtain ⟨g1, g2⟩ := cl2dHi_acc hS hu (r := xs.1) (by rw [c2]; linarith) (by linarith)
      refine ⟨0, by rw [lit0 hS, mul_zero], ?_⟩
      rw [← g1 c2]; exact g2.trans (by linarith)
    · have g := cl2dLo_acc hS hu (r := xs.1) (lt_of_le_of_ne r0 (Ne.symm c1)) c3
      exact ⟨_, ofR_mul _ _, g.trans (by linarith)⟩
    · obtain ⟨g1, g2⟩ := cl2dHi_acc hS hu (r := xs.1) (by linarith) (by linarith)
      exact ⟨_, ofR_mul _ _, g2.trans (by linarith)⟩
  obtain ⟨c, hc1, hc2⟩ := key
  exact cl_final 0 1 hab hc1 hc2 clausen_two_d (by norm_num) ht
theorem cl2lloPe_R (z : R S) : ofR (cl2lloPe z) = rv S cl2lloP (ofR z) := by
  simp [cl2lloPe, rsem, rv, Fin.sum_univ_succ]; ring
theorem cl2lloQe_R (z : R S) : ofR (cl2lloQe z) = rv S cl2lloQ (ofR z) := by
  simp [cl2lloQe, rsem, rv, Fin.sum_univ_succ]; ring
theorem cl2lhiPe_R (z : R S) : ofR (cl2lhiPe z) = rv S cl2lhiP (ofR z) := by
  simp [cl2lhiPe, rsem, rv, Fin.sum_univ_succ]; ring
theorem cl2lhiQe_R (z : R S) : ofR (cl2lhiQe z) = rv S cl2lhiQ (ofR z) := by
  simp [cl2lhiQe, rsem, rv, Fin.sum_univ_succ]; ring

theorem cl2lLoQ_pos {u : ℝ} (hS : S.Lit u) (hu : u ≤ 1e-6) {r : R S} (h0 : 0 < ofR r) (h1 : ofR r < ofR (FOps.lit 3.14159265358979323846264338327950288 : R S) / 2) :
    0 < ofR (cl2lloQe (r *. r -. (FOps.lit 3.14159265358979323846264338327950288 : R S) *. (FOps.lit 3.14159265358979323846264338327950288 : R S) /. (FOps.lit 8 : R S))) := by
  have hu0 := hS.u_nonneg
  have hd := PIl hS
  obtain ⟨f, hf, hc, hy0, hy1, hr1, hz, hη⟩ := lo_branch 0 1 (by norm_num) hd (by linarith) h0 h1
  have hf1 := hasSum_drop hy0.ne' hf
  obtain ⟨hq, -⟩ := apx_cl2llo hS (by linarith) hz hη hy0.le hy1 hf1
  have hzR : ofR (r *. r -. (FOps.lit 3.14159265358979323846264338327950288 : R S) *. (FOps.lit 3.14159265358979323846264338327950288 : R S) /. (FOps.lit 8 : R S)) = ofR r * ofR r - ofR (FOps.lit 3.14159265358979323846264338327950288 : R S) * ofR (FOps.lit 3.14159265358979323846264338327950288 : R S) / 8 := by
    rw [ofR_sub, ofR_mul, sq8_R hS]
  rw [cl2lloQe_R, hzR]; exact hq

theorem cl2lLo_acc {u : ℝ} (hS : S.Lit u) (hu : u ≤ 1e-6) {r : R S} (h0 : 0 < ofR r) (h1 : ofR r < ofR (FOps.lit 3.14159265358979323846264338327950288 : R S) / 2) :
    |ofR (cl2lLo r) - clausen (2 * 0 + 1 + 1) (ofR r)| ≤ 992e-42 + 388e-2 * u := by
  have hu0 := hS.u_nonneg
  have hd := PIl hS
  obtain ⟨f, hf, hc, hy0, hy1, hr1, hz, hη⟩ := lo_branch 0 1 (by norm_num) hd (by linarith) h0 h1
  have hf1 := hasSum_drop hy0.ne' hf
  obtain ⟨hq, ha, -⟩ := apx_cl2llo hS (by linarith) hz hη hy0.le hy1 hf1
  have hzR : ofR (r *. r -. (FOps.lit 3.14159265358979323846264338327950288 : R S) *. (FOps.lit 3.14159265358979323846264338327950288 : R S) /. (FOps.lit 8 : R S)) = ofR r * ofR r - ofR (FOps.lit 3.14159265358979323846264338327950288 : R S) * ofR (FOps.lit 3.14159265358979323846264338327950288 : R S) / 8 := by
    rw [ofR_sub, ofR_mul, sq8_R hS]
  have hq0 : ofR (cl2lloQe (r *. r -. (FOps.lit 3.14159265358979323846264338327950288 : R S) *. (FOps.lit 3.14159265358979323846264338327950288 : R S) /. (FOps.lit 8 : R S))) ≠ 0 := by rw [cl2lloQe_R, hzR]; exact hq.ne'
  have ev : ofR (cl2lLo r) = _ := lo2_R hS r (r *. r) (cl2lloPe (r *. r -. (FOps.lit 3.14159265358979323846264338327950288 : R S) *. (FOps.lit 3.14159265358979323846264338327950288 : R S) /. (FOps.lit 8 : R S))) (cl2lloQe (r *. r -. (FOps.lit 3.14159265358979323846264338327950288 : R S) *. (FOps.lit 3.14159265358979323846264338327950288 : R S) /. (FOps.lit 8 : R S))) h0 hq0
  rw [ev, hc, cl2lloPe_R, cl2lloQe_R, hzR, ofR_mul]
  generalize rv S cl2lloP (ofR r * ofR r - ofR (FOps.lit 3.14159265358979323846264338327950288 : R S) * ofR (FOps.lit 3.14159265358979323846264338327950288 : R S) / 8) / rv S cl2lloQ (ofR r * ofR r - ofR (FOps.lit 3.14159265358979323846264338327950288 : R S) * ofR (FOps.lit 3.14159265358979323846264338327950288 : R S) / 8) = A at *
  have hl0 : loC 0 1 0 = 1 := by simp [loC]
  rw [hl0] at ha
  generalize Real.log (ofR r) = l at *
  clear ev hq0 hzR hq hf hf1
  generalize ofR r = x at *
  have e : x * (1 - l + x * x * A) - x ^ 1 * (f - (-1) ^ 0 * (x ^ 2) ^ 0 / (2 * 0 + 1).factorial * l) = x * (x * x) * (A - (f - 1) / (x * x)) := by
    norm_num [Nat.factorial]
    field_simp
    try ring
  rw [e]
  rw [abs_mul, abs_of_pos (by positivity)]
  have hx3 : x * (x * x) ≤ 1.571 ^ 3 := by
    rw [← pow_two, ← pow_succ']; exact pow_le_pow_left₀ h0.le hr1 3
  refine (mul_le_mul hx3 ha (abs_nonneg _) (by norm_num)).trans ?_
  norm_num; linarith

theorem cl2lHiQ_pos {u : ℝ} (hS : S.Lit u) (hu : u ≤ 1e-6) {r : R S} (h1 : ofR (FOps.lit 3.14159265358979323846264338327950288 : R S) / 2 ≤ ofR r) (h2 : ofR r ≤ ofR (FOps.lit 3.14159265358979323846264338327950288 : R S) + 1e-4) :
    0 < ofR (cl2lhiQe (((FOps.lit 3.14159265358979323846264338327950288 : R S) -. r) *. ((FOps.lit 3.14159265358979323846264338327950288 : R S) -. r) -. (FOps.lit 3.14159265358979323846264338327950288 : R S) *. (FOps.lit 3.14159265358979323846264338327950288 : R S) /. (FOps.lit 8 : R S))) := by
  have hu0 := hS.u_nonneg
  have hd := PIl hS
  obtain ⟨f, hf, hc, hy0, hy1, hr1, hz, hη⟩ := hi_branch 0 1 (by norm_num) (by norm_num) hd (by linarith) (by linarith) h2
  obtain ⟨hq, -⟩ := apx_cl2lhi hS (by linarith) hz hη hy0 hy1 hf
  have hzR : ofR (((FOps.lit 3.14159265358979323846264338327950288 : R S) -. r) *. ((FOps.lit 3.14159265358979323846264338327950288 : R S) -. r) -. (FOps.lit 3.14159265358979323846264338327950288 : R S) *. (FOps.lit 3.14159265358979323846264338327950288 : R S) /. (FOps.lit 8 : R S)) = (ofR (FOps.lit 3.14159265358979323846264338327950288 : R S) - ofR r) * (ofR (FOps.lit 3.14159265358979323846264338327950288 : R S) - ofR r) - ofR (FOps.lit 3.14159265358979323846264338327950288 : R S) * ofR (FOps.lit 3.14159265358979323846264338327950288 : R S) / 8 := by
    rw [ofR_sub, ofR_mul, sq8_R hS, ofR_sub]
  rw [cl2lhiQe_R, hzR]; exact hq

theorem cl2lHi_acc {u : ℝ} (hS : S.Lit u) (hu : u ≤ 1e-6) {r : R S} (h1 : ofR (FOps.lit 3.14159265358979323846264338327950288 : R S) / 2 - 1e-6 ≤ ofR r) (h2 : ofR r ≤ ofR (FOps.lit 3.14159265358979323846264338327950288 : R S) + 1e-4) :
    (ofR r = ofR (FOps.lit 3.14159265358979323846264338327950288 : R S) → ofR (cl2lHi r) = 0) ∧ |ofR (cl2lHi r) - clausen (2 * 0 + 1 + 1) (ofR r)| ≤ 415e-38 + 283e-1 * u := by
  have hu0 := hS.u_nonneg
  have hd := PIl hS
  obtain ⟨f, hf, hc, hy0, hy1, hr1, hz, hη⟩ := hi_branch 0 1 (by norm_num) (by norm_num) hd (by linarith) h1 h2
  obtain ⟨hq, ha, hF⟩ := apx_cl2lhi hS (by linarith) hz hη hy0 hy1 hf
  have hzR : ofR (((FOps.lit 3.14159265358979323846264338327950288 : R S) -. r) *. ((FOps.lit 3.14159265358979323846264338327950288 : R S) -. r) -. (FOps.lit 3.14159265358979323846264338327950288 : R S) *. (FOps.lit 3.14159265358979323846264338327950288 : R S) /. (FOps.lit 8 : R S)) = (ofR (FOps.lit 3.14159265358979323846264338327950288 : R S) - ofR r) * (ofR (FOps.lit 3.14159265358979323846264338327950288 : R S) - ofR r) - ofR (FOps.lit 3.14159265358979323846264338327950288 : R S) * ofR (FOps.lit 3.14159265358979323846264338327950288 : R S) / 8 := by
    rw [ofR_sub, ofR_mul, sq8_R hS, ofR_sub]
  have hq0 : ofR (cl2lhiQe (((FOps.lit 3.14159265358979323846264338327950288 : R S) -. r) *. ((FOps.lit 3.14159265358979323846264338327950288 : R S) -. r) -. (FOps.lit 3.14159265358979323846264338327950288 : R S) *. (FOps.lit 3.14159265358979323846264338327950288 : R S) /. (FOps.lit 8 : R S))) ≠ 0 := by rw [cl2lhiQe_R, hzR]; exact hq.ne'
  have ev : ofR (cl2lHi r) = _ := hiE_R ((FOps.lit 3.14159265358979323846264338327950288 : R S) -. r) (cl2lhiPe (((FOps.lit 3.14159265358979323846264338327950288 : R S) -. r) *. ((FOps.lit 3.14159265358979323846264338327950288 : R S) -. r) -. (FOps.lit 3.14159265358979323846264338327950288 : R S) *. (FOps.lit 3.14159265358979323846264338327950288 : R S) /. (FOps.lit 8 : R S))) (cl2lhiQe (((FOps.lit 3.14159265358979323846264338327950288 : R S) -. r) *. ((FOps.lit 3.14159265358979323846264338327950288 : R S) -. r) -. (FOps.lit 3.14159265358979323846264338327950288 : R S) *. (FOps.lit 3.14159265358979323846264338327950288 : R S) /. (FOps.lit 8 : R S))) hq0
  rw [cl2lhiPe_R, cl2lhiQe_R, hzR, ofR_sub] at ev
  refine ⟨fun h => by rw [ev, h, sub_self, zero_mul], ?_⟩
  rw [ev, hc, pow_one]
  have hdd : |ofR (FOps.lit 3.14159265358979323846264338327950288 : R S) - ofR r - (Real.pi - ofR r)| ≤ 4.2e-36 + 3.15 * u := by rw [sub_sub_sub_cancel_right]; exact hd
  refine (hi_even ha hr1 hdd hF).trans ?_
  linarith

/-- `Cl2l`, every argument; `⌊|x| / (2 PI)⌋` is the number of periods subtracted by `fmod` -/
theorem Cl2l_acc {u : ℝ} (hS : S.Lit u) (hu : u ≤ 1e-6) (x : ℝ)
    (hw : wrap (ofR (FOps.lit 3.14159265358979323846264338327950288 : R S)) x ≤ 6.28125 + ofR (FOps.lit 0.0019353071795864769252867665590057683943 : R S)) :
    |ofR (Cl2l (toR S x)) - clausen 2 x| ≤ 415e-38 + 29 * u
      + (99 * (5e-41 + 0.002 * u + 2 * (4.2e-36 + 3.15 * u) * ⌊|x| / (2 * ofR (FOps.lit 3.14159265358979323846264338327950288 : R S))⌋₊) + 1e-42) := by
  have hu0 := hS.u_nonneg
  have hd := PIl hS
  have he := P1l hS
  have hpi := pi_gt
  have hP3 : 3 ≤ ofR (FOps.lit 3.14159265358979323846264338327950288 : R S) := by have := (abs_le.mp hd).1; linarith
  rw [Cl2l_split]
  dsimp only
  have hr := reduceAbs_R hS (PI := (FOps.lit 3.14159265358979323846264338327950288 : R S)) (p1 := (FOps.lit 0.0019353071795864769252867665590057683943 : R S)) (x := toR S x) (by linarith)
  rw [← reduceSgn_R_fst] at hr
  have hs := reduceSgn_R_snd hS (PI := (FOps.lit 3.14159265358979323846264338327950288 : R S)) (p1 := (FOps.lit 0.0019353071795864769252867665590057683943 : R S)) (x := toR S x) (by linarith)
  obtain ⟨r0, r1, ht⟩ := reduce_spec 0 1 (by norm_num) (by norm_num) hP3 hd he hr rfl hw
  have hab := sgn_abs (ofR (toR S x) < 0) (ofR (FOps.lit 3.14159265358979323846264338327950288 : R S) < wrap (ofR (FOps.lit 3.14159265358979323846264338327950288 : R S)) (ofR (toR S x))) 1
  rw [pow_one, ← hs] at ht hab
  generalize reduceSgn (FOps.lit 3.14159265358979323846264338327950288 : R S) (FOps.lit 0.0019353071795864769252867665590057683943 : R S) (toR S x) = xs at *
  have key : ∃ c, ofR (if xs.1 ==. (FOps.lit 0 : R S) then xs.1 else if xs.1 ==. (FOps.lit 3.14159265358979323846264338327950288 : R S) then (FOps.lit 0 : R S) else if xs.1 <. (FOps.lit 3.14159265358979323846264338327950288 : R S) /. (FOps.lit 2 : R S) then xs.2 *. cl2lLo xs.1 else xs.2 *. cl2lHi xs.1) = ofR xs.2 * c
      ∧ |c - clausen (2 * 0 + 1 + 1) (ofR xs.1)| ≤ 415e-38 + 29 * u := by
    simp only [eq_R, lt_R, lit0 hS, half_R hS, decide_eq_true_eq]
    split_ifs with c1 c2 c3
    · refine ⟨0, by rw [c1, mul_zero], ?_⟩
      rw [c1, clausen_even_zero, sub_zero, abs_zero]; positivity
    · obtain ⟨g1, g2⟩ := cl2lHi_acc hS hu (r := xs.1) (by rw [c2]; linarith) (by linarith)
      refine ⟨0, by rw [lit0 hS, mul_zero], ?_⟩
      rw [← g1 c2]; exact g2.trans (by linarith)
    · have g := cl2lLo_acc hS hu (r := xs.1) (lt_of_le_of_ne r0 (Ne.symm c1)) c3
      exact ⟨_, ofR_mul _ _, g.trans (by linarith)⟩
    · obtain ⟨g1, g2⟩ := cl2lHi_acc hS hu (r := xs.1) (by linarith) (by linarith)
      exact ⟨_, ofR_mul _ _, g2.trans (by linarith)⟩
  obtain ⟨c, hc1, hc2⟩ := key
  exact cl_final 0 1 hab hc1 hc2 clausen_two_l (by norm_num) ht

/-- the denominators of `Cl2` are positive at every reduced argument: low branch (`0 < r < PI/2`) and high branch
(`PI/2 ≤ r ≤ PI + 1e-4`), both overloads -/
theorem C34_Cl2 {u : ℝ} (hS : S.Lit u) (hu : u ≤ 1e-6) (r : R S) :
    (0 < ofR r → ofR r < ofR (FOps.lit 3.14159265358979324 : R S) / 2 → 0 < ofR (cl2dloQe (r *. r))) ∧
    (ofR (FOps.lit 3.14159265358979324 : R S) / 2 ≤ ofR r → ofR r ≤ ofR (FOps.lit 3.14159265358979324 : R S) + 1e-4 → 0 < ofR (cl2dhiQe (((FOps.lit 3.14159265358979324 : R S) -. r) *. ((FOps.lit 3.14159265358979324 : R S) -. r) -. (FOps.lit 3.14159265358979324 : R S) *. (FOps.lit 3.14159265358979324 : R S) /. (FOps.lit 8 : R S)))) ∧
    (0 < ofR r → ofR r < ofR (FOps.lit 3.14159265358979323846264338327950288 : R S) / 2 → 0 < ofR (cl2lloQe (r *. r -. (FOps.lit 3.14159265358979323846264338327950288 : R S) *. (FOps.lit 3.14159265358979323846264338327950288 : R S) /. (FOps.lit 8 : R S)))) ∧
    (ofR (FOps.lit 3.14159265358979323846264338327950288 : R S) / 2 ≤ ofR r → ofR r ≤ ofR (FOps.lit 3.14159265358979323846264338327950288 : R S) + 1e-4 → 0 < ofR (cl2lhiQe (((FOps.lit 3.14159265358979323846264338327950288 : R S) -. r) *. ((FOps.lit 3.14159265358979323846264338327950288 : R S) -. r) -. (FOps.lit 3.14159265358979323846264338327950288 : R S) *. (FOps.lit 3.14159265358979323846264338327950288 : R S) /. (FOps.lit 8 : R S)))) :=
  ⟨cl2dLoQ_pos hS hu, cl2dHiQ_pos hS hu, cl2lLoQ_pos hS hu, cl2lHiQ_pos hS hu⟩

end Polylog
