import Verif.Props.ClGen
import Verif.Model.Cl3

/-! # Accuracy of `Cl3` (generated by tools/cl/gencl3.py) -/

noncomputable section
namespace Polylog
set_option linter.style.longLine false

section
variable {F : Type} [FOps F]
/-- numeric literal -/
local notation:max "♯" q:max => (FOps.lit (q : ℚ) : F)

/-- polynomial of `Cl3d` -/
def cl3dloPe (y : F) : F :=
  let y2 := y *. y
  ♯(cl3dloP[0]) +. y *. ♯(cl3dloP[1]) +. y2 *. (♯(cl3dloP[2]) +. y *. ♯(cl3dloP[3]))
/-- polynomial of `Cl3d` -/
def cl3dloQe (y : F) : F :=
  let y2 := y *. y
  ♯(cl3dloQ[0]) +. y *. ♯(cl3dloQ[1]) +. y2 *. (♯(cl3dloQ[2]) +. y *. ♯(cl3dloQ[3]))
/-- polynomial of `Cl3d` -/
def cl3dhiPe (z : F) : F :=
  let z2 := z *. z
  let z4 := z2 *. z2
  ♯(cl3dhiP[0]) +. z *. ♯(cl3dhiP[1]) +. z2 *. (♯(cl3dhiP[2]) +. z *. ♯(cl3dhiP[3])) +. z4 *. (♯(cl3dhiP[4]) +. z *. ♯(cl3dhiP[5]))
/-- polynomial of `Cl3d` -/
def cl3dhiQe (z : F) : F :=
  let z2 := z *. z
  let z4 := z2 *. z2
  ♯(cl3dhiQ[0]) +. z *. ♯(cl3dhiQ[1]) +. z2 *. (♯(cl3dhiQ[2]) +. z *. ♯(cl3dhiQ[3])) +. z4 *. (♯(cl3dhiQ[4]) +. z *. ♯(cl3dhiQ[5]))
/-- low branch of `Cl3d` -/
def cl3dLo (x : F) : F :=
  ♯1.2020569031595943 +. x *. x *. ((cl3dloPe (x *. x)) /. (cl3dloQe (x *. x)) +. ♯0.5 *. (xlog x))
/-- high branch of `Cl3d` -/
def cl3dHi (x : F) : F :=
  let PI : F := ♯3.14159265358979324
  let PI28 := PI *. PI /. ♯8
  cl3dhiPe ((PI -. x) *. (PI -. x) -. PI28) /. cl3dhiQe ((PI -. x) *. (PI -. x) -. PI28)
theorem Cl3d_split (x : F) : Cl3d x =
  (let PI : F := ♯3.14159265358979324
   let r := reduceAbs PI ♯0.0019353071795864769253 x
   if r ==. ♯0 then ♯1.2020569031595943 else if r <. PI /. ♯2 then cl3dLo r else cl3dHi r) := rfl

/-- polynomial of `Cl3l` -/
def cl3lloPe (z : F) : F :=
  let z2 := z *. z
  let z4 := z2 *. z2
  let z8 := z4 *. z4
  ♯(cl3lloP[0]) +. z *. ♯(cl3lloP[1]) +. z2 *. (♯(cl3lloP[2]) +. z *. ♯(cl3lloP[3])) +. z4 *. (♯(cl3lloP[4]) +. z *. ♯(cl3lloP[5]) +. z2 *. (♯(cl3lloP[6]) +. z *. ♯(cl3lloP[7]))) +. z8 *. ♯(cl3lloP[8])
/-- polynomial of `Cl3l` -/
def cl3lloQe (z : F) : F :=
  let z2 := z *. z
  let z4 := z2 *. z2
  let z8 := z4 *. z4
  ♯(cl3lloQ[0]) +. z *. ♯(cl3lloQ[1]) +. z2 *. (♯(cl3lloQ[2]) +. z *. ♯(cl3lloQ[3])) +. z4 *. (♯(cl3lloQ[4]) +. z *. ♯(cl3lloQ[5]) +. z2 *. (♯(cl3lloQ[6]) +. z *. ♯(cl3lloQ[7]))) +. z8 *. ♯(cl3lloQ[8])
/-- polynomial of `Cl3l` -/
def cl3lhiPe (z : F) : F :=
  let z2 := z *. z
  let z4 := z2 *. z2
  let z8 := z4 *. z4
  let z16 := z8 *. z8
  ♯(cl3lhiP[0]) +. z *. ♯(cl3lhiP[1]) +. z2 *. (♯(cl3lhiP[2]) +. z *. ♯(cl3lhiP[3])) +. z4 *. (♯(cl3lhiP[4]) +. z *. ♯(cl3lhiP[5]) +. z2 *. (♯(cl3lhiP[6]) +. z *. ♯(cl3lhiP[7]))) +. z8 *. (♯(cl3lhiP[8]) +. z *. ♯(cl3lhiP[9]) +. z2 *. (♯(cl3lhiP[10]) +. z *. ♯(cl3lhiP[11])) +. z4 *. (♯(cl3lhiP[12]) +. z *. ♯(cl3lhiP[13]) +. z2 *. (♯(cl3lhiP[14]) +. z *. ♯(cl3lhiP[15])))) +. z16 *. (♯(cl3lhiP[16]) +. z *. ♯(cl3lhiP[17]) +. z2 *. (♯(cl3lhiP[18]) +. z *. ♯(cl3lhiP[19])) +. z4 *. (♯(cl3lhiP[20]) +. z *. ♯(cl3lhiP[21]) +. z2 *. ♯(cl3lhiP[22])))
/-- polynomial of `Cl3l` -/
def cl3lhiQe (z : F) : F :=
  let z2 := z *. z
  let z4 := z2 *. z2
  let z8 := z4 *. z4
  let z16 := z8 *. z8
  ♯(cl3lhiQ[0]) +. z *. ♯(cl3lhiQ[1]) +. z2 *. (♯(cl3lhiQ[2]) +. z *. ♯(cl3lhiQ[3])) +. z4 *. (♯(cl3lhiQ[4]) +. z *. ♯(cl3lhiQ[5]) +. z2 *. (♯(cl3lhiQ[6]) +. z *. ♯(cl3lhiQ[7]))) +. z8 *. (♯(cl3lhiQ[8]) +. z *. ♯(cl3lhiQ[9]) +. z2 *. (♯(cl3lhiQ[10]) +. z *. ♯(cl3lhiQ[11])) +. z4 *. (♯(cl3lhiQ[12]) +. z *. ♯(cl3lhiQ[13]) +. z2 *. (♯(cl3lhiQ[14]) +. z *. ♯(cl3lhiQ[15])))) +. z16 *. (♯(cl3lhiQ[16]) +. z *. ♯(cl3lhiQ[17]) +. z2 *. (♯(cl3lhiQ[18]) +. z *. ♯(cl3lhiQ[19])) +. z4 *. (♯(cl3lhiQ[20]) +. z *. ♯(cl3lhiQ[21]) +. z2 *. ♯(cl3lhiQ[22])))
/-- low branch of `Cl3l` -/
def cl3lLo (x : F) : F :=
  let PI : F := ♯3.14159265358979323846264338327950288
  let PI28 := PI *. PI /. ♯8
  ♯1.2020569031595942853997381615114499908 +. x *. x *. ((cl3lloPe (x *. x -. PI28)) /. (cl3lloQe (x *. x -. PI28)) +. ♯0.5 *. (xlog x))
/-- high branch of `Cl3l` -/
def cl3lHi (x : F) : F :=
  let PI : F := ♯3.14159265358979323846264338327950288
  let PI28 := PI *. PI /. ♯8
  cl3lhiPe ((PI -. x) *. (PI -. x) -. PI28) /. cl3lhiQe ((PI -. x) *. (PI -. x) -. PI28)
theorem Cl3l_split (x : F) : Cl3l x =
  (let PI : F := ♯3.14159265358979323846264338327950288
   let r := reduceAbs PI ♯0.0019353071795864769252867665590057683943 x
   if r ==. ♯0 then ♯1.2020569031595942853997381615114499908 else if r <. PI /. ♯2 then cl3lLo r else cl3lHi r) := rfl

end

variable {S : RealSem}

theorem cl3dloPe_R (z : R S) : ofR (cl3dloPe z) = rv S cl3dloP (ofR z) := by
  simp [cl3dloPe, rsem, rv, Fin.sum_univ_succ]; ring
theorem cl3dloQe_R (z : R S) : ofR (cl3dloQe z) = rv S cl3dloQ (ofR z) := by
  simp [cl3dloQe, rsem, rv, Fin.sum_univ_succ]; ring
theorem cl3dhiPe_R (z : R S) : ofR (cl3dhiPe z) = rv S cl3dhiP (ofR z) := by
  simp [cl3dhiPe, rsem, rv, Fin.sum_univ_succ]; ring
theorem cl3dhiQe_R (z : R S) : ofR (cl3dhiQe z) = rv S cl3dhiQ (ofR z) := by
  simp [cl3dhiQe, rsem, rv, Fin.sum_univ_succ]; ring

theorem cl3dLoQ_pos {u : ℝ} (hS : S.Lit u) (hu : u ≤ 1e-6) {r : R S} (h0 : 0 < ofR r) (h1 : ofR r < ofR (FOps.lit 3.14159265358979324 : R S) / 2) :
    0 < ofR (cl3dloQe (r *. r)) := by
  have hu0 := hS.u_nonneg
  have hd := PId hS
  obtain ⟨f, hf, hc, hy0, hy1, hr1, hz, hη⟩ := lo_branch 1 0 (by norm_num) hd (by linarith) h0 h1
  have hf1 := hasSum_drop hy0.ne' hf
  obtain ⟨hq, -⟩ := apx_cl3dlo hS (by linarith) hy0 hy1 hf1
  have hzR : ofR (r *. r) = ofR r * ofR r := ofR_mul _ _
  rw [cl3dloQe_R, hzR]; exact hq

theorem cl3dLo_acc {u : ℝ} (hS : S.Lit u) (hu : u ≤ 1e-6) {r : R S} (h0 : 0 < ofR r) (h1 : ofR r < ofR (FOps.lit 3.14159265358979324 : R S) / 2) :
    |ofR (cl3dLo r) - clausen (2 * 1 + 1 + 0) (ofR r)| ≤ 523e-19 + 111e-1 * u := by
  have hu0 := hS.u_nonneg
  have hd := PId hS
  obtain ⟨f, hf, hc, hy0, hy1, hr1, hz, hη⟩ := lo_branch 1 0 (by norm_num) hd (by linarith) h0 h1
  have hf1 := hasSum_drop hy0.ne' hf
  obtain ⟨hq, ha⟩ := apx_cl3dlo hS (by linarith) hy0 hy1 hf1
  have hzR : ofR (r *. r) = ofR r * ofR r := ofR_mul _ _
  have hq0 : ofR (cl3dloQe (r *. r)) ≠ 0 := by rw [cl3dloQe_R, hzR]; exact hq.ne'
  have ev : ofR (cl3dLo r) = _ := lo3_R hS r (r *. r) (cl3dloPe (r *. r)) (cl3dloQe (r *. r)) (FOps.lit 1.2020569031595943 : R S) h0 hq0
  rw [ev, hc, cl3dloPe_R, cl3dloQe_R, hzR]
  generalize rv S cl3dloP (ofR r * ofR r) / rv S cl3dloQ (ofR r * ofR r) = A at *
  have hz3 := Z3d hS
  have hl0 : loC 1 0 0 = reLi 3 1 := by rw [loC_lt _ _ _ (by norm_num)]; simp [Nat.factorial]
  rw [hl0] at ha
  generalize ofR (FOps.lit 1.2020569031595943 : R S) = Z at *
  generalize Real.log (ofR r) = l at *
  clear ev hq0 hzR hq hf hf1
  generalize ofR r = x at *
  have e : Z + x * x * (A + 1 / 2 * l) - x ^ 0 * (f - (-1) ^ 1 * (x ^ 2) ^ 1 / (2 * 1 + 0).factorial * l) = (Z - reLi 3 1) + (x * x) * (A - (f - reLi 3 1) / (x * x)) := by
    norm_num [Nat.factorial]
    field_simp
    try ring
  rw [e]
  refine (abs_add_le _ _).trans ?_
  rw [abs_mul, abs_of_pos hy0]
  have := mul_le_mul hy1 ha (abs_nonneg _) (by norm_num)
  linarith

theorem cl3dHiQ_pos {u : ℝ} (hS : S.Lit u) (hu : u ≤ 1e-6) {r : R S} (h1 : ofR (FOps.lit 3.14159265358979324 : R S) / 2 ≤ ofR r) (h2 : ofR r ≤ ofR (FOps.lit 3.14159265358979324 : R S) + 1e-4) :
    0 < ofR (cl3dhiQe (((FOps.lit 3.14159265358979324 : R S) -. r) *. ((FOps.lit 3.14159265358979324 : R S) -. r) -. (FOps.lit 3.14159265358979324 : R S) *. (FOps.lit 3.14159265358979324 : R S) /. (FOps.lit 8 : R S))) := by
  have hu0 := hS.u_nonneg
  have hd := PId hS
  obtain ⟨f, hf, hc, hy0, hy1, hr1, hz, hη⟩ := hi_branch 1 0 (by norm_num) (by norm_num) hd (by linarith) (by linarith) h2
  obtain ⟨hq, -⟩ := apx_cl3dhi hS (by linarith) hz hη hy0 hy1 hf
  have hzR : ofR (((FOps.lit 3.14159265358979324 : R S) -. r) *. ((FOps.lit 3.14159265358979324 : R S) -. r) -. (FOps.lit 3.14159265358979324 : R S) *. (FOps.lit 3.14159265358979324 : R S) /. (FOps.lit 8 : R S)) = (ofR (FOps.lit 3.14159265358979324 : R S) - ofR r) * (ofR (FOps.lit 3.14159265358979324 : R S) - ofR r) - ofR (FOps.lit 3.14159265358979324 : R S) * ofR (FOps.lit 3.14159265358979324 : R S) / 8 := by
    rw [ofR_sub, ofR_mul, sq8_R hS, ofR_sub]
  rw [cl3dhiQe_R, hzR]; exact hq

theorem cl3dHi_acc {u : ℝ} (hS : S.Lit u) (hu : u ≤ 1e-6) {r : R S} (h1 : ofR (FOps.lit 3.14159265358979324 : R S) / 2 - 1e-6 ≤ ofR r) (h2 : ofR r ≤ ofR (FOps.lit 3.14159265358979324 : R S) + 1e-4) :
    |ofR (cl3dHi r) - clausen (2 * 1 + 1 + 0) (ofR r)| ≤ 57e-19 + 121e-1 * u := by
  have hu0 := hS.u_nonneg
  have hd := PId hS
  obtain ⟨f, hf, hc, hy0, hy1, hr1, hz, hη⟩ := hi_branch 1 0 (by norm_num) (by norm_num) hd (by linarith) h1 h2
  obtain ⟨hq, ha, hF⟩ := apx_cl3dhi hS (by linarith) hz hη hy0 hy1 hf
  have hzR : ofR (((FOps.lit 3.14159265358979324 : R S) -. r) *. ((FOps.lit 3.14159265358979324 : R S) -. r) -. (FOps.lit 3.14159265358979324 : R S) *. (FOps.lit 3.14159265358979324 : R S) /. (FOps.lit 8 : R S)) = (ofR (FOps.lit 3.14159265358979324 : R S) - ofR r) * (ofR (FOps.lit 3.14159265358979324 : R S) - ofR r) - ofR (FOps.lit 3.14159265358979324 : R S) * ofR (FOps.lit 3.14159265358979324 : R S) / 8 := by
    rw [ofR_sub, ofR_mul, sq8_R hS, ofR_sub]
  have hq0 : ofR (cl3dhiQe (((FOps.lit 3.14159265358979324 : R S) -. r) *. ((FOps.lit 3.14159265358979324 : R S) -. r) -. (FOps.lit 3.14159265358979324 : R S) *. (FOps.lit 3.14159265358979324 : R S) /. (FOps.lit 8 : R S))) ≠ 0 := by rw [cl3dhiQe_R, hzR]; exact hq.ne'
  have ev : ofR (cl3dHi r) = _ := ofR_div (a := cl3dhiPe (((FOps.lit 3.14159265358979324 : R S) -. r) *. ((FOps.lit 3.14159265358979324 : R S) -. r) -. (FOps.lit 3.14159265358979324 : R S) *. (FOps.lit 3.14159265358979324 : R S) /. (FOps.lit 8 : R S))) hq0
  rw [cl3dhiPe_R, cl3dhiQe_R, hzR] at ev
  rw [ev, hc, pow_zero, one_mul]
  refine ha.trans ?_
  linarith

/-- `Cl3d`, every argument; `⌊|x| / (2 PI)⌋` is the number of periods subtracted by `fmod` -/
theorem Cl3d_acc {u : ℝ} (hS : S.Lit u) (hu : u ≤ 1e-6) (x : ℝ)
    (hw : wrap (ofR (FOps.lit 3.14159265358979324 : R S)) x ≤ 6.28125 + ofR (FOps.lit 0.0019353071795864769253 : R S)) :
    |ofR (Cl3d (toR S x)) - clausen 3 x| ≤ 523e-19 + 13 * u
      + (2 * (1.4e-23 + 0.002 * u + 2 * (1.6e-18 + 3.15 * u) * ⌊|x| / (2 * ofR (FOps.lit 3.14159265358979324 : R S))⌋₊) + 0) := by
  have hu0 := hS.u_nonneg
  have hd := PId hS
  have he := P1d hS
  have hpi := pi_gt
  have hP3 : 3 ≤ ofR (FOps.lit 3.14159265358979324 : R S) := by have := (abs_le.mp hd).1; linarith
  rw [Cl3d_split]
  dsimp only
  have hr := reduceAbs_R hS (PI := (FOps.lit 3.14159265358979324 : R S)) (p1 := (FOps.lit 0.0019353071795864769253 : R S)) (x := toR S x) (by linarith)
  obtain ⟨r0, r1, ht⟩ := reduce_spec 1 0 (by norm_num) (by norm_num) hP3 hd he hr rfl hw
  rw [pow_zero] at ht
  generalize reduceAbs (FOps.lit 3.14159265358979324 : R S) (FOps.lit 0.0019353071795864769253 : R S) (toR S x) = r at *
  have hz := Z3d hS
  have key : |ofR (if r ==. (FOps.lit 0 : R S) then (FOps.lit 1.2020569031595943 : R S) else if r <. (FOps.lit 3.14159265358979324 : R S) /. (FOps.lit 2 : R S) then cl3dLo r else cl3dHi r)
      - clausen (2 * 1 + 1 + 0) (ofR r)| ≤ 523e-19 + 13 * u := by
    simp only [eq_R, lt_R, lit0 hS, half_R hS, decide_eq_true_eq]
    split_ifs with c1 c3
    · rw [c1, clausen_odd_zero]
      exact hz.trans (by linarith)
    · have g := cl3dLo_acc hS hu (r := r) (lt_of_le_of_ne r0 (Ne.symm c1)) c3
      exact g.trans (by linarith)
    · have g := cl3dHi_acc hS hu (r := r) (by linarith) (by linarith)
      exact g.trans (by linarith)
  exact cl_final 1 0 (s := 1) (by norm_num) (one_mul _).symm key (fun a b => le_of_le_of_eq (clausen_lip 1 0 (by norm_num) (by norm_num) a b) (add_zero _).symm) (by norm_num) ht
theorem cl3lloPe_R (z : R S) : ofR (cl3lloPe z) = rv S cl3lloP (ofR z) := by
  simp [cl3lloPe, rsem, rv, Fin.sum_univ_succ]; ring
theorem cl3lloQe_R (z : R S) : ofR (cl3lloQe z) = rv S cl3lloQ (ofR z) := by
  simp [cl3lloQe, rsem, rv, Fin.sum_univ_succ]; ring
theorem cl3lhiPe_R (z : R S) : ofR (cl3lhiPe z) = rv S cl3lhiP (ofR z) := by
  simp [cl3lhiPe, rsem, rv, Fin.sum_univ_succ]; ring
theorem cl3lhiQe_R (z : R S) : ofR (cl3lhiQe z) = rv S cl3lhiQ (ofR z) := by
  simp [cl3lhiQe, rsem, rv, Fin.sum_univ_succ]; ring

theorem cl3lLoQ_pos {u : ℝ} (hS : S.Lit u) (hu : u ≤ 1e-6) {r : R S} (h0 : 0 < ofR r) (h1 : ofR r < ofR (FOps.lit 3.14159265358979323846264338327950288 : R S) / 2) :
    0 < ofR (cl3lloQe (r *. r -. (FOps.lit 3.14159265358979323846264338327950288 : R S) *. (FOps.lit 3.14159265358979323846264338327950288 : R S) /. (FOps.lit 8 : R S))) := by
  have hu0 := hS.u_nonneg
  have hd := PIl hS
  obtain ⟨f, hf, hc, hy0, hy1, hr1, hz, hη⟩ := lo_branch 1 0 (by norm_num) hd (by linarith) h0 h1
  have hf1 := hasSum_drop hy0.ne' hf
  obtain ⟨hq, -⟩ := apx_cl3llo hS (by linarith) hz hη hy0.le hy1 hf1
  have hzR : ofR (r *. r -. (FOps.lit 3.14159265358979323846264338327950288 : R S) *. (FOps.lit 3.14159265358979323846264338327950288 : R S) /. (FOps.lit 8 : R S)) = ofR r * ofR r - ofR (FOps.lit 3.14159265358979323846264338327950288 : R S) * ofR (FOps.lit 3.14159265358979323846264338327950288 : R S) / 8 := by
    rw [ofR_sub, ofR_mul, sq8_R hS]
  rw [cl3lloQe_R, hzR]; exact hq

theorem cl3lLo_acc {u : ℝ} (hS : S.Lit u) (hu : u ≤ 1e-6) {r : R S} (h0 : 0 < ofR r) (h1 : ofR r < ofR (FOps.lit 3.14159265358979323846264338327950288 : R S) / 2) :
    |ofR (cl3lLo r) - clausen (2 * 1 + 1 + 0) (ofR r)| ≤ 7e-38 + 112e-1 * u := by
  have hu0 := hS.u_nonneg
  have hd := PIl hS
  obtain ⟨f, hf, hc, hy0, hy1, hr1, hz, hη⟩ := lo_branch 1 0 (by norm_num) hd (by linarith) h0 h1
  have hf1 := hasSum_drop hy0.ne' hf
  obtain ⟨hq, ha, -⟩ := apx_cl3llo hS (by linarith) hz hη hy0.le hy1 hf1
  have hzR : ofR (r *. r -. (FOps.lit 3.14159265358979323846264338327950288 : R S) *. (FOps.lit 3.14159265358979323846264338327950288 : R S) /. (FOps.lit 8 : R S)) = ofR r * ofR r - ofR (FOps.lit 3.14159265358979323846264338327950288 : R S) * ofR (FOps.lit 3.14159265358979323846264338327950288 : R S) / 8 := by
    rw [ofR_sub, ofR_mul, sq8_R hS]
  have hq0 : ofR (cl3lloQe (r *. r -. (FOps.lit 3.14159265358979323846264338327950288 : R S) *. (FOps.lit 3.14159265358979323846264338327950288 : R S) /. (FOps.lit 8 : R S))) ≠ 0 := by rw [cl3lloQe_R, hzR]; exact hq.ne'
  have ev : ofR (cl3lLo r) = _ := lo3_R hS r (r *. r) (cl3lloPe (r *. r -. (FOps.lit 3.14159265358979323846264338327950288 : R S) *. (FOps.lit 3.14159265358979323846264338327950288 : R S) /. (FOps.lit 8 : R S))) (cl3lloQe (r *. r -. (FOps.lit 3.14159265358979323846264338327950288 : R S) *. (FOps.lit 3.14159265358979323846264338327950288 : R S) /. (FOps.lit 8 : R S))) (FOps.lit 1.2020569031595942853997381615114499908 : R S) h0 hq0
  rw [ev, hc, cl3lloPe_R, cl3lloQe_R, hzR, ofR_mul]
  generalize rv S cl3lloP (ofR r * ofR r - ofR (FOps.lit 3.14159265358979323846264338327950288 : R S) * ofR (FOps.lit 3.14159265358979323846264338327950288 : R S) / 8) / rv S cl3lloQ (ofR r * ofR r - ofR (FOps.lit 3.14159265358979323846264338327950288 : R S) * ofR (FOps.lit 3.14159265358979323846264338327950288 : R S) / 8) = A at *
  have hz3 := Z3l hS
  have hl0 : loC 1 0 0 = reLi 3 1 := by rw [loC_lt _ _ _ (by norm_num)]; simp [Nat.factorial]
  rw [hl0] at ha
  generalize ofR (FOps.lit 1.2020569031595942853997381615114499908 : R S) = Z at *
  generalize Real.log (ofR r) = l at *
  clear ev hq0 hzR hq hf hf1
  generalize ofR r = x at *
  have e : Z + x * x * (A + 1 / 2 * l) - x ^ 0 * (f - (-1) ^ 1 * (x ^ 2) ^ 1 / (2 * 1 + 0).factorial * l) = (Z - reLi 3 1) + (x * x) * (A - (f - reLi 3 1) / (x * x)) := by
    norm_num [Nat.factorial]
    field_simp
    try ring
  rw [e]
  refine (abs_add_le _ _).trans ?_
  rw [abs_mul, abs_of_pos hy0]
  have := mul_le_mul hy1 ha (abs_nonneg _) (by norm_num)
  linarith

theorem cl3lHiQ_pos {u : ℝ} (hS : S.Lit u) (hu : u ≤ 1e-6) {r : R S} (h1 : ofR (FOps.lit 3.14159265358979323846264338327950288 : R S) / 2 ≤ ofR r) (h2 : ofR r ≤ ofR (FOps.lit 3.14159265358979323846264338327950288 : R S) + 1e-4) :
    0 < ofR (cl3lhiQe (((FOps.lit 3.14159265358979323846264338327950288 : R S) -. r) *. ((FOps.lit 3.14159265358979323846264338327950288 : R S) -. r) -. (FOps.lit 3.14159265358979323846264338327950288 : R S) *. (FOps.lit 3.14159265358979323846264338327950288 : R S) /. (FOps.lit 8 : R S))) := by
  have hu0 := hS.u_nonneg
  have hd := PIl hS
  obtain ⟨f, hf, hc, hy0, hy1, hr1, hz, hη⟩ := hi_branch 1 0 (by norm_num) (by norm_num) hd (by linarith) (by linarith) h2
  obtain ⟨hq, -⟩ := apx_cl3lhi hS (by linarith) hz hη hy0 hy1 hf
  have hzR : ofR (((FOps.lit 3.14159265358979323846264338327950288 : R S) -. r) *. ((FOps.lit 3.14159265358979323846264338327950288 : R S) -. r) -. (FOps.lit 3.14159265358979323846264338327950288 : R S) *. (FOps.lit 3.14159265358979323846264338327950288 : R S) /. (FOps.lit 8 : R S)) = (ofR (FOps.lit 3.14159265358979323846264338327950288 : R S) - ofR r) * (ofR (FOps.lit 3.14159265358979323846264338327950288 : R S) - ofR r) - ofR (FOps.lit 3.14159265358979323846264338327950288 : R S) * ofR (FOps.lit 3.14159265358979323846264338327950288 : R S) / 8 := by
    rw [ofR_sub, ofR_mul, sq8_R hS, ofR_sub]
  rw [cl3lhiQe_R, hzR]; exact hq

theorem cl3lHi_acc {u : ℝ} (hS : S.Lit u) (hu : u ≤ 1e-6) {r : R S} (h1 : ofR (FOps.lit 3.14159265358979323846264338327950288 : R S) / 2 - 1e-6 ≤ ofR r) (h2 : ofR r ≤ ofR (FOps.lit 3.14159265358979323846264338327950288 : R S) + 1e-4) :
    |ofR (cl3lHi r) - clausen (2 * 1 + 1 + 0) (ofR r)| ≤ 172e-28 + 1140 * u := by
  have hu0 := hS.u_nonneg
  have hd := PIl hS
  obtain ⟨f, hf, hc, hy0, hy1, hr1, hz, hη⟩ := hi_branch 1 0 (by norm_num) (by norm_num) hd (by linarith) h1 h2
  obtain ⟨hq, ha, hF⟩ := apx_cl3lhi hS (by linarith) hz hη hy0 hy1 hf
  have hzR : ofR (((FOps.lit 3.14159265358979323846264338327950288 : R S) -. r) *. ((FOps.lit 3.14159265358979323846264338327950288 : R S) -. r) -. (FOps.lit 3.14159265358979323846264338327950288 : R S) *. (FOps.lit 3.14159265358979323846264338327950288 : R S) /. (FOps.lit 8 : R S)) = (ofR (FOps.lit 3.14159265358979323846264338327950288 : R S) - ofR r) * (ofR (FOps.lit 3.14159265358979323846264338327950288 : R S) - ofR r) - ofR (FOps.lit 3.14159265358979323846264338327950288 : R S) * ofR (FOps.lit 3.14159265358979323846264338327950288 : R S) / 8 := by
    rw [ofR_sub, ofR_mul, sq8_R hS, ofR_sub]
  have hq0 : ofR (cl3lhiQe (((FOps.lit 3.14159265358979323846264338327950288 : R S) -. r) *. ((FOps.lit 3.14159265358979323846264338327950288 : R S) -. r) -. (FOps.lit 3.14159265358979323846264338327950288 : R S) *. (FOps.lit 3.14159265358979323846264338327950288 : R S) /. (FOps.lit 8 : R S))) ≠ 0 := by rw [cl3lhiQe_R, hzR]; exact hq.ne'
  have ev : ofR (cl3lHi r) = _ := ofR_div (a := cl3lhiPe (((FOps.lit 3.14159265358979323846264338327950288 : R S) -. r) *. ((FOps.lit 3.14159265358979323846264338327950288 : R S) -. r) -. (FOps.lit 3.14159265358979323846264338327950288 : R S) *. (FOps.lit 3.14159265358979323846264338327950288 : R S) /. (FOps.lit 8 : R S))) hq0
  rw [cl3lhiPe_R, cl3lhiQe_R, hzR] at ev
  rw [ev, hc, pow_zero, one_mul]
  refine ha.trans ?_
  linarith

/-- `Cl3l`, every argument; `⌊|x| / (2 PI)⌋` is the number of periods subtracted by `fmod` -/
theorem Cl3l_acc {u : ℝ} (hS : S.Lit u) (hu : u ≤ 1e-6) (x : ℝ)
    (hw : wrap (ofR (FOps.lit 3.14159265358979323846264338327950288 : R S)) x ≤ 6.28125 + ofR (FOps.lit 0.0019353071795864769252867665590057683943 : R S)) :
    |ofR (Cl3l (toR S x)) - clausen 3 x| ≤ 172e-28 + 1140 * u
      + (2 * (5e-41 + 0.002 * u + 2 * (4.2e-36 + 3.15 * u) * ⌊|x| / (2 * ofR (FOps.lit 3.14159265358979323846264338327950288 : R S))⌋₊) + 0) := by
  have hu0 := hS.u_nonneg
  have hd := PIl hS
  have he := P1l hS
  have hpi := pi_gt
  have hP3 : 3 ≤ ofR (FOps.lit 3.14159265358979323846264338327950288 : R S) := by have := (abs_le.mp hd).1; linarith
  rw [Cl3l_split]
  dsimp only
  have hr := reduceAbs_R hS (PI := (FOps.lit 3.14159265358979323846264338327950288 : R S)) (p1 := (FOps.lit 0.0019353071795864769252867665590057683943 : R S)) (x := toR S x) (by linarith)
  obtain ⟨r0, r1, ht⟩ := reduce_spec 1 0 (by norm_num) (by norm_num) hP3 hd he hr rfl hw
  rw [pow_zero] at ht
  generalize reduceAbs (FOps.lit 3.14159265358979323846264338327950288 : R S) (FOps.lit 0.0019353071795864769252867665590057683943 : R S) (toR S x) = r at *
  have hz := Z3l hS
  have key : |ofR (if r ==. (FOps.lit 0 : R S) then (FOps.lit 1.2020569031595942853997381615114499908 : R S) else if r <. (FOps.lit 3.14159265358979323846264338327950288 : R S) /. (FOps.lit 2 : R S) then cl3lLo r else cl3lHi r)
      - clausen (2 * 1 + 1 + 0) (ofR r)| ≤ 172e-28 + 1140 * u := by
    simp only [eq_R, lt_R, lit0 hS, half_R hS, decide_eq_true_eq]
    split_ifs with c1 c3
    · rw [c1, clausen_odd_zero]
      exact hz.trans (by linarith)
    · have g := cl3lLo_acc hS hu (r := r) (lt_of_le_of_ne r0 (Ne.symm c1)) c3
      exact g.trans (by linarith)
    · have g := cl3lHi_acc hS hu (r := r) (by linarith) (by linarith)
      exact g.trans (by linarith)
  exact cl_final 1 0 (s := 1) (by norm_num) (one_mul _).symm key (fun a b => le_of_le_of_eq (clausen_lip 1 0 (by norm_num) (by norm_num) a b) (add_zero _).symm) (by norm_num) ht

/-- the denominators of `Cl3` are positive at every reduced argument: low branch (`0 < r < PI/2`) and high branch
(`PI/2 ≤ r ≤ PI + 1e-4`), both overloads -/
theorem C34_Cl3 {u : ℝ} (hS : S.Lit u) (hu : u ≤ 1e-6) (r : R S) :
    (0 < ofR r → ofR r < ofR (FOps.lit 3.14159265358979324 : R S) / 2 → 0 < ofR (cl3dloQe (r *. r))) ∧
    (ofR (FOps.lit 3.14159265358979324 : R S) / 2 ≤ ofR r → ofR r ≤ ofR (FOps.lit 3.14159265358979324 : R S) + 1e-4 → 0 < ofR (cl3dhiQe (((FOps.lit 3.14159265358979324 : R S) -. r) *. ((FOps.lit 3.14159265358979324 : R S) -. r) -. (FOps.lit 3.14159265358979324 : R S) *. (FOps.lit 3.14159265358979324 : R S) /. (FOps.lit 8 : R S)))) ∧
    (0 < ofR r → ofR r < ofR (FOps.lit 3.14159265358979323846264338327950288 : R S) / 2 → 0 < ofR (cl3lloQe (r *. r -. (FOps.lit 3.14159265358979323846264338327950288 : R S) *. (FOps.lit 3.14159265358979323846264338327950288 : R S) /. (FOps.lit 8 : R S)))) ∧
    (ofR (FOps.lit 3.14159265358979323846264338327950288 : R S) / 2 ≤ ofR r → ofR r ≤ ofR (FOps.lit 3.14159265358979323846264338327950288 : R S) + 1e-4 → 0 < ofR (cl3lhiQe (((FOps.lit 3.14159265358979323846264338327950288 : R S) -. r) *. ((FOps.lit 3.14159265358979323846264338327950288 : R S) -. r) -. (FOps.lit 3.14159265358979323846264338327950288 : R S) *. (FOps.lit 3.14159265358979323846264338327950288 : R S) /. (FOps.lit 8 : R S)))) :=
  ⟨cl3dLoQ_pos hS hu, cl3dHiQ_pos hS hu, cl3lLoQ_pos hS hu, cl3lHiQ_pos hS hu⟩

end Polylog
