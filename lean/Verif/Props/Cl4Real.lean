import Verif.Props.ClGen
import Verif.Model.Cl4

/-! # Accuracy of `Cl4` (generated by tools/cl/gencl3.py) -/

noncomputable section
namespace Polylog
set_option linter.style.longLine false

section
variable {F : Type} [FOps F]
/-- numeric literal -/
local notation:max "♯" q:max => (FOps.lit (q : ℚ) : F)

/-- polynomial of `Cl4d` -/
def cl4dloPe (y : F) : F :=
  let y2 := y *. y
  ♯(cl4dloP[0]) +. y *. ♯(cl4dloP[1]) +. y2 *. (♯(cl4dloP[2]) +. y *. ♯(cl4dloP[3]))
/-- polynomial of `Cl4d` -/
def cl4dloQe (y : F) : F :=
  let y2 := y *. y
  ♯(cl4dloQ[0]) +. y *. ♯(cl4dloQ[1]) +. y2 *. (♯(cl4dloQ[2]) +. y *. ♯(cl4dloQ[3]))
/-- polynomial of `Cl4d` -/
def cl4dhiPe (z : F) : F :=
  let z2 := z *. z
  let z4 := z2 *. z2
  ♯(cl4dhiP[0]) +. z *. ♯(cl4dhiP[1]) +. z2 *. (♯(cl4dhiP[2]) +. z *. ♯(cl4dhiP[3])) +. z4 *. (♯(cl4dhiP[4]) +. z *. ♯(cl4dhiP[5]))
/-- polynomial of `Cl4d` -/
def cl4dhiQe (z : F) : F :=
  let z2 := z *. z
  let z4 := z2 *. z2
  ♯(cl4dhiQ[0]) +. z *. ♯(cl4dhiQ[1]) +. z2 *. (♯(cl4dhiQ[2]) +. z *. ♯(cl4dhiQ[3])) +. z4 *. (♯(cl4dhiQ[4]) +. z *. ♯(cl4dhiQ[5]))
/-- low branch of `Cl4d` -/
def cl4dLo (x : F) : F :=
  x *. (♯1.2020569031595943 +. x *. x *. ((cl4dloPe (x *. x)) /. (cl4dloQe (x *. x)) +. ♯1 /. ♯6 *. (xlog x)))
/-- high branch of `Cl4d` -/
def cl4dHi (x : F) : F :=
  let PI : F := ♯3.14159265358979324
  let PI28 := PI *. PI /. ♯8
  (PI -. x) *. cl4dhiPe ((PI -. x) *. (PI -. x) -. PI28) /. cl4dhiQe ((PI -. x) *. (PI -. x) -. PI28)
theorem Cl4d_split (x : F) : Cl4d x =
  (let PI : F := ♯3.14159265358979324
   let xs := reduceSgn PI ♯0.0019353071795864769253 x
   if xs.1 ==. ♯0 then xs.1 else if xs.1 ==. PI then ♯0 else if xs.1 <. PI /. ♯2 then xs.2 *. cl4dLo xs.1 else xs.2 *. cl4dHi xs.1) := rfl

/-- polynomial of `Cl4l` -/
def cl4lloPe (z : F) : F :=
  let z2 := z *. z
  let z4 := z2 *. z2
  let z8 := z4 *. z4
  ♯(cl4lloP[0]) +. z *. ♯(cl4lloP[1]) +. z2 *. (♯(cl4lloP[2]) +. z *. ♯(cl4lloP[3])) +. z4 *. (♯(cl4lloP[4]) +. z *. ♯(cl4lloP[5]) +. z2 *. (♯(cl4lloP[6]) +. z *. ♯(cl4lloP[7]))) +. z8 *. ♯(cl4lloP[8])
/-- polynomial of `Cl4l` -/
def cl4lloQe (z : F) : F :=
  let z2 := z *. z
  let z4 := z2 *. z2
  let z8 := z4 *. z4
  ♯(cl4lloQ[0]) +. z *. ♯(cl4lloQ[1]) +. z2 *. (♯(cl4lloQ[2]) +. z *. ♯(cl4lloQ[3])) +. z4 *. (♯(cl4lloQ[4]) +. z *. ♯(cl4lloQ[5]) +. z2 *. (♯(cl4lloQ[6]) +. z *. ♯(cl4lloQ[7]))) +. z8 *. ♯(cl4lloQ[8])
/-- polynomial of `Cl4l` -/
def cl4lhiPe (z : F) : F :=
  let z2 := z *. z
  let z4 := z2 *. z2
  let z8 := z4 *. z4
  ♯(cl4lhiP[0]) +. z *. ♯(cl4lhiP[1]) +. z2 *. (♯(cl4lhiP[2]) +. z *. ♯(cl4lhiP[3])) +. z4 *. (♯(cl4lhiP[4]) +. z *. ♯(cl4lhiP[5]) +. z2 *. (♯(cl4lhiP[6]) +. z *. ♯(cl4lhiP[7]))) +. z8 *. (♯(cl4lhiP[8]) +. z *. ♯(cl4lhiP[9]) +. z2 *. (♯(cl4lhiP[10]) +. z *. ♯(cl4lhiP[11])) +. z4 *. ♯(cl4lhiP[12]))
/-- polynomial of `Cl4l` -/
def cl4lhiQe (z : F) : F :=
  let z2 := z *. z
  let z4 := z2 *. z2
  let z8 := z4 *. z4
  ♯(cl4lhiQ[0]) +. z *. ♯(cl4lhiQ[1]) +. z2 *. (♯(cl4lhiQ[2]) +. z *. ♯(cl4lhiQ[3])) +. z4 *. (♯(cl4lhiQ[4]) +. z *. ♯(cl4lhiQ[5]) +. z2 *. (♯(cl4lhiQ[6]) +. z *. ♯(cl4lhiQ[7]))) +. z8 *. (♯(cl4lhiQ[8]) +. z *. ♯(cl4lhiQ[9]) +. z2 *. (♯(cl4lhiQ[10]) +. z *. ♯(cl4lhiQ[11])) +. z4 *. ♯(cl4lhiQ[12]))
/-- low branch of `Cl4l` -/
def cl4lLo (x : F) : F :=
  let PI : F := ♯3.14159265358979323846264338327950288
  let PI28 := PI *. PI /. ♯8
  x *. (♯1.2020569031595942853997381615114499908 +. x *. x *. ((cl4lloPe (x *. x -. PI28)) /. (cl4lloQe (x *. x -. PI28)) +. ♯1 /. ♯6 *. (xlog x)))
/-- high branch of `Cl4l` -/
def cl4lHi (x : F) : F :=
  let PI : F := ♯3.14159265358979323846264338327950288
  let PI28 := PI *. PI /. ♯8
  (PI -. x) *. cl4lhiPe ((PI -. x) *. (PI -. x) -. PI28) /. cl4lhiQe ((PI -. x) *. (PI -. x) -. PI28)
theorem Cl4l_split (x : F) : Cl4l x =
  (let PI : F := ♯3.14159265358979323846264338327950288
   let xs := reduceSgn PI ♯0.0019353071795864769252867665590057683943 x
   if xs.1 ==. ♯0 then xs.1 else if xs.1 ==. PI then ♯0 else if xs.1 <. PI /. ♯2 then xs.2 *. cl4lLo xs.1 else xs.2 *. cl4lHi xs.1) := rfl

end

variable {S : RealSem}

theorem cl4dloPe_R (z : R S) : ofR (cl4dloPe z) = rv S cl4dloP (ofR z) := by
  simp [cl4dloPe, rsem, rv, Fin.sum_univ_succ]; ring
theorem cl4dloQe_R (z : R S) : ofR (cl4dloQe z) = rv S cl4dloQ (ofR z) := by
  simp [cl4dloQe, rsem, rv, Fin.sum_univ_succ]; ring
theorem cl4dhiPe_R (z : R S) : ofR (cl4dhiPe z) = rv S cl4dhiP (ofR z) := by
  simp [cl4dhiPe, rsem, rv, Fin.sum_univ_succ]; ring
theorem cl4dhiQe_R (z : R S) : ofR (cl4dhiQe z) = rv S cl4dhiQ (ofR z) := by
  simp [cl4dhiQe, rsem, rv, Fin.sum_univ_succ]; ring

theorem cl4dLoQ_pos {u : ℝ} (hS : S.Lit u) (hu : u ≤ 1e-6) {r : R S} (h0 : 0 < ofR r) (h1 : ofR r < ofR (FOps.lit 3.14159265358979324 : R S) / 2) :
    0 < ofR (cl4dloQe (r *. r)) := by
  have hu0 := hS.u_nonneg
  have hd := PId hS
  obtain ⟨f, hf, hc, hy0, hy1, hr1, hz, hη⟩ := lo_branch 1 1 (by norm_num) hd (by linarith) h0 h1
  have hf1 := hasSum_drop hy0.ne' hf
  obtain ⟨hq, -⟩ := apx_cl4dlo hS (by linarith) hy0 hy1 hf1
  have hzR : ofR (r *. r) = ofR r * ofR r := ofR_mul _ _
  rw [cl4dloQe_R, hzR]; exact hq

theorem cl4dLo_acc {u : ℝ} (hS : S.Lit u) (hu : u ≤ 1e-6) {r : R S} (h0 : 0 < ofR r) (h1 : ofR r < ofR (FOps.lit 3.14159265358979324 : R S) / 2) :
    |ofR (cl4dLo r) - clausen (2 * 1 + 1 + 1) (ofR r)| ≤ 43e-18 + 966e-2 * u := by
  have hu0 := hS.u_nonneg
  have hd := PId hS
  obtain ⟨f, hf, hc, hy0, hy1, hr1, hz, hη⟩ := lo_branch 1 1 (by norm_num) hd (by linarith) h0 h1
  have hf1 := hasSum_drop hy0.ne' hf
  obtain ⟨hq, ha⟩ := apx_cl4dlo hS (by linarith) hy0 hy1 hf1
  have hzR : ofR (r *. r) = ofR r * ofR r := ofR_mul _ _
  have hq0 : ofR (cl4dloQe (r *. r)) ≠ 0 := by rw [cl4dloQe_R, hzR]; exact hq.ne'
  have ev : ofR (cl4dLo r) = _ := lo4_R hS r (r *. r) (cl4dloPe (r *. r)) (cl4dloQe (r *. r)) (FOps.lit 1.2020569031595943 : R S) h0 hq0
  rw [ev, hc, cl4dloPe_R, cl4dloQe_R, hzR]
  generalize rv S cl4dloP (ofR r * ofR r) / rv S cl4dloQ (ofR r * ofR r) = A at *
  have hz3 := Z3d hS
  have hl0 : loC 1 1 0 = reLi 3 1 := by rw [loC_lt _ _ _ (by norm_num)]; simp [Nat.factorial]
  rw [hl0] at ha
  generalize ofR (FOps.lit 1.2020569031595943 : R S) = Z at *
  generalize Real.log (ofR r) = l at *
  clear ev hq0 hzR hq hf hf1
  generalize ofR r = x at *
  have e : x * (Z + x * x * (A + 1 / 6 * l)) - x ^ 1 * (f - (-1) ^ 1 * (x ^ 2) ^ 1 / (2 * 1 + 1).factorial * l) = x * ((Z - reLi 3 1) + (x * x) * (A - (f - reLi 3 1) / (x * x))) := by
    norm_num [Nat.factorial]
    field_simp
    try ring
  rw [e]
  rw [abs_mul, abs_of_pos h0]
  have h5 := mul_le_mul hy1 ha (abs_nonneg _) (by norm_num : (0:ℝ) ≤ 2.4676)
  have h6 := abs_add_le (Z - reLi 3 1) ((x * x) * (A - (f - reLi 3 1) / (x * x)))
  rw [abs_mul (x * x), abs_of_pos hy0] at h6
  have h4 := h6.trans (add_le_add hz3 h5)
  refine (mul_le_mul hr1 h4 (abs_nonneg _) (by norm_num)).trans ?_
  linarith

theorem cl4dHiQ_pos {u : ℝ} (hS : S.Lit u) (hu : u ≤ 1e-6) {r : R S} (h1 : ofR (FOps.lit 3.14159265358979324 : R S) / 2 ≤ ofR r) (h2 : ofR r ≤ ofR (FOps.lit 3.14159265358979324 : R S) + 1e-4) :
    0 < ofR (cl4dhiQe (((FOps.lit 3.14159265358979324 : R S) -. r) *. ((FOps.lit 3.14159265358979324 : R S) -. r) -. (FOps.lit 3.14159265358979324 : R S) *. (FOps.lit 3.14159265358979324 : R S) /. (FOps.lit 8 : R S))) := by
  have hu0 := hS.u_nonneg
  have hd := PId hS
  obtain ⟨f, hf, hc, hy0, hy1, hr1, hz, hη⟩ := hi_branch 1 1 (by norm_num) (by norm_num) hd (by linarith) (by linarith) h2
  obtain ⟨hq, -⟩ := apx_cl4dhi hS (by linarith) hz hη hy0 hy1 hf
  have hzR : ofR (((FOps.lit 3.14159265358979324 : R S) -. r) *. ((FOps.lit 3.14159265358979324 : R S) -. r) -. (FOps.lit 3.14159265358979324 : R S) *. (FOps.lit 3.14159265358979324 : R S) /. (FOps.lit 8 : R S)) = (ofR (FOps.lit 3.14159265358979324 : R S) - ofR r) * (ofR (FOps.lit 3.14159265358979324 : R S) - ofR r) - ofR (FOps.lit 3.14159265358979324 : R S) * ofR (FOps.lit 3.14159265358979324 : R S) / 8 := by
    rw [ofR_sub, ofR_mul, sq8_R hS, ofR_sub]
  rw [cl4dhiQe_R, hzR]; exact hq

theorem cl4dHi_acc {u : ℝ} (hS : S.Lit u) (hu : u ≤ 1e-6) {r : R S} (h1 : ofR (FOps.lit 3.14159265358979324 : R S) / 2 - 1e-6 ≤ ofR r) (h2 : ofR r ≤ ofR (FOps.lit 3.14159265358979324 : R S) + 1e-4) :
    (ofR r = ofR (FOps.lit 3.14159265358979324 : R S) → ofR (cl4dHi r) = 0) ∧ |ofR (cl4dHi r) - clausen (2 * 1 + 1 + 1) (ofR r)| ≤ 312e-19 + 164e-1 * u := by
  have hu0 := hS.u_nonneg
  have hd := PId hS
  obtain ⟨f, hf, hc, hy0, hy1, hr1, hz, hη⟩ := hi_branch 1 1 (by norm_num) (by norm_num) hd (by linarith) h1 h2
  obtain ⟨hq, ha, hF⟩ := apx_cl4dhi hS (by linarith) hz hη hy0 hy1 hf
  have hzR : ofR (((FOps.lit 3.14159265358979324 : R S) -. r) *. ((FOps.lit 3.14159265358979324 : R S) -. r) -. (FOps.lit 3.14159265358979324 : R S) *. (FOps.lit 3.14159265358979324 : R S) /. (FOps.lit 8 : R S)) = (ofR (FOps.lit 3.14159265358979324 : R S) - ofR r) * (ofR (FOps.lit 3.14159265358979324 : R S) - ofR r) - ofR (FOps.lit 3.14159265358979324 : R S) * ofR (FOps.lit 3.14159265358979324 : R S) / 8 := by
    rw [ofR_sub, ofR_mul, sq8_R hS, ofR_sub]
  have hq0 : ofR (cl4dhiQe (((FOps.lit 3.14159265358979324 : R S) -. r) *. ((FOps.lit 3.14159265358979324 : R S) -. r) -. (FOps.lit 3.14159265358979324 : R S) *. (FOps.lit 3.14159265358979324 : R S) /. (FOps.lit 8 : R S))) ≠ 0 := by rw [cl4dhiQe_R, hzR]; exact hq.ne'
  have ev : ofR (cl4dHi r) = _ := hiE_R ((FOps.lit 3.14159265358979324 : R S) -. r) (cl4dhiPe (((FOps.lit 3.14159265358979324 : R S) -. r) *. ((FOps.lit 3.14159265358979324 : R S) -. r) -. (FOps.lit 3.14159265358979324 : R S) *. (FOps.lit 3.14159265358979324 : R S) /. (FOps.lit 8 : R S))) (cl4dhiQe (((FOps.lit 3.14159265358979324 : R S) -. r) *. ((FOps.lit 3.14159265358979324 : R S) -. r) -. (FOps.lit 3.14159265358979324 : R S) *. (FOps.lit 3.14159265358979324 : R S) /. (FOps.lit 8 : R S))) hq0
  rw [cl4dhiPe_R, cl4dhiQe_R, hzR, ofR_sub] at ev
  refine ⟨fun h => by rw [ev, h, sub_self, zero_mul], ?_⟩
  rw [ev, hc, pow_one]
  have hdd : |ofR (FOps.lit 3.14159265358979324 : R S) - ofR r - (Real.pi - ofR r)| ≤ 1.6e-18 + 3.15 * u := by rw [sub_sub_sub_cancel_right]; exact hd
  refine (hi_even ha hr1 hdd hF).trans ?_
  linarith

/-- `Cl4d`, every argument; `⌊|x| / (2 PI)⌋` is the number of periods subtracted by `fmod` -/
theorem Cl4d_acc {u : ℝ} (hS : S.Lit u) (hu : u ≤ 1e-6) (x : ℝ)
    (hw : wrap (ofR (FOps.lit 3.14159265358979324 : R S)) x ≤ 6.28125 + ofR (FOps.lit 0.0019353071795864769253 : R S)) :
    |ofR (Cl4d (toR S x)) - clausen 4 x| ≤ 43e-18 + 17 * u
      + (2 * (1.4e-23 + 0.002 * u + 2 * (1.6e-18 + 3.15 * u) * ⌊|x| / (2 * ofR (FOps.lit 3.14159265358979324 : R S))⌋₊) + 0) := by
  have hu0 := hS.u_nonneg
  have hd := PId hS
  have he := P1d hS
  have hpi := pi_gt
  have hP3 : 3 ≤ ofR (FOps.lit 3.14159265358979324 : R S) := by have := (abs_le.mp hd).1; linarith
  rw [Cl4d_split]
  dsimp only
  have hr := reduceAbs_R hS (PI := (FOps.lit 3.14159265358979324 : R S)) (p1 := (FOps.lit 0.0019353071795864769253 : R S)) (x := toR S x) (by linarith)
  rw [← reduceSgn_R_fst] at hr
  have hs := reduceSgn_R_snd hS (PI := (FOps.lit 3.14159265358979324 : R S)) (p1 := (FOps.lit 0.0019353071795864769253 : R S)) (x := toR S x) (by linarith)
  obtain ⟨r0, r1, ht⟩ := reduce_spec 1 1 (by norm_num) (by norm_num) hP3 hd he hr rfl hw
  have hab := sgn_abs (ofR (toR S x) < 0) (ofR (FOps.lit 3.14159265358979324 : R S) < wrap (ofR (FOps.lit 3.14159265358979324 : R S)) (ofR (toR S x))) 1
  rw [pow_one, ← hs] at ht hab
  generalize reduceSgn (FOps.lit 3.14159265358979324 : R S) (FOps.lit 0.0019353071795864769253 : R S) (toR S x) = xs at *
  have key : ∃ c, ofR (if xs.1 ==. (FOps.lit 0 : R S) then xs.1 else if xs.1 ==. (FOps.lit 3.14159265358979324 : R S) then (FOps.lit 0 : R S) else if xs.1 <. (FOps.lit 3.14159265358979324 : R S) /. (FOps.lit 2 : R S) then xs.2 *. cl4dLo xs.1 else xs.2 *. cl4dHi xs.1) = ofR xs.2 * c
      ∧ |c - clausen (2 * 1 + 1 + 1) (ofR xs.1)| ≤ 43e-18 + 17 * u := by
    simp only [eq_R, lt_R, lit0 hS, half_R hS, decide_eq_true_eq]
    split_ifs with c1 c2 c3
    · refine ⟨0, by rw [c1, mul_zero], ?_⟩
      rw [c1, clausen_even_zero, sub_zero, abs_zero]; positivity
    · obtain ⟨g1, g2⟩ := cl4dHi_acc hS hu (r := xs.1) (by rw [c2]; linarith) (by linarith)
      refine ⟨0, by rw [lit0 hS, mul_zero], ?_⟩
      rw [← g1 c2]; exact g2.trans (by linarith)
    · have g := cl4dLo_acc hS hu (r := xs.1) (lt_of_le_of_ne r0 (Ne.symm c1)) c3
      exact ⟨_, ofR_mul _ _, g.trans (by linarith)⟩
    · obtain ⟨g1, g2⟩ := cl4dHi_acc hS hu (r := xs.1) (by linarith) (by linarith)
      exact ⟨_, ofR_mul _ _, g2.trans (by linarith)⟩
  obtain ⟨c, hc1, hc2⟩ := key
  exact cl_final 1 1 hab hc1 hc2 (fun a b => le_of_le_of_eq (clausen_lip 1 1 (by norm_num) (by norm_num) a b) (add_zero _).symm) (by norm_num) ht
theorem cl4lloPe_R (z : R S) : ofR (cl4lloPe z) = rv S cl4lloP (ofR z) := by
  simp [cl4lloPe, rsem, rv, Fin.sum_univ_succ]; ring
theorem cl4lloQe_R (z : R S) : ofR (cl4lloQe z) = rv S cl4lloQ (ofR z) := by
  simp [cl4lloQe, rsem, rv, Fin.sum_univ_succ]; ring
theorem cl4lhiPe_R (z : R S) : ofR (cl4lhiPe z) = rv S cl4lhiP (ofR z) := by
  simp [cl4lhiPe, rsem, rv, Fin.sum_univ_succ]; ring
theorem cl4lhiQe_R (z : R S) : ofR (cl4lhiQe z) = rv S cl4lhiQ (ofR z) := by
  simp [cl4lhiQe, rsem, rv, Fin.sum_univ_succ]; ring

theorem cl4lLoQ_pos {u : ℝ} (hS : S.Lit u) (hu : u ≤ 1e-6) {r : R S} (h0 : 0 < ofR r) (h1 : ofR r < ofR (FOps.lit 3.14159265358979323846264338327950288 : R S) / 2) :
    0 < ofR (cl4lloQe (r *. r -. (FOps.lit 3.14159265358979323846264338327950288 : R S) *. (FOps.lit 3.14159265358979323846264338327950288 : R S) /. (FOps.lit 8 : R S))) := by
  have hu0 := hS.u_nonneg
  have hd := PIl hS
  obtain ⟨f, hf, hc, hy0, hy1, hr1, hz, hη⟩ := lo_branch 1 1 (by norm_num) hd (by linarith) h0 h1
  have hf1 := hasSum_drop hy0.ne' hf
  obtain ⟨hq, -⟩ := apx_cl4llo hS (by linarith) hz hη hy0.le hy1 hf1
  have hzR : ofR (r *. r -. (FOps.lit 3.14159265358979323846264338327950288 : R S) *. (FOps.lit 3.14159265358979323846264338327950288 : R S) /. (FOps.lit 8 : R S)) = ofR r * ofR r - ofR (FOps.lit 3.14159265358979323846264338327950288 : R S) * ofR (FOps.lit 3.14159265358979323846264338327950288 : R S) / 8 := by
    rw [ofR_sub, ofR_mul, sq8_R hS]
  rw [cl4lloQe_R, hzR]; exact hq

theorem cl4lLo_acc {u : ℝ} (hS : S.Lit u) (hu : u ≤ 1e-6) {r : R S} (h0 : 0 < ofR r) (h1 : ofR r < ofR (FOps.lit 3.14159265358979323846264338327950288 : R S) / 2) :
    |ofR (cl4lLo r) - clausen (2 * 1 + 1 + 1) (ofR r)| ≤ 722e-40 + 967e-2 * u := by
  have hu0 := hS.u_nonneg
  have hd := PIl hS
  obtain ⟨f, hf, hc, hy0, hy1, hr1, hz, hη⟩ := lo_branch 1 1 (by norm_num) hd (by linarith) h0 h1
  have hf1 := hasSum_drop hy0.ne' hf
  obtain ⟨hq, ha, -⟩ := apx_cl4llo hS (by linarith) hz hη hy0.le hy1 hf1
  have hzR : ofR (r *. r -. (FOps.lit 3.14159265358979323846264338327950288 : R S) *. (FOps.lit 3.14159265358979323846264338327950288 : R S) /. (FOps.lit 8 : R S)) = ofR r * ofR r - ofR (FOps.lit 3.14159265358979323846264338327950288 : R S) * ofR (FOps.lit 3.14159265358979323846264338327950288 : R S) / 8 := by
    rw [ofR_sub, ofR_mul, sq8_R hS]
  have hq0 : ofR (cl4lloQe (r *. r -. (FOps.lit 3.14159265358979323846264338327950288 : R S) *. (FOps.lit 3.14159265358979323846264338327950288 : R S) /. (FOps.lit 8 : R S))) ≠ 0 := by rw [cl4lloQe_R, hzR]; exact hq.ne'
  have ev : ofR (cl4lLo r) = _ := lo4_R hS r (r *. r) (cl4lloPe (r *. r -. (FOps.lit 3.14159265358979323846264338327950288 : R S) *. (FOps.lit 3.14159265358979323846264338327950288 : R S) /. (FOps.lit 8 : R S))) (cl4lloQe (r *. r -. (FOps.lit 3.14159265358979323846264338327950288 : R S) *. (FOps.lit 3.14159265358979323846264338327950288 : R S) /. (FOps.lit 8 : R S))) (FOps.lit 1.2020569031595942853997381615114499908 : R S) h0 hq0
  rw [ev, hc, cl4lloPe_R, cl4lloQe_R, hzR, ofR_mul]
  generalize rv S cl4lloP (ofR r * ofR r - ofR (FOps.lit 3.14159265358979323846264338327950288 : R S) * ofR (FOps.lit 3.14159265358979323846264338327950288 : R S) / 8) / rv S cl4lloQ (ofR r * ofR r - ofR (FOps.lit 3.14159265358979323846264338327950288 : R S) * ofR (FOps.lit 3.14159265358979323846264338327950288 : R S) / 8) = A at *
  have hz3 := Z3l hS
  have hl0 : loC 1 1 0 = reLi 3 1 := by rw [loC_lt _ _ _ (by norm_num)]; simp [Nat.factorial]
  rw [hl0] at ha
  generalize ofR (FOps.lit 1.2020569031595942853997381615114499908 : R S) = Z at *
  generalize Real.log (ofR r) = l at *
  clear ev hq0 hzR hq hf hf1
  generalize ofR r = x at *
  have e : x * (Z + x * x * (A + 1 / 6 * l)) - x ^ 1 * (f - (-1) ^ 1 * (x ^ 2) ^ 1 / (2 * 1 + 1).factorial * l) = x * ((Z - reLi 3 1) + (x * x) * (A - (f - reLi 3 1) / (x * x))) := by
    norm_num [Nat.factorial]
    field_simp
    try ring
  rw [e]
  rw [abs_mul, abs_of_pos h0]
  have h5 := mul_le_mul hy1 ha (abs_nonneg _) (by norm_num : (0:ℝ) ≤ 2.4676)
  have h6 := abs_add_le (Z - reLi 3 1) ((x * x) * (A - (f - reLi 3 1) / (x * x)))
  rw [abs_mul (x * x), abs_of_pos hy0] at h6
  have h4 := h6.trans (add_le_add hz3 h5)
  refine (mul_le_mul hr1 h4 (abs_nonneg _) (by norm_num)).trans ?_
  linarith

theorem cl4lHiQ_pos {u : ℝ} (hS : S.Lit u) (hu : u ≤ 1e-6) {r : R S} (h1 : ofR (FOps.lit 3.14159265358979323846264338327950288 : R S) / 2 ≤ ofR r) (h2 : ofR r ≤ ofR (FOps.lit 3.14159265358979323846264338327950288 : R S) + 1e-4) :
    0 < ofR (cl4lhiQe (((FOps.lit 3.14159265358979323846264338327950288 : R S) -. r) *. ((FOps.lit 3.14159265358979323846264338327950288 : R S) -. r) -. (FOps.lit 3.14159265358979323846264338327950288 : R S) *. (FOps.lit 3.14159265358979323846264338327950288 : R S) /. (FOps.lit 8 : R S))) := by
  have hu0 := hS.u_nonneg
  have hd := PIl hS
  obtain ⟨f, hf, hc, hy0, hy1, hr1, hz, hη⟩ := hi_branch 1 1 (by norm_num) (by norm_num) hd (by linarith) (by linarith) h2
  obtain ⟨hq, -⟩ := apx_cl4lhi hS (by linarith) hz hη hy0 hy1 hf
  have hzR : ofR (((FOps.lit 3.14159265358979323846264338327950288 : R S) -. r) *. ((FOps.lit 3.14159265358979323846264338327950288 : R S) -. r) -. (FOps.lit 3.14159265358979323846264338327950288 : R S) *. (FOps.lit 3.14159265358979323846264338327950288 : R S) /. (FOps.lit 8 : R S)) = (ofR (FOps.lit 3.14159265358979323846264338327950288 : R S) - ofR r) * (ofR (FOps.lit 3.14159265358979323846264338327950288 : R S) - ofR r) - ofR (FOps.lit 3.14159265358979323846264338327950288 : R S) * ofR (FOps.lit 3.14159265358979323846264338327950288 : R S) / 8 := by
    rw [ofR_sub, ofR_mul, sq8_R hS, ofR_sub]
  rw [cl4lhiQe_R, hzR]; exact hq

theorem cl4lHi_acc {u : ℝ} (hS : S.Lit u) (hu : u ≤ 1e-6) {r : R S} (h1 : ofR (FOps.lit 3.14159265358979323846264338327950288 : R S) / 2 - 1e-6 ≤ ofR r) (h2 : ofR r ≤ ofR (FOps.lit 3.14159265358979323846264338327950288 : R S) + 1e-4) :
    (ofR r = ofR (FOps.lit 3.14159265358979323846264338327950288 : R S) → ofR (cl4lHi r) = 0) ∧ |ofR (cl4lHi r) - clausen (2 * 1 + 1 + 1) (ofR r)| ≤ 269e-28 + 149 * u := by
  have hu0 := hS.u_nonneg
  have hd := PIl hS
  obtain ⟨f, hf, hc, hy0, hy1, hr1, hz, hη⟩ := hi_branch 1 1 (by norm_num) (by norm_num) hd (by linarith) h1 h2
  obtain ⟨hq, ha, hF⟩ := apx_cl4lhi hS (by linarith) hz hη hy0 hy1 hf
  have hzR : ofR (((FOps.lit 3.14159265358979323846264338327950288 : R S) -. r) *. ((FOps.lit 3.14159265358979323846264338327950288 : R S) -. r) -. (FOps.lit 3.14159265358979323846264338327950288 : R S) *. (FOps.lit 3.14159265358979323846264338327950288 : R S) /. (FOps.lit 8 : R S)) = (ofR (FOps.lit 3.14159265358979323846264338327950288 : R S) - ofR r) * (ofR (FOps.lit 3.14159265358979323846264338327950288 : R S) - ofR r) - ofR (FOps.lit 3.14159265358979323846264338327950288 : R S) * ofR (FOps.lit 3.14159265358979323846264338327950288 : R S) / 8 := by
    rw [ofR_sub, ofR_mul, sq8_R hS, ofR_sub]
  have hq0 : ofR (cl4lhiQe (((FOps.lit 3.14159265358979323846264338327950288 : R S) -. r) *. ((FOps.lit 3.14159265358979323846264338327950288 : R S) -. r) -. (FOps.lit 3.14159265358979323846264338327950288 : R S) *. (FOps.lit 3.14159265358979323846264338327950288 : R S) /. (FOps.lit 8 : R S))) ≠ 0 := by rw [cl4lhiQe_R, hzR]; exact hq.ne'
  have ev : ofR (cl4lHi r) = _ := hiE_R ((FOps.lit 3.14159265358979323846264338327950288 : R S) -. r) (cl4lhiPe (((FOps.lit 3.14159265358979323846264338327950288 : R S) -. r) *. ((FOps.lit 3.14159265358979323846264338327950288 : R S) -. r) -. (FOps.lit 3.14159265358979323846264338327950288 : R S) *. (FOps.lit 3.14159265358979323846264338327950288 : R S) /. (FOps.lit 8 : R S))) (cl4lhiQe (((FOps.lit 3.14159265358979323846264338327950288 : R S) -. r) *. ((FOps.lit 3.14159265358979323846264338327950288 : R S) -. r) -. (FOps.lit 3.14159265358979323846264338327950288 : R S) *. (FOps.lit 3.14159265358979323846264338327950288 : R S) /. (FOps.lit 8 : R S))) hq0
  rw [cl4lhiPe_R, cl4lhiQe_R, hzR, ofR_sub] at ev
  refine ⟨fun h => by rw [ev, h, sub_self, zero_mul], ?_⟩
  rw [ev, hc, pow_one]
  have hdd : |ofR (FOps.lit 3.14159265358979323846264338327950288 : R S) - ofR r - (Real.pi - ofR r)| ≤ 4.2e-36 + 3.15 * u := by rw [sub_sub_sub_cancel_right]; exact hd
  refine (hi_even ha hr1 hdd hF).trans ?_
  linarith

/-- `Cl4l`, every argument; `⌊|x| / (2 PI)⌋` is the number of periods subtracted by `fmod` -/
theorem Cl4l_acc {u : ℝ} (hS : S.Lit u) (hu : u ≤ 1e-6) (x : ℝ)
    (hw : wrap (ofR (FOps.lit 3.14159265358979323846264338327950288 : R S)) x ≤ 6.28125 + ofR (FOps.lit 0.0019353071795864769252867665590057683943 : R S)) :
    |ofR (Cl4l (toR S x)) - clausen 4 x| ≤ 269e-28 + 149 * u
      + (2 * (5e-41 + 0.002 * u + 2 * (4.2e-36 + 3.15 * u) * ⌊|x| / (2 * ofR (FOps.lit 3.14159265358979323846264338327950288 : R S))⌋₊) + 0) := by
  have hu0 := hS.u_nonneg
  have hd := PIl hS
  have he := P1l hS
  have hpi := pi_gt
  have hP3 : 3 ≤ ofR (FOps.lit 3.14159265358979323846264338327950288 : R S) := by have := (abs_le.mp hd).1; linarith
  rw [Cl4l_split]
  dsimp only
  have hr := reduceAbs_R hS (PI := (FOps.lit 3.14159265358979323846264338327950288 : R S)) (p1 := (FOps.lit 0.0019353071795864769252867665590057683943 : R S)) (x := toR S x) (by linarith)
  rw [← reduceSgn_R_fst] at hr
  have hs := reduceSgn_R_snd hS (PI := (FOps.lit 3.14159265358979323846264338327950288 : R S)) (p1 := (FOps.lit 0.0019353071795864769252867665590057683943 : R S)) (x := toR S x) (by linarith)
  obtain ⟨r0, r1, ht⟩ := reduce_spec 1 1 (by norm_num) (by norm_num) hP3 hd he hr rfl hw
  have hab := sgn_abs (ofR (toR S x) < 0) (ofR (FOps.lit 3.14159265358979323846264338327950288 : R S) < wrap (ofR (FOps.lit 3.14159265358979323846264338327950288 : R S)) (ofR (toR S x))) 1
  rw [pow_one, ← hs] at ht hab
  generalize reduceSgn (FOps.lit 3.14159265358979323846264338327950288 : R S) (FOps.lit 0.0019353071795864769252867665590057683943 : R S) (toR S x) = xs at *
  have key : ∃ c, ofR (if xs.1 ==. (FOps.lit 0 : R S) then xs.1 else if xs.1 ==. (FOps.lit 3.14159265358979323846264338327950288 : R S) then (FOps.lit 0 : R S) else if xs.1 <. (FOps.lit 3.14159265358979323846264338327950288 : R S) /. (FOps.lit 2 : R S) then xs.2 *. cl4lLo xs.1 else xs.2 *. cl4lHi xs.1) = ofR xs.2 * c
      ∧ |c - clausen (2 * 1 + 1 + 1) (ofR xs.1)| ≤ 269e-28 + 149 * u := by
    simp only [eq_R, lt_R, lit0 hS, half_R hS, decide_eq_true_eq]
    split_ifs with c1 c2 c3
    · refine ⟨0, by rw [c1, mul_zero], ?_⟩
      rw [c1, clausen_even_zero, sub_zero, abs_zero]; positivity
    · obtain ⟨g1, g2⟩ := cl4lHi_acc hS hu (r := xs.1) (by rw [c2]; linarith) (by linarith)
      refine ⟨0, by rw [lit0 hS, mul_zero], ?_⟩
      rw [← g1 c2]; exact g2.trans (by linarith)
    · have g := cl4lLo_acc hS hu (r := xs.1) (lt_of_le_of_ne r0 (Ne.symm c1)) c3
      exact ⟨_, ofR_mul _ _, g.trans (by linarith)⟩
    · obtain ⟨g1, g2⟩ := cl4lHi_acc hS hu (r := xs.1) (by linarith) (by linarith)
      exact ⟨_, ofR_mul _ _, g2.trans (by linarith)⟩
  obtain ⟨c, hc1, hc2⟩ := key
  exact cl_final 1 1 hab hc1 hc2 (fun a b => le_of_le_of_eq (clausen_lip 1 1 (by norm_num) (by norm_num) a b) (add_zero _).symm) (by norm_num) ht

/-- the denominators of `Cl4` are positive at every reduced argument: low branch (`0 < r < PI/2`) and high branch
(`PI/2 ≤ r ≤ PI + 1e-4`), both overloads -/
theorem C34_Cl4 {u : ℝ} (hS : S.Lit u) (hu : u ≤ 1e-6) (r : R S) :
    (0 < ofR r → ofR r < ofR (FOps.lit 3.14159265358979324 : R S) / 2 → 0 < ofR (cl4dloQe (r *. r))) ∧
    (ofR (FOps.lit 3.14159265358979324 : R S) / 2 ≤ ofR r → ofR r ≤ ofR (FOps.lit 3.14159265358979324 : R S) + 1e-4 → 0 < ofR (cl4dhiQe (((FOps.lit 3.14159265358979324 : R S) -. r) *. ((FOps.lit 3.14159265358979324 : R S) -. r) -. (FOps.lit 3.14159265358979324 : R S) *. (FOps.lit 3.14159265358979324 : R S) /. (FOps.lit 8 : R S)))) ∧
    (0 < ofR r → ofR r < ofR (FOps.lit 3.14159265358979323846264338327950288 : R S) / 2 → 0 < ofR (cl4lloQe (r *. r -. (FOps.lit 3.14159265358979323846264338327950288 : R S) *. (FOps.lit 3.14159265358979323846264338327950288 : R S) /. (FOps.lit 8 : R S)))) ∧
    (ofR (FOps.lit 3.14159265358979323846264338327950288 : R S) / 2 ≤ ofR r → ofR r ≤ ofR (FOps.lit 3.14159265358979323846264338327950288 : R S) + 1e-4 → 0 < ofR (cl4lhiQe (((FOps.lit 3.14159265358979323846264338327950288 : R S) -. r) *. ((FOps.lit 3.14159265358979323846264338327950288 : R S) -. r) -. (FOps.lit 3.14159265358979323846264338327950288 : R S) *. (FOps.lit 3.14159265358979323846264338327950288 : R S) /. (FOps.lit 8 : R S)))) :=
  ⟨cl4dLoQ_pos hS hu, cl4dHiQ_pos hS hu, cl4lLoQ_pos hS hu, cl4lHiQ_pos hS hu⟩

end Polylog
