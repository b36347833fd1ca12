import Verif.Props.ClGen
import Verif.Model.Cl5

/-! # Accuracy of `Cl5` (generated by tools/cl/gencl3.py) -/

noncomputable section
namespace Polylog
set_option linter.style.longLine false

section
variable {F : Type} [FOps F]
/-- numeric literal -/
local notation:max "♯" q:max => (FOps.lit (q : ℚ) : F)

/-- polynomial of `Cl5d` -/
def cl5dloPe (y : F) : F :=
  let y2 := y *. y
  ♯(cl5dloP[0]) +. y *. ♯(cl5dloP[1]) +. y2 *. (♯(cl5dloP[2]) +. y *. ♯(cl5dloP[3]))
/-- polynomial of `Cl5d` -/
def cl5dloQe (y : F) : F :=
  let y2 := y *. y
  ♯(cl5dloQ[0]) +. y *. ♯(cl5dloQ[1]) +. y2 *. (♯(cl5dloQ[2]) +. y *. ♯(cl5dloQ[3]) +. y2 *. ♯(cl5dloQ[4]))
/-- polynomial of `Cl5d` -/
def cl5dhiPe (z : F) : F :=
  let z2 := z *. z
  let z4 := z2 *. z2
  ♯(cl5dhiP[0]) +. z *. ♯(cl5dhiP[1]) +. z2 *. (♯(cl5dhiP[2]) +. z *. ♯(cl5dhiP[3])) +. z4 *. (♯(cl5dhiP[4]) +. z *. ♯(cl5dhiP[5]))
/-- polynomial of `Cl5d` -/
def cl5dhiQe (z : F) : F :=
  let z2 := z *. z
  let z4 := z2 *. z2
  ♯(cl5dhiQ[0]) +. z *. ♯(cl5dhiQ[1]) +. z2 *. (♯(cl5dhiQ[2]) +. z *. ♯(cl5dhiQ[3])) +. z4 *. (♯(cl5dhiQ[4]) +. z *. ♯(cl5dhiQ[5]))
/-- low branch of `Cl5d` -/
def cl5dLo (x : F) : F :=
  (cl5dloPe (x *. x)) /. (cl5dloQe (x *. x)) -. ♯1 /. ♯24 *. (x *. x *. (x *. x)) *. (xlog x)
/-- high branch of `Cl5d` -/
def cl5dHi (x : F) : F :=
  let PI : F := ♯3.14159265358979324
  let PI28 := PI *. PI /. ♯8
  cl5dhiPe ((PI -. x) *. (PI -. x) -. PI28) /. cl5dhiQe ((PI -. x) *. (PI -. x) -. PI28)
theorem Cl5d_split (x : F) : Cl5d x =
  (let PI : F := ♯3.14159265358979324
   let r := reduceAbs PI ♯0.0019353071795864769253 x
   if r ==. ♯0 then ♯1.0369277551433699 else if r <. PI /. ♯2 then cl5dLo r else cl5dHi r) := rfl

/-- polynomial of `Cl5l` -/
def cl5lloPe (y : F) : F :=
  let y2 := y *. y
  let y4 := y2 *. y2
  let y8 := y4 *. y4
  ♯(cl5lloP[0]) +. y *. ♯(cl5lloP[1]) +. y2 *. (♯(cl5lloP[2]) +. y *. ♯(cl5lloP[3])) +. y4 *. (♯(cl5lloP[4]) +. y *. ♯(cl5lloP[5]) +. y2 *. (♯(cl5lloP[6]) +. y *. ♯(cl5lloP[7]))) +. y8 *. ♯(cl5lloP[8])
/-- polynomial of `Cl5l` -/
def cl5lloQe (y : F) : F :=
  let y2 := y *. y
  let y4 := y2 *. y2
  let y8 := y4 *. y4
  ♯(cl5lloQ[0]) +. y *. ♯(cl5lloQ[1]) +. y2 *. (♯(cl5lloQ[2]) +. y *. ♯(cl5lloQ[3])) +. y4 *. (♯(cl5lloQ[4]) +. y *. ♯(cl5lloQ[5]) +. y2 *. (♯(cl5lloQ[6]) +. y *. ♯(cl5lloQ[7]))) +. y8 *. ♯(cl5lloQ[8])
/-- polynomial of `Cl5l` -/
def cl5lhiPe (z : F) : F :=
  let z2 := z *. z
  let z4 := z2 *. z2
  let z8 := z4 *. z4
  let z16 := z8 *. z8
  ♯(cl5lhiP[0]) +. z *. ♯(cl5lhiP[1]) +. z2 *. (♯(cl5lhiP[2]) +. z *. ♯(cl5lhiP[3])) +. z4 *. (♯(cl5lhiP[4]) +. z *. ♯(cl5lhiP[5]) +. z2 *. (♯(cl5lhiP[6]) +. z *. ♯(cl5lhiP[7]))) +. z8 *. (♯(cl5lhiP[8]) +. z *. ♯(cl5lhiP[9]) +. z2 *. (♯(cl5lhiP[10]) +. z *. ♯(cl5lhiP[11])) +. z4 *. (♯(cl5lhiP[12]) +. z *. ♯(cl5lhiP[13]) +. z2 *. (♯(cl5lhiP[14]) +. z *. ♯(cl5lhiP[15])))) +. z16 *. (♯(cl5lhiP[16]) +. z *. ♯(cl5lhiP[17]) +. z2 *. (♯(cl5lhiP[18]) +. z *. ♯(cl5lhiP[19])) +. z4 *. (♯(cl5lhiP[20]) +. z *. ♯(cl5lhiP[21])))
/-- polynomial of `Cl5l` -/
def cl5lhiQe (z : F) : F :=
  let z2 := z *. z
  let z4 := z2 *. z2
  let z8 := z4 *. z4
  let z16 := z8 *. z8
  ♯(cl5lhiQ[0]) +. z *. ♯(cl5lhiQ[1]) +. z2 *. (♯(cl5lhiQ[2]) +. z *. ♯(cl5lhiQ[3])) +. z4 *. (♯(cl5lhiQ[4]) +. z *. ♯(cl5lhiQ[5]) +. z2 *. (♯(cl5lhiQ[6]) +. z *. ♯(cl5lhiQ[7]))) +. z8 *. (♯(cl5lhiQ[8]) +. z *. ♯(cl5lhiQ[9]) +. z2 *. (♯(cl5lhiQ[10]) +. z *. ♯(cl5lhiQ[11])) +. z4 *. (♯(cl5lhiQ[12]) +. z *. ♯(cl5lhiQ[13]) +. z2 *. (♯(cl5lhiQ[14]) +. z *. ♯(cl5lhiQ[15])))) +. z16 *. (♯(cl5lhiQ[16]) +. z *. ♯(cl5lhiQ[17]) +. z2 *. (♯(cl5lhiQ[18]) +. z *. ♯(cl5lhiQ[19])) +. z4 *. (♯(cl5lhiQ[20]) +. z *. ♯(cl5lhiQ[21])))
/-- low branch of `Cl5l` -/
def cl5lLo (x : F) : F :=
  (cl5lloPe (x *. x)) /. (cl5lloQe (x *. x)) -. ♯1 /. ♯24 *. (x *. x *. (x *. x)) *. (xlog x)
/-- high branch of `Cl5l` -/
def cl5lHi (x : F) : F :=
  let PI : F := ♯3.14159265358979323846264338327950288
  let PI28 := PI *. PI /. ♯8
  cl5lhiPe ((PI -. x) *. (PI -. x) -. PI28) /. cl5lhiQe ((PI -. x) *. (PI -. x) -. PI28)
theorem Cl5l_split (x : F) : Cl5l x =
  (let PI : F := ♯3.14159265358979323846264338327950288
   let r := reduceAbs PI ♯0.0019353071795864769252867665590057683943 x
   if r ==. ♯0 then ♯1.036927755143369926331365486457034168057 else if r <. PI /. ♯2 then cl5lLo r else cl5lHi r) := rfl

end

variable {S : RealSem}

theorem cl5dloPe_R (z : R S) : ofR (cl5dloPe z) = rv S cl5dloP (ofR z) := by
  simp [cl5dloPe, rsem, rv, Fin.sum_univ_succ]; ring
theorem cl5dloQe_R (z : R S) : ofR (cl5dloQe z) = rv S cl5dloQ (ofR z) := by
  simp [cl5dloQe, rsem, rv, Fin.sum_univ_succ]; ring
theorem cl5dhiPe_R (z : R S) : ofR (cl5dhiPe z) = rv S cl5dhiP (ofR z) := by
  simp [cl5dhiPe, rsem, rv, Fin.sum_univ_succ]; ring
theorem cl5dhiQe_R (z : R S) : ofR (cl5dhiQe z) = rv S cl5dhiQ (ofR z) := by
  simp [cl5dhiQe, rsem, rv, Fin.sum_univ_succ]; ring

theorem cl5dLoQ_pos {u : ℝ} (hS : S.Lit u) (hu : u ≤ 1e-6) {r : R S} (h0 : 0 < ofR r) (h1 : ofR r < ofR (FOps.lit 3.14159265358979324 : R S) / 2) :
    0 < ofR (cl5dloQe (r *. r)) := by
  have hu0 := hS.u_nonneg
  have hd := PId hS
  obtain ⟨f, hf, hc, hy0, hy1, hr1, hz, hη⟩ := lo_branch 2 0 (by norm_num) hd (by linarith) h0 h1
  obtain ⟨hq, -⟩ := apx_cl5dlo hS (by linarith) hy0 hy1 hf
  have hzR : ofR (r *. r) = ofR r * ofR r := ofR_mul _ _
  rw [cl5dloQe_R, hzR]; exact hq

theorem cl5dLo_acc {u : ℝ} (hS : S.Lit u) (hu : u ≤ 1e-6) {r : R S} (h0 : 0 < ofR r) (h1 : ofR r < ofR (FOps.lit 3.14159265358979324 : R S) / 2) :
    |ofR (cl5dLo r) - clausen (2 * 2 + 1 + 0) (ofR r)| ≤ 301e-19 + 15 * u := by
  have hu0 := hS.u_nonneg
  have hd := PId hS
  obtain ⟨f, hf, hc, hy0, hy1, hr1, hz, hη⟩ := lo_branch 2 0 (by norm_num) hd (by linarith) h0 h1
  obtain ⟨hq, ha⟩ := apx_cl5dlo hS (by linarith) hy0 hy1 hf
  have hzR : ofR (r *. r) = ofR r * ofR r := ofR_mul _ _
  have hq0 : ofR (cl5dloQe (r *. r)) ≠ 0 := by rw [cl5dloQe_R, hzR]; exact hq.ne'
  have ev : ofR (cl5dLo r) = _ := lo5_R hS r (r *. r) (cl5dloPe (r *. r)) (cl5dloQe (r *. r)) h0 hq0
  rw [ev, hc, cl5dloPe_R, cl5dloQe_R, hzR]
  generalize rv S cl5dloP (ofR r * ofR r) / rv S cl5dloQ (ofR r * ofR r) = A at *
  generalize Real.log (ofR r) = l at *
  clear ev hq0 hzR hq hf 
  generalize ofR r = x at *
  have e : A - 1 / 24 * (x * x * (x * x)) * l - x ^ 0 * (f - (-1) ^ 2 * (x ^ 2) ^ 2 / (2 * 2 + 0).factorial * l) = A - f := by
    norm_num [Nat.factorial]
    field_simp
    try ring
  rw [e]
  linarith

theorem cl5dHiQ_pos {u : ℝ} (hS : S.Lit u) (hu : u ≤ 1e-6) {r : R S} (h1 : ofR (FOps.lit 3.14159265358979324 : R S) / 2 ≤ ofR r) (h2 : ofR r ≤ ofR (FOps.lit 3.14159265358979324 : R S) + 1e-4) :
    0 < ofR (cl5dhiQe (((FOps.lit 3.14159265358979324 : R S) -. r) *. ((FOps.lit 3.14159265358979324 : R S) -. r) -. (FOps.lit 3.14159265358979324 : R S) *. (FOps.lit 3.14159265358979324 : R S) /. (FOps.lit 8 : R S))) := by
  have hu0 := hS.u_nonneg
  have hd := PId hS
  obtain ⟨f, hf, hc, hy0, hy1, hr1, hz, hη⟩ := hi_branch 2 0 (by norm_num) (by norm_num) hd (by linarith) (by linarith) h2
  obtain ⟨hq, -⟩ := apx_cl5dhi hS (by linarith) hz hη hy0 hy1 hf
  have hzR : ofR (((FOps.lit 3.14159265358979324 : R S) -. r) *. ((FOps.lit 3.14159265358979324 : R S) -. r) -. (FOps.lit 3.14159265358979324 : R S) *. (FOps.lit 3.14159265358979324 : R S) /. (FOps.lit 8 : R S)) = (ofR (FOps.lit 3.14159265358979324 : R S) - ofR r) * (ofR (FOps.lit 3.14159265358979324 : R S) - ofR r) - ofR (FOps.lit 3.14159265358979324 : R S) * ofR (FOps.lit 3.14159265358979324 : R S) / 8 := by
    rw [ofR_sub, ofR_mul, sq8_R hS, ofR_sub]
  rw [cl5dhiQe_R, hzR]; exact hq

theorem cl5dHi_acc {u : ℝ} (hS : S.Lit u) (hu : u ≤ 1e-6) {r : R S} (h1 : ofR (FOps.lit 3.14159265358979324 : R S) / 2 - 1e-6 ≤ ofR r) (h2 : ofR r ≤ ofR (FOps.lit 3.14159265358979324 : R S) + 1e-4) :
    |ofR (cl5dHi r) - clausen (2 * 2 + 1 + 0) (ofR r)| ≤ 684e-20 + 136e-1 * u := by
  have hu0 := hS.u_nonneg
  have hd := PId hS
  obtain ⟨f, hf, hc, hy0, hy1, hr1, hz, hη⟩ := hi_branch 2 0 (by norm_num) (by norm_num) hd (by linarith) h1 h2
  obtain ⟨hq, ha, hF⟩ := apx_cl5dhi hS (by linarith) hz hη hy0 hy1 hf
  have hzR : ofR (((FOps.lit 3.14159265358979324 : R S) -. r) *. ((FOps.lit 3.14159265358979324 : R S) -. r) -. (FOps.lit 3.14159265358979324 : R S) *. (FOps.lit 3.14159265358979324 : R S) /. (FOps.lit 8 : R S)) = (ofR (FOps.lit 3.14159265358979324 : R S) - ofR r) * (ofR (FOps.lit 3.14159265358979324 : R S) - ofR r) - ofR (FOps.lit 3.14159265358979324 : R S) * ofR (FOps.lit 3.14159265358979324 : R S) / 8 := by
    rw [ofR_sub, ofR_mul, sq8_R hS, ofR_sub]
  have hq0 : ofR (cl5dhiQe (((FOps.lit 3.14159265358979324 : R S) -. r) *. ((FOps.lit 3.14159265358979324 : R S) -. r) -. (FOps.lit 3.14159265358979324 : R S) *. (FOps.lit 3.14159265358979324 : R S) /. (FOps.lit 8 : R S))) ≠ 0 := by rw [cl5dhiQe_R, hzR]; exact hq.ne'
  have ev : ofR (cl5dHi r) = _ := ofR_div (a := cl5dhiPe (((FOps.lit 3.14159265358979324 : R S) -. r) *. ((FOps.lit 3.14159265358979324 : R S) -. r) -. (FOps.lit 3.14159265358979324 : R S) *. (FOps.lit 3.14159265358979324 : R S) /. (FOps.lit 8 : R S))) hq0
  rw [cl5dhiPe_R, cl5dhiQe_R, hzR] at ev
  rw [ev, hc, pow_zero, one_mul]
  refine ha.trans ?_
  linarith

/-- `Cl5d`, every argument; `⌊|x| / (2 PI)⌋` is the number of periods subtracted by `fmod` -/
theorem Cl5d_acc {u : ℝ} (hS : S.Lit u) (hu : u ≤ 1e-6) (x : ℝ)
    (hw : wrap (ofR (FOps.lit 3.14159265358979324 : R S)) x ≤ 6.28125 + ofR (FOps.lit 0.0019353071795864769253 : R S)) :
    |ofR (Cl5d (toR S x)) - clausen 5 x| ≤ 301e-19 + 15 * u
      + (2 * (1.4e-23 + 0.002 * u + 2 * (1.6e-18 + 3.15 * u) * ⌊|x| / (2 * ofR (FOps.lit 3.14159265358979324 : R S))⌋₊) + 0) := by
  have hu0 := hS.u_nonneg
  have hd := PId hS
  have he := P1d hS
  have hpi := pi_gt
  have hP3 : 3 ≤ ofR (FOps.lit 3.14159265358979324 : R S) := by have := (abs_le.mp hd).1; linarith
  rw [Cl5d_split]
  dsimp only
  have hr := reduceAbs_R hS (PI := (FOps.lit 3.14159265358979324 : R S)) (p1 := (FOps.lit 0.0019353071795864769253 : R S)) (x := toR S x) (by linarith)
  obtain ⟨r0, r1, ht⟩ := reduce_spec 2 0 (by norm_num) (by norm_num) hP3 hd he hr rfl hw
  rw [pow_zero] at ht
  generalize reduceAbs (FOps.lit 3.14159265358979324 : R S) (FOps.lit 0.0019353071795864769253 : R S) (toR S x) = r at *
  have hz := Z5d hS
  have key : |ofR (if r ==. (FOps.lit 0 : R S) then (FOps.lit 1.0369277551433699 : R S) else if r <. (FOps.lit 3.14159265358979324 : R S) /. (FOps.lit 2 : R S) then cl5dLo r else cl5dHi r)
      - clausen (2 * 2 + 1 + 0) (ofR r)| ≤ 301e-19 + 15 * u := by
    simp only [eq_R, lt_R, lit0 hS, half_R hS, decide_eq_true_eq]
    split_ifs with c1 c3
    · rw [c1, clausen_odd_zero]
      exact hz.trans (by linarith)
    · have g := cl5dLo_acc hS hu (r := r) (lt_of_le_of_ne r0 (Ne.symm c1)) c3
      exact g.trans (by linarith)
    · have g := cl5dHi_acc hS hu (r := r) (by linarith) (by linarith)
      exact g.trans (by linarith)
  exact cl_final 2 0 (s := 1) (by norm_num) (one_mul _).symm key (fun a b => le_of_le_of_eq (clausen_lip 2 0 (by norm_num) (by norm_num) a b) (add_zero _).symm) (by norm_num) ht
theorem cl5lloPe_R (z : R S) : ofR (cl5lloPe z) = rv S cl5lloP (ofR z) := by
  simp [cl5lloPe, rsem, rv, Fin.sum_univ_succ]; ring
theorem cl5lloQe_R (z : R S) : ofR (cl5lloQe z) = rv S cl5lloQ (ofR z) := by
  simp [cl5lloQe, rsem, rv, Fin.sum_univ_succ]; ring
theorem cl5lhiPe_R (z : R S) : ofR (cl5lhiPe z) = rv S cl5lhiP (ofR z) := by
  simp [cl5lhiPe, rsem, rv, Fin.sum_univ_succ]; ring
theorem cl5lhiQe_R (z : R S) : ofR (cl5lhiQe z) = rv S cl5lhiQ (ofR z) := by
  simp [cl5lhiQe, rsem, rv, Fin.sum_univ_succ]; ring

theorem cl5lLoQ_pos {u : ℝ} (hS : S.Lit u) (hu : u ≤ 1e-6) {r : R S} (h0 : 0 < ofR r) (h1 : ofR r < ofR (FOps.lit 3.14159265358979323846264338327950288 : R S) / 2) :
    0 < ofR (cl5lloQe (r *. r)) := by
  have hu0 := hS.u_nonneg
  have hd := PIl hS
  obtain ⟨f, hf, hc, hy0, hy1, hr1, hz, hη⟩ := lo_branch 2 0 (by norm_num) hd (by linarith) h0 h1
  obtain ⟨hq, -⟩ := apx_cl5llo hS (by linarith) hy0 hy1 hf
  have hzR : ofR (r *. r) = ofR r * ofR r := ofR_mul _ _
  rw [cl5lloQe_R, hzR]; exact hq

theorem cl5lLo_acc {u : ℝ} (hS : S.Lit u) (hu : u ≤ 1e-6) {r : R S} (h0 : 0 < ofR r) (h1 : ofR r < ofR (FOps.lit 3.14159265358979323846264338327950288 : R S) / 2) :
    |ofR (cl5lLo r) - clausen (2 * 2 + 1 + 0) (ofR r)| ≤ 24e-40 + 17 * u := by
  have hu0 := hS.u_nonneg
  have hd := PIl hS
  obtain ⟨f, hf, hc, hy0, hy1, hr1, hz, hη⟩ := lo_branch 2 0 (by norm_num) hd (by linarith) h0 h1
  obtain ⟨hq, ha⟩ := apx_cl5llo hS (by linarith) hy0 hy1 hf
  have hzR : ofR (r *. r) = ofR r * ofR r := ofR_mul _ _
  have hq0 : ofR (cl5lloQe (r *. r)) ≠ 0 := by rw [cl5lloQe_R, hzR]; exact hq.ne'
  have ev : ofR (cl5lLo r) = _ := lo5_R hS r (r *. r) (cl5lloPe (r *. r)) (cl5lloQe (r *. r)) h0 hq0
  rw [ev, hc, cl5lloPe_R, cl5lloQe_R, hzR]
  generalize rv S cl5lloP (ofR r * ofR r) / rv S cl5lloQ (ofR r * ofR r) = A at *
  generalize Real.log (ofR r) = l at *
  clear ev hq0 hzR hq hf 
  generalize ofR r = x at *
  have e : A - 1 / 24 * (x * x * (x * x)) * l - x ^ 0 * (f - (-1) ^ 2 * (x ^ 2) ^ 2 / (2 * 2 + 0).factorial * l) = A - f := by
    norm_num [Nat.factorial]
    field_simp
    try ring
  rw [e]
  linarith

theorem cl5lHiQ_pos {u : ℝ} (hS : S.Lit u) (hu : u ≤ 1e-6) {r : R S} (h1 : ofR (FOps.lit 3.14159265358979323846264338327950288 : R S) / 2 ≤ ofR r) (h2 : ofR r ≤ ofR (FOps.lit 3.14159265358979323846264338327950288 : R S) + 1e-4) :
    0 < ofR (cl5lhiQe (((FOps.lit 3.14159265358979323846264338327950288 : R S) -. r) *. ((FOps.lit 3.14159265358979323846264338327950288 : R S) -. r) -. (FOps.lit 3.14159265358979323846264338327950288 : R S) *. (FOps.lit 3.14159265358979323846264338327950288 : R S) /. (FOps.lit 8 : R S))) := by
  have hu0 := hS.u_nonneg
  have hd := PIl hS
  obtain ⟨f, hf, hc, hy0, hy1, hr1, hz, hη⟩ := hi_branch 2 0 (by norm_num) (by norm_num) hd (by linarith) (by linarith) h2
  obtain ⟨hq, -⟩ := apx_cl5lhi hS (by linarith) hz hη hy0 hy1 hf
  have hzR : ofR (((FOps.lit 3.14159265358979323846264338327950288 : R S) -. r) *. ((FOps.lit 3.14159265358979323846264338327950288 : R S) -. r) -. (FOps.lit 3.14159265358979323846264338327950288 : R S) *. (FOps.lit 3.14159265358979323846264338327950288 : R S) /. (FOps.lit 8 : R S)) = (ofR (FOps.lit 3.14159265358979323846264338327950288 : R S) - ofR r) * (ofR (FOps.lit 3.14159265358979323846264338327950288 : R S) - ofR r) - ofR (FOps.lit 3.14159265358979323846264338327950288 : R S) * ofR (FOps.lit 3.14159265358979323846264338327950288 : R S) / 8 := by
    rw [ofR_sub, ofR_mul, sq8_R hS, ofR_sub]
  rw [cl5lhiQe_R, hzR]; exact hq

theorem cl5lHi_acc {u : ℝ} (hS : S.Lit u) (hu : u ≤ 1e-6) {r : R S} (h1 : ofR (FOps.lit 3.14159265358979323846264338327950288 : R S) / 2 - 1e-6 ≤ ofR r) (h2 : ofR r ≤ ofR (FOps.lit 3.14159265358979323846264338327950288 : R S) + 1e-4) :
    |ofR (cl5lHi r) - clausen (2 * 2 + 1 + 0) (ofR r)| ≤ 312e-28 + 1530 * u := by
  have hu0 := hS.u_nonneg
  have hd := PIl hS
  obtain ⟨f, hf, hc, hy0, hy1, hr1, hz, hη⟩ := hi_branch 2 0 (by norm_num) (by norm_num) hd (by linarith) h1 h2
  obtain ⟨hq, ha, hF⟩ := apx_cl5lhi hS (by linarith) hz hη hy0 hy1 hf
  have hzR : ofR (((FOps.lit 3.14159265358979323846264338327950288 : R S) -. r) *. ((FOps.lit 3.14159265358979323846264338327950288 : R S) -. r) -. (FOps.lit 3.14159265358979323846264338327950288 : R S) *. (FOps.lit 3.14159265358979323846264338327950288 : R S) /. (FOps.lit 8 : R S)) = (ofR (FOps.lit 3.14159265358979323846264338327950288 : R S) - ofR r) * (ofR (FOps.lit 3.14159265358979323846264338327950288 : R S) - ofR r) - ofR (FOps.lit 3.14159265358979323846264338327950288 : R S) * ofR (FOps.lit 3.14159265358979323846264338327950288 : R S) / 8 := by
    rw [ofR_sub, ofR_mul, sq8_R hS, ofR_sub]
  have hq0 : ofR (cl5lhiQe (((FOps.lit 3.14159265358979323846264338327950288 : R S) -. r) *. ((FOps.lit 3.14159265358979323846264338327950288 : R S) -. r) -. (FOps.lit 3.14159265358979323846264338327950288 : R S) *. (FOps.lit 3.14159265358979323846264338327950288 : R S) /. (FOps.lit 8 : R S))) ≠ 0 := by rw [cl5lhiQe_R, hzR]; exact hq.ne'
  have ev : ofR (cl5lHi r) = _ := ofR_div (a := cl5lhiPe (((FOps.lit 3.14159265358979323846264338327950288 : R S) -. r) *. ((FOps.lit 3.14159265358979323846264338327950288 : R S) -. r) -. (FOps.lit 3.14159265358979323846264338327950288 : R S) *. (FOps.lit 3.14159265358979323846264338327950288 : R S) /. (FOps.lit 8 : R S))) hq0
  rw [cl5lhiPe_R, cl5lhiQe_R, hzR] at ev
  rw [ev, hc, pow_zero, one_mul]
  refine ha.trans ?_
  linarith

/-- `Cl5l`, every argument; `⌊|x| / (2 PI)⌋` is the number of periods subtracted by `fmod` -/
theorem Cl5l_acc {u : ℝ} (hS : S.Lit u) (hu : u ≤ 1e-6) (x : ℝ)
    (hw : wrap (ofR (FOps.lit 3.14159265358979323846264338327950288 : R S)) x ≤ 6.28125 + ofR (FOps.lit 0.0019353071795864769252867665590057683943 : R S)) :
    |ofR (Cl5l (toR S x)) - clausen 5 x| ≤ 312e-28 + 1530 * u
      + (2 * (5e-41 + 0.002 * u + 2 * (4.2e-36 + 3.15 * u) * ⌊|x| / (2 * ofR (FOps.lit 3.14159265358979323846264338327950288 : R S))⌋₊) + 0) := by
  have hu0 := hS.u_nonneg
  have hd := PIl hS
  have he := P1l hS
  have hpi := pi_gt
  have hP3 : 3 ≤ ofR (FOps.lit 3.14159265358979323846264338327950288 : R S) := by have := (abs_le.mp hd).1; linarith
  rw [Cl5l_split]
  dsimp only
  have hr := reduceAbs_R hS (PI := (FOps.lit 3.14159265358979323846264338327950288 : R S)) (p1 := (FOps.lit 0.0019353071795864769252867665590057683943 : R S)) (x := toR S x) (by linarith)
  obtain ⟨r0, r1, ht⟩ := reduce_spec 2 0 (by norm_num) (by norm_num) hP3 hd he hr rfl hw
  rw [pow_zero] at ht
  generalize reduceAbs (FOps.lit 3.14159265358979323846264338327950288 : R S) (FOps.lit 0.0019353071795864769252867665590057683943 : R S) (toR S x) = r at *
  have hz := Z5l hS
  have key : |ofR (if r ==. (FOps.lit 0 : R S) then (FOps.lit 1.036927755143369926331365486457034168057 : R S) else if r <. (FOps.lit 3.14159265358979323846264338327950288 : R S) /. (FOps.lit 2 : R S) then cl5lLo r else cl5lHi r)
      - clausen (2 * 2 + 1 + 0) (ofR r)| ≤ 312e-28 + 1530 * u := by
    simp only [eq_R, lt_R, lit0 hS, half_R hS, decide_eq_true_eq]
    split_ifs with c1 c3
    · rw [c1, clausen_odd_zero]
      exact hz.trans (by linarith)
    · have g := cl5lLo_acc hS hu (r := r) (lt_of_le_of_ne r0 (Ne.symm c1)) c3
      exact g.trans (by linarith)
    · have g := cl5lHi_acc hS hu (r := r) (by linarith) (by linarith)
      exact g.trans (by linarith)
  exact cl_final 2 0 (s := 1) (by norm_num) (one_mul _).symm key (fun a b => le_of_le_of_eq (clausen_lip 2 0 (by norm_num) (by norm_num) a b) (add_zero _).symm) (by norm_num) ht

/-- the denominators of `Cl5` are positive at every reduced argument: low branch (`0 < r < PI/2`) and high branch
(`PI/2 ≤ r ≤ PI + 1e-4`), both overloads -/
theorem C34_Cl5 {u : ℝ} (hS : S.Lit u) (hu : u ≤ 1e-6) (r : R S) :
    (0 < ofR r → ofR r < ofR (FOps.lit 3.14159265358979324 : R S) / 2 → 0 < ofR (cl5dloQe (r *. r))) ∧
    (ofR (FOps.lit 3.14159265358979324 : R S) / 2 ≤ ofR r → ofR r ≤ ofR (FOps.lit 3.14159265358979324 : R S) + 1e-4 → 0 < ofR (cl5dhiQe (((FOps.lit 3.14159265358979324 : R S) -. r) *. ((FOps.lit 3.14159265358979324 : R S) -. r) -. (FOps.lit 3.14159265358979324 : R S) *. (FOps.lit 3.14159265358979324 : R S) /. (FOps.lit 8 : R S)))) ∧
    (0 < ofR r → ofR r < ofR (FOps.lit 3.14159265358979323846264338327950288 : R S) / 2 → 0 < ofR (cl5lloQe (r *. r))) ∧
    (ofR (FOps.lit 3.14159265358979323846264338327950288 : R S) / 2 ≤ ofR r → ofR r ≤ ofR (FOps.lit 3.14159265358979323846264338327950288 : R S) + 1e-4 → 0 < ofR (cl5lhiQe (((FOps.lit 3.14159265358979323846264338327950288 : R S) -. r) *. ((FOps.lit 3.14159265358979323846264338327950288 : R S) -. r) -. (FOps.lit 3.14159265358979323846264338327950288 : R S) *. (FOps.lit 3.14159265358979323846264338327950288 : R S) /. (FOps.lit 8 : R S)))) :=
  ⟨cl5dLoQ_pos hS hu, cl5dHiQ_pos hS hu, cl5lLoQ_pos hS hu, cl5lHiQ_pos hS hu⟩

end Polylog
