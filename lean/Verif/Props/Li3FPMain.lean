import Verif.Props.Li4FPMain
import Verif.Props.CReal

/-!
# C41: `Li3(double)` in IEEE binary64

For every finite argument the computed `Li3(x)` is finite, and its distance from the real part of the trilogarithm is at most
`150 u (1 + log³(1+|x|))`, `u = 2^-53`; for `|x| ≤ 1` the error is relative.
-/

namespace Polylog
set_option linter.style.longLine false

variable {L : Lib}

theorem c6_sn : SN binary64 ((rndQ binary64 1).div binary64 (rndQ binary64 6)) (1 / 6) (1 / 6) 1.01 := by
  have h1 : SN binary64 (rndQ binary64 1) ((1:ℚ):ℝ) 1 0 := (vl_one fmtA64).sn (by norm_num) (by norm_num) (by norm_num)
  have := (h1.divc fmtA64 (vl_nat fmtA64 6 (by norm_num)) (by norm_num) (by norm_num)).mono (A' := 1 / 6) (a' := 1.01) (by norm_num) (by norm_num)
  push_cast at this; exact this

set_option maxHeartbeats 1000000 in
/-- `l (c + l²/6)` and `l (c - l²/6)`: the polynomials in the logarithm -/
theorem li3rest_sn {l k : FV} {lr c C M : ℝ} (hl : SN binary64 l lr M 2.01) (hM : 1 ≤ M) (hM2 : M ≤ 712) (hk : SN binary64 k c C 3) (hC0 : 1 ≤ C) (hC : C ≤ 4) :
    SN binary64 (l.mul binary64 (k.add binary64 ((((rndQ binary64 1).div binary64 (rndQ binary64 6)).mul binary64 l).mul binary64 l)))
      (lr * (c + 1 / 6 * lr * lr)) (M * (C + 1 / 6 * M * M)) 11.1 ∧
    SN binary64 (l.mul binary64 (k.add binary64 ((((rndQ binary64 1).div binary64 (rndQ binary64 6)).mul binary64 l).mul binary64 l).neg))
      (lr * (c - 1 / 6 * lr * lr)) (M * (C + 1 / 6 * M * M)) 11.1 := by
  have hM0 : 0 < M := by linarith
  have hMM : 1 ≤ M * M := by nlinarith
  have hMM2 : M * M ≤ 712 * 712 := by gcongr
  have s1 := (c6_sn.mul fmtA64 hl (by linarith) (by norm_num; linarith)).mono (A' := 1 / 6 * M) (a' := 4.03) le_rfl (by norm_num) (by norm_num; linarith)
  have s2 := (s1.mul fmtA64 hl (by linarith) (by norm_num at hMM2 ⊢; linarith)).mono (A' := 1 / 6 * M * M) (a' := 7.05) le_rfl (by norm_num) (by norm_num at hMM2 ⊢; linarith)
  have s3 := (hk.add fmtA64 s2 (m := 7.05) (by norm_num at hMM2 ⊢; linarith) (by norm_num) le_rfl).mono (A' := C + 1 / 6 * M * M) (a' := 8.06) le_rfl (by norm_num) (by norm_num at hMM2 ⊢; linarith)
  have s3' := (hk.sub fmtA64 s2 (m := 7.05) (by norm_num at hMM2 ⊢; linarith) (by norm_num) le_rfl).mono (A' := C + 1 / 6 * M * M) (a' := 8.06) le_rfl (by norm_num) (by norm_num at hMM2 ⊢; linarith)
  have hB : M * (C + 1 / 6 * M * M) ≤ 2 ^ 39 := by
    have : M * (C + 1 / 6 * M * M) ≤ 712 * (4 + 1 / 6 * 712 * 712) := by gcongr
    refine this.trans (by norm_num)
  have hB0 : 1 / 64 ≤ M * (C + 1 / 6 * M * M) := by nlinarith
  exact ⟨(hl.mul fmtA64 s3 hB0 (by norm_num at hB ⊢; linarith)).mono le_rfl (by norm_num) (by norm_num at hB ⊢; linarith),
    (hl.mul fmtA64 s3' hB0 (by norm_num at hB ⊢; linarith)).mono le_rfl (by norm_num) (by norm_num at hB ⊢; linarith)⟩

/-- size of the polynomials in the logarithm -/
theorem li3_poly {t C : ℝ} (ht : 0 ≤ t) (hC4 : C ≤ 3.29) {A : ℝ} (hA : A = (1 + t) * (C + 1 / 6 * (1 + t) * (1 + t))) : 12.11 * A ≤ 90 + 62 * t ^ 3 := by
  have h1 : (1 + t) ^ 3 ≤ 4 + 4 * t ^ 3 := by nlinarith [mul_nonneg ht (sq_nonneg (1 - t)), sq_nonneg (1 - t)]
  have h2 : 1 + t ≤ 5 / 3 + t ^ 3 / 3 := by nlinarith [mul_nonneg ht (sq_nonneg (1 - t)), sq_nonneg (1 - t)]
  have h3 : (1 + t) * C ≤ (1 + t) * 3.29 := by gcongr
  rw [hA]; nlinarith

theorem two_zpow_small : (2:ℝ) ^ (-1068 : ℤ) ≤ 0.1 * uR binary64 := by
  have : (2:ℝ) ^ (-1068 : ℤ) ≤ 2 ^ (-57 : ℤ) := zpow_le_zpow_right₀ (by norm_num) (by norm_num)
  refine this.trans (by norm_num [uR, binary64])

/-- sum of a bounded term and a term in the logarithm -/
theorem near_sn_add {x y : FV} {r s e A a : ℝ} (hx : Near binary64 x r e) (hr : |r| ≤ 1.65) (he : e ≤ 200 * uR binary64) (hy : SN binary64 y s A a) :
    Near binary64 (x.add binary64 y) (r + s) (e + uR binary64 * ((a + 1.01) * A + 1.66)) := by
  have hu0 := uR_pos (φ := binary64)
  have hu : uR binary64 ≤ 1 / 2 ^ 53 := by norm_num [uR, binary64]
  have hA2 := hy.hA2
  have hA0 := hy.hA
  have hle := hy.le
  have ha := hy.ha
  have ha1 : uR binary64 * a ≤ 1 / 10000 := by
    have := mul_le_mul hu hy.ha2 ha (by norm_num); norm_num at this ⊢; linarith
  have h1 : uR binary64 * a * A ≤ 1 / 10000 * A := by gcongr
  have hv : |r + s| ≤ 1.65 + A := (abs_add_le _ _).trans (add_le_add hr hle)
  have hs := hx.add fmtA64 hy.near (by norm_num at hA2 hu hv ⊢; linarith)
  refine hs.mono ?_
  have h2 : uR binary64 * (|r + s| + (e + uR binary64 * a * A)) ≤ uR binary64 * (1.66 + 1.01 * A) := by
    apply mul_le_mul_of_nonneg_left _ hu0.le
    norm_num at hu hv ⊢
    linarith
  linarith

set_option maxHeartbeats 1000000 in
/-- `x < -1` -/
theorem li3_b1 (hL : LogOK binary64 L) (x : FP binary64 L) {q : ℚ} (hx : Val binary64 (ofF x) q) (hq : q < -1) :
    Near binary64 (ofF (let l := (xlog (∸x))
      (li3_neg ((FOps.lit 1 : FP binary64 L) /. x)) -. l *. ((FOps.lit 1.6449340668482264 : FP binary64 L) +. (FOps.lit 1 : FP binary64 L) /. (FOps.lit 6 : FP binary64 L) *. l *. l)))
      (reLi 3 q) (uR binary64 * (115 + 62 * Real.log (1 + |(q:ℝ)|) ^ 3)) := by
  have hu0 := uR_pos (φ := binary64)
  have hu : uR binary64 ≤ 1 / 2 ^ 53 := by norm_num [uR, binary64]
  have hq' : (q:ℝ) < -1 := by exact_mod_cast hq
  have hqa : 1 < |q| := by rw [abs_of_neg (by linarith)]; linarith
  have hqar : 1 < |(q:ℝ)| := by rw [abs_of_neg (by linarith)]; linarith
  obtain ⟨hy, hye, hy1, _, hyi⟩ := inv_val fmtA64 hx hqa
  obtain ⟨hΛ0, hΛ1⟩ := lam64_le hx
  obtain ⟨hl0, hl1⟩ := log_abs_le_lam hqar
  have hla : Real.log |(q:ℝ)| = Real.log (-q) := by rw [abs_of_neg (by linarith)]
  rw [hla] at hl0 hl1
  set Λ := Real.log (1 + |(q:ℝ)|) with hΛ
  have hl : SN binary64 (L.log (ofF x).neg) (Real.log (-q)) (1 + Λ) 2.01 := by
    have := sn_log fmtA64 hL hx.neg (by linarith) (M := 1 + Λ) (by push_cast; rw [abs_of_nonneg hl0]; exact hl1) (by linarith) (by norm_num; linarith)
    push_cast at this; exact this
  have hr := (li3rest_sn hl (by linarith) (by linarith) (sn_z2.mono (a' := 3) le_rfl (by norm_num)) (by norm_num) (by norm_num)).1
  have hyneg : rq binary64 (1 / q) ≤ 0 := by
    have : 1 / q ≤ 0 := by apply div_nonpos_of_nonneg_of_nonpos <;> linarith
    have h := rq_mono (φ := binary64) this
    rwa [rq_zero] at h
  have hy1r : |((rq binary64 (1 / q) : ℚ) : ℝ)| ≤ 1 := by exact_mod_cast hy1
  have hn := li3neg_near ((FOps.lit 1 : FP binary64 L) /. x) hy (abs_le.1 hy1).1 hyneg
  have hlip := (reLi_lip 0 hy1r hyi).trans (mul_le_mul_of_nonneg_left hye (by norm_num))
  have hη2 := two_zpow_small
  generalize (2:ℝ) ^ (-1068 : ℤ) = η at *
  have hn2 := (hn.shift hlip).mono (e' := 18.2 * uR binary64) (by nlinarith)
  have hsz := reLi_lip 0 (a := (q:ℝ)⁻¹) (b := 0) hyi (by norm_num)
  rw [reLi_zero_right, sub_zero, sub_zero] at hsz
  set A := (1 + Λ) * (1.645 + 1 / 6 * (1 + Λ) * (1 + Λ)) with hA
  have hs := near_sn_add hn2 (by linarith) (by linarith) hr.neg
  refine (hs.mono ?_).congr ?_
  · have hp := li3_poly hΛ0 (C := 1.645) (by norm_num) hA
    have := mul_le_mul_of_nonneg_left hp hu0.le
    linarith
  · have hI := reLi_three_inv_neg (x := (q:ℝ)) (by linarith)
    rw [hI]; simp only [Nat.reduceAdd]; ring

set_option maxHeartbeats 1000000 in
/-- `2 ≤ x` -/
theorem li3_b9 (hL : LogOK binary64 L) (x : FP binary64 L) {q : ℚ} (hx : Val binary64 (ofF x) q) (hq : 2 ≤ q) :
    Near binary64 (ofF (let l := (xlog x)
      (li3_pos ((FOps.lit 1 : FP binary64 L) /. x)) +. l *. ((FOps.lit 2 : FP binary64 L) *. (FOps.lit 1.6449340668482264 : FP binary64 L) -. (FOps.lit 1 : FP binary64 L) /. (FOps.lit 6 : FP binary64 L) *. l *. l)))
      (reLi 3 q) (uR binary64 * (150 + 62 * Real.log (1 + |(q:ℝ)|) ^ 3)) := by
  have hu0 := uR_pos (φ := binary64)
  have hu : uR binary64 ≤ 1 / 2 ^ 53 := by norm_num [uR, binary64]
  have hq' : (2:ℝ) ≤ q := by exact_mod_cast hq
  have hqa : 1 < |q| := by rw [abs_of_pos (by linarith)]; linarith
  have hqar : 1 < |(q:ℝ)| := by rw [abs_of_pos (by linarith)]; linarith
  obtain ⟨hy, hye, hy1, _, hyi⟩ := inv_val fmtA64 hx hqa
  obtain ⟨hΛ0, hΛ1⟩ := lam64_le hx
  obtain ⟨hl0, hl1⟩ := log_abs_le_lam hqar
  have hla : Real.log |(q:ℝ)| = Real.log q := by rw [abs_of_pos (by linarith)]
  rw [hla] at hl0 hl1
  set Λ := Real.log (1 + |(q:ℝ)|) with hΛ
  have hl : SN binary64 (L.log (ofF x)) (Real.log q) (1 + Λ) 2.01 :=
    sn_log fmtA64 hL hx (by linarith) (M := 1 + Λ) (by rw [abs_of_nonneg hl0]; exact hl1) (by linarith) (by norm_num; linarith)
  have k2 : SN binary64 ((rndQ binary64 2).mul binary64 (rndQ binary64 1.6449340668482264)) (2 * (Real.pi ^ 2 / 6)) 3.29 3 := by
    have h1 : SN binary64 (rndQ binary64 2) ((2:ℕ):ℝ) 2 0 := by
      have := (vl_nat fmtA64 2 (by norm_num)).sn (A := 2) (by norm_num) (by norm_num) (by norm_num)
      push_cast at this ⊢; exact this
    have h2 := (h1.mul fmtA64 sn_z2 (by norm_num) (by norm_num)).mono (A' := 3.29) (a' := 3) (by norm_num) (by norm_num)
    push_cast at h2; exact h2
  have hr := (li3rest_sn hl (by linarith) (by linarith) k2 (by norm_num) (by norm_num)).2
  have hyp : 0 ≤ rq binary64 (1 / q) := rq_nonneg (by positivity)
  have hyh : rq binary64 (1 / q) ≤ 1 / 2 := by
    have hdi : (1 / q : ℚ) ≤ 1 / 2 := by rw [div_le_div_iff₀ (by linarith) (by norm_num)]; linarith
    have := rq_mono (φ := binary64) hdi
    rwa [rq_repr (q := (1/2 : ℚ)) (vl_half fmtA64).repr] at this
  have hypr : 0 ≤ ((rq binary64 (1 / q) : ℚ) : ℝ) := by exact_mod_cast hyp
  have hyhr : ((rq binary64 (1 / q) : ℚ) : ℝ) ≤ 1 / 2 := by have := (Rat.cast_le (K := ℝ)).2 hyh; push_cast at this ⊢; exact this
  have hy1r : |((rq binary64 (1 / q) : ℚ) : ℝ)| ≤ 1 := by exact_mod_cast hy1
  have hn := li3pos_near ((FOps.lit 1 : FP binary64 L) /. x) hy hyp hyh
  have hlip := (reLi_lip 0 hy1r hyi).trans (mul_le_mul_of_nonneg_left hye (by norm_num))
  have hη2 := two_zpow_small
  generalize (2:ℝ) ^ (-1068 : ℤ) = η at *
  rw [abs_of_nonneg hypr] at hn
  have hn2 := (hn.shift hlip).mono (e' := 51.1 * uR binary64) (by nlinarith)
  have hsz := reLi_lip 0 (a := (q:ℝ)⁻¹) (b := 0) hyi (by norm_num)
  rw [reLi_zero_right, sub_zero, sub_zero] at hsz
  set A := (1 + Λ) * (3.29 + 1 / 6 * (1 + Λ) * (1 + Λ)) with hA
  have hs := near_sn_add hn2 (by linarith) (by linarith) hr
  refine (hs.mono ?_).congr ?_
  · have hp := li3_poly hΛ0 (C := 3.29) (by norm_num) hA
    have := mul_le_mul_of_nonneg_left hp hu0.le
    linarith
  · have hI := reLi_three_inv (x := (q:ℝ)) (by linarith)
    rw [hI]; simp only [Nat.reduceAdd]; ring

set_option maxHeartbeats 1000000 in
/-- `l (ζ(2) + l (-t/2 + l/6))`, `t` the logarithm with the singularity at `x = 1` -/
theorem li3_brk {l t : FV} {lr T : ℝ} (hl : Near binary64 l lr (2 * uR binary64 * |lr| + uR binary64 ^ 2)) (hl7 : |lr| ≤ 0.7)
    (ht : Near binary64 t T (2 * uR binary64 * |T| + 1.02 * uR binary64)) (hT : |T| ≤ 2 ^ 15) (hlT : |lr| * |T| ≤ 1) :
    SN binary64 (l.mul binary64 ((rndQ binary64 1.6449340668482264).add binary64 (l.mul binary64 (((rndQ binary64 0.5).neg.mul binary64 t).add binary64
        (((rndQ binary64 1).div binary64 (rndQ binary64 6)).mul binary64 l)))))
      (lr * (Real.pi ^ 2 / 6 + lr * (-(1 / 2) * T + 1 / 6 * lr))) 1.575 12.1 := by
  have hu0 := uR_pos (φ := binary64)
  have hu : uR binary64 ≤ 1 / 2 ^ 53 := by norm_num [uR, binary64]
  have hs : SN binary64 l lr 0.7 2.01 := ⟨hl.mono (by nlinarith), hl7, by norm_num, by norm_num, by norm_num, by norm_num⟩
  have c1 := (c6_sn.mul fmtA64 hs (by norm_num) (by norm_num)).mono (A' := 0.7 / 6) (a' := 4.04) (by norm_num) (by norm_num)
  have hh : Val binary64 (rndQ binary64 0.5).neg (-(1 / 2)) := (vl_half fmtA64).neg
  have eh : ((-(1 / 2) : ℚ) : ℝ) = -(1 / 2) := by norm_num
  have ah : |(-(1 / 2) : ℝ)| = 1 / 2 := by norm_num
  have hn1 := hh.near.mul fmtA64 ht (by
    rw [eh, ah]; norm_num at hT hu ⊢; nlinarith [abs_nonneg T])
  rw [eh, ah] at hn1
  have hT0 := abs_nonneg T
  have hl0 := abs_nonneg lr
  set u := uR binary64 with hu_def
  have huT : u * |T| ≤ 2 ^ 15 * u := by nlinarith
  have huT' : 0 ≤ u * |T| := by positivity
  have hn2 := hn1.mono (e' := 1.5 * u * |T| + 0.52 * u) (by
    have : u ^ 2 ≤ 1 / 1000 * u := by norm_num at hu; nlinarith
    have : u * (u * |T|) ≤ 1 / 10000 * u := by norm_num at hu huT; nlinarith
    norm_num at *
    nlinarith)
  have e3 : |(-(1 / 2) * T + 1 / 6 * lr)| ≤ |T| / 2 + 0.117 := by
    refine (abs_add_le _ _).trans ?_
    rw [abs_mul, abs_mul, ah]
    norm_num at hl7 ⊢; linarith
  have hn3 := hn2.add fmtA64 c1.near (by norm_num at hT hu e3 ⊢; nlinarith)
  have hn4 := hn3.mono (e' := 2.01 * u * |T| + 1.12 * u) (by
    have : u * |(-(1 / 2) * T + 1 / 6 * lr)| ≤ u * (|T| / 2 + 0.117) := by gcongr
    have : u * (u * |T|) ≤ 1 / 10000 * u := by norm_num at hu huT; nlinarith
    have : u ^ 2 ≤ 1 / 1000 * u := by norm_num at hu; nlinarith
    norm_num at *
    nlinarith)
  clear hn1 hn2 hn3
  set s := -(1 / 2) * T + 1 / 6 * lr with hs_def
  have hsn := abs_nonneg s
  have hls : |lr| * |s| ≤ 0.582 := by
    have : |lr| * |s| ≤ |lr| * (|T| / 2 + 0.117) := by gcongr
    nlinarith
  have hn5 := hl.mul fmtA64 hn4 (by
    have h1 : |lr| + (2 * u * |lr| + u ^ 2) ≤ 1 := by norm_num at hu hl7 ⊢; nlinarith
    have h2 : |s| + (2.01 * u * |T| + 1.12 * u) ≤ 2 ^ 16 := by norm_num at hu hT e3 ⊢; nlinarith
    refine (mul_le_mul h1 h2 (by positivity) (by norm_num)).trans (by norm_num))
  have hS : SN binary64 (l.mul binary64 (((rndQ binary64 0.5).neg.mul binary64 t).add binary64 (((rndQ binary64 1).div binary64 (rndQ binary64 6)).mul binary64 l)))
      (lr * s) 0.6 8 := by
    refine ⟨hn5.mono ?_, ?_, by norm_num, by norm_num, by norm_num, by norm_num⟩
    · have hu2 : u ^ 2 ≤ 1 / 100000000 * u := by norm_num at hu; nlinarith
      have hs15 : |s| ≤ 2 ^ 15 := by norm_num at hT e3 ⊢; linarith
      have a1 : u ^ 2 * |s| ≤ 1 / 1000 * u := by
        have : u ^ 2 * |s| ≤ 1 / 100000000 * u * 2 ^ 15 := by gcongr
        norm_num at this ⊢; linarith
      have a2 : u ^ 2 * |T| ≤ 1 / 1000 * u := by
        have : u ^ 2 * |T| ≤ 1 / 100000000 * u * 2 ^ 15 := by gcongr
        norm_num at this ⊢; linarith
      have b1 : (2 * u * |lr| + u ^ 2) * |s| ≤ 1.166 * u := by
        have : u * (|lr| * |s|) ≤ u * 0.582 := by gcongr
        norm_num at *; nlinarith
      have b2 : (2.01 * u * |T| + 1.12 * u) * |lr| ≤ 2.8 * u := by
        have : u * (|lr| * |T|) ≤ u * 1 := by gcongr
        have : u * |lr| ≤ u * 0.7 := by gcongr
        norm_num at *; nlinarith
      have b0 : 2 * u * |lr| + u ^ 2 ≤ 2 * u := by norm_num at *; nlinarith
      have b3 : (2 * u * |lr| + u ^ 2) * (2.01 * u * |T| + 1.12 * u) ≤ 0.01 * u := by
        have h1 : (2 * u * |lr| + u ^ 2) * (2.01 * u * |T| + 1.12 * u) ≤ 2 * u * (2.01 * u * |T| + 1.12 * u) := by gcongr
        refine h1.trans ?_
        norm_num at *; nlinarith
      have b4 : u * ((|lr| + (2 * u * |lr| + u ^ 2)) * (|s| + (2.01 * u * |T| + 1.12 * u))) ≤ 0.6 * u := by
        have : (|lr| + (2 * u * |lr| + u ^ 2)) * (|s| + (2.01 * u * |T| + 1.12 * u)) = |lr| * |s| + (2 * u * |lr| + u ^ 2) * |s| + (2.01 * u * |T| + 1.12 * u) * |lr|
          + (2 * u * |lr| + u ^ 2) * (2.01 * u * |T| + 1.12 * u) := by ring
        rw [this, mul_comm]
        apply mul_le_mul_of_nonneg_right _ hu0.le
        norm_num at hu b1 b2 b3 hls ⊢; linarith
      norm_num at *; linarith
    · rw [abs_mul]; linarith
  have s2 := (sn_z2.add fmtA64 hS (m := 8) (by norm_num) (by norm_num) le_rfl).mono (A' := 2.245) (a' := 9.01) (by norm_num) (by norm_num)
  exact (hs.mul fmtA64 s2 (by norm_num) (by norm_num)).mono (by norm_num) (by norm_num)

set_option maxHeartbeats 1000000 in
/-- the five-term formula of `1/2 < x < 2` -/
theorem li3_mid {j k : FP binary64 L} {l t : FV} {a b : ℚ} {lr T J K : ℝ} (hl : Near binary64 l lr (2 * uR binary64 * |lr| + uR binary64 ^ 2)) (hl7 : |lr| ≤ 0.7)
    (ht : Near binary64 t T (2 * uR binary64 * |T| + 1.02 * uR binary64)) (hT : |T| ≤ 2 ^ 15) (hlT : |lr| * |T| ≤ 1)
    (hj : Val binary64 (ofF j) a) (ha0 : -1 ≤ a) (ha1 : a ≤ 0) (hJ : |(a:ℝ) - J| ≤ 3.1 * uR binary64) (hJ1 : |J| ≤ 1)
    (hk : Val binary64 (ofF k) b) (hb0 : 0 ≤ b) (hb1 : b ≤ 1 / 2) (hK : |(b:ℝ) - K| ≤ 1.6 * uR binary64) (hK1 : |K| ≤ 1 / 2) :
    Near binary64 (((((ofF (li3_neg j)).neg.add binary64 (ofF (li3_pos k)).neg).add binary64 (rndQ binary64 1.2020569031595943))).add binary64
      (l.mul binary64 ((rndQ binary64 1.6449340668482264).add binary64 (l.mul binary64 (((rndQ binary64 0.5).neg.mul binary64 t).add binary64
        (((rndQ binary64 1).div binary64 (rndQ binary64 6)).mul binary64 l))))))
      (-reLi 3 J - reLi 3 K + reLi 3 1 + lr * (Real.pi ^ 2 / 6 + lr * (-(1 / 2) * T + 1 / 6 * lr))) (107 * uR binary64) := by
  have hu0 := uR_pos (φ := binary64)
  have hu : uR binary64 ≤ 1 / 2 ^ 53 := by norm_num [uR, binary64]
  have hr := li3_brk hl hl7 ht hT hlT
  have hn := li3neg_near j hj ha0 ha1
  have hp := li3pos_near k hk hb0 hb1
  have hη2 := two_zpow_small
  generalize (2:ℝ) ^ (-1068 : ℤ) = η at *
  have ha0r : (-1:ℝ) ≤ a := by exact_mod_cast ha0
  have ha1r : (a:ℝ) ≤ 0 := by exact_mod_cast ha1
  have hb0r : (0:ℝ) ≤ b := by exact_mod_cast hb0
  have hb1r : (b:ℝ) ≤ 1 / 2 := by have := (Rat.cast_le (K := ℝ)).2 hb1; push_cast at this; exact this
  have haa : |(a:ℝ)| ≤ 1 := by rw [abs_le]; constructor <;> linarith
  have hba : |(b:ℝ)| ≤ 1 / 2 := by rw [abs_le]; constructor <;> linarith
  have l1 := (reLi_lip 0 haa hJ1).trans (mul_le_mul_of_nonneg_left hJ (by norm_num))
  have l2 := (reLi_lip 0 (hba.trans (by norm_num)) (hK1.trans (by norm_num))).trans (mul_le_mul_of_nonneg_left hK (by norm_num))
  have z1 := reLi_lip 0 (a := J) (b := 0) hJ1 (by norm_num)
  have z2 := reLi_lip 0 (a := K) (b := 0) (hK1.trans (by norm_num)) (by norm_num)
  rw [reLi_zero_right, sub_zero, sub_zero] at z1 z2
  simp only [Nat.reduceAdd] at l1 l2 z1 z2
  have hua : uR binary64 * |(a:ℝ)| ≤ uR binary64 * 1 := by gcongr
  have hub : uR binary64 * |(b:ℝ)| ≤ uR binary64 * (1 / 2) := by gcongr
  have hn2 := ((hn.shift l1).mono (e' := 21.6 * uR binary64) (by norm_num at *; linarith)).neg
  have hp2 := (hp.shift l2).mono (e' := 52.1 * uR binary64) (by norm_num at *; linarith)
  have v1 : |-reLi 3 J - reLi 3 K| ≤ 2.475 := by
    refine (abs_sub _ _).trans ?_; rw [abs_neg]; norm_num at *; linarith
  have s1 := (hn2.sub fmtA64 hp2 (by norm_num at *; linarith)).mono (e' := 76.2 * uR binary64) (by
    have : uR binary64 * |-reLi 3 J - reLi 3 K| ≤ uR binary64 * 2.475 := by gcongr
    norm_num at *; nlinarith)
  have v2 : |-reLi 3 J - reLi 3 K + reLi 3 1| ≤ 3.68 := by
    refine (abs_add_le _ _).trans ?_; have := sn_z3.le; norm_num at *; linarith
  have s2 := (s1.add fmtA64 sn_z3.near (by norm_num at *; linarith)).mono (e' := 81.5 * uR binary64) (by
    have : uR binary64 * |-reLi 3 J - reLi 3 K + reLi 3 1| ≤ uR binary64 * 3.68 := by gcongr
    norm_num at *; nlinarith)
  have v3 : |-reLi 3 J - reLi 3 K + reLi 3 1 + lr * (Real.pi ^ 2 / 6 + lr * (-(1 / 2) * T + 1 / 6 * lr))| ≤ 5.3 := by
    refine (abs_add_le _ _).trans ?_; have := hr.le; norm_num at *; linarith
  have hrn := hr.near
  generalize lr * (Real.pi ^ 2 / 6 + lr * (-(1 / 2) * T + 1 / 6 * lr)) = ρ at *
  refine (s2.add fmtA64 hrn (by norm_num at *; linarith)).mono ?_
  have : uR binary64 * |-reLi 3 J - reLi 3 K + reLi 3 1 + ρ| ≤ uR binary64 * 5.3 := by gcongr
  norm_num at *; nlinarith

set_option maxHeartbeats 1000000 in
/-- `1/2 < x < 1` -/
theorem li3_b7 (hL : LogOK binary64 L) (x : FP binary64 L) {q : ℚ} (hx : Val binary64 (ofF x) q) (hq : 1 / 2 < q) (hq1 : q < 1) :
    Near binary64 (ofF (let l := (xlog x)
      ∸(li3_neg ((FOps.lit 1 : FP binary64 L) -. (FOps.lit 1 : FP binary64 L) /. x)) -. (li3_pos ((FOps.lit 1 : FP binary64 L) -. x)) +. (FOps.lit 1.2020569031595943 : FP binary64 L)
        +. l *. ((FOps.lit 1.6449340668482264 : FP binary64 L) +. l *. (∸(FOps.lit 0.5 : FP binary64 L) *. (FOps.log1p (∸x)) +. (FOps.lit 1 : FP binary64 L) /. (FOps.lit 6 : FP binary64 L) *. l))))
      (reLi 3 q) (107 * uR binary64) := by
  have hu0 := uR_pos (φ := binary64)
  have hu : uR binary64 ≤ 1 / 2 ^ 53 := by norm_num [uR, binary64]
  have h2 : (1 / 2 : ℝ) < q := by have := (Rat.cast_lt (K := ℝ)).2 hq; push_cast at this; exact this
  have h1 : (q:ℝ) < 1 := by exact_mod_cast hq1
  have h0 : (0:ℚ) < q := by linarith
  have h0r : (0:ℝ) < q := by linarith
  have i1 : (1:ℚ) ≤ 1 / q := by rw [le_div_iff₀ h0]; linarith
  have i2 : 1 / q ≤ (2:ℚ) := by rw [div_le_iff₀ h0]; linarith
  have i1r : (1:ℝ) ≤ 1 / q := by rw [le_div_iff₀ h0r]; linarith
  have i2r : 1 / q ≤ (2:ℝ) := by rw [div_le_iff₀ h0r]; linarith
  have r1 : rq binary64 1 = 1 := rq_repr (vl_one fmtA64).repr
  have r2 : rq binary64 2 = 2 := rq_repr (by have := (vl_nat fmtA64 2 (by norm_num)).repr; push_cast at this; exact this)
  have g1 : 1 ≤ rq binary64 (1 / q) := by have := rq_mono (φ := binary64) i1; rwa [r1] at this
  have g2 : rq binary64 (1 / q) ≤ 2 := by have := rq_mono (φ := binary64) i2; rwa [r2] at this
  have hi : Val binary64 ((rndQ binary64 1).div binary64 (ofF x)) (rq binary64 (1 / q)) :=
    (vl_one fmtA64).div hx h0.ne' (rq_lt_max fmtA64 (by push_cast; rw [abs_of_pos (by positivity)]; norm_num at i2r ⊢; linarith))
  have ie := rq_errR fmtA64 (1 / q)
  push_cast at ie
  rw [abs_of_pos (a := 1 / (q:ℝ)) (by positivity)] at ie
  set w := rq binary64 (1 / q) with hw
  have gw1 : (1:ℝ) ≤ w := by exact_mod_cast g1
  have gw2 : (w:ℝ) ≤ 2 := by exact_mod_cast g2
  have hj : Val binary64 ((rndQ binary64 1).add binary64 ((rndQ binary64 1).div binary64 (ofF x)).neg) (rq binary64 (1 + -w)) :=
    (vl_one fmtA64).add hi.neg (rq_lt_max fmtA64 (by push_cast; rw [abs_le]; norm_num; constructor <;> linarith))
  have je := rq_add_errR (vl_one fmtA64).repr hi.neg.repr
  push_cast at je
  have ja : |(1:ℝ) + -w| ≤ 1 := by rw [abs_le]; constructor <;> linarith
  have hj0 : -1 ≤ rq binary64 (1 + -w) := by
    have := rq_mono (φ := binary64) (a := -1) (b := 1 + -w) (by linarith)
    rwa [rq_neg, r1] at this
  have hj1 : rq binary64 (1 + -w) ≤ 0 := by
    have := rq_mono (φ := binary64) (a := 1 + -w) (b := 0) (by linarith)
    rwa [rq_zero] at this
  have hJ : |((rq binary64 (1 + -w) : ℚ) : ℝ) - (1 - 1 / q)| ≤ 3.1 * uR binary64 := by
    have j2 : |((rq binary64 (1 + -w) : ℚ) : ℝ) - (1 + -w)| ≤ uR binary64 := je.trans (by nlinarith)
    have j3 : |(w:ℝ) - 1 / q| ≤ 2.01 * uR binary64 := ie.trans (by
      have := mul_le_mul_of_nonneg_right i2r hu0.le
      norm_num only at hu ⊢; nlinarith)
    rw [abs_le] at j2 j3 ⊢
    constructor <;> linarith [j2.1, j2.2, j3.1, j3.2]
  have hk : Val binary64 ((rndQ binary64 1).add binary64 (ofF x).neg) (rq binary64 (1 + -q)) :=
    (vl_one fmtA64).add hx.neg (rq_lt_max fmtA64 (by push_cast; rw [abs_le]; norm_num; constructor <;> linarith))
  have ke := rq_add_errR (vl_one fmtA64).repr hx.neg.repr
  push_cast at ke
  have ka : |(1:ℝ) + -q| ≤ 1 / 2 := by rw [abs_le]; constructor <;> linarith
  have hk0 : 0 ≤ rq binary64 (1 + -q) := rq_nonneg (by linarith)
  have hk1 : rq binary64 (1 + -q) ≤ 1 / 2 := by
    have := rq_mono (φ := binary64) (a := 1 + -q) (b := 1 / 2) (by linarith)
    rwa [rq_repr (q := (1/2 : ℚ)) (vl_half fmtA64).repr] at this
  have hK : |((rq binary64 (1 + -q) : ℚ) : ℝ) - (1 - q)| ≤ 1.6 * uR binary64 := by
    rw [sub_eq_add_neg (1:ℝ)]
    exact ke.trans (by nlinarith)
  have hl := hL.log _ _ hx h0
  have ht := hL.log1p _ _ hx.neg (by linarith)
  push_cast at ht
  have hlT0 : |Real.log (1 + -(q:ℝ))| ≤ 2 ^ 15 := by
    have := hx.neg.log1p_le fmtA64 (by linarith)
    push_cast at this; exact this
  rw [← sub_eq_add_neg] at ht hlT0
  have hl7 : |Real.log q| ≤ 0.7 := by
    rw [abs_of_neg (Real.log_neg h0r h1)]
    have := Real.log_lt_log (by norm_num) h2
    rw [one_div, Real.log_inv] at this
    have := Real.log_two_lt_d9
    linarith
  have hl2 : |Real.log q| ≤ 2 * (1 - q) := by
    rw [abs_of_neg (Real.log_neg h0r h1)]
    have h3 := Real.one_sub_inv_le_log_of_pos h0r
    have h4 : 1 - (q:ℝ)⁻¹ = -((1 - q) / q) := by field_simp; ring
    have h5 : (1 - q) / (q:ℝ) ≤ 2 * (1 - q) := by rw [div_le_iff₀ h0r]; nlinarith
    linarith
  have hlT : |Real.log q| * |Real.log (1 - (q:ℝ))| ≤ 1 := by
    have h3 := mul_abs_log_le (t := 1 - (q:ℝ)) (by linarith) (by linarith)
    have := mul_le_mul_of_nonneg_right hl2 (abs_nonneg (Real.log (1 - (q:ℝ))))
    linarith
  have hm := li3_mid (j := (FOps.lit 1 : FP binary64 L) -. (FOps.lit 1 : FP binary64 L) /. x) (k := (FOps.lit 1 : FP binary64 L) -. x) hl hl7
    (ht.mono (by norm_num at hu ⊢; nlinarith)) hlT0 hlT hj hj0 hj1 hJ (by rw [abs_le]; constructor <;> linarith) hk hk0 hk1 hK
    (by rw [abs_le]; constructor <;> linarith)
  refine Near.congr hm ?_
  linear_combination -reLi_three_landen h0r h1

set_option maxHeartbeats 1000000 in
/-- `1 < x < 2` -/
theorem li3_b8 (hL : LogOK binary64 L) (x : FP binary64 L) {q : ℚ} (hx : Val binary64 (ofF x) q) (hq : 1 < q) (hq1 : q < 2) :
    Near binary64 (ofF (let l := (xlog x)
      ∸(li3_neg ((FOps.lit 1 : FP binary64 L) -. x)) -. (li3_pos ((FOps.lit 1 : FP binary64 L) -. (FOps.lit 1 : FP binary64 L) /. x)) +. (FOps.lit 1.2020569031595943 : FP binary64 L)
        +. l *. ((FOps.lit 1.6449340668482264 : FP binary64 L) +. l *. (∸(FOps.lit 0.5 : FP binary64 L) *. (xlog (x -. (FOps.lit 1 : FP binary64 L))) +. (FOps.lit 1 : FP binary64 L) /. (FOps.lit 6 : FP binary64 L) *. l))))
      (reLi 3 q) (107 * uR binary64) := by
  have hu0 := uR_pos (φ := binary64)
  have hu : uR binary64 ≤ 1 / 2 ^ 53 := by norm_num [uR, binary64]
  have h2 : (q:ℝ) < 2 := by exact_mod_cast hq1
  have h1 : 1 < (q:ℝ) := by exact_mod_cast hq
  have h0 : (0:ℚ) < q := by linarith
  have h0r : (0:ℝ) < q := by linarith
  have i1 : 1 / q ≤ (1:ℚ) := by rw [div_le_iff₀ h0]; linarith
  have i2 : 1 / 2 ≤ (1 / q:ℚ) := by rw [le_div_iff₀ h0]; linarith
  have i1r : 1 / q < (1:ℝ) := by rw [div_lt_iff₀ h0r]; linarith
  have i2r : 1 / 2 < (1 / q:ℝ) := by rw [lt_div_iff₀ h0r]; linarith
  have r1 : rq binary64 1 = 1 := rq_repr (vl_one fmtA64).repr
  have r2 : rq binary64 (1 / 2) = 1 / 2 := rq_repr (vl_half fmtA64).repr
  have g1 : rq binary64 (1 / q) ≤ 1 := by have := rq_mono (φ := binary64) i1; rwa [r1] at this
  have g2 : 1 / 2 ≤ rq binary64 (1 / q) := by have := rq_mono (φ := binary64) i2; rwa [r2] at this
  have hi : Val binary64 ((rndQ binary64 1).div binary64 (ofF x)) (rq binary64 (1 / q)) :=
    (vl_one fmtA64).div hx h0.ne' (rq_lt_max fmtA64 (by push_cast; rw [abs_of_pos (by positivity)]; norm_num at i1r ⊢; linarith))
  have ie := rq_errR fmtA64 (1 / q)
  push_cast at ie
  rw [abs_of_pos (a := 1 / (q:ℝ)) (by positivity)] at ie
  set w := rq binary64 (1 / q) with hw
  have gw1 : (w:ℝ) ≤ 1 := by exact_mod_cast g1
  have gw2 : (1/2:ℝ) ≤ w := by have := (Rat.cast_le (K := ℝ)).2 g2; push_cast at this; exact this
  have hk : Val binary64 ((rndQ binary64 1).add binary64 ((rndQ binary64 1).div binary64 (ofF x)).neg) (rq binary64 (1 + -w)) :=
    (vl_one fmtA64).add hi.neg (rq_lt_max fmtA64 (by push_cast; rw [abs_le]; norm_num; constructor <;> linarith))
  have ke := rq_add_errR (vl_one fmtA64).repr hi.neg.repr
  push_cast at ke
  have ka : |(1:ℝ) + -w| ≤ 1 / 2 := by rw [abs_le]; constructor <;> linarith
  have hk0 : 0 ≤ rq binary64 (1 + -w) := rq_nonneg (by linarith)
  have hk1 : rq binary64 (1 + -w) ≤ 1 / 2 := by
    have := rq_mono (φ := binary64) (a := 1 + -w) (b := 1 / 2) (by linarith)
    rwa [r2] at this
  have hK : |((rq binary64 (1 + -w) : ℚ) : ℝ) - (1 - 1 / q)| ≤ 1.6 * uR binary64 := by
    have j2 : |((rq binary64 (1 + -w) : ℚ) : ℝ) - (1 + -w)| ≤ 0.5 * uR binary64 := ke.trans (by norm_num at ka ⊢; nlinarith)
    have j3 : |(w:ℝ) - 1 / q| ≤ 1.01 * uR binary64 := ie.trans (by
      have := mul_le_mul_of_nonneg_right i1r.le hu0.le
      norm_num only at hu ⊢; nlinarith)
    rw [abs_le] at j2 j3 ⊢
    constructor <;> linarith [j2.1, j2.2, j3.1, j3.2]
  have hj : Val binary64 ((rndQ binary64 1).add binary64 (ofF x).neg) (rq binary64 (1 + -q)) :=
    (vl_one fmtA64).add hx.neg (rq_lt_max fmtA64 (by push_cast; rw [abs_le]; norm_num; constructor <;> linarith))
  have je := rq_add_errR (vl_one fmtA64).repr hx.neg.repr
  push_cast at je
  have ja : |(1:ℝ) + -q| ≤ 1 := by rw [abs_le]; constructor <;> linarith
  have hj0 : -1 ≤ rq binary64 (1 + -q) := by
    have := rq_mono (φ := binary64) (a := -1) (b := 1 + -q) (by linarith)
    rwa [rq_neg, r1] at this
  have hj1 : rq binary64 (1 + -q) ≤ 0 := by
    have := rq_mono (φ := binary64) (a := 1 + -q) (b := 0) (by linarith)
    rwa [rq_zero] at this
  have hJ : |((rq binary64 (1 + -q) : ℚ) : ℝ) - (1 - q)| ≤ 3.1 * uR binary64 := by
    rw [sub_eq_add_neg (1:ℝ)]
    exact je.trans (by nlinarith)
  have hl := hL.log _ _ hx h0
  -- x - 1
  have hd : Val binary64 ((ofF x).add binary64 (rndQ binary64 1).neg) (rq binary64 (q + -1)) :=
    hx.add (vl_one fmtA64).neg (rq_lt_max fmtA64 (by push_cast; rw [abs_le]; norm_num; constructor <;> linarith))
  have de := rq_add_errR hx.repr (vl_one fmtA64).neg.repr
  push_cast at de
  rw [← sub_eq_add_neg (q:ℝ) 1, abs_of_pos (a := (q:ℝ) - 1) (by linarith)] at de
  set d := rq binary64 (q + -1) with hdd
  have hde : |(d:ℝ) - (q - 1)| ≤ uR binary64 * (q - 1) := by rw [mul_comm]; exact de
  have d1 := abs_le.1 hde
  have hud : uR binary64 * (q - 1) ≤ 1 / 1000 * (q - 1) := by
    apply mul_le_mul_of_nonneg_right _ (by linarith); norm_num at hu ⊢; linarith
  have hd0r : (0:ℝ) < d := by linarith [d1.1]
  have hd0 : 0 < d := by exact_mod_cast hd0r
  have hld : |Real.log d - Real.log (q - 1)| ≤ 1.01 * uR binary64 := by
    refine (abs_log_sub_le hd0r (by linarith)).trans ?_
    rw [div_le_iff₀ (lt_min hd0r (by linarith))]
    have : 0.999 * ((q:ℝ) - 1) ≤ min (d:ℝ) (q - 1) := le_min (by norm_num; linarith [d1.1]) (by norm_num; linarith)
    have := mul_le_mul_of_nonneg_left this (show 0 ≤ 1.01 * uR binary64 by positivity)
    have : 0 ≤ uR binary64 * (q - 1) := by apply mul_nonneg hu0.le; linarith
    norm_num at *
    nlinarith
  have ht := ((hL.log _ _ hd hd0).shift hld)
  have hld1 : |Real.log d| ≤ |Real.log ((q:ℝ) - 1)| + 1.01 * uR binary64 := by
    have := abs_add_le (Real.log d - Real.log ((q:ℝ) - 1)) (Real.log ((q:ℝ) - 1)); rw [sub_add_cancel] at this; linarith
  have ht2 := ht.mono (e' := 2 * uR binary64 * |Real.log ((q:ℝ) - 1)| + 1.02 * uR binary64) (by
    have := mul_le_mul_of_nonneg_left hld1 hu0.le
    norm_num at hu this ⊢; nlinarith)
  have hlT0 : |Real.log ((q:ℝ) - 1)| ≤ 2 ^ 15 := by
    have e3 : 1 + 2 * uR binary64 ≤ (q:ℝ) := hx.one_add_le hq
    have e4 : uR binary64 = 1 / 2 ^ 53 := by norm_num [uR, binary64]
    rw [e4] at e3
    rw [abs_of_nonpos (Real.log_nonpos (by linarith) (by linarith))]
    have := Real.log_le_log (x := 1 / 2 ^ 53) (by norm_num) (show 1 / 2 ^ 53 ≤ (q:ℝ) - 1 by linarith)
    rw [one_div, Real.log_inv, Real.log_pow] at this
    have := Real.log_two_lt_d9
    push_cast at *
    norm_num at *
    linarith
  have hl7 : |Real.log q| ≤ 0.7 := by
    rw [abs_of_pos (Real.log_pos h1)]
    have := Real.log_lt_log h0r h2
    have := Real.log_two_lt_d9
    linarith
  have hl2 : |Real.log q| ≤ q - 1 := by
    rw [abs_of_pos (Real.log_pos h1)]
    exact Real.log_le_sub_one_of_pos h0r
  have hlT : |Real.log q| * |Real.log ((q:ℝ) - 1)| ≤ 1 := by
    have h3 := mul_abs_log_le (t := (q:ℝ) - 1) (by linarith) (by linarith)
    have := mul_le_mul_of_nonneg_right hl2 (abs_nonneg (Real.log ((q:ℝ) - 1)))
    linarith
  have hm := li3_mid (k := (FOps.lit 1 : FP binary64 L) -. (FOps.lit 1 : FP binary64 L) /. x) (j := (FOps.lit 1 : FP binary64 L) -. x) hl hl7
    ht2 hlT0 hlT hj hj0 hj1 hJ (by rw [abs_le]; constructor <;> linarith) hk hk0 hk1 hK
    (by rw [abs_le]; constructor <;> linarith)
  refine Near.congr hm ?_
  have hI := reLi_three_inv h1
  rw [← one_div] at hI
  have hLd := reLi_three_landen (x := 1 / (q:ℝ)) (by positivity) i1r
  have e1 : 1 - 1 / (1 / (q:ℝ)) = 1 - q := by field_simp
  have e2 : Real.log (1 - 1 / (q:ℝ)) = Real.log ((q:ℝ) - 1) - Real.log q := by
    rw [← Real.log_div (by linarith) h0r.ne']; congr 1; field_simp
  have e3 : Real.log (1 / (q:ℝ)) = -Real.log q := by rw [one_div, Real.log_inv]
  rw [e1, e2, e3] at hLd
  rw [hI]; linear_combination -hLd

set_option maxHeartbeats 1000000 in
/-- **C41**, `double Li3(double)`: for every finite `x`, `Li3(x)` is finite and within `150 u (1 + log³(1+|x|))` of `Re Li3(x)`, `u = 2^-53`; for `|x| ≤ 1` the error is relative
(up to underflow); for `-1 ≤ x ≤ 0` the constant is `17`. -/
theorem C41_Li3d (hL : LogOK binary64 L) (x : FP binary64 L) {q : ℚ} (hx : Val binary64 (ofF x) q) :
    ∃ r : ℚ, Val binary64 (ofF (Li3d x)) r ∧
      |(r : ℝ) - (pLi 3 (q : ℂ)).re| ≤ 150 * 2 ^ (-53 : ℤ) * (1 + Real.log (1 + |(q : ℝ)|) ^ 3) ∧
      (|(q:ℝ)| ≤ 1 → |(r : ℝ) - (pLi 3 (q : ℂ)).re| ≤ 215 * 2 ^ (-53 : ℤ) * |(q : ℝ)| + 2 ^ (-1068 : ℤ)) ∧
      (-1 ≤ (q : ℝ) → (q:ℝ) ≤ 0 → |(r : ℝ) - (pLi 3 (q : ℂ)).re| ≤ 17 * 2 ^ (-53 : ℤ) * |(q : ℝ)| + 2 ^ (-1068 : ℤ)) := by
  have e2 : (pLi 3 (q : ℂ)).re = reLi 3 (q : ℝ) := by simp [reLi]
  rw [e2, show (2:ℝ) ^ (-53:ℤ) = uR binary64 from rfl]
  have hu : uR binary64 ≤ 1 / 2 ^ 53 := by norm_num [uR, binary64]
  have hu0 := uR_pos (φ := binary64)
  have hη : (0:ℝ) < 2 ^ (-1068 : ℤ) := by positivity
  have hη2 := two_zpow_small
  have hneg := fun h0 h1 => li3neg_near x hx h0 h1
  have hpos := fun h0 h1 => li3pos_near x hx h0 h1
  generalize (2:ℝ) ^ (-1068 : ℤ) = η at *
  have hT0 : 0 ≤ Real.log (1 + |(q:ℝ)|) ^ 3 := by
    have := (lam64_le hx).1; positivity
  have hf1 := fun h => li3_b1 hL x hx h
  have hf2 := fun h => li3_b9 hL x hx h
  generalize Real.log (1 + |(q:ℝ)|) ^ 3 = T at *
  have hp : 0 ≤ uR binary64 * T := by positivity
  have h1 := vl_one fmtA64
  have e0 : (ofF x).lt (rndQ binary64 1).neg = decide (q < -1) := hx.lt h1.neg
  have e1 : (ofF x).eq (rndQ binary64 1).neg = decide (q = -1) := hx.eq h1.neg
  have e3 : (ofF x).lt (rndQ binary64 0) = decide (q < 0) := hx.lt (vl_zero fmtA64)
  have e4 : (ofF x).eq (rndQ binary64 0) = decide (q = 0) := hx.eq (vl_zero fmtA64)
  have e5 : (ofF x).lt (rndQ binary64 0.5) = decide (q < 1 / 2) := hx.lt (vl_half fmtA64)
  have e6 : (ofF x).eq (rndQ binary64 0.5) = decide (q = 1 / 2) := hx.eq (vl_half fmtA64)
  have e7 : (ofF x).lt (rndQ binary64 1) = decide (q < 1) := hx.lt h1
  have e8 : (ofF x).eq (rndQ binary64 1) = decide (q = 1) := hx.eq h1
  have e9 : (ofF x).lt (rndQ binary64 2) = decide (q < 2) := by
    have := hx.lt (vl_nat fmtA64 2 (by norm_num)); push_cast at this; exact this
  unfold Li3d
  simp only [lt_F, eq_F, ofF_neg, ofF_lit, e0, e1, e3, e4, e5, e6, e7, e8, e9, decide_eq_true_eq]
  split_ifs with h1 h2 h3 h4 h5 h6 h7 h8 h9
  · obtain ⟨v, hv, he⟩ := hf1 h1
    have hq : (q:ℝ) < -1 := by exact_mod_cast h1
    have habs : ¬ |(q:ℝ)| ≤ 1 := by rw [abs_of_neg (by linarith)]; linarith
    exact ⟨v, hv, by linarith, fun h => absurd h habs, fun h => by linarith⟩
  · subst h2
    have k1 : Val binary64 (rndQ binary64 0.75).neg (-(3 / 4)) := by
      have := (near_dy fmtA64 (q := 0.75) 3 2 (by norm_num) (by norm_num) (by norm_num)).neg
      have e : (-(0.75) : ℚ) = -(3 / 4) := by norm_num
      rwa [e] at this
    have k2 : SN binary64 (rndQ binary64 0.75).neg ((-(3 / 4) : ℚ) : ℝ) 0.75 0 := k1.sn (by norm_num [abs_of_pos]) (by norm_num) (by norm_num)
    have k3 := (k2.mul fmtA64 sn_z3 (by norm_num) (by norm_num)).mono (A' := 1) (a' := 3) (by norm_num) (by norm_num)
    have hm := reLi_neg_one_eq 1
    norm_num at hm
    have e : (((-(3 / 4) : ℚ)) : ℝ) * reLi 3 1 = reLi 3 ((-1:ℚ):ℝ) := by push_cast; rw [hm]; ring
    rw [e] at k3
    obtain ⟨v, hv, he⟩ := k3.near
    have ha : |((-1:ℚ):ℝ)| = 1 := by norm_num
    rw [ha]
    exact ⟨v, hv, by linarith, fun _ => by linarith, fun _ _ => by linarith⟩
  · obtain ⟨v, hv, he⟩ := hneg (not_lt.1 h1) h3.le
    have hq : (q:ℝ) < 0 := by exact_mod_cast h3
    have hq' : (-1:ℝ) ≤ q := by exact_mod_cast not_lt.1 h1
    have hqa : |(q:ℝ)| ≤ 1 := by rw [abs_le]; constructor <;> linarith
    have k1 : uR binary64 * |(q:ℝ)| ≤ uR binary64 * 1 := by gcongr
    have k2 : 0 ≤ uR binary64 * |(q:ℝ)| := by positivity
    exact ⟨v, hv, by norm_num at he ⊢; linarith, fun _ => by norm_num at he ⊢; linarith, fun _ _ => by norm_num at he ⊢; linarith⟩
  · subst h4
    refine ⟨0, hx, ?_⟩
    have e : ((0:ℚ):ℝ) = 0 := Rat.cast_zero
    rw [e, reLi_zero_right, sub_zero, abs_zero, mul_zero, mul_zero]
    exact ⟨by positivity, fun _ => by positivity, fun _ _ => by positivity⟩
  · have h0 : 0 < q := lt_of_le_of_ne (not_lt.1 h3) (Ne.symm h4)
    obtain ⟨v, hv, he⟩ := hpos h0.le h5.le
    have hq : (0:ℝ) < q := by exact_mod_cast h0
    have hq' : (q:ℝ) < 1 / 2 := by have := (Rat.cast_lt (K := ℝ)).2 h5; push_cast at this; exact this
    have hqa : |(q:ℝ)| ≤ 1 := by rw [abs_le]; constructor <;> linarith
    have k1 : uR binary64 * |(q:ℝ)| ≤ uR binary64 * 1 := by gcongr
    have k2 : 0 ≤ uR binary64 * |(q:ℝ)| := by positivity
    exact ⟨v, hv, by norm_num at he ⊢; linarith, fun _ => by norm_num at he ⊢; linarith, fun _ h => by linarith⟩
  · subst h6
    have hh := reLi_three_half
    simp only [Nat.reduceAdd] at hh
    have hn := near_lit fmtA64 (q := 0.53721319360804020) (by norm_num)
    have k1 : |(((0.53721319360804020 : ℚ) : ℚ) : ℝ) - reLi 3 (1 / 2)| ≤ 1e-18 := by
      rw [abs_le] at hh ⊢
      push_cast at hh ⊢
      constructor <;> linarith [hh.1, hh.2]
    obtain ⟨v, hv, he⟩ := hn.shift k1
    have e : (((1 / 2 : ℚ)) : ℝ) = 1 / 2 := by norm_num
    rw [e, abs_of_pos (a := (1 / 2 : ℝ)) (by norm_num)]
    have e4 : uR binary64 = 1 / 2 ^ 53 := by norm_num [uR, binary64]
    have k2 : |(v:ℝ) - reLi 3 (1 / 2)| ≤ uR binary64 := by
      refine he.trans ?_
      rw [e4]
      norm_num [abs_of_pos]
    exact ⟨v, hv, by linarith, fun _ => by linarith, fun _ h => absurd h (by norm_num)⟩
  · have h0 : 1 / 2 < q := lt_of_le_of_ne (not_lt.1 h5) (Ne.symm h6)
    obtain ⟨v, hv, he⟩ := li3_b7 hL x hx h0 h7
    have hq' : (1 / 2 : ℝ) < q := by have := (Rat.cast_lt (K := ℝ)).2 h0; push_cast at this; exact this
    have k2 : uR binary64 * (1 / 2) ≤ uR binary64 * |(q:ℝ)| := by
      rw [abs_of_pos (a := (q:ℝ)) (by linarith)]; gcongr
    exact ⟨v, hv, by linarith, fun _ => by linarith, fun _ h => by linarith⟩
  · subst h8
    obtain ⟨v, hv, he⟩ := sn_z3.near
    have ha : |((1:ℚ):ℝ)| = 1 := by norm_num
    have ha' : ((1:ℚ):ℝ) = 1 := by norm_num
    rw [ha, ha']
    have : |(v:ℝ) - reLi 3 1| ≤ 2 * uR binary64 := he.trans (by linarith)
    exact ⟨v, hv, by linarith, fun _ => by linarith, fun _ h => by linarith⟩
  · have h6 : 1 < q := lt_of_le_of_ne (not_lt.1 h7) (Ne.symm h8)
    obtain ⟨v, hv, he⟩ := li3_b8 hL x hx h6 h9
    have hq : 1 < (q:ℝ) := by exact_mod_cast h6
    have habs : ¬ |(q:ℝ)| ≤ 1 := by rw [abs_of_pos (by linarith)]; linarith
    exact ⟨v, hv, by linarith, fun h => absurd h habs, fun _ h => by linarith⟩
  · obtain ⟨v, hv, he⟩ := hf2 (not_lt.1 h9)
    have hq : 2 ≤ (q:ℝ) := by exact_mod_cast not_lt.1 h9
    have habs : ¬ |(q:ℝ)| ≤ 1 := by rw [abs_of_pos (by linarith)]; linarith
    exact ⟨v, hv, by linarith, fun h => absurd h habs, fun _ h => by linarith⟩

/-- **C41**, the C port: `li3` -/
theorem C41_li3_C (hL : LogOK binary64 L) (x : FP binary64 L) {q : ℚ} (hx : Val binary64 (ofF x) q) :
    ∃ r : ℚ, Val binary64 (ofF (C.li3 x)) r ∧
      |(r : ℝ) - (pLi 3 (q : ℂ)).re| ≤ 150 * 2 ^ (-53 : ℤ) * (1 + Real.log (1 + |(q : ℝ)|) ^ 3) := by
  rw [C36_li3]; obtain ⟨r, h1, h2, -⟩ := C41_Li3d hL x hx; exact ⟨r, h1, h2⟩

/-- **C41**, the C port: `li4` -/
theorem C41_li4_C (hL : LogOK binary64 L) (x : FP binary64 L) {q : ℚ} (hx : Val binary64 (ofF x) q) :
    ∃ r : ℚ, Val binary64 (ofF (C.li4 x)) r ∧
      |(r : ℝ) - (pLi 4 (q : ℂ)).re| ≤ 1500 * 2 ^ (-53 : ℤ) * (1 + Real.log (1 + |(q : ℝ)|) ^ 4) := by
  rw [C36_li4]; obtain ⟨r, h1, h2, -⟩ := C41_Li4d hL x hx; exact ⟨r, h1, h2⟩

/-- the hypotheses are met: a library with the contract exists, and e.g. `x = 7/4` is a binary64 number -/
example : ∃ L : Lib, LogOK binary64 L ∧ ∃ (x : FP binary64 L) (r s : ℚ), Val binary64 (ofF x) (7 / 4) ∧ Val binary64 (ofF (Li3d x)) r ∧ Val binary64 (ofF (Li4d x)) s ∧
    |(r : ℝ) - (pLi 3 ((7 / 4 : ℚ) : ℂ)).re| ≤ 150 * 2 ^ (-53 : ℤ) * (1 + Real.log (1 + |((7 / 4 : ℚ) : ℝ)|) ^ 3) ∧
    |(s : ℝ) - (pLi 4 ((7 / 4 : ℚ) : ℂ)).re| ≤ 1500 * 2 ^ (-53 : ℤ) * (1 + Real.log (1 + |((7 / 4 : ℚ) : ℝ)|) ^ 4) := by
  have hL := exists_logOK fmtA64 zeroLib
  set L : Lib := { zeroLib with log := approxF binary64 Real.log, log1p := approxF binary64 (fun t => Real.log (1 + t)) }
  have hv : Val binary64 (rndQ binary64 (7 / 4)) (7 / 4) := near_dy fmtA64 7 2 (by norm_num) (by norm_num) (by norm_num)
  obtain ⟨r, hr, he, -⟩ := C41_Li3d hL (toF binary64 L (rndQ binary64 (7 / 4))) hv
  obtain ⟨s, hs, he', -⟩ := C41_Li4d hL (toF binary64 L (rndQ binary64 (7 / 4))) hv
  exact ⟨L, hL, _, r, s, hv, hr, hs, he, he'⟩

end Polylog
