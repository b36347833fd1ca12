import Verif.Props.ClMidFP5

/-! # The logarithmic term of `Cl(n, x)`, n = 7, 8, 9, in IEEE double precision -/

namespace Polylog
set_option linter.style.longLine false
open Finset

variable {L : Lib}

/-- `u = 2^-53` -/
local notation "υ" => uR binary64

theorem repr_2pow (e : ℤ) (h : -1074 ≤ e) : Repr binary64 |((2:ℚ) ^ e)| := by
  rw [abs_of_pos (by positivity)]; exact repr_two_pow h

/-- the halved argument -/
theorem half_val {x : FP binary64 L} {q : ℚ} (hx : Val binary64 (ofF x) q) (h0 : 0 ≤ q) (h1 : q ≤ 3.1417) :
    Val binary64 (ofF (x /. (FOps.lit 2 : FP binary64 L))) (rq binary64 (q / 2)) := by
  have h2 : Val binary64 (ofF (FOps.lit 2 : FP binary64 L)) 2 := vl_nat fmtA64 2 (by norm_num)
  refine Val.div hx h2 (by norm_num) (rq_big_lt ?_)
  have e1 : (0:ℝ) ≤ q := by exact_mod_cast h0
  have e2 : ((q : ℚ) : ℝ) ≤ ((3.1417 : ℚ) : ℝ) := by exact_mod_cast h1
  push_cast at e2 ⊢
  rw [abs_of_nonneg (by positivity)]; norm_num at e2 ⊢; linarith

/-- small arguments: only the size matters -/
theorem midlog_small (hL : MidOK L) (x : FP binary64 L) {q : ℚ} (hx : Val binary64 (ofF x) q) (h0 : (2:ℚ) ^ (-1073 : ℤ) ≤ q) (h1 : q ≤ 2 ^ (-29 : ℤ)) :
    |Real.log (2 * Real.sin ((q:ℝ) / 2))| ≤ 2 ^ 15 ∧
    Near binary64 (ofF (FOps.log ((FOps.lit 2 : FP binary64 L) *. FOps.sin (x /. (FOps.lit 2 : FP binary64 L))))) (Real.log (2 * Real.sin ((q:ℝ) / 2))) (2 ^ 17) := by
  have hq0 : 0 < q := lt_of_lt_of_le (by positivity) h0
  have hq1 : q ≤ 3.1417 := h1.trans (by norm_num)
  have hh := half_val hx hq0.le hq1
  have a1 : (2:ℚ) ^ (-1074 : ℤ) ≤ rq binary64 (q / 2) := by
    rw [← rq_repr (repr_2pow (-1074) le_rfl)]
    apply rq_mono
    rw [le_div_iff₀ (by norm_num), ← zpow_add_one₀ (by norm_num)]; exact h0
  have a2 : rq binary64 (q / 2) ≤ 2 ^ (-30 : ℤ) := by
    rw [← rq_repr (repr_2pow (-30) (by norm_num))]
    apply rq_mono
    rw [div_le_iff₀ (by norm_num), ← zpow_add_one₀ (by norm_num)]; exact h1
  set h := rq binary64 (q / 2) with hhd
  have hp : 0 < h := lt_of_lt_of_le (by positivity) a1
  have hs : L.sin (ofF (x /. (FOps.lit 2 : FP binary64 L))) = ofF (x /. (FOps.lit 2 : FP binary64 L)) :=
    hL.sinTiny _ _ hh hp (a2.trans (le_of_eq (by norm_num)))
  have h2 : Val binary64 (ofF (FOps.lit 2 : FP binary64 L)) 2 := vl_nat fmtA64 2 (by norm_num)
  have hy : Val binary64 (ofF ((FOps.lit 2 : FP binary64 L) *. FOps.sin (x /. (FOps.lit 2 : FP binary64 L)))) (rq binary64 (2 * h)) := by
    have : ofF ((FOps.lit 2 : FP binary64 L) *. FOps.sin (x /. (FOps.lit 2 : FP binary64 L))) = FV.mul binary64 (ofF (FOps.lit 2 : FP binary64 L)) (L.sin (ofF (x /. (FOps.lit 2 : FP binary64 L)))) := rfl
    rw [this, hs]
    refine Val.mul h2 hh (rq_big_lt ?_)
    have b1 : ((h : ℚ) : ℝ) ≤ (((2:ℚ) ^ (-30:ℤ) : ℚ) : ℝ) := by exact_mod_cast a2
    have b0 : (0:ℝ) < h := by exact_mod_cast hp
    push_cast at b1 ⊢
    rw [abs_of_nonneg (by positivity)]; norm_num at b1 ⊢; linarith
  have hyp : 0 < rq binary64 (2 * h) := by
    refine lt_of_lt_of_le (by positivity : (0:ℚ) < 2 ^ (-1073 : ℤ)) ?_
    rw [← rq_repr (repr_2pow (-1073) (by norm_num))]
    apply rq_mono
    rw [show (-1073:ℤ) = -1074 + 1 by norm_num, zpow_add_one₀ (by norm_num), mul_comm]; linarith
  have hlog := hL.log _ _ hy hyp
  have hl1 := hy.log_le fmtA64 hyp
  -- the exact value
  have r0 : (0:ℝ) < q := by exact_mod_cast hq0
  have r1 : ((q:ℚ):ℝ) ≤ (((2:ℚ) ^ (-29:ℤ) : ℚ) : ℝ) := by exact_mod_cast h1
  have r2 : (((2:ℚ) ^ (-1073:ℤ) : ℚ) : ℝ) ≤ ((q:ℚ):ℝ) := by exact_mod_cast h0
  push_cast at r1 r2
  have r3 : (q:ℝ) ≤ 1 := r1.trans (by norm_num)
  have s1 := sin_ge_half (t := (q:ℝ) / 2) (by linarith) (by linarith)
  have s2 := Real.sin_le (x := (q:ℝ) / 2) (by linarith)
  have y1 : (2:ℝ) ^ (-1074 : ℤ) ≤ 2 * Real.sin ((q:ℝ) / 2) := by
    have : (2:ℝ) ^ (-1074 : ℤ) = 2 ^ (-1073 : ℤ) / 2 := by rw [show (-1074:ℤ) = -1073 - 1 by norm_num, zpow_sub_one₀ (by norm_num)]; rfl
    rw [this]; linarith
  have y0 : (0:ℝ) < 2 ^ (-1074 : ℤ) := by positivity
  have hl0 : |Real.log (2 * Real.sin ((q:ℝ) / 2))| ≤ 2 ^ 15 := by
    have l1 := Real.log_le_log y0 y1
    have l2 := Real.log_nonpos (by linarith : 0 ≤ 2 * Real.sin ((q:ℝ) / 2)) (by linarith)
    rw [Real.log_zpow] at l1
    have h2 : Real.log 2 ≤ 1 := by have := Real.log_le_sub_one_of_pos (x := 2) (by norm_num); linarith
    have h20 : 0 ≤ Real.log 2 := Real.log_nonneg (by norm_num)
    push_cast at l1
    rw [abs_le]; constructor <;> norm_num <;> linarith
  refine ⟨hl0, (hlog.shift (r' := Real.log (2 * Real.sin ((q:ℝ) / 2))) (d := 2 ^ 15 + 2 ^ 15) ((abs_sub _ _).trans (add_le_add hl1 hl0))).mono ?_⟩
  have hu := u53
  have : υ * |Real.log (rq binary64 (2 * h) : ℚ)| ≤ υ * 2 ^ 15 := mul_le_mul_of_nonneg_left hl1 (uR_pos (φ := binary64)).le
  rw [hu] at *
  norm_num at *; linarith

/-- the other arguments -/
theorem midlog_big (hL : MidOK L) (x : FP binary64 L) {q : ℚ} (hx : Val binary64 (ofF x) q) (h0 : (2:ℚ) ^ (-29 : ℤ) ≤ q) (h1 : q ≤ 3.1417) :
    Near binary64 (ofF (FOps.log ((FOps.lit 2 : FP binary64 L) *. FOps.sin (x /. (FOps.lit 2 : FP binary64 L))))) (Real.log (2 * Real.sin ((q:ℝ) / 2))) (8 * υ * (1 + 2 / q)) := by
  have hu := u53
  have hu0 := uR_pos (φ := binary64)
  have hu16 : υ ≤ 1.2e-16 := by rw [hu]; norm_num
  have hq0 : 0 < q := lt_of_lt_of_le (by positivity) h0
  have hh := half_val hx hq0.le h1
  have r0 : (0:ℝ) < q := by exact_mod_cast hq0
  have r1 : (q:ℝ) ≤ 3.1417 := by
    have : ((q : ℚ) : ℝ) ≤ ((3.1417 : ℚ) : ℝ) := by exact_mod_cast h1
    norm_num at this ⊢; exact this
  have r2 : (1.8e-9:ℝ) ≤ q := by
    have : (((2:ℚ) ^ (-29:ℤ) : ℚ) : ℝ) ≤ ((q:ℚ):ℝ) := by exact_mod_cast h0
    push_cast at this; norm_num at this ⊢; linarith
  have a1 : 1 / 2 ^ 30 ≤ rq binary64 (q / 2) := by
    have : (1 / 2 ^ 30 : ℚ) = 2 ^ (-30 : ℤ) := by norm_num
    rw [this, ← rq_repr (repr_2pow (-30) (by norm_num))]
    apply rq_mono
    rw [le_div_iff₀ (by norm_num), ← zpow_add_one₀ (by norm_num)]; exact h0
  have hd := rq_err240 (q / 2)
  have ehalf : ((q / 2 : ℚ) : ℝ) = (q:ℝ) / 2 := by push_cast; rfl
  rw [ehalf, abs_of_pos (by positivity : 0 < (q:ℝ) / 2)] at hd
  set h := rq binary64 (q / 2) with hhd
  have hd2 : |((h:ℚ):ℝ) - (q:ℝ) / 2| ≤ 1.001 * υ * ((q:ℝ) / 2) := by
    refine hd.trans ?_
    have : (1e-240:ℝ) ≤ 0.001 * υ * ((q:ℝ) / 2) := by
      have : 0.001 * υ * ((1.8e-9:ℝ) / 2) ≤ 0.001 * υ * ((q:ℝ) / 2) := by gcongr
      refine le_trans ?_ this
      rw [hu]; norm_num
    linarith
  have s1 := sin_ge_half (t := (q:ℝ) / 2) (by linarith) (by linarith)
  set Y := Real.sin ((q:ℝ) / 2) with hY
  have hY0 : 0 < Y := by linarith
  have hd3 : |((h:ℚ):ℝ) - (q:ℝ) / 2| ≤ 2.01 * υ * Y := by
    refine hd2.trans ?_
    have : υ * ((q:ℝ) / 2) ≤ υ * (2 * Y) := by apply mul_le_mul_of_nonneg_left _ hu0.le; linarith
    nlinarith
  have a2r : ((h:ℚ):ℝ) ≤ 1.6 := by
    have := (abs_le.1 hd2).2
    have : υ * ((q:ℝ) / 2) ≤ 1.2e-16 * ((q:ℝ) / 2) := by gcongr
    norm_num at *; linarith
  have a2 : h ≤ 1.6 := by
    have : ((h:ℚ):ℝ) ≤ ((1.6:ℚ):ℝ) := by norm_num at a2r ⊢; exact a2r
    exact_mod_cast this
  have hs := hL.sin _ _ hh a1 a2
  have hsd : |Real.sin h - Y| ≤ 2.01 * υ * Y := (Real.abs_sin_sub_sin_le h ((q:ℝ) / 2)).trans hd3
  have hsu : Real.sin h ≤ 1.01 * Y := by
    have := (abs_le.1 hsd).2
    have : υ * Y ≤ 1.2e-16 * Y := by gcongr
    nlinarith
  have hs2 : Near binary64 (ofF (FOps.sin (x /. (FOps.lit 2 : FP binary64 L)))) Y (4.1 * υ * Y) := by
    have h3 : Near binary64 (ofF (FOps.sin (x /. (FOps.lit 2 : FP binary64 L)))) (Real.sin h) (2 * υ * Real.sin h) := hs
    refine (h3.shift hsd).mono ?_
    have : υ * Real.sin h ≤ υ * (1.01 * Y) := mul_le_mul_of_nonneg_left hsu hu0.le
    nlinarith
  have h2 : Val binary64 (ofF (FOps.lit 2 : FP binary64 L)) 2 := vl_nat fmtA64 2 (by norm_num)
  have hY1 : Y ≤ 1 := Real.sin_le_one _
  have huY : υ * Y ≤ 1.2e-16 * Y := by gcongr
  have hy : Near binary64 (ofF ((FOps.lit 2 : FP binary64 L) *. FOps.sin (x /. (FOps.lit 2 : FP binary64 L)))) (2 * Y) (5.2 * υ * (2 * Y)) := by
    have e2 : (((2:ℚ)):ℝ) = 2 := by norm_num
    have hM : (|(((2:ℚ)):ℝ)| + 0) * (|Y| + 4.1 * υ * Y) ≤ 2 * (1.01 * Y) := by
      rw [e2, abs_of_pos hY0, abs_of_pos (by norm_num : (0:ℝ) < 2), add_zero]
      have : Y + 4.1 * υ * Y ≤ 1.01 * Y := by nlinarith
      linarith
    have := h2.near.mul fmtA64 hs2 (hM.trans (by norm_num; linarith))
    rw [e2] at this
    refine this.mono ?_
    rw [e2, abs_of_pos (by norm_num : (0:ℝ) < 2)] at hM
    rw [abs_of_pos (by norm_num : (0:ℝ) < 2)]
    have h5 := mul_le_mul_of_nonneg_left hM hu0.le
    have h6 : υ ^ 2 ≤ 0.01 * (υ * Y) := by
      have : υ ≤ 0.01 * Y := by linarith
      nlinarith
    have h7 : 0 ≤ υ * Y := by positivity
    linarith
  obtain ⟨y, hyv, hyd⟩ := hy
  have hy1 := abs_le.1 hyd
  have hyp : (0:ℝ) < y := by nlinarith
  have hypq : 0 < y := by exact_mod_cast hyp
  have hlog := hL.log _ _ hyv hypq
  have hmin : 0.99 * (2 * Y) ≤ min (y:ℝ) (2 * Y) := le_min (by nlinarith) (by linarith)
  have hld : |Real.log y - Real.log (2 * Y)| ≤ 5.3 * υ := by
    refine (abs_log_sub_le hyp (by positivity)).trans ?_
    rw [div_le_iff₀ (by linarith)]
    refine hyd.trans ?_
    have := mul_le_mul_of_nonneg_left hmin (by positivity : 0 ≤ 5.3 * υ)
    have : 0 ≤ υ * Y := by positivity
    nlinarith
  have hΛ := log_sin_le r0 r1
  rw [← hY] at hΛ
  have hl2 : |Real.log y| ≤ 1 + 2 / q + 5.3 * υ := by
    have := abs_sub_abs_le_abs_sub (Real.log y) (Real.log (2 * Y))
    linarith
  refine (hlog.shift hld).mono ?_
  have h7 := mul_le_mul_of_nonneg_left hl2 hu0.le
  have h8 : υ * υ ≤ υ * 1.2e-16 := mul_le_mul_of_nonneg_left hu16 hu0.le
  have h9 : 0 ≤ υ * (2 / (q:ℝ)) := by positivity
  nlinarith

/-- `pow(x, k)*f1` with its sign, f1 = 1/k! -/
theorem powf_near (hL : MidOK L) (x : FP binary64 L) {q : ℚ} (hx : Val binary64 (ofF x) q) (h0 : 0 ≤ q) (h1 : q ≤ 3.1417) (k : ℕ) (hk : 6 ≤ k) (hk8 : k ≤ 8)
    (σ : Bool) (f : ℚ) (hf0 : 0 ≤ f) (hf1 : f ≤ 1) :
    Near binary64 (ofF ((if σ then (FOps.lit 1 : FP binary64 L) else ∸(FOps.lit 1 : FP binary64 L)) *. powi x (k:ℤ) *. (FOps.lit f : FP binary64 L)))
      (((if σ then 1 else -1 : ℚ) : ℝ) * (q:ℝ) ^ k * f) (4.1 * υ * ((q:ℝ) ^ k * f) + 2 * υ ^ 2 * (1 + (q:ℝ) ^ k)) := by
  have hu := u53
  have hu0 := uR_pos (φ := binary64)
  have r0 : (0:ℝ) ≤ q := by exact_mod_cast h0
  have r1 : (q:ℝ) ≤ ww := by
    have : ((q : ℚ) : ℝ) ≤ ((3.1417 : ℚ) : ℝ) := by exact_mod_cast h1
    norm_num at this ⊢; exact this
  have hp := hL.pow (ofF x) q k hx h0 (h1.trans (by norm_num)) (by omega) (by omega)
  have hp : Near binary64 (ofF (powi x (k:ℤ))) ((q:ℝ) ^ k) (2 * υ * (q:ℝ) ^ k + 2 ^ (-1074 : ℤ)) := by
    have e : ofF (powi x (k:ℤ)) = L.pow (ofF x) (rndQ binary64 k) := by
      show L.pow (ofF x) (rndQ binary64 ((k:ℤ):ℚ)) = _
      rw [Int.cast_natCast]
    rw [e]; exact hp
  have hq2 : (q:ℝ) ^ k ≤ 1e5 := (pow_le_pow_left₀ r0 r1 k).trans (ww_le k (by omega))
  have hη := eta1074
  set P := (q:ℝ) ^ k with hP
  have hP0 : 0 ≤ P := by positivity
  have hη2 : (2:ℝ) ^ (-1074 : ℤ) ≤ 1e-10 * υ ^ 2 := by refine hη.trans ?_; rw [hu]; norm_num
  have fr0 : (0:ℝ) ≤ f := by exact_mod_cast hf0
  have fr1 : (f:ℝ) ≤ 1 := by exact_mod_cast hf1
  have hf := near_lit fmtA64 (q := f) (by rw [abs_of_nonneg fr0]; exact fr1.trans (by norm_num))
  rw [abs_of_nonneg fr0] at hf
  have hs := near_sgn (sgn_val (L := L) σ) (by cases σ <;> simp) (hp.mono (e' := 2 * υ * P + 1e-10 * υ ^ 2) (by linarith))
  set g : ℝ := ((if σ then 1 else -1 : ℚ) : ℝ) with hg
  have hga : |g * P| = P := by
    rw [abs_mul, abs_of_nonneg hP0, hg]; cases σ <;> simp
  have hu16 : υ ≤ 1.2e-16 := by rw [hu]; norm_num
  have hu2 : υ ^ 2 ≤ 1.2e-16 * υ := by rw [pow_two]; exact mul_le_mul_of_nonneg_right hu16 hu0.le
  have huP : υ * P ≤ 1.2e-11 := by
    have := mul_le_mul hu16 hq2 hP0 (by norm_num); norm_num at this ⊢; linarith
  have hpf : 0 ≤ P * f := by positivity
  have e1 : (|g * P| + (2 * υ * P + 1e-10 * υ ^ 2)) * (|(f:ℝ)| + (f * υ + υ ^ 2)) ≤ 1.001 * (P * f) + 1e-3 * υ := by
    rw [hga, abs_of_nonneg fr0]
    have : (2 * υ * P + 1e-10 * υ ^ 2) * (f + (f * υ + υ ^ 2)) ≤ 4e-12 * (P * f) + 1e-4 * υ := by
      have k1 : f + (f * υ + υ ^ 2) ≤ 1.001 * f + 1.2e-16 * υ := by
        have : (f:ℝ) * υ ≤ f * 1.2e-16 := by gcongr
        nlinarith
      have k2 : 0 ≤ 2 * υ * P + 1e-10 * υ ^ 2 := by positivity
      refine (mul_le_mul_of_nonneg_left k1 k2).trans ?_
      have m1 : υ * (P * f) ≤ 1.2e-16 * (P * f) := by gcongr
      have m2 : υ ^ 2 * f ≤ 1.2e-16 * υ * 1 := mul_le_mul hu2 fr1 fr0 (by positivity)
      have m3 : υ * P * υ ≤ 1.2e-11 * υ := mul_le_mul_of_nonneg_right huP hu0.le
      have m4 : υ ^ 2 * υ ≤ 1.2e-16 * υ * 1.2e-16 := mul_le_mul hu2 hu16 hu0.le (by positivity)
      have e : (2 * υ * P + 1e-10 * υ ^ 2) * (1.001 * f + 1.2e-16 * υ) = 2.002 * (υ * (P * f)) + 2.4e-16 * (υ * P * υ) + 1.001e-10 * (υ ^ 2 * f) + 1.2e-26 * (υ ^ 2 * υ) := by ring
      rw [e]; norm_num at *; linarith
    have m5 : P * (f * υ + υ ^ 2) ≤ 1.2e-16 * (P * f) + 1.2e-11 * υ := by
      have a : (P * f) * υ ≤ (P * f) * 1.2e-16 := by gcongr
      have b : υ * P * υ ≤ 1.2e-11 * υ := mul_le_mul_of_nonneg_right huP hu0.le
      have e : P * (f * υ + υ ^ 2) = (P * f) * υ + υ * P * υ := by ring
      rw [e]; linarith
    have e : (P + (2 * υ * P + 1e-10 * υ ^ 2)) * (f + (f * υ + υ ^ 2)) = P * f + P * (f * υ + υ ^ 2) + (2 * υ * P + 1e-10 * υ ^ 2) * (f + (f * υ + υ ^ 2)) := by ring
    rw [e]; norm_num at *; linarith
  have hPf : P * f ≤ 1e5 := by
    have := mul_le_mul hq2 fr1 fr0 (by norm_num); linarith
  refine (hs.mul fmtA64 hf (e1.trans (by norm_num; linarith))).mono ?_
  have e2 := mul_le_mul_of_nonneg_left e1 hu0.le
  rw [hga, abs_of_nonneg fr0] at *
  have k3 : (2 * υ * P + 1e-10 * υ ^ 2) * f ≤ 2 * (υ * (P * f)) + 1e-10 * υ ^ 2 := by
    have : υ ^ 2 * f ≤ υ ^ 2 * 1 := by gcongr
    have e : (2 * υ * P + 1e-10 * υ ^ 2) * f = 2 * (υ * (P * f)) + 1e-10 * (υ ^ 2 * f) := by ring
    rw [e]; linarith
  have k4 : (f * υ + υ ^ 2) * P = υ * (P * f) + υ ^ 2 * P := by ring
  have n1 : 0 ≤ υ * (P * f) := by positivity
  have n2 : 0 ≤ υ ^ 2 := by positivity
  have n3 : 0 ≤ υ ^ 2 * P := by positivity
  have k5 : (2 * υ * P + 1e-10 * υ ^ 2) * (f * υ + υ ^ 2) ≤ 0.001 * υ ^ 2 + 1e-9 * (υ * (P * f)) := by
    have m1 : υ * P * υ ^ 2 ≤ 1.2e-11 * υ ^ 2 := mul_le_mul_of_nonneg_right huP (by positivity)
    have m2 : υ * (υ * (P * f)) ≤ 1.2e-16 * (υ * (P * f)) := mul_le_mul_of_nonneg_right hu16 (by positivity)
    have m3 : υ ^ 2 * (f * υ) ≤ υ ^ 2 * 1 := by
      apply mul_le_mul_of_nonneg_left _ (by positivity)
      have : (f:ℝ) * υ ≤ 1 * υ := by gcongr
      linarith
    have m4 : υ ^ 2 * υ ^ 2 ≤ υ ^ 2 * 1 := by
      apply mul_le_mul_of_nonneg_left _ (by positivity); linarith
    have e : (2 * υ * P + 1e-10 * υ ^ 2) * (f * υ + υ ^ 2) = 2 * (υ * (υ * (P * f))) + 2 * (υ * P * υ ^ 2) + 1e-10 * (υ ^ 2 * (f * υ)) + 1e-10 * (υ ^ 2 * υ ^ 2) := by ring
    rw [e]; linarith
  have e3 : υ * (1.001 * (P * f) + 1e-3 * υ) = 1.001 * (υ * (P * f)) + 1e-3 * υ ^ 2 := by ring
  rw [e3] at e2
  have e4 : 4.1 * υ * (P * f) + 2 * υ ^ 2 * (1 + P) = 4.1 * (υ * (P * f)) + 2 * υ ^ 2 + 2 * (υ ^ 2 * P) := by ring
  rw [e4]
  linarith
theorem ww_fac : ∀ k : Fin 9, 6 ≤ k.1 → (3.1417:ℚ) ^ k.1 / (k.1.factorial) + 2 * 3.1417 ^ (k.1 - 1) / (k.1.factorial) ≤ 2.3 := by decide +kernel

/-- the logarithmic term -/
theorem term1_near (hL : MidOK L) (x : FP binary64 L) {q : ℚ} (hx : Val binary64 (ofF x) q) (h0 : (2:ℚ) ^ (-1073 : ℤ) ≤ q) (h1 : q ≤ 3.1417) (k : ℕ) (hk : 6 ≤ k) (hk8 : k ≤ 8)
    (σ : Bool) (f : ℚ) (hf : f = 1 / k.factorial) :
    Near binary64 (ofF ((if σ then (FOps.lit 1 : FP binary64 L) else ∸(FOps.lit 1 : FP binary64 L)) *. powi x (k:ℤ) *. (FOps.lit f : FP binary64 L) *.
        FOps.log ((FOps.lit 2 : FP binary64 L) *. FOps.sin (x /. (FOps.lit 2 : FP binary64 L)))))
      (((if σ then 1 else -1 : ℚ) : ℝ) * (q:ℝ) ^ k * f * Real.log (2 * Real.sin ((q:ℝ) / 2))) (40 * υ) := by
  have hu := u53
  have hu0 := uR_pos (φ := binary64)
  have hu16 : υ ≤ 1.2e-16 := by rw [hu]; norm_num
  have hq0 : 0 < q := lt_of_lt_of_le (by positivity) h0
  have hfk : (1:ℚ) ≤ k.factorial := by exact_mod_cast Nat.factorial_pos k
  have hf0 : 0 ≤ f := by rw [hf]; positivity
  have hf1 : f ≤ 1 := by rw [hf]; exact (div_le_one₀ (by linarith)).2 hfk
  have hP := powf_near hL x hx hq0.le h1 k hk hk8 σ f hf0 hf1
  have r0 : (0:ℝ) < q := by exact_mod_cast hq0
  have r1 : (q:ℝ) ≤ ww := by
    have : ((q : ℚ) : ℝ) ≤ ((3.1417 : ℚ) : ℝ) := by exact_mod_cast h1
    norm_num at this ⊢; exact this
  have fr0 : (0:ℝ) ≤ f := by exact_mod_cast hf0
  have fr1 : (f:ℝ) ≤ 1 := by exact_mod_cast hf1
  have hP0 : 0 < (q:ℝ) ^ k := by positivity
  have hPw : (q:ℝ) ^ k ≤ 1e5 := (pow_le_pow_left₀ r0.le r1 k).trans (ww_le k (by omega))
  have hga : |((if σ then 1 else -1 : ℚ) : ℝ) * (q:ℝ) ^ k * f| = (q:ℝ) ^ k * f := by
    rw [abs_mul, abs_mul, abs_of_nonneg hP0.le, abs_of_nonneg fr0]; cases σ <;> simp
  generalize hr : ((if σ then 1 else -1 : ℚ) : ℝ) * (q:ℝ) ^ k * f = r at *
  rcases le_or_gt q (2 ^ (-29 : ℤ)) with hc | hc
  · -- negligible
    obtain ⟨l1, l2⟩ := midlog_small hL x hx h0 hc
    have r2 : (q:ℝ) ≤ 2 ^ (-29:ℤ) := by
      have : ((q:ℚ):ℝ) ≤ (((2:ℚ) ^ (-29:ℤ) : ℚ) : ℝ) := by exact_mod_cast hc
      push_cast at this; exact this
    have hp6 : (q:ℝ) ^ k ≤ υ ^ 2 := by
      have a1 : (q:ℝ) ^ k ≤ (2 ^ (-29:ℤ)) ^ k := pow_le_pow_left₀ r0.le r2 k
      have a2 : ((2:ℝ) ^ (-29:ℤ)) ^ k ≤ (2 ^ (-29:ℤ)) ^ 6 := pow_le_pow_of_le_one (by positivity) (by norm_num) hk
      refine (a1.trans a2).trans ?_
      rw [hu]; norm_num
    have n2 : 0 ≤ υ ^ 2 := by positivity
    have hu2 : υ ^ 2 ≤ 1.2e-16 * υ := by rw [pow_two]; exact mul_le_mul_of_nonneg_right hu16 hu0.le
    have hpf : (q:ℝ) ^ k * f ≤ υ ^ 2 := by
      have := mul_le_mul hp6 fr1 fr0 n2; linarith
    have he : 4.1 * υ * ((q:ℝ) ^ k * f) + 2 * υ ^ 2 * (1 + (q:ℝ) ^ k) ≤ 5 * υ ^ 2 := by
      have b1 : υ * ((q:ℝ) ^ k * f) ≤ 1.2e-16 * υ ^ 2 := mul_le_mul hu16 hpf (by positivity) (by norm_num)
      have b2 : υ ^ 2 * (q:ℝ) ^ k ≤ υ ^ 2 * 1e-16 := by
        apply mul_le_mul_of_nonneg_left _ n2
        linarith
      linarith
    have hP2 := hP.mono he
    have hrs : |r| ≤ υ ^ 2 := by rw [hga]; exact hpf
    set s := Real.log (2 * Real.sin ((q:ℝ) / 2)) with hs
    have c1 : (|r| + 5 * υ ^ 2) * (|s| + 2 ^ 17) ≤ 6 * υ ^ 2 * (2 ^ 18) := by
      refine mul_le_mul (by linarith) (by linarith) (by positivity) (by positivity)
    refine (hP2.mul fmtA64 l2 (c1.trans (by rw [hu]; norm_num))).mono ?_
    have c2 : 5 * υ ^ 2 * |s| ≤ 5 * υ ^ 2 * 2 ^ 15 := by gcongr
    have c3 : 2 ^ 17 * |r| ≤ 2 ^ 17 * υ ^ 2 := by gcongr
    have c4 := mul_le_mul_of_nonneg_left c1 hu0.le
    rw [hu] at *
    norm_num at *; linarith
  · have l2 := midlog_big hL x hx hc.le h1
    have r2 : (1.8e-9:ℝ) ≤ q := by
      have : (((2:ℚ) ^ (-29:ℤ) : ℚ) : ℝ) ≤ ((q:ℚ):ℝ) := by exact_mod_cast hc.le
      push_cast at this; norm_num at this ⊢; linarith
    have hΛ := log_sin_le r0 r1
    have hΛ1 : 1 + 2 / (q:ℝ) ≤ 2e9 := by
      have : 2 / (q:ℝ) ≤ 1.2e9 := by rw [div_le_iff₀ r0]; linarith
      linarith
    have hΛ0 : 1 ≤ 1 + 2 / (q:ℝ) := by
      have : 0 < 2 / (q:ℝ) := by positivity
      linarith
    -- ρ Λ ≤ 2.3
    have hρ : (q:ℝ) ^ k * f * (1 + 2 / (q:ℝ)) ≤ 2.3 := by
      have hc := ww_fac ⟨k, by omega⟩ hk
      have hc := (Rat.cast_le (K := ℝ)).2 hc
      push_cast at hc
      have e : (q:ℝ) ^ k * f * (1 + 2 / (q:ℝ)) = (q:ℝ) ^ k * f + 2 * (q:ℝ) ^ (k - 1) * f := by
        obtain ⟨j, rfl⟩ : ∃ j, k = j + 1 := ⟨k - 1, by omega⟩
        rw [Nat.add_sub_cancel]; field_simp; ring
      rw [e]
      have a1 := pow_le_pow_left₀ r0.le r1 k
      have a2 := pow_le_pow_left₀ r0.le r1 (k - 1)
      have ef : (f:ℝ) = 1 / (k.factorial : ℝ) := by rw [hf]; push_cast; ring
      have b1 : (q:ℝ) ^ k * f ≤ ww ^ k * f := by gcongr
      have b2 : 2 * (q:ℝ) ^ (k - 1) * f ≤ 2 * ww ^ (k - 1) * f := by gcongr
      have e2 : ww ^ k * f + 2 * ww ^ (k - 1) * f ≤ 2.3 := by
        rw [ef]
        refine le_trans (le_of_eq ?_) (hc.trans (by norm_num))
        norm_num; ring
      exact (add_le_add b1 b2).trans e2
    generalize 1 + 2 / (q:ℝ) = Λ at *
    generalize Real.log (2 * Real.sin ((q:ℝ) / 2)) = s at *
    generalize (q:ℝ) ^ k = P at *
    generalize (f:ℝ) = F at *
    have n2 : 0 ≤ υ ^ 2 := by positivity
    have hu2 : υ ^ 2 ≤ 1.2e-16 * υ := by rw [pow_two]; exact mul_le_mul_of_nonneg_right hu16 hu0.le
    have hPF : 0 ≤ P * F := by positivity
    have hPF2 : P * F ≤ 2.3 := (le_mul_of_one_le_right hPF hΛ0).trans hρ
    have he : 4.1 * υ * (P * F) + 2 * υ ^ 2 * (1 + P) ≤ 4.1 * υ * (P * F) + 3e5 * υ ^ 2 := by
      have : υ ^ 2 * P ≤ υ ^ 2 * 1e5 := by gcongr
      linarith
    have hP2 := hP.mono he
    have q1 : υ ^ 2 * Λ ≤ 1.2e-16 * υ * 2e9 := mul_le_mul hu2 hΛ1 (by linarith) (by positivity)
    have q2 : υ * (P * F * Λ) ≤ υ * 2.3 := mul_le_mul_of_nonneg_left hρ hu0.le
    have c1 : |r| + (4.1 * υ * (P * F) + 3e5 * υ ^ 2) ≤ 1.001 * (P * F) + 4e-11 * υ := by
      rw [hga]
      have : υ * (P * F) ≤ 1.2e-16 * (P * F) := by gcongr
      linarith
    have c2 : |s| + 8 * υ * Λ ≤ 1.001 * Λ := by
      have : υ * Λ ≤ 1.2e-16 * Λ := by gcongr
      linarith
    have c3 : (|r| + (4.1 * υ * (P * F) + 3e5 * υ ^ 2)) * (|s| + 8 * υ * Λ) ≤ (1.001 * (P * F) + 4e-11 * υ) * (1.001 * Λ) :=
      mul_le_mul c1 c2 (by positivity) (by positivity)
    have c4 : (1.001 * (P * F) + 4e-11 * υ) * (1.001 * Λ) ≤ 2.4 := by
      have e : (1.001 * (P * F) + 4e-11 * υ) * (1.001 * Λ) = 1.002001 * (P * F * Λ) + 4.004e-11 * (υ * Λ) := by ring
      have : υ * Λ ≤ 1.2e-16 * 2e9 := mul_le_mul hu16 hΛ1 (by linarith) (by norm_num)
      rw [e]; linarith
    refine (hP2.mul fmtA64 l2 (c3.trans (c4.trans (by norm_num)))).mono ?_
    have d1 : (4.1 * υ * (P * F) + 3e5 * υ ^ 2) * |s| ≤ (4.1 * υ * (P * F) + 3e5 * υ ^ 2) * Λ := by gcongr
    have d2 := mul_le_mul_of_nonneg_left (c3.trans c4) hu0.le
    have d3 : 8 * υ * Λ * |r| = 8 * (υ * (P * F * Λ)) := by rw [hga]; ring
    have d4 : (4.1 * υ * (P * F) + 3e5 * υ ^ 2) * (8 * υ * Λ) ≤ 1.1e-9 * υ + υ * 0.1 := by
      have m1 : υ * (υ * (P * F * Λ)) ≤ 1.2e-16 * (υ * 2.3) := mul_le_mul hu16 q2 (by positivity) (by norm_num)
      have m2 : υ ^ 2 * Λ * υ ≤ 1.2e-16 * υ * 2e9 * 1.2e-16 := mul_le_mul q1 hu16 hu0.le (by positivity)
      have e : (4.1 * υ * (P * F) + 3e5 * υ ^ 2) * (8 * υ * Λ) = 32.8 * (υ * (υ * (P * F * Λ))) + 2.4e6 * (υ ^ 2 * Λ * υ) := by ring
      rw [e]; linarith
    have d5 : (4.1 * υ * (P * F) + 3e5 * υ ^ 2) * Λ = 4.1 * (υ * (P * F * Λ)) + 3e5 * (υ ^ 2 * Λ) := by ring
    rw [d5] at d1
    rw [d3]
    linarith

end Polylog
