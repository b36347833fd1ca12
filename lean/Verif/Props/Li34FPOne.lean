import Verif.Props.Li34FPCert

/-! # `li4_one` and the selection of the approximation of `Li4` in IEEE binary64 -/

namespace Polylog
set_option linter.style.longLine false

section
variable {F : Type} [FOps F]
/-- numeric literal -/
local notation:max "♯" q:max => (FOps.lit (q : ℚ) : F)
/-- `li4_one` as a function of `l = log x` -/
def li4oneL (l : F) : F :=
  let l2 := l *. l
  ♯1.0823232337111382 +. l *. (♯1.2020569031595943 +. l *. (♯0.5 *. ♯1.6449340668482264 +. l *. (♯11 /. ♯36 -. ♯1 /. ♯6 *. (xlog (∸l)) +. l *. (∸♯1 /. ♯48 +. l *. (∸♯1 /. ♯1440 +. l2 *. (♯1 /. ♯604800 -. ♯1 /. ♯91445760 *. l2))))))
theorem li4_one_eq (x : F) : li4_one x = li4oneL (xlog x) := rfl
end

section
/-- numeric literal -/
local notation:max "♯" q:max => FE.lit (q : ℚ)
/-- `li4_one` as a straight-line program in `-l` (variable 0) and `log (-l)` (variable 1) -/
def li4oneD : List FE := [∸(FE.var 0), FE.var 2 *. FE.var 2]
@[inherit_doc li4oneD] def li4oneE : FE :=
  ♯1.0823232337111382 +. (FE.var 2) *. (♯1.2020569031595943 +. (FE.var 2) *. (♯0.5 *. ♯1.6449340668482264 +. (FE.var 2) *. (♯11 /. ♯36 -. ♯1 /. ♯6 *. (FE.var 1) +. (FE.var 2) *. (∸♯1 /. ♯48 +. (FE.var 2) *. (∸♯1 /. ♯1440 +. (FE.var 3) *. (♯1 /. ♯604800 -. ♯1 /. ♯91445760 *. (FE.var 3)))))))
end

variable {φ : Fmt} {L : Lib}

theorem FV.neg_neg' (x : FV) : x.neg.neg = x := by
  cases x <;> simp [FV.neg]

theorem li4one_fp (l : FP φ L) : fpP φ [ofF (∸l), ofF (xlog (∸l))] li4oneD li4oneE = ofF (li4oneL l) := by
  have h : fpP φ [ofF (∸l), ofF (xlog (∸l))] li4oneD li4oneE = fpP φ [(ofF (∸l)), ofF (xlog (∸l)), (ofF (∸l)).neg] [FE.var 2 *. FE.var 2] li4oneE := rfl
  rw [h]
  have h2 : (ofF (∸l)).neg = ofF l := FV.neg_neg' _
  rw [h2]
  rfl

theorem li4one_rs (S : RealSem) (l : R S) : rsP S [∸l, xlog (∸l)] li4oneD li4oneE = li4oneL l := by
  have h : rsP S [∸l, xlog (∸l)] li4oneD li4oneE = rsP S [∸l, xlog (∸l), ∸∸l] [FE.var 2 *. FE.var 2] li4oneE := rfl
  rw [h]
  have h2 : (∸∸l : R S) = l := by
    have : ofR (∸∸l : R S) = ofR l := by rw [ofR_neg, ofR_neg, neg_neg]
    exact this
  rw [h2]
  rfl

theorem li4oneL_cert : loCert 53 120 li4oneD li4oneE 2803680391644795901183 = true := by decide +kernel

/-- a number of the format below 1 is at most `1 - u` -/
theorem Val.le_one_sub {x : FV} {q : ℚ} (h : Val φ x q) (hq : q < 1) (hq0 : 0 ≤ q) : (q : ℝ) ≤ 1 - uR φ := by
  obtain ⟨m, e, he, hm, hq'⟩ := h.repr
  rw [abs_of_nonneg hq0] at hq'
  have hm1 : ((m + 1 : ℕ) : ℝ) ≤ 2 ^ φ.p := by exact_mod_cast hm
  have hqr : (q : ℝ) = m * 2 ^ e := by rw [hq']; push_cast; ring
  have hq1 : (q : ℝ) < 1 := by exact_mod_cast hq
  have hu0 := uR_pos (φ := φ)
  rcases le_or_gt e (-(φ.p:ℤ)) with h1 | h1
  · have h2 : (2:ℝ) ^ e ≤ uR φ := zpow_le_zpow_right₀ (by norm_num) h1
    have h3 : (2:ℝ) ^ φ.p * uR φ = 1 := by unfold uR; rw [← zpow_natCast, ← zpow_add₀ (by norm_num)]; simp
    rw [hqr]
    have h4 : (m:ℝ) * 2 ^ e ≤ m * uR φ := by gcongr
    push_cast at hm1
    have h5 : ((m:ℝ) + 1) * uR φ ≤ 2 ^ φ.p * uR φ := by gcongr
    linarith
  · rcases le_or_gt 0 e with h0 | h0
    · have h2 : (1:ℝ) ≤ 2 ^ e := one_le_zpow₀ (by norm_num) h0
      rcases Nat.eq_zero_or_pos m with hm0 | hm0
      · rw [hqr, hm0]; simp
        unfold uR
        refine zpow_le_one_of_nonpos₀ (by norm_num) (by omega)
      · have : (1:ℝ) ≤ m := by exact_mod_cast hm0
        exfalso; rw [hqr] at hq1; nlinarith
    · obtain ⟨k, rfl⟩ : ∃ k : ℕ, e = -(k:ℤ) := ⟨(-e).toNat, by omega⟩
      have h2 : (0:ℝ) < 2 ^ k := by positivity
      have h3 : (m:ℝ) < 2 ^ k := by
        rw [hqr, zpow_neg, zpow_natCast, ← div_eq_mul_inv, div_lt_one h2] at hq1; exact hq1
      have h4 : ((m + 1 : ℕ) : ℝ) ≤ 2 ^ k := by exact_mod_cast (by exact_mod_cast h3 : m < 2 ^ k)
      have h5 : uR φ ≤ (2:ℝ) ^ (-(k:ℤ)) := zpow_le_zpow_right₀ (by norm_num) (by omega)
      have h6 : (2:ℝ) ^ k * 2 ^ (-(k:ℤ)) = 1 := by rw [← zpow_natCast, ← zpow_add₀ (by norm_num)]; simp
      rw [hqr]
      push_cast at h4
      have h7 : ((m:ℝ) + 1) * 2 ^ (-(k:ℤ)) ≤ 2 ^ k * 2 ^ (-(k:ℤ)) := by gcongr
      linarith

set_option maxHeartbeats 1000000 in
theorem li4one_near (hL : LogOK binary64 L) (x : FP binary64 L) {q : ℚ} (hx : Val binary64 (ofF x) q) (h0 : 0.79999 ≤ (q : ℝ)) (h1 : q < 1) :
    Near binary64 (ofF (li4_one x)) (reLi 4 q) (21 * uR binary64) := by
  have hu : uR binary64 ≤ 1 / 2 ^ 53 := by norm_num [uR, binary64]
  have hu0 := uR_pos (φ := binary64)
  have hq0 : (0:ℝ) < q := by linarith
  have hq0' : (0:ℚ) < q := by exact_mod_cast hq0
  have hq1 := hx.le_one_sub h1 hq0'.le
  obtain ⟨l, hl, he⟩ := hL.log (ofF x) q hx hq0'
  have hlog1 : Real.log q ≤ -uR binary64 := by have := Real.log_le_sub_one_of_pos hq0; linarith
  have hlog2 : -0.2232 ≤ Real.log q := by
    have h3 : (1.25003:ℝ) ≤ Real.exp 0.2232 := by
      refine le_trans ?_ (Real.sum_le_exp_of_nonneg (x := 0.2232) (by norm_num) 5)
      norm_num [Finset.sum_range_succ, Nat.factorial]
    rw [Real.le_log_iff_exp_le hq0, Real.exp_neg]
    refine le_trans (inv_anti₀ (by norm_num) h3) ?_
    norm_num at h0 ⊢; linarith
  have hlabs : |Real.log q| = -Real.log q := abs_of_neg (by linarith)
  rw [hlabs] at he
  set w := Real.log q with hw
  have hd : |(l:ℝ) - w| ≤ 0.46 * uR binary64 := by refine he.trans ?_; nlinarith
  have hl0 : (l:ℝ) < 0 := by have := (abs_le.1 he).2; nlinarith
  have hl0' : l < 0 := by exact_mod_cast hl0
  have hl1 : -0.22321 ≤ (l:ℝ) := by have := (abs_le.1 hd).1; linarith
  -- the program
  have hs := lo_sound (x := (∸(xlog x) : FP binary64 L)) (q := -l) fmtOK64 fmtA64 hL (by decide) li4oneL_cert hl.neg (by linarith) (by push_cast; linarith)
  rw [li4one_fp] at hs
  have e1 : toR RealSem.dec (((-l : ℚ)) : ℝ) = ∸(toR RealSem.dec (l : ℝ)) := by
    have : ofR (toR RealSem.dec (((-l : ℚ)) : ℝ)) = ofR (∸(toR RealSem.dec (l : ℝ))) := by rw [ofR_neg]; push_cast; rfl
    exact this
  rw [e1, li4one_rs] at hs
  have e2 : xlog (toR RealSem.dec (Real.exp l)) = toR RealSem.dec (l : ℝ) := by
    have : ofR (xlog (toR RealSem.dec (Real.exp l))) = ofR (toR RealSem.dec (l:ℝ)) := by
      rw [xlog_R, ofR_log (a := toR RealSem.dec (Real.exp l)) (Real.exp_pos _)]
      change Real.log (Real.exp l) = l
      exact Real.log_exp _
    exact this
  rw [← e2, ← li4_one_eq] at hs
  have hX1 : Real.exp l < 1 := by rw [Real.exp_lt_one_iff]; exact hl0
  have hX0 : 0.79992 ≤ Real.exp l := by
    rw [← Real.log_le_iff_le_exp (by norm_num)]
    refine le_trans ?_ hl1
    rw [Real.log_le_iff_le_exp (by norm_num), Real.exp_neg, le_inv_comm₀ (by norm_num) (Real.exp_pos _)]
    refine (Real.exp_bound' (n := 6) (by norm_num) (by norm_num) (by norm_num)).trans ?_
    norm_num [Finset.sum_range_succ, Nat.factorial]
  have ha := li4_one_acc RealSem.dec_lit (by norm_num) (toR RealSem.dec (Real.exp l)) hX0 hX1
  have hexp : |Real.exp l - q| ≤ 0.461 * uR binary64 := by
    have : (q:ℝ) = Real.exp w := (Real.exp_log hq0).symm
    rw [this]
    have h3 := Real.abs_exp_sub_one_sub_id_le (x := (l:ℝ) - w) (by refine hd.trans ?_; linarith)
    have e : Real.exp l - Real.exp w = Real.exp w * (Real.exp (l - w) - 1) := by rw [mul_sub, ← Real.exp_add]; simp
    have hw1 : Real.exp w ≤ 1 := by rw [← this]; linarith
    rw [e, abs_mul, abs_of_pos (Real.exp_pos w)]
    have h4 : |Real.exp (l - w) - 1| ≤ 0.461 * uR binary64 := by
      have h5 := abs_add_le (Real.exp (l - w) - 1 - (l - w)) (l - w)
      rw [sub_add_cancel] at h5
      have h6 : ((l:ℝ) - w) ^ 2 ≤ 0.001 * uR binary64 := by
        rw [← sq_abs]; nlinarith [abs_nonneg ((l:ℝ) - w)]
      linarith
    nlinarith [abs_nonneg (Real.exp (l - w) - 1), Real.exp_pos w]
  have hlip := reLi_lip 1 (a := Real.exp l) (b := q) (by rw [abs_of_pos (Real.exp_pos _)]; exact hX1.le) (by rw [abs_of_pos hq0]; linarith)
  refine ((hs.shift ha).shift hlip).mono ?_
  have : 1.65 * |Real.exp l - q| ≤ 1.65 * (0.461 * uR binary64) := by gcongr
  refine (add_le_add le_rfl this).trans ?_
  norm_num [uR, binary64]

end Polylog
