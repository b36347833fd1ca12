import Verif.Props.UnityStop
import Verif.Props.CostBound

/-!
# C23: `Li(n,z)` has defined behaviour (binary64)

Puts `stop_120` together with the region of the expansion about 1.
-/

namespace Polylog
section
variable {L : Lib}
local notation "φ₀" => binary64

/-- at least `c`, or positive infinity -/
def GE (x : FV) (c : ℚ) : Prop := x = .inf false ∨ ∃ v, Val φ₀ x v ∧ c ≤ v

theorem GE.sq {x : FV} {a c : ℚ} (h : Val φ₀ x a) (hr : Repr φ₀ c) (hc : c ≤ a * a) : GE (FV.mul φ₀ x x) c := by
  by_cases hl : |rq φ₀ (a * a)| < 2 ^ (binary64).emax
  · refine .inr ⟨_, h.mul h hl, ?_⟩
    have e : rq φ₀ c = c := rq_repr (by rwa [abs_of_nonneg (repr_nonneg hr)])
    rw [← e]; exact rq_mono hc
  · left
    obtain ⟨s, m, rfl, hv, hm, -⟩ := h
    have hm0 := repr_nonneg hm
    have e : a * a = m * m := by rw [← hv]; unfold sval; split <;> ring
    rw [e, abs_rq, abs_of_nonneg (mul_self_nonneg m)] at hl
    show rnd φ₀ (xor s s) (m * m) = .inf false
    unfold rnd
    rw [if_pos (not_lt.1 hl)]; simp

theorem GE.add {x y : FV} {c' c d : ℚ} (h : GE x c') (h' : GE y d) (hcd : c ≤ c' + d) (hr : Repr φ₀ c) : GE (FV.add φ₀ x y) c := by
  rcases h with rfl | ⟨v, hv, hc⟩
  · rcases h' with rfl | ⟨w, ⟨s, m, rfl, -⟩, -⟩
    · exact .inl rfl
    · exact .inl rfl
  rcases h' with rfl | ⟨w, hw, hd'⟩
  · obtain ⟨s, m, rfl, -⟩ := hv
    exact .inl rfl
  have hc0 := repr_nonneg hr
  have hcv : c ≤ v + w := by linarith
  have e : rq φ₀ c = c := rq_repr (by rwa [abs_of_nonneg hc0])
  by_cases hl : |rq φ₀ (v + w)| < 2 ^ (binary64).emax
  · refine .inr ⟨_, hv.add hw hl, ?_⟩
    rw [← e]; exact rq_mono hcv
  · left
    obtain ⟨s, m, rfl, h1, -⟩ := hv
    obtain ⟨t, k, rfl, h2, -⟩ := hw
    have hne : v + w ≠ 0 := by
      intro h0; rw [h0, rq_zero, abs_zero] at hl; exact hl (by positivity)
    show (if sval s m + sval t k = 0 then _ else rndQ φ₀ (sval s m + sval t k)) = _
    rw [h1, h2, if_neg hne]
    have hp : 0 ≤ v + w := by linarith
    rw [rndQ_nonneg hp]
    unfold rnd
    rw [abs_rq, abs_of_nonneg hp] at hl
    rw [if_pos (not_lt.1 hl)]

theorem GE.le {x y : FV} {c v : ℚ} (h : GE x c) (hy : Val φ₀ y v) (hv : v ≤ c) : FV.le y x = true := by
  rcases h with rfl | ⟨w, hw, hc⟩
  · obtain ⟨s, m, rfl, -⟩ := hy; rfl
  · rw [hy.le hw]; simp; linarith

/-- the region of the expansion about 1 -/
theorem unity_region {z : Cx (FP φ₀ L)} {a b : ℚ} (ha : Val φ₀ (ofF z.re) a) (hb : Val φ₀ (ofF z.im) b) (h : ¬ SeriesOrInv z) : 55 / 100 ≤ a ^ 2 + b ^ 2 ∧ a ^ 2 + b ^ 2 ≤ 197 / 100 := by
  unfold SeriesOrInv at h
  push Not at h
  obtain ⟨h1, h2⟩ := h
  -- the constants
  have c75 : ∃ c, Val φ₀ (ofF ((FOps.lit 0.75 : FP φ₀ L) *. (FOps.lit 0.75 : FP φ₀ L))) c ∧ 56 / 100 ≤ c := by
    have v5 : Val φ₀ (ofF (FOps.lit 0.75 : FP φ₀ L)) (rq φ₀ 0.75) := val_rndQ (near_lt (by norm_num [abs_of_pos]))
    have n5 := rq_near (q := 0.75) (by norm_num [abs_of_pos])
    rw [abs_le] at n5
    have q0 : 7499 / 10000 ≤ rq φ₀ 0.75 := by norm_num at n5 ⊢; linarith
    have q1 : rq φ₀ 0.75 ≤ 7501 / 10000 := by norm_num at n5 ⊢; linarith
    generalize rq φ₀ 0.75 = Q at *
    have d : |Q * Q| ≤ 100 := by rw [abs_of_nonneg (mul_self_nonneg _)]; nlinarith
    have n := rq_near d
    rw [abs_le] at n
    refine ⟨_, v5.mul v5 (near_lt d), ?_⟩
    have : 562 / 1000 ≤ Q * Q := by nlinarith
    norm_num at n; linarith
  have c14 : ∃ c, Val φ₀ (ofF ((FOps.lit 1.4 : FP φ₀ L) *. (FOps.lit 1.4 : FP φ₀ L))) c ∧ c ≤ 1965 / 1000 := by
    have v5 : Val φ₀ (ofF (FOps.lit 1.4 : FP φ₀ L)) (rq φ₀ 1.4) := val_rndQ (near_lt (by norm_num [abs_of_pos]))
    have n5 := rq_near (q := 1.4) (by norm_num [abs_of_pos])
    rw [abs_le] at n5
    have q0 : 13999 / 10000 ≤ rq φ₀ 1.4 := by norm_num at n5 ⊢; linarith
    have q1 : rq φ₀ 1.4 ≤ 14001 / 10000 := by norm_num at n5 ⊢; linarith
    generalize rq φ₀ 1.4 = Q at *
    have d : |Q * Q| ≤ 100 := by rw [abs_of_nonneg (mul_self_nonneg _)]; nlinarith
    have n := rq_near d
    rw [abs_le] at n
    refine ⟨_, v5.mul v5 (near_lt d), ?_⟩
    have : Q * Q ≤ 1961 / 1000 := by nlinarith
    norm_num at n; linarith
  obtain ⟨c, vc, hc⟩ := c75
  obtain ⟨e, ve, he⟩ := c14
  have r4 : Repr φ₀ 4 := by simpa using b64_int (k := 4) (by norm_num) (by norm_num)
  have big : ∀ g : GE (ofF (Cx.norm z)) 4, False := fun g => h2 (g.le ve (by linarith))
  have g1 := fun c (hr : Repr φ₀ c) (hc : c ≤ a * a) => GE.sq ha hr hc
  have g2 := fun c (hr : Repr φ₀ c) (hc : c ≤ b * b) => GE.sq hb hr hc
  by_cases hA : 4 ≤ a * a
  · exact (big (GE.add (g1 4 r4 hA) (g2 0 repr_zero (mul_self_nonneg b)) (by norm_num) r4)).elim
  by_cases hB : 4 ≤ b * b
  · exact (big (GE.add (g1 0 repr_zero (mul_self_nonneg a)) (g2 4 r4 hB) (by norm_num) r4)).elim
  push Not at hA hB
  have a2 : |a * a| ≤ 100 := by rw [abs_of_nonneg (mul_self_nonneg a)]; linarith
  have b2 : |b * b| ≤ 100 := by rw [abs_of_nonneg (mul_self_nonneg b)]; linarith
  have na := rq_near a2
  have nb := rq_near b2
  have va2 := ha.mul ha (near_lt a2)
  have vb2 := hb.mul hb (near_lt b2)
  rw [abs_le] at na nb
  have pa := rq_nonneg (φ := φ₀) (mul_self_nonneg a)
  have pb := rq_nonneg (φ := φ₀) (mul_self_nonneg b)
  have e3 : a ^ 2 + b ^ 2 = a * a + b * b := by ring
  rw [e3]
  have s2 : |rq φ₀ (a * a) + rq φ₀ (b * b)| ≤ 100 := by rw [abs_of_nonneg (by linarith)]; norm_num at na nb; linarith
  have ns := rq_near s2
  have vz : Val φ₀ (ofF (Cx.norm z)) _ := va2.add vb2 (near_lt s2)
  rw [abs_le] at ns
  have k1 : ¬ (rq φ₀ (rq φ₀ (a * a) + rq φ₀ (b * b)) ≤ c) := by
    intro hh; exact h1 ((vz.le vc).trans (by simpa using hh))
  have k2 : ¬ (e ≤ rq φ₀ (rq φ₀ (a * a) + rq φ₀ (b * b))) := by
    intro hh; exact h2 ((ve.le vz).trans (by simpa using hh))
  push Not at k1 k2
  norm_num at na nb ns
  constructor <;> linarith

/-- numbers of the format other than 1 have logarithms that are not extremely small -/
theorem log_ge {x : FV} {a : ℚ} (h : Val φ₀ x a) (ha : 1 / 2 < a) (ha2 : a ≤ 2) (h1 : a ≠ 1) : (1 / 2 ^ 54 : ℝ) ≤ |Real.log a| := by
  have hr := h.repr
  rw [abs_of_pos (by linarith)] at hr
  obtain ⟨m, e, -, hm, rfl⟩ := hr
  have he : -53 ≤ e := by
    by_contra hc
    push Not at hc
    have k1 : (2:ℚ) ^ e ≤ 2 ^ (-54 : ℤ) := zpow_le_zpow_right₀ (by norm_num) (by omega)
    have k2 : (m:ℚ) ≤ 2 ^ 53 := by exact_mod_cast hm.le
    have := mul_le_mul k2 k1 (by positivity) (by positivity)
    norm_num at this
    norm_num at ha
    linarith
  obtain ⟨k, hk⟩ : ∃ k : ℕ, e = -53 + k := ⟨(e + 53).toNat, by omega⟩
  obtain ⟨N, hN⟩ : ∃ N : ℤ, (m:ℚ) * 2 ^ e = N / 2 ^ 53 := by
    refine ⟨m * 2 ^ k, ?_⟩
    rw [hk, zpow_add₀ (by norm_num), zpow_natCast]
    push_cast
    rw [show (2:ℚ) ^ (-53 : ℤ) = 1 / 2 ^ 53 by norm_num]; ring
  rw [hN] at ha ha2 h1 ⊢
  have hne : N ≠ 2 ^ 53 := by
    rintro rfl
    exact h1 (by norm_num)
  have hc : (((N / 2 ^ 53 : ℚ)) : ℝ) = (N:ℝ) / 2 ^ 53 := by push_cast; ring
  rw [hc]
  have l1 : (2:ℝ) ^ 52 < N := by
    have : (2:ℚ) ^ 52 < N := by rw [lt_div_iff₀ (by norm_num)] at ha; norm_num at ha ⊢; linarith
    exact_mod_cast this
  have l2 : (N:ℝ) ≤ 2 ^ 54 := by
    have : (N:ℚ) ≤ 2 ^ 54 := by rw [div_le_iff₀ (by norm_num)] at ha2; norm_num at ha2 ⊢; linarith
    exact_mod_cast this
  have p : (0:ℝ) < (N:ℝ) / 2 ^ 53 := div_pos (by linarith [show (0:ℝ) < 2 ^ 52 by norm_num]) (by norm_num)
  rcases lt_or_gt_of_ne hne with hlt | hgt
  · have : (N:ℝ) ≤ 2 ^ 53 - 1 := by exact_mod_cast (by omega : N ≤ 2 ^ 53 - 1)
    have k := Real.log_le_sub_one_of_pos p
    have k2 : (N:ℝ) / 2 ^ 53 ≤ 1 - 1 / 2 ^ 53 := by rw [div_le_iff₀ (by norm_num)]; norm_num at this ⊢; linarith
    have : Real.log ((N:ℝ) / 2 ^ 53) ≤ -(1 / 2 ^ 53) := by linarith
    rw [abs_of_nonpos (this.trans (by norm_num))]
    norm_num at this ⊢; linarith
  · have : (2:ℝ) ^ 53 + 1 ≤ N := by exact_mod_cast (by omega : 2 ^ 53 + 1 ≤ N)
    have k := Real.one_sub_inv_le_log_of_pos p
    have k2 : ((N:ℝ) / 2 ^ 53)⁻¹ ≤ 1 - 1 / 2 ^ 54 := by
      rw [inv_div, div_le_iff₀ (by linarith [show (0:ℝ) < 2 ^ 52 by norm_num])]
      have : (1 - 1 / 2 ^ 54 : ℝ) * (2 ^ 53 + 1) ≤ (1 - 1 / 2 ^ 54) * N := mul_le_mul_of_nonneg_left this (by norm_num)
      refine le_trans ?_ this
      norm_num
    have : (1 / 2 ^ 54 : ℝ) ≤ Real.log ((N:ℝ) / 2 ^ 53) := by linarith
    exact this.trans (le_abs_self _)

theorem log_ne (hL : UnityLib L) {x : FV} {a : ℚ} (h : Val φ₀ x a) (ha : 1 / 2 < a) (ha2 : a ≤ 2) (h1 : a ≠ 1) : ∃ l : ℚ, Val φ₀ (L.log x) l ∧ l ≠ 0 := by
  obtain ⟨l, hl, h2⟩ := hL.log_ok.log x a h (by linarith)
  refine ⟨l, hl, ?_⟩
  rintro rfl
  have h3 := log_ge h ha ha2 h1
  rw [Rat.cast_zero, zero_sub, abs_neg] at h2
  have e : uR φ₀ = 1 / 2 ^ 53 := by
    show (2:ℝ) ^ (-(53:ℕ) : ℤ) = 1 / 2 ^ 53
    norm_num
  rw [e] at h2
  norm_num at h2 h3
  linarith

/-- the logarithm on the region of the expansion about 1 -/
theorem unity_log (hL : UnityLib L) {z : Cx (FP φ₀ L)} (hr : Regular z) {a b : ℚ} (ha : Val φ₀ (ofF z.re) a) (hb : Val φ₀ (ofF z.im) b) (h1 : 55 / 100 ≤ a ^ 2 + b ^ 2) (h2 : a ^ 2 + b ^ 2 ≤ 197 / 100) :
    LN (clog z) ∧ CB (clog ∸(clog z)) (2 ^ 17) 4 := by
  have h0 : a ≠ 0 ∨ b ≠ 0 := by
    by_contra hc
    push Not at hc
    rw [hc.1, hc.2] at h1; norm_num at h1
  obtain ⟨l, t, vl, vt, -, t1, l1⟩ := clog_val hL.clib ha hb h0 (by linarith)
  have l1 := l1 (by linarith)
  refine ⟨⟨⟨l, vl, l1⟩, ⟨t, vt, t1⟩⟩, ?_⟩
  have v0 := val_zero (L := L)
  have hbe : (z.im ==. (FOps.lit 0 : FP φ₀ L)) = decide (b = 0) := hb.eq v0
  have hgt : (z.re >. (FOps.lit 0 : FP φ₀ L)) = decide (0 < a) := v0.lt ha
  have hne : l ≠ 0 ∨ t ≠ 0 := by
    unfold clog at vl vt
    rw [hbe, hgt] at vl vt
    by_cases hb0 : b = 0
    · subst hb0
      have ha0 : a ≠ 0 := by simpa using h0
      by_cases hpos : 0 < a
      · left
        simp only [hpos, decide_true, Bool.and_true, if_true] at vl
        have v1 : Val φ₀ (ofF (FOps.lit 1 : FP φ₀ L)) 1 := vl_one fmtA64
        have hone : a ≠ 1 := by
          rintro rfl
          have e1 : (z.re ==. (FOps.lit 1 : FP φ₀ L)) = true := (ha.eq v1).trans (by simp)
          have := hr.one
          unfold Cx.beqr at this
          rw [e1, hbe] at this
          simp at this
        obtain ⟨l', vl', hl'⟩ := log_ne hL ha (by nlinarith) (by nlinarith) hone
        rwa [vl.toQ.symm.trans vl'.toQ]
      · right
        simp only [hpos, decide_true, decide_false, Bool.and_false, Bool.false_eq_true, if_false, if_true] at vt
        obtain ⟨vp, p1, p2⟩ := pi_val (L := L)
        rw [vt.toQ.symm.trans vp.toQ]
        intro h; rw [h] at p1; norm_num at p1
    · right
      simp only [hb0, decide_false, Bool.false_and, Bool.false_eq_true, if_false] at vt
      have ha2 : |a| ≤ 3 / 2 := abs_le_of_sq_le_sq (by nlinarith [sq_nonneg b]) (by norm_num)
      obtain ⟨t', vt', ht'⟩ := hL.atan2_ne _ _ _ _ ha hb hb0 ha2
      rwa [vt.toQ.symm.trans vt'.toQ]
  exact clog_fin hL vl.neg vt.neg (by simpa using hne) (by rwa [abs_neg]) (by rwa [abs_neg])

/-- largest order treated here -/
def nMax : ℤ := 3037000257

theorem unityPos_defined (hL : UnityLib L) {z : Cx (FP φ₀ L)} (hr : Regular z) {a b : ℚ} (ha : Val φ₀ (ofF z.re) a) (hb : Val φ₀ (ofF z.im) b) (h : ¬ SeriesOrInv z)
    (n : ℤ) (h7 : 7 ≤ n) (hn : n ≤ nMax) : ∃ s p, liUnityHead n z = .ok (s, p) ∧ ∃ m : ℕ, m ≤ 120 ∧ (∀ i < m, unityStop n (clog z *. clog z) (s, p) i = false) ∧
      unityStop n (clog z *. clog z) (s, p) m = true ∧ liUnityPos n z = .ok (unityTrace n (clog z *. clog z) (s, p) (m + 1)).1 := by
  simp only [nMax] at hn
  obtain ⟨h1, h2⟩ := unity_region ha hb h
  obtain ⟨hl, hl2⟩ := unity_log hL hr ha hb h1 h2
  obtain ⟨s, p, hsp, hp, hs⟩ := head_vb hL n h7 (by omega) z hl hl2
  have hstop := stop_120 (lnz2_cb hl) n h7 (by simp only [jMax]; omega) hp hs
  refine ⟨s, p, hsp, ?_⟩
  have hex : ∃ m, unityStop n (clog z *. clog z) (s, p) m = true := ⟨120, hstop⟩
  classical
  have hmin : ∀ i < Nat.find hex, unityStop n (clog z *. clog z) (s, p) i = false := fun i hi => by simpa using Nat.find_min hex hi
  have hle : Nat.find hex ≤ 120 := Nat.find_min' hex hstop
  refine ⟨Nat.find hex, hle, hmin, Nat.find_spec hex, ?_⟩
  obtain ⟨f, hf⟩ : ∃ f : ℕ, 2 ^ 63 = (f + 1) + Nat.find hex := ⟨2 ^ 63 - 1 - Nat.find hex, by omega⟩
  rw [liUnityPos_eq, bind_def hsp, bind_def (i64add_ok (by simp only [i64min, i64max]; omega))]
  dsimp only
  rw [hf, loop2_run n h7 _ (s, p) _ (f + 1) (by simp only [jMax]; omega) hmin, loop2_step n h7 _ (s, p) _ (by simp only [jMax]; omega) f, if_pos (Nat.find_spec hex)]

theorem datum_fin {z : Cx (FP φ₀ L)} (hr : Regular z) (h1 : Datum (ofF z.re)) (h2 : Datum (ofF z.im)) : ∃ a b, Val φ₀ (ofF z.re) a ∧ Val φ₀ (ofF z.im) b := by
  have fin : ∀ x : FV, x.isnan = false → x.isinf = false → x.isfin = true := by
    intro x; cases x <;> simp [FV.isnan, FV.isinf, FV.isfin]
  have e1 := hr.nan
  have e2 := hr.inf
  rw [Bool.or_eq_false_iff] at e1 e2
  obtain ⟨a, ha⟩ := h1 (fin _ e1.1 e2.1)
  obtain ⟨b, hb⟩ := h2 (fin _ e1.2 e2.2)
  exact ⟨a, b, ha, hb⟩

/-- **C23 (Li, n ≥ 7, all arguments).** In binary64, with a C library that meets `UnityLib`: for every order `-1 ≤ n ≤ 3037000257` and every complex argument (NaN, infinities and the whole finite
range included) `Li(n,z)` returns a value; in particular the expansion about 1 stops before the product `(j - 1) * j` overflows. -/
theorem C23_Li_pos_IEEE (hL : UnityLib L) (fuel : ℕ) (n : ℤ) (h1 : -1 ≤ n) (hn : n ≤ nMax) (z : Cx (FP φ₀ L)) (d1 : Datum (ofF z.re)) (d2 : Datum (ofF z.im)) : Defined (Li fuel n z) := by
  by_cases h : n ≤ 6 ∨ ¬ Regular z ∨ SeriesOrInv z
  · exact C23_Li_pos fuel n h1 (by simp only [nMax, i64max] at *; omega) z h
  push Not at h
  obtain ⟨h7, hr, hs⟩ := h
  rw [Li_unity fuel n (by omega) z hr hs]
  obtain ⟨a, b, ha, hb⟩ := datum_fin hr d1 d2
  obtain ⟨s, p, -, m, -, -, -, e⟩ := unityPos_defined hL hr ha hb hs n (by omega) hn
  exact ⟨_, e⟩

/-- **C23 (Li).** In binary64, with a C library that meets `UnityLib`: for every order `INT64_MIN + 8 < n ≤ 3037000257`, in particular for every `int` order, and for every complex argument
(NaN, infinities and the whole finite range included), `Li(n,z)` has defined behaviour and returns a value. -/
theorem C23_Li (hL : UnityLib L) (n : ℤ) (h1 : i64min + 8 < n) (hn : n ≤ nMax) (z : Cx (FP φ₀ L)) (d1 : Datum (ofF z.re)) (d2 : Datum (ofF z.im)) : Defined (Li 11 n z) := by
  by_cases h : n < -1
  · exact C22_depth_IEEE hL.clib n h1 h z d1 d2
  · exact C23_Li_pos_IEEE hL 11 n (by omega) hn z d1 d2

/-! ### iterations -/

open MC in
/-- the second loop ends when the stop test succeeds -/
theorem cost_loop2_stop {F : Type} [FOps F] (n : ℤ) (lnz2 : Cx F) (s : Cx F × Cx F) (K : ℕ) (hK : n + 3 + 2 * (K:ℤ) ≤ jMax) (hstop : unityStop n lnz2 s K = true) :
    ∀ (fuel m : ℕ), m ≤ K → (liUnityPosLoop2C n lnz2 fuel (n + 3 + 2 * (m:ℤ)) (unityTrace n lnz2 s m).1 (unityTrace n lnz2 s m).2).cost ≤ K - m + 1 := by
  intro fuel
  simp only [jMax] at hK
  induction fuel with
  | zero => intro m _; exact cost_pure _ _
  | succ f ih =>
    intro m hm
    unfold liUnityPosLoop2C
    refine cost_ite (fun hlt => ?_) fun _ => cost_pure _ _
    refine cost_tick (cost_bind0 fun j1 h1 => cost_bind0 fun jj h2 => cost_bind0 fun nj h3 => cost_bind0 fun zt h4 => ?_)
    have e1 := i64_val h1
    have e2 := i64_val h2
    have e3 := i64_val h3
    subst e1 e2 e3
    have e4 : zt = zetaV F (n - (n + 3 + 2 * (m:ℤ))) := by unfold zetaV; rw [h4]
    subst e4
    refine cost_ite (fun _ => cost_pure _ _) fun hne => cost_bind0 fun j2 h5 => ?_
    have e5 := i64_val h5
    subst e5
    rcases Nat.lt_or_ge m K with hlt' | hge
    · have := ih (m + 1) (by omega)
      rw [show n + 3 + 2 * ((m + 1 : ℕ):ℤ) = n + 3 + 2 * (m:ℤ) + 2 by push_cast; ring] at this
      refine le_trans ?_ (this.trans (by omega))
      exact le_of_eq rfl
    · have : m = K := by omega
      subst this
      exact absurd hstop hne

open MC in
/-- **C22 (Li_unity_pos in binary64).** At most `n - 2` iterations of the first loop, 18 for the harmonic number and 121 of the second loop. -/
theorem C22_unity_pos_IEEE (hL : UnityLib L) {z : Cx (FP φ₀ L)} (hr : Regular z) (d1 : Datum (ofF z.re)) (d2 : Datum (ofF z.im)) (h : ¬ SeriesOrInv z)
    (n : ℤ) (h7 : 7 ≤ n) (hn : n ≤ nMax) : (liUnityPosC n z).cost ≤ (n - 2).toNat + (18 + 121) := by
  obtain ⟨a, b, ha, hb⟩ := datum_fin hr d1 d2
  obtain ⟨s, p, hsp, K, hK, -, hstop, -⟩ := unityPos_defined hL hr ha hb h n h7 hn
  simp only [nMax] at hn
  have hrun := cost_loop2_stop n _ (s, p) K (by simp only [jMax]; omega) hstop
  unfold liUnityPosC
  dsimp only
  refine cost_bind0 fun zn g1 => cost_bind0 fun n1 h1 => ?_
  have e1 : n1 = n - 1 := i64_val h1
  refine cost_bind ((cost_loop1 n _ _ _ _ _).trans (by subst e1; omega)) fun sp g2 => ?_
  refine cost_bind (C22_harmonic _) fun h g3 => ?_
  refine cost_bind0 fun z0 g4 => cost_bind0 fun np g5 => cost_bind0 fun zm g6 => cost_bind0 fun j h3 => ?_
  have e3 : j = n + 3 := i64_val h3
  subst e3
  rw [liUnityPosLoop1C_erase] at g2
  rw [harmonicC_erase] at g3
  unfold liUnityHead at hsp
  dsimp only at hsp
  rw [bind_def g1, bind_def h1, bind_def g2, bind_def g3, bind_def g4, bind_def g5, bind_def g6] at hsp
  have := Except.ok.inj hsp
  obtain ⟨q1, q2⟩ := Prod.ext_iff.1 this
  dsimp only at q1 q2
  rw [q1, q2]
  have := hrun (2 ^ 63) 0 (by omega)
  rw [Nat.cast_zero, mul_zero, add_zero] at this
  exact this.trans (by omega)

/-! ### extreme orders -/

/-- **C23 (limit).** In every arithmetic, for every order `3037000498 ≤ n < INT64_MAX - 6` and every regular argument in the region of the expansion about 1 (`0.75 < |z| < 1.4`), the very first
iteration of the second loop overflows the signed product `(j - 1)*j`: undefined behaviour. -/
theorem C23_Li_overflow {F : Type} [FOps F] (fuel : ℕ) (n : ℤ) (h1 : 3037000498 ≤ n) (h2 : n < i64max - 6) (z : Cx F) (hr : Regular z) (h : ¬ SeriesOrInv z) :
    Li fuel n z = .error .overflow := by
  simp only [i64max] at h2
  rw [Li_unity fuel n (by omega) z hr h]
  obtain ⟨s, hs⟩ := defined_liUnityHead (F := F) n (by omega) (by simp only [i64max]; omega) z
  rw [liUnityPos_eq, bind_def hs, bind_def (i64add_ok (by simp only [i64min, i64max]; omega))]
  obtain ⟨f, hf⟩ : ∃ f : ℕ, 2 ^ 63 = f + 1 := ⟨2 ^ 63 - 1, by omega⟩
  rw [hf]
  unfold liUnityPosLoop2
  rw [if_pos (by simp only [i64max]; omega)]
  rw [bind_def (i64sub_ok (by simp only [i64min, i64max]; omega))]
  have : i64mul (n + 3 - 1) (n + 3) = .error .overflow := by
    refine i64_err ?_
    have : (3037000500 : Int) * 3037000501 ≤ (n + 3 - 1) * (n + 3) := mul_le_mul (by omega) (by omega) (by omega) (by omega)
    simp only [i64min, i64max]; omega
  rw [this]; rfl

/-! ### the requirements on the library are satisfiable -/

def HypSpec2 (x y v : FV) : Prop := ∀ a b : ℚ, Val φ₀ x a → Val φ₀ y b → (a ≠ 0 ∨ b ≠ 0) → a ^ 2 + b ^ 2 ≤ 16 → ∃ h : ℚ, v = .fin false h ∧ Val φ₀ (.fin false h) h ∧ 0 < h ∧ h ≤ 5 ∧
    (a ^ 2 + b ^ 2 ≤ 3 → h ≤ 2) ∧ (a ^ 2 + b ^ 2 ≤ 3 → 1 / 4 ≤ a ^ 2 + b ^ 2 → |h ^ 2 - (a ^ 2 + b ^ 2)| ≤ 1 / 10000)

theorem hypSpec2_ex (x y : FV) : ∃ v, HypSpec2 x y v := by
  by_cases hx : ∃ a b : ℚ, Val φ₀ x a ∧ Val φ₀ y b ∧ (a ≠ 0 ∨ b ≠ 0) ∧ a ^ 2 + b ^ 2 ≤ 16
  · obtain ⟨a, b, va, vb, hab, h3⟩ := hx
    set N : ℚ := a ^ 2 + b ^ 2 with hN
    have hN0 : 0 < N := by
      rw [hN]
      rcases hab with h | h
      · have : 0 < a ^ 2 := by positivity
        nlinarith [sq_nonneg b]
      · have : 0 < b ^ 2 := by positivity
        nlinarith [sq_nonneg a]
    have hNr : (0:ℝ) < N := by exact_mod_cast hN0
    have hs : 0 < Real.sqrt N := Real.sqrt_pos.2 hNr
    obtain ⟨r, r1, r2⟩ := exists_rat_btwn (show Real.sqrt (N:ℝ) < Real.sqrt N * (1 + 1e-6) by nlinarith)
    have hr0 : (0:ℚ) < r := by
      have : (0:ℝ) < r := hs.trans r1
      exact_mod_cast this
    have sq := Real.sq_sqrt hNr.le
    have lo : N ≤ r ^ 2 := by
      have : (N:ℝ) ≤ (r:ℝ) ^ 2 := by rw [← sq]; exact pow_le_pow_left₀ hs.le r1.le 2
      exact_mod_cast this
    have hi : r ^ 2 ≤ N * (1000003 / 1000000) := by
      have h1 : (r:ℝ) ^ 2 ≤ N * (1000003 / 1000000) := by
        have := pow_le_pow_left₀ (hs.trans r1).le r2.le 2
        rw [mul_pow, sq] at this
        refine this.trans (mul_le_mul_of_nonneg_left (by norm_num) hNr.le)
      refine (Rat.cast_le (K := ℝ)).1 ?_
      push_cast; exact h1
    have hr2 : r ≤ 5 := by
      refine le_of_sq_le_sq ?_ (by norm_num); linarith
    have hbr : |b| ≤ r := by
      refine abs_le_of_sq_le_sq ?_ hr0.le; nlinarith [sq_nonneg a]
    have har : |a| ≤ r := by
      refine abs_le_of_sq_le_sq ?_ hr0.le; nlinarith [sq_nonneg b]
    have hpos : 0 < rq φ₀ r := by
      have rr := fun {c : ℚ} (hc : Repr φ₀ |c|) (h : |c| ≤ r) => le_abs_rq (q := r) hc (by rw [abs_of_pos hr0]; exact h)
      rw [abs_of_nonneg (rq_nonneg hr0.le)] at rr
      rcases hab with h | h
      · exact lt_of_lt_of_le (abs_pos.2 h) (rr va.repr har)
      · exact lt_of_lt_of_le (abs_pos.2 h) (rr vb.repr hbr)
    have d : |r| ≤ 100 := by rw [abs_of_pos hr0]; linarith
    have n := rq_near d
    rw [abs_le] at n
    norm_num at n
    have hle : ∀ k : ℤ, 0 ≤ k → k ≤ 2 ^ 53 → r ≤ k → rq φ₀ r ≤ k := fun k k0 k1 hk =>
      (le_abs_self _).trans (abs_rq_le (b64_int k0 k1) (by rw [abs_of_pos hr0]; exact hk))
    refine ⟨.fin false (rq φ₀ r), fun a' b' va' vb' _ _ => ⟨_, rfl, val_fin hpos (near_lt d), hpos, hle 5 (by norm_num) (by norm_num) hr2, ?_, ?_⟩⟩ <;>
    · have ea : a' = a := va'.toQ.symm.trans va.toQ
      have eb : b' = b := vb'.toQ.symm.trans vb.toQ
      rw [ea, eb, ← hN]
      intro h3
      have hr2 : r ≤ 2 := by
        refine le_of_sq_le_sq ?_ (by norm_num); linarith
      first
        | exact hle 2 (by norm_num) (by norm_num) hr2
        | (intro h4; rw [abs_le]; constructor <;> nlinarith)
  · exact ⟨.nan, fun a b va vb hb h3 => absurd ⟨a, b, va, vb, hb, h3⟩ hx⟩

open Classical in
/-- a library that meets the requirements -/
noncomputable def unityLibEx : Lib :=
  { zeroLib with
    log := approxF φ₀ Real.log
    log1p := approxF φ₀ (fun t => Real.log (1 + t))
    hypot := fun x y => (hypSpec2_ex x y).choose
    pow := fun _ _ => .fin false 0
    atan2 := fun _ _ => .fin false 3
    csqrt := fun _ => (.fin false 0, .fin false 0) }

theorem unityLibEx_log : LogOK φ₀ unityLibEx := by
  have h := exists_logOK fmtA64 unityLibEx
  exact ⟨h.log, h.log1p⟩

theorem log_745 {x : FV} {q : ℚ} (h : Val φ₀ x q) (h0 : 0 < q) (h2 : q ≤ 2) : |Real.log q| ≤ 900 := by
  obtain ⟨n, hn⟩ := repr_eta h.repr
  rw [abs_of_pos h0] at hn
  have hn1 : 1 ≤ n := by
    rcases Nat.eq_zero_or_pos n with h | h
    · rw [h] at hn; simp at hn; linarith
    · exact h
  have hq : (2:ℚ) ^ (-1074 : ℤ) ≤ q := by
    rw [hn]
    have : (1:ℚ) ≤ n := by exact_mod_cast hn1
    exact le_mul_of_one_le_left (by positivity) this
  have hq' : (2:ℝ) ^ (-1074 : ℤ) ≤ q := by
    have := (Rat.cast_le (K := ℝ)).2 hq
    push_cast at this; exact this
  have hq2 : (q:ℝ) ≤ 2 := by exact_mod_cast h2
  have hp : (0:ℝ) < 2 ^ (-1074 : ℤ) := by positivity
  have l1 := Real.log_le_log hp hq'
  have l2 := Real.log_le_log (hp.trans_le hq') hq2
  rw [Real.log_zpow] at l1
  have := Real.log_two_lt_d9
  rw [abs_le]
  push_cast at l1
  constructor <;> linarith

theorem val_small {k : ℤ} (h0 : 0 ≤ k) (h : k ≤ 100) : Val φ₀ (.fin false (k:ℚ)) k := by
  refine ⟨false, k, rfl, by simp [sval], b64_int h0 (by omega), ?_⟩
  have := b64_lt (q := (k:ℚ)) (by
    rw [abs_of_nonneg (by exact_mod_cast h0)]
    have : (k:ℚ) ≤ 100 := by exact_mod_cast h
    linarith)
  rwa [abs_of_nonneg (by exact_mod_cast h0)] at this

theorem v3ex : Val φ₀ (.fin false 3) 3 := by simpa using val_small (k := 3) (by norm_num) (by norm_num)
theorem v0ex : Val φ₀ (.fin false 0) 0 := by simpa using val_small (k := 0) (by norm_num) (by norm_num)

theorem unityLibEx_ok : UnityLib unityLibEx where
  clib :=
    { log := fun q vq h0 h2 => by
        obtain ⟨l, vl, hl⟩ := unityLibEx_log.log _ _ vq h0
        have hb := log_745 vq h0 h2
        have hu : uR φ₀ ≤ 1 / 2 ^ 24 := fmtA64.u_le
        have hu0 := uR_pos (φ := φ₀)
        have e1 : 2 * uR φ₀ * |Real.log q| ≤ 2 * (1 / 2 ^ 24) * 900 := by gcongr
        have e2 : uR φ₀ ^ 2 ≤ (1 / 2 ^ 24) ^ 2 := pow_le_pow_left₀ hu0.le hu 2
        have hl2 : |(l:ℝ) - Real.log q| ≤ 2e-4 := by norm_num at e1 e2 ⊢; linarith
        refine ⟨l, vl, ?_, fun h4 => ?_⟩
        · have : |(l:ℝ)| ≤ 1000 := by
            rw [abs_le] at hl2 hb ⊢; norm_num at hl2; constructor <;> linarith
          exact_mod_cast this
        · have h4' : (1 / 4 : ℝ) ≤ q := by have := (Rat.cast_le (K := ℝ)).2 h4; push_cast at this; exact this
          have h2' : (q:ℝ) ≤ 2 := by exact_mod_cast h2
          have b2 : Real.log q ≤ 1 := (Real.log_le_sub_one_of_pos (by linarith)).trans (by linarith)
          have b1 : -3 ≤ Real.log (q:ℝ) := by
            have := Real.one_sub_inv_le_log_of_pos (show (0:ℝ) < q by linarith)
            have h4 : (q:ℝ)⁻¹ ≤ 4 := by rw [inv_le_comm₀ (by linarith) (by norm_num)]; linarith
            linarith
          have hb : |Real.log (q:ℝ)| ≤ 3 := by rw [abs_le]; constructor <;> linarith
          have e1 : 2 * uR φ₀ * |Real.log q| ≤ 2 * (1 / 2 ^ 24) * 3 := by gcongr
          norm_num at e1 e2 ⊢; linarith
      hypot := fun x y a b va vb hb h3 => by
        obtain ⟨h, e, v, h0, -, h2, h4⟩ := (hypSpec2_ex x y).choose_spec a b va vb (.inr hb) (by linarith)
        exact ⟨h, e, v, h0, h2 h3, h4 h3⟩
      atan2 := fun x y a b _ _ => ⟨3, v3ex, by norm_num [abs_of_pos]⟩
      csqrt := clibEx_ok.csqrt }
  log_ok := unityLibEx_log
  hypot_ok := fun x y a b va vb hab h => by
    obtain ⟨k, e, v, h0, h5, -⟩ := (hypSpec2_ex x y).choose_spec a b va vb hab h
    exact ⟨k, e, v, h0, h5⟩
  atan2_ne := fun x y a b _ _ _ _ => ⟨3, v3ex, by norm_num⟩
  pow_half := fun y _ => ⟨0, v0ex, le_rfl, by norm_num⟩

/-- a concrete case: `Li(10, 0.75 + i)` uses the expansion about 1, and returns a value -/
example : (¬ SeriesOrInv (⟨FOps.lit 0.75, FOps.lit 1⟩ : Cx (FP φ₀ unityLibEx))) ∧ Defined (Li 11 10 (⟨FOps.lit 0.75, FOps.lit 1⟩ : Cx (FP φ₀ unityLibEx))) := by
  refine ⟨?_, ?_⟩
  · unfold SeriesOrInv
    decide +kernel
  · exact C23_Li unityLibEx_ok 10 (by decide) (by decide) _ (fun _ => ⟨_, val_rndQ (b64lt (by norm_num [abs_of_pos]))⟩) (fun _ => ⟨_, val_rndQ (b64lt (by norm_num [abs_of_pos]))⟩)

end
end Polylog
