import Verif.Props.ClMidFP6
import Verif.Props.C48
import Verif.Props.ClMin

/-! # `Cl(n, x)`, n = 7, 8, 9, in IEEE double precision arithmetic: the whole computation on the reduced range -/

namespace Polylog
set_option linter.style.longLine false

variable {L : Lib}

/-- `u = 2^-53` -/
local notation "υ" => uR binary64
/-- the reals with exact literals -/
local notation "RR" => R RealSem.dec

/-- the sum of the three contributions -/
def msum {F : Type} [FOps F] (n : ℕ) (σ1 σ2 : Bool) (f1 f2 : ℚ) (x pc ns : F) : F :=
  (if x ==. (FOps.lit 0 : F) then (FOps.lit 0 : F) else (if σ1 then (FOps.lit 1 : F) else ∸(FOps.lit 1 : F)) *. powi x ((n:ℤ) - 1) *. (FOps.lit f1 : F) *. FOps.log ((FOps.lit 2 : F) *. FOps.sin (x /. (FOps.lit 2 : F)))) +.
    (pc -. (if σ2 then (FOps.lit 1 : F) else ∸(FOps.lit 1 : F)) *. (FOps.lit f2 : F) *. ns)

/-- the value of `clMid n x sgn` up to the sign -/
def mcore {F : Type} [FOps F] (n : ℕ) (σ1 σ2 : Bool) (f1 f2 : ℚ) (x : F) : F :=
  match pcal (n:ℤ) x, nsum (n:ℤ) x with
  | .ok pc, .ok ns => msum n σ1 σ2 f1 f2 x pc ns
  | _, _ => FOps.lit 0

/-- the parameters of the order -/
def MPar (n : ℕ) (σ1 σ2 : Bool) (f1 f2 : ℚ) : Prop :=
  n = 7 ∧ σ1 = true ∧ σ2 = false ∧ f1 = 1 / 720 ∧ f2 = 1 / 120 ∨ n = 8 ∧ σ1 = true ∧ σ2 = true ∧ f1 = 1 / 5040 ∧ f2 = 1 / 720 ∨
  n = 9 ∧ σ1 = false ∧ σ2 = true ∧ f1 = 1 / 40320 ∧ f2 = 1 / 5040

theorem clMid_mcore {F : Type} [FOps F] {n : ℕ} {σ1 σ2 : Bool} {f1 f2 : ℚ} (hp : MPar n σ1 σ2 f1 f2) (x s : F) :
    clMid (n:ℤ) x s = .ok (s *. mcore n σ1 σ2 f1 f2 x) := by
  have h79 : 7 ≤ n ∧ n ≤ 9 := by rcases hp with ⟨h, _⟩ | ⟨h, _⟩ | ⟨h, _⟩ <;> omega
  obtain ⟨pc, hpc⟩ := defined_pcal (n:ℤ) (by omega) (by omega) x
  obtain ⟨ns, hns⟩ := defined_nsum (n:ℤ) (by omega) (by omega) x
  have e : clMid (n:ℤ) x s = (pcal (n:ℤ) x >>= fun pc => nsum (n:ℤ) x >>= fun ns => pure (s *. msum n σ1 σ2 f1 f2 x pc ns)) := by
    rcases hp with ⟨rfl, rfl, rfl, rfl, rfl⟩ | ⟨rfl, rfl, rfl, rfl, rfl⟩ | ⟨rfl, rfl, rfl, rfl, rfl⟩ <;> rfl
  rw [e, mcore, hpc, hns, bind_ok, bind_ok]; rfl

/-- the run over the reals is accurate (C15) -/
theorem mcore_R {n : ℕ} {σ1 σ2 : Bool} {f1 f2 : ℚ} (hp : MPar n σ1 σ2 f1 f2) {x : RR} (h0 : 0 ≤ ofR x) (h1 : ofR x ≤ 3.1417) (h8 : n = 8 → 0 < ofR x) :
    |ofR (mcore n σ1 σ2 f1 f2 x) - clausen n (ofR x)| ≤ 7e-16 := by
  have fin : ∀ c : RR, (∀ s, clMid (n:ℤ) x s = .ok (s *. c)) → |ofR c - clausen n (ofR x)| ≤ 7e-16 + 54 * 0 → |ofR (mcore n σ1 σ2 f1 f2 x) - clausen n (ofR x)| ≤ 7e-16 := by
    intro c hc h
    have h2 := hc (FOps.lit 1)
    rw [clMid_mcore hp] at h2
    have h3 := congrArg ofR (Except.ok.inj h2)
    rw [ofR_mul, ofR_mul, lit1 RealSem.dec_lit, one_mul, one_mul] at h3
    rw [h3]; linarith
  rcases hp with ⟨rfl, rfl, rfl, rfl, rfl⟩ | ⟨rfl, rfl, rfl, rfl, rfl⟩ | ⟨rfl, rfl, rfl, rfl, rfl⟩
  · obtain ⟨c, hc, h⟩ := clMid7_acc RealSem.dec_lit (by norm_num) h0 h1
    exact fin c hc h
  · obtain ⟨c, hc, h⟩ := clMid8_acc RealSem.dec_lit (by norm_num) (h8 rfl) h1
    exact fin c hc h
  · obtain ⟨c, hc, h⟩ := clMid9_acc RealSem.dec_lit (by norm_num) h0 h1
    exact fin c hc h

/-- `sign2*f2*ns` -/
theorem t2_near {n : ℕ} {σ1 σ2 : Bool} {f1 f2 : ℚ} (hp : MPar n σ1 σ2 f1 f2) {ns : FP binary64 L} {r : ℝ} (h : SN binary64 (ofF ns) r (nB n) 90) :
    Near binary64 (ofF ((if σ2 then (FOps.lit 1 : FP binary64 L) else ∸(FOps.lit 1 : FP binary64 L)) *. (FOps.lit f2 : FP binary64 L) *. ns)) (((if σ2 then 1 else -1 : ℚ) : ℝ) * f2 * r) (3600 * υ) ∧
      |((if σ2 then 1 else -1 : ℚ) : ℝ) * f2 * r| ≤ 50 := by
  have hu := u53
  have hu0 := uR_pos (φ := binary64)
  obtain ⟨n7, n8, n9⟩ := nB_le
  obtain ⟨g1, g2, g3⟩ : (0:ℝ) < f2 ∧ (f2:ℝ) ≤ 1 / 120 ∧ f2 * nB n ≤ 39 := by
    rcases hp with ⟨rfl, _, _, _, rfl⟩ | ⟨rfl, _, _, _, rfl⟩ | ⟨rfl, _, _, _, rfl⟩ <;> push_cast <;> refine ⟨by norm_num, by norm_num, by linarith⟩
  have hf := near_lit fmtA64 (q := f2) (by rw [abs_of_pos g1]; exact g2.trans (by norm_num))
  rw [abs_of_pos g1] at hf
  have hs := near_sgn (sgn_val (L := L) σ2) (by cases σ2 <;> simp) hf
  have ha : |((if σ2 then 1 else -1 : ℚ) : ℝ) * f2| = f2 := by rw [abs_mul, abs_of_pos g1]; cases σ2 <;> simp
  have hB := h.le
  have hB0 := h.hA
  have hB2 : nB n ≤ 90000 := by
    rcases hp with ⟨rfl, _⟩ | ⟨rfl, _⟩ | ⟨rfl, _⟩ <;> linarith
  generalize nB n = B at *
  generalize (f2:ℝ) = f at *
  generalize ((if σ2 then 1 else -1 : ℚ) : ℝ) * f = g at *
  have hr0 := abs_nonneg r
  have hfr : f * |r| ≤ 39 := (mul_le_mul_of_nonneg_left hB g1.le).trans g3
  have hfB : 0 ≤ f * B := by positivity
  have k1 : (|g| + (f * υ + υ ^ 2)) * (|r| + υ * 90 * B) ≤ 40 := by
    rw [ha]
    have m1 : f + (f * υ + υ ^ 2) ≤ f * 1.0001 + 1e-16 * υ * 2 := by rw [hu]; norm_num; linarith
    have m2 : |r| + υ * 90 * B ≤ 1.0001 * B := by rw [hu]; norm_num; linarith
    refine (mul_le_mul m1 m2 (by positivity) (by positivity)).trans ?_
    have e : (f * 1.0001 + 1e-16 * υ * 2) * (1.0001 * B) = 1.00020001 * (f * B) + 2.0002e-16 * (υ * B) := by ring
    have : υ * B ≤ 1 := by rw [hu]; norm_num; linarith
    rw [e]; linarith
  refine ⟨(hs.mul fmtA64 h.near (k1.trans (by norm_num))).mono ?_, ?_⟩
  · have k2 := mul_le_mul_of_nonneg_left k1 hu0.le
    have k3 : υ * 90 * B * |g| ≤ 90 * υ * 39 := by
      rw [ha]
      have e : υ * 90 * B * f = 90 * υ * (f * B) := by ring
      rw [e]; gcongr
    have k4 : (f * υ + υ ^ 2) * |r| ≤ 39 * υ + υ ^ 2 * 90000 := by
      have e : (f * υ + υ ^ 2) * |r| = f * |r| * υ + υ ^ 2 * |r| := by ring
      have a1 : f * |r| * υ ≤ 39 * υ := by gcongr
      have a2 : υ ^ 2 * |r| ≤ υ ^ 2 * 90000 := by gcongr; linarith
      rw [e]; linarith
    have k5 : (f * υ + υ ^ 2) * (υ * 90 * B) ≤ (1 * υ + υ ^ 2) * (υ * 90 * 90000) := by
      gcongr; linarith
    rw [hu] at *
    norm_num at *; linarith
  · rw [abs_mul, ha]; linarith

/-- `Cl(n, x)` on the reduced range -/
theorem mcore_near (hL : MidOK L) {n : ℕ} {σ1 σ2 : Bool} {f1 f2 : ℚ} (hp : MPar n σ1 σ2 f1 f2) (x : FP binary64 L) {q : ℚ} (hx : Val binary64 (ofF x) q)
    (h0 : 0 ≤ q) (h1 : q ≤ 3.1417) (hq : q = 0 ∧ n ≠ 8 ∨ 2 ^ (-1073 : ℤ) ≤ q) : Near binary64 (ofF (mcore n σ1 σ2 f1 f2 x)) (clausen n q) (7500 * υ) := by
  have hu := u53
  have hu0 := uR_pos (φ := binary64)
  have h79 : 7 ≤ n ∧ n ≤ 9 := by rcases hp with ⟨h, _⟩ | ⟨h, _⟩ | ⟨h, _⟩ <;> omega
  have r0 : (0:ℝ) ≤ q := by exact_mod_cast h0
  have r1 : (q:ℝ) ≤ 3.1417 := by
    have : ((q : ℚ) : ℝ) ≤ ((3.1417 : ℚ) : ℝ) := by exact_mod_cast h1
    norm_num at this ⊢; exact this
  let xR : RR := toR RealSem.dec q
  have hR : ofR xR = q := rfl
  have hacc := mcore_R hp (x := xR) r0 r1 (fun h8 => by
    rcases hq with hq | hq
    · exact absurd h8 hq.2
    · have : 0 < q := lt_of_lt_of_le (by positivity) hq
      rw [hR]; exact_mod_cast this)
  rw [hR] at hacc
  obtain ⟨pc, pcR, hpc, hpcR, hP⟩ := pcal_lock n h79.1 h79.2 x hx h0 h1 xR hR
  obtain ⟨ns, nsR, hns, hnsR, hN⟩ := nsum_lock hL n h79.1 h79.2 x hx h0 h1 xR hR
  obtain ⟨t2, t2b⟩ := t2_near hp hN
  have e1 : mcore n σ1 σ2 f1 f2 x = msum n σ1 σ2 f1 f2 x pc ns := by rw [mcore, hpc, hns]
  have e2 : mcore n σ1 σ2 f1 f2 xR = msum n σ1 σ2 f1 f2 xR pcR nsR := by rw [mcore, hpcR, hnsR]
  have hk : ((n - 1 : ℕ) : ℤ) = (n:ℤ) - 1 := by omega
  have hl : ∀ q : ℚ, ofR (FOps.lit q : RR) = q := fun _ => rfl
  have hff : f1 = 1 / ((n - 1).factorial : ℚ) := by
    rcases hp with ⟨rfl, _, _, rfl, _⟩ | ⟨rfl, _, _, rfl, _⟩ | ⟨rfl, _, _, rfl, _⟩ <;> norm_num [Nat.factorial]
  -- the logarithmic term
  have t1 : Near binary64 (ofF (if x ==. (FOps.lit 0 : FP binary64 L) then (FOps.lit 0 : FP binary64 L) else (if σ1 then (FOps.lit 1 : FP binary64 L) else ∸(FOps.lit 1 : FP binary64 L)) *. powi x ((n:ℤ) - 1) *. (FOps.lit f1 : FP binary64 L) *. FOps.log ((FOps.lit 2 : FP binary64 L) *. FOps.sin (x /. (FOps.lit 2 : FP binary64 L)))))
      (ofR (if xR ==. (FOps.lit 0 : RR) then (FOps.lit 0 : RR) else (if σ1 then (FOps.lit 1 : RR) else ∸(FOps.lit 1 : RR)) *. powi xR ((n:ℤ) - 1) *. (FOps.lit f1 : RR) *. FOps.log ((FOps.lit 2 : RR) *. FOps.sin (xR /. (FOps.lit 2 : RR))))) (40 * υ) ∧
      |ofR (if xR ==. (FOps.lit 0 : RR) then (FOps.lit 0 : RR) else (if σ1 then (FOps.lit 1 : RR) else ∸(FOps.lit 1 : RR)) *. powi xR ((n:ℤ) - 1) *. (FOps.lit f1 : RR) *. FOps.log ((FOps.lit 2 : RR) *. FOps.sin (xR /. (FOps.lit 2 : RR))))| ≤ 420 := by
    have ez : (x ==. (FOps.lit 0 : FP binary64 L)) = decide (q = 0) := by rw [eq_F, ofF_lit]; exact hx.eq (vl_zero fmtA64)
    have ezR : (xR ==. (FOps.lit 0 : RR)) = decide (q = 0) := by
      rw [eq_R, lit0 RealSem.dec_lit, hR]
      have : ((q:ℝ) = 0) ↔ q = 0 := by exact_mod_cast Iff.rfl
      simp [this]
    rw [ez, ezR]
    by_cases hz : q = 0
    · simp only [hz, decide_true, if_true]
      rw [lit0 RealSem.dec_lit]
      have := (vl_zero fmtA64).near
      rw [Rat.cast_zero] at this
      exact ⟨this.mono (by positivity), by norm_num⟩
    · simp only [hz, decide_false, Bool.false_eq_true, if_false]
      have hq : (2:ℚ) ^ (-1073 : ℤ) ≤ q := by
        rcases hq with hq | hq
        · exact absurd hq.1 hz
        · exact hq
      have hq0 : 0 < q := lt_of_lt_of_le (by positivity) hq
      have rq0 : (0:ℝ) < q := by exact_mod_cast hq0
      have h := term1_near hL x hx hq h1 (n - 1) (by omega) (by omega) σ1 f1 hff
      rw [hk] at h
      have hs := sin_ge_half (t := (q:ℝ) / 2) (by linarith) (by linarith)
      have e3 : ofR ((if σ1 then (FOps.lit 1 : RR) else ∸(FOps.lit 1 : RR)) *. powi xR ((n:ℤ) - 1) *. (FOps.lit f1 : RR) *. FOps.log ((FOps.lit 2 : RR) *. FOps.sin (xR /. (FOps.lit 2 : RR)))) =
          ((if σ1 then 1 else -1 : ℚ) : ℝ) * (q:ℝ) ^ (n - 1) * f1 * Real.log (2 * Real.sin ((q:ℝ) / 2)) := by
        have h2 : ofR (FOps.lit 2 : RR) = 2 := by rw [hl]; norm_num
        have hd : ofR (xR /. (FOps.lit 2 : RR)) = (q:ℝ) / 2 := by rw [ofR_div (by rw [h2]; norm_num), h2, hR]
        have hpw : ofR (powi xR ((n:ℤ) - 1)) = (q:ℝ) ^ (n - 1) := by
          rw [← hk, powi_R (x := xR) r0 (n - 1) (by omega), hR]
        rw [ofR_mul, ofR_mul, ofR_mul, ofR_log (by rw [ofR_mul, ofR_sin, hd, h2]; linarith), ofR_mul, ofR_sin, hd, h2, hpw, hl]
        cases σ1
        · simp only [Bool.false_eq_true, if_false]; rw [ofR_neg, hl]; push_cast; ring
        · simp only [if_true]; rw [hl]
      rw [e3]
      refine ⟨h, ?_⟩
      have hΛ := log_sin_le rq0 r1
      have hf0 : (0:ℝ) ≤ f1 := by rw [hff]; positivity
      have hf : (f1:ℝ) ≤ 1 / 720 := by
        rcases hp with ⟨_, _, _, rfl, _⟩ | ⟨_, _, _, rfl, _⟩ | ⟨_, _, _, rfl, _⟩ <;> push_cast <;> norm_num
      have hpn : (q:ℝ) ^ (n - 1) * (1 + 2 / q) ≤ 1e5 + 2 * 1e5 := by
        obtain ⟨j, hj⟩ : ∃ j, n - 1 = j + 1 := ⟨n - 2, by omega⟩
        have r1' : (q:ℝ) ≤ ww := r1
        have a1 := (pow_le_pow_left₀ r0 r1' (j + 1)).trans (ww_le (j + 1) (by omega))
        have a2 := (pow_le_pow_left₀ r0 r1' j).trans (ww_le j (by omega))
        have e : (q:ℝ) ^ (n - 1) * (1 + 2 / q) = (q:ℝ) ^ (j + 1) + 2 * (q:ℝ) ^ j := by rw [hj]; field_simp; ring
        rw [e]; linarith
      rw [abs_mul, abs_mul, abs_mul, abs_of_nonneg hf0, abs_of_nonneg (pow_nonneg r0 _)]
      have hs1 : |((if σ1 then 1 else -1 : ℚ) : ℝ)| = 1 := by cases σ1 <;> simp
      rw [hs1, one_mul]
      have hsl : (q:ℝ) ^ (n - 1) * f1 * |Real.log (2 * Real.sin ((q:ℝ) / 2))| ≤ (q:ℝ) ^ (n - 1) * (1 / 720) * (1 + 2 / q) := by gcongr
      refine hsl.trans ?_
      have e : (q:ℝ) ^ (n - 1) * (1 / 720) * (1 + 2 / q) = ((q:ℝ) ^ (n - 1) * (1 + 2 / q)) / 720 := by ring
      rw [e]; linarith
  have eR : ofR (mcore n σ1 σ2 f1 f2 xR) = ofR (if xR ==. (FOps.lit 0 : RR) then (FOps.lit 0 : RR) else (if σ1 then (FOps.lit 1 : RR) else ∸(FOps.lit 1 : RR)) *. powi xR ((n:ℤ) - 1) *. (FOps.lit f1 : RR) *. FOps.log ((FOps.lit 2 : RR) *. FOps.sin (xR /. (FOps.lit 2 : RR)))) +
      (ofR pcR - ((if σ2 then 1 else -1 : ℚ) : ℝ) * f2 * ofR nsR) := by
    rw [e2, msum, ofR_add, ofR_sub, ofR_mul, ofR_mul, hl f2]
    congr 4
    cases σ2
    · simp only [Bool.false_eq_true, if_false]; rw [ofR_neg, hl]; push_cast; ring
    · simp only [if_true]; rw [hl]
  rw [e1, msum, ofF_add, ofF_sub]
  rw [eR] at hacc
  obtain ⟨t1, t1b⟩ := t1
  have hPn := hP.near
  have hPb := hP.le
  generalize ofR (if xR ==. (FOps.lit 0 : RR) then (FOps.lit 0 : RR) else (if σ1 then (FOps.lit 1 : RR) else ∸(FOps.lit 1 : RR)) *. powi xR ((n:ℤ) - 1) *. (FOps.lit f1 : RR) *. FOps.log ((FOps.lit 2 : RR) *. FOps.sin (xR /. (FOps.lit 2 : RR)))) = A at *
  generalize ((if σ2 then 1 else -1 : ℚ) : ℝ) * f2 * ofR nsR = B at *
  generalize ofR pcR = P at *
  have hb1 : |P - B| ≤ 242 := (abs_sub _ _).trans (by linarith)
  have hb2 : |A + (P - B)| ≤ 662 := (abs_add_le _ _).trans (by linarith)
  have s1 := hPn.sub fmtA64 t2 (by rw [hu]; norm_num; linarith)
  have s1 := s1.mono (e' := 6750 * υ) (by rw [hu] at *; norm_num at *; linarith)
  have s2 := t1.add fmtA64 s1 (by rw [hu]; norm_num; linarith)
  have s2 := s2.mono (e' := 7470 * υ) (by
    have : υ * |A + (P - B)| ≤ υ * 662 := by gcongr
    have h2 : υ * υ ≤ 1.2e-16 * υ := mul_le_mul_of_nonneg_right (by rw [hu]; norm_num) hu0.le
    linarith)
  exact (s2.shift hacc).mono (by rw [hu]; norm_num)

/-! ## range reduction never ends at the smallest subnormal -/

theorem repr_mul51 {a : ℚ} (h : Repr binary64 a) (ha : 2 < a) : ∃ m : ℕ, a = m * 2 ^ (-51 : ℤ) := by
  obtain ⟨m, e, he, hm, rfl⟩ := h
  have hm' : (m:ℚ) < 2 ^ 53 := by exact_mod_cast hm
  rcases le_or_gt (-51) e with h | h
  · refine ⟨m * 2 ^ (e + 51).toNat, ?_⟩
    have : e = ((e + 51).toNat : ℤ) + (-51) := by omega
    conv_lhs => rw [this, zpow_add₀ (by norm_num), zpow_natCast]
    push_cast; ring
  · exfalso
    have h1 : (2:ℚ) ^ e ≤ 2 ^ (-52 : ℤ) := zpow_le_zpow_right₀ (by norm_num) (by omega)
    have h2 : (m:ℚ) * 2 ^ e ≤ 2 ^ 53 * 2 ^ (-52 : ℤ) := mul_le_mul hm'.le h1 (by positivity) (by norm_num)
    norm_num at h2; linarith

/-- rounding does not fall below a power of two -/
theorem rq_gran {v : ℚ} (h : ∃ m : ℤ, v = m * 2 ^ (-62 : ℤ)) : rq binary64 v = 0 ∨ 2 ^ (-62 : ℤ) ≤ |rq binary64 v| := by
  obtain ⟨m, hm⟩ := h
  have h62 : rq binary64 (2 ^ (-62 : ℤ)) = 2 ^ (-62 : ℤ) := rq_repr (repr_2pow (-62) (by norm_num))
  have h62' : rq binary64 (-(2 ^ (-62 : ℤ))) = -(2 ^ (-62 : ℤ)) := rq_repr (by rw [abs_neg]; exact repr_2pow (-62) (by norm_num))
  have hp : (0:ℚ) < 2 ^ (-62 : ℤ) := by positivity
  rcases lt_trichotomy m 0 with h | h | h
  · right
    have h1 : (m:ℚ) ≤ -1 := by exact_mod_cast (by omega : m ≤ -1)
    have : rq binary64 v ≤ rq binary64 (-(2 ^ (-62 : ℤ))) := rq_mono (by rw [hm]; nlinarith)
    rw [h62'] at this
    rw [abs_of_neg (by linarith)]; linarith
  · left
    rw [hm, h, Int.cast_zero, zero_mul]
    exact rq_repr (by rw [abs_zero]; exact ⟨0, 0, by norm_num [binary64], by norm_num [binary64], by norm_num⟩)
  · right
    have h1 : (1:ℚ) ≤ m := by exact_mod_cast h
    have : rq binary64 (2 ^ (-62 : ℤ)) ≤ rq binary64 v := rq_mono (by rw [hm]; nlinarith)
    rw [h62] at this
    rw [abs_of_pos (by linarith)]; exact this

theorem p1_gran : rq binary64 0.0019353071795864769253 = 8925029061461098 / 2 ^ 62 := by decide +kernel

theorem reduce_gran (x : FP binary64 L) {q r : ℚ} (hx : Val binary64 (ofF x) q) (hq : rq binary64 3.14159265358979324 < |q|)
    (hr : Val binary64 (ofF (reduceAbs (FOps.lit 3.14159265358979324 : FP binary64 L) (FOps.lit 0.0019353071795864769253) x)) r) : r = 0 ∨ 2 ^ (-62 : ℤ) ≤ |r| := by
  have c := clCtx_d L
  have h3 := c.h3
  have h4 := c.h4
  have hw := wrap_fp fmtA64 c.hP h3 (by linarith) hx
  have hb := wrapQ_bounds (show 0 < rq binary64 3.14159265358979324 by linarith) q
  obtain ⟨m1, e1⟩ := repr_mul51 hx.repr (by linarith)
  obtain ⟨m2, e2⟩ := repr_mul51 (by have := c.hP.repr; rwa [abs_of_pos (by linarith)] at this) (show (2:ℚ) < rq binary64 3.14159265358979324 by linarith)
  obtain ⟨m3, e3⟩ : ∃ m3 : ℤ, wrapQ (rq binary64 3.14159265358979324) q = m3 * 2 ^ (-51 : ℤ) := by
    refine ⟨m1 - 2 * m2 * ⌊|q| / (2 * rq binary64 3.14159265358979324)⌋, ?_⟩
    unfold wrapQ
    generalize ⌊|q| / (2 * rq binary64 3.14159265358979324)⌋ = k
    rw [e1, e2]; push_cast; ring
  simp only [reduceAbs] at hr
  dsimp only at hw
  generalize (if (if x <. (FOps.lit 0 : FP binary64 L) then ∸x else x) >=. (FOps.lit 2 : FP binary64 L) *. (FOps.lit 3.14159265358979324 : FP binary64 L) then FOps.fmod (if x <. (FOps.lit 0 : FP binary64 L) then ∸x else x) ((FOps.lit 2 : FP binary64 L) *. (FOps.lit 3.14159265358979324 : FP binary64 L))
    else (if x <. (FOps.lit 0 : FP binary64 L) then ∸x else x)) = y at hw hr
  generalize hW : wrapQ (rq binary64 3.14159265358979324) q = w at *
  split_ifs at hr with hc
  · have hv6 : Val binary64 (rndQ binary64 6.28125) 6.28125 := near_dy fmtA64 201 5 (by norm_num) (by norm_num) (by norm_num)
    have hPw : rq binary64 3.14159265358979324 < w := by
      have h5 := c.hP.lt hw
      have h6 : (y >. (FOps.lit 3.14159265358979324 : FP binary64 L)) = FV.lt (ofF (FOps.lit 3.14159265358979324 : FP binary64 L)) (ofF y) := rfl
      rw [h6, h5] at hc
      exact of_decide_eq_true hc
    have h4 : |(6.28125:ℚ) + -w| ≤ 3.3 := by rw [abs_le]; constructor <;> linarith [hb.1, hb.2]
    have hwr : |((6.28125 + -w : ℚ) : ℝ)| ≤ 1e215 := by
      have : |(6.28125:ℚ) + -w| ≤ 4 := h4.trans (by norm_num)
      have : ((|(6.28125:ℚ) + -w| : ℚ) : ℝ) ≤ ((4:ℚ):ℝ) := by exact_mod_cast this
      rw [Rat.cast_abs] at this
      refine this.trans (by norm_num)
    have hd := hv6.add hw.neg (rq_big_lt hwr)
    have e4 : (6.28125:ℚ) + -w = ((201 * 2 ^ 46 - m3 : ℤ) : ℚ) * 2 ^ (-51 : ℤ) := by rw [e3]; push_cast; norm_num; ring
    have hv1 : Val binary64 (rndQ binary64 0.0019353071795864769253) (8925029061461098 / 2 ^ 62) := by
      rw [← p1_gran]; exact val_rndQ (rq_big_lt (by norm_num))
    have hrep : rq binary64 (6.28125 + -w) = 6.28125 + -w := by
      refine rq_repr ⟨(201 * 2 ^ 46 - m3).natAbs, -51, by norm_num [binary64], ?_, ?_⟩
      · have : ((201 * 2 ^ 46 - m3).natAbs : ℚ) < 2 ^ 53 := by
          rw [e4, abs_mul, abs_of_pos (by positivity : (0:ℚ) < 2 ^ (-51:ℤ))] at h4
          rw [Nat.cast_natAbs, Int.cast_abs]
          norm_num at h4 ⊢; linarith
        exact_mod_cast this
      · rw [e4, abs_mul, abs_of_pos (by positivity : (0:ℚ) < 2 ^ (-51:ℤ)), Nat.cast_natAbs, Int.cast_abs]
    rw [hrep] at hd
    have hwr2 : |((6.28125 + -w + 8925029061461098 / 2 ^ 62 : ℚ) : ℝ)| ≤ 1e215 := by
      have : |(6.28125:ℚ) + -w + 8925029061461098 / 2 ^ 62| ≤ 4 := by
        have := abs_le.1 h4
        rw [abs_le]; constructor <;> linarith [this.1, this.2]
      have : ((|(6.28125:ℚ) + -w + 8925029061461098 / 2 ^ 62| : ℚ) : ℝ) ≤ ((4:ℚ):ℝ) := by exact_mod_cast this
      rw [Rat.cast_abs] at this
      refine this.trans (by norm_num)
    have hs := hd.add hv1 (rq_big_lt hwr2)
    have hr' : Val binary64 ((FV.add binary64 ((rndQ binary64 6.28125).add binary64 (ofF y).neg) (rndQ binary64 0.0019353071795864769253))) r := hr
    have := hr'.unique hs
    rw [this]
    refine rq_gran ⟨(201 * 2 ^ 46 - m3) * 2 ^ 11 + 8925029061461098, ?_⟩
    rw [e4]
    have e5 : (2:ℚ) ^ (-51:ℤ) = 2 ^ 11 * 2 ^ (-62:ℤ) := by norm_num
    rw [e5]; push_cast; norm_num; ring
  · have := hr.unique hw
    subst this
    rcases eq_or_ne m3 0 with h | h
    · left; rw [e3, h]; simp
    · right
      have h1 : (1:ℚ) ≤ |(m3:ℚ)| := by exact_mod_cast Int.one_le_abs h
      rw [e3, abs_mul, abs_of_pos (by positivity : (0:ℚ) < 2 ^ (-51:ℤ))]
      have : (2:ℚ) ^ (-62:ℤ) ≤ 2 ^ (-51:ℤ) := zpow_le_zpow_right₀ (by norm_num) (by norm_num)
      have : (0:ℚ) < 2 ^ (-51:ℤ) := by positivity
      nlinarith

end Polylog
