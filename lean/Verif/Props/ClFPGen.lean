import Verif.Sem.FPProg
import Verif.Props.FPRange
import Verif.Props.ClGen
import Verif.Props.Li2FPMain

/-!
# Clausen functions in IEEE arithmetic: tools

Certificates for the two branches, and the range reduction with its rounding error.
-/

namespace Polylog

variable {φ : Fmt} {L : Lib} {K : ℕ}

/-! ## the low branch: boxes for the argument (variable 0) and its logarithm (variable 1) -/

/-- analysis on `(0, 585/1024 + 1]`: `(0, 2^-20]`, the binades above, and `[1, 1 + 585/1024]`;
the odd offsets make the boxes overlap and keep the low-order digits of all numbers different (the kernel hashes by them) -/
def loStr (p K : ℕ) : List Stretch :=
  ⟨2 ^ (K - 20) + 11400714819323198485, -2 ^ (K + 15), 0, 2 ^ (K - p + 17), 0, 1⟩ ::
  ⟨585 * 2 ^ (K - 13) + 11400714819323198485, 0, 585 * 2 ^ (K - 10), 5 * 2 ^ (K - p - 2), 2 ^ K - 6364136223846793005, 8⟩ ::
  (List.range 20).map fun k => ⟨2 ^ (K - k - 4) + 11400714819323198485, -((k + 1) * 710 * 2 ^ (K - 10)), -(k * 709 * 2 ^ (K - 10)), (k + 1) * 3 * 2 ^ (K - p - 1), 2 ^ (K - k - 1) - 6364136223846793005, 8⟩

@[inherit_doc loStr]
noncomputable def loCert (p K : ℕ) (D : List FE) (E : FE) (B : ℤ) : Bool := stretches p K D E B (loStr p K)

theorem apx_log (hL : LogOK φ L) {x : FP φ L} {q : ℚ} (hx : Val φ (ofF x) q) (h0 : 0 < q) {lo hi err : ℤ}
    (h1 : (lo : ℝ) ≤ Real.log q * 2 ^ K) (h2 : Real.log q * 2 ^ K ≤ hi) (h3 : (2 * uR φ * |Real.log q| + uR φ ^ 2) * 2 ^ K ≤ err) :
    Apx φ K (ofF (xlog x)) (ofR (xlog (toR RealSem.dec (q : ℝ)))) ⟨lo, hi, err⟩ := by
  have e : ofR (xlog (toR RealSem.dec (q : ℝ))) = Real.log q := by
    have : (0:ℝ) < q := by exact_mod_cast h0
    rw [xlog_R, ofR_log (a := toR RealSem.dec (q : ℝ)) this]; rfl
  obtain ⟨v, hv, hd⟩ := hL.log (ofF x) q hx h0
  rw [e]
  refine ⟨v, hv, h1, h2, ?_⟩
  refine (mul_le_mul_of_nonneg_right hd (by positivity)).trans h3

theorem uR_mul_pow {k : ℕ} (h : φ.p ≤ K) (hk : k ≤ K - φ.p): uR φ * 2 ^ K = 2 ^ k * 2 ^ (K - φ.p - k) := by
  unfold uR
  rw [← zpow_natCast (2:ℝ) K, ← zpow_add₀ (by norm_num), ← pow_add, ← zpow_natCast (2:ℝ)]
  congr 1; omega

theorem lo_sound (hφ : FmtOK φ K) (hA : FmtA φ) (hL : LogOK φ L) (hK : φ.p + 2 ≤ K) {D : List FE} {E : FE} {B : ℤ}
    (h : loCert φ.p K D E B = true) {x : FP φ L} {q : ℚ} (hx : Val φ (ofF x) q) (h0 : 0 < q) (h1 : (q : ℝ) ≤ 1.571) :
    Near φ (fpP φ [ofF x, ofF (xlog x)] D E) (ofR (rsP RealSem.dec [toR RealSem.dec (q : ℝ), xlog (toR RealSem.dec (q : ℝ))] D E)) (B / 2 ^ K) := by
  have hp := hA.hp
  have hu := hA.u_le
  have hu0 := uR_pos (φ := φ)
  have hq0 : (0:ℝ) < q := by exact_mod_cast h0
  have hl2a := Real.log_two_gt_d9
  have hl2b := Real.log_two_lt_d9
  have hKpos : (0:ℝ) < 2 ^ K := by positivity
  have hx0 : Near φ (ofF x) (ofR (toR RealSem.dec (q : ℝ))) (((0:ℤ):ℝ) / 2 ^ K) := by
    have := hx.near; simpa using this
  have pw : ∀ k : ℕ, k ≤ K → (2:ℝ) ^ K = 2 ^ k * 2 ^ (K - k) := fun k hk => by rw [← pow_add]; congr 1; omega
  rcases le_or_gt (q:ℝ) (1 / 2 ^ 20) with hs | hs
  · -- tiny
    refine stretches_sound hφ rfl h (List.mem_cons_self ..) (by positivity) (by norm_num) ?_ hx0 ?_ ?_
    · have hb := hx.log_le hA h0
      have hneg : Real.log q ≤ 0 := Real.log_nonpos hq0.le (hs.trans (by norm_num))
      refine apx_log hL hx h0 ?_ ?_ ?_
      · push_cast; rw [pow_add]; have := (abs_le.1 hb).1; nlinarith
      · push_cast; nlinarith
      · push_cast
        rw [pow_add]
        have e := uR_mul_pow (φ := φ) (K := K) (k := 0) (by omega) (by omega)
        simp only [pow_zero, one_mul, Nat.sub_zero] at e
        rw [← e]
        have : 2 * uR φ * |Real.log q| + uR φ ^ 2 ≤ uR φ * 2 ^ 17 := by nlinarith
        nlinarith
    · simp; positivity
    · change (q:ℝ) * 2 ^ K ≤ _
      rw [pw 20 (by omega)]
      push_cast
      have : (0:ℝ) < 2 ^ (K - 20) := by positivity
      have h3 := mul_le_mul_of_nonneg_right hs this.le
      norm_num at h3 ⊢
      nlinarith
  · rcases le_or_gt (q:ℝ) 1 with h2 | h2
    · -- binades
      obtain ⟨k, hk, hk1, hk2⟩ : ∃ k : ℕ, k < 20 ∧ (2:ℝ)⁻¹ ^ (k + 1) ≤ q ∧ (q:ℝ) ≤ 2⁻¹ ^ k := by
        by_contra hc
        push Not at hc
        have : ∀ k : ℕ, k ≤ 20 → (q:ℝ) ≤ 2⁻¹ ^ k := by
          intro k
          induction k with
          | zero => intro _; simpa using h2
          | succ k ih =>
            intro hk
            by_contra h'
            have := hc k (by omega) (by linarith)
            exact absurd (ih (by omega)) (not_le.2 this)
        have := this 20 le_rfl
        norm_num at this hs; linarith
      have e1 : Real.log ((2:ℝ)⁻¹ ^ k) = -(k * Real.log 2) := by rw [Real.log_pow, Real.log_inv]; ring
      have e2 : Real.log ((2:ℝ)⁻¹ ^ (k + 1)) = -((k + 1) * Real.log 2) := by rw [Real.log_pow, Real.log_inv]; push_cast; ring
      have l1 : Real.log q ≤ -(k * Real.log 2) := by rw [← e1]; exact Real.log_le_log hq0 hk2
      have l2 : -((k + 1) * Real.log 2) ≤ Real.log q := by rw [← e2]; exact Real.log_le_log (by positivity) hk1
      have k0 : (0:ℝ) ≤ k := Nat.cast_nonneg k
      have l3 : |Real.log q| ≤ (k + 1) * 0.6932 := by rw [abs_le]; constructor <;> nlinarith
      refine stretches_sound hφ rfl h (List.mem_cons_of_mem _ (List.mem_cons_of_mem _ (List.mem_map_of_mem (List.mem_range.2 hk)))) (by positivity) (by norm_num) ?_ hx0 ?_ ?_
      · refine apx_log hL hx h0 ?_ ?_ ?_
        · rw [pw 10 (by omega)]; push_cast
          have : (0:ℝ) < 2 ^ (K - 10) := by positivity
          have h' : -((k + 1) * 710) ≤ Real.log q * 2 ^ 10 := by nlinarith
          have := mul_le_mul_of_nonneg_right h' this.le
          linarith
        · rw [pw 10 (by omega)]; push_cast
          have : (0:ℝ) < 2 ^ (K - 10) := by positivity
          have h' : Real.log q * 2 ^ 10 ≤ -(k * 709) := by nlinarith
          have := mul_le_mul_of_nonneg_right h' this.le
          linarith
        · have e := uR_mul_pow (φ := φ) (K := K) (k := 1) (by omega) (by omega)
          push_cast
          have h' : 2 * |Real.log q| + uR φ ≤ (k + 1) * 3 / 2 := by nlinarith
          have h3 : (0:ℝ) < uR φ * 2 ^ K := by positivity
          have := mul_le_mul_of_nonneg_right h' h3.le
          rw [e] at this
          calc (2 * uR φ * |Real.log q| + uR φ ^ 2) * 2 ^ K = (2 * |Real.log q| + uR φ) * (uR φ * 2 ^ K) := by ring
            _ ≤ _ := by rw [e]; refine this.trans_eq ?_; ring
      · change _ ≤ (q:ℝ) * 2 ^ K
        rw [pw (k + 1) (by omega)]; push_cast
        have : (0:ℝ) < 2 ^ (K - k - 1) := by positivity
        rw [Nat.sub_sub] at this ⊢
        have h' : 1 ≤ (q:ℝ) * 2 ^ (k + 1) := by
          have := mul_le_mul_of_nonneg_right hk1 (by positivity : (0:ℝ) ≤ 2 ^ (k + 1))
          rwa [← mul_pow, inv_mul_cancel₀ (by norm_num), one_pow] at this
        nlinarith
      · change (q:ℝ) * 2 ^ K ≤ _
        have h' : (q:ℝ) * 2 ^ k ≤ 1 := by
          have := mul_le_mul_of_nonneg_right hk2 (by positivity : (0:ℝ) ≤ 2 ^ k)
          rwa [← mul_pow, inv_mul_cancel₀ (by norm_num), one_pow] at this
        rw [pw k (by omega)]; push_cast
        have a1 : (2:ℝ) ^ (K - k - 1) = 8 * 2 ^ (K - k - 4) := by
          rw [show K - k - 1 = 3 + (K - k - 4) by omega, pow_add]; norm_num
        have a2 : (2:ℝ) ^ (K - k) = 16 * 2 ^ (K - k - 4) := by
          rw [show K - k = 4 + (K - k - 4) by omega, pow_add]; norm_num
        rw [a1, a2]
        have : (0:ℝ) < 2 ^ (K - k - 4) := by positivity
        nlinarith
    · have l1 : 0 ≤ Real.log q := Real.log_nonneg h2.le
      have l2 : Real.log q ≤ 0.571 := by have := Real.log_le_sub_one_of_pos hq0; linarith
      refine stretches_sound hφ rfl h (List.mem_cons_of_mem _ (List.mem_cons_self ..)) (by positivity) (by norm_num) ?_ hx0 ?_ ?_
      · refine apx_log hL hx h0 ?_ ?_ ?_
        · push_cast; positivity
        · rw [pw 10 (by omega)]; push_cast
          have : (0:ℝ) < 2 ^ (K - 10) := by positivity
          nlinarith
        · have e := uR_mul_pow (φ := φ) (K := K) (k := 2) (by omega) (by omega)
          push_cast
          rw [abs_of_nonneg l1]
          have h' : 2 * Real.log q + uR φ ≤ 5 / 4 := by linarith
          have h3 : (0:ℝ) < uR φ * 2 ^ K := by positivity
          have := mul_le_mul_of_nonneg_right h' h3.le
          calc (2 * uR φ * Real.log q + uR φ ^ 2) * 2 ^ K = (2 * Real.log q + uR φ) * (uR φ * 2 ^ K) := by ring
            _ ≤ _ := by refine this.trans_eq ?_; rw [e]; ring
      · change _ ≤ (q:ℝ) * 2 ^ K
        push_cast; nlinarith
      · change (q:ℝ) * 2 ^ K ≤ _
        push_cast
        rw [pw 13 (by omega)]
        have : (0:ℝ) < 2 ^ (K - 13) := by positivity
        nlinarith

/-! ## the high branch -/

/-- analysis from `a/2^20` on: groups of 8 boxes each, of widths `ws` (in units of `2^-20`) -/
noncomputable def hiCert (p K : ℕ) (D : List FE) (E : FE) (B : ℤ) : ℕ → List ℕ → Bool
  | _, [] => true
  | a, w :: ws => boxesP p K (w * 2 ^ (K - 23) + 11400714819323198485) [] 0 D E B (a * 2 ^ (K - 20) - 6364136223846793005) 8 && hiCert p K D E B (a + w) ws

theorem hi_sound (hφ : FmtOK φ K) (hK : 23 ≤ K) {D : List FE} {E : FE} {B : ℤ} (ws : List ℕ) {a : ℕ} (hn : ws ≠ [])
    (h : hiCert φ.p K D E B a ws = true) {x : FP φ L} {q : ℚ} (hx : Val φ (ofF x) q) (h0 : (a : ℝ) / 2 ^ 20 ≤ q) (h1 : (q : ℝ) ≤ ((a + ws.sum : ℕ) : ℝ) / 2 ^ 20) :
    Near φ (fpP φ [ofF x] D E) (ofR (rsP RealSem.dec [toR RealSem.dec (q : ℝ)] D E)) (B / 2 ^ K) := by
  induction ws generalizing a with
  | nil => exact absurd rfl hn
  | cons w ws ih =>
    simp only [hiCert, Bool.and_eq_true] at h
    obtain ⟨h, h'⟩ := h
    have e : (2:ℝ) ^ K = 2 ^ 20 * 2 ^ (K - 20) := by rw [← pow_add]; congr 1; omega
    have e3 : (2:ℝ) ^ (K - 20) = 8 * 2 ^ (K - 23) := by
      rw [show K - 20 = 3 + (K - 23) by omega, pow_add]; norm_num
    have hpos : (0:ℝ) < 2 ^ (K - 20) := by positivity
    rcases le_or_gt (q:ℝ) (((a + w : ℕ) : ℝ) / 2 ^ 20) with hc | hc
    · have hx0 : Near φ (ofF x) (ofR (toR RealSem.dec (q : ℝ))) (((0:ℤ):ℝ) / 2 ^ K) := by
        have := hx.near; simpa using this
      refine boxesP_sound hφ rfl (by positivity) (by norm_num) h .nil hx0 ?_ ?_
      · change _ ≤ (q:ℝ) * 2 ^ K
        rw [e]; push_cast
        rw [div_le_iff₀ (by positivity)] at h0
        have := mul_le_mul_of_nonneg_right h0 hpos.le
        linarith
      · change (q:ℝ) * 2 ^ K ≤ _
        rw [le_div_iff₀ (by positivity)] at hc
        have := mul_le_mul_of_nonneg_right hc hpos.le
        rw [e]; push_cast at this ⊢
        rw [e3] at this ⊢
        linarith
    · refine ih (a := a + w) ?_ h' hc.le ?_
      · rintro rfl
        simp at h1 hc; linarith
      · rw [List.sum_cons] at h1
        rwa [add_assoc]

/-! ## the range reduction -/

theorem repr_fmod {a b : ℚ} (ha : Repr φ a) (hb : Repr φ b) (hb0 : 0 < b) : Repr φ (a - b * ⌊a / b⌋) := by
  obtain ⟨m, e, he, hm, rfl⟩ := ha
  obtain ⟨n, f, hf, hn, rfl⟩ := hb
  have hn0 : 0 < n := by
    rcases Nat.eq_zero_or_pos n with h | h
    · subst h; simp at hb0
    · exact h
  have key : ∀ (m n : ℕ) (e : ℤ), 0 < n → (m : ℚ) * 2 ^ e - n * 2 ^ e * ⌊(m * 2 ^ e : ℚ) / (n * 2 ^ e)⌋ = ((m % n : ℕ) : ℚ) * 2 ^ e := by
    intro m n e hn
    rw [mul_div_mul_right _ _ (two_zpow_pos e).ne', Rat.floor_natCast_div_natCast]
    have h := Nat.div_add_mod m n
    have h' : (m:ℚ) = n * (m / n : ℕ) + (m % n : ℕ) := by exact_mod_cast h.symm
    conv_lhs => lhs; rw [h']
    rw [← Int.natCast_ediv, Int.cast_natCast]; ring
  rcases le_total e f with h | h
  · have e1 : (2:ℚ) ^ f = ((2 ^ (f - e).toNat : ℕ) : ℚ) * 2 ^ e := by
      push_cast; rw [← zpow_natCast, ← zpow_add₀ (by norm_num)]; congr 1; omega
    rw [e1, ← mul_assoc, ← Nat.cast_mul, key _ _ _ (by positivity)]
    exact ⟨_, e, he, lt_of_le_of_lt (Nat.mod_le _ _) hm, rfl⟩
  · have e1 : (2:ℚ) ^ e = ((2 ^ (e - f).toNat : ℕ) : ℚ) * 2 ^ f := by
      push_cast; rw [← zpow_natCast, ← zpow_add₀ (by norm_num)]; congr 1; omega
    rw [e1, ← mul_assoc, ← Nat.cast_mul, key _ _ _ hn0]
    exact ⟨_, f, hf, lt_trans (Nat.mod_lt _ hn0) hn, rfl⟩

theorem Val.fmod {x y : FV} {a b : ℚ} (hx : Val φ x a) (hy : Val φ y b) (ha : 0 ≤ a) (hb : 0 < b) : Val φ (FV.fmod x y) (a - b * ⌊a / b⌋) := by
  obtain ⟨s, a', rfl, rfl, ra, ma⟩ := hx
  obtain ⟨t, b', rfl, rfl, rb, mb⟩ := hy
  have hb' : t = false := by
    cases t with
    | false => rfl
    | true => have := repr_nonneg rb; simp [sval] at hb; linarith
  subst hb'
  have a0 := repr_nonneg ra
  have hs : sval s a' = a' := by
    cases s with
    | false => rfl
    | true => simp [sval] at ha ⊢; linarith
  have hbp : 0 < b' := by simpa [sval] using hb
  have hfl := Int.floor_le (a' / b')
  rw [le_div_iff₀ hbp] at hfl
  have hfl0 : 0 ≤ (⌊a' / b'⌋ : ℚ) := by exact_mod_cast Int.floor_nonneg.2 (by positivity)
  have e : FV.fmod (.fin s a') (.fin false b') = .fin s (a' - b' * ⌊a' / b'⌋) := by
    change (if b' = 0 then FV.nan else _) = _
    rw [if_neg hbp.ne']
  rw [e, hs]
  refine ⟨s, _, rfl, ?_, repr_fmod ra rb hbp, ?_⟩
  · change sval s (a' - b' * ⌊a' / b'⌋) = a' - b' * ⌊a' / b'⌋
    cases s with
    | false => rfl
    | true =>
      have : a' = 0 := by simp [sval] at hs; linarith
      subst this; simp [sval]
  · nlinarith

/-- the argument modulo `2 P` -/
def wrapQ (P q : ℚ) : ℚ := |q| - 2 * P * ⌊|q| / (2 * P)⌋

theorem wrapQ_cast {P : ℚ} (hP : 0 < P) (q : ℚ) : ((wrapQ P q : ℚ) : ℝ) = wrap P q := by
  unfold wrapQ wrap
  have h0 : (0:ℚ) ≤ |q| / (2 * P) := by positivity
  have : ((⌊|q| / (2 * P)⌋ : ℤ) : ℝ) = (⌊|(q:ℝ)| / (2 * P)⌋₊ : ℝ) := by
    have e : |(q:ℝ)| / (2 * P) = ((|q| / (2 * P) : ℚ) : ℝ) := by push_cast; rfl
    rw [e, ← Int.floor_toNat, Rat.floor_cast]
    have : 0 ≤ ⌊|q| / (2 * P)⌋ := Int.floor_nonneg.2 h0
    exact_mod_cast (Int.toNat_of_nonneg this).symm
  push_cast
  rw [this]

theorem repr_two_mul {P : ℚ} (h : Repr φ P) : Repr φ (2 * P) := by
  obtain ⟨m, e, he, hm, rfl⟩ := h
  exact ⟨m, e + 1, by omega, hm, by rw [zpow_add_one₀ (by norm_num)]; ring⟩

/-- the argument after removal of the sign and of the periods is exact -/
theorem wrap_fp (hA : FmtA φ) {PI x : FP φ L} {P q : ℚ} (hP : Val φ (ofF PI) P) (hP1 : 3 < P) (hP2 : P < 4) (hx : Val φ (ofF x) q) :
    let x1 := if x <. (FOps.lit 0 : FP φ L) then ∸x else x
    Val φ (ofF (if x1 >=. (FOps.lit 2 : FP φ L) *. PI then FOps.fmod x1 ((FOps.lit 2 : FP φ L) *. PI) else x1)) (wrapQ P q) := by
  intro x1
  have hz : Val φ (rndQ φ 0) 0 := vl_zero hA
  have h2 : Val φ (rndQ φ 2) 2 := vl_nat hA 2 (by norm_num)
  have r2 : Repr φ |2 * P| := by
    rw [abs_of_pos (by linarith)]
    have := hP.repr; rw [abs_of_pos (by linarith)] at this; exact repr_two_mul this
  have h2P : Val φ (ofF ((FOps.lit 2 : FP φ L) *. PI)) (2 * P) := by
    rw [ofF_mul, ofF_lit]
    have := h2.mul hP (by rw [rq_repr r2]; rw [abs_of_pos (by linarith)]; exact lt_two_pow_emax (by linarith))
    rwa [rq_repr r2] at this
  have hx1 : Val φ (ofF x1) |q| := by
    have e : (x <. (FOps.lit 0 : FP φ L)) = decide (q < 0) := by rw [lt_F, ofF_lit]; exact hx.lt hz
    simp only [x1, e]
    by_cases h : q < 0
    · simp only [h, decide_true, if_true]; rw [ofF_neg, abs_of_neg h]; exact hx.neg
    · simp only [h, decide_false, Bool.false_eq_true, if_false]; rw [abs_of_nonneg (not_lt.1 h)]; exact hx
  have ec : (x1 >=. (FOps.lit 2 : FP φ L) *. PI) = decide (2 * P ≤ |q|) := by
    change ((FOps.lit 2 : FP φ L) *. PI <=. x1) = _
    rw [le_F]; exact h2P.le hx1
  rw [ec]
  by_cases h : 2 * P ≤ |q|
  · simp only [h, decide_true, if_true]
    exact hx1.fmod h2P (abs_nonneg _) (by linarith)
  · simp only [h, decide_false, Bool.false_eq_true, if_false]
    have : ⌊|q| / (2 * P)⌋ = 0 := by
      rw [Int.floor_eq_zero_iff]
      constructor
      · have := abs_nonneg q; positivity
      · rw [div_lt_one (by linarith)]; exact not_le.1 h
    rw [wrapQ, this]; simpa using hx1

theorem wrapQ_bounds {P : ℚ} (hP : 0 < P) (q : ℚ) : 0 ≤ wrapQ P q ∧ wrapQ P q < 2 * P := by
  have h1 := wrap_nonneg (P := (P:ℝ)) (by exact_mod_cast hP) q
  have h2 := wrap_lt (P := (P:ℝ)) (by exact_mod_cast hP) q
  rw [← wrapQ_cast hP] at h1 h2
  exact ⟨by exact_mod_cast h1, by exact_mod_cast h2⟩

/-- the reduced argument, up to `7u` -/
theorem reduceAbs_fp (hA : FmtA φ) {PI p1 x : FP φ L} {P p q : ℚ} (hP : Val φ (ofF PI) P) (hP1 : 3 < P) (hP2 : P < 3.1416) (hp : Val φ (ofF p1) p)
    (hp0 : 0 ≤ p) (hp1 : p ≤ 0.002) (hx : Val φ (ofF x) q) :
    Near φ (ofF (reduceAbs PI p1 x)) (if (P:ℝ) < wrap P q then 6.28125 - wrap P q + p else wrap P q) (if P < wrapQ P q then 7 * uR φ else 0) ∧
      (if P < wrapQ P q then True else Val φ (ofF (reduceAbs PI p1 x)) (wrapQ P q)) := by
  have hw := wrap_fp hA hP hP1 (by linarith) hx
  have hb := wrapQ_bounds (show 0 < P by linarith) q
  have hc := wrapQ_cast (show 0 < P by linarith) q
  have hu := hA.u_le
  have hu0 := uR_pos (φ := φ)
  simp only [reduceAbs]
  dsimp only at hw
  generalize (if (if x <. (FOps.lit 0 : FP φ L) then ∸x else x) >=. (FOps.lit 2 : FP φ L) *. PI then FOps.fmod (if x <. (FOps.lit 0 : FP φ L) then ∸x else x) ((FOps.lit 2 : FP φ L) *. PI)
    else (if x <. (FOps.lit 0 : FP φ L) then ∸x else x)) = y at hw ⊢
  rw [← hc]
  have ec : (y >. PI) = decide (P < wrapQ P q) := by
    change (PI <. y) = _
    rw [lt_F]; exact hP.lt hw
  rw [ec]
  by_cases h : P < wrapQ P q
  · have h' : (P:ℝ) < (wrapQ P q : ℚ) := by exact_mod_cast h
    have hPr : (3:ℝ) < P := by exact_mod_cast hP1
    have hPr2 : (P:ℝ) < 3.1416 := by have := (Rat.cast_lt (K := ℝ)).2 hP2; norm_num at this ⊢; exact this
    have hwr : ((wrapQ P q : ℚ) : ℝ) < 2 * P := by exact_mod_cast hb.2
    have hpr : (0:ℝ) ≤ p := by exact_mod_cast hp0
    have hpr1 : (p:ℝ) ≤ 0.002 := by have := (Rat.cast_le (K := ℝ)).2 hp1; norm_num at this ⊢; exact this
    simp only [h, h', decide_true, if_true, and_true]
    have h6 : Val φ (rndQ φ 6.28125) 6.28125 := near_dy hA 201 5 (by norm_num) (by norm_num) (by norm_num)
    have n6 : Near φ (rndQ φ 6.28125) 6.28125 0 := by have := h6.near; norm_num at this ⊢; exact this
    have hs : |(6.28125:ℝ) - (wrapQ P q : ℚ)| ≤ 3.29 := by rw [abs_le]; constructor <;> linarith
    have n1 := n6.sub hA hw.near (by linarith)
    have n2 := n1.add hA hp.near (by
      have : |(6.28125:ℝ) - (wrapQ P q : ℚ) + p| ≤ 3.3 := by rw [abs_le] at hs ⊢; constructor <;> linarith [hs.1, hs.2]
      nlinarith)
    rw [ofF_add, ofF_sub, ofF_lit]
    refine n2.mono ?_
    have : |(6.28125:ℝ) - (wrapQ P q : ℚ) + p| ≤ 3.3 := by rw [abs_le] at hs ⊢; constructor <;> linarith [hs.1, hs.2]
    have h1 : uR φ * |(6.28125:ℝ) - (wrapQ P q : ℚ)| ≤ uR φ * 3.29 := by gcongr
    have h2 : uR φ * |(6.28125:ℝ) - (wrapQ P q : ℚ) + p| ≤ uR φ * 3.3 := by gcongr
    nlinarith
  · have h' : ¬ (P:ℝ) < (wrapQ P q : ℚ) := by exact_mod_cast h
    simp only [h, h', decide_false, Bool.false_eq_true, if_false]
    exact ⟨by simpa using hw.near, hw⟩

/-- the sign of the range reduction -/
theorem reduceSgn_fp (hA : FmtA φ) {PI p1 x : FP φ L} {P q : ℚ} (hP : Val φ (ofF PI) P) (hP1 : 3 < P) (hP2 : P < 3.1416) (hx : Val φ (ofF x) q) :
    ∃ s : ℚ, Val φ (ofF (reduceSgn PI p1 x).2) s ∧ (s = 1 ∨ s = -1) ∧
      (s : ℝ) = (if (q:ℝ) < 0 then -1 else 1) * (if (P:ℝ) < wrap P q then -1 else 1) := by
  have hw := wrap_fp hA hP hP1 (by linarith) hx
  have hc := wrapQ_cast (show 0 < P by linarith) q
  have hz : Val φ (rndQ φ 0) 0 := vl_zero hA
  have h1 : Val φ (rndQ φ 1) 1 := vl_one hA
  have e : (x <. (FOps.lit 0 : FP φ L)) = decide (q < 0) := by rw [lt_F, ofF_lit]; exact hx.lt hz
  rw [← hc]
  simp only [reduceSgn]
  dsimp only at hw
  have hf : ∀ c : Bool, (if c = true then (∸x, ∸(FOps.lit 1 : FP φ L)) else (x, (FOps.lit 1 : FP φ L))).1 = if c = true then ∸x else x := by
    intro c; cases c <;> rfl
  have hg : ∀ c : Bool, (if c = true then (∸x, ∸(FOps.lit 1 : FP φ L)) else (x, (FOps.lit 1 : FP φ L))).2 = if c = true then ∸(FOps.lit 1 : FP φ L) else (FOps.lit 1 : FP φ L) := by
    intro c; cases c <;> rfl
  rw [hf, hg]
  generalize (if (if x <. (FOps.lit 0 : FP φ L) then ∸x else x) >=. (FOps.lit 2 : FP φ L) *. PI then FOps.fmod (if x <. (FOps.lit 0 : FP φ L) then ∸x else x) ((FOps.lit 2 : FP φ L) *. PI)
    else (if x <. (FOps.lit 0 : FP φ L) then ∸x else x)) = y at hw ⊢
  have ec : (y >. PI) = decide (P < wrapQ P q) := by
    change (PI <. y) = _
    rw [lt_F]; exact hP.lt hw
  rw [ec, e]
  have cq : ((q:ℝ) < 0) ↔ q < 0 := by exact_mod_cast Iff.rfl
  have cw : ((P:ℝ) < (wrapQ P q : ℚ)) ↔ P < wrapQ P q := by exact_mod_cast Iff.rfl
  simp only [cq, cw]
  by_cases a : q < 0 <;> by_cases b : P < wrapQ P q <;> simp only [a, b, decide_true, decide_false, if_true, Bool.false_eq_true, if_false]
  · exact ⟨1, by rw [ofF_neg, ofF_neg, ofF_lit]; simpa using h1.neg.neg, by norm_num, by norm_num⟩
  · exact ⟨-1, by rw [ofF_neg, ofF_lit]; exact h1.neg, by norm_num, by norm_num⟩
  · exact ⟨-1, by rw [ofF_neg, ofF_lit]; exact h1.neg, by norm_num, by norm_num⟩
  · exact ⟨1, by rw [ofF_lit]; exact h1, by norm_num, by norm_num⟩

/-- multiplication by a sign is exact -/
theorem near_sgn {s v : FV} {σ : ℚ} {r e : ℝ} (hs : Val φ s σ) (h1 : σ = 1 ∨ σ = -1) (hv : Near φ v r e) : Near φ (FV.mul φ s v) (σ * r) e := by
  obtain ⟨q, hq, he⟩ := hv
  have hr : Repr φ |σ * q| := by rcases h1 with h | h <;> subst h <;> simpa using hq.repr
  refine ⟨σ * q, ?_, ?_⟩
  · have := hs.mul hq (by rw [rq_repr hr]; rcases h1 with h | h <;> subst h <;> simpa using hq.lt_max)
    rwa [rq_repr hr] at this
  · push_cast
    rcases h1 with h | h <;> subst h <;> push_cast
    · simpa using he
    · rwa [show (-1:ℝ) * q - -1 * r = -(q - r) by ring, abs_neg]


/-! ## assembling -/

/-- what is needed of the constants of a file in a format: `PI` and `p1` as stored, and the range of the reduced argument (C26) -/
structure ClCtx (φ : Fmt) (L : Lib) (PI p1 : FP φ L) (c P : ℚ) : Prop where
  hP : Val φ (ofF PI) P
  hPc : P = rq φ c
  h3 : 3 < P
  h4 : P < 3.1416
  hd : |(P:ℝ) - Real.pi| ≤ 4 * uR φ
  hp1 : ∃ p, Val φ (ofF p1) p ∧ 0 ≤ p ∧ p ≤ 0.002 ∧ |6.28125 + (p:ℝ) - 2 * Real.pi| ≤ uR φ
  hr : ∀ (x : FP φ L) (q : ℚ), Val φ (ofF x) q → ∃ r, Val φ (ofF (reduceAbs PI p1 x)) r ∧ 0 ≤ r ∧ r ≤ P

theorem Val.unique {x : FV} {a b : ℚ} (h : Val φ x a) (h' : Val φ x b) : a = b := by
  obtain ⟨s, a', rfl, rfl, _⟩ := h
  obtain ⟨t, b', e, rfl, _⟩ := h'
  cases e; rfl

namespace ClCtx
variable {PI p1 : FP φ L} {c P : ℚ} (h : ClCtx φ L PI p1 c P) (hA : FmtA φ)
include h

/-- an argument below the stored `PI/2` is below the decimal `PI/2` -/
theorem lt_dec {x : FV} {r : ℚ} (hx : Val φ x r) (h0 : 0 ≤ r) (hr : r < P / 2) : r < c / 2 := by
  by_contra hc
  have h1 : c ≤ 2 * r := by linarith
  have h2 := rq_mono (φ := φ) h1
  have h3 : Repr φ |2 * r| := by
    rw [abs_of_nonneg (by linarith)]
    have := hx.repr; rw [abs_of_nonneg h0] at this; exact repr_two_mul this
  rw [rq_repr h3, ← h.hPc] at h2
  linarith

include hA in
theorem half : Val φ (ofF (PI /. (FOps.lit 2 : FP φ L))) (P / 2) := by
  have h3 := h.h3
  have h4 := h.h4
  have hrep : Repr φ |P / 2| := by
    have h0 := h.hP.repr
    rw [abs_of_pos (by linarith)] at h0 ⊢
    obtain ⟨m, e, he, hm, rfl⟩ := h0
    refine ⟨m, e - 1, ?_, hm, by rw [zpow_sub_one₀ (by norm_num)]; ring⟩
    by_contra hc
    have he' : e = φ.emin := by omega
    have h5 : (m:ℚ) * 2 ^ e ≤ 2 ^ φ.p * 2 ^ e := mul_le_mul_of_nonneg_right (by exact_mod_cast hm.le) (two_zpow_pos e).le
    have h6 : (2:ℚ) ^ φ.p * 2 ^ e ≤ 1 := by
      rw [← zpow_natCast, ← zpow_add₀ (by norm_num)]
      exact zpow_le_one_of_nonpos₀ (by norm_num) (by have := hA.hmin; have := hA.hp; omega)
    linarith
  have h2 : Val φ (rndQ φ 2) 2 := vl_nat hA 2 (by norm_num)
  rw [ofF_div, ofF_lit]
  have := h.hP.div h2 (by norm_num) (by rw [rq_repr hrep, abs_of_pos (by linarith)]; exact lt_two_pow_emax (by linarith))
  rwa [rq_repr hrep] at this

include hA in
/-- the reduced argument is close to an argument `t` with `Cl_n(q) = ± Cl_n(t)` -/
theorem reduce (m p : ℕ) (hp : p < 2) (hn : 2 ≤ 2 * m + 1 + p) (x : FP φ L) {q : ℚ} (hx : Val φ (ofF x) q) :
    ∃ (r : ℚ) (t s : ℝ), Val φ (ofF (reduceAbs PI p1 x)) r ∧ 0 ≤ r ∧ r ≤ P ∧ |(r:ℝ) - t| ≤ 8 * uR φ + 4 / 3 * uR φ * |(q:ℝ)| ∧
      s = (if (q:ℝ) < 0 then -1 else 1) * (if (P:ℝ) < wrap P q then -1 else 1) ∧
      clausen (2 * m + 1 + p) q = s ^ p * clausen (2 * m + 1 + p) t ∧ (|q| ≤ P → (r:ℝ) = |(q:ℝ)| ∧ (r:ℝ) = t) := by
  obtain ⟨p', hp', hp0, hp2, he⟩ := h.hp1
  obtain ⟨r, hr, hr0, hr1⟩ := h.hr x q hx
  have h3 := h.h3
  have hPr : (3:ℝ) ≤ P := by exact_mod_cast h3.le
  have hu0 := uR_pos (φ := φ)
  obtain ⟨hn1, hn2⟩ := reduceAbs_fp hA h.hP h.h3 h.h4 hp' hp0 hp2 hx
  obtain ⟨r', hr', hd⟩ := hn1
  have := hr.unique hr'; subst this
  obtain ⟨t, ht, hc⟩ := reduce_spec' m p hp hn (P := P) (x := q) h.hd he rfl rfl
  have hper := periods (P := P) (x := q) hPr (d := 4 * uR φ) (by positivity)
  by_cases hq : |q| ≤ P
  · have hqr : |(q:ℝ)| ≤ P := by exact_mod_cast hq
    have hw : wrap P q = |(q:ℝ)| := wrap_of_lt (by linarith)
    have hwq : wrapQ P q = |q| := by
      have := wrapQ_cast (show 0 < P by linarith) q
      rw [hw] at this; exact_mod_cast this
    rw [hw, if_neg (not_lt.2 hqr)] at hd ht
    rw [if_neg (by rw [hwq]; exact not_lt.2 hq)] at hd
    have hrq : (r:ℝ) = |(q:ℝ)| := sub_eq_zero.1 (abs_nonpos_iff.1 hd)
    refine ⟨r, r, _, hr, hr0, hr1, ?_, rfl, ?_, fun _ => ⟨hrq, rfl⟩⟩
    · rw [sub_self, abs_zero]; positivity
    · rw [hw, if_neg (not_lt.2 hqr), mul_one, hrq]
      split_ifs with h
      · rw [abs_of_neg h, clausen_neg m p hp hn, ← mul_assoc, ← mul_pow]; norm_num
      · rw [abs_of_nonneg (not_lt.mp h)]; simp
  · refine ⟨r, t, _, hr, hr0, hr1, ?_, rfl, ?_, fun h => absurd h hq⟩
    · have hd' : |(r:ℝ) - if (P:ℝ) < wrap P q then 6.28125 - wrap P q + p' else wrap P q| ≤ 7 * uR φ := by
        refine hd.trans ?_
        split_ifs
        · exact le_rfl
        · positivity
      have := abs_sub_le (r:ℝ) (if (P:ℝ) < wrap P q then 6.28125 - wrap P q + p' else wrap P q) t
      linarith
    · exact hc

include hA in
/-- odd orders -/
theorem odd (m : ℕ) (hm : 1 ≤ m) {lo hi : FP φ L → FP φ L} {Z : FP φ L} {E : ℝ}
    (hZ : Near φ (ofF Z) (clausen (2 * m + 1 + 0) 0) E)
    (hlo : ∀ (r : FP φ L) (ρ : ℚ), Val φ (ofF r) ρ → 0 < ρ → ρ < P / 2 → Near φ (ofF (lo r)) (clausen (2 * m + 1 + 0) ρ) E)
    (hhi : ∀ (r : FP φ L) (ρ : ℚ), Val φ (ofF r) ρ → P / 2 ≤ ρ → ρ ≤ P → Near φ (ofF (hi r)) (clausen (2 * m + 1 + 0) ρ) E)
    (x : FP φ L) {q : ℚ} (hx : Val φ (ofF x) q) {y : FP φ L}
    (hy : y = (let r := reduceAbs PI p1 x
      if r ==. (FOps.lit 0 : FP φ L) then Z else if r <. PI /. (FOps.lit 2 : FP φ L) then lo r else hi r)) :
    Near φ (ofF y) (clausen (2 * m + 1 + 0) q) (E + 16 * uR φ + 8 / 3 * uR φ * |(q:ℝ)|) ∧
      (|q| ≤ P → Near φ (ofF y) (clausen (2 * m + 1 + 0) q) E) := by
  subst hy
  obtain ⟨r, t, s, hr, hr0, hr1, hd, hs, hc, hq⟩ := h.reduce hA m 0 (by norm_num) (by omega) x hx
  have hz : Val φ (rndQ φ 0) 0 := vl_zero hA
  have hh := h.half hA
  dsimp only
  generalize reduceAbs PI p1 x = y at *
  have e1 : (y ==. (FOps.lit 0 : FP φ L)) = decide (r = 0) := by rw [eq_F, ofF_lit]; exact hr.eq hz
  have e2 : (y <. PI /. (FOps.lit 2 : FP φ L)) = decide (r < P / 2) := by rw [lt_F]; exact hr.lt hh
  rw [e1, e2]
  have key : Near φ (ofF (if decide (r = 0) then Z else if decide (r < P / 2) then lo y else hi y)) (clausen (2 * m + 1 + 0) r) E := by
    by_cases c1 : r = 0
    · simp only [c1, decide_true, if_true]; simpa using hZ
    · by_cases c2 : r < P / 2
      · simp only [c1, c2, decide_true, decide_false, if_true, Bool.false_eq_true, if_false]
        exact hlo y r hr (lt_of_le_of_ne hr0 (Ne.symm c1)) c2
      · simp only [c1, c2, decide_false, Bool.false_eq_true, if_false]
        exact hhi y r hr (not_lt.1 c2) hr1
  rw [pow_zero, one_mul] at hc
  rw [hc]
  constructor
  · refine (key.shift (clausen_lip m 0 (by norm_num) (by omega) r t)).mono ?_
    linarith
  · intro hq'
    rw [← (hq hq').2]; exact key

include hA in
/-- even orders -/
theorem even (m : ℕ) {lo hi : FP φ L → FP φ L} {E Λ κ : ℝ} (hE : 0 ≤ E) (hΛ : 0 ≤ Λ)
    (hlip : ∀ a b : ℝ, |clausen (2 * m + 1 + 1) a - clausen (2 * m + 1 + 1) b| ≤ Λ * |a - b| + κ)
    (hpi : |clausen (2 * m + 1 + 1) P| ≤ E)
    (hlo : ∀ (r : FP φ L) (ρ : ℚ), Val φ (ofF r) ρ → 0 < ρ → ρ < P / 2 → Near φ (ofF (lo r)) (clausen (2 * m + 1 + 1) ρ) E)
    (hhi : ∀ (r : FP φ L) (ρ : ℚ), Val φ (ofF r) ρ → P / 2 ≤ ρ → ρ ≤ P → Near φ (ofF (hi r)) (clausen (2 * m + 1 + 1) ρ) E)
    (x : FP φ L) {q : ℚ} (hx : Val φ (ofF x) q) {y : FP φ L}
    (hy : y = (let xs := reduceSgn PI p1 x
      if xs.1 ==. (FOps.lit 0 : FP φ L) then xs.1 else if xs.1 ==. PI then (FOps.lit 0 : FP φ L) else if xs.1 <. PI /. (FOps.lit 2 : FP φ L) then xs.2 *. lo xs.1 else xs.2 *. hi xs.1)) :
    Near φ (ofF y) (clausen (2 * m + 1 + 1) q) (E + (Λ * (8 * uR φ + 4 / 3 * uR φ * |(q:ℝ)|) + κ)) ∧
      (|q| ≤ P → Near φ (ofF y) (clausen (2 * m + 1 + 1) q) E) := by
  subst hy
  obtain ⟨r, t, s, hr, hr0, hr1, hd, hs, hc, hq⟩ := h.reduce hA m 1 (by norm_num) (by omega) x hx
  obtain ⟨σ, hσ, hσ1, hσ2⟩ := reduceSgn_fp hA (p1 := p1) h.hP h.h3 h.h4 hx
  rw [← hs] at hσ2
  have hz : Val φ (rndQ φ 0) 0 := vl_zero hA
  have hh := h.half hA
  dsimp only
  rw [reduceSgn_fst]
  generalize reduceAbs PI p1 x = y at *
  generalize (reduceSgn PI p1 x).2 = w at *
  have e1 : (y ==. (FOps.lit 0 : FP φ L)) = decide (r = 0) := by rw [eq_F, ofF_lit]; exact hr.eq hz
  have e3 : (y ==. PI) = decide (r = P) := by rw [eq_F]; exact hr.eq h.hP
  have e2 : (y <. PI /. (FOps.lit 2 : FP φ L)) = decide (r < P / 2) := by rw [lt_F]; exact hr.lt hh
  rw [e1, e2, e3]
  have hσa : |(σ:ℝ)| = 1 := by rcases hσ1 with h | h <;> subst h <;> simp
  have key : Near φ (ofF (if decide (r = 0) then y else if decide (r = P) then (FOps.lit 0 : FP φ L) else if decide (r < P / 2) then w *. lo y else w *. hi y)) (σ * clausen (2 * m + 1 + 1) r) E := by
    by_cases c1 : r = 0
    · simp only [c1, decide_true, if_true]
      have := hr.near
      rw [c1] at this
      rw [Rat.cast_zero, clausen_even_zero, mul_zero]
      simpa using this.mono hE
    · by_cases c3 : r = P
      · simp only [c3, decide_true, if_true]
        rw [if_neg (by simpa [c3] using c1)]
        have h0 := hz.near
        refine (h0.shift (r' := σ * clausen (2 * m + 1 + 1) P) (d := E) ?_).mono (by linarith)
        rw [Rat.cast_zero, zero_sub, abs_neg, abs_mul, hσa, one_mul]; exact hpi
      · by_cases c2 : r < P / 2
        · simp only [c1, c2, c3, decide_true, decide_false, if_true, Bool.false_eq_true, if_false]
          rw [ofF_mul]
          exact near_sgn hσ hσ1 (hlo y r hr (lt_of_le_of_ne hr0 (Ne.symm c1)) c2)
        · simp only [c1, c2, c3, decide_false, Bool.false_eq_true, if_false]
          rw [ofF_mul]
          exact near_sgn hσ hσ1 (hhi y r hr (not_lt.1 c2) hr1)
  rw [pow_one, ← hσ2] at hc
  rw [hc]
  constructor
  · refine (key.shift (r' := σ * clausen (2 * m + 1 + 1) t) (d := Λ * (8 * uR φ + 4 / 3 * uR φ * |(q:ℝ)|) + κ) ?_)
    rw [← mul_sub, abs_mul, hσa, one_mul]
    refine (hlip r t).trans ?_
    have := mul_le_mul_of_nonneg_left hd hΛ
    linarith
  · intro hq'
    rw [← (hq hq').2]; exact key

end ClCtx

theorem clausen_even_pi (m : ℕ) : clausen (2 * m + 1 + 1) Real.pi = 0 := by
  have h := clausen_two_pi_sub m 1 (by norm_num) (by omega) Real.pi
  rw [show 2 * Real.pi - Real.pi = Real.pi by ring] at h
  linarith

/-- `Cl_2` near its zero at `π` -/
theorem clausen_two_pi {r : ℝ} (h : |r - Real.pi| ≤ 1e-6) : |clausen (2 * 0 + 1 + 1) r| ≤ |r - Real.pi| := by
  have h' := abs_le.1 h
  have h3 := pi_gt
  obtain ⟨f, hf, hc, hy0, hy1, -, hz, hη⟩ := hi_branch 0 1 (by norm_num) (by norm_num) (P := Real.pi) (r := r) (d := 0) (by simp) (by norm_num) (by linarith) (by linarith)
  have hF := (apx_cl2dhi (S := RealSem.dec) RealSem.dec_lit (by norm_num) hz hη hy0 hy1 hf).2.2
  rw [hc, pow_one, abs_mul, abs_sub_comm]
  have := abs_nonneg (r - Real.pi)
  nlinarith

/-! ## the constants -/

theorem rq_piErr (hA : FmtA φ) {c e : ℚ} (h0 : 0 ≤ c) (h1 : (c:ℝ) ≤ 3.1416) (h : |c - piQ| + 1 / 10 ^ 49 ≤ e) (he : (e : ℝ) ≤ uR φ / 2) :
    |((rq φ c : ℚ) : ℝ) - Real.pi| ≤ 4 * uR φ := by
  have hu := hA.u_le
  have hu0 := uR_pos (φ := φ)
  have h2 := pi_lit c e h
  have h3 := rq_errR hA c
  have h0' : (0:ℝ) ≤ c := by exact_mod_cast h0
  rw [abs_of_nonneg h0'] at h3
  have := abs_sub_le ((rq φ c : ℚ) : ℝ) c Real.pi
  nlinarith

theorem clCtx_of (hA : FmtA φ) (h30 : 30 ≤ φ.p) {c d e : ℚ} (c0 : 3.14159 ≤ c) (c1 : c ≤ 3.141593) (h : |c - piQ| + 1 / 10 ^ 49 ≤ e) (he : (e : ℝ) ≤ uR φ / 2)
    (d0 : 0 ≤ d) (d1 : d ≤ 0.001936) (hd : |6.28125 + (d:ℝ) - 2 * Real.pi| ≤ 0.9 * uR φ)
    (hr : ∀ (s : Bool) (a : ℚ), (FV.fin s a).Valid φ →
      ((FOps.lit 0 : FP φ L) <=. reduceAbs (FOps.lit c) (FOps.lit d) (toF φ L (.fin s a))) = true ∧
      (reduceAbs (FOps.lit c) (FOps.lit d) (toF φ L (.fin s a)) <=. (FOps.lit c : FP φ L)) = true) :
    ClCtx φ L (FOps.lit c) (FOps.lit d) c (rq φ c) := by
  have hu : uR φ ≤ 1 / 2 ^ 30 := by
    unfold uR
    have : (2:ℝ) ^ (-(φ.p:ℤ)) ≤ 2 ^ (-30 : ℤ) := zpow_le_zpow_right₀ (by norm_num) (by omega)
    refine this.trans (by norm_num)
  have hu0 := uR_pos (φ := φ)
  have c0r : (3.14159:ℝ) ≤ c := by have := (Rat.cast_le (K := ℝ)).2 c0; norm_num at this ⊢; exact this
  have c1r : (c:ℝ) ≤ 3.141593 := by have := (Rat.cast_le (K := ℝ)).2 c1; norm_num at this ⊢; exact this
  have d0r : (0:ℝ) ≤ d := by exact_mod_cast d0
  have d1r : (d:ℝ) ≤ 0.001936 := by have := (Rat.cast_le (K := ℝ)).2 d1; norm_num at this ⊢; exact this
  have vP : Val φ (ofF (FOps.lit c : FP φ L)) (rq φ c) := by
    rw [ofF_lit]; exact val_rndQ (rq_lt_max hA (by rw [abs_of_nonneg (by linarith)]; linarith))
  have vd : Val φ (ofF (FOps.lit d : FP φ L)) (rq φ d) := by
    rw [ofF_lit]; exact val_rndQ (rq_lt_max hA (by rw [abs_of_nonneg (by linarith)]; linarith))
  have eP := abs_le.1 (rq_errR hA c)
  have ed' := rq_errR hA d
  have ed := abs_le.1 ed'
  rw [abs_of_nonneg (by linarith)] at eP
  rw [abs_of_nonneg d0r] at ed ed'
  have b1 : ((3:ℚ):ℝ) < rq φ c := by push_cast; nlinarith
  have b2 : ((rq φ c : ℚ):ℝ) < ((3.1416:ℚ):ℝ) := by norm_num; nlinarith
  have g1 : 3 < rq φ c := (Rat.cast_lt (K := ℝ)).1 b1
  have g2 : rq φ c < 3.1416 := (Rat.cast_lt (K := ℝ)).1 b2
  have hdd := rq_piErr hA (by linarith) (by linarith) h he
  refine ⟨vP, rfl, g1, g2, hdd, ⟨_, vd, rq_nonneg d0, ?_, ?_⟩, ?_⟩
  · have : ((rq φ d : ℚ) : ℝ) ≤ ((0.002 : ℚ) : ℝ) := by norm_num; nlinarith
    exact (Rat.cast_le (K := ℝ)).1 this
  · have := abs_sub_le (6.28125 + ((rq φ d : ℚ) : ℝ)) (6.28125 + d) (2 * Real.pi)
    rw [add_sub_add_left_eq_sub] at this
    nlinarith
  · intro x q hx
    have hx' := hx
    obtain ⟨s, a, hxe, hq, ra, ma⟩ := hx
    have hxe' : x = toF φ L (.fin s a) := hxe
    obtain ⟨h1, h2⟩ := hr s a ⟨ra, ma⟩
    rw [← hxe'] at h1 h2
    obtain ⟨n1, -⟩ := reduceAbs_fp hA vP g1 g2 vd (rq_nonneg d0) (by
      have : ((rq φ d : ℚ) : ℝ) ≤ ((0.002 : ℚ) : ℝ) := by norm_num; nlinarith
      exact (Rat.cast_le (K := ℝ)).1 this) hx'
    obtain ⟨r, hr, -⟩ := n1
    rw [le_F, ofF_lit, (vl_zero hA).le hr] at h1
    rw [le_F, hr.le vP] at h2
    exact ⟨r, hr, of_decide_eq_true h1, of_decide_eq_true h2⟩

theorem clCtx_d (L : Lib) : ClCtx binary64 L (FOps.lit 3.14159265358979324) (FOps.lit 0.0019353071795864769253) 3.14159265358979324 (rq binary64 3.14159265358979324) := by
  have hp : |6.28125 + ((0.0019353071795864769253 : ℚ) : ℝ) - 2 * Real.pi| ≤ 1.4e-23 := (P1d (S := RealSem.dec) RealSem.dec_lit).trans_eq (by norm_num)
  exact clCtx_of fmtA64 (by decide) (by norm_num) (by norm_num) (e := 1.7e-18) (by decide +kernel) (by norm_num [uR, binary64]) (by norm_num) (by norm_num)
    (hp.trans (by norm_num [uR, binary64])) fun s a hx => ⟨(C26_double_binary64 L s a hx).1, (C26_double_binary64 L s a hx).2.1⟩

theorem clCtx_x87 (L : Lib) : ClCtx x87ext L (FOps.lit 3.14159265358979323846264338327950288) (FOps.lit 0.0019353071795864769252867665590057683943) 3.14159265358979323846264338327950288
    (rq x87ext 3.14159265358979323846264338327950288) := by
  have hp : |6.28125 + ((0.0019353071795864769252867665590057683943 : ℚ) : ℝ) - 2 * Real.pi| ≤ 5e-41 := (P1l (S := RealSem.dec) RealSem.dec_lit).trans_eq (by norm_num)
  exact clCtx_of fmtA80 (by decide) (by norm_num) (by norm_num) (e := 4.2e-36) (by decide +kernel) (by norm_num [uR, x87ext]) (by norm_num) (by norm_num)
    (hp.trans (by norm_num [uR, x87ext])) fun s a hx => ⟨(C26_longdouble_x87ext L s a hx).1, (C26_longdouble_x87ext L s a hx).2.1⟩

theorem clCtx_quad (L : Lib) : ClCtx binary128 L (FOps.lit 3.14159265358979323846264338327950288) (FOps.lit 0.0019353071795864769252867665590057683943) 3.14159265358979323846264338327950288
    (rq binary128 3.14159265358979323846264338327950288) := by
  have hp : |6.28125 + ((0.0019353071795864769252867665590057683943 : ℚ) : ℝ) - 2 * Real.pi| ≤ 5e-41 := (P1l (S := RealSem.dec) RealSem.dec_lit).trans_eq (by norm_num)
  exact clCtx_of fmtA128 (by decide) (by norm_num) (by norm_num) (e := 4.2e-36) (by decide +kernel) (by norm_num [uR, binary128]) (by norm_num) (by norm_num)
    (hp.trans (by norm_num [uR, binary128])) fun s a hx => ⟨(C26_longdouble_binary128 L s a hx).1, (C26_longdouble_binary128 L s a hx).2.1⟩

end Polylog
