import Verif.Props.FPDepth
import Verif.Sem.FPNear
import Verif.Props.Li2FP

/-!
# C23: the expansion of `Li(n,z)` about 1 stops

In binary64 the factor `p` of the second loop of `Li_unity_pos` has underflowed to exactly zero after 120 iterations, before the
zeta values become infinite (after 128), and all partial sums are finite; so the stop test succeeds.
-/

namespace Polylog
section
variable {L : Lib}
local notation "φ₀" => binary64

/-- accuracy required of the C library: that of `CLib` and `LogOK`, and three sanity conditions -/
structure UnityLib (L : Lib) : Prop where
  clib : CLib L
  log_ok : LogOK φ₀ L
  /-- `hypot` of moderate numbers, not both zero, is positive and not absurdly large -/
  hypot_ok : ∀ (x y : FV) (a b : ℚ), Val φ₀ x a → Val φ₀ y b → (a ≠ 0 ∨ b ≠ 0) → a ^ 2 + b ^ 2 ≤ 16 →
    ∃ h : ℚ, L.hypot x y = .fin false h ∧ Val φ₀ (.fin false h) h ∧ 0 < h ∧ h ≤ 5
  /-- `atan2(y,x)` does not underflow to zero for `|x| ≤ 3/2` -/
  atan2_ne : ∀ (x y : FV) (a b : ℚ), Val φ₀ x a → Val φ₀ y b → b ≠ 0 → |a| ≤ 3 / 2 → ∃ t : ℚ, Val φ₀ (L.atan2 y x) t ∧ t ≠ 0
  /-- `pow(0.5, n)` is between 0 and 1/2 for positive `n` -/
  pow_half : ∀ y : ℚ, 1 ≤ y → ∃ v : ℚ, Val φ₀ (L.pow (.fin false (1/2)) (.fin false y)) v ∧ 0 ≤ v ∧ v ≤ 1 / 2

/-! ## bounds -/

/-- the smallest positive number of the format -/
def ηq : ℚ := 1 / 2 ^ 1074
theorem ηq_pos : 0 < ηq := by decide +kernel
theorem ηq_le : ηq ≤ 1 / 2 ^ 200 := by decide +kernel
theorem ηq_le' : ηq ≤ 1 / 10 ^ 9 := by decide +kernel


/-- finite, of size at most `B` -/
def VB (x : FP φ₀ L) (B : ℚ) : Prop := ∃ v, Val φ₀ (ofF x) v ∧ |v| ≤ B

/-- both parts finite, of sizes at most `A`, `B` -/
def CB (z : Cx (FP φ₀ L)) (A B : ℚ) : Prop := VB z.re A ∧ VB z.im B

theorem VB.mono {x : FP φ₀ L} {A B : ℚ} (h : VB x A) (hab : A ≤ B) : VB x B := by
  obtain ⟨v, h1, h2⟩ := h; exact ⟨v, h1, h2.trans hab⟩

theorem b64lt {q : ℚ} (h : |q| ≤ 2 ^ 100) : |rq φ₀ q| < 2 ^ (binary64).emax := rq_lt_max fmtA64 (by exact_mod_cast h)

/-- sizes of rounded numbers -/
theorem rq_bd {t T : ℚ} (h : |t| ≤ T) : |rq φ₀ t| ≤ 1001 / 1000 * T + ηq := by
  have h1 := rq_err' (φ := φ₀) t
  have e1 : (2:ℚ) ^ (-((binary64).p : ℤ)) ≤ 1 / 1000 := by
    show (2:ℚ) ^ (-53 : ℤ) ≤ 1 / 1000
    norm_num
  have e2 : (2:ℚ) ^ ((binary64).emin - 1) ≤ ηq := by
    show (2:ℚ) ^ (-1074 - 1 : ℤ) ≤ 1 / 2 ^ 1074
    rw [one_div, ← zpow_natCast, ← zpow_neg]
    exact zpow_le_zpow_right₀ (by norm_num) (by norm_num)
  have h2 : |t| * (2:ℚ) ^ (-((binary64).p : ℤ)) ≤ T * (1 / 1000) := mul_le_mul h e1 (by positivity) ((abs_nonneg t).trans h)
  have := abs_add_le (rq φ₀ t - t) t
  rw [sub_add_cancel] at this
  linarith

theorem VB.neg {x : FP φ₀ L} {A : ℚ} (h : VB x A) : VB (∸x) A := by
  obtain ⟨v, h1, h2⟩ := h; exact ⟨-v, h1.neg, by rwa [abs_neg]⟩

theorem VB.add {x y : FP φ₀ L} {A B C : ℚ} (h : VB x A) (h' : VB y B) (hC : A + B ≤ C) (hr : Repr φ₀ C) (hM : C ≤ 2 ^ 100) : VB (x +. y) C := by
  obtain ⟨v, h1, h2⟩ := h
  obtain ⟨w, k1, k2⟩ := h'
  have : |v + w| ≤ C := (abs_add_le _ _).trans (by linarith)
  exact ⟨rq φ₀ (v + w), h1.add k1 (b64lt (this.trans hM)), abs_rq_le hr this⟩

theorem VB.sub {x y : FP φ₀ L} {A B C : ℚ} (h : VB x A) (h' : VB y B) (hC : A + B ≤ C) (hr : Repr φ₀ C) (hM : C ≤ 2 ^ 100) : VB (x -. y) C :=
  h.add h'.neg hC hr hM

theorem VB.mul {x y : FP φ₀ L} {A B C : ℚ} (h : VB x A) (h' : VB y B) (hC : A * B ≤ C) (hr : Repr φ₀ C) (hM : C ≤ 2 ^ 100) : VB (x *. y) C := by
  obtain ⟨v, h1, h2⟩ := h
  obtain ⟨w, k1, k2⟩ := h'
  have : |v * w| ≤ C := by
    rw [abs_mul]; exact (mul_le_mul h2 k2 (abs_nonneg _) ((abs_nonneg _).trans h2)).trans hC
  exact ⟨rq φ₀ (v * w), h1.mul k1 (b64lt (this.trans hM)), abs_rq_le hr this⟩

/-- the same with a rounding error instead of a representable bound -/
theorem VB.mul' {x y : FP φ₀ L} {A B C : ℚ} (h : VB x A) (h' : VB y B) (hC : 1001 / 1000 * (A * B) + ηq ≤ C) (hM : A * B ≤ 2 ^ 100) : VB (x *. y) C := by
  obtain ⟨v, h1, h2⟩ := h
  obtain ⟨w, k1, k2⟩ := h'
  have : |v * w| ≤ A * B := by
    rw [abs_mul]; exact mul_le_mul h2 k2 (abs_nonneg _) ((abs_nonneg _).trans h2)
  exact ⟨rq φ₀ (v * w), h1.mul k1 (b64lt (this.trans hM)), (rq_bd this).trans hC⟩

/-- division by a number of size at least `K` -/
theorem VB.div {x y : FP φ₀ L} {A K c : ℚ} (h : VB x A) (hy : Val φ₀ (ofF y) c) (hK : 1 ≤ K) (hc : K ≤ c) (hM : A ≤ 2 ^ 100) :
    VB (x /. y) (1001 / 1000 * (A / K) + ηq) := by
  obtain ⟨v, h1, h2⟩ := h
  have hA : 0 ≤ A := (abs_nonneg v).trans h2
  have : |v / c| ≤ A / K := by
    rw [abs_div, abs_of_pos (by linarith : 0 < c)]
    exact div_le_div₀ hA h2 (by linarith) hc
  exact ⟨rq φ₀ (v / c), h1.div hy (by linarith) (b64lt (this.trans ((div_le_self hA hK).trans hM))), rq_bd this⟩

theorem vb_int {k : ℤ} (h0 : 0 ≤ k) (h1 : k ≤ 2 ^ 53) : Val φ₀ (ofF (FOps.ofInt k : FP φ₀ L)) k := by
  have hr := b64_int h0 h1
  have e : rq φ₀ (k : ℚ) = k := rq_repr (by rw [abs_of_nonneg (by exact_mod_cast h0)]; exact hr)
  have hk : |(k:ℚ)| ≤ 2 ^ 100 := by
    rw [abs_of_nonneg (by exact_mod_cast h0)]
    have : (k:ℚ) ≤ 2 ^ 53 := by exact_mod_cast h1
    exact this.trans (by norm_num)
  have := val_rndQ (φ := φ₀) (b64lt hk)
  rwa [e] at this

/-- an integer below `2^64` is converted monotonically -/
theorem vb_int' {k j : ℤ} (h0 : 0 ≤ j) (h1 : j ≤ 2 ^ 53) (hjk : j ≤ k) (hk : k ≤ 2 ^ 64) : ∃ c : ℚ, Val φ₀ (ofF (FOps.ofInt k : FP φ₀ L)) c ∧ (j:ℚ) ≤ c := by
  have hr := b64_int h0 h1
  have hk : |(k:ℚ)| ≤ 2 ^ 100 := by
    rw [abs_of_nonneg (by exact_mod_cast h0.trans hjk)]
    have : (k:ℚ) ≤ 2 ^ 64 := by exact_mod_cast hk
    exact this.trans (by norm_num)
  refine ⟨_, val_rndQ (φ := φ₀) (b64lt hk), ?_⟩
  have e : rq φ₀ (j : ℚ) = j := rq_repr (by rw [abs_of_nonneg (by exact_mod_cast h0)]; exact hr)
  rw [← e]
  exact rq_mono (by exact_mod_cast hjk)

theorem vb_lit {c C : ℚ} (h : |c| ≤ C) (hr : Repr φ₀ C) (hM : C ≤ 2 ^ 100) : VB (FOps.lit c : FP φ₀ L) C :=
  ⟨rq φ₀ c, val_rndQ (b64lt (h.trans hM)), abs_rq_le hr h⟩

theorem rp (k : ℤ) (h0 : 0 ≤ k := by norm_num) (h1 : k ≤ 2 ^ 53 := by norm_num) {C : ℚ} (hC : C = k := by norm_num) : Repr φ₀ C := hC ▸ b64_int h0 h1

/-- the step `p *= q` -/
theorem CB.step {p q : Cx (FP φ₀ L)} {P Q1 Q2 C : ℚ} (hp : CB p P P) (hq : CB q Q1 Q2) (hM : P * (Q1 + Q2) ≤ 2 ^ 90)
    (hC : 1003 / 1000 * (P * (Q1 + Q2)) + 4 * ηq ≤ C) : CB (p *. q) C C := by
  obtain ⟨⟨a, ha, hA⟩, ⟨b, hb, hB⟩⟩ := hp
  obtain ⟨⟨c, hc, hC1⟩, ⟨d, hd, hD⟩⟩ := hq
  have hP : 0 ≤ P := (abs_nonneg _).trans hA
  have hQ1 : 0 ≤ Q1 := (abs_nonneg _).trans hC1
  have hQ2 : 0 ≤ Q2 := (abs_nonneg _).trans hD
  have mm : ∀ {x y X Y : ℚ}, |x| ≤ X → |y| ≤ Y → |x * y| ≤ X * Y := fun {x y X Y} h1 h2 => by
    rw [abs_mul]; exact mul_le_mul h1 h2 (abs_nonneg _) ((abs_nonneg _).trans h1)
  have m1 := mm hA hC1
  have m2 := mm hB hD
  have m3 := mm hA hD
  have m4 := mm hB hC1
  have n1 : 0 ≤ P * Q1 := by positivity
  have n2 : 0 ≤ P * Q2 := by positivity
  have hs : P * (Q1 + Q2) = P * Q1 + P * Q2 := by ring
  have b1 := rq_bd m1
  have b2 := rq_bd m2
  have b3 := rq_bd m3
  have b4 := rq_bd m4
  rw [hs] at hM hC
  have hη0 := ηq_pos
  have hη1 := ηq_le'
  have s1 : |rq φ₀ (a * c) - rq φ₀ (b * d)| ≤ 1001 / 1000 * (P * Q1 + P * Q2) + 2 * ηq := (abs_sub _ _).trans (by linarith)
  have s2 : |rq φ₀ (a * d) + rq φ₀ (b * c)| ≤ 1001 / 1000 * (P * Q1 + P * Q2) + 2 * ηq := (abs_add_le _ _).trans (by linarith)
  have r1 := rq_bd s1
  have r2 := rq_bd s2
  have hbig : (2:ℚ) ^ 90 * 2 + 2 ≤ 2 ^ 100 := by norm_num
  have f : ∀ {x : ℚ}, |x| ≤ 2 ^ 90 * 2 + 2 → |rq φ₀ x| < 2 ^ (binary64).emax := fun h => b64lt (h.trans hbig)
  have hM0 : (0:ℚ) ≤ 2 ^ 90 := by positivity
  generalize (2:ℚ) ^ 90 = M at *
  obtain ⟨v1, v2⟩ := Val.cmul L.cmulRec ha hb hc hd (f (by linarith)) (f (by linarith)) (f (by linarith)) (f (by linarith)) (f (by linarith)) (f (by linarith))
  exact ⟨⟨_, v1, by linarith⟩, ⟨_, v2, by linarith⟩⟩

/-- tiny factors give exactly zero -/
theorem CB.step0 {p q : Cx (FP φ₀ L)} {P Q1 Q2 : ℚ} (hp : CB p P P) (hq : CB q Q1 Q2) (h1 : P * Q1 < ηq / 2) (h2 : P * Q2 < ηq / 2) : CB (p *. q) 0 0 := by
  obtain ⟨⟨a, ha, hA⟩, ⟨b, hb, hB⟩⟩ := hp
  obtain ⟨⟨c, hc, hC1⟩, ⟨d, hd, hD⟩⟩ := hq
  have mm : ∀ {x y X Y : ℚ}, |x| ≤ X → |y| ≤ Y → |x * y| ≤ X * Y := fun {x y X Y} h1 h2 => by
    rw [abs_mul]; exact mul_le_mul h1 h2 (abs_nonneg _) ((abs_nonneg _).trans h1)
  have ht : ∀ {x : ℚ}, |x| < ηq / 2 → rq φ₀ x = 0 := fun {x} h => rq_tiny (by
    show |x| < 2 ^ (-1074 - 1 : ℤ)
    have e : (2:ℚ) ^ (-1074 - 1 : ℤ) = ηq / 2 := by
      rw [zpow_sub_one₀ (by norm_num), show (-1074 : ℤ) = -((1074 : ℕ) : ℤ) by norm_num, zpow_neg, zpow_natCast, ηq, one_div]; rfl
    rw [e]; exact h)
  have z1 := ht ((mm hA hC1).trans_lt h1)
  have z2 := ht ((mm hB hD).trans_lt h2)
  have z3 := ht ((mm hA hD).trans_lt h2)
  have z4 := ht ((mm hB hC1).trans_lt h1)
  have z : |(0:ℚ)| < 2 ^ (binary64).emax := by rw [abs_zero]; positivity
  obtain ⟨v1, v2⟩ := Val.cmul (φ := φ₀) L.cmulRec ha hb hc hd (by rwa [z1]) (by rwa [z2]) (by rwa [z3]) (by rwa [z4]) (by rw [z1, z2, sub_zero, rq_zero]; exact z)
    (by rw [z3, z4, add_zero, rq_zero]; exact z)
  rw [z1, z2, sub_zero, rq_zero] at v1
  rw [z3, z4, add_zero, rq_zero] at v2
  exact ⟨⟨0, v1, by simp⟩, ⟨0, v2, by simp⟩⟩

theorem CB.divr {z : Cx (FP φ₀ L)} {x : FP φ₀ L} {A B K c : ℚ} (h : CB z A B) (hy : Val φ₀ (ofF x) c) (hK : 1 ≤ K) (hc : K ≤ c) (hA : A ≤ 2 ^ 100) (hB : B ≤ 2 ^ 100) :
    CB (z /. x) (1001 / 1000 * (A / K) + ηq) (1001 / 1000 * (B / K) + ηq) :=
  ⟨h.1.div hy hK hc hA, h.2.div hy hK hc hB⟩

theorem CB.add {z w : Cx (FP φ₀ L)} {A B C : ℚ} (h : CB z A A) (h' : CB w B B) (hC : A + B ≤ C) (hr : Repr φ₀ C) (hM : C ≤ 2 ^ 100) : CB (z +. w) C C :=
  ⟨h.1.add h'.1 hC hr hM, h.2.add h'.2 hC hr hM⟩

theorem CB.rmul {z : Cx (FP φ₀ L)} {x : FP φ₀ L} {A B C : ℚ} (h : CB z A A) (h' : VB x B) (hC : 1001 / 1000 * (A * B) + ηq ≤ C) (hM : A * B ≤ 2 ^ 100) : CB (x *. z) C C :=
  ⟨h.1.mul' h' hC hM, h.2.mul' h' hC hM⟩

/-! ## `zeta` and `harmonic` -/

theorem r1 : Repr φ₀ 1 := rp 1
theorem r2 : Repr φ₀ 2 := rp 2
theorem rhalf : Repr φ₀ (1/2) := by
  have := repr_two_pow (φ := φ₀) (e := -1) (by decide)
  rwa [zpow_neg_one, ← one_div] at this

theorem zetasPos_le : ∀ i : Fin 32, |zetasPos[i]| ≤ 2 := by decide +kernel

theorem zetasNeg0 : |zetasNeg[(0 : Fin 130)]| ≤ 2 := by decide +kernel

theorem zeta_vb (hL : UnityLib L) (m : ℤ) (h1 : 2 ≤ m) (h2 : m ≤ 2 ^ 53) : ∃ v : FP φ₀ L, zeta m = .ok v ∧ VB v 2 := by
  obtain ⟨k, rfl⟩ : ∃ k : ℕ, m = k + 2 := ⟨(m - 2).toNat, by omega⟩
  rcases lt_or_ge k 32 with h | h
  · exact ⟨_, zeta_pos_table k h, vb_lit (zetasPos_le ⟨k, h⟩) r2 (by norm_num)⟩
  · refine ⟨_, zeta_pos_big k h (by simp only [i64max]; omega), ?_⟩
    have v1 : Val φ₀ (ofF (FOps.lit 1 : FP φ₀ L)) 1 := vl_one fmtA64
    have e1 : (FOps.lit 0.5 : FP φ₀ L) = toF φ₀ L (.fin false (1/2)) := ofF_inj ((vl_half fmtA64).pos (by norm_num))
    have e2 : (FOps.ofInt ((k:ℤ) + 2) : FP φ₀ L) = toF φ₀ L (.fin false ((((k:ℤ) + 2 : ℤ)) : ℚ)) :=
      ofF_inj ((vb_int (by omega) h2).pos (by have : (0:ℚ) < ((k:ℤ) + 2 : ℤ) := by exact_mod_cast (by omega : (0:ℤ) < (k:ℤ) + 2)
                                              exact this))
    obtain ⟨v, hv, v0, vh⟩ := hL.pow_half ((((k:ℤ) + 2 : ℤ)) : ℚ) (by exact_mod_cast (by omega : (1:ℤ) ≤ (k:ℤ) + 2))
    have hv' : Val φ₀ (ofF (powi (FOps.lit 0.5 : FP φ₀ L) (k + 2 : ℤ))) v := by unfold powi; rw [e1, e2]; exact hv
    have b1 : |1 + -v| ≤ 1 := by rw [abs_le]; constructor <;> linarith
    have hs := v1.add hv'.neg (b64lt (b1.trans (by norm_num)))
    have c2 : (1/2 : ℚ) ≤ rq φ₀ (1 + -v) := by
      have := rq_mono (φ := φ₀) (show (1/2 : ℚ) ≤ 1 + -v by linarith)
      rwa [rq_repr (by rw [abs_of_pos (by norm_num)]; exact rhalf)] at this
    have b2 : |1 / rq φ₀ (1 + -v)| ≤ 2 := by
      rw [abs_of_pos (by positivity), div_le_iff₀ (by linarith)]; linarith
    exact ⟨_, v1.div hs (by linarith) (b64lt (b2.trans (by norm_num))), abs_rq_le r2 b2⟩

theorem harmonicLoop_vb : ∀ (f : ℕ) (k : ℤ) (s : FP φ₀ L), 1 ≤ k → k + f ≤ 2 ^ 20 → VB s k → VB (harmonicLoop f k s) (k + f : ℤ) := by
  intro f
  induction f with
  | zero => intro k s _ _ h; simpa [harmonicLoop] using h
  | succ f ih =>
    intro k s h1 h2 hs
    push_cast at h2
    unfold harmonicLoop
    have v1 : Val φ₀ (ofF (FOps.lit 1 : FP φ₀ L)) 1 := vl_one fmtA64
    have vk := vb_int (L := L) (k := k) (by omega) (by omega)
    have hk : (1:ℚ) ≤ k := by exact_mod_cast h1
    have b : |1 / (k:ℚ)| ≤ 1 := by
      rw [abs_of_pos (by positivity), div_le_iff₀ (by linarith)]; linarith
    have t : VB ((FOps.lit 1 : FP φ₀ L) /. (FOps.ofInt k : FP φ₀ L)) 1 :=
      ⟨_, v1.div vk (by linarith) (b64lt (b.trans (by norm_num))), abs_rq_le r1 b⟩
    have hk2 : ((k + 1 : ℤ) : ℚ) ≤ 2 ^ 100 := by
      have : ((k + 1 : ℤ) : ℚ) ≤ ((2 ^ 20 : ℤ) : ℚ) := by exact_mod_cast (by omega)
      exact this.trans (by norm_num)
    have := ih (k + 1) _ (by omega) (by omega) (hs.add t (C := ((k + 1 : ℤ) : ℚ)) (by push_cast; linarith) (b64_int (by omega) (by omega)) hk2)
    rw [show k + 1 + (f:ℤ) = k + ((f + 1 : ℕ) : ℤ) by push_cast; ring] at this
    exact this

theorem log_int (hL : UnityLib L) {k : ℤ} (h1 : 1 ≤ k) (h2 : k ≤ 2 ^ 40) : VB (FOps.log (FOps.ofInt k : FP φ₀ L)) 32 := by
  have vk := vb_int (L := L) (k := k) (by omega) (by omega)
  have hk : (1:ℝ) ≤ k := by exact_mod_cast h1
  have hk2 : (k:ℝ) ≤ 2 ^ 40 := by exact_mod_cast h2
  obtain ⟨l, hl, hl2⟩ := hL.log_ok.log _ _ vk (by exact_mod_cast (by omega : (0:ℤ) < k))
  refine ⟨l, hl, ?_⟩
  have hu := fmtA64.u_le
  have hu0 := uR_pos (φ := φ₀)
  have e0 : 0 ≤ Real.log (k:ℝ) := Real.log_nonneg hk
  have e1 : Real.log (k:ℝ) ≤ 28 := by
    have h3 := Real.log_le_log (by linarith) hk2
    rw [Real.log_pow] at h3
    have := Real.log_two_lt_d9
    push_cast at h3; linarith
  push_cast at hl2
  rw [abs_of_nonneg e0] at hl2
  have e2 : uR φ₀ ≤ 1 / 1000 := hu.trans (by norm_num)
  have e3 : 2 * uR φ₀ * Real.log (k:ℝ) + uR φ₀ ^ 2 ≤ 1 := by nlinarith
  have : |(l:ℝ)| ≤ 32 := by
    have := abs_add_le ((l:ℝ) - Real.log k) (Real.log k)
    rw [sub_add_cancel, abs_of_nonneg e0] at this
    linarith
  exact_mod_cast this

theorem digammaC_le : ∀ i : Fin 8, |digammaC[i]| ≤ 1/2 := by decide +kernel

theorem harmonic_vb (hL : UnityLib L) (n : ℤ) (h1 : 1 ≤ n) (h2 : n ≤ 2 ^ 39) : ∃ v : FP φ₀ L, harmonic n = .ok v ∧ VB v 64 := by
  unfold harmonic
  rw [if_neg (by omega)]
  rcases lt_or_ge n 20 with h | h
  · rw [if_pos h]
    refine ⟨_, rfl, (harmonicLoop_vb (n - 1).toNat 2 _ (by norm_num) (by omega) ⟨1, vl_one fmtA64, by norm_num⟩).mono ?_⟩
    exact_mod_cast (by omega : (2 + ((n - 1).toNat : ℤ)) ≤ 64)
  · rw [if_neg (by omega), bind_def (i64add_ok (by simp only [i64min, i64max]; omega))]
    refine ⟨_, rfl, ?_⟩
    have v1 : Val φ₀ (ofF (FOps.lit 1 : FP φ₀ L)) 1 := vl_one fmtA64
    have vk := vb_int (L := L) (k := n + 1) (by omega) (by omega)
    have hk : (16:ℚ) ≤ ((n + 1 : ℤ) : ℚ) := by exact_mod_cast (by omega)
    have r16 : Repr φ₀ (1/16) := by
      have := repr_two_pow (φ := φ₀) (e := -4) (by decide)
      rw [show (2:ℚ) ^ (-4:ℤ) = 1/16 by norm_num] at this; exact this
    have b : |1 / ((n + 1 : ℤ) : ℚ)| ≤ 1/16 := by
      rw [abs_of_pos (by positivity), div_le_iff₀ (by linarith)]; linarith
    have t : VB ((FOps.lit 1 : FP φ₀ L) /. (FOps.ofInt (n + 1) : FP φ₀ L)) (1/16) :=
      ⟨_, v1.div vk (by linarith) (b64lt (b.trans (by norm_num))), abs_rq_le r16 b⟩
    unfold digamma
    rw [if_neg (by omega)]
    dsimp only
    rw [if_neg (by omega)]
    dsimp only
    generalize ((FOps.lit 1 : FP φ₀ L) /. (FOps.ofInt (n + 1) : FP φ₀ L)) = T at *
    have t2 : VB (T *. T) (1/2) := t.mul t (by norm_num) rhalf (by norm_num)
    generalize T *. T = T2 at *
    have lt : ∀ i : Fin 8, VB (FOps.lit digammaC[i] : FP φ₀ L) (1/2) := fun i => vb_lit (digammaC_le i) rhalf (by norm_num)
    have st : ∀ {x : FP φ₀ L} (i : Fin 8), VB x 1 → VB ((FOps.lit digammaC[i] : FP φ₀ L) +. T2 *. x) 1 := fun i hx =>
      (lt i).add (t2.mul hx (C := 1/2) (by norm_num) rhalf (by norm_num)) (by norm_num) r1 (by norm_num)
    have h7 := st 0 (st 1 (st 2 (st 3 (st 4 (st 5 (st 6 ((lt 7).mono (by norm_num))))))))
    have hl := log_int hL (k := n + 1) (by omega) (by omega)
    have g1 : VB (FOps.lit 0 : FP φ₀ L) 0 := ⟨0, vl_zero fmtA64, by simp⟩
    have g2 := g1.add hl (C := 32) (by norm_num) (rp 32) (by norm_num)
    have g3 := g2.sub ((vb_lit (c := 0.5) (by norm_num [abs_of_pos]) r1 (by norm_num) : VB (FOps.lit 0.5 : FP φ₀ L) 1).mul t (C := 1) (by norm_num) r1 (by norm_num))
      (C := 33) (by norm_num) (rp 33) (by norm_num)
    have g4 := g3.sub (t2.mul h7 (C := 1) (by norm_num) r1 (by norm_num)) (C := 34) (by norm_num) (rp 34) (by norm_num)
    exact (vb_lit (c := 0.57721566490153286) (by norm_num [abs_of_pos]) r1 (by norm_num) : VB (FOps.lit 0.57721566490153286 : FP φ₀ L) 1).add g4 (by norm_num) (rp 64) (by norm_num)

/-! ## the powers of the logarithm -/

/-- the bounds on `lnz` -/
def LN (z : Cx (FP φ₀ L)) : Prop := CB z (672 / 1000) (31416 / 10000)

/-- bound on the `(j-1)`-th power over the factorial -/
def PB (j : ℤ) : ℚ := if j ≤ 5 then 5 ^ (j - 1).toNat else 3125

theorem PB_pos (j : ℤ) : 1 ≤ PB j := by
  unfold PB; split
  · exact one_le_pow₀ (by norm_num)
  · norm_num
theorem PB_le (j : ℤ) : PB j ≤ 3125 := by
  unfold PB; split
  · have : (5:ℚ) ^ (j - 1).toNat ≤ 5 ^ 5 := pow_le_pow_right₀ (by norm_num) (by omega)
    exact this.trans (by norm_num)
  · norm_num

theorem PB_step {j : ℤ} (h : 1 ≤ j) : 385 / 100 / j * PB j + 1 / 1000 ≤ PB (j + 1) := by
  rcases le_or_gt j 5 with h5 | h5
  · interval_cases j <;> decide +kernel
  · have hj : (6:ℚ) ≤ j := by exact_mod_cast h5
    unfold PB
    rw [if_neg (by omega), if_neg (by omega)]
    have : 385 / 100 / (j:ℚ) ≤ 385 / 100 / 6 := by gcongr
    linarith

theorem p_step {lnz p : Cx (FP φ₀ L)} (hl : LN lnz) {j : ℤ} (h1 : 1 ≤ j) (h2 : j ≤ 2 ^ 53) (hp : CB p (PB j) (PB j)) :
    CB (p *. (lnz /. (FOps.ofInt j : FP φ₀ L))) (PB (j + 1)) (PB (j + 1)) := by
  have vj := vb_int (L := L) (k := j) (by omega) h2
  have hj : (1:ℚ) ≤ j := by exact_mod_cast h1
  have hq := hl.divr vj hj le_rfl (by norm_num) (by norm_num)
  have η0 := ηq_pos
  have η1 := ηq_le'
  have p1 := PB_pos j
  have p2 := PB_le j
  have i0 : (0:ℚ) < 1 / j := by positivity
  have i1 : 1 / (j:ℚ) ≤ 1 := by rw [div_le_iff₀ (by linarith)]; linarith
  have hs : (1001 / 1000 * (672 / 1000 / (j:ℚ)) + ηq) + (1001 / 1000 * (31416 / 10000 / (j:ℚ)) + ηq) = 1001 / 1000 * (38136 / 10000) * (1 / j) + 2 * ηq := by ring
  have hη : PB j * ηq ≤ 3125 * (1 / 10 ^ 9) := mul_le_mul p2 η1 η0.le (by norm_num)
  have hpj : 0 ≤ PB j * (1 / j) := by positivity
  have hpj2 : PB j * (1 / (j:ℚ)) ≤ 3125 * 1 := mul_le_mul p2 i1 i0.le (by norm_num)
  have e : PB j * (1001 / 1000 * (38136 / 10000) * (1 / (j:ℚ)) + 2 * ηq) = 1001 / 1000 * (38136 / 10000) * (PB j * (1 / j)) + 2 * (PB j * ηq) := by ring
  refine CB.step hp hq ?_ ?_
  · rw [hs, e]; norm_num at hη hpj2 ⊢; linarith
  · rw [hs, e]
    have := PB_step h1
    rw [show 385 / 100 / (j:ℚ) * PB j = 385 / 100 * (PB j * (1 / j)) by ring] at this
    norm_num at hη hpj2 this hpj η1 ⊢
    linarith

theorem rep13 {j : ℤ} (h0 : 0 ≤ j) (h1 : j ≤ 2 ^ 40) : Repr φ₀ ((j:ℚ) * 2 ^ 13) := by
  have := b64_int (k := j * 2 ^ 13) (by positivity) (by nlinarith)
  push_cast at this; exact this

theorem le100 {j : ℤ} (h1 : j ≤ 2 ^ 40) : (j:ℚ) * 2 ^ 13 ≤ 2 ^ 100 := by
  have : (j:ℚ) ≤ 2 ^ 40 := by exact_mod_cast h1
  nlinarith

/-- a term `zeta * p` of the head -/
theorem term_vb {p : Cx (FP φ₀ L)} {v : FP φ₀ L} (hv : VB v 2) {P : ℚ} (hp : CB p P P) (hP : P ≤ 3125) : CB (v *. p) (2 ^ 13) (2 ^ 13) := by
  have η1 := ηq_le'
  refine hp.rmul hv ?_ ?_
  · norm_num at η1 ⊢; linarith
  · norm_num; linarith

theorem loop1_vb (hL : UnityLib L) (n : ℤ) (hn : n ≤ 2 ^ 39) {lnz : Cx (FP φ₀ L)} (hl : LN lnz) : ∀ (f : ℕ) (j : ℤ) (sum p : Cx (FP φ₀ L)),
    1 ≤ j → j + f ≤ n - 1 → CB p (PB j) (PB j) → CB sum (j * 2 ^ 13) (j * 2 ^ 13) →
    ∃ s p', liUnityPosLoop1 n lnz f j sum p = .ok (s, p') ∧ CB p' (PB (j + f)) (PB (j + f)) ∧ CB s ((j + f : ℤ) * 2 ^ 13) ((j + f : ℤ) * 2 ^ 13) := by
  intro f
  induction f with
  | zero => intro j sum p _ _ hp hs; exact ⟨sum, p, rfl, by simpa using hp, by simpa using hs⟩
  | succ f ih =>
    intro j sum p h1 h2 hp hs
    push_cast at h2
    unfold liUnityPosLoop1
    dsimp only
    rw [bind_def (i64sub_ok (by simp only [i64min, i64max]; omega))]
    obtain ⟨v, hv, hv2⟩ := zeta_vb hL (n - j) (by omega) (by omega)
    rw [bind_def hv]
    have hp' := p_step hl h1 (by omega) hp
    have ht := term_vb hv2 hp' (PB_le _)
    obtain ⟨s, p', h3, h4, h5⟩ := ih (j + 1) _ _ (by omega) (by omega) hp' (hs.add ht (C := ((j + 1 : ℤ) : ℚ) * 2 ^ 13) (by push_cast; linarith) (rep13 (by omega) (by omega)) (le100 (by omega)))
    rw [show j + 1 + (f:ℤ) = j + ((f + 1 : ℕ) : ℤ) by push_cast; ring] at h4 h5
    exact ⟨s, p', h3, h4, h5⟩

/-- `clog` at the logarithm -/
theorem clog_fin (hL : UnityLib L) {z : Cx (FP φ₀ L)} {a b : ℚ} (ha : Val φ₀ (ofF z.re) a) (hb : Val φ₀ (ofF z.im) b) (h0 : a ≠ 0 ∨ b ≠ 0) (h1 : |a| ≤ 672 / 1000) (h2 : |b| ≤ 31416 / 10000) :
    CB (clog z) (2 ^ 17) 4 := by
  have hlog : ∀ (x : FV) (q : ℚ), Val φ₀ x q → 0 < q → VB (toF φ₀ L (L.log x)) (2 ^ 17) := by
    intro x q hx hq
    obtain ⟨l, hl, hl2⟩ := hL.log_ok.log x q hx hq
    refine ⟨l, hl, ?_⟩
    have hu : uR φ₀ ≤ 1 / 1000 := fmtA64.u_le.trans (by norm_num)
    have hu0 := uR_pos (φ := φ₀)
    have := hx.log_le fmtA64 hq
    have h3 := abs_add_le ((l:ℝ) - Real.log q) (Real.log q)
    rw [sub_add_cancel] at h3
    have h4 : |(l:ℝ)| ≤ 2 ^ 17 := by nlinarith [abs_nonneg (Real.log q)]
    exact_mod_cast h4
  have v0 : Val φ₀ (ofF (FOps.lit 0 : FP φ₀ L)) 0 := vl_zero fmtA64
  have g0 : VB (FOps.lit 0 : FP φ₀ L) 4 := ⟨0, v0, by norm_num⟩
  have e0 : (z.im ==. (FOps.lit 0 : FP φ₀ L)) = decide (b = 0) := hb.eq v0
  have e1 : (z.re >. (FOps.lit 0 : FP φ₀ L)) = decide (0 < a) := v0.lt ha
  unfold clog
  rw [e0, e1]
  by_cases hb0 : b = 0
  · by_cases ha0 : 0 < a
    · simp only [hb0, ha0, decide_true, Bool.and_self, if_true]
      exact ⟨hlog _ _ ha ha0, g0⟩
    · simp only [hb0, ha0, decide_true, decide_false, Bool.and_false, Bool.false_eq_true, if_true, if_false]
      have : a ≠ 0 := by rcases h0 with h | h
                         · exact h
                         · exact absurd hb0 h
      have hneg : 0 < -a := by
        rcases lt_trichotomy a 0 with h | h | h
        · linarith
        · exact absurd h this
        · exact absurd h ha0
      exact ⟨hlog _ _ ha.neg hneg, vb_lit (by norm_num [abs_of_pos]) (rp 4) (by norm_num)⟩
  · simp only [hb0, decide_false, Bool.false_and, Bool.false_eq_true, if_false]
    have q1 := abs_le.1 h1
    have q2 := abs_le.1 h2
    obtain ⟨h, hh, hv, hp, -⟩ := hL.hypot_ok _ _ a b ha hb h0 (by nlinarith)
    obtain ⟨t, ht, ht2⟩ := hL.clib.atan2 _ _ b a hb ha
    refine ⟨?_, ⟨t, ht, ht2.trans (by norm_num)⟩⟩
    have := hlog _ _ hv hp
    rw [← hh] at this
    exact this

theorem head_vb (hL : UnityLib L) (n : ℤ) (h7 : 7 ≤ n) (hn : n ≤ 2 ^ 38) (z : Cx (FP φ₀ L)) (hl : LN (clog z)) (hl2 : CB (clog ∸(clog z)) (2 ^ 17) 4) :
    ∃ s p, liUnityHead n z = .ok (s, p) ∧ CB p 3125 3125 ∧ CB s (2 ^ 39 * 2 ^ 13) (2 ^ 39 * 2 ^ 13) := by
  unfold liUnityHead
  dsimp only
  obtain ⟨zn, hz, hz2⟩ := zeta_vb hL n (by omega) (by omega)
  rw [bind_def hz, bind_def (i64sub_ok (by simp only [i64min, i64max]; omega))]
  have v0 : Val φ₀ (ofF (FOps.lit 0 : FP φ₀ L)) 0 := vl_zero fmtA64
  have v1 : Val φ₀ (ofF (FOps.lit 1 : FP φ₀ L)) 1 := vl_one fmtA64
  obtain ⟨s, p, h1, h2, h3⟩ := loop1_vb hL n (by omega) hl (n - 1 - 1).toNat 1 ⟨zn, (FOps.lit 0 : FP φ₀ L)⟩ ⟨(FOps.lit 1 : FP φ₀ L), (FOps.lit 0 : FP φ₀ L)⟩ le_rfl (by omega)
    ⟨⟨1, v1, by norm_num [PB]⟩, ⟨0, v0, by norm_num [PB]⟩⟩ ⟨hz2.mono (by norm_num), ⟨0, v0, by norm_num⟩⟩
  rw [bind_def h1]
  have ej : (1:ℤ) + ((n - 1 - 1).toNat : ℤ) = n - 1 := by omega
  rw [ej] at h2 h3
  dsimp only
  have p1 := p_step hl (by omega) (by omega) h2
  obtain ⟨h, hh, hh2⟩ := harmonic_vb hL (n - 1) (by omega) (by omega)
  rw [bind_def hh]
  have hs : CB (h -. clog ∸(clog z)) (2 ^ 18) 4 := ⟨hh2.sub hl2.1 (by norm_num) (rp (2 ^ 18)) (by norm_num), hl2.2.neg⟩
  have η1 := ηq_le'
  -- the product with the harmonic term; the roles of the factors are exchanged in the bound
  have pr : CB ((h -. clog ∸(clog z)) *. (p *. (clog z /. (FOps.ofInt (n - 1) : FP φ₀ L)))) (2 ^ 31) (2 ^ 31) := by
    have a1 : CB (h -. clog ∸(clog z)) (2 ^ 18) (2 ^ 18) := ⟨hs.1, hs.2.mono (by norm_num)⟩
    have a2 : CB (p *. (clog z /. (FOps.ofInt (n - 1) : FP φ₀ L))) 3125 3125 := ⟨p1.1.mono (PB_le _), p1.2.mono (PB_le _)⟩
    refine CB.step a1 a2 (by norm_num) ?_
    norm_num at η1 ⊢; linarith
  rw [show n - 1 + 1 = n by ring] at p1
  have p2 := p_step hl (by omega) (by omega) p1
  have ez0 : (zeta 0 : M (FP φ₀ L)) = .ok ∸(FOps.lit 0.5 : FP φ₀ L) := by
    unfold zeta; rw [if_neg (by decide), if_pos rfl]; rfl
  rw [bind_def ez0, bind_def (i64add_ok (by simp only [i64min, i64max]; omega))]
  have p3 := p_step hl (by omega) (by omega) p2
  have ez1 : (zeta (-1) : M (FP φ₀ L)) = .ok (FOps.lit zetasNeg[0] : FP φ₀ L) := zeta_neg_odd 0 (by decide)
  rw [bind_def ez1]
  have z0 : VB (∸(FOps.lit 0.5 : FP φ₀ L)) 2 := (vb_lit (by norm_num [abs_of_pos]) r2 (by norm_num)).neg
  have z1 : VB (FOps.lit zetasNeg[0] : FP φ₀ L) 2 := vb_lit zetasNeg0 r2 (by norm_num)
  have t0 := term_vb z0 p2 (PB_le _)
  have t1 := term_vb z1 p3 (PB_le _)
  have s1 : CB s (2 ^ 38 * 2 ^ 13) (2 ^ 38 * 2 ^ 13) := by
    have : ((n - 1 : ℤ) : ℚ) * 2 ^ 13 ≤ 2 ^ 38 * 2 ^ 13 := by
      have : ((n - 1 : ℤ) : ℚ) ≤ ((2 ^ 38 : ℤ) : ℚ) := by exact_mod_cast (by omega : n - 1 ≤ 2 ^ 38)
      push_cast at this ⊢
      nlinarith
    exact ⟨h3.1.mono this, h3.2.mono this⟩
  have s2 := ((s1.add pr (C := ((2 ^ 38 + 2 ^ 18 : ℤ) : ℚ) * 2 ^ 13) (by norm_num) (rep13 (by norm_num) (by norm_num)) (le100 (by norm_num))).add t0
    (C := ((2 ^ 38 + 2 ^ 19 : ℤ) : ℚ) * 2 ^ 13) (by norm_num) (rep13 (by norm_num) (by norm_num)) (le100 (by norm_num))).add t1
    (C := ((2 ^ 39 : ℤ) : ℚ) * 2 ^ 13) (by norm_num) (rep13 (by norm_num) (by norm_num)) (le100 (by norm_num))
  refine ⟨_, _, rfl, ⟨p3.1.mono (PB_le _), p3.2.mono (PB_le _)⟩, ?_⟩
  push_cast at s2
  exact s2

/-! ## the second loop -/

/-- general multiplication -/
theorem CB.mulg {p q : Cx (FP φ₀ L)} {A B C D : ℚ} (hp : CB p A B) (hq : CB q C D) (hM1 : A * C + B * D ≤ 2 ^ 90) (hM2 : A * D + B * C ≤ 2 ^ 90) :
    CB (p *. q) (1003 / 1000 * (A * C + B * D) + 4 * ηq) (1003 / 1000 * (A * D + B * C) + 4 * ηq) := by
  obtain ⟨⟨a, ha, hA⟩, ⟨b, hb, hB⟩⟩ := hp
  obtain ⟨⟨c, hc, hC⟩, ⟨d, hd, hD⟩⟩ := hq
  have mm : ∀ {x y X Y : ℚ}, |x| ≤ X → |y| ≤ Y → |x * y| ≤ X * Y ∧ 0 ≤ X * Y := fun {x y X Y} h1 h2 => by
    refine ⟨?_, mul_nonneg ((abs_nonneg _).trans h1) ((abs_nonneg _).trans h2)⟩
    rw [abs_mul]; exact mul_le_mul h1 h2 (abs_nonneg _) ((abs_nonneg _).trans h1)
  obtain ⟨m1, n1⟩ := mm hA hC
  obtain ⟨m2, n2⟩ := mm hB hD
  obtain ⟨m3, n3⟩ := mm hA hD
  obtain ⟨m4, n4⟩ := mm hB hC
  have b1 := rq_bd m1
  have b2 := rq_bd m2
  have b3 := rq_bd m3
  have b4 := rq_bd m4
  have hη0 := ηq_pos
  have hη1 := ηq_le'
  have s1 : |rq φ₀ (a * c) - rq φ₀ (b * d)| ≤ 1001 / 1000 * (A * C + B * D) + 2 * ηq := (abs_sub _ _).trans (by linarith)
  have s2 : |rq φ₀ (a * d) + rq φ₀ (b * c)| ≤ 1001 / 1000 * (A * D + B * C) + 2 * ηq := (abs_add_le _ _).trans (by linarith)
  have r1 := rq_bd s1
  have r2 := rq_bd s2
  have hbig : (2:ℚ) ^ 90 * 2 + 2 ≤ 2 ^ 100 := by norm_num
  have f : ∀ {x : ℚ}, |x| ≤ 2 ^ 90 * 2 + 2 → |rq φ₀ x| < 2 ^ (binary64).emax := fun h => b64lt (h.trans hbig)
  have hM0 : (0:ℚ) ≤ 2 ^ 90 := by positivity
  generalize (2:ℚ) ^ 90 = M at *
  obtain ⟨v1, v2⟩ := Val.cmul L.cmulRec ha hb hc hd (f (by linarith)) (f (by linarith)) (f (by linarith)) (f (by linarith)) (f (by linarith)) (f (by linarith))
  exact ⟨⟨_, v1, by linarith⟩, ⟨_, v2, by linarith⟩⟩

/-- bound on `p` after `m` iterations -/
def BB : ℕ → ℚ
  | 0 => 3125
  | m + 1 => 15 / ((9 + 2 * m) * (10 + 2 * m)) * BB m + 8 * ηq

theorem BB_nonneg : ∀ m, 0 ≤ BB m
  | 0 => by norm_num [BB]
  | m + 1 => by
    have := BB_nonneg m
    have := ηq_pos
    rw [BB]; positivity

/-- all iterations: the zeta value is finite, the terms are of moderate size -/
theorem bb_cert : ∀ m : Fin 121, |zetasNeg[(⟨m.1 + 1, by omega⟩ : Fin 130)]| ≤ 2 ^ 1023 ∧ BB m.1 ≤ 3125 ∧
    1001 / 1000 * (BB (m.1 + 1) * (1001 / 1000 * |zetasNeg[(⟨m.1 + 1, by omega⟩ : Fin 130)]| + ηq)) + ηq ≤ 2 ^ 13 := by decide +kernel

/-- ... and after 120 iterations `p` is about to underflow -/
theorem bb_end : BB 120 ≤ 16 * ηq := by decide +kernel

theorem zeta2_vb (m : ℕ) (hm : m < 121) : VB (zetaV (FP φ₀ L) (-3 - 2 * (m:ℤ))) (1001 / 1000 * |zetasNeg[(⟨m + 1, by omega⟩ : Fin 130)]| + ηq) := by
  have h := zeta_neg_odd (F := FP φ₀ L) (m + 1) (by omega)
  rw [show (1 - 2 * (((m + 1 : ℕ) : ℤ) + 1)) = -3 - 2 * (m:ℤ) by push_cast; ring] at h
  have e : zetaV (FP φ₀ L) (-3 - 2 * (m:ℤ)) = FOps.lit zetasNeg[(⟨m + 1, by omega⟩ : Fin 130)] := by unfold zetaV; rw [h]; rfl
  rw [e]
  obtain ⟨h1, -, -⟩ := bb_cert ⟨m, hm⟩
  refine ⟨_, val_rndQ ?_, rq_bd le_rfl⟩
  have hr : Repr φ₀ (2 ^ 1023) := by
    have := repr_two_pow (φ := φ₀) (e := ((1023 : ℕ) : ℤ)) (by decide)
    rwa [zpow_natCast] at this
  refine (abs_rq_le hr h1).trans_lt ?_
  show (2:ℚ) ^ 1023 < 2 ^ (1024 : ℤ)
  rw [← zpow_natCast]
  exact zpow_lt_zpow_right₀ (by norm_num) (by norm_num)

/-- the bounds on `lnz2` -/
theorem lnz2_cb {lnz : Cx (FP φ₀ L)} (hl : LN lnz) : CB (lnz *. lnz) (1036 / 100) (424 / 100) := by
  obtain ⟨h1, h2⟩ := CB.mulg hl hl (by norm_num) (by norm_num)
  have η1 := ηq_le'
  exact ⟨h1.mono (by norm_num at η1 ⊢; linarith), h2.mono (by norm_num at η1 ⊢; linarith)⟩

/-- `lnz2/((j-1)*j)` with `j = n + 3 + 2 m` -/
theorem q_cb {lnz2 : Cx (FP φ₀ L)} (h2 : CB lnz2 (1036 / 100) (424 / 100)) (n : ℤ) (h7 : 7 ≤ n) (m : ℕ) (hm : m ≤ 120) (hj : n + 3 + 2 * (m:ℤ) ≤ jMax) :
    CB (lnz2 /. (FOps.ofInt ((n + 3 + 2 * (m:ℤ) - 1) * (n + 3 + 2 * (m:ℤ))) : FP φ₀ L)) (1001 / 1000 * (1036 / 100 / ((9 + 2 * m) * (10 + 2 * m))) + ηq)
      (1001 / 1000 * (424 / 100 / ((9 + 2 * m) * (10 + 2 * m))) + ηq) := by
  simp only [jMax] at hj
  have hK : ((9:ℤ) + 2 * m) * (10 + 2 * m) ≤ (n + 3 + 2 * (m:ℤ) - 1) * (n + 3 + 2 * (m:ℤ)) := by
    exact mul_le_mul (by omega) (by omega) (by omega) (by omega)
  have hK2 : (n + 3 + 2 * (m:ℤ) - 1) * (n + 3 + 2 * (m:ℤ)) ≤ 3037000499 * 3037000500 :=
    mul_le_mul (by omega) (by omega) (by omega) (by omega)
  have hK3 : ((9:ℤ) + 2 * m) * (10 + 2 * m) ≤ 249 * 250 := mul_le_mul (by omega) (by omega) (by omega) (by omega)
  obtain ⟨c, hc, hc2⟩ := vb_int' (L := L) (k := (n + 3 + 2 * (m:ℤ) - 1) * (n + 3 + 2 * (m:ℤ))) (j := ((9:ℤ) + 2 * m) * (10 + 2 * m)) (by positivity) (by omega) hK (by omega)
  push_cast at hc2
  refine h2.divr hc ?_ hc2 (by norm_num) (by norm_num)
  have : (0:ℚ) ≤ m := by positivity
  nlinarith

/-- the state of the loop -/
theorem trace_cb {lnz2 : Cx (FP φ₀ L)} (h2 : CB lnz2 (1036 / 100) (424 / 100)) (n : ℤ) (h7 : 7 ≤ n) (hn : n ≤ jMax - 243) {s p : Cx (FP φ₀ L)} (hp : CB p 3125 3125)
    (hs : CB s (2 ^ 39 * 2 ^ 13) (2 ^ 39 * 2 ^ 13)) : ∀ m : ℕ, m ≤ 120 →
    CB (unityTrace n lnz2 (s, p) m).2 (BB m) (BB m) ∧ CB (unityTrace n lnz2 (s, p) m).1 ((2 ^ 39 + m : ℤ) * 2 ^ 13) ((2 ^ 39 + m : ℤ) * 2 ^ 13) := by
  simp only [jMax] at hn
  intro m
  induction m with
  | zero =>
    intro _
    refine ⟨by simpa [unityTrace, BB] using hp, ?_⟩
    rw [Nat.cast_zero, add_zero]; push_cast; exact hs
  | succ m ih =>
    intro hm
    obtain ⟨i1, i2⟩ := ih (by omega)
    have hq := q_cb h2 n h7 m (by omega) (by simp only [jMax]; omega)
    obtain ⟨-, c2, c3⟩ := bb_cert ⟨m, by omega⟩
    dsimp only at c2 c3
    have hB := BB_nonneg m
    have η0 := ηq_pos
    have η1 := ηq_le'
    have m0 : (0:ℚ) ≤ m := by positivity
    have m1 : (m:ℚ) ≤ 120 := by exact_mod_cast (by omega : m ≤ 120)
    have k0 : (90:ℚ) ≤ (9 + 2 * m) * (10 + 2 * m) := by nlinarith
    have k1 : (9 + 2 * (m:ℚ)) * (10 + 2 * m) ≤ 249 * 250 := mul_le_mul (by linarith) (by linarith) (by linarith) (by norm_num)
    have pB : CB ((unityTrace n lnz2 (s, p) m).2 *. (lnz2 /. (FOps.ofInt ((n + 3 + 2 * (m:ℤ) - 1) * (n + 3 + 2 * (m:ℤ))) : FP φ₀ L))) (BB (m + 1)) (BB (m + 1)) := by
      rw [BB]
      generalize hK : (9 + 2 * (m:ℚ)) * (10 + 2 * m) = K at *
      have ki : 1 / (249 * 250 : ℚ) ≤ 1 / K := one_div_le_one_div_of_le (by linarith) k1
      have ki2 : 1 / K ≤ 1 / 90 := one_div_le_one_div_of_le (by norm_num) k0
      have hBK : BB m * ηq ≤ BB m * (1 / 10 * (1 / K)) := mul_le_mul_of_nonneg_left (by norm_num at η1 ki ⊢; linarith) hB
      have e : BB m * (1001 / 1000 * (1036 / 100 / K) + ηq + (1001 / 1000 * (424 / 100 / K) + ηq)) = 1001 / 1000 * (1460 / 100) * (BB m * (1 / K)) + 2 * (BB m * ηq) := by ring
      have e2 : BB m * (1 / 10 * (1 / K)) = 1 / 10 * (BB m * (1 / K)) := by ring
      have e3 : 15 / K * BB m = 15 * (BB m * (1 / K)) := by ring
      have hb1 : BB m * (1 / K) ≤ 3125 * (1 / 90) := mul_le_mul c2 ki2 (by positivity) (by norm_num)
      have hb0 : 0 ≤ BB m * (1 / K) := mul_nonneg hB (by positivity)
      rw [e2] at hBK
      refine CB.step i1 hq ?_ ?_
      · rw [e]; norm_num at hb1 hBK ⊢; linarith
      · rw [e, e3]; linarith
    refine ⟨pB, ?_⟩
    have hz := zeta2_vb (L := L) m (by omega)
    have en : n - (n + 3 + 2 * (m:ℤ)) = -3 - 2 * (m:ℤ) := by ring
    have ht := pB.rmul hz c3 (by
      have : (2:ℚ) ^ 13 ≤ 2 ^ 100 := by norm_num
      generalize BB (m + 1) * (1001 / 1000 * |zetasNeg[(⟨m + 1, by omega⟩ : Fin 130)]| + ηq) = X at *
      rcases le_or_gt X 0 with hX | hX
      · exact hX.trans (by norm_num)
      · linarith)
    rw [← en] at ht
    refine i2.add ht ?_ (rep13 (by positivity) (by omega)) (le100 (by omega))
    push_cast; linarith

theorem stop_of (n : ℤ) (lnz2 : Cx (FP φ₀ L)) (s : Cx (FP φ₀ L) × Cx (FP φ₀ L)) (m : ℕ)
    (h1 : FV.eq (FV.add φ₀ (ofF (unityTrace n lnz2 s m).1.re) (FV.mul φ₀ (ofF ((unityTrace n lnz2 s m).2 *. (lnz2 /. (FOps.ofInt ((n + 3 + 2 * (m:ℤ) - 1) * (n + 3 + 2 * (m:ℤ))) : FP φ₀ L))).re)
      (ofF (zetaV (FP φ₀ L) (n - (n + 3 + 2 * (m:ℤ))))))) (ofF (unityTrace n lnz2 s m).1.re) = true)
    (h2 : FV.eq (FV.add φ₀ (ofF (unityTrace n lnz2 s m).1.im) (FV.mul φ₀ (ofF ((unityTrace n lnz2 s m).2 *. (lnz2 /. (FOps.ofInt ((n + 3 + 2 * (m:ℤ) - 1) * (n + 3 + 2 * (m:ℤ))) : FP φ₀ L))).im)
      (ofF (zetaV (FP φ₀ L) (n - (n + 3 + 2 * (m:ℤ))))))) (ofF (unityTrace n lnz2 s m).1.im) = true) : unityStop n lnz2 s m = true := by
  unfold unityStop Cx.beq
  rw [unityTrace]
  exact Bool.and_eq_true_iff.2 ⟨h1, h2⟩

/-- **the stop test succeeds after iteration 120 at the latest** -/
theorem stop_120 {lnz2 : Cx (FP φ₀ L)} (h2 : CB lnz2 (1036 / 100) (424 / 100)) (n : ℤ) (h7 : 7 ≤ n) (hn : n ≤ jMax - 243) {s p : Cx (FP φ₀ L)} (hp : CB p 3125 3125)
    (hs : CB s (2 ^ 39 * 2 ^ 13) (2 ^ 39 * 2 ^ 13)) : unityStop n lnz2 (s, p) 120 = true := by
  obtain ⟨i1, i2⟩ := trace_cb h2 n h7 hn hp hs 120 le_rfl
  have hq := q_cb h2 n h7 120 le_rfl (by simp only [jMax] at hn ⊢; push_cast; omega)
  have η0 := ηq_pos
  have η1 := ηq_le'
  have hB := BB_nonneg 120
  have hb := bb_end
  have p0 : CB ((unityTrace n lnz2 (s, p) 120).2 *. (lnz2 /. (FOps.ofInt ((n + 3 + 2 * ((120:ℕ):ℤ) - 1) * (n + 3 + 2 * ((120:ℕ):ℤ))) : FP φ₀ L))) 0 0 := by
    refine CB.step0 i1 hq ?_ ?_
    · have : BB 120 * (1001 / 1000 * (1036 / 100 / ((9 + 2 * ((120:ℕ):ℚ)) * (10 + 2 * ((120:ℕ):ℚ)))) + ηq) ≤ 16 * ηq * (1 / 1000) :=
        mul_le_mul hb (by norm_num at η1 ⊢; linarith) (by positivity) (by positivity)
      linarith
    · have : BB 120 * (1001 / 1000 * (424 / 100 / ((9 + 2 * ((120:ℕ):ℚ)) * (10 + 2 * ((120:ℕ):ℚ)))) + ηq) ≤ 16 * ηq * (1 / 1000) :=
        mul_le_mul hb (by norm_num at η1 ⊢; linarith) (by positivity) (by positivity)
      linarith
  obtain ⟨⟨a, ha, ha0⟩, ⟨b, hb, hb0⟩⟩ := p0
  have ea : a = 0 := abs_nonpos_iff.1 ha0
  have eb : b = 0 := abs_nonpos_iff.1 hb0
  subst ea eb
  obtain ⟨ζ, hζ, -⟩ := zeta2_vb (L := L) 120 (by norm_num)
  have en : n - (n + 3 + 2 * ((120:ℕ):ℤ)) = -3 - 2 * ((120:ℕ):ℤ) := by ring
  rw [← en] at hζ
  have zz : ∀ {x y : FV} {w : ℚ}, Val φ₀ x 0 → Val φ₀ y w → Val φ₀ (FV.mul φ₀ x y) 0 := fun h1 h2 => by
    have := h1.mul h2 (by rw [zero_mul, rq_zero, abs_zero]; positivity)
    rwa [zero_mul, rq_zero] at this
  have aa : ∀ {x y : FV} {w : ℚ}, Val φ₀ x w → Val φ₀ y 0 → Val φ₀ (FV.add φ₀ x y) w := fun {x y w} h1 h2 => by
    have e : rq φ₀ (w + 0) = w := by rw [add_zero, rq_repr h1.repr]
    have := h1.add h2 (by rw [e]; exact h1.lt_max)
    rwa [e] at this
  obtain ⟨⟨c, hc, -⟩, ⟨d, hd, -⟩⟩ := i2
  have t1 := (aa hc (zz ha hζ)).eq hc
  have t2 := (aa hd (zz hb hζ)).eq hd
  exact stop_of _ _ _ _ (t1.trans (by simp)) (t2.trans (by simp))

end
end Polylog
