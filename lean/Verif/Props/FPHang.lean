import Verif.Props.FPSeries

/-!
# C22: an argument for which the loop of `Li_series` never stops in binary64

`Li(-2, z)` with `z = -259/512 + 2^-1074 i`: the imaginary part of the term `p` is stuck at plus or minus the smallest positive number, because
`|Re z| > 1/2`; the imaginary part of the sum toggles for ever, so the stop test `sum == old_sum` never succeeds.
-/

namespace Polylog
open MC

section
variable {L : Lib}

local notation "φ₀" => binary64

theorem rq_bound {n : ℕ} {q : ℚ} (h : |q| ≤ 2 ^ n) : |rq φ₀ q| ≤ 2 ^ n := by
  have := b64_repr_pow (e := n) (by omega)
  rw [zpow_natCast] at this
  exact abs_rq_le this h

/-- one iteration of the loop in terms of rational numbers -/
theorem step_val {p z : Cx (FP φ₀ L)} {r : FP φ₀ L} {A B x y w : ℚ} (hA : Val φ₀ (ofF p.re) A) (hB : Val φ₀ (ofF p.im) B)
    (hx : Val φ₀ (ofF z.re) x) (hy : Val φ₀ (ofF z.im) y) (hw : Val φ₀ (ofF r) w)
    (bA : |A| ≤ 2 ^ 10) (bB : |B| ≤ 2 ^ 10) (bx : |x| ≤ 1) (by' : |y| ≤ 1) (bw : |w| ≤ 2 ^ 3) :
    Val φ₀ (ofF (p *. (z *. r)).re) (rq φ₀ (rq φ₀ (A * rq φ₀ (x * w)) - rq φ₀ (B * rq φ₀ (y * w)))) ∧
    Val φ₀ (ofF (p *. (z *. r)).im) (rq φ₀ (rq φ₀ (A * rq φ₀ (y * w)) + rq φ₀ (B * rq φ₀ (x * w)))) := by
  have m1 : ∀ {a b : ℚ}, |a| ≤ 1 → |b| ≤ 2 ^ 3 → |rq φ₀ (a * b)| ≤ 2 ^ 3 := fun {a b} ha hb => rq_bound (by
    rw [abs_mul]; have := mul_le_mul ha hb (abs_nonneg _) (by norm_num); linarith)
  have m2 : ∀ {a b : ℚ}, |a| ≤ 2 ^ 10 → |b| ≤ 2 ^ 3 → |rq φ₀ (a * b)| ≤ 2 ^ 13 := fun {a b} ha hb => rq_bound (by
    rw [abs_mul]; have := mul_le_mul ha hb (abs_nonneg _) (by norm_num); linarith)
  have m3 : ∀ {a b : ℚ}, |a| ≤ 2 ^ 13 → |b| ≤ 2 ^ 13 → |rq φ₀ (a + b)| ≤ 2 ^ 14 := fun {a b} ha hb => rq_bound (by
    have := abs_add_le a b; linarith)
  have m4 : ∀ {a b : ℚ}, |a| ≤ 2 ^ 13 → |b| ≤ 2 ^ 13 → |rq φ₀ (a - b)| ≤ 2 ^ 14 := fun {a b} ha hb => rq_bound (by
    have := abs_sub a b; linarith)
  have lt : ∀ {q : ℚ} (n : ℕ), n ≤ 70 → |q| ≤ 2 ^ n → |q| < 2 ^ (binary64).emax := fun {q} n hn h =>
    b64_lt (h.trans (pow_le_pow_right₀ (by norm_num) hn))
  have X := m1 bx bw
  have Y := m1 by' bw
  have vX := hx.mul hw (lt 3 (by norm_num) X)
  have vY := hy.mul hw (lt 3 (by norm_num) Y)
  exact Val.cmul L.cmulRec hA hB vX vY (lt 13 (by norm_num) (m2 bA X)) (lt 13 (by norm_num) (m2 bB Y)) (lt 13 (by norm_num) (m2 bA Y))
    (lt 13 (by norm_num) (m2 bB X)) (lt 14 (by norm_num) (m4 (m2 bA X) (m2 bB Y))) (lt 14 (by norm_num) (m3 (m2 bA Y) (m2 bB X)))

theorem rq_sign {ε : ℚ} (h : ε = 1 ∨ ε = -1) (q : ℚ) : rq φ₀ (ε * q) = ε * rq φ₀ q := by
  rcases h with rfl | rfl
  · simp
  · rw [neg_one_mul, neg_one_mul, rq_neg]

/-- the library's `pow(a, -2)` has a relative error of at most one per mille for representable `a` between 1/2 and 1 -/
def PowSq (L : Lib) : Prop := ∀ a : ℚ, Repr φ₀ a → 1 / 2 ≤ a → a ≤ 1 →
  ∃ w : ℚ, Val φ₀ (L.pow (.fin false a) (rndQ φ₀ (-2 : ℤ))) w ∧ |w * a ^ 2 - 1| ≤ 1 / 1000

/-- the factor `pow(k/(1.0 + k), -2)` -/
theorem factor_val (hL : PowSq L) (m : ℕ) (hm : ((m : ℤ) + 1) ≤ 2 ^ 63) :
    ∃ w : ℚ, Val φ₀ (ofF (powi ((FOps.ofInt ((m : Int) + 1) : FP φ₀ L) /. ((FOps.lit 1 : FP φ₀ L) +. (FOps.ofInt ((m : Int) + 1) : FP φ₀ L))) (-2))) w ∧
      999 / 1000 ≤ w ∧ w ≤ 1002 / 1000 * (((m : ℚ) + 2) / (m + 1)) ^ 2 := by
  obtain ⟨a, e, hv, h1, h2, h3⟩ := ratio_val (L := L) ((m : ℤ) + 1) (by omega) hm
  obtain ⟨s, a', e1, -, hr, -⟩ := hv
  obtain ⟨rfl, rfl⟩ := FV.fin.inj e1
  obtain ⟨w, hw, h4⟩ := hL a hr h1 h2
  refine ⟨w, ?_, ?_, ?_⟩
  · show Val φ₀ (L.pow (ofF ((FOps.ofInt ((m : Int) + 1) : FP φ₀ L) /. ((FOps.lit 1 : FP φ₀ L) +. (FOps.ofInt ((m : Int) + 1) : FP φ₀ L)))) (rndQ φ₀ (-2 : ℤ))) w
    rw [e]; exact hw
  · have := (abs_le.1 h4).1
    by_contra hc
    push Not at hc
    have ha2 : a ^ 2 ≤ 1 := by nlinarith
    rcases le_or_gt 0 w with h0 | h0
    · nlinarith
    · nlinarith [sq_nonneg a]
  · have h5 := (abs_le.1 h4).2
    have h6 := (abs_le.1 h3).1
    push_cast at h6
    set r : ℚ := ((m : ℚ) + 1) / (m + 2) with hr'
    have hm0 : (0:ℚ) ≤ m := Nat.cast_nonneg m
    have e3 : (((m : ℚ) + 2) / (m + 1)) = 1 / r := by rw [hr', one_div_div]
    have hr0 : 1 / 2 ≤ r := by rw [hr', div_le_div_iff₀ (by norm_num) (by linarith)]; linarith
    have e4 : ((m:ℚ) + 1) / (m + 1 + 1) = r := by rw [hr']; congr 1; ring
    rw [e4] at h6
    rw [e3, div_pow, one_pow, mul_one_div, le_div_iff₀ (by positivity)]
    have ha : r * (1 - 1 / 2 ^ 50) ≤ a := by linarith
    have ha2 : (r * (1 - 1 / 2 ^ 50)) ^ 2 ≤ a ^ 2 := pow_le_pow_left₀ (by nlinarith) ha 2
    have hw0 : 0 ≤ w := by
      by_contra hc
      push Not at hc
      have := (abs_le.1 h4).1
      nlinarith [sq_nonneg a]
    have h7 : w * (r * (1 - 1 / 2 ^ 50)) ^ 2 ≤ 1001 / 1000 := by
      have := mul_le_mul_of_nonneg_left ha2 hw0
      linarith
    rw [mul_pow, ← mul_assoc] at h7
    have h8 : (999 / 1000 : ℚ) ≤ (1 - 1 / 2 ^ 50) ^ 2 := by norm_num
    have h9 : 0 ≤ w * r ^ 2 := by positivity
    norm_num at h7 ⊢
    linarith

/-- the argument `-259/512 + 2^-1074 i` -/
def hangArg (L : Lib) : Cx (FP φ₀ L) := ⟨(.fin true (259 / 512) : FV), (.fin false (2 ^ (-1074 : ℤ)) : FV)⟩

theorem hangArg_re : Val φ₀ (ofF (hangArg L).re) (-(259 / 512)) :=
  ⟨true, 259 / 512, rfl, by simp [sval], ⟨259, -9, by decide, by simp only [binary64]; norm_num, by norm_num⟩, by
    have := b64_lt (q := 259 / 512) (by norm_num [abs_of_pos]); rwa [abs_of_pos (by norm_num)] at this⟩

theorem hangArg_im : Val φ₀ (ofF (hangArg L).im) (2 ^ (-1074 : ℤ)) :=
  ⟨false, _, rfl, by simp [sval], b64_repr_pow le_rfl, zpow_lt_zpow_right₀ (by norm_num) (by decide)⟩


/-- `2^-1074`, the smallest positive number, as an opaque quantity -/
theorem eta_small : (0:ℚ) < 2 ^ (binary64).emin ∧ (2:ℚ) ^ (binary64).emin ≤ 1 / 2 ^ 60 ∧ (2:ℚ) ^ ((binary64).emin - 1) = 2 ^ (binary64).emin / 2 := by
  refine ⟨by positivity, ?_, by rw [zpow_sub_one₀ (by norm_num)]; ring⟩
  have : (2:ℚ) ^ ((binary64).emin) ≤ 2 ^ (-60 : ℤ) := zpow_le_zpow_right₀ (by norm_num) (by decide)
  norm_num at this ⊢; exact this

theorem b64_u : (2:ℚ) ^ (-((binary64).p : ℤ)) = 1 / 2 ^ 53 := by show (2:ℚ) ^ (-(53:ℤ)) = _; norm_num

theorem rq_le_eps (q : ℚ) (h : 0 ≤ q) : rq φ₀ q ≤ q + q / 2 ^ 53 + 1 / 2 ^ 60 := by
  have h1 := (abs_le.1 (rq_err' (φ := φ₀) q)).2
  rw [b64_u, abs_of_nonneg h, eta_small.2.2] at h1
  have := eta_small.2.1
  linarith

/-- the numbers of one iteration: real part of the factor -/
theorem hang_X {w ρ : ℚ} (h1 : 999 / 1000 ≤ w) (h2 : w ≤ 1002 / 1000 * ρ) (hρ4 : ρ ≤ 4) :
    129 / 256 ≤ rq φ₀ (259 / 512 * w) ∧ rq φ₀ (259 / 512 * w) ≤ 3 ∧ rq φ₀ (259 / 512 * w) ≤ 508 / 1000 * ρ := by
  have r1 : Repr φ₀ (129 / 256) := ⟨129, -8, by decide, by simp only [binary64]; norm_num, by norm_num⟩
  have r3 : Repr φ₀ 3 := by simpa using b64_int (k := 3) (by norm_num) (by norm_num)
  have h0 : (0:ℚ) ≤ 259 / 512 * w := by linarith
  have hn := rq_nonneg (φ := φ₀) h0
  have a1 := le_abs_rq (q := 259 / 512 * w) r1 (by rw [abs_of_nonneg h0]; linarith)
  have a2 := abs_rq_le (q := 259 / 512 * w) r3 (by rw [abs_of_nonneg h0]; linarith)
  rw [abs_of_nonneg hn] at a1 a2
  refine ⟨a1, a2, ?_⟩
  have := rq_le_eps _ h0
  have hp : (259 / 512 * w) / 2 ^ 53 ≤ (259 / 512 * w) * (1 / 10 ^ 9) := by
    rw [div_eq_mul_one_div]; exact mul_le_mul_of_nonneg_left (by norm_num) h0
  have : (1:ℚ) / 2 ^ 60 ≤ 1 / 10 ^ 9 := by norm_num
  linarith

/-- a positive multiple of the smallest number times something between 1/2 and 3 -/
theorem hang_K {I : ℤ} {X : ℚ} (h1 : 1 ≤ I) (h2 : I ≤ 40000) (hX1 : 129 / 256 ≤ X) (hX2 : X ≤ 3) :
    ∃ K : ℤ, rq φ₀ (I * 2 ^ (binary64).emin * X) = K * 2 ^ (binary64).emin ∧ 1 ≤ K ∧ K ≤ 3 * I ∧ (X ≤ 1 → K ≤ I) := by
  obtain ⟨e0, e1, e2⟩ := eta_small
  obtain ⟨K, hK⟩ := abs_eta (repr_rq (φ := φ₀) (I * 2 ^ (binary64).emin * X))
  have hI : (1:ℚ) ≤ I := by exact_mod_cast h1
  have bd : ∀ j : ℕ, j ≤ 2 ^ 53 → I * X ≤ j → K ≤ j := by
    intro j hj hIX
    have := abs_rq_le (q := I * 2 ^ (binary64).emin * X) (repr_of_eta (φ := φ₀) hj) (by
      rw [abs_of_nonneg (by positivity)]; nlinarith)
    rw [hK] at this
    have h4 := (le_abs_self _).trans this
    have h5 : (K:ℚ) ≤ j := by nlinarith
    exact_mod_cast h5
  have hI3 : ((3 * I).toNat : ℤ) = 3 * I := Int.toNat_of_nonneg (by omega)
  have hI1 : (I.toNat : ℤ) = I := Int.toNat_of_nonneg (by omega)
  refine ⟨K, hK, ?_, ?_, fun hX => ?_⟩
  · have := rq_big (φ := φ₀) (q := I * 2 ^ (binary64).emin * X) (by rw [e2]; nlinarith [mul_nonneg (sub_nonneg.2 hI) (show 0 ≤ X by linarith)])
    rw [hK] at this
    have h5 : (1:ℚ) ≤ K := by nlinarith
    exact_mod_cast h5
  · rw [← hI3]
    refine bd _ (by omega) ?_
    have : (((3 * I).toNat : ℕ) : ℚ) = 3 * I := by exact_mod_cast congrArg (Int.cast : ℤ → ℚ) hI3
    rw [this]; nlinarith
  · rw [← hI1]
    refine bd _ (by omega) ?_
    have : ((I.toNat : ℕ) : ℚ) = I := by exact_mod_cast congrArg (Int.cast : ℤ → ℚ) hI1
    rw [this]; nlinarith

/-- the imaginary part of the factor -/
theorem hang_Y {w : ℚ} (j : ℕ) (hj : j ≤ 5) (h0 : 0 ≤ w) (h : w ≤ j) : 0 ≤ rq φ₀ (2 ^ (binary64).emin * w) ∧ rq φ₀ (2 ^ (binary64).emin * w) ≤ j * 2 ^ (binary64).emin := by
  obtain ⟨e0, e1, e2⟩ := eta_small
  have hp : 0 ≤ 2 ^ (binary64).emin * w := by positivity
  refine ⟨rq_nonneg hp, ?_⟩
  have := abs_rq_le (q := 2 ^ (binary64).emin * w) (repr_of_eta (φ := φ₀) (n := j) (by simp only [binary64]; omega)) (by rw [abs_of_nonneg hp]; nlinarith)
  exact (le_abs_self _).trans this

/-- what holds before iteration `m + 1` -/
def HangInv (L : Lib) (m : ℕ) : Prop := ∃ (a : ℚ) (I t : ℤ),
  Val φ₀ (ofF (serTr (-2) (hangArg L) m).2.re) (-((-1) ^ m * a)) ∧
  Val φ₀ (ofF (serTr (-2) (hangArg L) m).2.im) ((-1) ^ m * (I * 2 ^ (binary64).emin)) ∧
  Val φ₀ (ofF (serTr (-2) (hangArg L) m).1.im) (t * 2 ^ (binary64).emin) ∧ 0 ≤ a ∧ 1 ≤ I ∧
  (m ≤ 8 → a ≤ ((m : ℚ) + 1) ^ 2 * (51 / 100) ^ (m + 1) ∧ I + 5 ≤ 6 * 3 ^ m ∧ |t| ≤ 40000 * m) ∧
  (8 ≤ m → a < 1 / 4 ∧ I ≤ 40000 ∧ |t| ≤ 400000 ∧ |t + (-1) ^ m * I| ≤ 400000)

theorem hang_zero : HangInv L 0 := by
  refine ⟨259 / 512, 1, 0, ?_, ?_, ?_, by norm_num, le_rfl, fun _ => ⟨by norm_num, by norm_num, by norm_num⟩, fun h => absurd h (by norm_num)⟩
  · rw [pow_zero, one_mul]; exact hangArg_re
  · rw [pow_zero, one_mul, Int.cast_one, one_mul]; exact hangArg_im
  · rw [Int.cast_zero, zero_mul]
    have := val_rndQ (φ := φ₀) (q := 0) (by rw [rq_zero, abs_zero]; positivity)
    rw [rq_zero] at this
    exact this

set_option maxHeartbeats 4000000 in
theorem hang_step (hL : PowSq L) (m : ℕ) (hm : ((m : ℤ) + 1) ≤ 2 ^ 63) (h : HangInv L m) :
    HangInv L (m + 1) ∧ Cx.bne (serTr (-2) (hangArg L) (m + 1)).1 (serTr (-2) (hangArg L) m).1 = true := by
  obtain ⟨a, I, t, vA, vB, vT, ha, hI, hs, hl⟩ := h
  obtain ⟨w, vw, w1, w2⟩ := factor_val hL m hm
  obtain ⟨e0, e1, e2⟩ := eta_small
  have hε : ((-1:ℚ)) ^ m = 1 ∨ ((-1:ℚ)) ^ m = -1 := neg_one_pow_eq_or ℚ m
  have hεz : ((-1:ℤ)) ^ m = 1 ∨ ((-1:ℤ)) ^ m = -1 := neg_one_pow_eq_or ℤ m
  have hεc : (((-1:ℤ) ^ m : ℤ) : ℚ) = (-1:ℚ) ^ m := by push_cast; rfl
  -- uniform bounds
  have hI4 : I ≤ 40000 := by
    rcases le_or_gt 8 m with h8 | h8
    · exact (hl h8).2.1
    · have := (hs h8.le).2.1
      have h3 : (3:ℤ) ^ m ≤ 3 ^ 8 := pow_le_pow_right₀ (by norm_num) h8.le
      norm_num at h3; omega
  have ht4 : |t| ≤ 400000 := by
    rcases le_or_gt 8 m with h8 | h8
    · exact (hl h8).2.2.1
    · have := (hs h8.le).2.2
      omega
  have ha2 : a ≤ 2 := by
    rcases le_or_gt 8 m with h8 | h8
    · linarith [(hl h8).1]
    · have := (hs h8.le).1
      refine this.trans ?_
      interval_cases m <;> norm_num
  have hIq : (1:ℚ) ≤ I := by exact_mod_cast hI
  have hIq4 : (I:ℚ) ≤ 40000 := by exact_mod_cast hI4
  set ρ : ℚ := (((m : ℚ) + 2) / (m + 1)) ^ 2 with hρ
  have hm0 : (0:ℚ) ≤ m := Nat.cast_nonneg m
  have hρ4 : ρ ≤ 4 := by
    have h1 : ((m : ℚ) + 2) / (m + 1) ≤ 2 := by rw [div_le_iff₀ (by linarith)]; linarith
    have h2 : (0:ℚ) ≤ ((m : ℚ) + 2) / (m + 1) := by positivity
    nlinarith
  have hρ8 : 8 ≤ m → ρ ≤ 100 / 81 := by
    intro h8
    have h8' : (8:ℚ) ≤ m := by exact_mod_cast h8
    have h1 : ((m : ℚ) + 2) / (m + 1) ≤ 10 / 9 := by rw [div_le_div_iff₀ (by linarith) (by norm_num)]; linarith
    have h2 : (0:ℚ) ≤ ((m : ℚ) + 2) / (m + 1) := by positivity
    nlinarith
  obtain ⟨x1, x2, x3⟩ := hang_X w1 w2 hρ4
  set X := rq φ₀ (259 / 512 * w) with hX
  have eX : rq φ₀ (-(259 / 512) * w) = -X := by rw [neg_mul, rq_neg]
  obtain ⟨y1, y2⟩ := hang_Y (w := w) 5 le_rfl (by linarith) (by push_cast; linarith)
  have y3 : 8 ≤ m → rq φ₀ (2 ^ (binary64).emin * w) ≤ (2:ℕ) * 2 ^ (binary64).emin := fun h8 =>
    (hang_Y (w := w) 2 (by norm_num) (by linarith) (by push_cast; linarith [hρ8 h8])).2
  set Y := rq φ₀ (2 ^ (binary64).emin * w) with hY
  push_cast at y2 y3
  obtain ⟨K, hK, k1, k2, k3⟩ := hang_K hI hI4 x1 x2
  set η : ℚ := 2 ^ (binary64).emin with hη
  have aε : |((-1:ℚ)) ^ m| = 1 := by rw [abs_pow, abs_neg, abs_one, one_pow]
  -- the next term
  obtain ⟨vA', vB'⟩ := step_val (p := (serTr (-2) (hangArg L) m).2) (z := hangArg L) vA vB hangArg_re hangArg_im vw
    (by rw [abs_neg, abs_mul, aε, one_mul, abs_of_nonneg ha]; linarith)
    (by rw [abs_mul, aε, one_mul, abs_of_nonneg (by positivity)]; nlinarith)
    (by rw [abs_neg, abs_of_pos (by norm_num)]; norm_num)
    (by show |η| ≤ 1; rw [abs_of_pos e0]; linarith)
    (by rw [abs_of_pos (by linarith)]; linarith)
  rw [eX, show (2:ℚ) ^ (-1074 : ℤ) = η from rfl, ← hY] at vA' vB'
  have z0 : rq φ₀ ((-1) ^ m * (I * η) * Y) = 0 := by
    refine rq_tiny ?_
    rw [e2, abs_mul, abs_mul, aε, one_mul, abs_of_nonneg (by positivity), abs_of_nonneg y1]
    have : I * η * Y ≤ 40000 * η * (5 * η) := mul_le_mul (mul_le_mul_of_nonneg_right hIq4 e0.le) y2 y1 (by positivity)
    nlinarith
  have eA : rq φ₀ (rq φ₀ (-((-1) ^ m * a) * -X) - 0) = -((-1) ^ (m + 1) * rq φ₀ (a * X)) := by
    rw [sub_zero, show -((-1:ℚ) ^ m * a) * -X = (-1) ^ m * (a * X) by ring, rq_sign hε, rq_sign hε, rq_repr (repr_rq _), pow_succ]; ring
  rw [z0, eA] at vA'
  obtain ⟨J, hJ⟩ := abs_eta (repr_rq (φ := φ₀) (a * Y))
  have hJ0 : 0 ≤ J := by
    have := rq_nonneg (φ := φ₀) (mul_nonneg ha y1)
    rw [hJ] at this
    have h5 : (0:ℚ) ≤ J := by by_contra hc; push Not at hc; nlinarith
    exact_mod_cast h5
  have hJ1 : J ≤ 10 := by
    have := abs_rq_le (q := a * Y) (repr_of_eta (φ := φ₀) (n := 10) (by decide)) (by
      rw [abs_of_nonneg (mul_nonneg ha y1)]
      have := mul_le_mul ha2 y2 y1 (by norm_num)
      push_cast; linarith)
    rw [hJ] at this
    have h4 := (le_abs_self _).trans this
    push_cast at h4
    have h5 : (J:ℚ) ≤ 10 := by
      by_contra hc; push Not at hc
      have := mul_lt_mul_of_pos_right hc e0
      linarith
    exact_mod_cast h5
  have hJ2 : 8 ≤ m → J = 0 := by
    intro h8
    have h1 := (hl h8).1
    have := rq_tiny (φ := φ₀) (q := a * Y) (by
      rw [abs_of_nonneg (mul_nonneg ha y1), e2]
      have := y3 h8
      have h2 : a * Y ≤ a * (2 * η) := mul_le_mul_of_nonneg_left this ha
      nlinarith)
    rw [hJ] at this
    have h5 : (J:ℚ) = 0 := by
      rcases mul_eq_zero.1 this with h | h
      · exact h
      · exact absurd h e0.ne'
    exact_mod_cast h5
  have eB : rq φ₀ (rq φ₀ (-((-1) ^ m * a) * Y) + rq φ₀ ((-1) ^ m * (I * η) * -X)) = (-1) ^ (m + 1) * ((J + K : ℤ) * η) := by
    rw [show -((-1:ℚ) ^ m * a) * Y = (-1) ^ m * -(a * Y) by ring, show (-1:ℚ) ^ m * (I * η) * -X = (-1) ^ m * -(I * η * X) by ring,
      rq_sign hε, rq_sign hε, rq_neg, rq_neg, hJ, hK, ← mul_add, rq_sign hε,
      show (-(J * η) + -(K * η) : ℚ) = -(((J + K : ℤ) : ℚ) * η) by push_cast; ring, rq_neg,
      rq_eta (φ := φ₀) (by rw [abs_of_nonneg (by omega)]; show J + K ≤ 2 ^ 53; omega), pow_succ]
    ring
  rw [eB] at vB'
  -- the sum
  have hsum : |t + (-1) ^ m * I| ≤ 440000 := by
    refine (abs_add_le _ _).trans ?_
    rcases hεz with h | h <;> rw [h] <;> simp only [one_mul, neg_one_mul, abs_neg] <;> rw [abs_of_pos (by omega : 0 < I)] <;> omega
  have eT : rq φ₀ (t * η + (-1) ^ m * (I * η)) = ((t + (-1) ^ m * I : ℤ) : ℚ) * η := by
    rw [show (t * η + (-1) ^ m * (I * η) : ℚ) = ((t + (-1) ^ m * I : ℤ) : ℚ) * η by push_cast; ring,
      rq_eta (φ := φ₀) (by show |t + (-1) ^ m * I| ≤ 2 ^ 53; omega)]
  have vT' := vT.add vB (by
    rw [eT, abs_mul, abs_of_pos e0]
    have : (|((t + (-1) ^ m * I : ℤ) : ℚ)|) ≤ 440000 := by exact_mod_cast hsum
    refine lt_of_le_of_lt (b := (1:ℚ)) (by nlinarith) ?_
    have := b64_lt (q := 1) (by norm_num)
    rwa [abs_one] at this)
  rw [eT] at vT'
  refine ⟨⟨rq φ₀ (a * X), J + K, t + (-1) ^ m * I, vA', vB', vT', rq_nonneg (by nlinarith), by omega, ?_, ?_⟩, ?_⟩
  · intro h8
    have h7 : m ≤ 7 := by omega
    obtain ⟨s1, s2, s3⟩ := hs (by omega)
    refine ⟨?_, ?_, ?_⟩
    · have haX : a * X ≤ ((m : ℚ) + 1) ^ 2 * (51 / 100) ^ (m + 1) * (508 / 1000 * ρ) := mul_le_mul s1 x3 (by linarith) (by positivity)
      have e5 : ((m : ℚ) + 1) ^ 2 * (51 / 100) ^ (m + 1) * (508 / 1000 * ρ) = 508 / 1000 * ((m : ℚ) + 2) ^ 2 * (51 / 100) ^ (m + 1) := by
        rw [hρ, div_pow]; field_simp
      rw [e5] at haX
      have h5 := rq_le_eps (a * X) (by nlinarith)
      have h6 : a * X ≤ 6 := by nlinarith
      have h9 : rq φ₀ (a * X) ≤ a * X + 1 / 10 ^ 6 := by
        have : (a * X) / 2 ^ 53 ≤ 6 / 2 ^ 53 := div_le_div_of_nonneg_right h6 (by norm_num)
        have : (6:ℚ) / 2 ^ 53 + 1 / 2 ^ 60 ≤ 1 / 10 ^ 6 := by norm_num
        linarith
      refine h9.trans ((add_le_add_left haX _).trans ?_)
      push_cast
      clear_value ρ
      interval_cases m <;> norm_num
    · rw [pow_succ]; omega
    · have hI' : |(-1) ^ m * I| ≤ 40000 := by
        rcases hεz with h | h <;> rw [h] <;> simp only [one_mul, neg_one_mul, abs_neg] <;> rw [abs_of_pos (by omega : 0 < I)] <;> omega
      have := abs_add_le t ((-1) ^ m * I)
      push_cast; omega
  · intro h8
    rcases Nat.lt_or_ge m 8 with h7 | h7
    · -- m = 7
      have hm7 : m = 7 := by omega
      subst hm7
      obtain ⟨s1, s2, s3⟩ := hs (by norm_num)
      norm_num at s2 s3 ⊢
      have haX : a * X ≤ ((7 : ℚ) + 1) ^ 2 * (51 / 100) ^ (7 + 1) * (508 / 1000 * ρ) := mul_le_mul (by exact_mod_cast s1) x3 (by linarith) (by positivity)
      have eρ : ρ = 81 / 64 := by rw [hρ]; norm_num
      rw [eρ] at haX
      norm_num at haX
      have h5 := rq_le_eps (a * X) (by nlinarith)
      have h6 : (a * X) / 2 ^ 53 ≤ 1 / 100 := by
        rw [div_le_iff₀ (by norm_num)]; linarith
      have : (1:ℚ) / 2 ^ 60 ≤ 1 / 1000 := by norm_num
      refine ⟨by linarith, by omega, ?_, ?_⟩
      · rw [abs_le] at *; constructor <;> omega
      · rw [abs_le] at *; constructor <;> omega
    · obtain ⟨l1, l2, l3, l4⟩ := hl h7
      have hX1 : X ≤ 1 := by linarith [hρ8 h7]
      have hKI := k3 hX1
      have hJ := hJ2 h7
      refine ⟨?_, by omega, l4, ?_⟩
      · have hra : Repr φ₀ a := by have := vA.repr; rwa [abs_neg, abs_mul, aε, one_mul, abs_of_nonneg ha] at this
        have := abs_rq_le (q := a * X) hra (by rw [abs_of_nonneg (by nlinarith)]; nlinarith)
        exact lt_of_le_of_lt ((le_abs_self _).trans this) l1
      · rw [pow_succ]
        rw [abs_le] at l3 l4 ⊢
        rcases hεz with h | h <;> rw [h] at l4 ⊢ <;> constructor <;> omega
  · -- the sum changes
    have hne : FV.eq (ofF (serTr (-2) (hangArg L) (m + 1)).1.im) (ofF (serTr (-2) (hangArg L) m).1.im) = false := by
      have := vT'.eq vT
      refine this.trans ?_
      rw [decide_eq_false_iff_not]
      intro h
      have h5 := mul_right_cancel₀ e0.ne' h
      have h6 : t + (-1) ^ m * I = t := by exact_mod_cast h5
      rcases hεz with h | h <;> rw [h] at h6 <;> omega
    show (!(_ && FV.eq (ofF (serTr (-2) (hangArg L) (m + 1)).1.im) (ofF (serTr (-2) (hangArg L) m).1.im))) = true
    rw [hne, Bool.and_false]; rfl

/-- **C22 (limit).** For `z = -259/512 + 2^-1074 i` (`0.25 < |z|^2 < 0.512^2`) the series loop of `Li(-2, z)` in binary64 executes all of its
`2^63 - 3` iterations, although the exact series converges: the stop test never succeeds. -/
theorem C22_series_hang (hL : PowSq L) : (liSeriesC (-2) (hangArg L)).cost = 2 ^ 63 - 3 := by
  have inv : ∀ m : ℕ, (m : ℤ) ≤ 2 ^ 63 → HangInv L m := by
    intro m
    induction m with
    | zero => exact fun _ => hang_zero
    | succ m ih => intro hm; push_cast at hm; exact (hang_step hL m hm (ih (by omega))).1
  refine cost_no_stop (-2) (hangArg L) fun m hm => ?_
  have hm' : (m : ℤ) + 1 ≤ 2 ^ 63 := by
    have : i64max = 2 ^ 63 - 1 := by decide
    omega
  obtain ⟨h1, h2⟩ := hang_step hL m hm' (inv m (by omega))
  refine ⟨?_, h2⟩
  obtain ⟨a, I, t, vA, vB, -⟩ := h1
  show (FV.isfin _ && FV.isfin _) = true
  rw [show FV.isfin (serTr (-2) (hangArg L) (m + 1)).2.re = true from vA.isfin, show FV.isfin (serTr (-2) (hangArg L) (m + 1)).2.im = true from vB.isfin]
  rfl


theorem rq_near {q : ℚ} (h : |q| ≤ 100) : |rq φ₀ q - q| ≤ 1 / 10 ^ 9 := by
  have h1 := rq_err' (φ := φ₀) q
  rw [b64_u, eta_small.2.2] at h1
  have := eta_small.2.1
  have h3 : (100:ℚ) * (1 / 2 ^ 53) + 1 / 2 ^ 60 ≤ 1 / 10 ^ 9 := by norm_num
  have h4 : |q| * (1 / 2 ^ 53) ≤ 100 * (1 / 2 ^ 53) := mul_le_mul_of_nonneg_right h (by norm_num)
  linarith

theorem near_lt {q : ℚ} (h : |q| ≤ 100) : |rq φ₀ q| < 2 ^ (binary64).emax :=
  b64_lt ((rq_bound (n := 7) (h.trans (by norm_num))).trans (by norm_num))

/-- what is required of the C library: `pow(a,-2)` within one per mille, `log(|z|)` and `arg(z)` of the argument at hand within `0.02` of
`-0.6815...` and `3.1415...` -/
structure HangLib (L : Lib) : Prop where
  pow : PowSq L
  log : ∃ l, Val φ₀ (L.log (L.hypot (.fin true (259 / 512)) (.fin false (2 ^ (-1074 : ℤ))))) l ∧ -70 / 100 ≤ l ∧ l ≤ -68 / 100
  arg : ∃ g, Val φ₀ (L.atan2 (.fin false (2 ^ (-1074 : ℤ))) (.fin true (259 / 512))) g ∧ 314 / 100 ≤ g ∧ g ≤ 316 / 100

theorem mul_bd {a b A B : ℚ} (h0 : 0 ≤ a) (h1 : a ≤ A) (h2 : 0 ≤ b) (h3 : b ≤ B) : 0 ≤ a * b ∧ a * b ≤ A * B :=
  ⟨mul_nonneg h0 h2, mul_le_mul h1 h3 h2 (h0.trans h1)⟩

set_option maxHeartbeats 1000000 in
/-- the argument is in the region of the power series -/
theorem hang_region (hL : HangLib L) :
    ((FOps.lit 4 : FP φ₀ L) *. (FOps.lit 3.1415926535897932 : FP φ₀ L) *. (FOps.lit 3.1415926535897932 : FP φ₀ L) *. Cx.norm (hangArg L)
      <. Cx.norm (clog (hangArg L))) = true := by
  obtain ⟨l, vl, l1, l2⟩ := hL.log
  obtain ⟨g, vg, g1, g2⟩ := hL.arg
  obtain ⟨e0, e1, e2⟩ := eta_small
  have ec : clog (hangArg L) = ⟨L.log (L.hypot (.fin true (259 / 512)) (.fin false (2 ^ (-1074 : ℤ)))), L.atan2 (.fin false (2 ^ (-1074 : ℤ))) (.fin true (259 / 512))⟩ := by
    have h0 : ((hangArg L).im ==. (FOps.lit 0 : FP φ₀ L)) = false := by
      have v0 : Val φ₀ (ofF (FOps.lit 0 : FP φ₀ L)) 0 := by
        have := val_rndQ (φ := φ₀) (q := 0) (by rw [rq_zero, abs_zero]; positivity)
        rw [rq_zero] at this
        exact this
      refine (hangArg_im.eq v0).trans ?_
      rw [decide_eq_false_iff_not]
      exact e0.ne'
    unfold clog
    rw [h0]
    simp only [Bool.false_and, Bool.false_eq_true, if_false]
    rfl
  rw [ec]
  -- the norm of the logarithm
  have n1 := rq_near (q := l * l) (by rw [abs_of_nonneg (by nlinarith)]; nlinarith)
  have n2 := rq_near (q := g * g) (by rw [abs_of_nonneg (by nlinarith)]; nlinarith)
  have vll := vl.mul vl (near_lt (by rw [abs_of_nonneg (by nlinarith)]; nlinarith))
  have vgg := vg.mul vg (near_lt (by rw [abs_of_nonneg (by nlinarith)]; nlinarith))
  rw [abs_le] at n1 n2
  have n3 := rq_near (q := rq φ₀ (l * l) + rq φ₀ (g * g)) (by rw [abs_of_nonneg (by nlinarith)]; nlinarith)
  have vn := vll.add vgg (near_lt (by rw [abs_of_nonneg (by nlinarith)]; nlinarith))
  have hnl : 1032 / 100 ≤ rq φ₀ (rq φ₀ (l * l) + rq φ₀ (g * g)) := by
    rw [abs_le] at n3
    nlinarith
  -- the norm of the argument
  have vxx := (hangArg_re (L := L)).mul (hangArg_re (L := L)) (near_lt (by norm_num [abs_of_pos]))
  have hyy : rq φ₀ ((2:ℚ) ^ (-1074 : ℤ) * 2 ^ (-1074 : ℤ)) = 0 := by
    refine rq_tiny ?_
    rw [e2, abs_of_nonneg (by positivity)]
    show (2:ℚ) ^ (binary64).emin * 2 ^ (binary64).emin < _
    nlinarith
  have vyy := (hangArg_im (L := L)).mul (hangArg_im (L := L)) (by rw [hyy, abs_zero]; positivity)
  rw [hyy] at vyy
  have n4 := rq_near (q := -(259 / 512) * -(259 / 512)) (by norm_num [abs_of_pos])
  rw [abs_le] at n4
  have n5 := rq_near (q := rq φ₀ (-(259 / 512) * -(259 / 512)) + 0) (by rw [abs_le]; constructor <;> linarith)
  have vz := vxx.add vyy (near_lt (by rw [abs_le]; constructor <;> linarith))
  rw [abs_le] at n5
  have hz0 : 0 ≤ rq φ₀ (rq φ₀ (-(259 / 512) * -(259 / 512)) + 0) := by linarith
  have hz1 : rq φ₀ (rq φ₀ (-(259 / 512) * -(259 / 512)) + 0) ≤ 256 / 1000 := by linarith
  generalize rq φ₀ (rq φ₀ (-(259 / 512) * -(259 / 512)) + 0) = N at *
  -- the constant
  have v4 : Val φ₀ (ofF (FOps.lit 4 : FP φ₀ L)) 4 := by
    have e4 : rq φ₀ 4 = 4 := rq_repr (by rw [abs_of_pos (by norm_num)]; simpa using b64_int (k := 4) (by norm_num) (by norm_num))
    have := val_rndQ (φ := φ₀) (q := 4) (near_lt (by norm_num [abs_of_pos]))
    rw [e4] at this
    exact this
  have vp : Val φ₀ (ofF (FOps.lit 3.1415926535897932 : FP φ₀ L)) (rq φ₀ 3.1415926535897932) := val_rndQ (near_lt (by norm_num [abs_of_pos]))
  have np := rq_near (q := 3.1415926535897932) (by norm_num [abs_of_pos])
  rw [abs_le] at np
  have hp0 : 314 / 100 ≤ rq φ₀ 3.1415926535897932 := by norm_num at np ⊢; linarith
  have hp1 : rq φ₀ 3.1415926535897932 ≤ 31416 / 10000 := by norm_num at np ⊢; linarith
  generalize rq φ₀ 3.1415926535897932 = P at *
  have d1 : |4 * P| ≤ 100 := by rw [abs_le]; constructor <;> linarith
  have m1 := rq_near d1
  have w1 := v4.mul vp (near_lt d1)
  rw [abs_le] at m1
  have b1 : rq φ₀ (4 * P) ≤ 12567 / 1000 := by linarith
  have b1' : 0 ≤ rq φ₀ (4 * P) := by linarith
  generalize rq φ₀ (4 * P) = Q1 at *
  obtain ⟨c1, c2⟩ := mul_bd b1' b1 (by linarith) hp1
  have d2 : |Q1 * P| ≤ 100 := by rw [abs_of_nonneg c1]; norm_num at c2 ⊢; linarith
  have m2 := rq_near d2
  have w2 := w1.mul vp (near_lt d2)
  rw [abs_le] at m2
  have b2 : rq φ₀ (Q1 * P) ≤ 3949 / 100 := by norm_num at c2 m2 ⊢; linarith
  have b2' : 0 ≤ rq φ₀ (Q1 * P) := rq_nonneg c1
  generalize rq φ₀ (Q1 * P) = Q2 at *
  obtain ⟨c3, c4⟩ := mul_bd b2' b2 hz0 hz1
  have d3 : |Q2 * N| ≤ 100 := by rw [abs_of_nonneg c3]; norm_num at c4 ⊢; linarith
  have m3 := rq_near d3
  have w3 := w2.mul vz (near_lt d3)
  rw [abs_le] at m3
  have b3 : rq φ₀ (Q2 * N) < 1032 / 100 := by norm_num at c4 m3 ⊢; linarith
  refine (w3.lt vn).trans ?_
  rw [decide_eq_true_iff]
  linarith

/-- **C22 (limit), on the API.** `Li(-2, -0.505859375 + 4.9e-324 i)` in binary64: with a C library whose `pow`, `log`, `hypot` and `atan2` are accurate to a per mille or two, the
call executes `2^63 - 3` loop iterations (centuries of run time) before it returns. -/
theorem C22_Li_hang (hL : HangLib L) (fuel : ℕ) : (LiC fuel (-2) (hangArg L)).cost = 2 ^ 63 - 3 := by
  have hb : ∀ c : ℚ, |c| ≤ 100 → Cx.beqr (hangArg L) (FOps.lit c : FP φ₀ L) = false ∧ Cx.beqr (hangArg L) ∸(FOps.lit c : FP φ₀ L) = false := by
    intro c hc
    have v0 : Val φ₀ (ofF (FOps.lit 0 : FP φ₀ L)) 0 := by
      have := val_rndQ (φ := φ₀) (q := 0) (by rw [rq_zero, abs_zero]; positivity)
      rw [rq_zero] at this
      exact this
    have h0 : ((hangArg L).im ==. (FOps.lit 0 : FP φ₀ L)) = false := by
      refine (hangArg_im.eq v0).trans ?_
      rw [decide_eq_false_iff_not]
      exact eta_small.1.ne'
    unfold Cx.beqr
    rw [h0]; simp
  have hn : (FOps.isnan (hangArg L).re || FOps.isnan (hangArg L).im) = false := rfl
  have hi : (FOps.isinf (hangArg L).re || FOps.isinf (hangArg L).im) = false := rfl
  rw [← C22_series_hang hL.pow]
  rw [LiC.eq_def]
  dsimp only
  rw [hn, hi, (hb 0 (by norm_num)).1, (hb 1 (by norm_num)).1, (hb 1 (by norm_num)).2, hang_region hL]
  simp only [Bool.false_eq_true, if_false, if_true]
  rw [if_pos (by norm_num)]

/-- a library that meets the requirements -/
def hangLibEx : Lib :=
  { zeroLib with
    log := fun _ => .fin true (11 / 16)
    atan2 := fun _ _ => .fin false (201 / 64)
    pow := fun x _ => match x with
      | .fin _ a => rndQ binary64 (1 / a ^ 2)
      | _ => .nan }

example : HangLib hangLibEx where
  pow := by
    intro a _ h1 h2
    have hq : (1:ℚ) ≤ 1 / a ^ 2 := by rw [le_div_iff₀ (by positivity)]; nlinarith
    have hq4 : 1 / a ^ 2 ≤ 4 := by rw [div_le_iff₀ (by positivity)]; nlinarith
    refine ⟨rq φ₀ (1 / a ^ 2), val_rndQ (near_lt (by rw [abs_of_pos (by linarith)]; linarith)), ?_⟩
    have h3 := rq_near (q := 1 / a ^ 2) (by rw [abs_of_pos (by linarith)]; linarith)
    have e : rq φ₀ (1 / a ^ 2) * a ^ 2 - 1 = (rq φ₀ (1 / a ^ 2) - 1 / a ^ 2) * a ^ 2 := by
      have : a ^ 2 ≠ 0 := by positivity
      field_simp
    rw [e, abs_mul, abs_of_pos (show 0 < a ^ 2 by positivity)]
    have h4 : a ^ 2 ≤ 1 := by nlinarith
    have := mul_le_mul h3 h4 (by positivity) (by norm_num)
    norm_num at this ⊢; linarith
  log := ⟨-(11 / 16), ⟨true, 11 / 16, rfl, by simp [sval], ⟨11, -4, by decide, by simp only [binary64]; norm_num, by norm_num⟩, by
    have := b64_lt (q := 11 / 16) (by norm_num [abs_of_pos]); rwa [abs_of_pos (by norm_num)] at this⟩, by norm_num, by norm_num⟩
  arg := ⟨201 / 64, ⟨false, 201 / 64, rfl, by simp [sval], ⟨201, -6, by decide, by simp only [binary64]; norm_num, by norm_num⟩, by
    have := b64_lt (q := 201 / 64) (by norm_num [abs_of_pos]); rwa [abs_of_pos (by norm_num)] at this⟩, by norm_num, by norm_num⟩

end
end Polylog
