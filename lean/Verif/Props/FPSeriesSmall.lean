import Verif.Props.FPSeriesReal

/-!
# C22: the loop of `Li_series` for complex arguments with `|x| + |y| ≤ 0.49` stops in binary64

Here the terms reach exactly zero: below 1/2 there is no multiple of the smallest positive number that multiplication by the argument reproduces.
-/

namespace Polylog
open MC

section
variable {L : Lib}

local notation "φ₀" => binary64

/-- what is required of `pow(a, n)` for an order `n ≥ 0`: between 0 and 1 -/
def PowLe1 (L : Lib) (n : Int) : Prop := ∀ a : ℚ, Repr φ₀ a → 1 / 2 ≤ a → a ≤ 1 →
  ∃ w : ℚ, Val φ₀ (L.pow (.fin false a) (rndQ φ₀ n)) w ∧ 0 ≤ w ∧ w ≤ 1

theorem PowUnit.le1 {n : Int} (h : PowUnit L n) : PowLe1 L n := fun a h1 h2 h3 => by
  obtain ⟨w, a1, a2, a3, -⟩ := h a h1 h2 h3
  exact ⟨w, a1, a2, a3⟩

theorem le1_val {n : Int} (hL : PowLe1 L n) (m : ℕ) (hm : ((m : ℤ) + 1) ≤ 2 ^ 63) :
    ∃ w : ℚ, Val φ₀ (ofF (powi ((FOps.ofInt ((m : Int) + 1) : FP φ₀ L) /. ((FOps.lit 1 : FP φ₀ L) +. (FOps.ofInt ((m : Int) + 1) : FP φ₀ L))) n)) w ∧
      0 ≤ w ∧ w ≤ 1 := by
  obtain ⟨a, e, hv, h1, h2, h3⟩ := ratio_val (L := L) ((m : ℤ) + 1) (by omega) hm
  obtain ⟨s, a', e1, -, hr, -⟩ := hv
  obtain ⟨rfl, rfl⟩ := FV.fin.inj e1
  obtain ⟨w, hw, h4, h5⟩ := hL a hr h1 h2
  refine ⟨w, ?_, h4, h5⟩
  show Val φ₀ (L.pow (ofF ((FOps.ofInt ((m : Int) + 1) : FP φ₀ L) /. ((FOps.lit 1 : FP φ₀ L) +. (FOps.ofInt ((m : Int) + 1) : FP φ₀ L)))) (rndQ φ₀ n)) w
  rw [e]; exact hw

/-- rounding at most doubles -/
theorem rq_two (q : ℚ) : |rq φ₀ q| ≤ 2 * |q| := by
  obtain ⟨e0, e1, e2⟩ := eta_small
  rcases lt_or_ge (|q|) (2 ^ ((binary64).emin - 1)) with h | h
  · rw [rq_tiny h, abs_zero]; positivity
  · have h7 : |rq φ₀ q| ≤ |q| + |rq φ₀ q - q| := by
      have := abs_add_le q (rq φ₀ q - q); rwa [add_sub_cancel] at this
    rcases rq_err (φ := φ₀) q with h3 | h3
    · rw [b64_u] at h3
      have := abs_nonneg q
      have : |q| * (1 / 2 ^ 53) ≤ |q| * 1 := mul_le_mul_of_nonneg_left (by norm_num) this
      linarith
    · linarith

theorem abs_rq_upper (q : ℚ) : |rq φ₀ q| ≤ |q| * (1 + 1 / 2 ^ 53) + 2 ^ (binary64).emin / 2 := by
  have h7 : |rq φ₀ q| ≤ |q| + |rq φ₀ q - q| := by
    have := abs_add_le q (rq φ₀ q - q); rwa [add_sub_cancel] at this
  have h3 := rq_err' (φ := φ₀) q
  rw [b64_u, eta_small.2.2] at h3
  linarith

theorem abs_rq_add_upper {a b : ℚ} (ha : Repr φ₀ |a|) (hb : Repr φ₀ |b|) : |rq φ₀ (a + b)| ≤ (|a| + |b|) * (1 + 1 / 2 ^ 53) := by
  have h3 := rq_add_err ha hb
  rw [b64_u] at h3
  have h7 : |rq φ₀ (a + b)| ≤ |a + b| + |rq φ₀ (a + b) - (a + b)| := by
    have := abs_add_le (a + b) (rq φ₀ (a + b) - (a + b)); rwa [add_sub_cancel] at this
  have := abs_add_le a b
  nlinarith

/-- sums of small multiples of the smallest number are exact -/
theorem rq_add_small {a b : ℚ} (ha : Repr φ₀ |a|) (hb : Repr φ₀ |b|) (h : |a| + |b| ≤ 1000 * 2 ^ (binary64).emin) : rq φ₀ (a + b) = a + b := by
  obtain ⟨m, hm⟩ := abs_eta ha
  obtain ⟨k, hk⟩ := abs_eta hb
  have e0 := eta_small.1
  have e : a + b = ((m + k : ℤ) : ℚ) * 2 ^ (binary64).emin := by rw [hm, hk]; push_cast; ring
  have h1 := (abs_add_le a b).trans h
  rw [e] at h1 ⊢
  refine rq_eta ?_
  rw [abs_mul, abs_of_pos e0] at h1
  have h2 : |((m + k : ℤ) : ℚ)| ≤ 1000 := le_of_mul_le_mul_right h1 e0
  have h3 : |m + k| ≤ 1000 := by exact_mod_cast h2
  exact h3.trans (by decide)

/-- one iteration -/
theorem small_step {n : Int} (hL : PowLe1 L n) {z : Cx (FP φ₀ L)} {x y : ℚ} (hx : Val φ₀ (ofF z.re) x) (hy : Val φ₀ (ofF z.im) y) (bxy : |x| + |y| ≤ 49 / 100)
    (m : ℕ) (hm : ((m : ℤ) + 1) ≤ 2 ^ 63) {A B : ℚ} (hA : Val φ₀ (ofF (serTr n z m).2.re) A) (hB : Val φ₀ (ofF (serTr n z m).2.im) B) (bM : |A| + |B| ≤ 1) :
    ∃ A' B' : ℚ, Val φ₀ (ofF (serTr n z (m + 1)).2.re) A' ∧ Val φ₀ (ofF (serTr n z (m + 1)).2.im) B' ∧
      |A'| + |B'| ≤ 4901 / 10000 * (|A| + |B|) + 20001 / 10000 * 2 ^ (binary64).emin ∧
      (|A| + |B| ≤ 50 * 2 ^ (binary64).emin → |A'| + |B'| ≤ 98 / 100 * (|A| + |B|)) := by
  obtain ⟨w, vw, w0, w1⟩ := le1_val hL m hm
  have ax := abs_nonneg x
  have ay := abs_nonneg y
  have aA := abs_nonneg A
  have aB := abs_nonneg B
  obtain ⟨v1, v2⟩ := step_val (p := (serTr n z m).2) hA hB hx hy vw (by linarith) (by linarith) (by linarith) (by linarith) (by rw [abs_of_nonneg w0]; linarith)
  have hX : |rq φ₀ (x * w)| ≤ |x| := abs_rq_le hx.repr (by rw [abs_mul, abs_of_nonneg w0]; nlinarith)
  have hY : |rq φ₀ (y * w)| ≤ |y| := abs_rq_le hy.repr (by rw [abs_mul, abs_of_nonneg w0]; nlinarith)
  generalize rq φ₀ (x * w) = X at *
  generalize rq φ₀ (y * w) = Y at *
  have p1 : |A * X| ≤ |A| * |x| := by rw [abs_mul]; exact mul_le_mul_of_nonneg_left hX aA
  have p2 : |B * Y| ≤ |B| * |y| := by rw [abs_mul]; exact mul_le_mul_of_nonneg_left hY aB
  have p3 : |A * Y| ≤ |A| * |y| := by rw [abs_mul]; exact mul_le_mul_of_nonneg_left hY aA
  have p4 : |B * X| ≤ |B| * |x| := by rw [abs_mul]; exact mul_le_mul_of_nonneg_left hX aB
  have tot : |A * X| + |B * Y| + |A * Y| + |B * X| ≤ 49 / 100 * (|A| + |B|) := by
    have : (|A| + |B|) * (|x| + |y|) ≤ (|A| + |B|) * (49 / 100) := mul_le_mul_of_nonneg_left bxy (by linarith)
    nlinarith
  have e0 := eta_small.1
  have rs : Repr φ₀ |-rq φ₀ (B * Y)| := by rw [abs_neg]; exact repr_rq _
  refine ⟨_, _, v1, v2, ?_, fun hsm => ?_⟩
  · have q1 := abs_rq_upper (A * X)
    have q2 := abs_rq_upper (B * Y)
    have q3 := abs_rq_upper (A * Y)
    have q4 := abs_rq_upper (B * X)
    have s1 := abs_rq_add_upper (repr_rq (φ := φ₀) (A * X)) rs
    have s2 := abs_rq_add_upper (repr_rq (φ := φ₀) (A * Y)) (repr_rq (φ := φ₀) (B * X))
    rw [← sub_eq_add_neg, abs_neg] at s1
    have s3 : |rq φ₀ (rq φ₀ (A * X) - rq φ₀ (B * Y))| + |rq φ₀ (rq φ₀ (A * Y) + rq φ₀ (B * X))| ≤
        (49 / 100 * (|A| + |B|) * (1 + 1 / 2 ^ 53) + 2 * 2 ^ (binary64).emin) * (1 + 1 / 2 ^ 53) := by
      refine (add_le_add s1 s2).trans ?_
      rw [← add_mul]
      refine mul_le_mul_of_nonneg_right ?_ (by norm_num)
      have := mul_le_mul_of_nonneg_right tot (show (0:ℚ) ≤ 1 + 1 / 2 ^ 53 by norm_num)
      linarith
    refine s3.trans ?_
    generalize (2:ℚ) ^ (binary64).emin = η at *
    generalize |A| + |B| = M at *
    have hM : 0 ≤ M := by
      have := abs_nonneg (A * X); have := abs_nonneg (B * Y); have := abs_nonneg (A * Y); have := abs_nonneg (B * X); linarith
    norm_num
    linarith
  · have q1 := rq_two (A * X)
    have q2 := rq_two (B * Y)
    have q3 := rq_two (A * Y)
    have q4 := rq_two (B * X)
    have n1 := abs_nonneg (A * X)
    have n2 := abs_nonneg (B * Y)
    have n3 := abs_nonneg (A * Y)
    have n4 := abs_nonneg (B * X)
    have s1 := rq_add_small (repr_rq (φ := φ₀) (A * X)) rs (by rw [abs_neg]; linarith)
    have s2 := rq_add_small (repr_rq (φ := φ₀) (A * Y)) (repr_rq (φ := φ₀) (B * X)) (by linarith)
    rw [← sub_eq_add_neg] at s1
    rw [s1, s2]
    have t1 := abs_sub (rq φ₀ (A * X)) (rq φ₀ (B * Y))
    have t2 := abs_add_le (rq φ₀ (A * Y)) (rq φ₀ (B * X))
    linarith

theorem small_eta {z : Cx (FP φ₀ L)} {n : Int} {m : ℕ} {A B : ℚ} (hA : Val φ₀ (ofF (serTr n z m).2.re) A) (hB : Val φ₀ (ofF (serTr n z m).2.im) B) :
    ∃ k : ℕ, |A| + |B| = k * 2 ^ (binary64).emin := by
  obtain ⟨i, hi⟩ := repr_eta hA.repr
  obtain ⟨j, hj⟩ := repr_eta hB.repr
  exact ⟨i + j, by rw [hi, hj]; push_cast; ring⟩

/-- **C22 (small complex arguments).** In binary64, for every order `n ≥ 0` (a `pow` that maps `[1/2,1]` into `[0,1]`) and every complex argument with `|x| + |y| ≤ 0.49` the loop of
`Li_series` stops within 1085 iterations, subnormal parts included. -/
theorem C22_series_small {n : Int} (hL : PowLe1 L n) {z : Cx (FP φ₀ L)} {x y : ℚ} (hx : Val φ₀ (ofF z.re) x) (hy : Val φ₀ (ofF z.im) y) (bxy : |x| + |y| ≤ 49 / 100) :
    (liSeriesC n z).cost ≤ 1085 := by
  obtain ⟨e0, e1, e2⟩ := eta_small
  have ax := abs_nonneg x
  have ay := abs_nonneg y
  -- the terms
  have inv : ∀ m : ℕ, m ≤ 2000 → ∃ A B : ℚ, Val φ₀ (ofF (serTr n z m).2.re) A ∧ Val φ₀ (ofF (serTr n z m).2.im) B ∧
      |A| + |B| ≤ 49 / 100 * (1 / 2) ^ m + 393 / 100 * 2 ^ (binary64).emin := by
    intro m
    induction m with
    | zero => intro _; exact ⟨x, y, hx, hy, by rw [pow_zero]; linarith⟩
    | succ m ih =>
      intro hm
      obtain ⟨A, B, vA, vB, b⟩ := ih (by omega)
      have hp : (1 / 2 : ℚ) ^ m ≤ 1 := pow_le_one₀ (by norm_num) (by norm_num)
      have hp0 : (0:ℚ) ≤ (1 / 2) ^ m := by positivity
      obtain ⟨A', B', v1, v2, h1, -⟩ := small_step hL hx hy bxy m (by omega) vA vB (by norm_num at e1 ⊢; linarith)
      refine ⟨A', B', v1, v2, h1.trans ?_⟩
      rw [pow_succ]
      linarith
  -- the sums
  have sums : ∀ m : ℕ, m ≤ 2000 → ∃ S T : ℚ, Val φ₀ (ofF (serTr n z m).1.re) S ∧ Val φ₀ (ofF (serTr n z m).1.im) T ∧ |S| ≤ m ∧ |T| ≤ m := by
    intro m
    induction m with
    | zero => intro _; exact ⟨0, 0, val_zero, val_zero, by norm_num, by norm_num⟩
    | succ m ih =>
      intro hm
      obtain ⟨A, B, vA, vB, b⟩ := inv m (by omega)
      obtain ⟨S, T, vS, vT, bS, bT⟩ := ih (by omega)
      have hp : (1 / 2 : ℚ) ^ m ≤ 1 := pow_le_one₀ (by norm_num) (by norm_num)
      have hM : |A| + |B| ≤ 1 := by norm_num at e1; linarith
      have hr : Repr φ₀ ((m : ℚ) + 1) := by
        have := b64_int (k := (m : ℤ) + 1) (by omega) (by omega)
        push_cast at this; exact this
      have hm' : (m:ℚ) + 1 ≤ 2 ^ 70 := by
        have : (m:ℚ) ≤ 2000 := by exact_mod_cast (show m ≤ 2000 by omega)
        norm_num; linarith
      have aA := abs_nonneg A
      have aB := abs_nonneg B
      have c1 := abs_rq_le (q := S + A) hr ((abs_add_le _ _).trans (by linarith))
      have c2 := abs_rq_le (q := T + B) hr ((abs_add_le _ _).trans (by linarith))
      exact ⟨_, _, vS.add vA (b64_lt (c1.trans hm')), vT.add vB (b64_lt (c2.trans hm')), by push_cast; exact c1, by push_cast; exact c2⟩
  -- the terms vanish
  have fin : ∀ j : ℕ, j ≤ 4 → ∃ A B : ℚ, Val φ₀ (ofF (serTr n z (1080 + j)).2.re) A ∧ Val φ₀ (ofF (serTr n z (1080 + j)).2.im) B ∧
      |A| + |B| ≤ ((4 - j : ℕ) : ℚ) * 2 ^ (binary64).emin := by
    intro j
    induction j with
    | zero =>
      intro _
      obtain ⟨A, B, vA, vB, b⟩ := inv 1080 (by norm_num)
      refine ⟨A, B, vA, vB, b.trans ?_⟩
      have h1 : (1 / 2 : ℚ) ^ 1080 ≤ 2 ^ (binary64).emin * (1 / 64) := by
        rw [one_div, inv_pow, ← zpow_natCast, ← zpow_neg, show (1 / 64 : ℚ) = 2 ^ (-6 : ℤ) by norm_num, ← zpow_add₀ (by norm_num)]
        exact zpow_le_zpow_right₀ (by norm_num) (by decide)
      generalize (1 / 2 : ℚ) ^ 1080 = g at *
      norm_num
      linarith
    | succ j ih =>
      intro hj
      obtain ⟨A, B, vA, vB, b⟩ := ih (by omega)
      have h4 : ((4 - j : ℕ) : ℚ) ≤ 4 := by exact_mod_cast Nat.sub_le 4 j
      have b1 : |A| + |B| ≤ 4 * 2 ^ (binary64).emin := b.trans (mul_le_mul_of_nonneg_right h4 e0.le)
      obtain ⟨A', B', v1, v2, -, h2⟩ := small_step hL hx hy bxy (1080 + j) (by omega) vA vB (by norm_num at e1 ⊢; linarith)
      refine ⟨A', B', v1, v2, ?_⟩
      have h3 := h2 (by linarith)
      obtain ⟨k, hk⟩ := small_eta (n := n) (z := z) (m := 1080 + (j + 1)) v1 v2
      rw [hk] at h3 ⊢
      refine mul_le_mul_of_nonneg_right ?_ e0.le
      have h5 : (k:ℚ) * 2 ^ (binary64).emin ≤ (98 / 100 * ((4 - j : ℕ) : ℚ)) * 2 ^ (binary64).emin := by linarith
      have h6 := le_of_mul_le_mul_right h5 e0
      have h7 : (k:ℚ) < ((4 - j : ℕ) : ℚ) := by
        have : (0:ℚ) < ((4 - j : ℕ) : ℚ) := by exact_mod_cast (show 0 < 4 - j by omega)
        linarith
      have h8 : k < 4 - j := by exact_mod_cast h7
      exact_mod_cast (show k ≤ 4 - (j + 1) by omega)
  obtain ⟨A, B, vA, vB, b⟩ := fin 4 le_rfl
  obtain ⟨S, T, vS, vT, -⟩ := sums 1084 (by norm_num)
  rw [Nat.sub_self, Nat.cast_zero, zero_mul] at b
  have hA : A = 0 := abs_nonpos_iff.1 (by linarith [abs_nonneg B])
  have hB : B = 0 := abs_nonpos_iff.1 (by linarith [abs_nonneg A])
  subst hA hB
  exact cost_of_stop n z 1084 (stop_val 1084 vS vT vA vB (by rw [add_zero, rq_repr vS.repr]) (by rw [add_zero, rq_repr vT.repr]))

end
end Polylog
