import Verif.Props.FPSeriesSmall
import Verif.Props.LiNegRec
import Verif.Props.LiUB

/-!
# C22: the recursion of `Li(n,z)`, `n < -1`, in binary64 has depth at most 11

Requirements on the C library are stated in `CLib`; they hold with a wide margin for every libm.
-/

namespace Polylog
open MC

section
variable {L : Lib}

local notation "φ₀" => binary64

/-- accuracy required of the C library -/
structure CLib (L : Lib) : Prop where
  /-- `log` is finite, and within `1e-4` on `[1/4, 2]` -/
  log : ∀ q : ℚ, Val φ₀ (.fin false q) q → 0 < q → q ≤ 2 → ∃ l : ℚ, Val φ₀ (L.log (.fin false q)) l ∧ |l| ≤ 1000 ∧ (1 / 4 ≤ q → |(l : ℝ) - Real.log q| ≤ 1e-4)
  /-- `hypot` is positive, and its square is within `1e-4` on the annulus at hand -/
  hypot : ∀ (x y : FV) (a b : ℚ), Val φ₀ x a → Val φ₀ y b → b ≠ 0 → a ^ 2 + b ^ 2 ≤ 3 → ∃ h : ℚ, L.hypot x y = .fin false h ∧ Val φ₀ (.fin false h) h ∧ 0 < h ∧ h ≤ 2 ∧
    (1 / 4 ≤ a ^ 2 + b ^ 2 → |h ^ 2 - (a ^ 2 + b ^ 2)| ≤ 1 / 10000)
  /-- `atan2` is at most pi, up to `7e-6` -/
  atan2 : ∀ (x y : FV) (a b : ℚ), Val φ₀ x a → Val φ₀ y b → ∃ t : ℚ, Val φ₀ (L.atan2 x y) t ∧ |t| ≤ 31416 / 10000
  /-- `csqrt` is finite and its modulus is right to one per mille -/
  csqrt : ∀ (x y : FV) (a b : ℚ), Val φ₀ x a → Val φ₀ y b → ∃ u v : ℚ, Val φ₀ (L.csqrt (x, y)).1 u ∧ Val φ₀ (L.csqrt (x, y)).2 v ∧
    (u ^ 2 + v ^ 2) ^ 2 ≤ 1001 / 1000 * (a ^ 2 + b ^ 2)

/-- a finite entry is a number of the format -/
def Datum (x : FV) : Prop := x.isfin = true → ∃ a, Val φ₀ x a

theorem Li_neg_cases (fuel : ℕ) (n : Int) (hn1 : i64min + 8 < n) (hn2 : n < -1) (z : Cx (FP φ₀ L)) :
    Defined (Li fuel n z) ∨ (Regular z ∧ negSeries z = false ∧ negUnity z = false) := by
  simp only [i64min] at hn1
  by_cases c1 : (FOps.isnan z.re || FOps.isnan z.im) = true
  · rw [Li.eq_def]; dsimp only; rw [if_pos c1]; exact Or.inl (defined_pure _)
  by_cases c2 : (FOps.isinf z.re || FOps.isinf z.im) = true
  · rw [Li.eq_def]; dsimp only; rw [if_neg c1, if_pos c2]; exact Or.inl (defined_pure _)
  by_cases c3 : z.beqr (FOps.lit 0) = true
  · rw [Li.eq_def]; dsimp only; rw [if_neg c1, if_neg c2, if_pos c3]; exact Or.inl (defined_pure _)
  by_cases c4 : z.beqr (FOps.lit 1) = true
  · rw [Li.eq_def]; dsimp only; rw [if_neg c1, if_neg c2, if_neg c3, if_pos c4, if_pos (by omega)]; exact Or.inl (defined_pure _)
  by_cases c5 : z.beqr ∸(FOps.lit 1) = true
  · rw [Li.eq_def]; dsimp only; rw [if_neg c1, if_neg c2, if_neg c3, if_neg c4, if_pos c5]
    exact Or.inl (defined_bind (defined_negEta _ (by simp only [i64min]; omega) (by simp only [i64max]; omega)) fun _ _ => defined_pure _)
  have hr : Regular z := ⟨by simpa using c1, by simpa using c2, by simpa using c3, by simpa using c4, by simpa using c5⟩
  cases hs : negSeries z
  · cases hu : negUnity z
    · exact Or.inr ⟨hr, rfl, rfl⟩
    · rw [Li_neg_unity fuel n hn2 z hr hs hu]
      exact Or.inl (defined_liUnityNeg n (by simp only [i64min]; omega) (by omega) z)
  · rw [Li_neg_series fuel n hn2 z hr hs]
    exact Or.inl ⟨_, rfl⟩


/-! ### numbers -/

theorem log_lo {q : ℝ} (h : 2613 / 10000 ≤ q) : -13431 / 10000 ≤ Real.log q := by
  have h2 := Real.log_two_lt_d9
  have h0 : (0:ℝ) < q := by linarith
  have e : Real.log q = -(2 * Real.log 2 + Real.log (1 / (4 * q))) := by
    rw [Real.log_div one_ne_zero (by positivity), Real.log_one, Real.log_mul (by norm_num) h0.ne', show (4:ℝ) = 2 ^ 2 by norm_num, Real.log_pow]; push_cast; ring
  have h3 : Real.log (1 / (4 * q)) ≤ 1 / (4 * q) - 1 := Real.log_le_sub_one_of_pos (by positivity)
  have h4 : 1 / (4 * q) ≤ 9568 / 10000 := by rw [div_le_div_iff₀ (by positivity) (by norm_num)]; linarith
  rw [e]; linarith

theorem log_hi {q : ℝ} (h0 : 0 < q) (h : q ≤ 3001 / 1000) : Real.log q ≤ 1137 / 1000 := by
  have h2 := Real.log_two_lt_d9
  have e : Real.log q = 2 * Real.log 2 + Real.log (q / 4) := by
    rw [Real.log_div h0.ne' (by norm_num), show (4:ℝ) = 2 ^ 2 by norm_num, Real.log_pow]; push_cast; ring
  have h3 : Real.log (q / 4) ≤ q / 4 - 1 := Real.log_le_sub_one_of_pos (by positivity)
  rw [e]; linarith

/-- the logarithm of a modulus -/
theorem log_mod {h l N : ℚ} (h0 : 0 < h) (hN : |h ^ 2 - N| ≤ 1 / 10000) (hN1 : 2614 / 10000 ≤ N) (hN2 : N ≤ 3) (hl : |(l:ℝ) - Real.log h| ≤ 1e-4) : |l| ≤ 672 / 1000 := by
  have a := abs_le.1 hN
  have b1 : (2613 / 10000 : ℝ) ≤ (h:ℝ) ^ 2 := by
    have : (2613 / 10000 : ℚ) ≤ h ^ 2 := by linarith
    have := (Rat.cast_le (K := ℝ)).2 this
    push_cast at this; exact this
  have b2 : (h:ℝ) ^ 2 ≤ 3001 / 1000 := by
    have : h ^ 2 ≤ (3001 / 1000 : ℚ) := by linarith
    have := (Rat.cast_le (K := ℝ)).2 this
    push_cast at this; exact this
  have hh : (0:ℝ) < h := by exact_mod_cast h0
  have c1 := log_lo b1
  have c2 := log_hi (by positivity) b2
  rw [Real.log_pow] at c1 c2
  push_cast at c1 c2
  have d := abs_le.1 hl
  norm_num at d
  have e1 : (-(672 / 1000) : ℝ) ≤ l := by linarith
  have e2 : (l : ℝ) ≤ 672 / 1000 := by linarith
  rw [abs_le]
  constructor
  · refine (Rat.cast_le (K := ℝ)).1 ?_
    push_cast; exact e1
  · refine (Rat.cast_le (K := ℝ)).1 ?_
    push_cast; exact e2

theorem pi_val : Val φ₀ (ofF (FOps.lit 3.1415926535897932 : FP φ₀ L)) (rq φ₀ 3.1415926535897932) ∧ 31415 / 10000 ≤ rq φ₀ 3.1415926535897932 ∧ rq φ₀ 3.1415926535897932 ≤ 31416 / 10000 := by
  have np := rq_near (q := 3.1415926535897932) (by norm_num [abs_of_pos])
  rw [abs_le] at np
  refine ⟨val_rndQ (near_lt (by norm_num [abs_of_pos])), ?_, ?_⟩
  · norm_num at np ⊢; linarith
  · norm_num at np ⊢; linarith

/-- `clog` of a number of modulus at most `sqrt 3` -/
theorem clog_val (hL : CLib L) {z : Cx (FP φ₀ L)} {a b : ℚ} (ha : Val φ₀ (ofF z.re) a) (hb : Val φ₀ (ofF z.im) b) (h0 : a ≠ 0 ∨ b ≠ 0) (h3 : a ^ 2 + b ^ 2 ≤ 3) :
    ∃ l t : ℚ, Val φ₀ (ofF (clog z).re) l ∧ Val φ₀ (ofF (clog z).im) t ∧ |l| ≤ 1000 ∧ |t| ≤ 31416 / 10000 ∧ (2614 / 10000 ≤ a ^ 2 + b ^ 2 → |l| ≤ 672 / 1000) := by
  have v0 := val_zero (L := L)
  have hbe : (z.im ==. (FOps.lit 0 : FP φ₀ L)) = decide (b = 0) := hb.eq v0
  have hgt : (z.re >. (FOps.lit 0 : FP φ₀ L)) = decide (0 < a) := v0.lt ha
  obtain ⟨vp, p1, p2⟩ := pi_val (L := L)
  unfold clog
  by_cases hb0 : b = 0
  · subst hb0
    have ha0 : a ≠ 0 := by simpa using h0
    have ha2 : |a| ≤ 2 := by
      refine abs_le_of_sq_le_sq ?_ (by norm_num); nlinarith
    have hN : ∀ h : ℚ, h = a ∨ h = -a → |h ^ 2 - (a ^ 2 + 0 ^ 2)| ≤ 1 / 10000 := by
      rintro h (rfl | rfl) <;> norm_num
    by_cases hpos : 0 < a
    · rw [hbe, hgt]
      simp only [hpos, decide_true, Bool.and_true, if_true]
      have e := ha.pos hpos
      rw [abs_of_pos hpos] at ha2
      obtain ⟨l, vl, l1, l2⟩ := hL.log a (e ▸ ha) hpos ha2
      refine ⟨l, 0, ?_, v0, l1, by norm_num, fun hN' => ?_⟩
      · show Val φ₀ (L.log (ofF z.re)) l; rw [e]; exact vl
      · exact log_mod hpos (hN a (.inl rfl)) hN' h3 (l2 (by nlinarith))
    · have hneg : 0 < -a := by
        rcases lt_or_gt_of_ne ha0 with h | h
        · linarith
        · exact absurd h hpos
      rw [hbe, hgt]
      simp only [hpos, decide_true, decide_false, Bool.and_false, Bool.false_eq_true, if_false, if_true]
      have vn := ha.neg
      have e := vn.pos hneg
      rw [abs_of_neg (by linarith)] at ha2
      obtain ⟨l, vl, l1, l2⟩ := hL.log (-a) (e ▸ vn) hneg ha2
      refine ⟨l, _, ?_, vp, l1, ?_, fun hN' => ?_⟩
      · show Val φ₀ (L.log (ofF z.re).neg) l; rw [e]; exact vl
      · rw [abs_of_pos (by linarith)]; exact p2
      · exact log_mod hneg (hN (-a) (.inr rfl)) hN' h3 (l2 (by nlinarith))
  · rw [hbe]
    simp only [hb0, decide_false, Bool.false_and, Bool.false_eq_true, if_false]
    obtain ⟨h, eh, vh, h1, h2, h4⟩ := hL.hypot _ _ _ _ ha hb hb0 h3
    obtain ⟨t, vt, t1⟩ := hL.atan2 _ _ _ _ hb ha
    obtain ⟨l, vl, l1, l2⟩ := hL.log h vh h1 h2
    refine ⟨l, t, ?_, vt, l1, t1, fun hN' => ?_⟩
    · show Val φ₀ (L.log (L.hypot (ofF z.re) (ofF z.im))) l; rw [eh]; exact vl
    · have h5 := h4 (by linarith)
      refine log_mod h1 h5 hN' h3 (l2 ?_)
      have := (abs_le.1 h5).1
      nlinarith


/-- the two constants: `4*PI*PI` and `0.512*0.512*4*PI*PI` -/
theorem const_val : (∃ c : ℚ, Val φ₀ (ofF ((FOps.lit 4 : FP φ₀ L) *. (FOps.lit 3.1415926535897932 : FP φ₀ L) *. (FOps.lit 3.1415926535897932 : FP φ₀ L))) c ∧ 0 ≤ c ∧ c ≤ 39479 / 1000) ∧
    (∃ c : ℚ, Val φ₀ (ofF ((FOps.lit 0.512 : FP φ₀ L) *. (FOps.lit 0.512 : FP φ₀ L) *. (FOps.lit 4 : FP φ₀ L) *. (FOps.lit 3.1415926535897932 : FP φ₀ L) *. (FOps.lit 3.1415926535897932 : FP φ₀ L))) c ∧ 1034 / 100 ≤ c) := by
  have np := rq_near (q := 3.1415926535897932) (by norm_num [abs_of_pos])
  rw [abs_le] at np
  have hp0 : 31415926 / 10000000 ≤ rq φ₀ 3.1415926535897932 := by norm_num at np ⊢; linarith
  have hp1 : rq φ₀ 3.1415926535897932 ≤ 31415927 / 10000000 := by norm_num at np ⊢; linarith
  have vp : Val φ₀ (ofF (FOps.lit 3.1415926535897932 : FP φ₀ L)) (rq φ₀ 3.1415926535897932) := val_rndQ (near_lt (by norm_num [abs_of_pos]))
  generalize rq φ₀ 3.1415926535897932 = P at *
  have v4 : Val φ₀ (ofF (FOps.lit 4 : FP φ₀ L)) 4 := by
    have e4 : rq φ₀ 4 = 4 := rq_repr (by rw [abs_of_pos (by norm_num)]; simpa using b64_int (k := 4) (by norm_num) (by norm_num))
    have := val_rndQ (φ := φ₀) (q := 4) (near_lt (by norm_num [abs_of_pos]))
    rw [e4] at this
    exact this
  have mulv : ∀ {X Y : FP φ₀ L} {a b a0 a1 b0 b1 : ℚ}, Val φ₀ (ofF X) a → Val φ₀ (ofF Y) b → 0 ≤ a0 → a0 ≤ a → a ≤ a1 → 0 ≤ b0 → b0 ≤ b → b ≤ b1 → a1 * b1 ≤ 100 →
      ∃ c, Val φ₀ (ofF (X *. Y)) c ∧ a0 * b0 - 1 / 10 ^ 9 ≤ c ∧ c ≤ a1 * b1 + 1 / 10 ^ 9 ∧ 0 ≤ c := by
    intro X Y a b a0 a1 b0 b1 va vb h1 h2 h3 h4 h5 h6 h7
    have hab : 0 ≤ a * b := mul_nonneg (h1.trans h2) (h4.trans h5)
    have u1 : a * b ≤ a1 * b1 := mul_le_mul h3 h6 (h4.trans h5) (h1.trans (h2.trans h3))
    have u2 : a0 * b0 ≤ a * b := mul_le_mul h2 h5 h4 (h1.trans h2)
    have d : |a * b| ≤ 100 := by rw [abs_of_nonneg hab]; linarith
    have n := rq_near d
    rw [abs_le] at n
    exact ⟨_, va.mul vb (near_lt d), by linarith, by linarith, rq_nonneg hab⟩
  constructor
  · obtain ⟨c1, w1, l1, u1, -⟩ := mulv v4 vp (a0 := 4) (a1 := 4) (by norm_num) le_rfl le_rfl (by norm_num) hp0 hp1 (by norm_num)
    norm_num at l1 u1
    obtain ⟨c2, w2, l2, u2, z2⟩ := mulv w1 vp (by norm_num) l1 u1 (by norm_num) hp0 hp1 (by norm_num)
    norm_num at u2
    exact ⟨c2, w2, z2, by linarith⟩
  · have v5 : Val φ₀ (ofF (FOps.lit 0.512 : FP φ₀ L)) (rq φ₀ 0.512) := val_rndQ (near_lt (by norm_num [abs_of_pos]))
    have n5 := rq_near (q := 0.512) (by norm_num [abs_of_pos])
    rw [abs_le] at n5
    have q0 : 511999 / 1000000 ≤ rq φ₀ 0.512 := by norm_num at n5 ⊢; linarith
    have q1 : rq φ₀ 0.512 ≤ 512001 / 1000000 := by norm_num at n5 ⊢; linarith
    generalize rq φ₀ 0.512 = Q at *
    obtain ⟨c1, w1, l1, u1, -⟩ := mulv v5 v5 (by norm_num) q0 q1 (by norm_num) q0 q1 (by norm_num)
    norm_num at l1 u1
    obtain ⟨c2, w2, l2, u2, -⟩ := mulv w1 v4 (by norm_num) l1 u1 (by norm_num) le_rfl le_rfl (by norm_num)
    norm_num at l2 u2
    obtain ⟨c3, w3, l3, u3, -⟩ := mulv w2 vp (by norm_num) l2 u2 (by norm_num) hp0 hp1 (by norm_num)
    norm_num at l3 u3
    obtain ⟨c4, w4, l4, u4, -⟩ := mulv w3 vp (by norm_num) l3 u3 (by norm_num) hp0 hp1 (by norm_num)
    norm_num at l4 u4
    exact ⟨c4, w4, by linarith⟩

/-- no recursion for `|z|^2 ≤ 3` -/
theorem depth_base (hL : CLib L) {z : Cx (FP φ₀ L)} {a b : ℚ} (ha : Val φ₀ (ofF z.re) a) (hb : Val φ₀ (ofF z.im) b) (h0 : a ≠ 0 ∨ b ≠ 0) (h3 : a ^ 2 + b ^ 2 ≤ 3) :
    negSeries z = true ∨ negUnity z = true := by
  obtain ⟨l, t, vl, vt, l1, t1, l2⟩ := clog_val hL ha hb h0 h3
  obtain ⟨⟨c1, w1, z1, u1⟩, ⟨c2, w2, lo2⟩⟩ := const_val (L := L)
  -- the norm of the argument
  have a2 : |a * a| ≤ 100 := by rw [abs_of_nonneg (mul_self_nonneg a)]; nlinarith
  have b2 : |b * b| ≤ 100 := by rw [abs_of_nonneg (mul_self_nonneg b)]; nlinarith
  have na := rq_near a2
  have nb := rq_near b2
  have va2 := ha.mul ha (near_lt a2)
  have vb2 := hb.mul hb (near_lt b2)
  rw [abs_le] at na nb
  have e3 : a ^ 2 + b ^ 2 = a * a + b * b := by ring
  have pa := rq_nonneg (φ := φ₀) (mul_self_nonneg a)
  have pb := rq_nonneg (φ := φ₀) (mul_self_nonneg b)
  have s2 : |rq φ₀ (a * a) + rq φ₀ (b * b)| ≤ 100 := by rw [abs_of_nonneg (by linarith)]; norm_num at na nb; linarith
  have ns := rq_near s2
  have vz := va2.add vb2 (near_lt s2)
  have pz := rq_nonneg (φ := φ₀) (show 0 ≤ rq φ₀ (a * a) + rq φ₀ (b * b) by linarith)
  rw [abs_le] at ns
  have hz1 : rq φ₀ (rq φ₀ (a * a) + rq φ₀ (b * b)) ≤ a ^ 2 + b ^ 2 + 1 / 10 ^ 6 := by norm_num at na nb ns ⊢; linarith
  have hz2 : a ^ 2 + b ^ 2 - 1 / 10 ^ 6 ≤ rq φ₀ (rq φ₀ (a * a) + rq φ₀ (b * b)) := by norm_num at na nb ns ⊢; linarith
  generalize rq φ₀ (rq φ₀ (a * a) + rq φ₀ (b * b)) = nz at *
  -- the norm of the logarithm
  have ll : |l * l| ≤ 2 ^ 20 := by
    rw [abs_mul]
    have := mul_le_mul l1 l1 (abs_nonneg _) (by norm_num); norm_num at this ⊢; linarith
  have tt : |t * t| ≤ 100 := by
    rw [abs_mul]
    have := mul_le_mul t1 t1 (abs_nonneg _) (by norm_num); norm_num at this ⊢; linarith
  have ql := rq_bound ll
  have vll := vl.mul vl (b64_lt (ql.trans (by norm_num)))
  have vtt := vt.mul vt (near_lt tt)
  have qt := rq_bound (n := 7) (tt.trans (by norm_num))
  have qs : |rq φ₀ (rq φ₀ (l * l) + rq φ₀ (t * t))| ≤ 2 ^ 21 := rq_bound ((abs_add_le _ _).trans (by norm_num at ql qt ⊢; linarith))
  have vn := vll.add vtt (b64_lt (qs.trans (by norm_num)))
  set nl := rq φ₀ (rq φ₀ (l * l) + rq φ₀ (t * t)) with hnl
  have hu : negUnity z = decide (nl < c2) := vn.lt w2
  by_cases hU : nl < c2
  · right; rw [hu, decide_eq_true_iff]; exact hU
  left
  push Not at hU
  -- then `|z|^2 ≤ 0.2615`
  have hsm : nz ≤ 26145 / 100000 := by
    by_contra hc
    push Not at hc
    have l3 := l2 (by norm_num at hz1; linarith)
    have ll2 : |l * l| ≤ 100 := by
      rw [abs_mul]
      have := mul_le_mul l3 l3 (abs_nonneg _) (by norm_num); norm_num at this ⊢; linarith
    have m1 := rq_near ll2
    have m2 := rq_near tt
    rw [abs_le] at m1 m2
    have k1 : l * l ≤ 451584 / 1000000 := by
      have := mul_le_mul l3 l3 (abs_nonneg _) (by norm_num)
      rw [← abs_mul, abs_mul_self] at this; norm_num at this ⊢; linarith
    have k2 : t * t ≤ 98697 / 10000 := by
      have := mul_le_mul t1 t1 (abs_nonneg _) (by norm_num)
      rw [← abs_mul, abs_mul_self] at this; norm_num at this ⊢; linarith
    have p1 := rq_nonneg (φ := φ₀) (mul_self_nonneg l)
    have p2 := rq_nonneg (φ := φ₀) (mul_self_nonneg t)
    have m3 := rq_near (q := rq φ₀ (l * l) + rq φ₀ (t * t)) (by rw [abs_of_nonneg (by linarith)]; norm_num at m1 m2; linarith)
    rw [abs_le, ← hnl] at m3
    norm_num at m1 m2 m3 k1 k2 lo2
    linarith
  obtain ⟨g1, g2⟩ := mul_bd z1 u1 pz hsm
  have d : |c1 * nz| ≤ 100 := by rw [abs_of_nonneg g1]; norm_num at g2 ⊢; linarith
  have n6 := rq_near d
  have w6 := w1.mul vz (near_lt d)
  rw [abs_le] at n6
  have hs : negSeries z = decide (rq φ₀ (c1 * nz) < nl) := w6.lt vn
  rw [hs, decide_eq_true_iff]
  norm_num at n6 g2 lo2
  linarith

theorem depth_aux (hL : CLib L) (n : Int) (hn1 : i64min + 8 < n) (hn2 : n < -1) : ∀ (f : ℕ) (z : Cx (FP φ₀ L)) (a b : ℚ), Val φ₀ (ofF z.re) a → Val φ₀ (ofF z.im) b →
    a ^ 2 + b ^ 2 ≤ 1001 / 1000 * (29 / 10) ^ 2 ^ f → Defined (Li f n z) := by
  intro f
  induction f with
  | zero =>
    intro z a b ha hb h
    rcases Li_neg_cases 0 n hn1 hn2 z with h1 | ⟨hr, h1, h2⟩
    · exact h1
    · exfalso
      have h0 : a ≠ 0 ∨ b ≠ 0 := by
        by_contra hc
        push Not at hc
        have e1 : (z.re ==. (FOps.lit 0 : FP φ₀ L)) = true := (ha.eq val_zero).trans (by rw [hc.1]; simp)
        have e2 : (z.im ==. (FOps.lit 0 : FP φ₀ L)) = true := (hb.eq val_zero).trans (by rw [hc.2]; simp)
        have := hr.zero
        unfold Cx.beqr at this
        rw [e1, e2] at this
        simp at this
      rcases depth_base hL ha hb h0 (by norm_num at h; linarith) with h | h
      · rw [h1] at h; simp at h
      · rw [h2] at h; simp at h
  | succ f ih =>
    intro z a b ha hb h
    rcases Li_neg_cases (f + 1) n hn1 hn2 z with h1 | ⟨hr, h1, h2⟩
    · exact h1
    · rw [Li_neg_rec f n hn2 z hr h1 h2]
      simp only [i64min] at hn1
      rw [bind_def (i64sub_ok (by simp only [i64min, i64max]; omega))]
      obtain ⟨u, v, vu, vv, huv⟩ := hL.csqrt _ _ _ _ ha hb
      have hN : u ^ 2 + v ^ 2 ≤ 1001 / 1000 * (29 / 10) ^ 2 ^ f := by
        refine le_of_sq_le_sq ?_ (by positivity)
        refine huv.trans ((mul_le_mul_of_nonneg_left h (by norm_num)).trans (le_of_eq ?_))
        rw [pow_succ 2 f, pow_mul]; ring
      refine defined_bind (ih (Cx.sqrt z) u v vu vv hN) fun _ _ => ?_
      refine defined_bind (ih (∸(Cx.sqrt z)) (-u) (-v) vu.neg vv.neg (by rw [neg_sq, neg_sq]; exact hN)) fun _ _ => defined_pure _

/-- **C22 (recursion depth in binary64).** For every order `n < -1` not within 8 of `INT64_MIN` and *every* complex binary64 argument (NaN, infinities and the whole finite range included) the
recursion `Li(n,z) = 2^(n-1) (Li(n,√z) + Li(n,-√z))` has depth at most 11: the call returns a value, without undefined behaviour, ... -/
theorem C22_depth_IEEE (hL : CLib L) (n : Int) (hn1 : i64min + 8 < n) (hn2 : n < -1) (z : Cx (FP φ₀ L)) (h1 : Datum (ofF z.re)) (h2 : Datum (ofF z.im)) :
    Defined (Li 11 n z) := by
  rcases Li_neg_cases 11 n hn1 hn2 z with h | ⟨hr, -, -⟩
  · exact h
  have fin : ∀ x : FV, x.isnan = false → x.isinf = false → x.isfin = true := by
    intro x; cases x <;> simp [FV.isnan, FV.isinf, FV.isfin]
  have e1 := hr.nan
  have e2 := hr.inf
  rw [Bool.or_eq_false_iff] at e1 e2
  obtain ⟨a, ha⟩ := h1 (fin _ e1.1 e2.1)
  obtain ⟨b, hb⟩ := h2 (fin _ e1.2 e2.2)
  refine depth_aux hL n hn1 hn2 11 z a b ha hb ?_
  have b1 : ∀ q : ℚ, |q| < 2 ^ (binary64).emax → q ^ 2 ≤ 2 ^ (2048 : ℕ) := by
    intro q hq
    have : (2:ℚ) ^ (binary64).emax = 2 ^ (1024 : ℕ) := by rw [← zpow_natCast]; rfl
    rw [this] at hq
    have := pow_le_pow_left₀ (abs_nonneg q) hq.le 2
    rw [sq_abs, ← pow_mul] at this
    exact this
  have s := add_le_add (b1 a ha.lt_max) (b1 b hb.lt_max)
  refine s.trans ?_
  have k : (2:ℚ) ^ (2048 : ℕ) + 2 ^ (2048 : ℕ) = 2 ^ (2049 : ℕ) := by rw [pow_succ 2 2048]; ring
  rw [k]
  have e : (29 / 10 : ℚ) ^ 2 ^ 11 = ((29 / 10) ^ 2) ^ (1024 : ℕ) := by rw [← pow_mul, show (2:ℕ) ^ 11 = 2 * 1024 by norm_num]
  rw [e]
  have k2 : ((2:ℚ) ^ 3) ^ (1024 : ℕ) ≤ ((29 / 10) ^ 2) ^ (1024 : ℕ) := pow_le_pow_left₀ (by norm_num) (by norm_num) 1024
  rw [← pow_mul] at k2
  have k3 : (2:ℚ) ^ (2049 : ℕ) ≤ 2 ^ (3 * 1024 : ℕ) := pow_le_pow_right₀ (by norm_num) (by norm_num)
  generalize ((29 / 10 : ℚ) ^ 2) ^ (1024 : ℕ) = G at *
  have hG : 0 ≤ G := le_trans (by positivity) k2
  clear s k e b1
  refine k3.trans (k2.trans ?_)
  clear k2 k3
  linarith

/-- ... after at most `2^11 (2^63 - 3)` loop iterations. -/
theorem C22_Li_neg_total (hL : CLib L) (n : Int) (hn1 : i64min + 8 < n) (hn2 : n < -1) (z : Cx (FP φ₀ L)) (h1 : Datum (ofF z.re)) (h2 : Datum (ofF z.im)) :
    Defined ((LiC 11 n z).val) ∧ (LiC 11 n z).cost ≤ 2 ^ 11 * (2 ^ 63 - 3) :=
  ⟨by rw [LiC_erase]; exact C22_depth_IEEE hL n hn1 hn2 z h1 h2, C22_Li_neg n hn1 hn2 11 z⟩


/-! ### the requirements on the library are satisfiable -/

theorem val_fin {q : ℚ} (hq : 0 < rq φ₀ q) (h : |rq φ₀ q| < 2 ^ (binary64).emax) : Val φ₀ (.fin false (rq φ₀ q)) (rq φ₀ q) :=
  (val_rndQ h).pos hq ▸ val_rndQ h

def LogSpec (x v : FV) : Prop := ∀ q : ℚ, x = .fin false q → 0 < q → q ≤ 2 →
  ∃ l : ℚ, Val φ₀ v l ∧ |l| ≤ 1000 ∧ (1 / 4 ≤ q → |(l : ℝ) - Real.log q| ≤ 1e-4)

theorem logSpec_ex (x : FV) : ∃ v, LogSpec x v := by
  by_cases hx : ∃ q : ℚ, x = .fin false q ∧ 1 / 4 ≤ q ∧ q ≤ 2
  · obtain ⟨q, rfl, h1, h2⟩ := hx
    obtain ⟨r, r1, r2⟩ := exists_rat_btwn (show Real.log (q:ℝ) - 5e-5 < Real.log q by norm_num)
    have hq1 : (1 / 4 : ℝ) ≤ q := by have := (Rat.cast_le (K := ℝ)).2 h1; push_cast at this; exact this
    have hq2 : (q:ℝ) ≤ 2 := by exact_mod_cast h2
    have b2 : Real.log q ≤ 1 := (Real.log_le_sub_one_of_pos (by linarith)).trans (by linarith)
    have b1 : -3 ≤ Real.log (q:ℝ) := by
      have := Real.one_sub_inv_le_log_of_pos (show (0:ℝ) < q by linarith)
      have h4 : (q:ℝ)⁻¹ ≤ 4 := by rw [inv_le_comm₀ (by linarith) (by norm_num)]; linarith
      linarith
    have c1 : (-4 : ℚ) ≤ r := by
      have : (-4 : ℝ) ≤ r := by norm_num at r1; linarith
      exact_mod_cast this
    have c2 : r ≤ (4:ℚ) := by
      have : (r : ℝ) ≤ 4 := by linarith
      exact_mod_cast this
    have d : |r| ≤ 100 := by rw [abs_le]; constructor <;> linarith
    have n := rq_near d
    refine ⟨rndQ φ₀ r, fun q' e hp hp2 => ?_⟩
    obtain ⟨-, rfl⟩ := FV.fin.inj e
    refine ⟨rq φ₀ r, val_rndQ (near_lt d), ?_, fun _ => ?_⟩
    · rw [abs_le] at n ⊢; norm_num at n; constructor <;> linarith
    · have n' : |((rq φ₀ r : ℚ) : ℝ) - r| ≤ 1 / 10 ^ 9 := by
        have := (Rat.cast_le (K := ℝ)).2 n; push_cast at this; exact this
      rw [abs_le] at n' ⊢
      norm_num at n' r1 ⊢
      constructor <;> linarith
  · push Not at hx
    refine ⟨.fin false 0, fun q e hp hp2 => ⟨0, ⟨false, 0, rfl, by simp [sval], repr_zero, by positivity⟩, by norm_num, fun h => ?_⟩⟩
    exact absurd hp2 (not_le.2 (hx q e h))

def HypSpec (x y v : FV) : Prop := ∀ a b : ℚ, Val φ₀ x a → Val φ₀ y b → b ≠ 0 → a ^ 2 + b ^ 2 ≤ 3 → ∃ h : ℚ, v = .fin false h ∧ Val φ₀ (.fin false h) h ∧ 0 < h ∧ h ≤ 2 ∧
    (1 / 4 ≤ a ^ 2 + b ^ 2 → |h ^ 2 - (a ^ 2 + b ^ 2)| ≤ 1 / 10000)

theorem hypSpec_ex (x y : FV) : ∃ v, HypSpec x y v := by
  by_cases hx : ∃ a b : ℚ, Val φ₀ x a ∧ Val φ₀ y b ∧ b ≠ 0 ∧ a ^ 2 + b ^ 2 ≤ 3
  · obtain ⟨a, b, va, vb, hb, h3⟩ := hx
    set N : ℚ := a ^ 2 + b ^ 2 with hN
    have hb2 : 0 < b ^ 2 := by positivity
    have hN0 : 0 < N := by rw [hN]; nlinarith [sq_nonneg a]
    have hNr : (0:ℝ) < N := by exact_mod_cast hN0
    have hs : 0 < Real.sqrt N := Real.sqrt_pos.2 hNr
    obtain ⟨r, r1, r2⟩ := exists_rat_btwn (show Real.sqrt (N:ℝ) < Real.sqrt N * (1 + 1e-6) by nlinarith)
    have hr0 : (0:ℚ) < r := by
      have : (0:ℝ) < r := hs.trans r1
      exact_mod_cast this
    have sq := Real.sq_sqrt hNr.le
    have lo : N ≤ r ^ 2 := by
      have : (N:ℝ) ≤ (r:ℝ) ^ 2 := by rw [← sq]; exact pow_le_pow_left₀ hs.le r1.le 2
      exact_mod_cast this
    have hi : r ^ 2 ≤ N * (1000003 / 1000000) := by
      have h1 : (r:ℝ) ^ 2 ≤ N * (1000003 / 1000000) := by
        have := pow_le_pow_left₀ (hs.trans r1).le r2.le 2
        rw [mul_pow, sq] at this
        refine this.trans (mul_le_mul_of_nonneg_left (by norm_num) hNr.le)
      refine (Rat.cast_le (K := ℝ)).1 ?_
      push_cast; exact h1
    have hr2 : r ≤ 2 := by
      refine le_of_sq_le_sq ?_ (by norm_num); linarith
    have hbr : |b| ≤ r := by
      refine abs_le_of_sq_le_sq ?_ hr0.le; nlinarith [sq_nonneg a]
    have rr : |b| ≤ rq φ₀ r := by
      have := le_abs_rq (q := r) vb.repr (by rw [abs_of_pos hr0]; exact hbr)
      rwa [abs_of_nonneg (rq_nonneg hr0.le)] at this
    have hpos : 0 < rq φ₀ r := lt_of_lt_of_le (abs_pos.2 hb) rr
    have d : |r| ≤ 100 := by rw [abs_of_pos hr0]; linarith
    have n := rq_near d
    rw [abs_le] at n
    norm_num at n
    refine ⟨.fin false (rq φ₀ r), fun a' b' va' vb' _ _ => ⟨_, rfl, val_fin hpos (near_lt d), hpos, ?_, fun h4 => ?_⟩⟩
    · have r2' : Repr φ₀ 2 := by simpa using b64_int (k := 2) (by norm_num) (by norm_num)
      exact (le_abs_self _).trans (abs_rq_le r2' (by rw [abs_of_pos hr0]; exact hr2))
    · have ea : a' = a := va'.toQ.symm.trans va.toQ
      have eb : b' = b := vb'.toQ.symm.trans vb.toQ
      rw [ea, eb, ← hN]
      rw [abs_le]
      constructor <;> nlinarith
  · exact ⟨.nan, fun a b va vb hb h3 => absurd ⟨a, b, va, vb, hb, h3⟩ hx⟩

open Classical in
/-- a library that meets the requirements -/
noncomputable def clibEx : Lib :=
  { zeroLib with
    log := fun x => (logSpec_ex x).choose
    hypot := fun x y => (hypSpec_ex x y).choose
    atan2 := fun _ _ => .fin false 3
    csqrt := fun _ => (.fin false 0, .fin false 0) }

theorem clibEx_ok : CLib clibEx where
  log := fun q _ h1 h2 => (logSpec_ex (.fin false q)).choose_spec q rfl h1 h2
  hypot := fun x y a b va vb hb h3 => (hypSpec_ex x y).choose_spec a b va vb hb h3
  atan2 := fun x y a b _ _ => ⟨3, ⟨false, 3, rfl, by simp [sval], by simpa using b64_int (k := 3) (by norm_num) (by norm_num), by
    have := b64_lt (q := 3) (by norm_num [abs_of_pos]); rwa [abs_of_pos (by norm_num)] at this⟩, by norm_num [abs_of_pos]⟩
  csqrt := fun x y a b _ _ => ⟨0, 0, ⟨false, 0, rfl, by simp [sval], repr_zero, by positivity⟩, ⟨false, 0, rfl, by simp [sval], repr_zero, by positivity⟩, by
    have : 0 ≤ a ^ 2 + b ^ 2 := by positivity
    norm_num; linarith⟩

/-- a concrete case: `Li(-3, -0.505859375 + 4.9e-324 i)` -/
example : Defined (Li 11 (-3) (hangArg clibEx)) :=
  C22_depth_IEEE clibEx_ok (-3) (by decide) (by decide) _ (fun _ => ⟨_, hangArg_re⟩) (fun _ => ⟨_, hangArg_im⟩)

end
end Polylog
