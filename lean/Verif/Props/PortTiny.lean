import Verif.Props.CCx
import Verif.Props.FLiCxMain
import Verif.Props.Li6Cx
import Verif.Props.FPSpecial
import Verif.Props.Li34FPApp
import Verif.Sem.FPAbsorb

/-! # C42: tiny real arguments in IEEE arithmetic: the C++ code is accurate, the C and Fortran ports return zero

C++ uses `log1p(-z)` where the C and Fortran code of Li5, Li6 uses `log(1 - z)`.  Over the reals these are the same
(C37, C38). In binary64 `1 - z` rounds to 1 for `|z| ≤ 2^-55`. -/

namespace Polylog
open Complex

variable {φ : Fmt} {L : Lib}

/-- what C Annex F requires of `hypot`, `atan2` and `log` at the arguments that matter here, plus the accuracy of `log` -/
structure TinyLib (φ : Fmt) (L : Lib) : Prop where
  log_ok : LogOK φ L
  /-- `hypot(x, ±0)` is equivalent to `fabs(x)` -/
  hypot0 : ∀ (a : ℚ) (s : Bool), L.hypot (.fin false a) (.fin s 0) = .fin false a
  /-- `atan2(±0, x)` returns `±0` for `x > 0` -/
  atan20 : ∀ (a : ℚ) (s : Bool), 0 < a → L.atan2 (.fin s 0) (.fin false a) = .fin s 0
  /-- `log(1)` returns `+0` -/
  log1 : L.log (.fin false 1) = .fin false 0

section tiny

theorem rq_twoT (t : ℚ) : |rq φ t| ≤ 2 * |t| := by
  rcases lt_or_ge |t| (2 ^ (φ.emin - 1)) with h | h
  · rw [rq_tiny h]; simp
  · have h1 : |rq φ t - t| ≤ |t| := by
      rcases rq_err (φ := φ) t with h2 | h2
      · refine h2.trans ?_
        have : (2:ℚ) ^ (-(φ.p : ℤ)) ≤ 1 := zpow_le_one_of_nonpos₀ (by norm_num) (by have := φ.hp; omega)
        nlinarith [abs_nonneg t]
      · exact h2.trans h
    have := abs_add_le (rq φ t - t) t
    rw [sub_add_cancel] at this
    linarith

theorem lt_max_of (hφ : FmtA φ) {t : ℚ} (h : |t| ≤ 2 ^ 100) : |rq φ t| < 2 ^ φ.emax := rq_lt_max hφ (by
  have := (Rat.cast_le (K := ℝ)).2 h
  push_cast at this
  exact this)

/-- a complex number with imaginary part zero and real part of size at most `a` -/
def CT (z : Cx (FP φ L)) (a : ℚ) : Prop := ∃ v, Val φ (ofF z.re) v ∧ |v| ≤ a ∧ Val φ (ofF z.im) 0

/-- a complex number with imaginary part zero and real part within `d` of `q` -/
def CX (z : Cx (FP φ L)) (q d : ℚ) : Prop := ∃ v, Val φ (ofF z.re) v ∧ |v - q| ≤ d ∧ Val φ (ofF z.im) 0

variable {z z' : Cx (FP φ L)} {a b q d : ℚ}

theorem CT.nonneg (h : CT z a) : 0 ≤ a := by obtain ⟨v, -, h, -⟩ := h; exact (abs_nonneg _).trans h
theorem CT.mono (h : CT z a) (hab : a ≤ b) : CT z b := by obtain ⟨v, h1, h2, h3⟩ := h; exact ⟨v, h1, h2.trans hab, h3⟩
theorem CX.mono (h : CX z q d) {e : ℚ} (hab : d ≤ e) : CX z q e := by obtain ⟨v, h1, h2, h3⟩ := h; exact ⟨v, h1, h2.trans hab, h3⟩

theorem val_mul0 {x y : FV} {v w : ℚ} (h1 : Val φ x v) (h2 : Val φ y w) (h : v * w = 0) : Val φ (FV.mul φ x y) 0 := by
  have := h1.mul h2 (by rw [h, rq_zero, abs_zero]; positivity)
  rwa [h, rq_zero] at this

theorem val_add0 {x y : FV} (h1 : Val φ x 0) (h2 : Val φ y 0) : Val φ (FV.add φ x y) 0 := by
  have := h1.add h2 (by rw [add_zero, rq_zero, abs_zero]; positivity)
  rwa [add_zero, rq_zero] at this

theorem CT.mul (hφ : FmtA φ) (h : CT z a) (h' : CT z' b) (hM : a * b ≤ 2 ^ 100) : CT (z *. z') (2 * (a * b)) := by
  obtain ⟨v, h1, h2, h3⟩ := h
  obtain ⟨w, k1, k2, k3⟩ := h'
  have hvw : |v * w| ≤ a * b := by rw [abs_mul]; exact mul_le_mul h2 k2 (abs_nonneg _) ((abs_nonneg _).trans h2)
  have m0 : |rq φ 0| < 2 ^ φ.emax := lt_max_of hφ (by simp)
  have m1 := lt_max_of hφ (hvw.trans hM)
  have e1 : rq φ (rq φ (v * w) - rq φ (0 * 0)) = rq φ (v * w) := by
    rw [mul_zero, rq_zero, sub_zero, rq_repr (repr_rq _)]
  have e2 : rq φ (rq φ (v * 0) + rq φ (0 * w)) = 0 := by simp [rq_zero]
  obtain ⟨v1, v2⟩ := Val.cmul L.cmulRec h1 h3 k1 k3 m1 (by simpa using m0) (by simpa using m0) (by simpa using m0) (by rw [e1]; exact m1) (by rw [e2]; simpa [rq_zero] using m0)
  rw [e1] at v1
  rw [e2] at v2
  exact ⟨rq φ (v * w), v1, (rq_twoT _).trans (by linarith), v2⟩

theorem CT.mulr (hφ : FmtA φ) (h : CT z a) {x : FP φ L} {c : ℚ} (hc : Val φ (ofF x) c) (h1 : |c| ≤ 1) (hM : a ≤ 2 ^ 100) : CT (z *. x) (2 * a) := by
  obtain ⟨v, h1', h2, h3⟩ := h
  have hb : |v * c| ≤ a := by rw [abs_mul]; nlinarith [abs_nonneg v, abs_nonneg c]
  refine ⟨rq φ (v * c), h1'.mul hc (lt_max_of hφ (hb.trans hM)), (rq_twoT _).trans (by linarith), val_mul0 h3 hc (zero_mul _)⟩

theorem CT.add (hφ : FmtA φ) (h : CT z a) (h' : CT z' b) (hM : a + b ≤ 2 ^ 100) : CT (z +. z') (2 * (a + b)) := by
  obtain ⟨v, h1, h2, h3⟩ := h
  obtain ⟨w, k1, k2, k3⟩ := h'
  have hb : |v + w| ≤ a + b := (abs_add_le _ _).trans (add_le_add h2 k2)
  exact ⟨rq φ (v + w), h1.add k1 (lt_max_of hφ (hb.trans hM)), (rq_twoT _).trans (by linarith), val_add0 h3 k3⟩

theorem CT.radd (hφ : FmtA φ) (h : CT z a) {x : FP φ L} {c : ℚ} (hc : Val φ (ofF x) c) (h1 : |c| ≤ 1) (hM : a + 1 ≤ 2 ^ 100) : CT (x +. z) (2 * (a + 1)) := by
  obtain ⟨v, h1', h2, h3⟩ := h
  have hb : |v + c| ≤ a + 1 := (abs_add_le _ _).trans (add_le_add h2 h1)
  exact ⟨rq φ (v + c), h1'.add hc (lt_max_of hφ (hb.trans hM)), (rq_twoT _).trans (by linarith), h3⟩

theorem CX.add (hφ : FmtA φ) (h : CX z q d) (h' : CT z' a) (hM : |q| + (d + a) ≤ 2 ^ 100) : CX (z +. z') q (d + a + (|q| + (d + a)) * 2 ^ (-(φ.p : ℤ))) := by
  obtain ⟨v, h1, h2, h3⟩ := h
  obtain ⟨w, k1, k2, k3⟩ := h'
  have hb : |v + w - q| ≤ d + a := by rw [show v + w - q = (v - q) + w by ring]; exact (abs_add_le _ _).trans (add_le_add h2 k2)
  have hs : |v + w| ≤ |q| + (d + a) := by
    have := abs_add_le (v + w - q) q; rw [sub_add_cancel] at this; linarith
  refine ⟨rq φ (v + w), h1.add k1 (lt_max_of hφ (hs.trans hM)), ?_, val_add0 h3 k3⟩
  have e := rq_add_err h1.repr k1.repr
  have e2 : |v + w| * 2 ^ (-(φ.p : ℤ)) ≤ (|q| + (d + a)) * 2 ^ (-(φ.p : ℤ)) := mul_le_mul_of_nonneg_right hs (by positivity)
  have := abs_sub_le (rq φ (v + w)) (v + w) q
  linarith

theorem val_lit1 (hφ : FmtA φ) {c : ℚ} (h : |c| ≤ 1) : ∃ v, Val φ (ofF (FOps.lit c : FP φ L)) v ∧ |v| ≤ 1 := by
  have r1 : Repr φ 1 := by have := (vl_one hφ).repr; rwa [abs_one] at this
  exact ⟨rq φ c, val_rndQ (lt_max_of hφ (h.trans (by norm_num))), abs_rq_le r1 h⟩

theorem CX.one_mul {x : FP φ L} (h : CX z q d) (hc : Val φ (ofF x) 1) : CX (x *. z) q d := by
  obtain ⟨v, h1, h2, h3⟩ := h
  refine ⟨v, ?_, h2, val_mul0 h3 hc (zero_mul _)⟩
  have e : rq φ (v * 1) = v := by rw [mul_one, rq_repr h1.repr]
  have := h1.mul hc (by rw [e]; exact h1.lt_max)
  rwa [e] at this

theorem CX.zadd (h : CX z q d) (h1 : Val φ (ofF z'.re) 0) (h2 : Val φ (ofF z'.im) 0) : CX (z' +. z) q d := by
  obtain ⟨v, k1, k2, k3⟩ := h
  refine ⟨v, ?_, k2, val_add0 h2 k3⟩
  have e : rq φ (0 + v) = v := by rw [zero_add, rq_repr k1.repr]
  have := h1.add k1 (by rw [e]; exact k1.lt_max)
  rwa [e] at this

/-- the small quantities: `q` at most a quarter unit roundoff -/
theorem tiny_pows (hφ : FmtA φ) {q : ℚ} (h0 : 0 ≤ q) (h1 : q ≤ 2 ^ (-(φ.p : ℤ) - 2)) :
    ∃ ε : ℚ, ε = 2 ^ (-(φ.p : ℤ)) ∧ 0 < ε ∧ ε ≤ 2 ^ (-24 : ℤ) ∧ q ≤ ε / 4 ∧ 2 * (q * q) ≤ q * ε / 2 ∧ 2 * (2 * (q * q) * (2 * (q * q))) ≤ q * ε * 2 ^ (-20 : ℤ) := by
  refine ⟨_, rfl, by positivity, zpow_le_zpow_right₀ (by norm_num) (by have := hφ.hp; omega), ?_⟩
  rw [zpow_sub₀ (by norm_num)] at h1
  set ε : ℚ := 2 ^ (-(φ.p : ℤ)) with hε
  have h24 : ε ≤ 2 ^ (-24 : ℤ) := zpow_le_zpow_right₀ (by norm_num) (by have := hφ.hp; omega)
  have he : 0 < ε := by positivity
  norm_num at h1 h24 ⊢
  have hq : q ≤ ε / 4 := h1
  have h2 : q * q ≤ q * (ε / 4) := mul_le_mul_of_nonneg_left hq h0
  refine ⟨hq, by linarith, ?_⟩
  have h3 : q * q * (q * q) ≤ q * (ε / 4) * (q * (ε / 4)) := mul_le_mul h2 h2 (by positivity) (by positivity)
  have h4 : q * (ε / 4) * (q * (ε / 4)) ≤ q * (ε / 4) * (1 / 4 * (1 / 16777216 / 4)) := by
    apply mul_le_mul_of_nonneg_left _ (by positivity)
    apply mul_le_mul _ (by linarith) (by positivity) (by norm_num)
    linarith
  nlinarith [mul_nonneg h0 he.le]

/-- the polynomial of Li5 at a tiny real argument -/
theorem fin19_tiny (hφ : FmtA φ) (bf : Vector ℚ 19) (hb0 : bf[0] = 1) (hb : ∀ i : Fin 19, |bf[i.1]| ≤ 1) {u rest : Cx (FP φ L)} {q : ℚ}
    (h0 : 0 ≤ q) (h1 : q ≤ 2 ^ (-(φ.p : ℤ) - 2)) (hu1 : Val φ (ofF u.re) q) (hu2 : Val φ (ofF u.im) 0)
    (hr1 : Val φ (ofF rest.re) 0) (hr2 : Val φ (ofF rest.im) 0) : CX (fin19 bf u rest) q (11 * 2 ^ (-(φ.p : ℤ)) * q) := by
  obtain ⟨ε, he, e0, e24, hq, p2, p4⟩ := tiny_pows hφ h0 h1
  rw [← he]
  norm_num at e24 p4
  have q1 : q ≤ 1 := by linarith
  have hu : CT u q := ⟨q, hu1, by rw [abs_of_nonneg h0], hu2⟩
  have hu' := hu.mono q1
  have big : ∀ t : ℚ, t ≤ 1000 → t ≤ 2 ^ 100 := fun t ht => ht.trans (by norm_num)
  have hqe : 0 ≤ q * ε := by positivity
  have hqe1 : q * ε ≤ 1 := by nlinarith
  have u2 := hu.mul hφ hu (big _ (by nlinarith))
  have u2a := u2.mono p2
  have u2b := u2a.mono (by linarith : q * ε / 2 ≤ 1)
  have u4 := (u2.mul hφ u2 (big _ (by nlinarith))).mono p4
  have u4b := u4.mono (by linarith : _ ≤ (1:ℚ))
  have u8 := (u4.mul hφ u4 (big _ (by nlinarith))).mono (by nlinarith : _ ≤ q * ε * (1 / 1048576))
  have u8b := u8.mono (by linarith : _ ≤ (1:ℚ))
  have u16 := (u8.mul hφ u8 (big _ (by nlinarith))).mono (by nlinarith : _ ≤ q * ε * (1 / 1048576))
  -- coefficient pairs
  have lit : ∀ i : Fin 19, ∃ v, Val φ (ofF (FOps.lit bf[i.1] : FP φ L)) v ∧ |v| ≤ 1 := fun i => val_lit1 hφ (hb i)
  have pair : ∀ i j : Fin 19, CT ((FOps.lit bf[i.1] : FP φ L) +. u *. (FOps.lit bf[j.1] : FP φ L)) 6 := by
    intro i j
    obtain ⟨v, v1, v2⟩ := lit i
    obtain ⟨w, w1, w2⟩ := lit j
    exact ((hu'.mulr hφ w1 w2 (big _ (by norm_num))).radd hφ v1 v2 (big _ (by norm_num))).mono (by norm_num)
  have quad : ∀ i j k l : Fin 19, CT ((FOps.lit bf[i.1] : FP φ L) +. u *. (FOps.lit bf[j.1] : FP φ L) +. u *. u *. ((FOps.lit bf[k.1] : FP φ L) +. u *. (FOps.lit bf[l.1] : FP φ L))) 36 := by
    intro i j k l
    exact ((pair i j).add hφ (u2b.mul hφ (pair k l) (big _ (by norm_num))) (big _ (by norm_num))).mono (by norm_num)
  -- the terms
  have T1 := u2a.mul hφ (pair 1 2) (big _ (by linarith))
  have T2 := u4.mul hφ (quad 3 4 5 6) (big _ (by linarith))
  have T3 := u8.mul hφ ((quad 7 8 9 10).add hφ (u4b.mul hφ (quad 11 12 13 14) (big _ (by norm_num))) (big _ (by norm_num))) (big _ (by linarith))
  have T4 := u16.mul hφ (quad 15 16 17 18) (big _ (by linarith))
  have one : Val φ (ofF (FOps.lit bf[0] : FP φ L)) 1 := by rw [hb0]; exact vl_one hφ
  have S0 : CX (u *. (FOps.lit bf[0] : FP φ L)) q 0 := by
    refine ⟨q, ?_, by simp, val_mul0 hu2 one (zero_mul _)⟩
    have e : rq φ (q * 1) = q := by rw [mul_one, rq_repr hu1.repr]
    have := hu1.mul one (by rw [e]; exact hu1.lt_max)
    rwa [e] at this
  have aq : |q| = q := abs_of_nonneg h0
  have S1 := ((S0.zadd hr1 hr2).add hφ T1 (big _ (by rw [aq]; linarith))).mono (e := 7.001 * (q * ε)) (by rw [aq, ← he]; nlinarith)
  have S2 := (S1.add hφ T2 (big _ (by rw [aq]; linarith))).mono (e := 8.1 * (q * ε)) (by rw [aq, ← he]; nlinarith)
  have S3 := (S2.add hφ T3 (big _ (by rw [aq]; linarith))).mono (e := 9.2 * (q * ε)) (by rw [aq, ← he]; nlinarith)
  have S4 := (S3.add hφ T4 (big _ (by rw [aq]; linarith))).mono (e := 11 * ε * q) (by rw [aq, ← he]; nlinarith)
  exact S4

/-- the polynomial of Li4 and Li6 at a tiny real argument -/
theorem fin18s_tiny (hφ : FmtA φ) (bf : Vector ℚ 18) (hb0 : bf[0] = 1) (hb : ∀ i : Fin 18, |bf[i.1]| ≤ 1) {u rest : Cx (FP φ L)} {q : ℚ}
    (h0 : 0 ≤ q) (h1 : q ≤ 2 ^ (-(φ.p : ℤ) - 2)) (hu1 : Val φ (ofF u.re) q) (hu2 : Val φ (ofF u.im) 0)
    (hr1 : Val φ (ofF rest.re) 0) (hr2 : Val φ (ofF rest.im) 0) {sgn : FP φ L} (hs : Val φ (ofF sgn) 1) : CX (fin18s bf u rest sgn) q (11 * 2 ^ (-(φ.p : ℤ)) * q) := by
  obtain ⟨ε, he, e0, e24, hq, p2, p4⟩ := tiny_pows hφ h0 h1
  rw [← he]
  norm_num at e24 p4
  have q1 : q ≤ 1 := by linarith
  have hu : CT u q := ⟨q, hu1, by rw [abs_of_nonneg h0], hu2⟩
  have hu' := hu.mono q1
  have big : ∀ t : ℚ, t ≤ 1000 → t ≤ 2 ^ 100 := fun t ht => ht.trans (by norm_num)
  have hqe : 0 ≤ q * ε := by positivity
  have hqe1 : q * ε ≤ 1 := by nlinarith
  have u2 := hu.mul hφ hu (big _ (by nlinarith))
  have u2a := u2.mono p2
  have u2b := u2a.mono (by linarith : q * ε / 2 ≤ 1)
  have u4 := (u2.mul hφ u2 (big _ (by nlinarith))).mono p4
  have u4b := u4.mono (by linarith : _ ≤ (1:ℚ))
  have u8 := (u4.mul hφ u4 (big _ (by nlinarith))).mono (by nlinarith : _ ≤ q * ε * (1 / 1048576))
  have u8b := u8.mono (by linarith : _ ≤ (1:ℚ))
  have u16 := (u8.mul hφ u8 (big _ (by nlinarith))).mono (by nlinarith : _ ≤ q * ε * (1 / 1048576))
  -- coefficient pairs
  have lit : ∀ i : Fin 18, ∃ v, Val φ (ofF (FOps.lit bf[i.1] : FP φ L)) v ∧ |v| ≤ 1 := fun i => val_lit1 hφ (hb i)
  have pair : ∀ i j : Fin 18, CT ((FOps.lit bf[i.1] : FP φ L) +. u *. (FOps.lit bf[j.1] : FP φ L)) 6 := by
    intro i j
    obtain ⟨v, v1, v2⟩ := lit i
    obtain ⟨w, w1, w2⟩ := lit j
    exact ((hu'.mulr hφ w1 w2 (big _ (by norm_num))).radd hφ v1 v2 (big _ (by norm_num))).mono (by norm_num)
  have quad : ∀ i j k l : Fin 18, CT ((FOps.lit bf[i.1] : FP φ L) +. u *. (FOps.lit bf[j.1] : FP φ L) +. u *. u *. ((FOps.lit bf[k.1] : FP φ L) +. u *. (FOps.lit bf[l.1] : FP φ L))) 36 := by
    intro i j k l
    exact ((pair i j).add hφ (u2b.mul hφ (pair k l) (big _ (by norm_num))) (big _ (by norm_num))).mono (by norm_num)
  have tri : ∀ i j k : Fin 18, CT ((FOps.lit bf[i.1] : FP φ L) +. u *. (FOps.lit bf[j.1] : FP φ L) +. u *. u *. (FOps.lit bf[k.1] : FP φ L)) 36 := by
    intro i j k
    obtain ⟨w, w1, w2⟩ := lit k
    exact ((pair i j).add hφ (u2b.mulr hφ w1 w2 (big _ (by norm_num))) (big _ (by norm_num))).mono (by norm_num)
  -- the terms
  have T1 := u2a.mul hφ (pair 1 2) (big _ (by linarith))
  have T2 := u4.mul hφ (quad 3 4 5 6) (big _ (by linarith))
  have T3 := u8.mul hφ ((quad 7 8 9 10).add hφ (u4b.mul hφ (quad 11 12 13 14) (big _ (by norm_num))) (big _ (by norm_num))) (big _ (by linarith))
  have T4 := u16.mul hφ (tri 15 16 17) (big _ (by linarith))
  have one : Val φ (ofF (FOps.lit bf[0] : FP φ L)) 1 := by rw [hb0]; exact vl_one hφ
  have S0 : CX (u *. (FOps.lit bf[0] : FP φ L)) q 0 := by
    refine ⟨q, ?_, by simp, val_mul0 hu2 one (zero_mul _)⟩
    have e : rq φ (q * 1) = q := by rw [mul_one, rq_repr hu1.repr]
    have := hu1.mul one (by rw [e]; exact hu1.lt_max)
    rwa [e] at this
  have aq : |q| = q := abs_of_nonneg h0
  have S1 := (S0.add hφ T1 (big _ (by rw [aq]; linarith))).mono (e := 7.001 * (q * ε)) (by rw [aq, ← he]; nlinarith)
  have S2 := (S1.add hφ T2 (big _ (by rw [aq]; linarith))).mono (e := 8.1 * (q * ε)) (by rw [aq, ← he]; nlinarith)
  have S3 := (S2.add hφ T3 (big _ (by rw [aq]; linarith))).mono (e := 9.2 * (q * ε)) (by rw [aq, ← he]; nlinarith)
  have S4 := (S3.add hφ T4 (big _ (by rw [aq]; linarith))).mono (e := 11 * ε * q) (by rw [aq, ← he]; nlinarith)
  exact (S4.one_mul hs).zadd hr1 hr2


/-! ## the branch taken for tiny positive `z` -/

theorem rq_one_sub_tiny (hφ : FmtA φ) {q : ℚ} (h0 : 0 ≤ q) (h1 : q ≤ 2 ^ (-(φ.p : ℤ) - 2)) : rq φ (1 + -q) = 1 := by
  refine rq_absorb ?_ ?_
  · exact (vl_one hφ).repr
  · rw [abs_neg, abs_one, one_mul, abs_of_nonneg h0]; exact h1

/-- `log(hypot(x,0))^2 + atan2(0,x)^2` is not less than 1 for tiny `x > 0` -/
theorem tiny_far (hφ : FmtA φ) (hL : TinyLib φ L) {x : FP φ L} {q : ℚ} (hx : Val φ (ofF x) q) (h0 : 0 < q) (h1 : q ≤ 2 ^ (-(φ.p : ℤ) - 2)) (s : Bool) :
    ofF (FOps.hypot x (f0 φ L s)) = ofF x ∧
    (xlog (FOps.hypot x (f0 φ L s)) *. xlog (FOps.hypot x (f0 φ L s)) +. FOps.atan2 (f0 φ L s) x *. FOps.atan2 (f0 φ L s) x <. (FOps.lit 1 : FP φ L)) = false ∧
    (FOps.hypot x (f0 φ L s) <=. (FOps.lit 1 : FP φ L)) = true := by
  obtain ⟨t, a, hxa, hta, hra, hma⟩ := id hx
  have ht : t = false := by
    cases t
    · rfl
    · have := repr_nonneg hra; simp [sval] at hta; linarith
  subst ht
  have haq : a = q := by simpa [sval] using hta
  subst haq
  have hh : ofF (FOps.hypot x (f0 φ L s)) = ofF x := by
    show L.hypot (ofF x) (.fin s 0) = ofF x
    rw [hxa]; exact hL.hypot0 a s
  have hA : ofF (FOps.atan2 (f0 φ L s) x) = .fin s 0 := by
    show L.atan2 (.fin s 0) (ofF x) = .fin s 0
    rw [hxa]; exact hL.atan20 a s h0
  have vA : Val φ (ofF (FOps.atan2 (f0 φ L s) x)) 0 := by
    rw [hA]; exact ⟨s, 0, rfl, by cases s <;> simp [sval], repr_zero, by positivity⟩
  refine ⟨hh, ?_, ?_⟩
  · obtain ⟨l, hl, hl2⟩ := hL.log_ok.log (ofF x) a hx h0
    have hu := hφ.u_le
    have hb := hx.log_le hφ h0
    have hv : Val φ (ofF (xlog (FOps.hypot x (f0 φ L s)))) l := by
      show Val φ (L.log (ofF (FOps.hypot x (f0 φ L s)))) l
      rw [hh]; exact hl
    have ha1 : (a:ℝ) ≤ 2 ^ (-26 : ℤ) := by
      have h2 : a ≤ 2 ^ (-26 : ℤ) := h1.trans (zpow_le_zpow_right₀ (by norm_num) (by have := hφ.hp; omega))
      have := (Rat.cast_le (K := ℝ)).2 h2
      push_cast at this; exact this
    have ha0 : (0:ℝ) < a := by exact_mod_cast h0
    have hlog : Real.log a ≤ -17 := by
      refine (Real.log_le_log ha0 ha1).trans ?_
      rw [Real.log_zpow]
      have := Real.log_two_gt_d9
      push_cast; linarith
    have hll : 1 ≤ |l| := by
      have h3 : (1:ℝ) ≤ |(l:ℝ)| := by
        rw [abs_of_neg (by linarith : Real.log a < 0)] at hl2 hb
        have h5 := uR_pos (φ := φ)
        have h4 : 2 * uR φ * -Real.log a + uR φ ^ 2 ≤ 1 := by
          norm_num at hu hb
          nlinarith
        have := (abs_le.1 hl2).2
        rw [le_abs]; right; linarith
      exact_mod_cast h3
    have hll2 : |l| ≤ 2 ^ 16 := by
      have h3 : |(l:ℝ)| ≤ 2 ^ 16 := by
        have h5 := uR_pos (φ := φ)
        have h4 : 2 * uR φ * |Real.log a| + uR φ ^ 2 ≤ 1 := by
          norm_num at hu hb
          nlinarith [abs_nonneg (Real.log a)]
        have := abs_add_le ((l:ℝ) - Real.log a) (Real.log a)
        rw [sub_add_cancel] at this
        norm_num at hb ⊢
        linarith
      exact_mod_cast h3
    have hsq : |l * l| ≤ 2 ^ 100 := by rw [abs_mul]; exact (mul_le_mul hll2 hll2 (abs_nonneg _) (by norm_num)).trans (by norm_num)
    have v1 := hv.mul hv (lt_max_of hφ hsq)
    have v2 := val_mul0 vA vA (mul_zero _)
    have e : rq φ (rq φ (l * l) + 0) = rq φ (l * l) := by rw [add_zero, rq_repr (repr_rq _)]
    have v3 := v1.add v2 (by rw [e]; exact lt_max_of hφ hsq)
    rw [e] at v3
    have hge : 1 ≤ rq φ (l * l) := by
      have h1 := le_abs_rq (φ := φ) (q := l * l) (y := 1) (by have := (vl_one hφ).repr; rwa [abs_one] at this) (by rw [abs_mul]; nlinarith)
      rwa [abs_of_nonneg (rq_nonneg (mul_self_nonneg l))] at h1
    rw [lt_F]
    refine (Val.lt v3 (vl_one hφ)).trans ?_
    rw [decide_eq_false_iff_not]; exact not_lt.2 hge
  · rw [le_F, hh]
    refine (Val.le hx (vl_one hφ)).trans ?_
    rw [decide_eq_true_eq]
    refine h1.trans (zpow_le_one_of_nonpos₀ (by norm_num) (by have := hφ.hp; omega))

/-- the ports: `log(1 - z)` is zero for tiny real `z > 0` -/
theorem posLogP_tiny (hφ : FmtA φ) (hL : TinyLib φ L) (p : ℚ) {x : FP φ L} {q : ℚ} (hx : Val φ (ofF x) q) (h0 : 0 < q) (h1 : q ≤ 2 ^ (-(φ.p : ℤ) - 2)) (s : Bool) :
    Val φ (ofF (∸(posLogP p ((FOps.lit 1 : FP φ L) -. (⟨x, f0 φ L s⟩ : Cx (FP φ L))))).re) 0 ∧ Val φ (ofF (∸(posLogP p ((FOps.lit 1 : FP φ L) -. (⟨x, f0 φ L s⟩ : Cx (FP φ L))))).im) 0 := by
  have e := rq_one_sub_tiny hφ h0.le h1
  have v1 : Val φ (ofF ((FOps.lit 1 : FP φ L) -. x)) 1 := by
    have := (vl_one hφ).add hx.neg (by rw [e]; exact (vl_one hφ).lt_max)
    rw [e] at this
    exact this
  have vz : Val φ (.fin s 0) 0 := ⟨s, 0, rfl, by cases s <;> simp [sval], repr_zero, by positivity⟩
  have v2 : Val φ (ofF (∸(f0 φ L s))) 0 := by have := vz.neg; rwa [neg_zero] at this
  have c1 : (∸(f0 φ L s) ==. (FOps.lit 0 : FP φ L)) = true := by
    rw [eq_F]; exact (Val.eq v2 (vl_zero hφ)).trans (by simp)
  have c2 : (((FOps.lit 1 : FP φ L) -. x) >. (FOps.lit 0 : FP φ L)) = true := by
    show ((FOps.lit 0 : FP φ L) <. ((FOps.lit 1 : FP φ L) -. x)) = true
    rw [lt_F]; exact (Val.lt (vl_zero hφ) v1).trans (by simp)
  have e2 : ofF ((FOps.lit 1 : FP φ L) -. x) = .fin false 1 := by
    obtain ⟨t, a, h2, h3, h4, -⟩ := v1
    rw [h2]
    cases t
    · simp [sval] at h3; rw [h3]
    · have := repr_nonneg h4; simp [sval] at h3; linarith
  have e3 : posLogP p ((FOps.lit 1 : FP φ L) -. (⟨x, f0 φ L s⟩ : Cx (FP φ L))) = ⟨xlog ((FOps.lit 1 : FP φ L) -. x), FOps.lit 0⟩ := by
    unfold posLogP
    rw [show ((FOps.lit 1 : FP φ L) -. (⟨x, f0 φ L s⟩ : Cx (FP φ L))).im = ∸(f0 φ L s) from rfl, show ((FOps.lit 1 : FP φ L) -. (⟨x, f0 φ L s⟩ : Cx (FP φ L))).re = (FOps.lit 1 : FP φ L) -. x from rfl,
      c1, c2]
    rfl
  rw [e3]
  have vf : Val φ (.fin false 0) 0 := ⟨false, 0, rfl, by simp [sval], repr_zero, by positivity⟩
  constructor
  · have h : ofF (xlog ((FOps.lit 1 : FP φ L) -. x)) = .fin false 0 := by
      show L.log (ofF ((FOps.lit 1 : FP φ L) -. x)) = _
      rw [e2]; exact hL.log1
    show Val φ (FV.neg (ofF (xlog ((FOps.lit 1 : FP φ L) -. x)))) 0
    rw [h]
    have := vf.neg; rwa [neg_zero] at this
  · have := (vl_zero hφ).neg; rwa [neg_zero] at this

/-- C++: `log1p(-z)` is `-z` for tiny real `z > 0` -/
theorem clog1p_tiny (hφ : FmtA φ) {x : FP φ L} {q : ℚ} (hx : Val φ (ofF x) q) (h0 : 0 < q) (h1 : q ≤ 2 ^ (-(φ.p : ℤ) - 2)) (s : Bool) :
    Val φ (ofF (∸(clog1p (∸(⟨x, f0 φ L s⟩ : Cx (FP φ L))))).re) q ∧ Val φ (ofF (∸(clog1p (∸(⟨x, f0 φ L s⟩ : Cx (FP φ L))))).im) 0 := by
  have e : rq φ (-q + 1) = 1 := by rw [add_comm]; exact rq_one_sub_tiny hφ h0.le h1
  have v1 : Val φ (ofF (∸x +. (FOps.lit 1 : FP φ L))) 1 := by
    have := hx.neg.add (vl_one hφ) (by rw [e]; exact (vl_one hφ).lt_max)
    rw [e] at this
    exact this
  have vz : Val φ (.fin s 0) 0 := ⟨s, 0, rfl, by cases s <;> simp [sval], repr_zero, by positivity⟩
  have v2 : Val φ (ofF (∸(f0 φ L s))) 0 := by have := vz.neg; rwa [neg_zero] at this
  have c1 : (∸(f0 φ L s) ==. (FOps.lit 0 : FP φ L)) = true := by
    rw [eq_F]; exact (Val.eq v2 (vl_zero hφ)).trans (by simp)
  have c2 : ((∸x +. (FOps.lit 1 : FP φ L)) ==. (FOps.lit 1 : FP φ L)) = true := by
    rw [eq_F]; exact (Val.eq v1 (vl_one hφ)).trans (by simp)
  have e3 : clog1p (∸(⟨x, f0 φ L s⟩ : Cx (FP φ L))) = ∸(⟨x, f0 φ L s⟩ : Cx (FP φ L)) := by
    unfold clog1p
    simp only [show ((FOps.lit 1 : FP φ L) +. (∸(⟨x, f0 φ L s⟩ : Cx (FP φ L)))).re = ∸x +. (FOps.lit 1 : FP φ L) from rfl,
      show ((FOps.lit 1 : FP φ L) +. (∸(⟨x, f0 φ L s⟩ : Cx (FP φ L)))).im = ∸(f0 φ L s) from rfl, c1, c2]
    rfl
  rw [e3]
  constructor
  · have := hx.neg.neg; rw [neg_neg] at this; exact this
  · have := v2.neg; rw [neg_zero] at this; exact this

/-! ## the functions -/

theorem not_special (hφ : FmtA φ) {x : FP φ L} {q : ℚ} (hx : Val φ (ofF x) q) (h0 : 0 < q) (h1 : q ≤ 2 ^ (-(φ.p : ℤ) - 2)) :
    (x ==. (FOps.lit 0 : FP φ L)) = false ∧ (x ==. (FOps.lit 1 : FP φ L)) = false ∧ (x ==. ∸(FOps.lit 1 : FP φ L)) = false := by
  have hlt : q < 1 := lt_of_le_of_lt h1 (zpow_lt_one_of_neg₀ (by norm_num) (by have := hφ.hp; omega))
  refine ⟨?_, ?_, ?_⟩
  · rw [eq_F]; exact (Val.eq hx (vl_zero hφ)).trans (by simp [h0.ne'])
  · rw [eq_F]; exact (Val.eq hx (vl_one hφ)).trans (by simp [hlt.ne])
  · rw [eq_F]; exact (Val.eq hx (vl_one hφ).neg).trans (by simp; linarith)

theorem portShape_tiny (hφ : FmtA φ) (hL : TinyLib φ L) (p : ℚ) (PI : FP φ L) (near fin1 : Cx (FP φ L) → Cx (FP φ L)) (finI : Cx (FP φ L) → Cx (FP φ L) → Cx (FP φ L))
    {x : FP φ L} {q : ℚ} (hx : Val φ (ofF x) q) (h0 : 0 < q) (h1 : q ≤ 2 ^ (-(φ.p : ℤ) - 2)) (s : Bool)
    (hf : ∀ u : Cx (FP φ L), Val φ (ofF u.re) 0 → Val φ (ofF u.im) 0 → CX (fin1 u) 0 0) :
    Val φ (ofF (portShape (posLogP p) PI near fin1 finI ⟨x, f0 φ L s⟩).re) 0 ∧ Val φ (ofF (portShape (posLogP p) PI near fin1 finI ⟨x, f0 φ L s⟩).im) 0 := by
  obtain ⟨-, t2, t3⟩ := tiny_far hφ hL hx h0 h1 s
  have e : portShape (posLogP p) PI near fin1 finI ⟨x, f0 φ L s⟩ = fin1 (∸(posLogP p ((FOps.lit 1 : FP φ L) -. (⟨x, f0 φ L s⟩ : Cx (FP φ L))))) := by
    unfold portShape
    simp only [t2, t3]
    rfl
  rw [e]
  obtain ⟨a1, a2⟩ := posLogP_tiny hφ hL p hx h0 h1 s
  obtain ⟨v, b1, b2, b3⟩ := hf _ a1 a2
  have hv : v = 0 := by simpa using abs_nonpos_iff.1 b2
  exact ⟨hv ▸ b1, b3⟩

theorem cLiShape_tiny (hφ : FmtA φ) (hL : TinyLib φ L) (PI : FP φ L) (near fin1 : Cx (FP φ L) → Cx (FP φ L)) (finI : Cx (FP φ L) → Cx (FP φ L) → Cx (FP φ L))
    {x : FP φ L} {q : ℚ} (hx : Val φ (ofF x) q) (h0 : 0 < q) (h1 : q ≤ 2 ^ (-(φ.p : ℤ) - 2)) (s : Bool)
    (hf : ∀ u : Cx (FP φ L), Val φ (ofF u.re) q → Val φ (ofF u.im) 0 → CX (fin1 u) q (11 * 2 ^ (-(φ.p : ℤ)) * q)) :
    CX (cLiShape PI near fin1 finI ⟨x, f0 φ L s⟩) q (11 * 2 ^ (-(φ.p : ℤ)) * q) := by
  obtain ⟨-, t2, t3⟩ := tiny_far hφ hL hx h0 h1 s
  have e : cLiShape PI near fin1 finI ⟨x, f0 φ L s⟩ = fin1 (∸(clog1p (∸(⟨x, f0 φ L s⟩ : Cx (FP φ L))))) := by
    unfold cLiShape Cx.abs Cx.arg
    simp only [t2, t3]
    rfl
  rw [e]
  obtain ⟨a1, a2⟩ := clog1p_tiny hφ hx h0 h1 s
  exact hf _ a1 a2

theorem bf5_le : ∀ i : Fin 19, |cli5dBf[i.1]| ≤ 1 := by decide +kernel
theorem bf6_le : ∀ i : Fin 18, |cli6dBf[i.1]| ≤ 1 := by decide +kernel

theorem reLi_tiny (n : ℕ) {q : ℝ} (h0 : 0 < q) (h1 : q ≤ 1 / 2) : q ≤ (pLi (n + 2) (q : ℂ)).re ∧ (pLi (n + 2) (q : ℂ)).re ≤ q * (1 + q) := by
  have hs := reLi_hasSum n (x := q) (by rw [abs_of_pos h0]; linarith)
  have hg := (hasSum_geometric_of_lt_one h0.le (by linarith : q < 1)).mul_left q
  have hs' := (hasSum_nat_add_iff' 1).2 hs
  have hg' := (hasSum_nat_add_iff' 1).2 ((hasSum_geometric_of_lt_one h0.le (by linarith : q < 1)).mul_left (q * (1/2)))
  constructor
  · have := hs'.nonneg (fun k => by positivity)
    simp at this
    exact this
  · have h : ∀ k : ℕ, q ^ (k + 1 + 1) / (((k + 1 : ℕ) : ℝ) + 1) ^ (n + 2) ≤ q * (1 / 2) * q ^ (k + 1) := by
      intro k
      rw [pow_succ q (k + 1), mul_comm (q ^ (k + 1)) q, mul_div_assoc, mul_assoc]
      apply mul_le_mul_of_nonneg_left _ h0.le
      rw [div_eq_mul_inv, mul_comm]
      apply mul_le_mul_of_nonneg_right _ (by positivity)
      rw [one_div]
      apply inv_anti₀ (by norm_num)
      have : (2:ℝ) ≤ ((k + 1 : ℕ) : ℝ) + 1 := by push_cast; linarith [Nat.cast_nonneg (α := ℝ) k]
      calc (2:ℝ) ≤ ((k + 1 : ℕ) : ℝ) + 1 := this
        _ ≤ _ := le_self_pow₀ (by linarith) (by omega)
    have := hasSum_le h hs' hg'
    simp at this
    have h2 : q * (1 / 2) * (1 - q)⁻¹ ≤ q := by
      rw [← div_eq_mul_inv, div_le_iff₀ (by linarith)]; nlinarith
    unfold reLi at this
    have h3 : q * 2⁻¹ * (1 - q)⁻¹ - q * 2⁻¹ ≤ q * q := by
      have h4 : (1 - q)⁻¹ - 1 = q * (1 - q)⁻¹ := by
        have : (1 - q) ≠ 0 := by linarith
        field_simp; ring
      have h5 : (1 - q)⁻¹ ≤ 2 := by rw [show (2:ℝ) = (1/2)⁻¹ by norm_num]; exact inv_anti₀ (by norm_num) (by linarith)
      nlinarith [mul_nonneg h0.le h0.le]
    nlinarith

end tiny

/-! ## the claims, in binary64 -/

local notation "φd" => binary64

/-- **C42 (C).** `cli5(x + 0i)` is exactly zero for every `0 < x ≤ 2^-55`, although `Li_5(x) ≥ x`. -/
theorem C42_cli5_zero (hL : TinyLib φd L) {x : FP φd L} {q : ℚ} (hx : Val φd (ofF x) q) (h0 : 0 < q) (h1 : q ≤ 2 ^ (-55 : ℤ)) (s : Bool) :
    Val φd (ofF (C.cli5 ⟨x, f0 φd L s⟩).re) 0 ∧ Val φd (ofF (C.cli5 ⟨x, f0 φd L s⟩).im) 0 ∧ (q : ℝ) ≤ (pLi 5 ((q : ℝ) : ℂ)).re := by
  obtain ⟨n0, n1, n2⟩ := not_special fmtA64 hx h0 h1
  rw [ccli5_eq]
  simp only [n0, n1, n2, Bool.and_false, Bool.false_eq_true, if_false]
  obtain ⟨a, b⟩ := portShape_tiny fmtA64 hL 3.1415926535897932 _ _ (fun u => fin19 cli5dBf u ⟨FOps.lit 0, FOps.lit 0⟩) _ hx h0 h1 s (fun u h2 h3 =>
    (fin19_tiny fmtA64 (rest := ⟨FOps.lit 0, FOps.lit 0⟩) cli5dBf (by decide +kernel) bf5_le le_rfl (by positivity) h2 h3 (vl_zero fmtA64) (vl_zero fmtA64)).mono (by simp))
  refine ⟨a, b, (reLi_tiny 3 (by exact_mod_cast h0) ?_).1⟩
  have := (Rat.cast_le (K := ℝ)).2 h1
  push_cast at this
  exact this.trans (by norm_num)

/-- **C42 (Fortran).** `cdli5(x + 0i)` is exactly zero for every `0 < x ≤ 2^-55`, although `Li_5(x) ≥ x`. -/
theorem C42_cdli5_zero (hL : TinyLib φd L) {x : FP φd L} {q : ℚ} (hx : Val φd (ofF x) q) (h0 : 0 < q) (h1 : q ≤ 2 ^ (-55 : ℤ)) (s : Bool) :
    Val φd (ofF (Fortran.cdli5 ⟨x, f0 φd L s⟩).re) 0 ∧ Val φd (ofF (Fortran.cdli5 ⟨x, f0 φd L s⟩).im) 0 ∧ (q : ℝ) ≤ (pLi 5 ((q : ℝ) : ℂ)).re := by
  obtain ⟨n0, n1, n2⟩ := not_special fmtA64 hx h0 h1
  rw [cdli5_eq]
  simp only [n0, n1, n2, Bool.and_false, Bool.false_eq_true, if_false]
  obtain ⟨a, b⟩ := portShape_tiny fmtA64 hL 3.14159265358979324 _ _ (fun u => fin19 cli5dBf u ⟨FOps.lit 0, FOps.lit 0⟩) _ hx h0 h1 s (fun u h2 h3 =>
    (fin19_tiny fmtA64 (rest := ⟨FOps.lit 0, FOps.lit 0⟩) cli5dBf (by decide +kernel) bf5_le le_rfl (by positivity) h2 h3 (vl_zero fmtA64) (vl_zero fmtA64)).mono (by simp))
  refine ⟨a, b, (reLi_tiny 3 (by exact_mod_cast h0) ?_).1⟩
  have := (Rat.cast_le (K := ℝ)).2 h1
  push_cast at this
  exact this.trans (by norm_num)

/-- **C42 (C).** `cli6(x + 0i)` is exactly zero for every `0 < x ≤ 2^-55`, although `Li_6(x) ≥ x`. -/
theorem C42_cli6_zero (hL : TinyLib φd L) {x : FP φd L} {q : ℚ} (hx : Val φd (ofF x) q) (h0 : 0 < q) (h1 : q ≤ 2 ^ (-55 : ℤ)) (s : Bool) :
    Val φd (ofF (C.cli6 ⟨x, f0 φd L s⟩).re) 0 ∧ Val φd (ofF (C.cli6 ⟨x, f0 φd L s⟩).im) 0 ∧ (q : ℝ) ≤ (pLi 6 ((q : ℝ) : ℂ)).re := by
  obtain ⟨n0, n1, n2⟩ := not_special fmtA64 hx h0 h1
  rw [ccli6_eq]
  simp only [n0, n1, n2, Bool.and_false, Bool.false_eq_true, if_false]
  obtain ⟨a, b⟩ := portShape_tiny fmtA64 hL 3.1415926535897932 _ _ (fun u => fin18s cli6dBf u ⟨FOps.lit 0, FOps.lit 0⟩ (FOps.lit 1)) _ hx h0 h1 s (fun u h2 h3 =>
    (fin18s_tiny fmtA64 (rest := ⟨FOps.lit 0, FOps.lit 0⟩) cli6dBf (by decide +kernel) bf6_le le_rfl (by positivity) h2 h3 (vl_zero fmtA64) (vl_zero fmtA64) (vl_one fmtA64)).mono (by simp))
  refine ⟨a, b, (reLi_tiny 4 (by exact_mod_cast h0) ?_).1⟩
  have := (Rat.cast_le (K := ℝ)).2 h1
  push_cast at this
  exact this.trans (by norm_num)

/-- **C42 (Fortran).** `cdli6(x + 0i)` is exactly zero for every `0 < x ≤ 2^-55`, although `Li_6(x) ≥ x`. -/
theorem C42_cdli6_zero (hL : TinyLib φd L) {x : FP φd L} {q : ℚ} (hx : Val φd (ofF x) q) (h0 : 0 < q) (h1 : q ≤ 2 ^ (-55 : ℤ)) (s : Bool) :
    Val φd (ofF (Fortran.cdli6 ⟨x, f0 φd L s⟩).re) 0 ∧ Val φd (ofF (Fortran.cdli6 ⟨x, f0 φd L s⟩).im) 0 ∧ (q : ℝ) ≤ (pLi 6 ((q : ℝ) : ℂ)).re := by
  obtain ⟨n0, n1, n2⟩ := not_special fmtA64 hx h0 h1
  rw [cdli6_eq]
  simp only [n0, n1, n2, Bool.and_false, Bool.false_eq_true, if_false]
  obtain ⟨a, b⟩ := portShape_tiny fmtA64 hL 3.14159265358979324 _ _ (fun u => fin18s cli6dBf u ⟨FOps.lit 0, FOps.lit 0⟩ (FOps.lit 1)) _ hx h0 h1 s (fun u h2 h3 =>
    (fin18s_tiny fmtA64 (rest := ⟨FOps.lit 0, FOps.lit 0⟩) cli6dBf (by decide +kernel) bf6_le le_rfl (by positivity) h2 h3 (vl_zero fmtA64) (vl_zero fmtA64) (vl_one fmtA64)).mono (by simp))
  refine ⟨a, b, (reLi_tiny 4 (by exact_mod_cast h0) ?_).1⟩
  have := (Rat.cast_le (K := ℝ)).2 h1
  push_cast at this
  exact this.trans (by norm_num)

theorem tiny_rel (n : ℕ) {q v : ℚ} (h0 : 0 < q) (h1 : q ≤ 2 ^ (-55 : ℤ)) (h : |v - q| ≤ 11 * 2 ^ (-(binary64.p : ℤ)) * q) :
    |(v : ℝ) - (pLi (n + 2) ((q : ℝ) : ℂ)).re| ≤ 12 * 2 ^ (-53 : ℤ) * |(pLi (n + 2) ((q : ℝ) : ℂ)).re| := by
  have h1' := (Rat.cast_le (K := ℝ)).2 h1
  have h' := (Rat.cast_le (K := ℝ)).2 h
  have h0' : (0:ℝ) < q := by exact_mod_cast h0
  push_cast at h1' h'
  obtain ⟨a, b⟩ := reLi_tiny n h0' (h1'.trans (by norm_num))
  set P := (pLi (n + 2) ((q : ℝ) : ℂ)).re
  rw [abs_of_pos (by linarith : 0 < P)]
  change |(v:ℝ) - q| ≤ 11 * 2 ^ (-53 : ℤ) * q at h'
  have h2 : |(q:ℝ) - P| ≤ 2 ^ (-55 : ℤ) * q := by rw [abs_le]; constructor <;> nlinarith
  have := abs_sub_le (v:ℝ) q P
  norm_num at h1' h' h2 ⊢
  linarith

/-- **C42 (C++).** `Li5(x + 0i)` for every `0 < x ≤ 2^-55` has relative error at most `12 * 2^-53`. -/
theorem C42_Li5d (hL : TinyLib φd L) {x : FP φd L} {q : ℚ} (hx : Val φd (ofF x) q) (h0 : 0 < q) (h1 : q ≤ 2 ^ (-55 : ℤ)) (s : Bool) :
    ∃ r : ℚ, Val φd (ofF (cLi5d ⟨x, f0 φd L s⟩).re) r ∧ Val φd (ofF (cLi5d ⟨x, f0 φd L s⟩).im) 0 ∧
      |(r : ℝ) - (pLi 5 ((q : ℝ) : ℂ)).re| ≤ 12 * 2 ^ (-53 : ℤ) * |(pLi 5 ((q : ℝ) : ℂ)).re| := by
  obtain ⟨n0, n1, n2⟩ := not_special fmtA64 hx h0 h1
  rw [cLi5d_eq]
  simp only [n0, n1, n2, Bool.and_false, Bool.false_eq_true, if_false]
  unfold cLi5S
  obtain ⟨v, a, b, c⟩ := cLiShape_tiny fmtA64 hL (FOps.lit 3.1415926535897932) _ (fun u => fin19 cli5dBf u ⟨FOps.lit 0, FOps.lit 0⟩) _ hx h0 h1 s (fun u h2 h3 =>
    fin19_tiny fmtA64 (rest := ⟨FOps.lit 0, FOps.lit 0⟩) cli5dBf (by decide +kernel) bf5_le h0.le h1 h2 h3 (vl_zero fmtA64) (vl_zero fmtA64))
  exact ⟨v, a, c, tiny_rel 3 h0 h1 b⟩

/-- **C42 (C++).** `Li6(x + 0i)` for every `0 < x ≤ 2^-55` has relative error at most `12 * 2^-53`. -/
theorem C42_Li6d (hL : TinyLib φd L) {x : FP φd L} {q : ℚ} (hx : Val φd (ofF x) q) (h0 : 0 < q) (h1 : q ≤ 2 ^ (-55 : ℤ)) (s : Bool) :
    ∃ r : ℚ, Val φd (ofF (cLi6d ⟨x, f0 φd L s⟩).re) r ∧ Val φd (ofF (cLi6d ⟨x, f0 φd L s⟩).im) 0 ∧
      |(r : ℝ) - (pLi 6 ((q : ℝ) : ℂ)).re| ≤ 12 * 2 ^ (-53 : ℤ) * |(pLi 6 ((q : ℝ) : ℂ)).re| := by
  obtain ⟨n0, n1, n2⟩ := not_special fmtA64 hx h0 h1
  rw [cLi6d_eq]
  simp only [n0, n1, n2, Bool.and_false, Bool.false_eq_true, if_false]
  unfold cLi6S
  obtain ⟨v, a, b, c⟩ := cLiShape_tiny fmtA64 hL (FOps.lit 3.1415926535897932) _ (fun u => fin18s cli6dBf u ⟨FOps.lit 0, FOps.lit 0⟩ (FOps.lit 1)) _ hx h0 h1 s (fun u h2 h3 =>
    fin18s_tiny fmtA64 (rest := ⟨FOps.lit 0, FOps.lit 0⟩) cli6dBf (by decide +kernel) bf6_le h0.le h1 h2 h3 (vl_zero fmtA64) (vl_zero fmtA64) (vl_one fmtA64))
  exact ⟨v, a, c, tiny_rel 4 h0 h1 b⟩

/-- the hypotheses are met -/
theorem exists_tinyLib : TinyLib φd { zeroLib with
    log := fun x => if x = .fin false 1 then .fin false 0 else approxF φd Real.log x
    log1p := approxF φd (fun t => Real.log (1 + t))
    hypot := fun x _ => x
    atan2 := fun y _ => y } where
  log_ok := {
    log := by
      intro x q hx hq
      have h := (exists_logOK fmtA64 zeroLib).log x q hx hq
      show Near φd (if x = .fin false 1 then .fin false 0 else approxF φd Real.log x) _ _
      split
      · rename_i hx1
        subst hx1
        obtain ⟨t, a, e1, e2, -, -⟩ := hx
        cases e1
        simp [sval] at e2
        subst e2
        refine ⟨0, ⟨false, 0, rfl, by simp [sval], repr_zero, by positivity⟩, ?_⟩
        simp
        positivity
      · exact h
    log1p := (exists_logOK fmtA64 zeroLib).log1p }
  hypot0 _ _ := rfl
  atan20 _ _ _ := rfl
  log1 := by simp

/-- `x = 2^-60` -/
example : ∃ (L : Lib) (x : FP φd L), TinyLib φd L ∧ Val φd (ofF x) (2 ^ (-60 : ℤ)) ∧ Val φd (ofF (C.cli5 ⟨x, f0 φd L false⟩).re) 0 := by
  refine ⟨_, toF φd _ (.fin false (2 ^ (-60 : ℤ))), exists_tinyLib, ?_⟩
  have hv : Val φd (.fin false (2 ^ (-60 : ℤ))) (2 ^ (-60 : ℤ)) :=
    ⟨false, _, rfl, by simp [sval], ⟨1, -60, by decide, by decide, by norm_num⟩, zpow_lt_zpow_right₀ (by norm_num) (by decide)⟩
  exact ⟨hv, (C42_cli5_zero exists_tinyLib hv (by positivity) (by norm_num) false).1⟩

end Polylog
