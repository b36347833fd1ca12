import Verif.Proofs.LiTaylor
import Verif.Props.Horner
import Mathlib.Analysis.Real.Pi.Bounds

/-! # C08, C09, C10: the real dilogarithm; C34 for the approximations of Li2 -/

noncomputable section
namespace Polylog

variable {S : RealSem}

/-! ## the common structure of `Li2f`, `Li2d`, `Li2l` -/

section
variable {F : Type} [FOps F]
local notation:max "♯" q:max => (FOps.lit (q : ℚ) : F)

/-- common shape of the real dilogarithms (used in proofs only) -/
def li2Gen (fin : F → F → F → F) (PI x : F) : F :=
  if x <. ∸♯1 then
    let l := (xlog (♯1 -. x))
    fin (♯1 /. (♯1 -. x)) (∸PI *. PI /. ♯6 +. l *. (♯0.5 *. l -. (xlog (∸x)))) ♯1
  else if x ==. ∸♯1 then ∸PI *. PI /. ♯12
  else if x <. ♯0 then
    let l := (FOps.log1p (∸x))
    fin (x /. (x -. ♯1)) (∸♯0.5 *. l *. l) ∸♯1
  else if x ==. ♯0 then x
  else if x <. ♯0.5 then fin x ♯0 ♯1
  else if x <. ♯1 then
    fin (♯1 -. x) (PI *. PI /. ♯6 -. (xlog x) *. (FOps.log1p (∸x))) ∸♯1
  else if x ==. ♯1 then PI *. PI /. ♯6
  else if x <. ♯2 then
    let l := (xlog x)
    let y := ♯1 -. ♯1 /. x
    fin y (PI *. PI /. ♯6 -. l *. ((xlog y) +. ♯0.5 *. l)) ♯1
  else
    let l := (xlog x)
    fin (♯1 /. x) (PI *. PI /. ♯3 -. ♯0.5 *. l *. l) ∸♯1

theorem Li2f_gen (x : F) : Li2f x = li2Gen li2fFin ♯3.14159265 x := rfl
theorem Li2d_gen (x : F) : Li2d x = li2Gen li2dFin ♯3.1415926535897932 x := rfl
theorem Li2l_gen {n m : ℕ} (P : Vector ℚ (n + 1)) (Q : Vector ℚ (m + 1)) (x : F) :
    Li2l P Q x = li2Gen (li2lFin P Q) ♯3.14159265358979323846264338327950288 x := rfl
end

/-- If the final rational approximation is within `ε y` of `Li_2(y)` on `(0, 1/2]`, then the whole function is within
`ε/2 + |PI² - π²|/3` of `Re Li_2`. -/
theorem li2Gen_accuracy {u : ℝ} (hS : S.Lit u) (fin : R S → R S → R S → R S) (PI : R S) (g : ℝ → ℝ) (ε : ℝ)
    (hfin : ∀ y r s : R S, 0 < ofR y → ofR y ≤ 1 / 2 → ofR (fin y r s) = ofR r + ofR s * g (ofR y))
    (hg : ∀ y : ℝ, 0 < y → y ≤ 1 / 2 → |g y - reLi 2 y| ≤ ε * y) (hε : 0 ≤ ε) (x : ℝ) :
    |ofR (li2Gen fin PI (toR S x)) - reLi 2 x| ≤ ε / 2 + |ofR PI ^ 2 - Real.pi ^ 2| / 3 := by
  have e5 : ((S.rho 0.5 : ℚ) : ℝ) = 1 / 2 := by rw [hS.half]; norm_num
  have hn : ofR (toR S x) = x := rfl
  set D := ofR PI ^ 2 - Real.pi ^ 2 with hD
  have key : ∀ {A c y s : ℝ}, 0 < y → y ≤ 1 / 2 → |c| ≤ 1 / 3 → |s| = 1 →
      A = c * D + s * (g y - reLi 2 y) → |A| ≤ ε / 2 + |D| / 3 := by
    intro A c y s h0 h1 hc hs hA
    have h2 := hg y h0 h1
    calc |A| ≤ |c| * |D| + |s| * |g y - reLi 2 y| := by
          rw [hA, ← abs_mul, ← abs_mul]; exact abs_add_le _ _
      _ ≤ 1 / 3 * |D| + 1 * (ε * y) := by
          rw [hs]; gcongr
      _ ≤ _ := by nlinarith
  have key0 : ∀ {A c : ℝ}, |c| ≤ 1 / 3 → A = c * D → |A| ≤ ε / 2 + |D| / 3 := by
    intro A c hc hA
    have := mul_le_mul_of_nonneg_right hc (abs_nonneg D)
    rw [hA, abs_mul]; linarith
  unfold li2Gen
  simp only [lt_R, eq_R, ofR_neg, ofR_lit, hS.one, hS.zero, hS.two, e5, hn, Rat.cast_one, Rat.cast_zero, Rat.cast_ofNat,
    decide_eq_true_eq]
  split_ifs with h1 h2 h3 h4 h5 h6 h7 h8
  · -- x < -1
    have hx1 : 0 < 1 - x := by linarith
    have hy : ofR ((FOps.lit 1 : R S) /. ((FOps.lit 1 : R S) -. toR S x)) = 1 / (1 - x) := by
      rw [ofR_div (by simp [rsem, hS.one]; linarith)]; simp [rsem, hS.one]
    have hy0 : 0 < 1 / (1 - x) := by positivity
    have hy1 : 1 / (1 - x) ≤ 1 / 2 := by apply one_div_le_one_div_of_le <;> linarith
    rw [hfin _ _ _ (by rw [hy]; exact hy0) (by rw [hy]; exact hy1), hy]
    have hlog : ofR (xlog ((FOps.lit 1 : R S) -. toR S x)) = Real.log (1 - x) := by
      rw [xlog_R, ofR_log (by simp [rsem, hS.one]; linarith)]; simp [rsem, hS.one]
    have hlog2 : ofR (xlog (∸(toR S x))) = Real.log (-x) := by
      rw [xlog_R, ofR_log (by simp [rsem]; linarith)]; simp [rsem]
    simp only [ofR_add, ofR_mul, ofR_sub, hlog, hlog2, ofR_lit, e5, hS.one]
    rw [ofR_div (by simp [rsem, hS.six])]
    simp only [ofR_mul, ofR_neg, ofR_lit, hS.six]
    have hL := reLi_two_landen (x := x) (by linarith)
    have hyx : x / (x - 1) = 1 - 1 / (1 - x) := by
      have : x - 1 ≠ 0 := by linarith
      have := hx1.ne'
      field_simp; ring
    have hR := reLi_two_refl (x := 1 / (1 - x)) hy0 (by linarith)
    have hl1 : Real.log (1 / (1 - x)) = -Real.log (1 - x) := by rw [one_div, Real.log_inv]
    have hl2 : Real.log (1 - 1 / (1 - x)) = Real.log (-x) - Real.log (1 - x) := by
      rw [← hyx, ← Real.log_div (by linarith) hx1.ne']
      congr 1
      have : x - 1 ≠ 0 := by linarith
      field_simp; ring
    rw [hl1, hl2, ← hyx] at hR
    refine key (c := -1/6) (s := 1) hy0 hy1 (by norm_num [abs_of_nonneg]) (by simp) ?_
    rw [hL, hD]; push_cast
    linear_combination (1:ℝ) * hR
  · -- x = -1
    subst h2
    rw [ofR_div (by simp [rsem, hS.twelve])]
    simp only [ofR_mul, ofR_neg, ofR_lit, hS.twelve]
    refine key0 (c := -1/12) (by norm_num [abs_of_nonneg]) ?_
    rw [reLi_two_neg_one, hD]; push_cast; ring
  · -- -1 < x < 0
    have hm1 : -1 < x := lt_of_le_of_ne (not_lt.mp h1) (fun h => h2 h.symm)
    have hxm : x - 1 < 0 := by linarith
    have hy : ofR (toR S x /. (toR S x -. (FOps.lit 1 : R S))) = x / (x - 1) := by
      rw [ofR_div (by simp [rsem, hS.one]; linarith)]; simp [rsem, hS.one]
    have hy0 : 0 < x / (x - 1) := div_pos_of_neg_of_neg h3 hxm
    have hy1 : x / (x - 1) ≤ 1 / 2 := by rw [div_le_iff_of_neg hxm]; linarith
    rw [hfin _ _ _ (by rw [hy]; exact hy0) (by rw [hy]; exact hy1), hy]
    have hlog : ofR (FOps.log1p (∸(toR S x))) = Real.log (1 - x) := by
      rw [ofR_log1p (by simp [rsem]; linarith)]; simp [rsem, sub_eq_add_neg]
    simp only [ofR_mul, ofR_neg, hlog, ofR_lit, e5, hS.one]
    refine key (c := 0) (s := -1) hy0 hy1 (by norm_num) (by simp) ?_
    rw [reLi_two_landen h3]; push_cast; ring
  · -- x = 0
    subst h4
    rw [hn, reLi_zero_right, sub_zero, abs_zero]; positivity
  · -- 0 < x < 1/2
    have h0 : 0 < x := lt_of_le_of_ne (not_lt.mp h3) (fun h => h4 h.symm)
    rw [hfin _ _ _ (by rw [hn]; exact h0) (by rw [hn]; linarith), hn]
    simp only [ofR_lit, hS.zero, hS.one]
    exact key (c := 0) (s := 1) h0 h5.le (by norm_num) (by simp) (by push_cast; ring)
  · -- 1/2 ≤ x < 1
    have h0 : 0 < x := by linarith
    have hy : ofR ((FOps.lit 1 : R S) -. toR S x) = 1 - x := by simp [rsem, hS.one]
    rw [hfin _ _ _ (by rw [hy]; linarith) (by rw [hy]; linarith), hy]
    have hlog : ofR (FOps.log1p (∸(toR S x))) = Real.log (1 - x) := by
      rw [ofR_log1p (by simp [rsem]; linarith)]; simp [rsem, sub_eq_add_neg]
    have hlog2 : ofR (xlog (toR S x)) = Real.log x := by
      rw [xlog_R, ofR_log (by simpa [rsem] using h0), hn]
    simp only [ofR_sub, ofR_mul, ofR_neg, hlog, hlog2, ofR_lit, hS.one]
    rw [ofR_div (by simp [rsem, hS.six])]
    simp only [ofR_mul, ofR_lit, hS.six]
    refine key (c := 1/6) (s := -1) (y := 1 - x) (by linarith) (by linarith) (by norm_num [abs_of_nonneg]) (by simp) ?_
    rw [reLi_two_refl h0 h6, hD]; push_cast; ring
  · -- x = 1
    subst h7
    rw [ofR_div (by simp [rsem, hS.six])]
    simp only [ofR_mul, ofR_lit, hS.six]
    refine key0 (c := 1/6) (by norm_num [abs_of_nonneg]) ?_
    rw [reLi_two_one, hD]; push_cast; ring
  · -- 1 < x < 2
    have hx : 1 < x := lt_of_le_of_ne (not_lt.mp h6) (fun h => h7 h.symm)
    have h0 : 0 < x := by linarith
    have hy : ofR ((FOps.lit 1 : R S) -. (FOps.lit 1 : R S) /. toR S x) = 1 - 1 / x := by
      rw [ofR_sub, ofR_div (by simp [rsem]; linarith)]; simp [rsem, hS.one]
    have hix : 1 / x < 1 := by rw [div_lt_one h0]; exact hx
    have hix2 : 1 / 2 < 1 / x := by apply one_div_lt_one_div_of_lt <;> linarith
    have hix0 : 0 < 1 / x := by positivity
    have hlogy : ofR (xlog ((FOps.lit 1 : R S) -. (FOps.lit 1 : R S) /. toR S x)) = Real.log (1 - 1 / x) := by
      rw [xlog_R, ofR_log (by rw [hy]; linarith), hy]
    rw [hfin _ _ _ (by rw [hy]; linarith) (by rw [hy]; linarith), hy]
    have hlog2 : ofR (xlog (toR S x)) = Real.log x := by
      rw [xlog_R, ofR_log (by simpa [rsem] using h0), hn]
    simp only [ofR_sub, ofR_add, ofR_mul, hlogy, hlog2, ofR_lit, hS.one, e5]
    rw [ofR_div (by simp [rsem, hS.six])]
    simp only [ofR_mul, ofR_lit, hS.six]
    have hI := reLi_two_inv hx
    rw [← one_div] at hI
    have hR := reLi_two_refl hix0 hix
    have hl : Real.log (1 / x) = -Real.log x := by rw [one_div, Real.log_inv]
    rw [hl] at hR
    refine key (c := 1/6) (s := 1) (y := 1 - 1 / x) (by linarith) (by linarith) (by norm_num [abs_of_nonneg]) (by simp) ?_
    rw [hI, hR, hD]; push_cast; ring
  · -- 2 ≤ x
    have hx : 1 < x := by linarith
    have h0 : 0 < x := by linarith
    have hy : ofR ((FOps.lit 1 : R S) /. toR S x) = 1 / x := by
      rw [ofR_div (by simp [rsem]; linarith)]; simp [rsem, hS.one]
    have hy1 : 1 / x ≤ 1 / 2 := by apply one_div_le_one_div_of_le <;> linarith
    have hy0 : 0 < 1 / x := by positivity
    rw [hfin _ _ _ (by rw [hy]; exact hy0) (by rw [hy]; exact hy1), hy]
    have hlog2 : ofR (xlog (toR S x)) = Real.log x := by
      rw [xlog_R, ofR_log (by simpa [rsem] using h0), hn]
    simp only [ofR_sub, ofR_mul, ofR_neg, hlog2, ofR_lit, hS.one, e5]
    rw [ofR_div (by simp [rsem, hS.three])]
    simp only [ofR_mul, ofR_lit, hS.three]
    have hI := reLi_two_inv hx
    rw [← one_div] at hI
    refine key (c := 1/3) (s := -1) (y := 1 / x) hy0 hy1 (by norm_num [abs_of_nonneg]) (by simp) ?_
    rw [hI, hD]; push_cast; ring

/-! ## the four rational approximations -/

theorem litpi_err {u e : ℝ} (hS : S.Lit u) (q : ℚ) (hq0 : 0 ≤ q) (hq : q ≤ 3.15) (he : |(q : ℝ) - Real.pi| ≤ e) (he1 : e ≤ 1 / 1000)
    (hu : u ≤ 1 / 1000) : |((S.rho q : ℚ) : ℝ) ^ 2 - Real.pi ^ 2| / 3 ≤ 2.11 * e + 6.7 * u := by
  have h1 := hS.rel q
  have hq' : (q : ℝ) ≤ 3.15 := by
    have := (Rat.cast_le (K := ℝ)).mpr hq; push_cast at this; exact this
  have hq0' : (0:ℝ) ≤ q := by exact_mod_cast hq0
  rw [abs_of_nonneg hq0'] at h1
  have h2 : |((S.rho q : ℚ) : ℝ) - Real.pi| ≤ e + u * 3.15 := by
    have := mul_le_mul_of_nonneg_left hq' hS.u_nonneg
    calc _ ≤ |((S.rho q : ℚ) : ℝ) - q| + |(q : ℝ) - Real.pi| := abs_sub_le _ _ _
      _ ≤ _ := by linarith
  have h3 : e + u * 3.15 ≤ 0.0042 := by linarith
  have hpi := Real.pi_lt_d2
  have hpi0 := Real.pi_gt_three
  have h4 := abs_le.mp h2
  have h5 : |((S.rho q : ℚ) : ℝ) + Real.pi| ≤ 6.33 := by
    rw [abs_le]; constructor <;> linarith [Real.pi_lt_d4]
  rw [show ((S.rho q : ℚ) : ℝ) ^ 2 - Real.pi ^ 2 = (((S.rho q : ℚ) : ℝ) + Real.pi) * (((S.rho q : ℚ) : ℝ) - Real.pi) by ring,
    abs_mul]
  have h6 : |((S.rho q : ℚ) : ℝ) + Real.pi| * |((S.rho q : ℚ) : ℝ) - Real.pi| ≤ 6.33 * (e + u * 3.15) :=
    mul_le_mul h5 h2 (abs_nonneg _) (by norm_num)
  have := hS.u_nonneg
  linarith

theorem pi_lit (q : ℚ) (e : ℚ) (h : |q - piQ| + 1 / 10 ^ 49 ≤ e) : |(q : ℝ) - Real.pi| ≤ e := by
  have h1 := pi_approx
  have h2 : |(q:ℝ) - piQ| + 1 / 10 ^ 49 ≤ e := by
    have := (Rat.cast_le (K := ℝ)).mpr h
    push_cast at this
    exact_mod_cast this
  rw [abs_sub_comm] at h1
  calc _ ≤ |(q:ℝ) - piQ| + |(piQ:ℝ) - Real.pi| := abs_sub_le _ _ _
    _ ≤ _ := by linarith

/-- approximation of `Li_2(y)/y` in the variable `z = y - c/4`, from a certificate -/
theorem li2_ratio {a b : ℕ} (P : Vector ℚ a) (Q : Vector ℚ b) {u : ℝ} (hS : S.Lit u) {N : ℚ} {j n : ℕ} {p q d : ℤ}
    {T : List ℤ} {M' E En δ : ℤ} {M K : ℕ} {ε δ' B : ℝ} {X BP BQ : ℚ} {y z : ℝ}
    (h : rcert j n p q d (vZ N P) (vZ N Q) T M' E En δ = true)
    (hden : (P.toList ++ Q.toList).all (fun q => (q * N).den == 1) = true)
    (hpos : 0 < N ∧ 0 < q ∧ 0 < d ∧ 0 < M' ∧ 0 < En ∧ 0 < δ ∧ 0 < M)
    (hy0 : 0 < y) (hy1 : y ≤ 1 / 2)
    (hz0 : ((p:ℝ) - q) / d < z) (hz1 : z ≤ ((p:ℝ) + q) / d) (hzX : |z| ≤ X)
    (hT : pev T z / M' = pev (liL 2 M K) y / M)
    (hε : (E : ℝ) / En + (1 / M + (1 / 2) ^ K) / (1 - 1 / 2) ≤ ε) (hε1 : ε ≤ 1 / 100)
    (hδ : δ' ≤ (δ : ℝ) / N) (hδ0 : 0 < δ')
    (hB : vAbs P X ≤ BP ∧ vAbs Q X ≤ BQ) (hu : u * BQ ≤ δ' / 2) (hK : 2 * (BP + 2.01 * BQ) / δ' ≤ B) :
    0 < rv S Q z ∧ |rv S P z / rv S Q z - reLi 2 y / y| ≤ ε + u * B := by
  obtain ⟨hN, hq, hd, hM', hEn, hδz, hM⟩ := hpos
  obtain ⟨h1, h2⟩ := rcert_qv h hden hN hq hd hM' hEn hδz hz0 hz1
  have hya : |y| ≤ 1 / 2 := by rw [abs_of_pos hy0]; exact hy1
  have h3 := reLi_taylor 0 (M := M) (K := K) hM hy0.ne' hya (by norm_num)
  have h4 := reLi_div_abs_le 0 hy0.ne' hya (by norm_num)
  rw [zero_add] at h3 h4
  rw [hT] at h2
  have h5 : |qv P z / qv Q z - reLi 2 y / y| ≤ ε := by
    rw [abs_sub_comm] at h3
    calc _ ≤ |qv P z / qv Q z - pev (liL 2 M K) y / M| + |pev (liL 2 M K) y / M - reLi 2 y / y| := abs_sub_le _ _ _
      _ ≤ _ := by linarith
  exact rat_approx P Q hS hzX hδ0 (hδ.trans h1) h5 (by norm_num at h4; linarith) hB.1 hB.2 hu hK

theorem li2f_ratio {u : ℝ} (hS : S.Lit u) (hu : u ≤ 1 / 1000) {y : ℝ} (hy0 : 0 < y) (hy1 : y ≤ 1 / 2) :
    0 < rv S li2fQ y ∧ |rv S li2fP y / rv S li2fQ y - reLi 2 y / y| ≤ 2.4e-7 + u * 19 := by
  refine li2_ratio li2fP li2fQ hS (M := 2^40) (K := 40) (X := 1/2) (BP := 1.41) (BQ := 1.57) (δ' := 1/2) cert_li2f
    den_li2.1 (by norm_num) hy0 hy1 (by norm_num; exact hy0) (by norm_num; linarith)
    (by rw [abs_of_pos hy0]; push_cast; linarith) (by norm_num) (by norm_num) (by norm_num) (by norm_num) (by norm_num)
    (by decide +kernel) (by push_cast; linarith) (by norm_num)

theorem li2d_ratio {u : ℝ} (hS : S.Lit u) (hu : u ≤ 1 / 1000) {y : ℝ} (hy0 : 0 < y) (hy1 : y ≤ 1 / 2) :
    0 < rv S li2dQ y ∧ |rv S li2dP y / rv S li2dQ y - reLi 2 y / y| ≤ 5.87e-17 + u * 137 := by
  refine li2_ratio li2dP li2dQ hS (M := 2^80) (K := 64) (X := 1/2) (BP := 3.17) (BQ := 3.53) (δ' := 0.15) cert_li2d
    den_li2.2.1 (by norm_num) hy0 hy1 (by norm_num; exact hy0) (by norm_num; linarith)
    (by rw [abs_of_pos hy0]; push_cast; linarith) (by norm_num) (by norm_num) (by norm_num) (by norm_num) (by norm_num)
    (by decide +kernel) (by push_cast; linarith) (by norm_num)

theorem li2l18_ratio {u : ℝ} (hS : S.Lit u) (hu : u ≤ 1 / 1000) {y : ℝ} (hy0 : 0 < y) (hy1 : y ≤ 1 / 2) :
    0 < rv S li2l18Q (y - 1/4) ∧
      |rv S li2l18P (y - 1/4) / rv S li2l18Q (y - 1/4) - reLi 2 y / y| ≤ 2.15e-20 + u * 98 := by
  refine li2_ratio li2l18P li2l18Q hS (M := 2^90) (K := 80) (X := 1/4) (BP := 3.23) (BQ := 3.23) (δ' := 0.2) cert_li2l18
    den_li2.2.2.1 (by norm_num) hy0 hy1 (by norm_num; linarith) (by norm_num; linarith)
    (by rw [abs_le]; push_cast; constructor <;> linarith) ?_ (by norm_num) (by norm_num) (by norm_num) (by norm_num)
    (by decide +kernel) (by push_cast; linarith) (by norm_num)
  rw [pev_paff (by norm_num) (liL_length _ _ _), show (((1:ℤ):ℝ) + ((4:ℤ):ℝ) * (y - 1/4)) / ((4:ℤ):ℝ) = y by push_cast; ring]
  push_cast; ring

theorem li2l36_ratio {u : ℝ} (hS : S.Lit u) (hu : u ≤ 1 / 1000) {y : ℝ} (hy0 : 0 < y) (hy1 : y ≤ 1 / 2) :
    0 < rv S li2l36Q (y - 1/4) ∧
      |rv S li2l36P (y - 1/4) / rv S li2l36Q (y - 1/4) - reLi 2 y / y| ≤ 4.31e-36 + u * 1605 := by
  refine li2_ratio li2l36P li2l36Q hS (M := 2^140) (K := 130) (X := 1/4) (BP := 10.66) (BQ := 10.66) (δ' := 0.04) cert_li2l36
    den_li2.2.2.2 (by norm_num) hy0 hy1 (by norm_num; linarith) (by norm_num; linarith)
    (by rw [abs_le]; push_cast; constructor <;> linarith) ?_ (by norm_num) (by norm_num) (by norm_num) (by norm_num)
    (by decide +kernel) (by push_cast; linarith) (by norm_num)
  rw [pev_paff (by norm_num) (liL_length _ _ _), show (((1:ℤ):ℝ) + ((4:ℤ):ℝ) * (y - 1/4)) / ((4:ℤ):ℝ) = y by push_cast; ring]
  push_cast; ring

/-! ## the properties -/

theorem li2_g_bound {r ε y : ℝ} (hy : 0 < y) (h : |r - reLi 2 y / y| ≤ ε) : |y * r - reLi 2 y| ≤ ε * y := by
  have e : y * r - reLi 2 y = y * (r - reLi 2 y / y) := by field_simp
  rw [e, abs_mul, abs_of_pos hy, mul_comm]
  exact mul_le_mul_of_nonneg_right h hy.le

theorem li2fFin_eq (y r s : R S) (h : rv S li2fQ (ofR y) ≠ 0) :
    ofR (li2fFin y r s) = ofR r + ofR s * (ofR y * (rv S li2fP (ofR y) / rv S li2fQ (ofR y))) := by
  have hq : ofR ((FOps.lit li2fQ[0] : R S) +. y *. (FOps.lit li2fQ[1] : R S) +. y *. y *. (FOps.lit li2fQ[2] : R S)) = rv S li2fQ (ofR y) := by
    simp [rsem, rv, Fin.sum_univ_succ]; ring
  have hp : ofR ((FOps.lit li2fP[0] : R S) +. y *. (FOps.lit li2fP[1] : R S) +. y *. y *. (FOps.lit li2fP[2] : R S)) = rv S li2fP (ofR y) := by
    simp [rsem, rv, Fin.sum_univ_succ]; ring
  unfold li2fFin
  dsimp only
  rw [ofR_add, ofR_div (by rw [hq]; exact h), hq, ofR_mul, hp, ofR_mul]
  ring

theorem li2dFin_eq (y r s : R S) (h : rv S li2dQ (ofR y) ≠ 0) :
    ofR (li2dFin y r s) = ofR r + ofR s * (ofR y * (rv S li2dP (ofR y) / rv S li2dQ (ofR y))) := by
  unfold li2dFin
  dsimp only
  have hq : ofR ((FOps.lit li2dQ[0] : R S) +. y *. (FOps.lit li2dQ[1] : R S) +. y *. y *. ((FOps.lit li2dQ[2] : R S) +. y *. (FOps.lit li2dQ[3] : R S))
      +. y *. y *. (y *. y) *. ((FOps.lit li2dQ[4] : R S) +. y *. (FOps.lit li2dQ[5] : R S) +. y *. y *. (FOps.lit li2dQ[6] : R S))) = rv S li2dQ (ofR y) := by
    simp [rsem, rv, Fin.sum_univ_succ]; ring
  have hp : ofR ((FOps.lit li2dP[0] : R S) +. y *. (FOps.lit li2dP[1] : R S) +. y *. y *. ((FOps.lit li2dP[2] : R S) +. y *. (FOps.lit li2dP[3] : R S))
      +. y *. y *. (y *. y) *. ((FOps.lit li2dP[4] : R S) +. y *. (FOps.lit li2dP[5] : R S))) = rv S li2dP (ofR y) := by
    simp [rsem, rv, Fin.sum_univ_succ]; ring
  rw [ofR_add, ofR_div (by rw [hq]; exact h), hq, ofR_mul, hp, ofR_mul]
  ring

theorem li2lFin_eq {u : ℝ} (hS : S.Lit u) {n m : ℕ} (P : Vector ℚ (n + 1)) (Q : Vector ℚ (m + 1)) (y r s : R S)
    (h : rv S Q (ofR y - 1/4) ≠ 0) :
    ofR (li2lFin P Q y r s) = ofR r + ofR s * (ofR y * (rv S P (ofR y - 1/4) / rv S Q (ofR y - 1/4))) := by
  have hz : ofR (y -. (FOps.lit 0.25 : R S)) = ofR y - 1/4 := by
    rw [ofR_sub, ofR_lit, hS.dy 0.25 1 2 (by norm_num) (by norm_num) (by norm_num)]; norm_num
  unfold li2lFin
  dsimp only
  have hq : ofR (horner (y -. (FOps.lit 0.25 : R S)) Q) = rv S Q (ofR y - 1/4) := by rw [C06_horner, hz]; rfl
  have hp : ofR (horner (y -. (FOps.lit 0.25 : R S)) P) = rv S P (ofR y - 1/4) := by rw [C06_horner, hz]; rfl
  rw [ofR_add, ofR_div (by rw [hq]; exact h), hq, ofR_mul, hp, ofR_mul]
  ring

/-- **C08.** float `Li2(x)`: for every real `x` the method error is at most `1.3e-7` (plus `17 u`, `u` the relative
error of the compiled literals). -/
theorem C08_Li2f {u : ℝ} (hS : S.Lit u) (hu : u ≤ 1 / 1000) (x : ℝ) :
    |ofR (Li2f (toR S x)) - (pLi 2 (x : ℂ)).re| ≤ 1.3e-7 + 17 * u := by
  have h := li2Gen_accuracy hS li2fFin (FOps.lit 3.14159265) (fun y => y * (rv S li2fP y / rv S li2fQ y)) (2.4e-7 + u * 19)
    (fun y r s h0 h1 => li2fFin_eq y r s (li2f_ratio hS hu h0 h1).1.ne')
    (fun y h0 h1 => li2_g_bound h0 (li2f_ratio hS hu h0 h1).2) (by have := hS.u_nonneg; positivity) x
  rw [← Li2f_gen, ofR_lit] at h
  have h2 := litpi_err hS 3.14159265 (by norm_num) (by norm_num) (e := ((3.6e-9 : ℚ) : ℝ)) (pi_lit _ _ (by decide +kernel)) (by norm_num) hu
  push_cast at h2
  have := hS.u_nonneg
  refine h.trans ?_
  linarith

/-- **C08**, documented error of the approximation on `[0, 1/2)`: relative error `2.4e-7`. -/
theorem C08_Li2f_half {u : ℝ} (hS : S.Lit u) (hu : u ≤ 1 / 1000) (x : ℝ) (h0 : 0 ≤ x) (h1 : x < 1 / 2) :
    |ofR (Li2f (toR S x)) - (pLi 2 (x : ℂ)).re| ≤ (2.4e-7 + 19 * u) * x := by
  have e5 : ((S.rho 0.5 : ℚ) : ℝ) = 1 / 2 := by rw [hS.half]; norm_num
  rw [Li2f_gen, li2Gen]
  simp only [lt_R, eq_R, ofR_neg, ofR_lit, hS.one, hS.zero, e5, ofR_toR, Rat.cast_one, Rat.cast_zero, decide_eq_true_eq]
  rw [if_neg (by linarith), if_neg (by linarith), if_neg (by linarith)]
  rcases h0.eq_or_lt with h | h
  · subst h; simp [pLi_zero_right]
  · rw [if_neg h.ne', if_pos h1]
    have h2 := li2f_ratio hS hu h h1.le
    rw [li2fFin_eq (toR S x) _ _ h2.1.ne']
    have := li2_g_bound h h2.2
    simp only [ofR_lit, hS.zero, hS.one, ofR_toR]
    rw [show (19:ℝ) * u = u * 19 by ring]
    simpa [reLi] using this

/-- **C09.** double `Li2(x)`: for every real `x` the method error is at most `1.2e-16` (plus `76 u`). -/
theorem C09_Li2d {u : ℝ} (hS : S.Lit u) (hu : u ≤ 1 / 1000) (x : ℝ) :
    |ofR (Li2d (toR S x)) - (pLi 2 (x : ℂ)).re| ≤ 1.2e-16 + 76 * u := by
  have h := li2Gen_accuracy hS li2dFin (FOps.lit 3.1415926535897932) (fun y => y * (rv S li2dP y / rv S li2dQ y)) (5.87e-17 + u * 137)
    (fun y r s h0 h1 => li2dFin_eq y r s (li2d_ratio hS hu h0 h1).1.ne')
    (fun y h0 h1 => li2_g_bound h0 (li2d_ratio hS hu h0 h1).2) (by have := hS.u_nonneg; positivity) x
  rw [← Li2d_gen, ofR_lit] at h
  have h2 := litpi_err hS 3.1415926535897932 (by norm_num) (by norm_num) (e := ((3.85e-17 : ℚ) : ℝ)) (pi_lit _ _ (by decide +kernel)) (by norm_num) hu
  push_cast at h2
  have := hS.u_nonneg
  refine h.trans ?_
  linarith

/-- **C09**, the approximation on `[0, 1/2)`: error at most `2.94e-17` (documented: `5e-17`), relative error `5.87e-17`. -/
theorem C09_Li2d_half {u : ℝ} (hS : S.Lit u) (hu : u ≤ 1 / 1000) (x : ℝ) (h0 : 0 ≤ x) (h1 : x < 1 / 2) :
    |ofR (Li2d (toR S x)) - (pLi 2 (x : ℂ)).re| ≤ (5.87e-17 + 137 * u) * x := by
  have e5 : ((S.rho 0.5 : ℚ) : ℝ) = 1 / 2 := by rw [hS.half]; norm_num
  rw [Li2d_gen, li2Gen]
  simp only [lt_R, eq_R, ofR_neg, ofR_lit, hS.one, hS.zero, e5, ofR_toR, Rat.cast_one, Rat.cast_zero, decide_eq_true_eq]
  rw [if_neg (by linarith), if_neg (by linarith), if_neg (by linarith)]
  rcases h0.eq_or_lt with h | h
  · subst h; simp [pLi_zero_right]
  · rw [if_neg h.ne', if_pos h1]
    have h2 := li2d_ratio hS hu h h1.le
    rw [li2dFin_eq (toR S x) _ _ h2.1.ne']
    have := li2_g_bound h h2.2
    simp only [ofR_lit, hS.zero, hS.one, ofR_toR]
    rw [show (137:ℝ) * u = u * 137 by ring]
    simpa [reLi] using this

/-- **C10**, `LDBL_DIG <= 18`: method error at most `1.1e-20` (plus `56 u`) for every real `x`. -/
theorem C10_Li2l18 {u : ℝ} (hS : S.Lit u) (hu : u ≤ 1 / 1000) (x : ℝ) :
    |ofR (Li2l18 (toR S x)) - (pLi 2 (x : ℂ)).re| ≤ 1.1e-20 + 56 * u := by
  have h := li2Gen_accuracy hS (li2lFin li2l18P li2l18Q) (FOps.lit 3.14159265358979323846264338327950288)
    (fun y => y * (rv S li2l18P (y - 1/4) / rv S li2l18Q (y - 1/4))) (2.15e-20 + u * 98)
    (fun y r s h0 h1 => li2lFin_eq hS _ _ y r s (li2l18_ratio hS hu h0 h1).1.ne')
    (fun y h0 h1 => li2_g_bound h0 (li2l18_ratio hS hu h0 h1).2) (by have := hS.u_nonneg; positivity) x
  rw [← Li2l_gen, ofR_lit] at h
  have h2 := litpi_err hS 3.14159265358979323846264338327950288 (by norm_num) (by norm_num) (e := ((4.2e-36 : ℚ) : ℝ)) (pi_lit _ _ (by decide +kernel)) (by norm_num) hu
  push_cast at h2
  have := hS.u_nonneg
  refine h.trans ?_
  linarith

/-- **C10**, `LDBL_DIG > 18`: method error at most `1.2e-35` (plus `810 u`) for every real `x`.  The documented
`1.03e-38` is not met by the approximation (see `C10_Li2l36_doc_not_met`). -/
theorem C10_Li2l36 {u : ℝ} (hS : S.Lit u) (hu : u ≤ 1 / 1000) (x : ℝ) :
    |ofR (Li2l36 (toR S x)) - (pLi 2 (x : ℂ)).re| ≤ 1.2e-35 + 810 * u := by
  have h := li2Gen_accuracy hS (li2lFin li2l36P li2l36Q) (FOps.lit 3.14159265358979323846264338327950288)
    (fun y => y * (rv S li2l36P (y - 1/4) / rv S li2l36Q (y - 1/4))) (4.31e-36 + u * 1605)
    (fun y r s h0 h1 => li2lFin_eq hS _ _ y r s (li2l36_ratio hS hu h0 h1).1.ne')
    (fun y h0 h1 => li2_g_bound h0 (li2l36_ratio hS hu h0 h1).2) (by have := hS.u_nonneg; positivity) x
  rw [← Li2l_gen, ofR_lit] at h
  have h2 := litpi_err hS 3.14159265358979323846264338327950288 (by norm_num) (by norm_num) (e := ((4.2e-36 : ℚ) : ℝ)) (pi_lit _ _ (by decide +kernel)) (by norm_num) hu
  push_cast at h2
  have := hS.u_nonneg
  refine h.trans ?_
  linarith

/-- A finding: with the decimal literals of the source and exact arithmetic, the error of the `LDBL_DIG > 18` version
exceeds `1e-36` on `[0, 1/2)`; the documented maximum error is `1.03e-38`. -/
theorem C10_Li2l36_doc_not_met (hid : S.rho = id) : ∃ x : ℝ, 0 ≤ x ∧ x < 1 / 2 ∧
    1e-36 < |ofR (Li2l36 (toR S x)) - (pLi 2 (x : ℂ)).re| := by
  have hS := lit_id S hid
  refine ⟨((499/1000 : ℚ) : ℝ), by norm_num, by norm_num, ?_⟩
  set x : ℝ := ((499/1000 : ℚ) : ℝ) with hx
  have hx0 : 0 < x := by rw [hx]; norm_num
  have hx1 : x < 1 / 2 := by rw [hx]; norm_num
  have e5 : ((S.rho 0.5 : ℚ) : ℝ) = 1 / 2 := by rw [hS.half]; norm_num
  have h2 := li2l36_ratio hS (by norm_num) hx0 hx1.le
  have e : ofR (Li2l36 (toR S x)) = x * (qv li2l36P (x - 1/4) / qv li2l36Q (x - 1/4)) := by
    rw [Li2l36, Li2l_gen, li2Gen]
    simp only [lt_R, eq_R, ofR_neg, ofR_lit, hS.one, hS.zero, e5, ofR_toR, Rat.cast_one, Rat.cast_zero, decide_eq_true_eq]
    rw [if_neg (by linarith), if_neg (by linarith), if_neg (by linarith), if_neg hx0.ne', if_pos hx1,
      li2lFin_eq hS _ _ (toR S x) _ _ h2.1.ne']
    simp only [ofR_lit, hS.zero, hS.one, ofR_toR, rv_id hid]
    push_cast; ring
  have hT := reLi_taylor 0 (M := 2^140) (K := 140) (by norm_num) hx0.ne' (X := 1/2) (by rw [abs_of_pos hx0]; exact hx1.le) (by norm_num)
  have hz : x - 1/4 = ((249/1000 : ℚ) : ℝ) := by rw [hx]; norm_num
  rw [hz, qv_rat, qv_rat] at e
  rw [zero_add, hx, pev_rat] at hT
  have hc : (3e-36 : ℚ) < |vEv li2l36P (249/1000) / vEv li2l36Q (249/1000) - pevQ (liL 2 (2^140) 140) (499/1000) / 2^140| := by
    decide +kernel
  obtain ⟨L, hL⟩ : ∃ L, L = liL 2 (2^140) 140 := ⟨_, rfl⟩
  rw [← hL] at hc hT
  have hc' := (Rat.cast_lt (K := ℝ)).mpr hc
  rw [Rat.cast_abs] at hc'
  push_cast at hc'
  rw [e]
  have e2 : (pLi 2 (x : ℂ)).re = x * (reLi 2 x / x) := by rw [mul_div_cancel₀ _ hx0.ne']; rfl
  rw [e2, ← mul_sub, abs_mul, abs_of_pos hx0]
  set r := ((vEv li2l36P (249/1000) : ℚ) : ℝ) / ((vEv li2l36Q (249/1000) : ℚ) : ℝ)
  set t := ((pevQ L (499/1000) : ℚ) : ℝ) / 2 ^ 140 with ht
  rw [← hx] at hT
  have hT' : |reLi 2 x / x - t| ≤ 1e-37 := by
    refine le_trans ?_ (le_trans hT (by norm_num))
    rw [ht, Nat.cast_pow, Nat.cast_ofNat]
  have h3 : |r - t| ≤ |r - reLi 2 x / x| + |reLi 2 x / x - t| := abs_sub_le _ _ _
  have h4 : 2.9e-36 < |r - reLi 2 x / x| := by linarith
  have h5 : x = 0.499 := by rw [hx]; norm_num
  rw [h5]; rw [h5] at h4
  linarith

/-- **C34** (Li2): the denominators are positive on the interval of use, with the decimal and with the compiled
coefficients. -/
theorem C34_Li2 {u : ℝ} (hS : S.Lit u) (hu : u ≤ 1 / 1000) {y : ℝ} (hy0 : 0 < y) (hy1 : y ≤ 1 / 2) :
    0 < rv S li2fQ y ∧ 0 < rv S li2dQ y ∧ 0 < rv S li2l18Q (y - 1/4) ∧ 0 < rv S li2l36Q (y - 1/4) :=
  ⟨(li2f_ratio hS hu hy0 hy1).1, (li2d_ratio hS hu hy0 hy1).1, (li2l18_ratio hS hu hy0 hy1).1, (li2l36_ratio hS hu hy0 hy1).1⟩

/-- non-vacuity: the decimal literals satisfy the hypotheses with `u = 0` -/
example (x : ℝ) : |ofR (Li2d (toR RealSem.dec x)) - (pLi 2 (x : ℂ)).re| ≤ 1.2e-16 := by
  have := C09_Li2d RealSem.dec_lit (by norm_num) x
  simpa using this

end Polylog
