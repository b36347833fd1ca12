import Verif.Props.LiUnityAcc
import Verif.Props.EtaVals
import Verif.Props.InvFac
import Mathlib.Algebra.Polynomial.Roots

/-!
# C20: the inversion formula in `Li(n,z)`, `|z| ≥ 1.4`
-/

namespace Polylog
open Finset
noncomputable section
variable {S : RealSem} {u : ℝ}

/-- the real value of `neg_eta(k)` computed by the code -/
def etaR (S : RealSem) (k : ℤ) : ℝ := match (negEta k : M (R S)) with
  | .ok v => ofR v
  | .error _ => 0

/-- the real value of `inv_fac(k)` computed by the code -/
def ifacR (S : RealSem) (k : ℤ) : ℝ := match (invFac k : M (R S)) with
  | .ok v => ofR v
  | .error _ => 0

theorem negEta_etaR {k : ℤ} {v : R S} (h : negEta k = .ok v) : ofR v = etaR S k := by unfold etaR; rw [h]
theorem invFac_ifacR {k : ℤ} {v : R S} (h : invFac k = .ok v) : ofR v = ifacR S k := by unfold ifacR; rw [h]

theorem pLi_neg_one_le (k : ℕ) : ‖pLi k (-1)‖ ≤ 1 := by
  have := pLi_norm_le k (-1) (by simp)
  simpa using this

theorem etaR_err (hS : S.Lit u) (k : ℕ) (hk : 1 ≤ k) : ‖(etaR S k : ℂ) - pLi k (-1)‖ ≤ 4.81e-17 + 1.01 * u := by
  have hu := hS.u_nonneg
  rcases le_or_gt k 54 with h | h
  · obtain ⟨v, hv, hb⟩ := C02_pos hS k hk h
    rw [← negEta_etaR hv]
    refine hb.trans ?_
    have := pLi_neg_one_le k
    calc _ ≤ (4.81e-17 + 1.01 * u) * 1 := by gcongr
      _ = _ := by ring
  · obtain ⟨v, hv, h1, r, h2, h3, h4⟩ := C02_big hS k h
    rw [← negEta_etaR hv, h1, h2, ← Complex.ofReal_sub, Complex.norm_real, Real.norm_eq_abs, abs_le]
    constructor <;> norm_num at * <;> linarith

theorem ifacR_err (hS : S.Lit u) (k : ℕ) (hk : k < 178) :
    |ifacR S k - 1 / (k.factorial : ℝ)| ≤ (5.01e-17 + 1.01 * u) * (1 / (k.factorial : ℝ)) := by
  have hu := hS.u_nonneg
  obtain ⟨v, hv, hb⟩ := C03_real hS k hk
  rw [← invFac_ifacR hv]
  refine hb.trans ?_
  refine mul_le_mul_of_nonneg_right ?_ (by positivity)
  norm_num
  linarith

theorem ifacR_big (hS : S.Lit u) (k : ℕ) (hk : 178 ≤ k) : ifacR S k = 0 := by
  have h := (C03_tail (F := R S) k hk).1
  rw [← invFac_ifacR h, ofR_lit, hS.zero]; simp

theorem ifacR_pos (hS : S.Lit u) (hu6 : u ≤ 1e-6) (k : ℕ) (hk : k < 178) : 0 < ifacR S k := by
  have h := (abs_le.mp (ifacR_err hS k hk)).1
  have hf : (0:ℝ) < 1 / (k.factorial : ℝ) := by positivity
  nlinarith

theorem etaR_neg (hS : S.Lit u) (hu6 : u ≤ 1e-6) (k : ℕ) (hk : 1 ≤ k) : etaR S k < 0 := by
  have h := etaR_err hS k hk
  obtain ⟨r, hr, h2⟩ : ∃ r : ℝ, pLi k (-1) = r ∧ r ≤ -1 / 2 := by
    obtain ⟨m, rfl⟩ : ∃ m, k = m + 1 := ⟨k - 1, by omega⟩
    refine ⟨_, pLi_neg_one_real m, ?_⟩
    cases m with
    | zero =>
      have h1 := pLi_neg_one_real 0
      have h3 : pLi (0 + 1) (-1) = ((-(Real.log 2) : ℝ) : ℂ) := by
        rw [zero_add, pLi]; norm_num
      rw [h3] at h1
      have h4 : -(Real.log 2) = reLi (0 + 1) (-1) := by exact_mod_cast h1
      rw [← h4]
      linarith [Real.log_two_gt_d9]
    | succ m =>
      have := (eta_bounds m).1
      have h5 : (1 / 2 : ℝ) ^ (m + 2) ≤ 1 / 4 := by
        calc (1 / 2 : ℝ) ^ (m + 2) ≤ (1 / 2) ^ 2 := pow_le_pow_of_le_one (by norm_num) (by norm_num) (by omega)
          _ = _ := by norm_num
      linarith
  rw [hr, ← Complex.ofReal_sub, Complex.norm_real, Real.norm_eq_abs] at h
  have := (abs_le.mp h).2
  norm_num at *
  linarith

/-- the partial sums of the loop of `Li_rest` (`e` = parity of `n`, `K = n / 2`) -/
def restA (S : RealSem) (e K : ℕ) (L : ℂ) (t : ℕ) : ℂ :=
  ∑ i ∈ range t, ((etaR S ((2 * (K - i) : ℕ):ℤ) * ifacR S ((e + 2 * i : ℕ):ℤ) : ℝ) : ℂ) * L ^ (e + 2 * i)

/-- no partial sum is exactly zero (the loop of `Li_rest` would then stop with a wrong power `p`) -/
def RestOk (S : RealSem) (n : ℕ) (L : ℂ) : Prop := ∀ t, 1 ≤ t → t ≤ min (n / 2) 89 → restA S (n % 2) (n / 2) L t ≠ 0

theorem liRestLoop_R (hS : S.Lit u) (hu6 : u ≤ 1e-6) (n : ℕ) (hn : (n:ℤ) ≤ i64max) (lnz2 : Cx (R S)) (L : ℂ) (hL : lnz2.toC = L ^ 2)
    (hok : RestOk S n L) : ∀ (k : ℕ) (sum p : Cx (R S)), k ≤ n / 2 → n / 2 - k ≤ 89 →
      sum.toC = restA S (n % 2) (n / 2) L (n / 2 - k) → p.toC = L ^ (n - 2 * k) →
      ∃ r, liRestLoop (n:ℤ) lnz2 k sum p = .ok r ∧
        ((n / 2 ≤ 89 ∧ r.1 = none ∧ r.2.1.toC = restA S (n % 2) (n / 2) L (n / 2) ∧ r.2.2.toC = L ^ n) ∨
         (89 < n / 2 ∧ ∃ v, r.1 = some v ∧ v.toC = 2 * restA S (n % 2) (n / 2) L 89)) := by
  simp only [i64max] at hn
  intro k
  induction k with
  | zero =>
    intro sum p _ h89 hs hp
    exact ⟨_, rfl, Or.inl ⟨by omega, rfl, by simpa using hs, by simpa using hp⟩⟩
  | succ k ih =>
    intro sum p hk h89 hs hp
    unfold liRestLoop
    dsimp only
    have e1 : i64mul 2 ((k:ℤ) + 1) = .ok ((2 * (k + 1) : ℕ) : ℤ) := by
      rw [i64mul_ok (by simp only [i64min, i64max]; omega)]; push_cast; ring_nf
    have e2 : i64sub (n:ℤ) ((2 * (k + 1) : ℕ) : ℤ) = .ok ((n - 2 * (k + 1) : ℕ) : ℤ) := by
      rw [i64sub_ok (by simp only [i64min, i64max]; omega), show (n:ℤ) - ((2 * (k + 1) : ℕ) : ℤ) = ((n - 2 * (k + 1) : ℕ) : ℤ) by omega]
    rw [bind_def e1, bind_def e2]
    obtain ⟨v, hv⟩ := C05_inv_fac (F := R S) ((n - 2 * (k + 1) : ℕ) : ℤ)
    rw [bind_def hv]
    have hv' := invFac_ifacR hv
    rw [eq_R, hv', ofR_lit, hS.zero]
    by_cases h178 : 178 ≤ n - 2 * (k + 1)
    · have hb : n / 2 - (k + 1) = 89 := by omega
      rw [if_pos (by rw [ifacR_big hS _ h178]; simp)]
      refine ⟨_, rfl, Or.inr ⟨by omega, _, rfl, ?_⟩⟩
      rw [toC_rmul, hs, hb, ofR_lit, hS.two]; push_cast; rfl
    · have hpos := ifacR_pos hS hu6 (n - 2 * (k + 1)) (by omega)
      rw [if_neg (by simpa using hpos.ne')]
      obtain ⟨w, hw⟩ := defined_negEta (F := R S) ((2 * (k + 1) : ℕ) : ℤ) (by simp only [i64min]; omega) (by simp only [i64max]; omega)
      rw [bind_def hw]
      have hw' := negEta_etaR hw
      have ek : n / 2 - k = (n / 2 - (k + 1)) + 1 := by omega
      have hs' : (sum +. w *. v *. p).toC = restA S (n % 2) (n / 2) L (n / 2 - k) := by
        rw [toC_add, toC_rmul, ofR_mul, hs, hp, hv', hw', ek, restA, restA, sum_range_succ]
        have i1 : 2 * (n / 2 - (n / 2 - (k + 1))) = 2 * (k + 1) := by omega
        have i2 : n % 2 + 2 * (n / 2 - (k + 1)) = n - 2 * (k + 1) := by omega
        rw [i1, i2]
      have hp' : (p *. lnz2).toC = L ^ (n - 2 * k) := by
        rw [toC_mul, hp, hL, ← pow_add, show n - 2 * (k + 1) + 2 = n - 2 * k by omega]
      have hne := hok (n / 2 - k) (by omega) (by omega)
      have hb : Cx.beq (sum +. w *. v *. p) ⟨(FOps.lit 0 : R S), (FOps.lit 0 : R S)⟩ = false := by
        rw [beq_R, hs', toC_lit_lit0 hS, ofR_lit, hS.zero]
        simpa using hne
      rw [hb]
      simp only [Bool.false_eq_true, if_false]
      exact ih _ _ (by omega) (by omega) hs' hp'

/-- `Li_rest` over the reals -/
theorem liRest_R (hS : S.Lit u) (hu6 : u ≤ 1e-6) (n : ℕ) (hn : (n:ℤ) ≤ i64max) (z : Cx (R S)) (hok : RestOk S n (clog ∸z).toC) :
    ∃ v, liRest (n:ℤ) z = .ok v ∧ v.toC = 2 * restA S (n % 2) (n / 2) (clog ∸z).toC (min (n / 2) 89) -
      (if n < 178 then ((ifacR S n : ℝ) : ℂ) * (clog ∸z).toC ^ n else 0) := by
  have hn' := hn
  simp only [i64max] at hn'
  set L := (clog ∸z).toC with hLd
  have hev : isEven (n:ℤ) = decide (n % 2 = 0) := by
    have := isEven_iff (n:ℤ)
    cases h : isEven (n:ℤ)
    · rw [h] at this; simp at this; simp; omega
    · rw [h] at this; simp at this; simp; omega
  have hk : (if isEven (n:ℤ) = true then i64div (n:ℤ) 2 else i64div ((n:ℤ) - 1) 2).toNat = n / 2 := by
    have h1 : i64div (n:ℤ) 2 = ((n / 2 : ℕ) : ℤ) := by unfold i64div; rw [Int.tdiv_eq_ediv_of_nonneg (by omega)]; omega
    rw [hev]
    by_cases h : n % 2 = 0
    · simp only [h, decide_true, if_true]; rw [h1]; omega
    · simp only [h, decide_false, Bool.false_eq_true, if_false]
      unfold i64div; rw [Int.tdiv_eq_ediv_of_nonneg (by omega)]; omega
  have hp : (if isEven (n:ℤ) = true then Cx.ofReal (FOps.lit 1 : R S) else clog ∸z).toC = L ^ (n - 2 * (n / 2)) := by
    rw [hev]
    by_cases h : n % 2 = 0
    · simp only [h, decide_true, if_true]
      rw [toC_ofReal hS.zero, ofR_lit, hS.one, show n - 2 * (n / 2) = 0 by omega]; simp
    · simp only [h, decide_false, Bool.false_eq_true, if_false]
      rw [show n - 2 * (n / 2) = 1 by omega, pow_one]
  obtain ⟨r, hr, h⟩ := liRestLoop_R hS hu6 n hn (clog ∸z *. clog ∸z) L (by rw [toC_mul, ← hLd]; ring) hok (n / 2) ⟨(FOps.lit 0 : R S), (FOps.lit 0 : R S)⟩
    (if isEven (n:ℤ) = true then Cx.ofReal (FOps.lit 1 : R S) else clog ∸z) le_rfl (by omega)
    (by rw [toC_lit_lit0 hS, ofR_lit, hS.zero, Nat.sub_self, restA]; simp) hp
  unfold liRest
  dsimp only
  rw [hk, bind_def hr]
  obtain ⟨w, hw⟩ := C05_inv_fac (F := R S) (n : ℤ)
  rcases h with ⟨h1, h2, h3, h4⟩ | ⟨h1, v, h2, h3⟩
  · rw [h2]
    dsimp only
    rw [bind_def hw]
    refine ⟨_, rfl, ?_⟩
    rw [toC_sub, toC_rmul, toC_mulr, h3, h4, ofR_lit, hS.two, invFac_ifacR hw, min_eq_left h1]
    split
    · push_cast; ring
    · rw [ifacR_big hS n (by omega)]; push_cast; ring
  · rw [h2]
    refine ⟨v, rfl, ?_⟩
    rw [h3, min_eq_right h1.le, if_neg (by omega), sub_zero]

/-! ### the polynomial of the inversion formula -/

/-- a sum over the indices of one parity -/
theorem sum_parity {M : Type} [AddCommMonoid M] (f : ℕ → M) (e : ℕ) (he : e < 2) (hf : ∀ m, m % 2 ≠ e → f m = 0) (K : ℕ) :
    ∑ m ∈ range (e + 2 * K + 1), f m = ∑ i ∈ range (K + 1), f (e + 2 * i) := by
  induction K with
  | zero =>
    interval_cases e
    · simp
    · rw [show 1 + 2 * 0 + 1 = 1 + 1 by ring, sum_range_succ, sum_range_one, hf 0 (by norm_num), zero_add]; simp
  | succ K ih =>
    rw [sum_range_succ _ (K + 1), ← ih, show e + 2 * (K + 1) + 1 = e + 2 * K + 1 + 1 + 1 by ring, sum_range_succ _ (e + 2 * K + 1 + 1),
      sum_range_succ _ (e + 2 * K + 1), hf (e + 2 * K + 1) (by omega), add_zero]
    rfl

theorem invC_le (j : ℕ) : ‖invC j‖ ≤ 2 := by
  unfold invC
  split
  · rw [norm_mul]
    have := pLi_neg_one_le j
    have h2 : ‖(2:ℂ)‖ = 2 := by norm_num
    rw [h2]; linarith
  · simp

theorem appell_parity (n : ℕ) (L : ℂ) :
    appell invC n L = ∑ i ∈ range (n / 2 + 1), invC (2 * (n / 2 - i)) * (L ^ (n % 2 + 2 * i) / ((n % 2 + 2 * i).factorial : ℂ)) := by
  have h1 : appell invC n L = ∑ m ∈ range (n + 1), invC (n - m) * (L ^ m / (m.factorial : ℂ)) := by
    rw [appell, ← sum_range_reflect]
    refine sum_congr rfl fun m hm => ?_
    rw [mem_range] at hm
    rw [show n + 1 - 1 - m = n - m by omega, show n - (n - m) = m by omega]
  have h2 : n + 1 = n % 2 + 2 * (n / 2) + 1 := by omega
  rw [h1, h2]
  have h3 : ∀ m ∈ range (n % 2 + 2 * (n / 2) + 1), invC (n - m) * (L ^ m / (m.factorial : ℂ)) =
      (fun m => if m % 2 = n % 2 then invC (n - m) * (L ^ m / (m.factorial : ℂ)) else 0) m := by
    intro m hm
    rw [mem_range] at hm
    dsimp only
    split
    · rfl
    · rw [invC, if_neg (by rw [Nat.not_even_iff]; omega), zero_mul]
  rw [sum_congr rfl h3, sum_parity _ (n % 2) (by omega) (fun m hm => if_neg hm)]
  refine sum_congr rfl fun i hi => ?_
  rw [mem_range] at hi
  rw [if_pos (by omega), show n - (n % 2 + 2 * i) = 2 * (n / 2 - i) by omega]

theorem appell_norm_le (n : ℕ) {L : ℂ} {r : ℝ} (h : ‖L‖ ≤ r) : ‖appell invC n L‖ ≤ 2 * ∑ m ∈ range (n + 1), r ^ m / (m.factorial : ℝ) := by
  rw [appell, mul_sum, ← sum_range_reflect (fun m => 2 * (r ^ m / (m.factorial : ℝ)))]
  refine (norm_sum_le _ _).trans (sum_le_sum fun j hj => ?_)
  rw [mem_range] at hj
  rw [norm_mul, norm_div, norm_pow, Complex.norm_natCast, show n + 1 - 1 - j = n - j by omega]
  have := norm_nonneg L
  gcongr
  exact invC_le j

theorem appell_lip (n : ℕ) {L L' : ℂ} {r : ℝ} (h : ‖L‖ ≤ r) (h' : ‖L'‖ ≤ r) :
    ‖appell invC (n + 1) L' - appell invC (n + 1) L‖ ≤ (2 * ∑ m ∈ range (n + 1), r ^ m / (m.factorial : ℝ)) * ‖L' - L‖ := by
  refine (convex_closedBall (0:ℂ) r).norm_image_sub_le_of_norm_hasDerivWithin_le (𝕜 := ℂ) (f' := appell invC n)
    (fun x _ => (appell_hasDerivAt invC n x).hasDerivWithinAt) (fun x hx => appell_norm_le n ?_) ?_ ?_
  · simpa using hx
  · simpa using h
  · simpa using h'

/-- the polynomial computed by `Li_rest` against the exact one, the same logarithm -/
theorem rest_err (hS : S.Lit u) (hu6 : u ≤ 1e-6) (n : ℕ) (hn : 2 ≤ n) (L : ℂ) {r : ℝ} (hr : ‖L‖ ≤ r) :
    ‖(2 * restA S (n % 2) (n / 2) L (min (n / 2) 89) - (if n < 178 then ((ifacR S n : ℝ) : ℂ) * L ^ n else 0)) - appell invC n L‖ ≤
      ∑ m ∈ range (n + 1), (if m < 178 then 2e-16 + 4.2 * u else 2) * (r ^ m / (m.factorial : ℝ)) := by
  have hu := hS.u_nonneg
  have hr0 : 0 ≤ r := le_trans (norm_nonneg _) hr
  set e := n % 2 with he
  set K := n / 2 with hK
  have hnK : n = e + 2 * K := by omega
  -- computed coefficients
  let c : ℕ → ℂ := fun i => if i < K then (if i < 89 then 2 * ((etaR S ((2 * (K - i) : ℕ):ℤ) * ifacR S ((e + 2 * i : ℕ):ℤ) : ℝ) : ℂ) else 0)
    else (if n < 178 then -((ifacR S n : ℝ) : ℂ) else 0)
  have h1 : 2 * restA S e K L (min K 89) - (if n < 178 then ((ifacR S n : ℝ) : ℂ) * L ^ n else 0) = ∑ i ∈ range (K + 1), c i * L ^ (e + 2 * i) := by
    rw [sum_range_succ]
    have ha : ∑ i ∈ range K, c i * L ^ (e + 2 * i) = 2 * restA S e K L (min K 89) := by
      rw [restA, mul_sum]
      rw [← sum_subset (range_subset_range.mpr (min_le_left K 89))]
      · refine sum_congr rfl fun i hi => ?_
        rw [mem_range] at hi
        show (if i < K then (if i < 89 then _ else _) else _) * _ = _
        rw [if_pos (by omega), if_pos (by omega)]; ring
      · intro i hi hi2
        rw [mem_range] at hi hi2
        show (if i < K then (if i < 89 then _ else _) else _) * _ = _
        rw [if_pos hi, if_neg (by omega), zero_mul]
    rw [ha]
    have hb : c K = if n < 178 then -((ifacR S n : ℝ) : ℂ) else 0 := if_neg (lt_irrefl _)
    rw [hb, ← hnK]
    split
    · ring
    · ring
  rw [h1, appell_parity, ← he, ← hK, ← sum_sub_distrib]
  have h2 : ∀ i ∈ range (K + 1), ‖c i * L ^ (e + 2 * i) - invC (2 * (K - i)) * (L ^ (e + 2 * i) / ((e + 2 * i).factorial : ℂ))‖ ≤
      (fun m => if m % 2 = e then (if m < 178 then 2e-16 + 4.2 * u else 2) * (r ^ m / (m.factorial : ℝ)) else 0) (e + 2 * i) := by
    intro i hi
    rw [mem_range] at hi
    dsimp only
    rw [if_pos (by omega)]
    set m := e + 2 * i with hm
    have hf : (0:ℝ) < 1 / (m.factorial : ℝ) := by positivity
    have e1 : c i * L ^ m - invC (2 * (K - i)) * (L ^ m / (m.factorial : ℂ)) = (c i - invC (2 * (K - i)) * (((1 / (m.factorial : ℝ) : ℝ)) : ℂ)) * L ^ m := by
      push_cast; ring
    rw [e1, norm_mul, norm_pow]
    have key : ‖c i - invC (2 * (K - i)) * (((1 / (m.factorial : ℝ) : ℝ)) : ℂ)‖ ≤ (if m < 178 then 2e-16 + 4.2 * u else 2) * (1 / (m.factorial : ℝ)) := by
      have hinv : invC (2 * (K - i)) = 2 * pLi (2 * (K - i)) (-1) := by rw [invC, if_pos (even_two_mul _)]
      by_cases h178 : m < 178
      · rw [if_pos h178]
        have hfe := ifacR_err hS m h178
        by_cases hiK : i < K
        · have hc : c i = 2 * ((etaR S ((2 * (K - i) : ℕ):ℤ) * ifacR S (m:ℤ) : ℝ) : ℂ) := by
            show (if i < K then (if i < 89 then _ else _) else _) = _
            rw [if_pos hiK, if_pos (by omega)]
          have hee := etaR_err hS (2 * (K - i)) (by omega)
          have hle := pLi_neg_one_le (2 * (K - i))
          rw [hc, hinv]
          have e2 : (2 * ((etaR S ((2 * (K - i) : ℕ):ℤ) * ifacR S (m:ℤ) : ℝ) : ℂ) - 2 * pLi (2 * (K - i)) (-1) * (((1 / (m.factorial : ℝ) : ℝ)) : ℂ)) =
              2 * ((((etaR S ((2 * (K - i) : ℕ):ℤ) : ℝ) : ℂ) - pLi (2 * (K - i)) (-1)) * ((ifacR S (m:ℤ) : ℝ) : ℂ) +
                pLi (2 * (K - i)) (-1) * (((ifacR S (m:ℤ) - 1 / (m.factorial : ℝ) : ℝ)) : ℂ)) := by push_cast; ring
          rw [e2, norm_mul]
          have n2 : ‖(2:ℂ)‖ = 2 := by norm_num
          have hif : |ifacR S (m:ℤ)| ≤ 1.00001 * (1 / (m.factorial : ℝ)) := by
            rw [abs_le] at hfe ⊢
            constructor <;> nlinarith
          have b1 : ‖(((etaR S ((2 * (K - i) : ℕ):ℤ) : ℝ) : ℂ) - pLi (2 * (K - i)) (-1)) * ((ifacR S (m:ℤ) : ℝ) : ℂ)‖ ≤ (4.81e-17 + 1.01 * u) * (1.00001 * (1 / (m.factorial : ℝ))) := by
            rw [norm_mul, Complex.norm_real, Real.norm_eq_abs]
            exact mul_le_mul hee hif (abs_nonneg _) (by positivity)
          have b2 : ‖pLi (2 * (K - i)) (-1) * (((ifacR S (m:ℤ) - 1 / (m.factorial : ℝ) : ℝ)) : ℂ)‖ ≤ 1 * ((5.01e-17 + 1.01 * u) * (1 / (m.factorial : ℝ))) := by
            rw [norm_mul, Complex.norm_real, Real.norm_eq_abs]
            exact mul_le_mul hle hfe (abs_nonneg _) (by norm_num)
          rw [n2]
          have := norm_add_le ((((etaR S ((2 * (K - i) : ℕ):ℤ) : ℝ) : ℂ) - pLi (2 * (K - i)) (-1)) * ((ifacR S (m:ℤ) : ℝ) : ℂ)) (pLi (2 * (K - i)) (-1) * (((ifacR S (m:ℤ) - 1 / (m.factorial : ℝ) : ℝ)) : ℂ))
          generalize (1 / (m.factorial : ℝ)) = F at *
          nlinarith
        · have hiK' : i = K := by omega
          have hmn : m = n := by rw [hm, hiK', hnK]
          have hc : c i = -((ifacR S (m:ℤ) : ℝ) : ℂ) := by
            show (if i < K then (if i < 89 then _ else _) else _) = _
            rw [if_neg hiK, if_pos (by omega), hmn]
          have h0 : pLi (2 * (K - i)) (-1) = -(1 / 2) := by
            rw [hiK', Nat.sub_self, mul_zero, pLi]; norm_num
          rw [hc, hinv, h0]
          have e2 : (-((ifacR S (m:ℤ) : ℝ) : ℂ) - 2 * -(1 / 2) * (((1 / (m.factorial : ℝ) : ℝ)) : ℂ)) = -((((ifacR S (m:ℤ) - 1 / (m.factorial : ℝ) : ℝ)) : ℂ)) := by
            push_cast; ring
          rw [e2, norm_neg, Complex.norm_real, Real.norm_eq_abs]
          refine hfe.trans ?_
          gcongr
          · norm_num
          · norm_num
      · rw [if_neg h178]
        have hc : c i = 0 := by
          show (if i < K then (if i < 89 then _ else _) else _) = _
          split
          · rw [if_neg (by omega)]
          · rw [if_neg (by omega)]
        rw [hc, zero_sub, norm_neg, norm_mul, Complex.norm_real, Real.norm_eq_abs, abs_of_pos hf]
        gcongr
        exact invC_le _
    have hn0 : 0 ≤ (if m < 178 then 2e-16 + 4.2 * u else 2) := by split <;> positivity
    calc _ ≤ (if m < 178 then 2e-16 + 4.2 * u else 2) * (1 / (m.factorial : ℝ)) * r ^ m := by
          refine mul_le_mul key (pow_le_pow_left₀ (norm_nonneg _) hr _) (by positivity) (by positivity)
      _ = _ := by ring
  refine (norm_sum_le _ _).trans ((sum_le_sum h2).trans ?_)
  have h3 := sum_parity (fun m => if m % 2 = e then (if m < 178 then 2e-16 + 4.2 * u else 2) * (r ^ m / (m.factorial : ℝ)) else 0) e (by omega) (fun m hm => if_neg hm) K
  rw [← h3, ← hnK]
  refine sum_le_sum fun m _ => ?_
  have hn0 : 0 ≤ (if m < 178 then 2e-16 + 4.2 * u else 2) := by split <;> positivity
  split
  · exact le_rfl
  · positivity

/-- `Li` dispatches to the inversion formula for `n ≥ 7`, `|z| ≥ 1.4` -/
theorem Li_inv_branch {F : Type} [FOps F] (fuel : ℕ) (n : Int) (h7 : 7 ≤ n) (z : Cx F) (hr : Regular z)
    (h1 : (Cx.norm z <=. (FOps.lit 0.75 : F) *. (FOps.lit 0.75 : F)) = false)
    (h : (Cx.norm z >=. (FOps.lit 1.4 : F) *. (FOps.lit 1.4 : F)) = true) :
    Li fuel n z = (do
      let r ← liRest n z
      pure ((if isEven n then ∸(FOps.lit 1 : F) else (FOps.lit 1 : F)) *. liSeries n ((FOps.lit 1 : F) /. z) +. r)) := by
  rw [Li.eq_def]
  simp only [hr.nan, hr.inf, hr.zero, hr.one, hr.mone, h1, Bool.false_eq_true, if_false]
  rw [if_neg (by omega), if_neg (by omega), if_neg (by omega), if_neg (by omega), if_neg (by omega), if_neg (by omega),
    if_neg (by omega), if_neg (by omega), if_neg (by omega), if_pos h]

theorem series_tail_T : ∃ T : ℝ, T = 4 * (3 / 4) ^ (2 ^ 63 - 2) ∧ ∀ (N : ℕ) (z : ℂ), ‖z‖ ≤ 3 / 4 →
    ‖(∑ k ∈ Finset.range (2 ^ 63 - 3), z ^ (k + 1) / ((k : ℂ) + 1) ^ (N + 1)) - pLi (N + 1) z‖ ≤ T :=
  ⟨_, rfl, fun N _ hz => series_full N (2 ^ 63 - 3) hz⟩

/-- **C20 (`|z| ≥ 1.4`).** For every `n ≥ 7` and every `z` with `|z| ≥ 1.4` (exact elementary operations, literals with
relative error `u`) such that no partial sum of `Li_rest` is exactly zero: `Li(n,z)` is `Li_n(z)` up to a relative error
`2.9e-16 + 11 u` of the terms `r^m/m!` (`r` is `|log(-z)|`) of order `m < 178`, plus the terms of order `m ≥ 178`, which the code
drops, plus the tail of the power series of `Li_n(1/z)`. -/
theorem C20_inversion (hS : S.Lit u) (hu6 : u ≤ 1e-6) (fuel n : ℕ) (h7 : 7 ≤ n) (hn : (n:ℤ) ≤ i64max) {z : ℂ}
    (hz : ((S.rho 1.4 : ℚ) : ℝ) ≤ ‖z‖) (hok : RestOk S n (clog ∸(ofC S z)).toC) :
    ∃ v, Li fuel (n:ℤ) (ofC S z) = .ok v ∧ ‖v.toC - pLi n z‖ ≤
      ∑ m ∈ range (n + 1), (if m < 178 then 2.9e-16 + 11 * u else 2.1) * ((‖Complex.log (-z)‖ + 4e-17 + 3.2 * u) ^ m / (m.factorial : ℝ)) +
      4 * (3 / 4) ^ (2 ^ 63 - 2) := by
  obtain ⟨T, hT, hfull⟩ := series_tail_T
  rw [← hT]
  clear hT
  have hu := hS.u_nonneg
  have h14 : (1.3999:ℝ) ≤ ((S.rho 1.4 : ℚ) : ℝ) := by
    have := (abs_le.mp (hS.rel 1.4)).1
    have e : (((1.4 : ℚ)) : ℝ) = 1.4 := by norm_num
    rw [e, abs_of_pos (by norm_num : (0:ℝ) < 1.4)] at this
    norm_num at *
    linarith
  have hz1 : 1.3999 ≤ ‖z‖ := h14.trans hz
  have h0 : z ≠ 0 := by rintro rfl; norm_num at hz1
  have h1 : z ≠ 1 := by rintro rfl; norm_num at hz1
  have h2 : z ≠ -1 := by rintro rfl; norm_num at hz1
  have c1 : (Cx.norm (ofC S z) <=. (FOps.lit 0.75 : R S) *. (FOps.lit 0.75 : R S)) = false := by
    rw [Bool.eq_false_iff, ne_eq, norm_le_075 hS]; intro h; linarith
  have c2 : (Cx.norm (ofC S z) >=. (FOps.lit 1.4 : R S) *. (FOps.lit 1.4 : R S)) = true := by
    rw [ge_R, ofR_norm, ofR_mul, ofR_lit, decide_eq_true_eq, toC_ofC, Complex.normSq_eq_norm_sq]
    nlinarith [norm_nonneg z]
  obtain ⟨w, hw, hwv⟩ := liRest_R hS hu6 n hn (ofC S z) hok
  have hLi := Li_inv_branch fuel (n:ℤ) (by omega) (ofC S z) (regular_R hS _ h0 h1 h2) c1 c2
  rw [bind_def hw] at hLi
  refine ⟨_, hLi, ?_⟩
  have hinv : ((FOps.lit 1 : R S) /. (ofC S z)).toC = z⁻¹ := by
    rw [toC_rdiv hS.zero (by simpa using h0), ofR_lit, hS.one, toC_ofC]; simp
  have hser : (liSeries (n:ℤ) ((FOps.lit 1 : R S) /. (ofC S z))).toC = ∑ k ∈ range (2 ^ 63 - 3), z⁻¹ ^ (k + 1) / ((k : ℂ) + 1) ^ (n:ℤ) := by
    rw [← ofC_toC ((FOps.lit 1 : R S) /. (ofC S z)), hinv]
    exact liSeries_R hS _ (inv_ne_zero h0)
  have hsgn : ((ofR (if isEven (n:ℤ) then ∸(FOps.lit 1 : R S) else (FOps.lit 1 : R S)) : ℝ) : ℂ) = -(-1) ^ n := by
    have := isEven_iff (n:ℤ)
    rw [ofR_ite, ofR_neg, ofR_lit, hS.one]
    rcases Nat.even_or_odd n with h | h
    · rw [if_pos (this.mpr (by have := Nat.even_iff.mp h; omega)), h.neg_one_pow]; norm_num
    · rw [if_neg (fun hh => by have h3 := this.mp hh; have := Nat.odd_iff.mp h; omega), h.neg_one_pow]; norm_num
  rw [toC_add, toC_rmul, hser, hsgn, hwv]
  obtain ⟨N, rfl⟩ : ∃ N, n = N + 1 := ⟨n - 1, by omega⟩
  simp only [zpow_natCast]
  have E4 := hfull N z⁻¹ (by
    rw [norm_inv, inv_le_comm₀ (by linarith) (by norm_num)]; linarith)
  have hout := pLi_inversion_out N (z := z) (by linarith)
  -- the logarithm
  have hL := C07_clog hS (∸(ofC S z)) (by rw [toC_neg, toC_ofC]; simpa using h0)
  rw [toC_neg, toC_ofC] at hL
  set L := (clog ∸(ofC S z)).toC with hLd
  have hpe := piLi_err hS
  have hδ : ‖L - Complex.log (-z)‖ ≤ 4e-17 + 3.2 * u := by
    rw [hL]
    split
    · rename_i h
      have hp : 0 < z.re := by have := h.2; rw [Complex.neg_re] at this; linarith
      have e : z = ((z.re : ℝ) : ℂ) := by
        apply Complex.ext
        · simp
        · have := h.1; rw [Complex.neg_im] at this; simp; linarith
      have e2 : Complex.log (-z) = ⟨Real.log z.re, Real.pi⟩ := by
        rw [e, clog_neg_pos (by simpa using hp)]; apply Complex.ext <;> simp
      rw [e2]
      have e3 : (⟨Real.log |(-z).re|, ((S.rho 3.1415926535897932 : ℚ) : ℝ)⟩ - ⟨Real.log z.re, Real.pi⟩ : ℂ) =
          ((((S.rho 3.1415926535897932 : ℚ) : ℝ) - Real.pi : ℝ) : ℂ) * Complex.I := by
        apply Complex.ext
        · simp
        · simp
      rw [e3, norm_mul, Complex.norm_I, mul_one, Complex.norm_real, Real.norm_eq_abs]
      exact hpe
    · rw [sub_self, norm_zero]; positivity
  set r := ‖Complex.log (-z)‖ + 4e-17 + 3.2 * u with hr
  have hr0 : 0 ≤ r := by positivity
  have hLr : ‖L‖ ≤ r := by
    have := norm_le_norm_add_norm_sub' L (Complex.log (-z))
    linarith
  have hlr : ‖Complex.log (-z)‖ ≤ r := by rw [hr]; linarith
  have E1 := rest_err hS hu6 (N + 1) (by omega) L hLr
  have E2 := appell_lip N hlr hLr
  have E2' : ‖appell invC (N + 1) L - appell invC (N + 1) (Complex.log (-z))‖ ≤
      ∑ m ∈ range (N + 1 + 1), (8e-17 + 6.4 * u) * (r ^ m / (m.factorial : ℝ)) := by
    refine E2.trans ?_
    rw [← mul_sum]
    have s1 : ∑ m ∈ range (N + 1), r ^ m / (m.factorial : ℝ) ≤ ∑ m ∈ range (N + 1 + 1), r ^ m / (m.factorial : ℝ) := by
      rw [sum_range_succ _ (N + 1)]
      have : 0 ≤ r ^ (N + 1) / ((N + 1).factorial : ℝ) := by positivity
      linarith
    have s0 : 0 ≤ ∑ m ∈ range (N + 1), r ^ m / (m.factorial : ℝ) := sum_nonneg fun _ _ => by positivity
    have hd0 := norm_nonneg (L - Complex.log (-z))
    nlinarith
  have E3 : ∑ m ∈ range (N + 1 + 1), (if m < 178 then 2e-16 + 4.2 * u else 2) * (r ^ m / (m.factorial : ℝ)) +
      ∑ m ∈ range (N + 1 + 1), (8e-17 + 6.4 * u) * (r ^ m / (m.factorial : ℝ)) ≤
      ∑ m ∈ range (N + 1 + 1), (if m < 178 then 2.9e-16 + 11 * u else 2.1) * (r ^ m / (m.factorial : ℝ)) := by
    rw [← sum_add_distrib]
    refine sum_le_sum fun m _ => ?_
    rw [← add_mul]
    refine mul_le_mul_of_nonneg_right ?_ (by positivity)
    split <;> norm_num at * <;> linarith
  have hre : pLi (N + 1) z = appell invC (N + 1) (Complex.log (-z)) - (-1) ^ (N + 1) * pLi (N + 1) z⁻¹ := by rw [← hout]; ring
  rw [hre]
  generalize (∑ k ∈ range (2 ^ 63 - 3), z⁻¹ ^ (k + 1) / ((k : ℂ) + 1) ^ (N + 1)) = Q at *
  generalize 2 * restA S ((N + 1) % 2) ((N + 1) / 2) L (min ((N + 1) / 2) 89) - (if N + 1 < 178 then ((ifacR S ((N + 1 : ℕ):ℤ) : ℝ) : ℂ) * L ^ (N + 1) else 0) = W at *
  have e : -(-1) ^ (N + 1) * Q + W - (appell invC (N + 1) (Complex.log (-z)) - (-1) ^ (N + 1) * pLi (N + 1) z⁻¹) =
      -(-1) ^ (N + 1) * (Q - pLi (N + 1) z⁻¹) + (W - appell invC (N + 1) L) + (appell invC (N + 1) L - appell invC (N + 1) (Complex.log (-z))) := by ring
  rw [e]
  refine norm_add₃_le.trans ?_
  have hq : ‖-(-1 : ℂ) ^ (N + 1) * (Q - pLi (N + 1) z⁻¹)‖ = ‖Q - pLi (N + 1) z⁻¹‖ := by
    rw [norm_mul, norm_neg, norm_pow, norm_neg, norm_one, one_pow, one_mul]
  rw [hq]
  linarith

/-! ### when the partial sums vanish -/

/-- the exceptional logarithms are finitely many, for every order -/
theorem restOk_finite (hS : S.Lit u) (hu6 : u ≤ 1e-6) (n : ℕ) (h2 : 2 ≤ n) : {L : ℂ | ¬ RestOk S n L}.Finite := by
  have hfin : ∀ t, 1 ≤ t → t ≤ min (n / 2) 89 → {L : ℂ | restA S (n % 2) (n / 2) L t = 0}.Finite := by
    intro t h1 ht
    let P : Polynomial ℂ := ∑ i ∈ range t, Polynomial.C ((etaR S ((2 * (n / 2 - i) : ℕ):ℤ) * ifacR S ((n % 2 + 2 * i : ℕ):ℤ) : ℝ) : ℂ) * Polynomial.X ^ (n % 2 + 2 * i)
    have hev : ∀ L, P.eval L = restA S (n % 2) (n / 2) L t := by
      intro L
      simp only [P, restA, Polynomial.eval_finsetSum, Polynomial.eval_mul, Polynomial.eval_C, Polynomial.eval_pow, Polynomial.eval_X]
    have hP : P ≠ 0 := by
      intro h
      have hc : P.coeff (n % 2) = ((etaR S ((2 * (n / 2 - 0) : ℕ):ℤ) * ifacR S ((n % 2 + 2 * 0 : ℕ):ℤ) : ℝ) : ℂ) := by
        simp only [P, Polynomial.finsetSum_coeff, Polynomial.coeff_C_mul, Polynomial.coeff_X_pow]
        rw [sum_eq_single 0]
        · simp
        · intro i _ hi
          rw [if_neg (by omega), mul_zero]
        · intro h; rw [mem_range] at h; omega
      rw [h, Polynomial.coeff_zero] at hc
      have h3 := etaR_neg hS hu6 (2 * (n / 2 - 0)) (by omega)
      have h4 := ifacR_pos hS hu6 (n % 2 + 2 * 0) (by omega)
      have : etaR S ((2 * (n / 2 - 0) : ℕ):ℤ) * ifacR S ((n % 2 + 2 * 0 : ℕ):ℤ) < 0 := mul_neg_of_neg_of_pos h3 h4
      exact this.ne (by exact_mod_cast hc.symm)
    refine (P.roots.toFinset.finite_toSet).subset fun L hL => ?_
    rw [Set.mem_ofPred_eq, ← hev] at hL
    simpa [hP] using hL
  have : {L : ℂ | ¬ RestOk S n L} ⊆ ⋃ t ∈ Finset.Icc 1 (min (n / 2) 89), {L : ℂ | restA S (n % 2) (n / 2) L t = 0} := by
    intro L hL
    rw [Set.mem_ofPred_eq, RestOk] at hL
    push Not at hL
    obtain ⟨t, h1, h3, h4⟩ := hL
    rw [Set.mem_iUnion₂]
    exact ⟨t, by rw [Finset.mem_Icc]; exact ⟨h1, h3⟩, h4⟩
  refine Set.Finite.subset ?_ this
  refine Set.Finite.biUnion (Finset.finite_toSet _) fun t ht => ?_
  rw [Finset.mem_coe, Finset.mem_Icc] at ht
  exact hfin t ht.1 ht.2

/-- **C20 (`|z| ≥ 1.4`), the exceptional arguments.**  For every order the hypothesis of `C20_inversion` fails for at most finitely
many `z`. -/
theorem C20_inversion_exceptions (hS : S.Lit u) (hu6 : u ≤ 1e-6) (n : ℕ) (h2 : 2 ≤ n) :
    {z : ℂ | z ≠ 0 ∧ ¬ RestOk S n (clog ∸(ofC S z)).toC}.Finite := by
  set P : ℝ := ((S.rho 3.1415926535897932 : ℚ) : ℝ) with hP
  have h := restOk_finite hS hu6 n h2
  refine ((h.image fun L => -Complex.exp L).union (h.image fun L => ((Real.exp L.re : ℝ) : ℂ))).subset ?_
  rintro z ⟨h0, hz⟩
  have hL := C07_clog hS (∸(ofC S z)) (by rw [toC_neg, toC_ofC]; simpa using h0)
  rw [toC_neg, toC_ofC] at hL
  by_cases hc : (-z).im = 0 ∧ (-z).re < 0
  · right
    refine ⟨_, hz, ?_⟩
    rw [if_pos hc] at hL
    have h1 : z.im = 0 := by simpa using hc.1
    have h3 : 0 < z.re := by simpa using hc.2
    show ((Real.exp ((clog ∸(ofC S z)).toC.re) : ℝ) : ℂ) = z
    rw [hL]
    dsimp only
    rw [Complex.neg_re, abs_neg, abs_of_pos h3, Real.exp_log h3]
    apply Complex.ext
    · simp
    · simp [h1]
  · left
    refine ⟨_, hz, ?_⟩
    rw [if_neg hc] at hL
    show -Complex.exp ((clog ∸(ofC S z)).toC) = z
    rw [hL, Complex.exp_log (by simpa using h0), neg_neg]

/-- the hypothesis of `C20_inversion` holds on the negative real axis -/
theorem restOk_neg (hS : S.Lit u) (hu6 : u ≤ 1e-6) (n : ℕ) {l : ℝ} (hl : 0 < l) : RestOk S n (l : ℂ) := by
  intro t h1 ht
  have h : restA S (n % 2) (n / 2) (l:ℂ) t = ((∑ i ∈ range t, (etaR S ((2 * (n / 2 - i) : ℕ):ℤ) * ifacR S ((n % 2 + 2 * i : ℕ):ℤ)) * l ^ (n % 2 + 2 * i) : ℝ) : ℂ) := by
    rw [restA]; push_cast; rfl
  rw [h]
  have hneg : ∑ i ∈ range t, (etaR S ((2 * (n / 2 - i) : ℕ):ℤ) * ifacR S ((n % 2 + 2 * i : ℕ):ℤ)) * l ^ (n % 2 + 2 * i) < 0 := by
    refine sum_neg (fun i hi => ?_) ⟨0, by rw [mem_range]; omega⟩
    rw [mem_range] at hi
    have h3 := etaR_neg hS hu6 (2 * (n / 2 - i)) (by omega)
    have h4 := ifacR_pos hS hu6 (n % 2 + 2 * i) (by omega)
    exact mul_neg_of_neg_of_pos (mul_neg_of_neg_of_pos h3 h4) (by positivity)
  exact_mod_cast hneg.ne

theorem clog_neg_R (hS : S.Lit u) {x : ℝ} (hx : 0 < x) : (clog ∸(ofC S (-(x:ℂ)))).toC = ((Real.log x : ℝ) : ℂ) := by
  have hL := C07_clog hS (∸(ofC S (-(x:ℂ)))) (by rw [toC_neg, toC_ofC, neg_neg]; exact_mod_cast hx.ne')
  rw [toC_neg, toC_ofC, neg_neg, if_neg (by simp; linarith), ← Complex.ofReal_log hx.le] at hL
  exact hL

/-- **C20 (negative real `z ≤ -1.4`)**: no exceptions -/
theorem C20_inversion_neg (hS : S.Lit u) (hu6 : u ≤ 1e-6) (n : ℕ) {x : ℝ} (hx : 1 < x) :
    RestOk S n (clog ∸(ofC S (-(x:ℂ)))).toC := by
  rw [clog_neg_R hS (by linarith)]
  exact restOk_neg hS hu6 n (Real.log_pos hx)

/-- **C20 (`|z| ≥ 1.4`), moderate arguments.**  If `|log(-z)| ≤ 80` (`|z| ≤ 10^34`) the error is at most `3e-16 + 11 u` times
`exp |log(-z)|` plus the tail of the power series, for every order. -/
theorem C20_inversion_moderate (hS : S.Lit u) (hu6 : u ≤ 1e-6) (fuel n : ℕ) (h7 : 7 ≤ n) (hn : (n:ℤ) ≤ i64max) {z : ℂ}
    (hz : ((S.rho 1.4 : ℚ) : ℝ) ≤ ‖z‖) (hok : RestOk S n (clog ∸(ofC S z)).toC) (hl : ‖Complex.log (-z)‖ ≤ 80) :
    ∃ v, Li fuel (n:ℤ) (ofC S z) = .ok v ∧ ‖v.toC - pLi n z‖ ≤
      (3e-16 + 11 * u) * Real.exp (‖Complex.log (-z)‖ + 4e-17 + 3.2 * u) + 4 * (3 / 4) ^ (2 ^ 63 - 2) := by
  obtain ⟨v, hv, h⟩ := C20_inversion hS hu6 fuel n h7 hn hz hok
  refine ⟨v, hv, h.trans ?_⟩
  obtain ⟨T, hT⟩ : ∃ T : ℝ, T = 4 * (3 / 4) ^ (2 ^ 63 - 2) := ⟨_, rfl⟩
  rw [← hT]
  clear h hT
  have hu := hS.u_nonneg
  set r := ‖Complex.log (-z)‖ + 4e-17 + 3.2 * u with hr
  have hr0 : 0 ≤ r := by positivity
  have hr1 : r ≤ 81 := by norm_num at *; linarith
  refine add_le_add ?_ le_rfl
  have h1 : ∑ m ∈ range (n + 1), (if m < 178 then 2.9e-16 + 11 * u else 2.1) * (r ^ m / (m.factorial : ℝ)) ≤
      ∑ m ∈ range (n + 1), (2.9e-16 + 11 * u) * (r ^ m / (m.factorial : ℝ)) + ∑ m ∈ range (n + 1), 2.1 / 2 ^ 178 * ((2 * r) ^ m / (m.factorial : ℝ)) := by
    rw [← sum_add_distrib]
    refine sum_le_sum fun m _ => ?_
    have hp : 0 ≤ r ^ m / (m.factorial : ℝ) := by positivity
    split
    · have : 0 ≤ 2.1 / 2 ^ 178 * ((2 * r) ^ m / (m.factorial : ℝ)) := by positivity
      linarith
    · rename_i hm
      have h2 : (2:ℝ) ^ 178 ≤ 2 ^ m := pow_le_pow_right₀ (by norm_num) (by omega)
      have h3 : 2.1 * (r ^ m / (m.factorial : ℝ)) ≤ 2.1 / 2 ^ 178 * ((2 * r) ^ m / (m.factorial : ℝ)) := by
        rw [mul_pow, mul_div_assoc, ← mul_assoc]
        refine mul_le_mul_of_nonneg_right ?_ hp
        rw [div_mul_eq_mul_div, le_div_iff₀ (by positivity)]
        nlinarith
      have : 0 ≤ (2.9e-16 + 11 * u) * (r ^ m / (m.factorial : ℝ)) := by positivity
      linarith
  refine h1.trans ?_
  rw [← mul_sum, ← mul_sum]
  have e1 := Real.sum_le_exp_of_nonneg hr0 (n + 1)
  have e2 := Real.sum_le_exp_of_nonneg (x := 2 * r) (by positivity) (n + 1)
  have e3 : Real.exp (2 * r) = Real.exp r * Real.exp r := by rw [← Real.exp_add]; ring_nf
  have e4 : Real.exp r ≤ 2.7182818286 ^ 81 := by
    calc Real.exp r ≤ Real.exp 81 := Real.exp_le_exp.mpr hr1
      _ = Real.exp 1 ^ 81 := by rw [← Real.exp_nat_mul]; norm_num
      _ ≤ _ := by gcongr; exact Real.exp_one_lt_d9.le
  have e5 : (2.1:ℝ) / 2 ^ 178 * 2.7182818286 ^ 81 ≤ 1e-17 := by norm_num
  have hE := Real.exp_pos r
  calc _ ≤ (2.9e-16 + 11 * u) * Real.exp r + 2.1 / 2 ^ 178 * (Real.exp r * Real.exp r) := by
        rw [← e3]
        exact add_le_add (mul_le_mul_of_nonneg_left e1 (by positivity)) (mul_le_mul_of_nonneg_left e2 (by positivity))
    _ ≤ (2.9e-16 + 11 * u) * Real.exp r + 1e-17 * Real.exp r := by
        refine add_le_add le_rfl ?_
        rw [← mul_assoc]
        refine mul_le_mul_of_nonneg_right ?_ hE.le
        exact (mul_le_mul_of_nonneg_left e4 (by positivity)).trans e5
    _ = _ := by ring

/-- non-vacuity: `z = -2` -/
example : RealSem.dec.Lit 0 ∧ ((RealSem.dec.rho 1.4 : ℚ) : ℝ) ≤ ‖(-((2:ℝ):ℂ))‖ ∧ RestOk RealSem.dec 9 (clog ∸(ofC RealSem.dec (-((2:ℝ):ℂ)))).toC := by
  refine ⟨RealSem.dec_lit, ?_, C20_inversion_neg RealSem.dec_lit (by norm_num) 9 (by norm_num)⟩
  show (((1.4:ℚ)) : ℝ) ≤ _
  norm_num

/-! ### finding: dropped terms -/

theorem dropped_arith : 20.3 * (∑ i ∈ range 89, (230:ℚ) ^ (2 * i) / ((2 * i).factorial : ℚ)) + 60 ≤ 1.49 * ((230:ℚ) ^ 230 / ((230).factorial : ℚ)) := by
  decide +kernel

theorem series_tail_4 (N : ℕ) (z : ℂ) (h : ‖z‖ ≤ 3 / 4) :
    ‖(∑ k ∈ Finset.range (2 ^ 63 - 3), z ^ (k + 1) / ((k : ℂ) + 1) ^ (N + 1)) - pLi (N + 1) z‖ ≤ 4 := by
  obtain ⟨M, hM⟩ : ∃ M : ℕ, M = 2 ^ 63 - 3 := ⟨_, rfl⟩
  rw [← hM]
  refine (series_full N M h).trans ?_
  have : (3 / 4 : ℝ) ^ (M + 1) ≤ 1 := pow_le_one₀ (by norm_num) (by norm_num)
  linarith

/-- a lower bound for the polynomial of the inversion formula at a positive logarithm: each of its terms is negative -/
theorem appell_ge_term (K i : ℕ) (hi : i < K) {l : ℝ} (hl : 0 < l) :
    1.5 * (l ^ (2 * i) / ((2 * i).factorial : ℝ)) ≤ ‖appell invC (2 * K) (l : ℂ)‖ := by
  have hb : ∀ j, invC (2 * j) = ((if j = 0 then -1 else 2 * reLi (2 * j) (-1) : ℝ) : ℂ) := by
    intro j
    rw [invC, if_pos (even_two_mul _)]
    cases j with
    | zero => simp [pLi]; norm_num
    | succ j =>
      rw [show 2 * (j + 1) = (2 * j + 1) + 1 by ring, pLi_neg_one_real]
      rw [if_neg (by omega)]; push_cast; ring
  have hneg : ∀ j, (if j = 0 then -1 else 2 * reLi (2 * j) (-1) : ℝ) ≤ 0 ∧ (j ≠ 0 → (if j = 0 then -1 else 2 * reLi (2 * j) (-1) : ℝ) ≤ -1.5) := by
    intro j
    cases j with
    | zero => norm_num
    | succ j =>
      rw [if_neg (by omega)]
      have h := (eta_bounds (2 * j)).1
      have h5 : (1 / 2 : ℝ) ^ (2 * j + 2) ≤ 1 / 4 := by
        calc (1 / 2 : ℝ) ^ (2 * j + 2) ≤ (1 / 2) ^ 2 := pow_le_pow_of_le_one (by norm_num) (by norm_num) (by omega)
          _ = _ := by norm_num
      rw [show 2 * (j + 1) = 2 * j + 2 by ring]
      constructor
      · linarith
      · intro _; norm_num; linarith
  have hA : appell invC (2 * K) (l : ℂ) = ((∑ i ∈ range (K + 1), (if K - i = 0 then -1 else 2 * reLi (2 * (K - i)) (-1) : ℝ) * (l ^ (2 * i) / ((2 * i).factorial : ℝ)) : ℝ) : ℂ) := by
    rw [appell_parity]
    rw [show 2 * K / 2 = K by omega, show 2 * K % 2 = 0 by omega]
    push_cast
    refine sum_congr rfl fun i _ => ?_
    rw [zero_add, hb]
  rw [hA, Complex.norm_real, Real.norm_eq_abs]
  refine le_trans ?_ (neg_le_abs _)
  rw [← sum_neg_distrib]
  have h1 : ∀ j ∈ range (K + 1), 0 ≤ -((if K - j = 0 then -1 else 2 * reLi (2 * (K - j)) (-1) : ℝ) * (l ^ (2 * j) / ((2 * j).factorial : ℝ))) := by
    intro j _
    have hp : 0 ≤ l ^ (2 * j) / ((2 * j).factorial : ℝ) := by positivity
    have := (hneg (K - j)).1
    nlinarith
  refine le_trans ?_ (single_le_sum h1 (mem_range.mpr (show i < K + 1 by omega)))
  have hp : 0 ≤ l ^ (2 * i) / ((2 * i).factorial : ℝ) := by positivity
  have := (hneg (K - i)).2 (by omega)
  nlinarith

/-- **C20, a limit of the property.**  For every even order `n ≥ 232` and `z = -exp 230` (`≈ -7.7·10^99`) the value returned by
`Li(n,z)` (exact elementary operations) is smaller than a tenth of `Li_n(z)`: the code drops the terms of order `≥ 178` in
`log(-z)`, because `1/k!` is taken as zero for `k ≥ 178`. -/
theorem C20_dropped_terms (hS : S.Lit u) (hu6 : u ≤ 1e-6) (fuel n : ℕ) (h232 : 232 ≤ n) (he : Even n) (hn : (n:ℤ) ≤ i64max) :
    ∃ v, Li fuel (n:ℤ) (ofC S (-((Real.exp 230 : ℝ) : ℂ))) = .ok v ∧ ‖v.toC‖ ≤ ‖pLi n (-((Real.exp 230 : ℝ) : ℂ))‖ / 10 := by
  have hu := hS.u_nonneg
  have hE : (100:ℝ) ≤ Real.exp 230 := by have := Real.add_one_le_exp (230:ℝ); linarith
  obtain ⟨K, rfl⟩ : ∃ K, n = 2 * K := he.exists_two_nsmul _ |>.imp fun K h => by simpa using h
  set z : ℂ := -((Real.exp 230 : ℝ) : ℂ) with hz
  have hzn : ‖z‖ = Real.exp 230 := by rw [hz, norm_neg, Complex.norm_real, Real.norm_of_nonneg (Real.exp_pos _).le]
  obtain ⟨h14', h14⟩ : 0 ≤ ((S.rho 1.4 : ℚ) : ℝ) ∧ ((S.rho 1.4 : ℚ) : ℝ) ≤ 2 := by
    have := hS.rel 1.4
    have e : (((1.4 : ℚ)) : ℝ) = 1.4 := by norm_num
    rw [e, abs_of_pos (by norm_num : (0:ℝ) < 1.4)] at this
    generalize ((S.rho 1.4 : ℚ) : ℝ) = x at *
    rw [abs_le] at this
    constructor <;> norm_num at * <;> linarith
  have h0 : z ≠ 0 := by intro h; rw [h, norm_zero] at hzn; linarith
  have h1 : z ≠ 1 := by intro h; rw [h, norm_one] at hzn; linarith
  have h2 : z ≠ -1 := by intro h; rw [h, norm_neg, norm_one] at hzn; linarith
  have c1 : (Cx.norm (ofC S z) <=. (FOps.lit 0.75 : R S) *. (FOps.lit 0.75 : R S)) = false := by
    rw [Bool.eq_false_iff, ne_eq, norm_le_075 hS]; intro h; rw [hzn] at h; linarith
  have c2 : (Cx.norm (ofC S z) >=. (FOps.lit 1.4 : R S) *. (FOps.lit 1.4 : R S)) = true := by
    rw [ge_R, ofR_norm, ofR_mul, ofR_lit, decide_eq_true_eq, toC_ofC, Complex.normSq_eq_norm_sq, hzn]
    nlinarith
  have hL : (clog ∸(ofC S z)).toC = ((230 : ℝ) : ℂ) := by
    rw [hz, clog_neg_R hS (by linarith), Real.log_exp]
  obtain ⟨w, hw, hwv⟩ := liRest_R hS hu6 (2 * K) hn (ofC S z) (by rw [hL]; exact restOk_neg hS hu6 _ (by norm_num))
  have hLi := Li_inv_branch fuel ((2 * K : ℕ):ℤ) (by omega) (ofC S z) (regular_R hS _ h0 h1 h2) c1 c2
  rw [bind_def hw] at hLi
  refine ⟨_, hLi, ?_⟩
  have hinv : ((FOps.lit 1 : R S) /. (ofC S z)).toC = z⁻¹ := by
    rw [toC_rdiv hS.zero (by simpa using h0), ofR_lit, hS.one, toC_ofC]; simp
  have hser : (liSeries ((2 * K : ℕ):ℤ) ((FOps.lit 1 : R S) /. (ofC S z))).toC = ∑ k ∈ range (2 ^ 63 - 3), z⁻¹ ^ (k + 1) / ((k : ℂ) + 1) ^ ((2 * K : ℕ):ℤ) := by
    rw [← ofC_toC ((FOps.lit 1 : R S) /. (ofC S z)), hinv]
    exact liSeries_R hS _ (inv_ne_zero h0)
  have hsgn : (if isEven ((2 * K : ℕ):ℤ) then ∸(FOps.lit 1 : R S) else (FOps.lit 1 : R S)) = ∸(FOps.lit 1 : R S) :=
    if_pos ((isEven_iff _).mpr (by omega))
  rw [toC_add, toC_rmul, hser, hsgn, hwv, hL, ofR_neg, ofR_lit, hS.one, if_neg (by omega), sub_zero, show 2 * K / 2 = K by omega, show 2 * K % 2 = 0 by omega,
    min_eq_right (by omega)]
  obtain ⟨N, hN⟩ : ∃ N, 2 * K = N + 1 := ⟨2 * K - 1, by omega⟩
  have E4 := series_tail_4 N z⁻¹ (by rw [norm_inv, hzn, inv_le_comm₀ (by linarith) (by norm_num)]; linarith)
  have hout := pLi_inversion_out N (z := z) (by linarith)
  have hlog : Complex.log (-z) = ((230 : ℝ) : ℂ) := by
    rw [hz, neg_neg, ← Complex.ofReal_log (Real.exp_pos _).le, Real.log_exp]
  have hpz : ‖pLi (N + 1) z⁻¹‖ ≤ 1 := by
    have e : z⁻¹ = ((-(Real.exp 230)⁻¹ : ℝ) : ℂ) := by rw [hz]; push_cast; rw [inv_neg]
    refine (pLi_norm_le _ _ (by rw [e, Complex.ofReal_re]; have := inv_pos.mpr (Real.exp_pos 230); linarith)).trans ?_
    rw [norm_inv, hzn]
    exact inv_le_one_of_one_le₀ (by linarith)
  simp only [zpow_natCast]
  rw [hlog] at hout
  have hA := appell_ge_term K 115 (by omega) (l := 230) (by norm_num)
  rw [hN] at hA ⊢
  have hR : ‖restA S 0 K ((230:ℝ):ℂ) 89‖ ≤ 1.01 * ∑ i ∈ range 89, (230:ℝ) ^ (2 * i) / ((2 * i).factorial : ℝ) := by
    rw [restA, mul_sum]
    refine (norm_sum_le _ _).trans (sum_le_sum fun i hi => ?_)
    rw [mem_range] at hi
    rw [norm_mul, norm_pow, Complex.norm_real, Complex.norm_real, Real.norm_eq_abs, Real.norm_of_nonneg (by norm_num), zero_add, abs_mul]
    have a1 : |etaR S ((2 * (K - i) : ℕ):ℤ)| ≤ 1.001 := by
      have h := etaR_err hS (2 * (K - i)) (by omega)
      have h' := pLi_neg_one_le (2 * (K - i))
      have := norm_le_norm_add_norm_sub' ((etaR S ((2 * (K - i) : ℕ):ℤ) : ℝ) : ℂ) (pLi (2 * (K - i)) (-1))
      rw [Complex.norm_real, Real.norm_eq_abs] at this
      norm_num at *
      linarith
    have a2 : |ifacR S ((2 * i : ℕ):ℤ)| ≤ 1.001 * (1 / ((2 * i).factorial : ℝ)) := by
      have hfe := ifacR_err hS (2 * i) (by omega)
      have hf : (0:ℝ) < 1 / ((2 * i).factorial : ℝ) := by positivity
      rw [abs_le] at hfe ⊢
      constructor <;> nlinarith
    calc _ ≤ 1.001 * (1.001 * (1 / ((2 * i).factorial : ℝ))) * 230 ^ (2 * i) := mul_le_mul_of_nonneg_right (mul_le_mul a1 a2 (abs_nonneg _) (by norm_num)) (by positivity)
      _ = 1.002001 * (230 ^ (2 * i) / ((2 * i).factorial : ℝ)) := by ring
      _ ≤ _ := mul_le_mul_of_nonneg_right (by norm_num) (by positivity)
  have harith : 20.3 * (∑ i ∈ range 89, (230:ℝ) ^ (2 * i) / ((2 * i).factorial : ℝ)) + 60 ≤ 1.49 * ((230:ℝ) ^ 230 / ((230).factorial : ℝ)) := by
    have h := (Rat.cast_le (K := ℝ)).mpr dropped_arith
    push_cast at h
    norm_num only at h ⊢
  have ht : 0 ≤ (230:ℝ) ^ 230 / ((230).factorial : ℝ) := by positivity
  generalize (∑ i ∈ range 89, (230:ℝ) ^ (2 * i) / ((2 * i).factorial : ℝ)) = s at *
  rw [show 2 * 115 = 230 by norm_num] at hA
  generalize ((230:ℝ) ^ 230 / ((230).factorial : ℝ)) = t at *
  generalize (∑ k ∈ range (2 ^ 63 - 3), z⁻¹ ^ (k + 1) / ((k : ℂ) + 1) ^ (N + 1)) = Q at *
  have hQ : ‖Q‖ ≤ 5 := by
    have := norm_le_norm_add_norm_sub' Q (pLi (N + 1) z⁻¹)
    linarith
  have hlow : ‖appell invC (N + 1) ((230:ℝ):ℂ)‖ ≤ ‖pLi (N + 1) z‖ + 1 := by
    rw [← hout]
    refine (norm_add_le _ _).trans ?_
    rw [norm_mul, norm_pow, norm_neg, norm_one, one_pow, one_mul]
    linarith
  have hup : ‖((-((1:ℚ):ℝ) : ℝ) : ℂ) * Q + 2 * restA S 0 K ((230:ℝ):ℂ) 89‖ ≤ ‖Q‖ + 2 * ‖restA S 0 K ((230:ℝ):ℂ) 89‖ := by
    refine (norm_add_le _ _).trans ?_
    rw [norm_mul, norm_mul]
    simp
  refine hup.trans ?_
  norm_num at *
  linarith

end
end Polylog
