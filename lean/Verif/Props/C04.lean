import Verif.Proofs.Harmonic
import Verif.Model.Tables
import Verif.Props.ClGen
import Verif.Sem.LitBits

/-! # C04: `harmonic(n)` is the harmonic number, every n

`_root_.harmonic n` is Mathlib's `1 + 1/2 + ... + 1/n`. -/

noncomputable section
namespace Polylog
open Finset
variable {S : RealSem} {u : ℝ}

/-- **C04**: `n ≤ 0` gives NaN, in every arithmetic -/
theorem C04_nonpos {F : Type} [FOps F] (n : ℤ) (h : n ≤ 0) : (harmonic n : M F) = .ok FOps.nan := by
  rw [harmonic, if_pos h]; rfl

theorem ofR_inv_int (hS : S.Lit u) (k : ℤ) (hk : k ≠ 0) : ofR ((FOps.lit 1 : R S) /. (FOps.ofInt k : R S)) = 1 / (k:ℝ) := by
  rw [ofR_div (by rw [ofR_ofInt]; exact_mod_cast hk), lit1 hS, ofR_ofInt]

theorem harmonicLoop_R (hS : S.Lit u) (f : ℕ) : ∀ (k : ℕ) (s : R S), ofR (harmonicLoop f ((k:ℤ) + 1) s) = ofR s + ∑ i ∈ range f, 1 / (((k + i : ℕ):ℝ) + 1) := by
  induction f with
  | zero => intro k s; simp [harmonicLoop]
  | succ f ih =>
    intro k s
    rw [harmonicLoop]
    have := ih (k + 1) (s +. (FOps.lit 1 : R S) /. (FOps.ofInt ((k:ℤ) + 1) : R S))
    push_cast at this
    rw [this, ofR_add, ofR_inv_int hS _ (by omega), Finset.sum_range_succ']
    push_cast
    have e : ∀ i : ℕ, (1:ℝ) / (k + 1 + i + 1) = 1 / (k + (i + 1) + 1) := fun i => by ring
    simp only [e]
    ring

/-- exact for `n < 20` -/
theorem C04_small (hS : S.Lit u) (n : ℕ) (h1 : 1 ≤ n) (h2 : n < 20) :
    ∃ v : R S, harmonic (n:ℤ) = .ok v ∧ ofR v = ((_root_.harmonic n : ℚ) : ℝ) := by
  refine ⟨harmonicLoop ((n:ℤ) - 1).toNat 2 (FOps.lit 1 : R S), ?_, ?_⟩
  · rw [harmonic, if_neg (by omega), if_pos (by omega)]; rfl
  · obtain ⟨m, rfl⟩ : ∃ m, n = m + 1 := ⟨n - 1, by omega⟩
    have e : (((m + 1 : ℕ):ℤ) - 1).toNat = m := by omega
    rw [e]
    have := harmonicLoop_R hS m 1 (FOps.lit 1 : R S)
    norm_num at this
    rw [this, lit1 hS, _root_.harmonic, Finset.sum_range_succ']
    push_cast
    norm_num
    rw [add_comm]
    congr 1
    exact Finset.sum_congr rfl fun i _ => by rw [add_comm (1:ℝ) i]

/-- exact coefficient `B_{2k+2}/(2k+2)` -/
def dgc : List ℚ := [1/12, -1/120, 1/252, -1/240, 1/132, -691/32760, 1/12, -3617/8160]

theorem digammaC_cert : ∀ i : Fin 8, |digammaC[i.1] - dgc.getD i.1 0| ≤ 5e-18 ∧ |digammaC[i.1]| ≤ 0.45 := by decide +kernel

theorem digammaC_close (hS : S.Lit u) (k : ℕ) (hk : k < 8) : |((S.rho digammaC[k] : ℚ) : ℝ) - ((dgc.getD k 0 : ℚ) : ℝ)| ≤ 5e-18 + 0.45 * u := by
  obtain ⟨h1, h2⟩ := digammaC_cert ⟨k, hk⟩
  have h1 := (Rat.cast_le (K := ℝ)).mpr h1
  have h2 := (Rat.cast_le (K := ℝ)).mpr h2
  push_cast at h1 h2
  have h3 := hS.rel digammaC[k]
  have hu := hS.u_nonneg
  have := mul_le_mul_of_nonneg_left h2 hu
  have a := abs_sub_le ((S.rho digammaC[k] : ℚ) : ℝ) ((digammaC[k] : ℚ) : ℝ) ((dgc.getD k 0 : ℚ) : ℝ)
  generalize ((S.rho digammaC[k] : ℚ) : ℝ) = r at *
  generalize ((digammaC[k] : ℚ) : ℝ) = z at *
  linarith

/-- the expression returned by `digamma` -/
def dgBody {F : Type} [FOps F] (res : F) (n : ℤ) : F :=
  let t : F := (FOps.lit 1 : F) /. (FOps.ofInt n : F)
  let t2 := t *. t
  res +. FOps.log (FOps.ofInt n : F) -. (FOps.lit 0.5 : F) *. t
    -. t2 *. ((FOps.lit digammaC[0] : F) +. t2 *. ((FOps.lit digammaC[1] : F) +. t2 *. ((FOps.lit digammaC[2] : F) +. t2 *. ((FOps.lit digammaC[3] : F) +. t2 *. ((FOps.lit digammaC[4] : F) +. t2 *. ((FOps.lit digammaC[5] : F) +. t2 *. ((FOps.lit digammaC[6] : F) +. t2 *. (FOps.lit digammaC[7] : F))))))))

theorem digamma_eq {F : Type} [FOps F] (n : ℤ) (h : 0 < n) : (digamma n : F) =
    if n < 7 then dgBody (digammaLoop n (7 - n - 1).toNat 1 (FOps.lit 0 : F) -. (FOps.lit 1 : F) /. (FOps.ofInt n : F)) 7 else dgBody (FOps.lit 0 : F) n := by
  rw [digamma, if_neg (by omega)]
  split_ifs <;> rfl

theorem dgBody_R (hS : S.Lit u) (res : R S) (n : ℤ) : ofR (dgBody res n) = ofR res + ofR (dgBody (FOps.lit 0 : R S) n) := by
  simp only [dgBody, ofR_add, ofR_sub, lit0 hS]; ring

theorem digammaLoop_R (hS : S.Lit u) (n : ℕ) (hn : 0 < n) (f : ℕ) : ∀ (k : ℕ) (s : R S), ofR (digammaLoop (n:ℤ) f (k:ℤ) s) = ofR s - ∑ i ∈ range f, 1 / ((n:ℝ) + (k + i : ℕ)) := by
  induction f with
  | zero => intro k s; simp [digammaLoop]
  | succ f ih =>
    intro k s
    rw [digammaLoop]
    have := ih (k + 1) (s -. (FOps.lit 1 : R S) /. (FOps.ofInt ((n:ℤ) + (k:ℤ)) : R S))
    push_cast at this
    rw [this, ofR_sub, ofR_inv_int hS _ (by omega), Finset.sum_range_succ']
    push_cast
    have e : ∀ i : ℕ, (1:ℝ) / (n + (k + 1 + i)) = 1 / (n + (k + (i + 1))) := fun i => by ring
    simp only [e]
    ring

/-- the expression evaluated by `digamma` for `N ≥ 7` -/
theorem digamma_big (hS : S.Lit u) (N : ℕ) (hN : 7 ≤ N) :
    |ofR (digamma (N:ℤ) : R S) - (((_root_.harmonic (N - 1) : ℚ) : ℝ) - Real.eulerMascheroniConstant)| ≤ 3.06 / (N:ℝ) ^ 18 + 1.1e-19 + 0.01 * u := by
  have hu := hS.u_nonneg
  have hN' : (7:ℝ) ≤ N := by exact_mod_cast hN
  have ha := harmonic_asymp N hN
  have ht : ofR ((FOps.lit 1 : R S) /. (FOps.ofInt (N:ℤ) : R S)) = 1 / (N:ℝ) := by
    rw [ofR_inv_int hS _ (by omega)]; push_cast; rfl
  have h5 : ofR (FOps.lit 0.5 : R S) = 1 / 2 := by
    show ((S.rho _ : ℚ) : ℝ) = _
    rw [hS.half]; norm_num
  have hl : ofR (FOps.log (FOps.ofInt (N:ℤ) : R S)) = Real.log N := by
    rw [ofR_log (by rw [ofR_ofInt]; push_cast; linarith), ofR_ofInt]; push_cast; rfl
  have hc : ∀ q : ℚ, ofR (FOps.lit q : R S) = ((S.rho q : ℚ) : ℝ) := fun _ => rfl
  have e : ofR (digamma (N:ℤ) : R S) = Real.log N - (1:ℝ) / 2 * ((1:ℝ) / N) - ((1:ℝ) / N * ((1:ℝ) / N)) * (((S.rho digammaC[0] : ℚ) : ℝ) + ((1:ℝ) / N * ((1:ℝ) / N)) * (((S.rho digammaC[1] : ℚ) : ℝ) + ((1:ℝ) / N * ((1:ℝ) / N)) * (((S.rho digammaC[2] : ℚ) : ℝ)
      + ((1:ℝ) / N * ((1:ℝ) / N)) * (((S.rho digammaC[3] : ℚ) : ℝ) + ((1:ℝ) / N * ((1:ℝ) / N)) * (((S.rho digammaC[4] : ℚ) : ℝ) + ((1:ℝ) / N * ((1:ℝ) / N)) * (((S.rho digammaC[5] : ℚ) : ℝ) + ((1:ℝ) / N * ((1:ℝ) / N)) * (((S.rho digammaC[6] : ℚ) : ℝ) + ((1:ℝ) / N * ((1:ℝ) / N)) * ((S.rho digammaC[7] : ℚ) : ℝ)))))))) := by
    rw [digamma_eq _ (by omega), if_neg (by omega)]
    simp only [dgBody, ofR_add, ofR_sub, ofR_mul, ht, h5, hl, lit0 hS, zero_add]
    rfl
  have c0 := digammaC_close hS 0 (by norm_num)
  have c1 := digammaC_close hS 1 (by norm_num)
  have c2 := digammaC_close hS 2 (by norm_num)
  have c3 := digammaC_close hS 3 (by norm_num)
  have c4 := digammaC_close hS 4 (by norm_num)
  have c5 := digammaC_close hS 5 (by norm_num)
  have c6 := digammaC_close hS 6 (by norm_num)
  have c7 := digammaC_close hS 7 (by norm_num)
  simp only [dgc, List.getD_cons_zero, List.getD_cons_succ] at c0 c1 c2 c3 c4 c5 c6 c7
  push_cast at c0 c1 c2 c3 c4 c5 c6 c7
  rw [bsum] at ha
  rw [e]
  have ht0 : (0:ℝ) ≤ 1 / N := by positivity
  have ht1 : 1 / (N:ℝ) ≤ 1 / 7 := by rw [div_le_div_iff₀ (by positivity) (by norm_num)]; linarith
  generalize 3.06 / (N:ℝ) ^ 18 = rem at *
  generalize 1 / (N:ℝ) = t at *
  generalize ((S.rho digammaC[0] : ℚ) : ℝ) = d0 at *
  generalize ((S.rho digammaC[1] : ℚ) : ℝ) = d1 at *
  generalize ((S.rho digammaC[2] : ℚ) : ℝ) = d2 at *
  generalize ((S.rho digammaC[3] : ℚ) : ℝ) = d3 at *
  generalize ((S.rho digammaC[4] : ℚ) : ℝ) = d4 at *
  generalize ((S.rho digammaC[5] : ℚ) : ℝ) = d5 at *
  generalize ((S.rho digammaC[6] : ℚ) : ℝ) = d6 at *
  generalize ((S.rho digammaC[7] : ℚ) : ℝ) = d7 at *
  have hη : 0 ≤ 5e-18 + 0.45 * u := by linarith
  have hb : ∀ {d c : ℝ} (j : ℕ), |d - c| ≤ 5e-18 + 0.45 * u → |(d - c) * t ^ j| ≤ (5e-18 + 0.45 * u) * (1 / 7) ^ j := fun j h => by
    rw [abs_mul, abs_of_nonneg (pow_nonneg ht0 j)]
    exact mul_le_mul h (pow_le_pow_left₀ ht0 ht1 j) (pow_nonneg ht0 j) hη
  have b0 := abs_le.mp (hb 2 c0)
  have b1 := abs_le.mp (hb 4 c1)
  have b2 := abs_le.mp (hb 6 c2)
  have b3 := abs_le.mp (hb 8 c3)
  have b4 := abs_le.mp (hb 10 c4)
  have b5 := abs_le.mp (hb 12 c5)
  have b6 := abs_le.mp (hb 14 c6)
  have b7 := abs_le.mp (hb 16 c7)
  have ha' := abs_le.mp ha
  rw [abs_le]
  constructor <;> linarith

/-- **C04**: every `n ≥ 1` below the maximum; any literals within relative `u` of the source text -/
theorem C04_harmonic (hS : S.Lit u) (n : ℕ) (h1 : 1 ≤ n) (h2 : (n:ℤ) < i64max) :
    ∃ v : R S, harmonic (n:ℤ) = .ok v ∧ |ofR v - ((_root_.harmonic n : ℚ) : ℝ)| ≤ 8e-19 + 0.6 * u := by
  have hu := hS.u_nonneg
  rcases lt_or_ge n 20 with h | h
  · obtain ⟨v, hv, e⟩ := C04_small hS n h1 h
    refine ⟨v, hv, ?_⟩
    rw [e, sub_self, abs_zero]; positivity
  · have hi : i64add (n:ℤ) 1 = .ok ((n:ℤ) + 1) := i64_ok (by simp only [i64min, i64max] at *; omega)
    refine ⟨(FOps.lit 0.57721566490153286 : R S) +. (digamma ((n:ℤ) + 1) : R S), ?_, ?_⟩
    · rw [harmonic, if_neg (by omega), if_neg (by omega)]
      simp only [hi]; rfl
    have hd := digamma_big hS (n + 1) (by omega)
    push_cast at hd
    have hg : |ofR (FOps.lit 0.57721566490153286 : R S) - Real.eulerMascheroniConstant| ≤ 6.2e-19 + 0.58 * u := by
      refine lit_close hS ?_ (by rw [abs_of_pos] <;> norm_num)
      have := abs_le.mp euler_approx
      push_cast
      rw [abs_le]; constructor <;> linarith
    rw [ofR_add]
    have hr : 3.06 / ((n:ℝ) + 1) ^ 18 ≤ 5e-24 := by
      have hn : (21:ℝ) ≤ (n:ℝ) + 1 := by have : (20:ℝ) ≤ n := by exact_mod_cast h
                                         linarith
      calc 3.06 / ((n:ℝ) + 1) ^ 18 ≤ 3.06 / 21 ^ 18 := div_le_div_of_nonneg_left (by norm_num) (by norm_num) (pow_le_pow_left₀ (by norm_num) hn 18)
        _ ≤ _ := by norm_num
    have a := abs_le.mp hd
    have b := abs_le.mp hg
    generalize ofR (FOps.lit 0.57721566490153286 : R S) = g at *
    rw [abs_le]; constructor <;> linarith

/-- **C04**, the literals of the source text -/
theorem C04_dec (h : S.rho = id) (n : ℕ) (h1 : 1 ≤ n) (h2 : (n:ℤ) < i64max) :
    ∃ v : R S, harmonic (n:ℤ) = .ok v ∧ |ofR v - ((_root_.harmonic n : ℚ) : ℝ)| ≤ 8e-19 := by
  simpa using C04_harmonic (lit_id S h) n h1 h2

/-- **C04**, the literals stored in binary64 -/
theorem C04_binary64 (h : S.rho = rhoBits 53) (n : ℕ) (h1 : 1 ≤ n) (h2 : (n:ℤ) < i64max) :
    ∃ v : R S, harmonic (n:ℤ) = .ok v ∧ |ofR v - ((_root_.harmonic n : ℚ) : ℝ)| ≤ 7e-17 := by
  obtain ⟨v, hv, e⟩ := C04_harmonic (RealSem.lit_of_bits (by norm_num) h) n h1 h2
  refine ⟨v, hv, e.trans ?_⟩
  norm_num

/-- **C04**: the internal `digamma(n)` is the digamma function `H_{n-1} - γ`, every `n ≥ 1` -/
theorem C04_digamma (hS : S.Lit u) (n : ℕ) (h1 : 1 ≤ n) :
    |ofR (digamma (n:ℤ) : R S) - (((_root_.harmonic (n - 1) : ℚ) : ℝ) - Real.eulerMascheroniConstant)| ≤ 2e-15 + 0.01 * u := by
  have hu := hS.u_nonneg
  rcases lt_or_ge n 7 with h | h
  · have h7 := digamma_big hS 7 le_rfl
    have hH : ((_root_.harmonic (7 - 1) : ℚ) : ℝ) = 49 / 20 := by
      simp only [_root_.harmonic, Finset.sum_range_succ, Finset.sum_range_zero]; norm_num
    rw [hH] at h7
    have e7 : (digamma ((7:ℕ):ℤ) : R S) = dgBody (FOps.lit 0 : R S) 7 := rfl
    rw [e7] at h7
    have hinv : ∀ k : ℤ, k ≠ 0 → ofR ((FOps.lit 1 : R S) /. (FOps.ofInt k : R S)) = 1 / (k:ℝ) := ofR_inv_int hS
    rw [digamma_eq _ (by omega), if_pos (by omega), dgBody_R hS]
    have h7' : 3.06 / ((7:ℕ):ℝ) ^ 18 + 1.1e-19 + 0.01 * u ≤ 2e-15 + 0.01 * u := by norm_num
    have h7 := h7.trans h7'
    generalize dgBody (FOps.lit 0 : R S) 7 = D at *
    have hH2 : ((_root_.harmonic (n - 1) : ℚ) : ℝ) = ofR (digammaLoop (n:ℤ) (7 - (n:ℤ) - 1).toNat 1 (FOps.lit 0 : R S) -. (FOps.lit 1 : R S) /. (FOps.ofInt (n:ℤ) : R S)) + 49 / 20 := by
      have hl := digammaLoop_R hS n h1 (6 - n) 1 (FOps.lit 0 : R S)
      rw [ofR_sub, hinv _ (by omega), show (7 - (n:ℤ) - 1).toNat = 6 - n by omega]
      rw [Nat.cast_one] at hl
      rw [hl, lit0 hS]
      interval_cases n <;>
      · simp only [_root_.harmonic, Finset.sum_range_succ, Finset.sum_range_zero]
        norm_num
    rw [hH2]
    refine le_trans (le_of_eq ?_) h7
    congr 1
    ring
  · refine (digamma_big hS n h).trans ?_
    have hn : (7:ℝ) ≤ n := by exact_mod_cast h
    have : 3.06 / (n:ℝ) ^ 18 ≤ 3.06 / 7 ^ 18 := div_le_div_of_nonneg_left (by norm_num) (by norm_num) (pow_le_pow_left₀ (by norm_num) hn 18)
    have h3 : (3.06:ℝ) / 7 ^ 18 ≤ 1.9e-15 := by norm_num
    linarith

/-- a concrete case: `harmonic(19)`, `harmonic(20)`, `harmonic(10^15)` -/
example : (∃ v : R RealSem.dec, harmonic 19 = .ok v ∧ |ofR v - ((_root_.harmonic 19 : ℚ) : ℝ)| ≤ 8e-19) ∧
    (∃ v : R RealSem.dec, harmonic 20 = .ok v ∧ |ofR v - ((_root_.harmonic 20 : ℚ) : ℝ)| ≤ 8e-19) ∧
    (∃ v : R RealSem.dec, harmonic 1000000000000000 = .ok v ∧ |ofR v - ((_root_.harmonic 1000000000000000 : ℚ) : ℝ)| ≤ 8e-19) :=
  ⟨C04_dec rfl 19 (by norm_num) (by decide), C04_dec rfl 20 (by norm_num) (by decide), C04_dec rfl 1000000000000000 (by norm_num) (by decide)⟩

end Polylog
