#!/usr/bin/env python3
"""generates lean/Verif/Proofs/Harmonic.lean"""
from fractions import Fraction as F
from math import comb
B={2:F(1,6),4:F(-1,30),6:F(1,42),8:F(-1,30),10:F(5,66),12:F(-691,2730),14:F(7,6),16:F(-3617,510)}
c=[B[2*k]/(2*k) for k in range(1,9)]
print(c)
def padd(a,b):
    n=max(len(a),len(b)); return [(a[i] if i<len(a) else 0)+(b[i] if i<len(b) else 0) for i in range(n)]
def pmul(a,b):
    r=[F(0)]*(len(a)+len(b)-1)
    for i,x in enumerate(a):
        for j,y in enumerate(b): r[i+j]+=x*y
    return r
def pw(m): return [F(comb(m,i)) for i in range(m+1)]
NL=24
L=[F(0)]+[F((-1)**(i+1),i) for i in range(1,NL+1)]
# g(N+1)-g(N) where g(N)=H_{N-1} - log N + 1/(2N) + sum c_k t^{2k}
# = t - log(1+t) + (1/2)(t/(1+t) - t) + sum c_k ((t/(1+t))^{2k} - t^{2k})
# times (1+t)^16
P=pmul(pw(16),padd([F(0),F(1)],[-x for x in L]))
P=padd(P,[F(1,2)*x for x in pmul([F(0),F(1)],pw(15))]); P=padd(P,[-F(1,2)*x for x in pmul([F(0),F(1)],pw(16))])
for k in range(1,9):
    P=padd(P,[c[k-1]*x for x in pmul([F(0)]*(2*k)+[F(1)],pw(16-2*k))]); P=padd(P,[-c[k-1]*x for x in pmul([F(0)]*(2*k)+[F(1)],pw(16))])
i=0
while P[i]==0: i+=1
print(i,len(P))
R=P[i:]
S=pmul(R,pw(2))
print([float(x) for x in R]); 
for j,x in enumerate(S): print(j,float(x), float(x)/comb(18,j+1) if j<18 else None)
SS=' + '.join(f'({x}) * t ^ {j}' for j,x in enumerate(S))
CC=' + '.join(f'({x}) * ((t / (1 + t)) ^ {2*k+2} - t ^ {2*k+2})' for k,x in enumerate(c))
LL=' + '.join(f'({F((-1)**(i+1),i)}) * t ^ {i}' for i in range(1,NL+1))
CT=' + '.join(f'({x}) * t ^ {2*k+2}' for k,x in enumerate(c))
BN=' + '.join(f'{comb(18,j+1)} * t ^ {j}' for j in range(18))
out=f'''import Verif.Proofs.ClCoef
import Mathlib.NumberTheory.Harmonic.EulerMascheroni
import Mathlib.Analysis.SpecialFunctions.Log.Deriv

/-! # Harmonic numbers: the asymptotic expansion used by `harmonic.cpp` and Euler's constant
(polynomials generated by tools/gendg.py) -/

noncomputable section
namespace Polylog
open Finset

/-- `∑ B_{{2k}}/(2k) t^{{2k}}`, k = 1..8 -/
def bsum (t : ℝ) : ℝ := {CT}

/-- the rational part of one step -/
theorem dg_poly {{t : ℝ}} (h : 0 < t) :
    (t - ({LL}) + (1 / 2) * (t / (1 + t) - t) + (bsum (t / (1 + t)) - bsum t)) * (1 + t) ^ 18 = t ^ 19 * ({SS}) := by
  have h1 : 1 + t ≠ 0 := by positivity
  rw [bsum, bsum]
  field_simp
  ring

theorem log_ser {{t : ℝ}} (h0 : 0 < t) (h1 : t ≤ 1 / 7) : |Real.log (1 + t) - ({LL})| ≤ 7 / 6 * t ^ {NL+1} := by
  have h := Real.abs_log_sub_add_sum_range_le (x := -t) (by rw [abs_neg, abs_of_pos h0]; linarith) {NL}
  rw [abs_neg, abs_of_pos h0, sub_neg_eq_add] at h
  have e : (∑ i ∈ range {NL}, (-t) ^ (i + 1) / ((i:ℝ) + 1)) = -({LL}) := by
    simp only [Finset.sum_range_succ, Finset.sum_range_zero]
    push_cast
    ring
  rw [e, neg_add_eq_sub] at h
  refine h.trans ?_
  rw [div_le_iff₀ (by linarith)]
  have : 0 < t ^ {NL+1} := by positivity
  nlinarith

theorem dg_ineq {{t : ℝ}} (h0 : 0 < t) (h1 : t ≤ 1 / 7) : t ^ 19 * ({SS}) + 14 * t ^ {NL+1} ≤ 3.06 * t ^ 19 * ({BN}) := by
  have e2 : t ^ 19 * ({SS}) + 14 * t ^ {NL+1} = t ^ 19 * ({SS} + 14 * t ^ {NL+1-19}) := by ring
  rw [e2, mul_comm (3.06:ℝ), mul_assoc]
  refine mul_le_mul_of_nonneg_left ?_ (by positivity)
  have hj : ∀ j : ℕ, 0 ≤ t ^ j := fun j => by positivity
  have hs : ∀ j : ℕ, 6 ≤ j → t ^ j ≤ 1 / 117649 := fun j hj => by
    calc t ^ j ≤ (1 / 7) ^ j := pow_le_pow_left₀ h0.le h1 j
      _ ≤ (1 / 7) ^ 6 := pow_le_pow_of_le_one (by norm_num) (by norm_num) hj
      _ = 1 / 117649 := by norm_num
  have hs2 : ∀ j : ℕ, 15 ≤ j → t ^ j ≤ 1 / 1000000000 := fun j hj => by
    calc t ^ j ≤ (1 / 7) ^ j := pow_le_pow_left₀ h0.le h1 j
      _ ≤ (1 / 7) ^ 15 := pow_le_pow_of_le_one (by norm_num) (by norm_num) hj
      _ ≤ _ := by norm_num
  linarith [{', '.join(f'hj {j}' for j in range(24))}, hs {NL+1-19} (by norm_num), {', '.join(f'hs2 {j} (by norm_num)' for j in range(15,24))}]


theorem dg_rhs {{t : ℝ}} (h0 : 0 < t) : 3.06 * (t ^ 18 - (t / (1 + t)) ^ 18) * (1 + t) ^ 18 = 3.06 * t ^ 19 * ({BN}) := by
  have : 1 + t ≠ 0 := by positivity
  field_simp
  ring

theorem dg_S0 {{t : ℝ}} (h0 : 0 < t) : 0 ≤ {SS} := by positivity

theorem dg_fin {{t lg L B SS BN : ℝ}} (h0 : 0 < t) (h1 : t ≤ 1 / 7) (hl : |lg - L| ≤ 7 / 6 * t ^ {NL+1})
    (hp : (t - L + (1 / 2) * (t / (1 + t) - t) + B) * (1 + t) ^ 18 = t ^ 19 * SS) (hS0 : 0 ≤ SS)
    (hr : 3.06 * (t ^ 18 - (t / (1 + t)) ^ 18) * (1 + t) ^ 18 = BN) (hI : t ^ 19 * SS + 14 * t ^ {NL+1} ≤ BN) :
    |t - lg + (1 / 2) * (t / (1 + t) - t) + B| ≤ 3.06 * (t ^ 18 - (t / (1 + t)) ^ 18) := by
  have hq : 0 < (1 + t) ^ 18 := by positivity
  have hq2 : (1 + t) ^ 18 ≤ 12 := (pow_le_pow_left₀ (by positivity) (by linarith : 1 + t ≤ 8 / 7) 18).trans (by norm_num)
  refine le_of_mul_le_mul_right ?_ hq
  rw [hr]
  generalize hA : t - L + (1 / 2) * (t / (1 + t) - t) + B = A at *
  have e : t - lg + (1 / 2) * (t / (1 + t) - t) + B = A - (lg - L) := by rw [← hA]; ring
  rw [e]
  generalize lg - L = ρ at *
  refine le_trans ?_ hI
  calc |A - ρ| * (1 + t) ^ 18 ≤ (|A| + |ρ|) * (1 + t) ^ 18 := mul_le_mul_of_nonneg_right (abs_sub _ _) hq.le
    _ = |A * (1 + t) ^ 18| + |ρ| * (1 + t) ^ 18 := by rw [abs_mul, abs_of_pos hq]; ring
    _ ≤ _ := by
      rw [hp, abs_of_nonneg (mul_nonneg (by positivity) hS0)]
      have : |ρ| * (1 + t) ^ 18 ≤ 7 / 6 * t ^ {NL+1} * 12 := mul_le_mul hl hq2 hq.le (by positivity)
      linarith

theorem dg_step {{t : ℝ}} (h0 : 0 < t) (h1 : t ≤ 1 / 7) :
    |t - Real.log (1 + t) + (1 / 2) * (t / (1 + t) - t) + (bsum (t / (1 + t)) - bsum t)| ≤ 3.06 * (t ^ 18 - (t / (1 + t)) ^ 18) :=
  dg_fin h0 h1 (log_ser h0 h1) (dg_poly h0) (dg_S0 h0) (dg_rhs h0) (dg_ineq h0 h1)

/-- `H_{{N-1}} - log N + 1/(2N) + ∑ B_{{2k}}/(2k N^{{2k}})` -/
def dgG (N : ℕ) : ℝ := ((_root_.harmonic (N - 1) : ℚ) : ℝ) - Real.log N + 1 / 2 * (1 / N) + bsum (1 / N)

theorem dgG_step (N : ℕ) (hN : 7 ≤ N) : |dgG (N + 1) - dgG N| ≤ 3.06 * (1 / (N:ℝ) ^ 18 - 1 / ((N:ℝ) + 1) ^ 18) := by
  have hN' : (7:ℝ) ≤ N := by exact_mod_cast hN
  have h := dg_step (t := 1 / (N:ℝ)) (by positivity) (by rw [div_le_div_iff₀ (by positivity) (by norm_num)]; linarith)
  have e1 : 1 / (N:ℝ) / (1 + 1 / N) = 1 / (N + 1) := by field_simp
  have e2 : Real.log (1 + 1 / (N:ℝ)) = Real.log (N + 1) - Real.log N := by
    rw [← Real.log_div (by positivity) (by positivity)]
    congr 1; field_simp
  have e3 : ((_root_.harmonic (N + 1 - 1) : ℚ) : ℝ) = ((_root_.harmonic (N - 1) : ℚ) : ℝ) + 1 / N := by
    obtain ⟨M, rfl⟩ : ∃ M, N = M + 1 := ⟨N - 1, by omega⟩
    rw [Nat.add_sub_cancel, Nat.add_sub_cancel, harmonic_succ]
    push_cast; rw [one_div]
  rw [e1, e2, one_div_pow, one_div_pow] at h
  refine le_trans (le_of_eq ?_) h
  rw [dgG, dgG, e3]
  push_cast
  congr 1
  ring

theorem dgG_diff (N : ℕ) (hN : 7 ≤ N) (j : ℕ) : |dgG (N + j) - dgG N| ≤ 3.06 * (1 / (N:ℝ) ^ 18 - 1 / ((N + j : ℕ):ℝ) ^ 18) := by
  induction j with
  | zero => simp
  | succ j ih =>
    have h := dgG_step (N + j) (by omega)
    have := abs_sub_le (dgG (N + j + 1)) (dgG (N + j)) (dgG N)
    rw [← add_assoc]
    push_cast at *
    linarith

theorem dgG_lim : Filter.Tendsto dgG Filter.atTop (nhds Real.eulerMascheroniConstant) := by
  have h := Real.tendsto_harmonic_sub_log_add_one
  have ht : Filter.Tendsto (fun n : ℕ => 1 / ((n:ℝ) + 1)) Filter.atTop (nhds 0) := tendsto_one_div_add_atTop_nhds_zero_nat
  have hc : Continuous (fun t : ℝ => 1 / 2 * t + bsum t) := by unfold bsum; fun_prop
  have h2 := (hc.tendsto 0).comp ht
  have e0 : 1 / 2 * (0:ℝ) + bsum 0 = 0 := by simp [bsum]
  rw [e0] at h2
  have h3 := h.add h2
  rw [add_zero] at h3
  refine (Filter.tendsto_add_atTop_iff_nat 1).mp (h3.congr fun n => ?_)
  simp only [dgG, Function.comp, Nat.add_sub_cancel]
  push_cast
  ring

/-- the asymptotic expansion of the digamma function at the integers, with a bound for the remainder -/
theorem harmonic_asymp (N : ℕ) (hN : 7 ≤ N) :
    |((_root_.harmonic (N - 1) : ℚ) : ℝ) - (Real.eulerMascheroniConstant + Real.log N - 1 / 2 * (1 / N) - bsum (1 / N))| ≤ 3.06 / (N:ℝ) ^ 18 := by
  have h := (dgG_lim.comp (Filter.tendsto_add_atTop_nat N)).sub_const (dgG N)
  have h2 := le_of_tendsto h.abs (Filter.Eventually.of_forall fun j => by
    show |dgG (j + N) - dgG N| ≤ 3.06 / (N:ℝ) ^ 18
    rw [add_comm]
    refine (dgG_diff N hN j).trans ?_
    have : 0 ≤ 1 / ((N + j : ℕ):ℝ) ^ 18 := by positivity
    rw [div_eq_mul_one_div (3.06:ℝ)]
    linarith)
  rw [abs_sub_comm] at h2
  refine le_trans (le_of_eq ?_) h2
  rw [dgG]; congr 1; ring

/-- Euler's constant to 26 digits -/
theorem euler_approx : |Real.eulerMascheroniConstant - 0.57721566490153286060651209| ≤ 1e-26 := by
  have h := harmonic_asymp 32 (by norm_num)
  have hH : ((_root_.harmonic (32 - 1) : ℚ) : ℝ) = {sum(F(1,i) for i in range(1,32))} := by
    simp only [_root_.harmonic, Finset.sum_range_succ, Finset.sum_range_zero]; norm_num
  have hl : Real.log ((32 : ℕ) : ℝ) = 5 * Real.log 2 := by
    rw [show ((32:ℕ):ℝ) = 2 ^ 5 by norm_num, Real.log_pow]; norm_num
  have h2 := abs_le.mp l2Q_approx
  rw [hH, hl, bsum] at h
  push_cast at h
  unfold l2Q at h2
  push_cast at h2
  rw [abs_le] at h ⊢
  norm_num at h h2 ⊢
  constructor <;> linarith'''+'''

end Polylog
'''
open('/verif/lean/Verif/Proofs/Harmonic.lean','w').write(out)
