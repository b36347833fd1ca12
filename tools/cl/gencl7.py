#!/usr/bin/env python3
"""generates the part of lean/Verif/Props/ClMidReal.lean which depends on n = 7, 8, 9 (printed)"""
from math import comb, factorial
from fractions import Fraction as Fr
def gen(n):
    N=n-1
    sgn=(-1)**N
    H=sum(Fr(1,i) for i in range(1,N+1))
    out=[]
    # nsum
    obt=''.join(f"  obtain ⟨v{q}, h{q}, e{q}⟩ := ncal_R hS hu {q} hx\n" for q in range(N))
    hs=', '.join(f'h{q}' for q in range(N)); es=', '.join(f'e{q}' for q in range(N))
    # code: sum = 0 + b0*1*nc(N-1) ; xn=1*(-x) ...
    sm='(FOps.lit 0 : R S)'; xn='(FOps.lit 1 : R S)'
    for i in range(n-2):
        sm=f'({sm} +. (FOps.ofInt {comb(n-2,i)} : R S) *. {xn} *. v{n-2-i})'
        xn=f'({xn} *. ∸x)'
    val=f'{sm} +. {xn} *. v0'
    steps=''.join(f'(nsumLoop_step {n} {i} x _ _ v{n-2-i} _ _ {n-3-i} rfl rfl h{n-2-i}).trans <| ' for i in range(n-2))
    D='*'.join(f'(2*(k+1)+{i})' for i in range(1,N+1))
    out.append(f'''
theorem nsum{n}_R (hS : S.Lit u) (hu : u ≤ 1e-6) {{x : R S}} (hx : 0 ≤ ofR x) :
    ∃ v, nsum {n} x = .ok v ∧ ofR v = ofR x ^ {N} * (({-sgn}) / {N}) * (((_root_.harmonic {N} : ℚ) : ℝ) + uS S (ofR x) (fun k => -1 / (2 * (k + 1)) * dC {N} (k + 1))) := by
{obt}  refine ⟨{val}, ?_, ?_⟩
  · push_cast at {' '.join(f'h{q}' for q in range(N))}
    have e : nsumLoop {n} x {n-2} 0 (FOps.lit 0 : R S) (FOps.lit 1 : R S) = .ok ({sm}, {xn}) :=
      {steps}rfl
    have e2 : nsum {n} x = (nsumLoop {n} x {n-2} 0 (FOps.lit 0 : R S) (FOps.lit 1 : R S) >>= fun r => ncal 0 x >>= fun n0 => pure (r.1 +. r.2 *. n0)) := rfl
    rw [e2, e, bind_ok, h0, bind_ok]; rfl
  · simp only [ofR_add, ofR_mul, ofR_neg, ofR_ofInt, {es}, lit0 hS, lit1 hS]
    have hH : ((_root_.harmonic {N} : ℚ) : ℝ) = {H.numerator} / {H.denominator} := by
      simp only [_root_.harmonic, Finset.sum_range_succ, Finset.sum_range_zero]; norm_num
    rw [hH]
    simp only [uS]
    have hd : ∀ k : ℕ, dC {N} (k + 1) = {factorial(N)} / ({D}) - 1 := fun k => by
      rw [dC]
      have : ((2 * (k + 1)).factorial : ℝ) ≠ 0 := by exact_mod_cast Nat.factorial_ne_zero _
      have h2 : ((2 * (k + 1) + {N}).factorial : ℝ) = ({D}) * (2 * (k + 1)).factorial := by
        simp only [Nat.factorial_succ]; push_cast; ring
      rw [h2, show ((Nat.factorial {N} : ℕ) : ℝ) = {factorial(N)} by norm_num [Nat.factorial]]
      have hD : ({D} : ℝ) ≠ 0 := by positivity
      field_simp
    have key : ∑ k ∈ range 202, bS S k * (ofR x ^ 2) ^ (k + 1) * (-1 / (2 * (k + 1)) * dC {N} (k + 1)) =
        ({-sgn * N}) * ({' + '.join(f"({(-1)**i*comb(N-1,i)}) / {N-i} * ∑ k ∈ range 202, bS S k * (ofR x ^ 2) ^ (k + 1) * (1 / (2 * (k + 1) + {N-1-i} + 1))" for i in range(N))}) := by
      simp only [Finset.mul_sum, ← Finset.sum_add_distrib]
      refine Finset.sum_congr rfl fun k _ => ?_
      rw [hd]
      have : (k:ℝ) + 1 ≠ 0 := by positivity
      generalize bS S k * (ofR x ^ 2) ^ (k + 1) = t
      have hk : (0:ℝ) ≤ k := Nat.cast_nonneg k
      field_simp
      ring
    rw [key]
    push_cast
    ring
''')
    return '\n'.join(out)
if __name__=='__main__':
    for n in (7,8,9): print(gen(n))
