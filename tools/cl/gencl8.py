#!/usr/bin/env python3
"""generates the n = 7, 8, 9 specific part of lean/Verif/Props/ClMidAcc.lean (printed)"""
from math import factorial
def gen(n):
    m=(n-1)//2; p=(n-1)%2; N=n-1
    # coefficients j: (-1)^j zeta(2(m-j)+1)/(2j+p)! ; clZeta index k=2(m-j)-1
    def co(j):
        k=2*(m-j)-1
        s='(FOps.lit 1 : R S)' if j%2==0 else '(∸(FOps.lit 1 : R S))'
        return f'{s} *. (FOps.lit clZeta[{k}] : R S) *. (FOps.lit clInvFac[{2*j+p}] : R S)'
    v='(FOps.lit 0 : R S)'
    for j in reversed(range(m)):
        v=f'(x *. x *. {v} +. {co(j)})'
    if p==1: v=f'{v} *. x'
    from fractions import Fraction as F
    R=F(31417,10000)
    tot=sum(R**(2*j+p)/factorial(2*j+p) for j in range(m))
    tp=int(tot*100)+1
    eta='(4.1e-17 + 3.5 * u)'
    def q1(q): return '1' if q<2 else f'1 / {factorial(q)}'
    def A(j):
        k=2*(m-j)-1; s=1 if j%2==0 else -1
        return f'(({s} : ℝ) * ((S.rho clZeta[{k}] : ℚ) : ℝ) * ((S.rho clInvFac[{2*j+p}] : ℚ) : ℝ) - loC {m} {p} {j})'
    terms=' + '.join(f'{A(j)} * x0 ^ {2*j+p}' for j in range(m))
    out=f'''
theorem pcal{n}_R (hS : S.Lit u) (hu : u ≤ 1e-6) {{x : R S}} (h0 : 0 ≤ ofR x) (h1 : ofR x ≤ 3.1417) :
    ∃ v, pcal {n} x = .ok v ∧ |ofR v - ofR x ^ {p} * ∑ j ∈ range {m}, loC {m} {p} j * (ofR x ^ 2) ^ j| ≤ {tp/100} * {eta} := by
  refine ⟨{v}, rfl, ?_⟩
  have hl : ∀ q : ℚ, ofR (FOps.lit q : R S) = ((S.rho q : ℚ) : ℝ) := fun _ => rfl
  simp only [ofR_add, ofR_mul, ofR_neg, lit0 hS, lit1 hS, Finset.sum_range_succ, Finset.sum_range_zero]
  generalize ofR x = x0 at *
  rw [{', '.join(f'hl clZeta[{2*(m-j)-1}], hl clInvFac[{2*j+p}]' for j in range(m))}]
  have hu0 := hS.u_nonneg
'''
    for j in range(m):
        k=2*(m-j)-1; s=1 if j%2==0 else -1; q=2*j+p
        out+=f'''  have n{j} : ((clInvFac[{q}] : ℚ) : ℝ) = {q1(q)} := by
    show ((({q1(q)} : ℚ)) : ℝ) = _
    norm_num
  have b{j} : |{A(j)} * x0 ^ {q}| ≤ {q1(q)} * {eta} * 3.1417 ^ {q} := by
    have c := pc_coef hS hu {k} (by norm_num) clInvFac[{q}] ({s}) (by norm_num)
    rw [n{j}, abs_of_pos (by norm_num : (0:ℝ) < {q1(q)})] at c
    have l : loC {m} {p} {j} = ({s} : ℝ) * reLi ({k} + 2) 1 * ({q1(q)}) := by
      rw [loC_lt {m} {p} {j} (by norm_num)]
      norm_num [Nat.factorial]
      try ring
    rw [← l] at c
    rw [abs_mul, abs_of_nonneg (pow_nonneg h0 {q})]
    exact mul_le_mul c (pow_le_pow_left₀ h0 h1 {q}) (by positivity) (by positivity)
'''
    out+=f'''  have e : ∀ y : ℝ, y = {terms} → |y| ≤ {tp/100} * {eta} := fun y hy => by
    rw [hy]
    have := {"abs_add_three" if m==3 else "abs4"} {' '.join(f'({A(j)} * x0 ^ {2*j+p})' for j in range(m))}
    linarith
  refine e _ ?_
  ring

theorem clMid{n}_acc (hS : S.Lit u) (hu : u ≤ 1e-6) {{x : R S}} (h0 : {'0 ≤ ofR x' if p==0 else '0 < ofR x'}) (h1 : ofR x ≤ 3.1417) :
    ∃ c : R S, (∀ s, clMid {n} x s = .ok (s *. c)) ∧ |ofR c - clausen {n} (ofR x)| ≤ 7e-16 + 54 * u := by
  have hu0 := hS.u_nonneg
  obtain ⟨pc, hpc, epc⟩ := pcal{n}_R hS hu (x := x) {'h0' if p==0 else 'h0.le'} h1
  obtain ⟨ns, hns, ens⟩ := nsum{n}_R hS hu (x := x) {'h0' if p==0 else 'h0.le'}
  have hp := powi_R (x := x) {'h0' if p==0 else 'h0.le'} {N} (by norm_num)
  push_cast at hp
  have h2 := litnat hS 2 (by norm_num)
  push_cast at h2
  let c : R S := (if x ==. (FOps.lit 0 : R S) then (FOps.lit 0 : R S) else {'(FOps.lit 1 : R S)' if ((n+1)//2)%2==0 else '∸(FOps.lit 1 : R S)'} *. powi x {N} *. (FOps.lit clInvFac[{n-1}] : R S) *. FOps.log ((FOps.lit 2 : R S) *. FOps.sin (x /. (FOps.lit 2 : R S)))) +.
    (pc -. {'(FOps.lit 1 : R S)' if (n//2)%2==0 else '∸(FOps.lit 1 : R S)'} *. (FOps.lit clInvFac[{n-2}] : R S) *. ns)
  refine ⟨c, fun s => ?_, ?_⟩
  · have e : clMid {n} x s = (pcal {n} x >>= fun pc => nsum {n} x >>= fun ns => pure (s *. ((if x ==. (FOps.lit 0 : R S) then (FOps.lit 0 : R S) else {'(FOps.lit 1 : R S)' if ((n+1)//2)%2==0 else '∸(FOps.lit 1 : R S)'} *. powi x {N} *. (FOps.lit clInvFac[{n-1}] : R S) *. FOps.log ((FOps.lit 2 : R S) *. FOps.sin (x /. (FOps.lit 2 : R S)))) +.
      (pc -. {'(FOps.lit 1 : R S)' if (n//2)%2==0 else '∸(FOps.lit 1 : R S)'} *. (FOps.lit clInvFac[{n-2}] : R S) *. ns)))) := rfl
    rw [e, hpc, bind_ok, hns, bind_ok]; rfl
  have f1 := hS.rel clInvFac[{n-1}]
  have f2 := hS.rel clInvFac[{n-2}]
  have g1 : ((clInvFac[{n-1}] : ℚ) : ℝ) = 1 / {factorial(n-1)} := by
    show ((1 / {factorial(n-1)} : ℚ) : ℝ) = _; norm_num
  have g2 : ((clInvFac[{n-2}] : ℚ) : ℝ) = 1 / {factorial(n-2)} := by
    show ((1 / {factorial(n-2)} : ℚ) : ℝ) = _; norm_num
  rw [g1, abs_of_pos (by norm_num : (0:ℝ) < 1 / {factorial(n-1)})] at f1
  rw [g2, abs_of_pos (by norm_num : (0:ℝ) < 1 / {factorial(n-2)})] at f2
  have hl1 : ofR (FOps.lit clInvFac[{n-1}] : R S) = ((S.rho clInvFac[{n-1}] : ℚ) : ℝ) := rfl
  have hl2 : ofR (FOps.lit clInvFac[{n-2}] : R S) = ((S.rho clInvFac[{n-2}] : ℚ) : ℝ) := rfl
  have ec : ofR c = ofR (if x ==. (FOps.lit 0 : R S) then (FOps.lit 0 : R S) else {'(FOps.lit 1 : R S)' if ((n+1)//2)%2==0 else '∸(FOps.lit 1 : R S)'} *. powi x {N} *. (FOps.lit clInvFac[{n-1}] : R S) *. FOps.log ((FOps.lit 2 : R S) *. FOps.sin (x /. (FOps.lit 2 : R S)))) +
    (ofR pc - ({'1' if (n//2)%2==0 else '-1'} : ℝ) * ofR (FOps.lit clInvFac[{n-2}] : R S) * ofR ns) := by
    simp only [c, ofR_add, ofR_sub, ofR_mul, ofR_neg, lit1 hS]
  rw [ec, ens]
'''
    zero = f'''  rcases eq_or_lt_of_le h0 with hz | hz
  · rw [eq_R, lit0 hS, ← hz, if_pos (by simp), lit0 hS]
    have hc := clausen_odd_zero {m}
    norm_num at hc
    rw [hc]
    rw [← hz, Finset.sum_range_succ'] at epc
    simp [loC_lt {m} 0 0 (by norm_num)] at epc
    simp
    refine epc.trans ?_
    norm_num
    linarith
''' if p==0 else '''  have hz := h0
'''
    out+=zero+f'''  · rw [eq_R, lit0 hS, if_neg (by simpa using hz.ne')]
    have hs2 : ofR (FOps.log ((FOps.lit 2 : R S) *. FOps.sin (x /. (FOps.lit 2 : R S)))) = Real.log (2 * Real.sin (ofR x / 2)) := by
      have := sin_ge_half (t := ofR x / 2) (by linarith) (by linarith)
      rw [ofR_log (by rw [ofR_mul, h2, ofR_sin, half_R hS]; linarith), ofR_mul, h2, ofR_sin, half_R hS]
    simp only [ofR_mul, ofR_neg, lit1 hS, hs2, hp, hl1, hl2]
    have hF : ((Nat.factorial (2 * {m} + {p}) : ℕ) : ℝ) = {factorial(N)} := by norm_num [Nat.factorial]
    have key := mid_real (u := u) {m} {p} (by norm_num) (x := ofR x) (f := ((S.rho clInvFac[{n-1}] : ℚ) : ℝ)) (g := ((S.rho clInvFac[{n-2}] : ℚ) : ℝ) / {N}) (U := uS S (ofR x) (fun k => -1 / (2 * (k + 1)) * dC {N} (k + 1)))
      (P := ofR pc) hz h1 hu0 hu (by rw [hF]; norm_num) (by
        simp only [_root_.harmonic, Finset.sum_range_succ, Finset.sum_range_zero]; norm_num) (by norm_num)
      (by rw [hF]; exact f1) (by
        rw [hF]
        have e : ((S.rho clInvFac[{n-2}] : ℚ) : ℝ) / ({N}:ℝ) - (1:ℝ) / ({factorial(N)}:ℝ) = (((S.rho clInvFac[{n-2}] : ℚ) : ℝ) - 1 / {factorial(N-1)}) / {N} := by ring
        rw [e, abs_div, abs_of_pos (by norm_num : (0:ℝ) < {N}), div_le_iff₀ (by norm_num)]
        refine f2.trans (le_of_eq (by ring))) (fun Q hQ => uS_close hS hz h1 {N} hQ) epc
    norm_num at key ⊢
    refine le_trans (le_of_eq ?_) (key.trans (by linarith))
    congr 1
    ring
'''
    return out
if __name__=='__main__':
    for n in (7,8,9): print(gen(n))
