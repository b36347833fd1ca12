#!/usr/bin/env python3
"""Generates Props/Li34FPCert.lean: the rational approximations of Li3, Li4 in IEEE binary64."""
import sys; sys.path.insert(0,'/verif/tools/cl')
from clfp import *
import clfp
p,K=53,120
C1=11400714819323198485; C2=6364136223846793005
U=2**(K-p)
T={}
for n in (3,4): T.update(tabs(open(M+'Li%d.lean'%n).read()))
def prog(c):
    x=var(0); d=[x*x, var(1)*var(1)]; x2=var(1); x4=var(2)
    L=[lit(q) for q in c]
    s=L[0]+x*L[1]+x2*(L[2]+x*L[3])
    t=L[4]+x*L[5]
    if len(c)==7: t=t+x2*L[6]
    return d, s+x4*t
def text(nm):
    c=T[nm]
    r=f'♯({nm}[0]) +. (FE.var 0) *. ♯({nm}[1]) +. (FE.var 1) *. (♯({nm}[2]) +. (FE.var 0) *. ♯({nm}[3])) +. (FE.var 2) *. (♯({nm}[4]) +. (FE.var 0) *. ♯({nm}[5])'
    return r+(f' +. (FE.var 1) *. ♯({nm}[6]))' if len(c)==7 else ')')
def ratio(P,Q):
    ds,e=prog(P); ds2,e2=prog(Q)
    return ds+[e,e2], var(3)/var(4)
out=[]
w=out.append
w('''import Verif.Props.Li34FPApp

/-! # Rational approximations of `Li3`, `Li4` in IEEE binary64 (generated by tools/li/genli34.py) -/

namespace Polylog
set_option linter.style.longLine false
set_option linter.unusedSimpArgs false\nset_option maxRecDepth 20000

variable {L : Lib}
''')
def Bn(prg,lo,hi,nb):
    ds,e=prg
    d=-((lo-hi)*2**K//nb)+C1; a=int(lo*2**K)-C2
    return boxes(p,K,d,[],0,ds,e,a,nb),d,a
def adapt(prg,x,end,Bu):
    ds,e=prg; ws=[]
    while x<end:
        ww=end-x
        while True:
            try:
                if boxes(p,K,ww*2**(K-23)+C1,[],0,ds,e,x*2**(K-20)-C2,8)<=Bu*U: break
            except Exception: pass
            ww=ww*9//10
        ws.append(ww); x+=ww
    return ws
FN=[('li3_neg','li3neg',3,'-1','0',None),('li3_pos','li3pos',3,'0','1/2',90),('li4_neg','li4neg',4,'-1','0',None),('li4_half','li4half',4,'0','1/2',40),('li4_mid','li4mid',4,'1/2','0.8',1300)]
import math
for f,nm,n,lo,hi,tgt in FN:
    lo,hi=Fr(lo),Fr(hi)
    P,Q=nm+'P',nm+'Q'
    w('section\n/-- numeric literal -/\nlocal notation:max "♯" q:max => FE.lit (q : ℚ)')
    w(f'/-- numerator and denominator of `{f}` as straight-line programs -/')
    w(f'def {nm}D : List FE := [(FE.var 0) *. (FE.var 0), (FE.var 1) *. (FE.var 1)]')
    w(f'@[inherit_doc {nm}D] def {nm}EP : FE := {text(P)}')
    w(f'@[inherit_doc {nm}D] def {nm}EQ : FE := {text(Q)}')
    w(f'@[inherit_doc {nm}D] def {nm}RD : List FE := {nm}D ++ [{nm}EP, {nm}EQ]')
    w(f'@[inherit_doc {nm}D] def {nm}RE : FE := (FE.var 3) /. (FE.var 4)')
    w('end\n')
    if nm!='li4mid':
        bP=Bn(prog(T[P]),lo,hi,1); bQ=Bn(prog(T[Q]),lo,hi,1)
        B1=max(bP[0],bQ[0])
        w(f'theorem {nm}_certP : boxesP 53 120 {bP[1]} [] 0 {nm}D {nm}EP {B1} ({bP[2]}) 1 = true := by decide +kernel')
        w(f'theorem {nm}_certQ : boxesP 53 120 {bP[1]} [] 0 {nm}D {nm}EQ {B1} ({bP[2]}) 1 = true := by decide +kernel')
    R=ratio(T[P],T[Q])
    if tgt is None:
        B,d,a=Bn(R,lo,hi,16)
        w(f'theorem {nm}_certR : boxesP 53 120 {d} [] 0 {nm}RD {nm}RE {B} ({a}) 16 = true := by decide +kernel')
        rngh=f'(h0 : -1 ≤ q) (h1 : q ≤ 0)'
    else:
        B=tgt*U; st=int(lo*2**20)
        end=int(-((-hi*2**20)//1)); ws=adapt(R,st,end+(1 if nm=='li4mid' else 0),tgt)
        w(f'theorem {nm}_certR : hiCert 53 120 {nm}RD {nm}RE {B} {st} {ws} = true := by decide +kernel')
        rngh='(h0 : 0 ≤ q) (h1 : q ≤ 1 / 2)' if nm!='li4mid' else '(h0 : 1 / 2 ≤ q) (h1 : (q : ℝ) ≤ 0.8000001)'
    print(nm,'ratio %.3f u'%(B/U), 'P,Q %.2f'%(0 if nm=='li4mid' else B1/U))
    # real value of the programs
    for s,E,V in (('P','EP',P),('Q','EQ',Q)):
        w(f'''theorem {nm}_rs{s} (x : ℝ) : ofR (rsP RealSem.dec [toR RealSem.dec x] {nm}D {nm}{E}) = rv RealSem.dec {V} x := by
  have h : rsP RealSem.dec [toR RealSem.dec x] {nm}D {nm}{E} = (let x : R RealSem.dec := toR RealSem.dec x
    let x2 := x *. x
    let x4 := x2 *. x2
    (FOps.lit {V}[0] : R RealSem.dec) +. x *. (FOps.lit {V}[1] : R RealSem.dec) +. x2 *. ((FOps.lit {V}[2] : R RealSem.dec) +. x *. (FOps.lit {V}[3] : R RealSem.dec)) +. x4 *. ((FOps.lit {V}[4] : R RealSem.dec) +. x *. (FOps.lit {V}[5] : R RealSem.dec){f' +. x2 *. (FOps.lit {V}[6] : R RealSem.dec)' if len(T[V])==7 else ''})) := rfl
  rw [h]
  simp [rsem, rv, Fin.sum_univ_succ]; ring''')
    w(f'''theorem {nm}_rsR (x : ℝ) (h : rv RealSem.dec {Q} x ≠ 0) : ofR (rsP RealSem.dec [toR RealSem.dec x] {nm}RD {nm}RE) = rv RealSem.dec {P} x / rv RealSem.dec {Q} x := by
  have h' : rsP RealSem.dec [toR RealSem.dec x] {nm}RD {nm}RE = rsP RealSem.dec [toR RealSem.dec x] {nm}D {nm}EP /. rsP RealSem.dec [toR RealSem.dec x] {nm}D {nm}EQ := rfl
  rw [h', ofR_div (by rw [{nm}_rsQ]; exact h), {nm}_rsP, {nm}_rsQ]
''')
    if nm!='li4mid':
        w(f'theorem {nm}_fp (x : FP binary64 L) : ofF ({f} x) = FV.div binary64 (FV.mul binary64 (ofF x) (fpP binary64 [ofF x] {nm}D {nm}EP)) (fpP binary64 [ofF x] {nm}D {nm}EQ) := rfl')
        w(f'theorem {nm}_fpR (x : FP binary64 L) : fpP binary64 [ofF x] {nm}RD {nm}RE = FV.div binary64 (fpP binary64 [ofF x] {nm}D {nm}EP) (fpP binary64 [ofF x] {nm}D {nm}EQ) := rfl')
    else:
        w(f'theorem {nm}_fp (x : FP binary64 L) : ofF ({f} x) = fpP binary64 [ofF x] {nm}RD {nm}RE := rfl')
    # lower bound of Q
    if tgt is None:
        coefs=' + '.join(f'{str(abs(float(1)))}' for _ in [])
        w(f'''theorem {nm}_Qge {{x : ℝ}} (h0 : -1 ≤ x) (h1 : x ≤ 0) : 1 ≤ rv RealSem.dec {Q} x := by
  obtain ⟨t, rfl⟩ : ∃ t, x = -t := ⟨-x, by ring⟩
  have ht : 0 ≤ t := by linarith
  simp only [rv, RealSem.dec, id, Fin.sum_univ_succ, {Q}]
  simp
  norm_num
  nlinarith [pow_nonneg ht 2, pow_nonneg ht 3, pow_nonneg ht 4, pow_nonneg ht 5, pow_nonneg ht 6]

theorem {nm}_ratio' {{x : ℝ}} (h0 : -1 ≤ x) (h1 : x < 0) : |rv RealSem.dec {P} x / rv RealSem.dec {Q} x - reLi {n} x / x| ≤ 4.9e-17 := by
  rcases h0.eq_or_lt with h | h
  · subst h
    have hz := zlit_err RealSem.dec_lit {n-2} (by norm_num) {'1.202056903159594285' if n==3 else '1.082323233711138192'} (e := 1e-18) (by decide +kernel) (by norm_num)
    have hm := reLi_neg_one_eq {n-2}
    norm_num at hm
    rw [hm]
    have hc : |qev {P} (-1) / qev {Q} (-1) - {'3 / 4 * 1.202056903159594285' if n==3 else '7 / 8 * 1.082323233711138192'}| ≤ 4e-17 := by decide +kernel
    have hc' := (Rat.cast_le (K := ℝ)).2 hc
    rw [Rat.cast_abs, Rat.cast_sub, Rat.cast_div, ← rv_dec_cast, ← rv_dec_cast] at hc'
    push_cast at hc'
    simp only [RealSem.dec, id] at hz
    rw [abs_le] at hz hc' ⊢
    norm_num at hz hc' ⊢
    constructor <;> linarith [hz.1, hz.2, hc'.1, hc'.2]
  · refine (({nm}_ratio RealSem.dec_lit (by norm_num) h1 h).2).trans (by norm_num)
''')
    elif nm!='li4mid':
        m='0.19' if n==3 else '0.27'
        N={'li3pos':'den_li34.1','li4half':'den_li34.2.2.1'}[nm]
        w(f'''theorem {nm}_Qge {{x : ℝ}} (h0 : 0 ≤ x) (h1 : x ≤ 1 / 2) : {m} ≤ rv RealSem.dec {Q} x := by
  rcases h0.eq_or_lt with h | h
  · subst h
    have hc : {m} ≤ qev {Q} 0 := by decide +kernel
    have hc' := (Rat.cast_le (K := ℝ)).2 hc
    rw [← rv_dec_cast] at hc'
    push_cast at hc'; exact hc'
  · have h2 := (rcert_qv (by exact_mod_cast cert_{nm}) {N} (by norm_num) (by norm_num) (by norm_num) (by norm_num) (by norm_num) (by norm_num)
      (x := x) (by norm_num; exact h) (by norm_num; linarith)).1
    have e : rv RealSem.dec {Q} x = qv {Q} x := rfl
    rw [e]
    refine le_trans ?_ h2
    norm_num

theorem {nm}_ratio' {{x : ℝ}} (h0 : 0 < x) (h1 : x ≤ 1 / 2) : |rv RealSem.dec {P} x / rv RealSem.dec {Q} x - reLi {n} x / x| ≤ 5e-17 := by
  refine (({nm}_ratio RealSem.dec_lit (by norm_num) h0 h1).2).trans (by norm_num)
''')
    if nm=='li4mid':
        w(f'''/-- `li4_mid` in binary64 -/
theorem {nm}_near (x : FP binary64 L) {{q : ℚ}} (hx : Val binary64 (ofF x) q) (h0 : (1 / 2 : ℝ) ≤ q) (h1 : (q : ℝ) ≤ 0.8000001) :
    Near binary64 (ofF (li4_mid x)) (reLi 4 q) (1301 * uR binary64) := by
  have hs := hi_sound fmtOK64 (by norm_num) _ (by simp) {nm}_certR hx (by norm_num; linarith) (by norm_num at h1 ⊢; linarith)
  have hr := {nm}_ratio RealSem.dec_lit (by norm_num) h0 (by linarith)
  rw [← {nm}_fp, {nm}_rsR _ hr.1.ne'] at hs
  refine (hs.shift hr.2).mono ?_
  norm_num [uR, binary64]
''')
        continue
    C={'li3neg':16.3,'li3pos':98.5,'li4neg':16.5,'li4half':48.6}[nm]
    R={'li3neg':1.01,'li4neg':1.01}.get(nm,2.01)
    m={'li3neg':'0.9','li4neg':'0.9','li3pos':'0.18','li4half':'0.26'}[nm]
    bm=f'{B1}'
    rr='-1 ≤ q' if tgt is None else '0 ≤ q', 'q ≤ 0' if tgt is None else 'q ≤ 1 / 2'
    w(f'''/-- `{f}` in binary64: relative error `{C} u` -/
theorem {nm}_near (x : FP binary64 L) {{q : ℚ}} (hx : Val binary64 (ofF x) q) (h0 : {rr[0]}) (h1 : {rr[1]}) :
    Near binary64 (ofF ({f} x)) (reLi {n} q) ({C} * uR binary64 * |(q : ℝ)| + 2 ^ (-1068 : ℤ)) := by
  have h0r : {'(-1 : ℝ)' if tgt is None else '(0 : ℝ)'} ≤ q := by exact_mod_cast h0
  have h1r : (q : ℝ) ≤ {'0' if tgt is None else '1 / 2'} := by {'exact_mod_cast h1' if tgt is None else 'have := (Rat.cast_le (K := ℝ)).2 h1; push_cast at this; exact this'}
  have hu0 := uR_pos (φ := binary64)
  have hx0 : Near binary64 (ofF x) (ofR (toR RealSem.dec (q : ℝ))) (((0:ℤ):ℝ) / 2 ^ 120) := by
    have := hx.near; simpa using this
  have b0 : ((({bP[2]} : ℤ)) : ℝ) ≤ ofR (toR RealSem.dec (q : ℝ)) * 2 ^ 120 := by
    change _ ≤ (q:ℝ) * 2 ^ 120
    push_cast; nlinarith
  have b1 : ofR (toR RealSem.dec (q : ℝ)) * 2 ^ 120 ≤ ((({bP[2]} : ℤ) + (1 : ℕ) * {bP[1]} : ℤ) : ℝ) := by
    change (q:ℝ) * 2 ^ 120 ≤ _
    push_cast; nlinarith
  have hP := boxesP_sound fmtOK64 (S := RealSem.dec) rfl (by norm_num) (by norm_num) {nm}_certP .nil hx0 b0 b1
  have hQ := boxesP_sound fmtOK64 (S := RealSem.dec) rfl (by norm_num) (by norm_num) {nm}_certQ .nil hx0 b0 b1
  rw [{nm}_rsP] at hP
  rw [{nm}_rsQ] at hQ
  have hge := {nm}_Qge h0r h1r
  have hQ0 : rv RealSem.dec {Q} q ≠ 0 := by intro h; rw [h] at hge; norm_num at hge
''')
    if tgt is None:
        w(f'''  have hR := boxesP_sound fmtOK64 (S := RealSem.dec) rfl (by norm_num) (by norm_num) {nm}_certR .nil hx0 b0 (by
    change (q:ℝ) * 2 ^ 120 ≤ _
    push_cast; nlinarith)
  rw [{nm}_rsR _ hQ0, {nm}_fpR] at hR
''')
    else:
        w(f'''  have hR := hi_sound fmtOK64 (by norm_num) _ (by simp) {nm}_certR hx (by simpa using h0r) (by norm_num; linarith)
  rw [{nm}_rsR _ hQ0, {nm}_fpR] at hR
''')
    w(f'''  have hq1 : |(q:ℝ)| ≤ {'1' if tgt is None else '1 / 2'} := by rw [abs_le]; constructor <;> linarith
  have hpb : |rv RealSem.dec {P} q| ≤ 10 := by
    have e : rv RealSem.dec {P} q = qv {P} q := rfl
    rw [e]
    refine (qv_abs_le {P} (X := 1) (by push_cast; linarith)).trans ?_
    have : vAbs {P} 1 ≤ 10 := by decide +kernel
    exact_mod_cast this
  have hrat : |rv RealSem.dec {P} q / rv RealSem.dec {Q} q| ≤ {R} - 0.005 ∧ |q * (rv RealSem.dec {P} q / rv RealSem.dec {Q} q) - reLi {n} q| ≤ 5e-17 * |(q:ℝ)| := by
    by_cases hq0 : (q:ℝ) = 0
    · rw [hq0, reLi_zero_right]
      constructor
      · have hc : |qev {P} 0 / qev {Q} 0| ≤ {R} - 0.005 := by decide +kernel
        have hc' := (Rat.cast_le (K := ℝ)).2 hc
        rw [Rat.cast_abs, Rat.cast_div, ← rv_dec_cast, ← rv_dec_cast] at hc'
        push_cast at hc'; exact hc'
      · simp
    · have h := {nm}_ratio' {'h0r (lt_of_le_of_ne h1r hq0)' if tgt is None else '(lt_of_le_of_ne h0r (Ne.symm hq0)) h1r'}
      constructor
      · have hb := {f'reLi_euler_abs_le {n-1} (lt_of_le_of_ne h1r hq0) h0r' if tgt is None else f'reLi_div_abs_le {n-2} hq0 hq1 (by norm_num)'}
        norm_num at hb
        have := abs_add_le (rv RealSem.dec {P} q / rv RealSem.dec {Q} q - reLi {n} q / q) (reLi {n} q / q)
        rw [sub_add_cancel] at this
        norm_num at h ⊢; linarith
      · exact (quot_bound hq0 h).trans (mul_le_mul_of_nonneg_right (by norm_num) (abs_nonneg _))
  have hf := rat_rel fmtA64 hx (by linarith) hP (by norm_num at hpb ⊢; linarith) hQ (m := {m}) (by norm_num at hge ⊢; linarith) (by norm_num) hR (R := {R}) (by
    have := hrat.1; norm_num at this ⊢; linarith) (by norm_num) (by norm_num)
  rw [← {nm}_fp] at hf
  refine (hf.shift hrat.2).mono ?_
  have e1 : (103:ℝ) * 2 ^ (binary64.emin - 1) ≤ 2 ^ (-1068 : ℤ) := by
    have : (2:ℝ) ^ (-1068 : ℤ) = 2 ^ (7:ℤ) * 2 ^ (binary64.emin - 1) := by rw [← zpow_add₀ (by norm_num)]; rfl
    rw [this]
    have h2 : (0:ℝ) < 2 ^ (binary64.emin - 1) := by positivity
    norm_num at h2 ⊢
    try linarith
  have e2 : ((({B} : ℤ) : ℝ) / 2 ^ 120 + 4 * uR binary64 * {R} + 5e-17) ≤ {C} * uR binary64 := by norm_num [uR, binary64]
  have := mul_le_mul_of_nonneg_right e2 (abs_nonneg (q:ℝ))
  linarith
''')
w('end Polylog')
open('/verif/lean/Verif/Props/Li34FPCert.lean','w').write('\n'.join(out)+'\n')
