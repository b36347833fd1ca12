#!/usr/bin/env python3
"""Generator of lean/Verif/Props/Cl?FP.lean (Clausen functions in IEEE arithmetic)."""
import re,math
from clfp import *
from fractions import Fraction as Fr
C1=11400714819323198485; C2=6364136223846793005
FM={'b64':(53,120,'binary64','fmtA64','fmtOK64','clCtx_d L'),'x87':(64,140,'x87ext','fmtA80','fmtOK80','clCtx_x87 L'),'b128':(113,220,'binary128','fmtA128','fmtOK128','clCtx_quad L')}
PIc={'d':'3.14159265358979324','l':'3.14159265358979323846264338327950288'}
P1c={'d':'0.0019353071795864769253','l':'0.0019353071795864769252867665590057683943'}
def texts(n,v,br):
    b=branch(n,v); defs,res=b[br]
    used=' '.join(t for _,t in defs)+' '+res
    hdr=[h for h in b['hdr'] if h[0]=='PI28' and re.search(r'\bPI28\b',used)]
    sub={'x':'(FE.var 0)','L':'(FE.var 1)'}
    base=2 if br=='lo' else 1
    for nm,t in b['hdr']:
        if nm.startswith('zeta') or nm=='PI': sub[nm]=t
    def tr(t):
        t=t.replace('(xlog x)','L')
        return re.sub(r'(?<![\w.♯(])\b([A-Za-z]\w*)\b(?!\[)',lambda m: sub.get(m.group(1),m.group(1)),re.sub(r'\(([A-Za-z]\w*)\b(?!\[)',lambda m:'( '+m.group(1),t))
    out=[]
    for nm,t in hdr+defs:
        out.append(tr(t)); sub[nm]='(FE.var %d)'%(base+len(out)-1)
    return out,tr(res)
def prog(n,v,br):
    b=branch(n,v); T=b['T']; defs,res=b[br]
    used=' '.join(t for _,t in defs)+' '+res
    hdr=[h for h in b['hdr'] if h[0]=='PI28' and re.search(r'\bPI28\b',used)]
    names={'x':var(0)}
    base=1
    if br=='lo': names['L']=var(1); base=2
    for nm,t in b['hdr']:
        if nm.startswith('zeta') or nm=='PI': names[nm]=pyexpr(t,T,names)
    ds=[]
    for nm,t in hdr+defs:
        ds.append(pyexpr(t,T,names)); names[nm]=var(base+len(ds)-1)
    return ds,pyexpr(res,T,names)
def loB(n,v,f):
    p,K=FM[f][:2]; ds,e=prog(n,v,'lo')
    Bs=[boxes(p,K,2**(K-20)+C1,[(-2**(K+15),0,2**(K-p+17))],0,ds,e,0,1),
        boxes(p,K,585*2**(K-13)+C1,[(0,585*2**(K-10),5*2**(K-p-2))],0,ds,e,2**K-C2,8)]
    for k in range(20):
        Bs.append(boxes(p,K,2**(K-k-4)+C1,[(-((k+1)*710*2**(K-10)),-(k*709*2**(K-10)),(k+1)*3*2**(K-p-1))],0,ds,e,2**(K-k-1)-C2,8))
    return max(Bs)
def hiB(n,v,f,a,w,nb):
    p,K=FM[f][:2]; ds,e=prog(n,v,'hi')
    return boxes(p,K,w*2**(K-10)//nb+1,[],0,ds,e,a*2**(K-10),nb)
TGT={('d',2):40,('d',3):24,('d',4):37,('d',5):21,('d',6):26,('l',2):200,('l',3):12000,('l',4):1500,('l',5):12000,('l',6):50000}
def groups(n,v,f,Bu):
    p,K=FM[f][:2]; ds,e=prog(n,v,'hi')
    x=1646592; end=3294208; ws=[]   # units 2^-20 : 1.5703, 3.1416
    while x<end:
        w=end-x
        while True:
            try:
                if boxes(p,K,w*2**(K-23)+C1,[],0,ds,e,x*2**(K-20)-C2,8)<=Bu*2**(K-p): break
            except Exception: pass
            w=w*9//10
            assert w>8
        ws.append(w); x+=w
    return ws
R='/verif/lean/Verif/Props/'
def accs(n,v):
    t=open(R+'Cl%dReal.lean'%n).read()
    d={}
    for br in ('Lo','Hi'):
        m=re.search(r'theorem cl%d%s%s_acc .*?≤ ([\d.e-]+) \+ [\d.e-]+ \* u := by'%(n,v,br),t,re.S)
        d[br]=m.group(1)
    return d
ZN={(3,'d'):('Z3d','1.2020569031595943'),(3,'l'):('Z3l','1.2020569031595942853997381615114499908'),(5,'d'):('Z5d','1.0369277551433699'),(5,'l'):('Z5l','1.036927755143369926331365486457034168057')}
def gen(n):
    m=(n-1)//2; p_=0 if n%2 else 1
    if n%2==0: m=(n-2)//2
    o=[]
    w=o.append
    w('import Verif.Props.ClFPGen\nimport Verif.Props.Cl%dReal\n'%n)
    w('/-! # C40: `Cl%d` in IEEE arithmetic (generated by tools/cl/genclfp.py) -/\n'%n)
    w('namespace Polylog\nset_option linter.style.longLine false\n\nvariable {φ : Fmt} {L : Lib}\n')
    cl='clausen (2 * %d + 1 + %d)'%(m,p_)
    for v in 'dl':
        N='cl%d%s'%(n,v)
        w('section\n/-- numeric literal -/\nlocal notation:max "♯" q:max => FE.lit (q : ℚ)\n')
        for br,Br in (('lo','Lo'),('hi','Hi')):
            ds,e=texts(n,v,br)
            w('/-- the %s branch of `Cl%d%s` as a straight-line program -/'%('low' if br=='lo' else 'high',n,v))
            w('def %s%sD : List FE := [\n  %s]'%(N,Br,',\n  '.join(ds)))
            w('@[inherit_doc %s%sD] def %s%sE : FE := %s'%(N,Br,N,Br,e))
        w('end\n')
        w('theorem %sLo_fp (x : FP φ L) : fpP φ [ofF x, ofF (xlog x)] %sLoD %sLoE = ofF (%sLo x) := rfl'%(N,N,N,N))
        w('theorem %sHi_fp (x : FP φ L) : fpP φ [ofF x] %sHiD %sHiE = ofF (%sHi x) := rfl'%(N,N,N,N))
        w('theorem %sLo_rs (S : RealSem) (x : R S) : rsP S [x, xlog x] %sLoD %sLoE = %sLo x := rfl'%(N,N,N,N))
        w('theorem %sHi_rs (S : RealSem) (x : R S) : rsP S [x] %sHiD %sHiE = %sHi x := rfl\n'%(N,N,N,N))
        A=accs(n,v)
        for f in (['b64'] if v=='d' else ['x87','b128'] if n==2 else ['x87']):
            p,K,FN,FA,FO,CX=FM[f]
            suf='' if v=='d' else '_x87' if f=='x87' else '_quad'
            lb=loB(n,v,f); hbu=TGT[(v,n)]; ws=groups(n,v,f,hbu); hb=hbu*2**(K-p)
            assert 1646592+sum(ws)>=3294208
            w('theorem %sLo_cert%s : loCert %d %d %sLoD %sLoE %d = true := by decide +kernel'%(N,suf,p,K,N,N,lb))
            w('theorem %sHi_cert%s : hiCert %d %d %sHiD %sHiE %d 1646592 [%s] = true := by decide +kernel'%(N,suf,p,K,N,N,hb,', '.join(map(str,ws))))
            u=Fr(1,2**p)
            EL=(Fr(lb,2**K)+Fr(A['Lo']))/u; EH=(Fr(hb,2**K)+Fr(A['Hi']))/u
            E=math.ceil(max(EL,EH,Fr(9) if (n%2==0 and n>2) else 4)*Fr(101,100))
            print(n,v,f,len(ws),'groups lo %.2f hi %.2f E %d'%(EL,EH,E))
            c=PIc[v]
            w('\ntheorem %sLo_near%s (hL : LogOK %s L) (r : FP %s L) (ρ : ℚ) (hr : Val %s (ofF r) ρ) (h0 : 0 < ρ) (h1 : ρ < rq %s %s / 2) :\n    Near %s (ofF (%sLo r)) (%s ρ) (%d * uR %s) := by'%(N,suf,FN,FN,FN,FN,c,FN,N,cl,E,FN))
            w('  have h2 := (%s).lt_dec hr h0.le h1'%CX)
            w('  have h3 : (ρ : ℝ) < ((%s : ℚ) : ℝ) / 2 := by exact_mod_cast h2'%c)
            w('  have h4 : (ρ : ℝ) ≤ 1.571 := by norm_num at h3 ⊢; linarith')
            w('  have hs := lo_sound %s %s hL (by decide) %sLo_cert%s hr h0 h4'%(FO,FA,N,suf))
            w('  rw [%sLo_fp, %sLo_rs] at hs'%(N,N))
            w('  have ha := %sLo_acc RealSem.dec_lit (by norm_num) (r := toR RealSem.dec (ρ : ℝ)) (show (0:ℝ) < ρ by exact_mod_cast h0) h3'%N)
            w('  refine (hs.shift ha).mono ?_')
            w('  norm_num [uR, %s]\n'%FN)
            w('theorem %sHi_near%s (r : FP %s L) (ρ : ℚ) (hr : Val %s (ofF r) ρ) (h0 : rq %s %s / 2 ≤ ρ) (h1 : ρ ≤ rq %s %s) :\n    Near %s (ofF (%sHi r)) (%s ρ) (%d * uR %s) := by'%(N,suf,FN,FN,FN,c,FN,c,FN,N,cl,E,FN))
            w('  have hd := abs_le.1 (rq_errR %s %s)'%(FA,c))
            w('  have h0r : ((rq %s %s : ℚ) : ℝ) / 2 ≤ ρ := by exact_mod_cast h0'%(FN,c))
            w('  have h1r : (ρ : ℝ) ≤ ((rq %s %s : ℚ) : ℝ) := by exact_mod_cast h1'%(FN,c))
            w('  rw [abs_of_nonneg (by norm_num)] at hd')
            w('  have hu : uR %s ≤ 1 / 2 ^ 53 := by norm_num [uR, %s]'%(FN,FN))
            w('  have hu0 := uR_pos (φ := %s)'%FN)
            w('  have a1 : ((%s : ℚ) : ℝ) / 2 - 1e-6 ≤ ρ := by norm_num at hd ⊢; nlinarith [hd.1]'%c)
            w('  have a2 : (ρ : ℝ) ≤ ((%s : ℚ) : ℝ) + 1e-4 := by norm_num at hd ⊢; nlinarith [hd.2]'%c)
            w('  have b1 : ((1646592 : ℕ) : ℝ) / 2 ^ 20 ≤ ρ := by norm_num at a1 ⊢; linarith')
            w('  have b2 : (ρ : ℝ) ≤ 3.1416 := by norm_num at hd ⊢; nlinarith [hd.2]')
            w('  have hs : Near %s (fpP %s [ofF r] %sHiD %sHiE) (ofR (rsP RealSem.dec [toR RealSem.dec (ρ : ℝ)] %sHiD %sHiE)) (((%d : ℤ) : ℝ) / 2 ^ %d) := by'%(FN,FN,N,N,N,N,hb,K))
            w('    exact hi_sound %s (by norm_num) _ (by simp) %sHi_cert%s hr b1 (by norm_num at b2 ⊢; linarith)'%(FO,N,suf))
            w('  rw [%sHi_fp, %sHi_rs] at hs'%(N,N))
            w('  have ha := %s%sHi_acc RealSem.dec_lit (by norm_num) (r := toR RealSem.dec (ρ : ℝ)) a1 a2%s'%('(' if p_ else '',N,').2' if p_ else ''))
            w('  refine (hs.shift ha).mono ?_')
            w('  norm_num [uR, %s]\n'%FN)
            if n==2 and f in('b64','x87','b128'):
                w('theorem %s_pi%s : |clausen (2 * 0 + 1 + 1) ((rq %s %s : ℚ) : ℝ)| ≤ %d * uR %s := by'%(N,suf,FN,c,E,FN))
                w('  have h := (%s).hd\n  have hu : uR %s ≤ 1 / 2 ^ 53 := by norm_num [uR, %s]\n  have hu0 := uR_pos (φ := %s)'%(CX.replace(' L',' zeroLib'),FN,FN,FN))
                w('  refine (clausen_two_pi (by linarith)).trans ?_\n  linarith\n')
            # final
            FU='C40_Cl%d%s%s'%(n,v,suf)
            if p_==0:
                gen_c='%d + 3 * |(q : ℝ)|'%(E+16)
            elif n==2:
                gen_c='%d + %d * |(q : ℝ)|'%((E+464+1,78) if v=='d' else (E+792+1,132))
            else:
                gen_c='%d + 3 * |(q : ℝ)|'%(E+16)
            name='double' if v=='d' else 'long double` (x87 extended format)`' if f=='x87' else 'long double` (IEEE quadruple format)`'
            w('/-- **C40**, `%s Cl%d`: for every finite `x` the result is finite and within `(%s) u` of `Cl_%d(x)`, `u = 2^-%d`; within `%d u` for `|x| ≤ 3.14`. -/'%(name.rstrip('`') if v=='d' else 'long double',n,gen_c.replace('(q : ℝ)','x'),n,p,E))
            w('theorem %s (hL : LogOK %s L) (x : FP %s L) {q : ℚ} (hx : Val %s (ofF x) q) :\n    ∃ r : ℚ, Val %s (ofF (Cl%d%s x)) r ∧ |(r : ℝ) - clausen %d q| ≤ (%s) * 2 ^ (-%d : ℤ) ∧\n      (|(q : ℝ)| ≤ 3.14 → |(r : ℝ) - clausen %d q| ≤ %d * 2 ^ (-%d : ℤ)) := by'%(FU,FN,FN,FN,FN,n,v,n,gen_c,p,n,E,p))
            if p_==0:
                z,zc=ZN[(n,v)]
                w('  have hZ : Near %s (ofF (FOps.lit %s : FP %s L)) (%s 0) (%d * uR %s) := by'%(FN,zc,FN,cl,E,FN))
                w('    rw [clausen_odd_zero, ofF_lit]')
                w('    refine ((near_lit %s (q := %s) (by rw [abs_of_nonneg (by norm_num)]; norm_num)).shift (%s (S := RealSem.dec) RealSem.dec_lit)).mono ?_'%(FA,zc,z))
                w('    rw [abs_of_nonneg (by norm_num)]\n    norm_num [uR, %s]'%FN)
                w('  have h := (%s).odd %s %d (by norm_num) hZ (%sLo_near%s hL) (%sHi_near%s) x hx (y := Cl%d%s x) (Cl%d%s_split x)'%(CX,FA,m,N,suf,N,suf,n,v,n,v))
            elif n==2:
                w('  have h := (%s).even %s 0 (E := %d * uR %s) (Λ := %d) (κ := %s) (by have := uR_pos (φ := %s); positivity) (by norm_num) %s %s_pi%s\n    (%sLo_near%s hL) (%sHi_near%s) x hx (y := Cl2%s x) (Cl2%s_split x)'%(CX,FA,E,FN,58 if v=='d' else 99,'1e-24' if v=='d' else '1e-42',FN,'clausen_two_d' if v=='d' else 'clausen_two_l',N,suf,N,suf,N,suf,v,v))
            else:
                w('  have hpi : |%s ((rq %s %s : ℚ) : ℝ)| ≤ %d * uR %s := by'%(cl,FN,c,E,FN))
                w('    have h := (%s).hd\n    have hu0 := uR_pos (φ := %s)'%(CX,FN))
                w('    have := clausen_lip %d 1 (by norm_num) (by norm_num) ((rq %s %s : ℚ) : ℝ) Real.pi\n    rw [clausen_even_pi, sub_zero] at this\n    linarith'%(m,FN,c))
                w('  have h := (%s).even %s %d (E := %d * uR %s) (Λ := 2) (κ := 0) (by have := uR_pos (φ := %s); positivity) (by norm_num)\n    (fun a b => le_of_le_of_eq (clausen_lip %d 1 (by norm_num) (by norm_num) a b) (add_zero _).symm) hpi\n    (%sLo_near%s hL) (%sHi_near%s) x hx (y := Cl%d%s x) (Cl%d%s_split x)'%(CX,FA,m,E,FN,FN,m,N,suf,N,suf,n,v,n,v))
            w('  have hpi314 : (3.14 : ℝ) ≤ ((rq %s %s : ℚ) : ℝ) := by'%(FN,c))
            w('    have hd := abs_le.1 (%s).hd\n    have := pi_gt\n    have hu : uR %s ≤ 1 / 2 ^ 53 := by norm_num [uR, %s]\n    linarith [hd.1]'%(CX,FN,FN))
            w('  obtain ⟨⟨r, hr, he⟩, h2⟩ := h')
            w('  have hq := abs_nonneg (q : ℝ)')
            w('  have hu0 := uR_pos (φ := %s)'%FN)
            w('  refine ⟨r, hr, he.trans ?_, fun hq => ?_⟩')
            w('  · change _ ≤ (%s) * uR %s'%(gen_c,FN))
            if n==2: w('    have hk : (%s : ℝ) ≤ uR %s := by norm_num [uR, %s]'%('1e-24' if v=='d' else '1e-42',FN,FN))
            w('    have := mul_nonneg hu0.le hq\n    linarith')
            w('  · obtain ⟨r2, hr2, he2⟩ := h2 (by have h5 := hq.trans hpi314; exact_mod_cast h5)')
            w('    have := hr.unique hr2; subst this; exact he2\n')
    w('end Polylog')
    open(R+'Cl%dFP.lean'%n,'w').write('\n'.join(o)+'\n')
if __name__=='__main__':
    import sys
    for n in (map(int,sys.argv[1:]) if len(sys.argv)>1 else (2,3,4,5,6)): gen(n)
