import re,json,math
from fractions import Fraction as Fr
import sys; sys.path.insert(0,'/tmp/s')
from gencl2 import up,dec
info=json.load(open('/tmp/s/clinfo.json'))
M='/verif/lean/Verif/Model/'
PIq={'d':'3.14159265358979324','l':'3.14159265358979323846264338327950288'}
P1q={'d':'0.0019353071795864769253','l':'0.0019353071795864769252867665590057683943'}
Zq={(3,'d'):'1.2020569031595943',(3,'l'):'1.2020569031595942853997381615114499908',(5,'d'):'1.0369277551433699',(5,'l'):'1.036927755143369926331365486457034168057'}
d0={'d':Fr('1.6e-18'),'l':Fr('4.2e-36')}; d0s={'d':'1.6e-18','l':'4.2e-36'}
e0={'d':Fr('1.4e-23'),'l':Fr('5e-41')}; e0s={'d':'1.4e-23','l':'5e-41'}
z0={(3,'d'):Fr('1.5e-17'),(3,'l'):Fr('4e-38'),(5,'d'):Fr('3e-17'),(5,'l'):Fr('1e-40')}
zB={3:Fr('1.21'),5:Fr('1.04')}
summary={}
for n in range(2,7):
    src=open(M+'Cl%d.lean'%n).read()
    m=(n-1)//2;p=(n+1)%2
    out='''import Verif.Props.ClGen
import Verif.Model.Cl%d

/-! # Accuracy of `Cl%d` (generated by tools/cl/gencl3.py) -/

noncomputable section
namespace Polylog
set_option linter.style.longLine false

section
variable {F : Type} [FOps F]
/-- numeric literal -/
local notation:max "♯" q:max => (FOps.lit (q : ℚ) : F)

'''%(n,n)
    body='';c34=[]
    for pr in 'dl':
        i=src.index('def Cl%d%s '%(n,pr)); j=src.find('/--',i); j=len(src) if j<0 else j
        t=src[i:j]
        a=t.index('else if x <. PIH then'); b=t.index('\n  else\n',a)
        lo=t[a:b].split('\n')[1:]; hi=t[b:].split('\n')[2:]
        def lets(br):
            L=[l.strip() for l in br]
            d={}
            for l in L:
                mm=re.match(r'let (\w+) := (.*)',l)
                if mm: d[mm.group(1)]=mm.group(2)
            return d
        res={}
        for nm,br in (('lo',lo),('hi',hi)):
            d=lets(br)
            v='z' if 'z' in d else 'y'
            pw=[(k,d[k]) for k in d if re.match(v+r'\d+$',k)]
            for q in 'pq':
                used=pw
                out+='/-- polynomial of `Cl%d%s` -/\ndef cl%d%s%s%se (%s : F) : F :=\n'%(n,pr,n,pr,nm,q.upper(),v)
                for k,e in pw: out+='  let %s := %s\n'%(k,e)
                out+='  '+d[q]+'\n'
            res[nm]=(v,)
        v=res['lo'][0]
        PI='♯'+PIq[pr]
        arg='(x *. x)' if v=='y' else '(x *. x -. PI28)'
        pre='  let PI : F := %s\n  let PI28 := PI *. PI /. ♯8\n'%PI if v=='z' else ''
        P='(cl%d%sloPe %s)'%(n,pr,arg); Q='(cl%d%sloQe %s)'%(n,pr,arg)
        zl = '♯'+Zq[(3,pr)] if n in (3,4) else None
        F={2:'x *. (♯1 -. (xlog x) +. x *. x *. %s /. %s)'%(P,Q),
           3:'%s +. x *. x *. (%s /. %s +. ♯0.5 *. (xlog x))'%(zl,P,Q),
           4:'x *. (%s +. x *. x *. (%s /. %s +. ♯1 /. ♯6 *. (xlog x)))'%(zl,P,Q),
           5:'%s /. %s -. ♯1 /. ♯24 *. (x *. x *. (x *. x)) *. (xlog x)'%(P,Q),
           6:'x *. (%s /. %s -. ♯1 /. ♯120 *. (x *. x *. (x *. x)) *. (xlog x))'%(P,Q)}[n]
        out+='/-- low branch of `Cl%d%s` -/\ndef cl%d%sLo (x : F) : F :=\n%s  %s\n'%(n,pr,n,pr,pre,F)
        harg='((PI -. x) *. (PI -. x) -. PI28)'
        hf='cl%d%shiPe %s /. cl%d%shiQe %s'%(n,pr,harg,n,pr,harg)
        if p==1: hf='(PI -. x) *. '+hf
        out+='/-- high branch of `Cl%d%s` -/\ndef cl%d%sHi (x : F) : F :=\n  let PI : F := %s\n  let PI28 := PI *. PI /. ♯8\n  %s\n'%(n,pr,n,pr,PI,hf)
        if p==1:
            out+='''theorem Cl%d%s_split (x : F) : Cl%d%s x =
  (let PI : F := %s
   let xs := reduceSgn PI ♯%s x
   if xs.1 ==. ♯0 then xs.1 else if xs.1 ==. PI then ♯0 else if xs.1 <. PI /. ♯2 then xs.2 *. cl%d%sLo xs.1 else xs.2 *. cl%d%sHi xs.1) := rfl

'''%(n,pr,n,pr,PI,P1q[pr],n,pr,n,pr)
        else:
            out+='''theorem Cl%d%s_split (x : F) : Cl%d%s x =
  (let PI : F := %s
   let r := reduceAbs PI ♯%s x
   if r ==. ♯0 then ♯%s else if r <. PI /. ♯2 then cl%d%sLo r else cl%d%sHi r) := rfl

'''%(n,pr,n,pr,PI,P1q[pr],Zq[(n,pr)],n,pr,n,pr)
        # evaluation lemmas
        for nm in ('lo','hi'):
            for q in 'PQ':
                body+='theorem cl%d%s%s%se_R (z : R S) : ofR (cl%d%s%s%se z) = rv S cl%d%s%s%s (ofR z) := by\n  simp [cl%d%s%s%se, rsem, rv, Fin.sum_univ_succ]; ring\n'%((n,pr,nm,q)*4)
        il=info['cl%d%slo'%(n,pr)]; ih=info['cl%d%shi'%(n,pr)]
        D=(d0[pr],Fr('3.15'))
        def lin(c,ab): return (Fr(c)*ab[0],Fr(c)*ab[1])
        def ad(*l): return (sum(a[0] for a in l),sum(a[1] for a in l))
        el=(Fr(il['epsS']),Fr(il['B']))
        if v=='z': el=ad(el,lin(Fr(il['LS'])*Fr('0.8'),D))
        zz=(z0[(3,pr)],zB[3])
        EL={2:lin(Fr('1.571')**3,el),3:ad(zz,lin('2.4676',el)),4:lin('1.571',ad(zz,lin('2.4676',el))),5:el,6:lin('1.571',el)}[n]
        eh=ad((Fr(ih['epsS']),Fr(ih['B'])),lin(Fr(ih['LS'])*Fr('2.4'),D))
        Fb=up(Fr(ih['C']).limit_denominator(10**6)+Fr(1,1000))
        EH=eh if p==0 else ad(lin('1.571',eh),lin(Fr(str(ih['C']))+Fr(1,1000),D))
        z5=(z0[(n,pr)],zB[n]) if p==0 else (0,0)
        E=up(max(up(EL[0]),up(EH[0]),z5[0])); B=math.ceil(max(up(EL[1]),up(EH[1]),z5[1]))
        ELs,BLs=dec(up(EL[0])),dec(up(EL[1])); EHs,BHs=dec(up(EH[0])),dec(up(EH[1]))
        Fs=dec(Fr(str(ih['C']))+Fr(1,1000))
        PIl='(FOps.lit %s : R S)'%PIq[pr]
        PIn={'d':'PId','l':'PIl'}[pr]; P1n={'d':'P1d','l':'P1l'}[pr]
        Zn={'d':{3:'Z3d',5:'Z5d'},'l':{3:'Z3l',5:'Z5l'}}[pr]
        # lo accuracy
        ap='apx_cl%d%slo'%(n,pr)
        drop=n<=4
        if v=='z':
            apcall='%s hS (by linarith) hz hη hy0.le hy1 %s'%(ap,'hf1' if drop else 'hf')
            zex='ofR r * ofR r - ofR %s * ofR %s / 8'%(PIl,PIl)
            hzR='''  have hzR : ofR (r *. r -. %s *. %s /. (FOps.lit 8 : R S)) = %s := by
    rw [ofR_sub, ofR_mul, sq8_R hS]
'''%(PIl,PIl,zex)
            marg='(r *. r -. %s *. %s /. (FOps.lit 8 : R S))'%(PIl,PIl)
            ob='⟨hq, ha, -⟩'
        else:
            apcall='%s hS (by linarith) hy0 hy1 %s'%(ap,'hf1' if drop else 'hf')
            zex='ofR r * ofR r'
            hzR='  have hzR : ofR (r *. r) = ofR r * ofR r := ofR_mul _ _\n'
            marg='(r *. r)'
            ob='⟨hq, ha⟩'
        Pm='(cl%d%sloPe %s)'%(n,pr,marg);Qm='(cl%d%sloQe %s)'%(n,pr,marg)
        zlm='(FOps.lit %s : R S)'%Zq[(3,pr)]
        evl={2:'lo2_R hS r (r *. r) %s %s h0 hq0'%(Pm,Qm),3:'lo3_R hS r (r *. r) %s %s %s h0 hq0'%(Pm,Qm,zlm),4:'lo4_R hS r (r *. r) %s %s %s h0 hq0'%(Pm,Qm,zlm),5:'lo5_R hS r (r *. r) %s %s h0 hq0'%(Pm,Qm),6:'lo6_R hS r (r *. r) %s %s h0 hq0'%(Pm,Qm)}[n]
        body+='''
theorem cl%d%sLoQ_pos {u : ℝ} (hS : S.Lit u) (hu : u ≤ 1e-6) {r : R S} (h0 : 0 < ofR r) (h1 : ofR r < ofR %s / 2) :
    0 < ofR %s := by
  have hu0 := hS.u_nonneg
  have hd := %s hS
  obtain ⟨f, hf, hc, hy0, hy1, hr1, hz, hη⟩ := lo_branch %d %d (by norm_num) hd (by linarith) h0 h1
'''%(n,pr,PIl,Qm,PIn,m,p)
        if drop: body+='  have hf1 := hasSum_drop hy0.ne\' hf\n'
        body+='  obtain ⟨hq, -⟩ := %s\n'%apcall+hzR
        body+='  rw [cl%d%sloQe_R, hzR]; exact hq\n'%(n,pr)
        body+='''
theorem cl%d%sLo_acc {u : ℝ} (hS : S.Lit u) (hu : u ≤ 1e-6) {r : R S} (h0 : 0 < ofR r) (h1 : ofR r < ofR %s / 2) :
    |ofR (cl%d%sLo r) - clausen (2 * %d + 1 + %d) (ofR r)| ≤ %s + %s * u := by
  have hu0 := hS.u_nonneg
  have hd := %s hS
  obtain ⟨f, hf, hc, hy0, hy1, hr1, hz, hη⟩ := lo_branch %d %d (by norm_num) hd (by linarith) h0 h1
'''%(n,pr,PIl,n,pr,m,p,ELs,BLs,PIn,m,p)
        if drop: body+='  have hf1 := hasSum_drop hy0.ne\' hf\n'
        body+='  obtain %s := %s\n'%(ob,apcall)+hzR
        body+='''  have hq0 : ofR %s ≠ 0 := by rw [cl%d%sloQe_R, hzR]; exact hq.ne'
  have ev : ofR (cl%d%sLo r) = _ := %s
  rw [ev, hc, cl%d%sloPe_R, cl%d%sloQe_R, hzR%s]
'''%(Qm,n,pr,n,pr,evl,n,pr,n,pr,', ofR_mul' if v=='z' else '')
        body+='''  generalize rv S cl%d%sloP (%s) / rv S cl%d%sloQ (%s) = A at *
'''%(n,pr,zex,n,pr,zex)
        if n in(3,4):
            body+='''  have hz3 := %s hS
  have hl0 : loC %d %d 0 = reLi 3 1 := by rw [loC_lt _ _ _ (by norm_num)]; simp [Nat.factorial]
  rw [hl0] at ha
  generalize ofR %s = Z at *
'''%(Zn[3],m,p,zlm)
        if n==2:
            body+='''  have hl0 : loC 0 1 0 = 1 := by simp [loC]
  rw [hl0] at ha
'''
        body+='''  generalize Real.log (ofR r) = l at *
  clear ev hq0 hzR hq hf %s
  generalize ofR r = x at *
'''%('hf1' if drop else '')
        fe={2:'x * (1 - l + x * x * A) - x ^ 1 * (f - (-1) ^ 0 * (x ^ 2) ^ 0 / (2 * 0 + 1).factorial * l) = x * (x * x) * (A - (f - 1) / (x * x))',
            3:'Z + x * x * (A + 1 / 2 * l) - x ^ 0 * (f - (-1) ^ 1 * (x ^ 2) ^ 1 / (2 * 1 + 0).factorial * l) = (Z - reLi 3 1) + (x * x) * (A - (f - reLi 3 1) / (x * x))',
            4:'x * (Z + x * x * (A + 1 / 6 * l)) - x ^ 1 * (f - (-1) ^ 1 * (x ^ 2) ^ 1 / (2 * 1 + 1).factorial * l) = x * ((Z - reLi 3 1) + (x * x) * (A - (f - reLi 3 1) / (x * x)))',
            5:'A - 1 / 24 * (x * x * (x * x)) * l - x ^ 0 * (f - (-1) ^ 2 * (x ^ 2) ^ 2 / (2 * 2 + 0).factorial * l) = A - f',
            6:'x * (A - 1 / 120 * (x * x * (x * x)) * l) - x ^ 1 * (f - (-1) ^ 2 * (x ^ 2) ^ 2 / (2 * 2 + 1).factorial * l) = x * (A - f)'}[n]
        body+='''  have e : %s := by
    norm_num [Nat.factorial]
    field_simp
    try ring
  rw [e]
'''%fe
        if n==2: body+='''  rw [abs_mul, abs_of_pos (by positivity)]
  have hx3 : x * (x * x) ≤ 1.571 ^ 3 := by
    rw [← pow_two, ← pow_succ']; exact pow_le_pow_left₀ h0.le hr1 3
  refine (mul_le_mul hx3 ha (abs_nonneg _) (by norm_num)).trans ?_
  norm_num; linarith
'''
        if n==3: body+='''  refine (abs_add_le _ _).trans ?_
  rw [abs_mul, abs_of_pos hy0]
  have := mul_le_mul hy1 ha (abs_nonneg _) (by norm_num)
  linarith
'''
        if n==4: body+='''  rw [abs_mul, abs_of_pos h0]
  have h5 := mul_le_mul hy1 ha (abs_nonneg _) (by norm_num : (0:ℝ) ≤ 2.4676)
  have h6 := abs_add_le (Z - reLi 3 1) ((x * x) * (A - (f - reLi 3 1) / (x * x)))
  rw [abs_mul (x * x), abs_of_pos hy0] at h6
  have h4 := h6.trans (add_le_add hz3 h5)
  refine (mul_le_mul hr1 h4 (abs_nonneg _) (by norm_num)).trans ?_
  linarith
'''
        if n==5: body+='  linarith\n'
        if n==6: body+='''  rw [abs_mul, abs_of_pos h0]
  refine (mul_le_mul hr1 ha (abs_nonneg _) (by norm_num)).trans ?_
  linarith
'''
        # hi
        marg='((%s -. r) *. (%s -. r) -. %s *. %s /. (FOps.lit 8 : R S))'%(PIl,PIl,PIl,PIl)
        zex='(ofR %s - ofR r) * (ofR %s - ofR r) - ofR %s * ofR %s / 8'%(PIl,PIl,PIl,PIl)
        body+='''
theorem cl%d%sHiQ_pos {u : ℝ} (hS : S.Lit u) (hu : u ≤ 1e-6) {r : R S} (h1 : ofR %s / 2 ≤ ofR r) (h2 : ofR r ≤ ofR %s + 1e-4) :
    0 < ofR (cl%d%shiQe %s) := by
  have hu0 := hS.u_nonneg
  have hd := %s hS
  obtain ⟨f, hf, hc, hy0, hy1, hr1, hz, hη⟩ := hi_branch %d %d (by norm_num) (by norm_num) hd (by linarith) (by linarith) h2
  obtain ⟨hq, -⟩ := apx_cl%d%shi hS (by linarith) hz hη hy0 hy1 hf
  have hzR : ofR %s = %s := by
    rw [ofR_sub, ofR_mul, sq8_R hS, ofR_sub]
  rw [cl%d%shiQe_R, hzR]; exact hq
'''%(n,pr,PIl,PIl,n,pr,marg,PIn,m,p,n,pr,marg,zex,n,pr)
        c34.append((n,pr,PIl,Qm,'(cl%d%shiQe %s)'%(n,pr,marg)))
        body+='''
theorem cl%d%sHi_acc {u : ℝ} (hS : S.Lit u) (hu : u ≤ 1e-6) {r : R S} (h1 : ofR %s / 2 - 1e-6 ≤ ofR r) (h2 : ofR r ≤ ofR %s + 1e-4) :
    %s|ofR (cl%d%sHi r) - clausen (2 * %d + 1 + %d) (ofR r)| ≤ %s + %s * u := by
  have hu0 := hS.u_nonneg
  have hd := %s hS
  obtain ⟨f, hf, hc, hy0, hy1, hr1, hz, hη⟩ := hi_branch %d %d (by norm_num) (by norm_num) hd (by linarith) h1 h2
  obtain ⟨hq, ha, hF⟩ := apx_cl%d%shi hS (by linarith) hz hη hy0 hy1 hf
  have hzR : ofR %s = %s := by
    rw [ofR_sub, ofR_mul, sq8_R hS, ofR_sub]
  have hq0 : ofR (cl%d%shiQe %s) ≠ 0 := by rw [cl%d%shiQe_R, hzR]; exact hq.ne'
'''%(n,pr,PIl,PIl,('(ofR r = ofR %s → ofR (cl%d%sHi r) = 0) ∧ '%(PIl,n,pr) if p==1 else ''),n,pr,m,p,EHs,BHs,PIn,m,p,n,pr,marg,zex,n,pr,marg,n,pr)
        if p==1:
            body+='''  have ev : ofR (cl%d%sHi r) = _ := hiE_R (%s -. r) (cl%d%shiPe %s) (cl%d%shiQe %s) hq0
  rw [cl%d%shiPe_R, cl%d%shiQe_R, hzR, ofR_sub] at ev
  refine ⟨fun h => by rw [ev, h, sub_self, zero_mul], ?_⟩
  rw [ev, hc, pow_one]
  have hdd : |ofR %s - ofR r - (Real.pi - ofR r)| ≤ %s + 3.15 * u := by rw [sub_sub_sub_cancel_right]; exact hd
  refine (hi_even ha hr1 hdd hF).trans ?_
  linarith
'''%(n,pr,PIl,n,pr,marg,n,pr,marg,n,pr,n,pr,PIl,d0s[pr])
        else:
            body+='''  have ev : ofR (cl%d%sHi r) = _ := ofR_div (a := cl%d%shiPe %s) hq0
  rw [cl%d%shiPe_R, cl%d%shiQe_R, hzR] at ev
  rw [ev, hc, pow_zero, one_mul]
  refine ha.trans ?_
  linarith
'''%(n,pr,n,pr,marg,n,pr,n,pr)
        # main
        Lam,kap={(2,'d'):('58','1e-24'),(2,'l'):('99','1e-42')}.get((n,pr),('2','0'))
        mod={(2,'d'):'clausen_two_d',(2,'l'):'clausen_two_l'}.get((n,pr),'(fun a b => le_of_le_of_eq (clausen_lip %d %d (by norm_num) (by norm_num) a b) (add_zero _).symm)'%(m,p))
        Es=dec(E)
        stmt='''
/-- `Cl%d%s`, every argument; `⌊|x| / (2 PI)⌋` is the number of periods subtracted by `fmod` -/
theorem Cl%d%s_acc {u : ℝ} (hS : S.Lit u) (hu : u ≤ 1e-6) (x : ℝ)
    (hw : wrap (ofR %s) x ≤ 6.28125 + ofR (FOps.lit %s : R S)) :
    |ofR (Cl%d%s (toR S x)) - clausen %d x| ≤ %s + %d * u
      + (%s * (%s + 0.002 * u + 2 * (%s + 3.15 * u) * ⌊|x| / (2 * ofR %s)⌋₊) + %s) := by
  have hu0 := hS.u_nonneg
  have hd := %s hS
  have he := %s hS
  have hpi := pi_gt
  have hP3 : 3 ≤ ofR %s := by have := (abs_le.mp hd).1; linarith
'''%(n,pr,n,pr,PIl,P1q[pr],n,pr,n,Es,B,Lam,e0s[pr],d0s[pr],PIl,kap,PIn,P1n,PIl)
        if p==1:
            stmt+='''  rw [Cl%d%s_split]
  dsimp only
  have hr := reduceAbs_R hS (PI := %s) (p1 := (FOps.lit %s : R S)) (x := toR S x) (by linarith)
  rw [← reduceSgn_R_fst] at hr
  have hs := reduceSgn_R_snd hS (PI := %s) (p1 := (FOps.lit %s : R S)) (x := toR S x) (by linarith)
  obtain ⟨r0, r1, ht⟩ := reduce_spec %d 1 (by norm_num) (by norm_num) hP3 hd he hr rfl hw
  have hab := sgn_abs (ofR (toR S x) < 0) (ofR %s < wrap (ofR %s) (ofR (toR S x))) 1
  rw [pow_one, ← hs] at ht hab
  generalize reduceSgn %s (FOps.lit %s : R S) (toR S x) = xs at *
  have key : ∃ c, ofR (if xs.1 ==. (FOps.lit 0 : R S) then xs.1 else if xs.1 ==. %s then (FOps.lit 0 : R S) else if xs.1 <. %s /. (FOps.lit 2 : R S) then xs.2 *. cl%d%sLo xs.1 else xs.2 *. cl%d%sHi xs.1) = ofR xs.2 * c
      ∧ |c - clausen (2 * %d + 1 + 1) (ofR xs.1)| ≤ %s + %d * u := by
    simp only [eq_R, lt_R, lit0 hS, half_R hS, decide_eq_true_eq]
    split_ifs with c1 c2 c3
    · refine ⟨0, by rw [c1, mul_zero], ?_⟩
      rw [c1, clausen_even_zero, sub_zero, abs_zero]; positivity
    · obtain ⟨g1, g2⟩ := cl%d%sHi_acc hS hu (r := xs.1) (by rw [c2]; linarith) (by linarith)
      refine ⟨0, by rw [lit0 hS, mul_zero], ?_⟩
      rw [← g1 c2]; exact g2.trans (by linarith)
    · have g := cl%d%sLo_acc hS hu (r := xs.1) (lt_of_le_of_ne r0 (Ne.symm c1)) c3
      exact ⟨_, ofR_mul _ _, g.trans (by linarith)⟩
    · obtain ⟨g1, g2⟩ := cl%d%sHi_acc hS hu (r := xs.1) (by linarith) (by linarith)
      exact ⟨_, ofR_mul _ _, g2.trans (by linarith)⟩
  obtain ⟨c, hc1, hc2⟩ := key
  exact cl_final %d 1 hab hc1 hc2 %s (by norm_num) ht
'''%(n,pr,PIl,P1q[pr],PIl,P1q[pr],m,PIl,PIl,PIl,P1q[pr],PIl,PIl,n,pr,n,pr,m,Es,B,n,pr,n,pr,n,pr,m,mod)
        else:
            stmt+='''  rw [Cl%d%s_split]
  dsimp only
  have hr := reduceAbs_R hS (PI := %s) (p1 := (FOps.lit %s : R S)) (x := toR S x) (by linarith)
  obtain ⟨r0, r1, ht⟩ := reduce_spec %d 0 (by norm_num) (by norm_num) hP3 hd he hr rfl hw
  rw [pow_zero] at ht
  generalize reduceAbs %s (FOps.lit %s : R S) (toR S x) = r at *
  have hz := %s hS
  have key : |ofR (if r ==. (FOps.lit 0 : R S) then (FOps.lit %s : R S) else if r <. %s /. (FOps.lit 2 : R S) then cl%d%sLo r else cl%d%sHi r)
      - clausen (2 * %d + 1 + 0) (ofR r)| ≤ %s + %d * u := by
    simp only [eq_R, lt_R, lit0 hS, half_R hS, decide_eq_true_eq]
    split_ifs with c1 c3
    · rw [c1, clausen_odd_zero]
      exact hz.trans (by linarith)
    · have g := cl%d%sLo_acc hS hu (r := r) (lt_of_le_of_ne r0 (Ne.symm c1)) c3
      exact g.trans (by linarith)
    · have g := cl%d%sHi_acc hS hu (r := r) (by linarith) (by linarith)
      exact g.trans (by linarith)
  exact cl_final %d 0 (s := 1) (by norm_num) (one_mul _).symm key %s (by norm_num) ht
'''%(n,pr,PIl,P1q[pr],m,PIl,P1q[pr],Zn[n],Zq[(n,pr)],PIl,n,pr,n,pr,m,Es,B,n,pr,n,pr,m,mod)
        body+=stmt
        summary[(n,pr)]=(float(E),B,Lam)
    body+='''
/-- the denominators of `Cl%d` are positive at every reduced argument: low branch (`0 < r < PI/2`) and high branch
(`PI/2 ≤ r ≤ PI + 1e-4`), both overloads -/
theorem C34_Cl%d {u : ℝ} (hS : S.Lit u) (hu : u ≤ 1e-6) (r : R S) :
'''%(n,n)
    body+=' ∧\n'.join('    (0 < ofR r → ofR r < ofR %s / 2 → 0 < ofR %s) ∧\n    (ofR %s / 2 ≤ ofR r → ofR r ≤ ofR %s + 1e-4 → 0 < ofR %s)'%(P,q1,P,P,q2) for (_,_,P,q1,q2) in c34)
    body+=' :=\n  ⟨'+', '.join('cl%d%sLoQ_pos hS hu, cl%d%sHiQ_pos hS hu'%(n,pr,n,pr) for pr in 'dl')+'⟩\n'
    out+='end\n\nvariable {S : RealSem}\n\n'+body+'\nend Polylog\n'
    open('/verif/lean/Verif/Props/Cl%dReal.lean'%n,'w').write(out)
print(summary)
