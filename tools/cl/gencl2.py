import sys; sys.path.insert(0,'/tmp/s')
from cl import *
import math
OUT='/verif/lean/Verif/Proofs/'
par={}
for ln in '''cl2dlo 10^25,20,16,4,61e-20,.85; cl2dhi 10^24,38,16,4,59e-19,.72; cl2llo 10^59,37,24,6,65e-43,.85; cl2lhi 10^58,72,36,7,15e-41,.42; cl3dlo 10^23,20,16,4,15e-18,.85; cl3dhi 10^25,38,16,4,41e-19,.77; cl3llo 10^57,37,24,6,35e-42,.85; cl3lhi 10^65,56,16,4,17e-27,.066; cl4dlo 10^24,20,16,4,50e-19,.85; cl4dhi 10^25,38,16,4,18e-18,.79; cl4llo 10^58,37,24,6,19e-42,.85; cl4lhi 10^57,56,16,4,17e-27,.169; cl5dlo 10^25,20,16,4,30e-18,.85; cl5dhi 10^26,38,16,4,45e-19,.85; cl5llo 10^59,37,24,6,23e-40,.85; cl5lhi 10^66,56,16,4,31e-27,.06; cl6dlo 10^26,20,16,4,26e-17,.85; cl6dhi 10^26,38,16,4,14e-18,.85; cl6llo 10^59,37,24,6,89e-40,.85; cl6lhi 10^65,56,16,4,19e-27,.055'''.split(';'):
    nm,r=ln.split(); N,K,j,d,E,de=r.split(',')
    par[nm]=(int(N[3:]),int(K),int(j),int(d),E,Fr(de))
def up(x,dig=3):
    # round up to dig significant decimal digits; returns Fraction
    if x==0: return Fr(0)
    k=math.floor(math.log10(x))-dig+1
    s=Fr(10)**k
    return Fr(math.ceil(x/s))*s
def dec(x):
    # exact decimal string of fraction with power-of-10 den
    k=0
    y=Fr(x)
    if y==0: return '0'
    e=0
    while y.denominator!=1: y*=10; e+=1
    return '%de-%d'%(y.numerator,e) if e else str(y.numerator)
X=Fr(24677,10000); 
def lipB(l):
    r=(Fr(0),Fr(0))
    for a in reversed(l): r=(abs(a)+X*r[0], r[0]+X*r[1])
    return r
def vabs(P,X): return sum(abs(a)*X**i for i,a in enumerate(P))
head='''import Verif.Proofs.ClTab
%s
/-! # Certificates of the rational approximations of the Clausen functions, %s (generated) -/

namespace Polylog
'''
files={}
apx='''import Verif.Proofs.ClApx
import Verif.Proofs.CertClD
import Verif.Proofs.CertClLo
import Verif.Proofs.CertClHi

/-! # Error bounds of the rational approximations of the Clausen functions (generated) -/

noncomputable section
namespace Polylog
variable {S : RealSem}

'''
cons={}
info={}
cerr={'d':Fr('2e-20'),'l':Fr('2e-40')}
cds={'d':10**20+1,'l':10**40+1}
for pr in 'dl':
    cn=rnd(PI*PI/8*cds[pr])
    nm={'d':'clcD','l':'clcL'}[pr]
    print(pr, float(abs(Fr(cn,cds[pr])-PI*PI/8)))
for n in range(2,7):
  m=(n-1)//2;p=(n+1)%2
  for pr in 'dl':
    for br in ('lo','hi'):
        nm='cl%d%s%s'%(n,pr,br)
        Ne,K,j,dep,E,de=par[nm]
        f={'d':'D','l':{'lo':'Lo','hi':'Hi'}[br]}[pr]
        P=TAB[nm+'P'];Q=TAB[nm+'Q']
        drop = br=='lo' and n<=4
        shift=(br=='hi') or (pr=='l' and n<=4)
        tab='clLo%d'%n if br=='lo' else 'clHi%d'%n
        Tl=(TL[n] if br=='lo' else TH[n])[:K][(1 if drop else 0):]
        Ts='((%s.drop 1).take %d)'%(tab,K-1) if drop else '(%s.take %d)'%(tab,K)
        M='2 ^ 190' if br=='lo' else '2 ^ 240'
        Mv=ML if br=='lo' else MH
        En,Ee=E.split('e-')
        ddig=-(math.floor(math.log10(de))-2)
        deZ='%d * 10 ^ %d'%(de*1000,Ne-3)
        cd=cds[pr]; cn=rnd(PI*PI/8*cd)
        if shift:
            cert='rcert %d %d 0 12337 9999 (vZ (10 ^ %d) %sP) (vZ (10 ^ %d) %sQ) (paff %d %d %d %s) (%s * %d ^ %d) %s (10 ^ %s) (%s)'%(j,dep,Ne,nm,Ne,nm,cn,cd,cd,Ts,M,cd,len(Tl)-1,En,Ee,deZ)
        else:
            cert='rcert %d %d 12337 12337 9999 (vZ (10 ^ %d) %sP) (vZ (10 ^ %d) %sQ) %s (%s) %s (10 ^ %s) (%s)'%(j,dep,Ne,nm,Ne,nm,Ts,M,En,Ee,deZ)
        files.setdefault(f,'')
        files[f]+='theorem cert_%s : %s = true := by decide +kernel\n'%(nm,cert)
        files[f]+='theorem den_%s : (%sP.toList ++ %sQ.toList).all (fun q => (q * 10 ^ %d).den == 1) = true := by decide +kernel\n'%(nm,nm,nm,Ne)
        C,L=lipB(Tl); C=up(C/Mv); L=up(L/Mv,2)
        XX=Fr(24677,10000) if not shift else Fr(12339,10000)
        BP=up(vabs(P,XX));BQ=up(vabs(Q,XX))
        Ev=Fr(En)/10**int(Ee)
        B=math.ceil(2*(BP+(C+Ev)*BQ)/de)
        k=len(Tl)
        files[f]+='theorem bnd_%s : vAbs %sP %s ≤ %s ∧ vAbs %sQ %s ≤ %s ∧ (lipB %s %s).1 ≤ %s * (%s : ℤ) ∧ (lipB %s %s).2 ≤ %s * (%s : ℤ) := by decide +kernel\n'%(nm,nm,dec(XX),dec(BP),nm,dec(XX),dec(BQ),dec(X),Ts,dec(C),M,dec(X),Ts,dec(L),M)
        if drop: tau=(10+2*X**k)/Mv+7*Fr('0.0626')**k/(1-Fr('0.0626')); tx='(10 + 2 * 2.4677 ^ %d) / 2 ^ 190 + 7 * 0.0626 ^ %d / (1 - 0.0626)'%(k,k); tl='lo_taylor1'
        elif br=='lo': tau=(10*(1+Mv*Fr('6e-42'))+2*X**k)/Mv+9900*Fr('0.0626')**k/(1-Fr('0.0626'));tl='lo_taylor'
        else: tau=(10*(1+Mv*Fr('6e-42'))+2*X**k)/Mv+620*Fr('0.2501')**k/(1-Fr('0.2501'));tl='hi_taylor'
        eps=up(Ev+tau+(L*cerr[pr] if shift else 0))
        coef='loC %d %d (k + 1)'%(m,p) if drop else ('loC %d %d k'%(m,p) if br=='lo' else 'hiC %d %d k'%(m,p))
        info[nm]=dict(eps=float(eps),B=B,L=float(L),C=float(C),de=float(de),epsS=dec(eps),LS=dec(L))
        print(nm,'eps %.3g tau %.3g B %d L %.2g C %.3g'%(eps,tau,B,L,C))
        lenl=37 if br=='lo' else 72
        tay='%s (m := %d) (p := %d) (by norm_num) (by simp [%s_len]) %s_chk %d (by simp [%s_len]) (by norm_num)'%(tl,m,p,tab,tab,k,tab)
        if shift:
            apx+='''/-- `%sP / %sQ` -/
theorem apx_%s {u : ℝ} (hS : S.Lit u) (hu : u ≤ 1e-4) {z t f η : ℝ} (hz : |z| ≤ 1.2338) (hη : |z + Real.pi ^ 2 / 8 - t| ≤ η)
    (h0 : 0 ≤ t) (h1 : t ≤ 2.4676) (hs : HasSum (fun k => %s * t ^ k) f) :
    0 < rv S %sQ z ∧ |rv S %sP z / rv S %sQ z - f| ≤ %s + u * %d + %s * η ∧ |f| ≤ %s := by
  have hτ := %s h0 (by linarith) hs
  rw [← M%s] at hτ
  obtain ⟨b1, b2, b3, b4⟩ := bnd_%s
  have := apxS (K := %d) cert_%s (by simp [%s_len]) (by norm_num) den_%s (by norm_num) (by norm_num) (by norm_num) (by norm_num)
    b1 b2 b3 b4 (δ' := %s) (by norm_num) (by norm_num) (B := %d) (by norm_num) hS (by have := hS.u_nonneg; push_cast; linarith)
    (ε := %s) hz %s hη (by norm_num) h0 h1 hτ (by push_cast; norm_num)
  push_cast at this
  exact ⟨this.1, this.2.1, this.2.2.trans (by norm_num)⟩

'''%(nm,nm,nm,coef,nm,nm,nm,dec(eps),B,dec(L),dec(C+Fr(1,1000)),tay,('190' if br=='lo' else '240'),nm,k-1,nm,tab,nm,dec(de),B,dec(eps),{'d':'clcD','l':'clcL'}[pr])
        else:
            apx+='''/-- `%sP / %sQ` -/
theorem apx_%s {u : ℝ} (hS : S.Lit u) (hu : u ≤ 1e-4) {t f : ℝ}
    (h0 : 0 < t) (h1 : t ≤ 2.4676) (hs : HasSum (fun k => %s * t ^ k) f) :
    0 < rv S %sQ t ∧ |rv S %sP t / rv S %sQ t - f| ≤ %s + u * %d := by
  have hτ := %s h0.le (by linarith) hs
  rw [← M%s] at hτ
  obtain ⟨b1, b2, b3, b4⟩ := bnd_%s
  have := apx0 cert_%s den_%s (by norm_num) (by norm_num) (by norm_num) (by norm_num)
    b1 b2 b3 (δ' := %s) (by norm_num) (by norm_num) (B := %d) (by norm_num) hS (by have := hS.u_nonneg; push_cast; linarith)
    (ε := %s) h0 h1 hτ (by push_cast; norm_num)
  push_cast at this
  exact this

'''%(nm,nm,nm,coef,nm,nm,nm,dec(eps),B,tay,('190' if br=='lo' else '240'),nm,nm,nm,dec(de),B,dec(eps))
imp={'D':''.join('import Verif.Model.Cl%d\n'%n for n in range(2,7)),'Lo':''.join('import Verif.Model.Cl%d\n'%n for n in range(2,7)),'Hi':''.join('import Verif.Model.Cl%d\n'%n for n in range(2,7))}
def lipimport(s): return s.replace('import Verif.Proofs.ClTab','import Verif.Proofs.ClApx')
for f in files:
    open(OUT+'CertCl%s.lean'%f,'w').write(lipimport(head%(imp[f],{'D':'double','Lo':'long double, low branch','Hi':'long double, high branch'}[f]))+files[f]+'\nend Polylog\n')
cst='''theorem clc_aux {P : ℝ} (hP : |Real.pi - P| ≤ γ) : True := trivial
'''
D=cds['d'];Lc=cds['l']
apx=apx.replace("variable {S : RealSem}\n\n","variable {S : RealSem}\n\n"+'''theorem M190 : ((2 ^ 190 : ℤ) : ℝ) = 2 ^ 190 := by norm_num
theorem M240 : ((2 ^ 240 : ℤ) : ℝ) = 2 ^ 240 := by norm_num

theorem pisq_approx {c : ℚ} {γ : ℝ} (h : |(c : ℝ) - (piQ : ℝ) ^ 2 / 8| ≤ γ) : |(c:ℝ) - Real.pi ^ 2 / 8| ≤ γ + 1e-48 := by
  have h1 := abs_le.mp pi_approx
  have h2 := pi_gt; have h3 := pi_lt
  have e : |(piQ:ℝ) ^ 2 / 8 - Real.pi ^ 2 / 8| ≤ 1e-48 := by
    have : (piQ:ℝ) ^ 2 / 8 - Real.pi ^ 2 / 8 = (piQ - Real.pi) * ((piQ + Real.pi) / 8) := by ring
    rw [this, abs_mul]
    have h4 : |(piQ:ℝ) - Real.pi| ≤ 1 / 10 ^ 49 := by rw [abs_sub_comm]; exact pi_approx
    have h5 : |((piQ:ℝ) + Real.pi) / 8| ≤ 1 := by
      have : (1:ℝ) / 10 ^ 49 ≤ 1 := by norm_num
      rw [abs_le]; constructor <;> linarith [h1.1, h1.2]
    calc _ ≤ (1 / 10 ^ 49 : ℝ) * 1 := mul_le_mul h4 h5 (abs_nonneg _) (by positivity)
      _ ≤ _ := by norm_num
  exact (abs_sub_le _ ((piQ:ℝ) ^ 2 / 8) _).trans (add_le_add h e)

theorem clcD : |((%d : ℤ) : ℝ) / (%d : ℤ) - Real.pi ^ 2 / 8| ≤ 2e-20 := by
  have h : |(%d / %d : ℚ) - piQ ^ 2 / 8| ≤ 1e-20 := by decide +kernel
  have h' := (Rat.cast_le (K := ℝ)).mpr h
  push_cast at h'
  have := pisq_approx (c := %d / %d) (γ := 1e-20) (by push_cast; exact h')
  push_cast at this ⊢
  exact this.trans (by norm_num)
theorem clcL : |((%d : ℤ) : ℝ) / (%d : ℤ) - Real.pi ^ 2 / 8| ≤ 2e-40 := by
  have h : |(%d / %d : ℚ) - piQ ^ 2 / 8| ≤ 1e-40 := by decide +kernel
  have h' := (Rat.cast_le (K := ℝ)).mpr h
  push_cast at h'
  have := pisq_approx (c := %d / %d) (γ := 1e-40) (by push_cast; exact h')
  push_cast at this ⊢
  exact this.trans (by norm_num)

'''%((rnd(PI*PI/8*D),D)*3+(rnd(PI*PI/8*Lc),Lc)*3),1)
apx+='end Polylog\n'
open(OUT+'ClApxTab.lean','w').write(apx)
import json; json.dump(info,open('/tmp/s/clinfo.json','w'))
