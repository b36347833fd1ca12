import math,sys
sys.path.insert(0,'/tmp/s')
from fractions import Fraction as Fr
import contextlib,io
with contextlib.redirect_stdout(io.StringIO()):
    from gencl3 import summary,PIq,P1q,d0,e0,up,dec
def r3(x):
    return dec(up(x))
V={'b64d':(53,'7074237752028440',-51,'8925029061461098',-62,-10),'b64':(53,'7074237752028440',-51,'8925029061461098',-62,-10),'x87':(64,'14488038916154245685',-62,'18278459517872327756',-73,-10),
 'b128':(113,'8156040833015188200833743081374136',-111,'10289857934199563906859271764804506',-122,-10)}
def lits(pr,fm):
    p,n1,e1,n2,e2,_=V[fm]
    nm={'b64d':'b64','b64':'b64','x87':'x87','b128':'b128'}[fm]
    return '''theorem %s%s_PI : rhoBits %d %s = %s * 2 ^ (%d : ℤ) := by
  have := rhoBits_eval (p := %d) (q := %s) (%d) %s (by norm_num) (by norm_num) (by norm_num [abs_lt])
  exact_mod_cast this
theorem %s%s_P1 : rhoBits %d %s = %s * 2 ^ (%d : ℤ) := by
  have := rhoBits_eval (p := %d) (q := %s) (%d) %s (by norm_num) (by norm_num) (by norm_num [abs_lt])
  exact_mod_cast this
'''%(nm,pr,p,PIq[pr],n1,e1,p,PIq[pr],e1,n1,nm,pr,p,P1q[pr],n2,e2,p,P1q[pr],e2,n2)
def hw(pr,nm):
    return 'wrap_le_%s%s h'%(nm,pr)
for C,pr in (('C13','d'),('C14','l')):
    fms=['b64d'] if pr=='d' else ['b64','x87','b128']
    PIl='(FOps.lit %s : R S)'%PIq[pr]; P1l='(FOps.lit %s : R S)'%P1q[pr]
    o='''import Verif.Props.Cl2Real
import Verif.Props.Cl3Real
import Verif.Props.Cl4Real
import Verif.Props.Cl5Real
import Verif.Props.Cl6Real
import Verif.Sem.LitBits

/-! # %s: accuracy of `Cl2` ... `Cl6`, %s overloads (generated by tools/cl/gencl4.py)

`clausen n x` is the textbook function of Spec/Polylog.lean.  Every theorem bounds the difference between the
value computed with exact elementary operations and `clausen n x`:

* `%s_Cln`: any literals within relative `u` of the source text; `wrap P x` is `|x|` modulo `2 P`.  The condition
  excludes only arguments whose reduction is negative in exact arithmetic, an interval of width `< 1e-17` below each
  multiple of the period that contains no floating-point number (C26);
* `%s_Cln_dec`: literals of the source text, `|x| ≤ 2π`;
* the others: literals as stored by the compiler.
-/

noncomputable section
namespace Polylog
variable {S : RealSem}

'''%(C,'double' if pr=='d' else 'long double',C,C)
    for fm in fms: o+=lits(pr,fm)
    o+='''
theorem dec_wrap%s {x : ℝ} (h : S.rho = id) (hx : |x| ≤ 2 * Real.pi) :
    wrap (ofR %s) x ≤ 6.28125 + ofR %s ∧ ⌊|x| / (2 * ofR %s)⌋₊ = 0 := by
  have e1 : ofR %s = ((%s : ℚ) : ℝ) := by show ((S.rho _ : ℚ) : ℝ) = _; rw [h]; rfl
  have e2 : ofR %s = ((%s : ℚ) : ℝ) := by show ((S.rho _ : ℚ) : ℝ) = _; rw [h]; rfl
  rw [e1, e2]
  have hp := abs_le.mp pi_approx
  have h1 : 2 * (piQ + 1 / 10 ^ 49) < 2 * (%s : ℚ) := by decide +kernel
  have h2 : 2 * (piQ + 1 / 10 ^ 49) ≤ 6.28125 + (%s : ℚ) := by decide +kernel
  have h1' := (Rat.cast_lt (K := ℝ)).mpr h1
  have h2' := (Rat.cast_le (K := ℝ)).mpr h2
  push_cast at h1' h2' ⊢
  have h3 : |x| < 2 * 3.14159 + 1 := by linarith [pi_lt]
  have h4 : |x| < 2 * %s := by linarith
  refine ⟨?_, ?_⟩
  · rw [wrap_of_lt h4]; linarith
  · rw [Nat.floor_eq_zero, div_lt_one (by norm_num)]; exact h4

'''%(pr,PIl,P1l,PIl,PIl,PIq[pr],P1l,P1q[pr],PIq[pr],P1q[pr],PIq[pr]) if pr=='d' else ''
    if pr=='l':
        # decimal PI literal of the long double code is below pi
        o+='''
theorem dec_wrapl (x : ℝ) (h : S.rho = id) : wrap (ofR %s) x ≤ 6.28125 + ofR %s := by
  have e1 : ofR %s = ((%s : ℚ) : ℝ) := by show ((S.rho _ : ℚ) : ℝ) = _; rw [h]; rfl
  have e2 : ofR %s = ((%s : ℚ) : ℝ) := by show ((S.rho _ : ℚ) : ℝ) = _; rw [h]; rfl
  rw [e1, e2]
  refine (wrap_lt (by norm_num) x).le.trans ?_
  norm_num

'''%(PIl,P1l,PIl,PIq[pr],P1l,P1q[pr])
    for fm in fms:
        p,n1,e1,n2,e2,_=V[fm]; nm=fm.rstrip('d') if fm=='b64d' else fm
        if nm!='x87':
            o+='''theorem wrap_le_%s%s (x : ℝ) (h : S.rho = rhoBits %d) : wrap (ofR %s) x ≤ 6.28125 + ofR %s := by
  have e1 : ofR %s = ((%s * 2 ^ (%d : ℤ) : ℚ) : ℝ) := by show ((S.rho _ : ℚ) : ℝ) = _; rw [h, %s%s_PI]
  have e2 : ofR %s = ((%s * 2 ^ (%d : ℤ) : ℚ) : ℝ) := by show ((S.rho _ : ℚ) : ℝ) = _; rw [h, %s%s_P1]
  rw [e1, e2]
  refine (wrap_lt (by norm_num) x).le.trans ?_
  norm_num

'''%(nm,pr,p,PIl,P1l,PIl,n1,e1,nm,pr,P1l,n2,e2,nm,pr)
        else:
            o+='''/-- a number with a 64-bit significand, modulo an even multiple of `2^-62` -/
theorem wrap_gap (nP : ℤ) (hP : 4 < (nP : ℝ) * 2 ^ (-61 : ℤ) - 2 ^ (-61 : ℤ)) {P : ℝ} (hPn : 2 * P = nP * 2 ^ (-61 : ℤ)) (m e : ℤ) (hm : |m| < 2 ^ 64) :
    wrap P (m * 2 ^ e) ≤ 2 * P - 2 ^ (-61 : ℤ) := by
  have h61 : (0:ℝ) < 2 ^ (-61 : ℤ) := by positivity
  have hP0 : 0 < P := by linarith
  have hw := wrap_lt hP0 ((m:ℝ) * 2 ^ e)
  by_cases h4 : |(m:ℝ) * 2 ^ e| < 4
  · rw [wrap_of_lt (by linarith)]; linarith
  · have he : -61 ≤ e := by
      by_contra hc
      have h1 : (2:ℝ) ^ e ≤ 2 ^ (-62 : ℤ) := zpow_le_zpow_right₀ (by norm_num) (by omega)
      have h2 : |(m:ℝ)| < 2 ^ 64 := by exact_mod_cast hm
      rw [abs_mul, abs_of_pos (by positivity : (0:ℝ) < 2 ^ e)] at h4
      have h3 : |(m:ℝ)| * 2 ^ e < 2 ^ 64 * 2 ^ (-62 : ℤ) := by
        have : (0:ℝ) < 2 ^ e := by positivity
        nlinarith [abs_nonneg (m:ℝ)]
      norm_num at h3 h4; linarith
    obtain ⟨k, hk⟩ := Int.eq_ofNat_of_zero_le (by omega : 0 ≤ e + 61)
    have h5 : |(m:ℝ) * 2 ^ e| = ((|m| * 2 ^ k : ℤ) : ℝ) * 2 ^ (-61 : ℤ) := by
      rw [abs_mul, abs_of_pos (by positivity : (0:ℝ) < 2 ^ e), show e = (k:ℤ) + -61 by omega, zpow_add₀ (by norm_num), zpow_natCast]
      push_cast; ring
    rw [wrap] at *
    generalize ⌊|(m:ℝ) * 2 ^ e| / (2 * P)⌋₊ = j at *
    rw [h5, hPn] at *
    have h6 : ((|m| * 2 ^ k : ℤ) : ℝ) * 2 ^ (-61 : ℤ) - nP * 2 ^ (-61 : ℤ) * (j:ℝ) = ((|m| * 2 ^ k - nP * j : ℤ) : ℝ) * 2 ^ (-61 : ℤ) := by push_cast; ring
    rw [h6] at hw ⊢
    have h7 := lt_of_mul_lt_mul_right hw h61.le
    have h8 : |m| * 2 ^ k - nP * j + 1 ≤ nP := by exact_mod_cast h7
    have h9 : ((|m| * 2 ^ k - nP * j : ℤ) : ℝ) + 1 ≤ nP := by exact_mod_cast h8
    nlinarith

theorem wrap_le_x87l (m e : ℤ) (hm : |m| < 2 ^ 64) (h : S.rho = rhoBits 64) : wrap (ofR %s) (m * 2 ^ e) ≤ 6.28125 + ofR %s := by
  have e1 : ofR %s = ((%s * 2 ^ (%d : ℤ) : ℚ) : ℝ) := by show ((S.rho _ : ℚ) : ℝ) = _; rw [h, x87l_PI]
  have e2 : ofR %s = ((%s * 2 ^ (%d : ℤ) : ℚ) : ℝ) := by show ((S.rho _ : ℚ) : ℝ) = _; rw [h, x87l_P1]
  rw [e1, e2]
  refine (wrap_gap %s (by norm_num) (by norm_num) m e hm).trans ?_
  norm_num

'''%(PIl,P1l,PIl,n1,e1,P1l,n2,e2,n1)
    names=[]
    for n in range(2,7):
        E,B,Lam=summary[(n,pr)]; E=Fr(dec(up(Fr(repr(E))))); Lam=int(Lam)
        kap={(2,'d'):Fr('1e-24'),(2,'l'):Fr('1e-42')}.get((n,pr),Fr(0))
        A=up(E+Lam*e0[pr]+kap); Bu=B+1; Cx=up(Lam*d0[pr]/3); Du=math.ceil(Lam*Fr('1.05')*10)/10
        Du=dec(Fr(str(Du)))
        base='''
/-- `Cl%d`, %s: every argument -/
theorem %s_Cl%d {u : ℝ} (hS : S.Lit u) (hu : u ≤ 1e-6) (x : ℝ)
    (hw : wrap (ofR %s) x ≤ 6.28125 + ofR %s) :
    |ofR (Cl%d%s (toR S x)) - clausen %d x| ≤ %s + %d * u + (%s + %s * u) * |x| := by
  refine (Cl%d%s_acc hS hu x hw).trans ?_
  have hu0 := hS.u_nonneg
  have hd := abs_le.mp (%s hS)
  have hpi := pi_gt
  have h := periods (x := x) (P := ofR %s) (d := %s + 3.15 * u) (by linarith) (by linarith)
  have hx := abs_nonneg x
  have hux := mul_nonneg hu0 hx
  generalize 2 * (%s + 3.15 * u) * (⌊|x| / (2 * ofR %s)⌋₊ : ℝ) = K at *
  nlinarith
'''%(n,'literals within relative `u`',C,n,PIl,P1l,n,pr,n,dec(A),Bu,dec(Cx),Du,n,pr,'PId' if pr=='d' else 'PIl',PIl,{'d':'1.6e-18','l':'4.2e-36'}[pr],{'d':'1.6e-18','l':'4.2e-36'}[pr],PIl)
        o+=base
        names.append('%s_Cl%d'%(C,n))
        if pr=='d':
            o+='''
/-- `Cl%d` with the literals of the source text on the fundamental domain -/
theorem %s_Cl%d_dec (h : S.rho = id) {x : ℝ} (hx : |x| ≤ 2 * Real.pi) : |ofR (Cl%d%s (toR S x)) - clausen %d x| ≤ %s := by
  obtain ⟨h1, h2⟩ := dec_wrap%s h hx
  have := Cl%d%s_acc (lit_id S h) (by norm_num) x h1
  rw [h2] at this
  refine this.trans ?_
  norm_num
'''%(n,C,n,n,pr,n,dec(A),pr,n,pr)
        else:
            A2=up(A+Cx*Fr('6.3'))
            o+='''
/-- `Cl%d` with the literals of the source text on the fundamental domain -/
theorem %s_Cl%d_dec (h : S.rho = id) {x : ℝ} (hx : |x| ≤ 2 * Real.pi) : |ofR (Cl%d%s (toR S x)) - clausen %d x| ≤ %s := by
  refine (%s_Cl%d (lit_id S h) (by norm_num) x (dec_wrapl x h)).trans ?_
  have := pi_lt
  linarith
'''%(n,C,n,n,pr,n,dec(A2),C,n)
        names.append('%s_Cl%d_dec'%(C,n))
        for fm in fms:
            p=V[fm][0]; nm={'b64d':'b64','b64':'b64','x87':'x87','b128':'b128'}[fm]
            lab={'b64':'binary64','x87':'x87ext','b128':'binary128'}[nm]
            A3=up(A+Fr(Bu,2**p)); C3=up(Cx+Fr(Du)/2**p)
            xs,hwv,xe=('(x : ℝ)','wrap_le_%s%s x h'%(nm,pr),'x') if nm!='x87' else ('{m e : ℤ} (hm : |m| < 2 ^ 64)','wrap_le_x87l m e hm h','(m * 2 ^ e : ℝ)')
            o+='''
/-- `Cl%d` with the literals stored in %s%s -/
theorem %s_Cl%d_%s (h : S.rho = rhoBits %d) %s : |ofR (Cl%d%s (toR S %s)) - clausen %d %s| ≤ %s + %s * |%s| := by
  refine (%s_Cl%d (RealSem.lit_of_bits (by norm_num) h) (by norm_num) _ (%s)).trans ?_
  have hx := abs_nonneg %s
  generalize |%s| = y at hx ⊢
  norm_num; linarith
'''%(n,lab,'; the argument is any number with a 64-bit significand' if nm=='x87' else ', every real argument',C,n,lab,p,xs,n,pr,xe,n,xe,dec(A3),dec(C3),xe,C,n,hwv,xe,xe)
            names.append('%s_Cl%d_%s'%(C,n,lab))
    o+='''
/-! the hypotheses are met, for instance at `x = 2` and, in the compiled formats, at `x = 5` -/
example : |ofR (Cl2%s (toR RealSem.dec 2)) - clausen 2 2| ≤ %s := %s_Cl2_dec rfl (by rw [abs_of_pos (by norm_num)]; linarith [pi_gt])
'''%(pr,'1.2e-17' if pr=='d' else '1e-33',C)
    o=o.replace('1e-33','XX')
    if pr=='l':
        import re
        mm=re.search(r'theorem C14_Cl2_dec.*≤ (\S+) := by',o); o=o.replace('XX',mm.group(1))
    else:
        import re
        mm=re.search(r'theorem C13_Cl2_dec.*≤ (\S+) := by',o); o=o.replace('≤ 1.2e-17 := C13','≤ %s := C13'%mm.group(1))
    if pr=='d':
        mm=re.search(r'theorem C13_Cl5_binary64.*≤ (.*) := by',o)
        o+='example : |ofR (Cl5d (toR (RealSem.bits 53) 5)) - clausen 5 5| ≤ %s := C13_Cl5_binary64 rfl 5\n'%mm.group(1).replace('|x|','|5|')
    else:
        mm=re.search(r'theorem C14_Cl5_x87ext.*≤ (.*) := by',o)
        o+='example : |ofR (Cl5l (toR (RealSem.bits 64) (5 * 2 ^ (-1 : ℤ)))) - clausen 5 (5 * 2 ^ (-1 : ℤ))| ≤ %s := by\n  have := C14_Cl5_x87ext (S := RealSem.bits 64) rfl (m := 5) (e := -1) (by norm_num)\n  exact_mod_cast this\n'%mm.group(1).replace('(m * 2 ^ e : ℝ)','(5 * 2 ^ (-1 : ℤ) : ℝ)')
    o+='\nend Polylog\n'
    open('/verif/lean/Verif/Props/%s.lean'%C,'w').write(o)
    print(names)
