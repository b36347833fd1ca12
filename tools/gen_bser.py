# exact coefficients of u/(e^u-1) and of Li_{n+1}(1-e^{-u})/u; writes lean/Verif/Proofs/BserTab.lean
from fractions import Fraction as Q
K=64
f=[1]
for i in range(1,K+2): f.append(f[-1]*i)
b=[]
for n in range(K):
    b.append((1 if n==0 else 0)-sum(b[k]*Q(1,f[n+1-k]) for k in range(n)))
d=[[Q(1)]+[Q(0)]*(K-1)]
for m in range(5):
    p=d[-1]
    d.append([sum(p[j]*b[k-j] for j in range(k+1))/(k+1) for k in range(K)])
def lst(l):
    out=[];cur="    "
    for i,q in enumerate(l):
        s=str(q.numerator) if q.denominator==1 else f"{q.numerator} / {q.denominator}"
        s+= "," if i<len(l)-1 else ""
        if len(cur)+len(s)>150: out.append(cur.rstrip()); cur="    "
        cur+=s+" "
    out.append(cur.rstrip())
    return "[\n"+"\n".join(out)+"]"
o=["import Mathlib.Data.Rat.Defs","","/-! # Exact coefficients (generated by tools/gen_bser.py, certified in BserVals.lean) -/","","namespace Polylog","",
 "/-- `B_k/k!`, `k < 64` -/","def bernT : List ℚ := "+lst(b),""]
for m in range(1,6):
    o+= [f"/-- coefficients of `Li_{m+1}(1-e^(-u))/u` -/",f"def bserT{m} : List ℚ := "+lst(d[m]),""]
o+=["end Polylog",""]
open('/verif/lean/Verif/Proofs/BserTab.lean','w').write("\n".join(o))
