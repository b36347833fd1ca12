import sys; sys.path.insert(0,'/tmp')
from tabs import T
from fractions import Fraction as Fr
def padd(a,b):
    n=max(len(a),len(b)); return [ (a[i] if i<len(a) else 0)+(b[i] if i<len(b) else 0) for i in range(n)]
def psmul(c,l): return [c*a for a in l]
def pmul(a,b):
    if not a: return []
    r=[0]*(len(a)+len(b)-1)
    for i,x in enumerate(a):
        for j,y in enumerate(b): r[i+j]+=x*y
    return r
def paff(p,q,d,l):
    # d^(n-1) * l((p+q t)/d)
    r=[];dp=1
    for a in reversed(l):
        # r = a*dp + (p+q t) r
        n=[0]*(len(r)+1)
        for i,x in enumerate(r):
            n[i]+=p*x; n[i+1]+=q*x
        if not n: n=[0]
        n[0]+=a*dp
        r=n; dp*=d
        if len(r)>1 and r[-1]==0 and len(r)>len(l): r.pop()
    return r[:len(l)]
def pshift(l): 
    r=[]
    for a in reversed(l):
        n=[0]*(len(r)+1)
        for i,x in enumerate(r): n[i]+=x; n[i+1]+=x
        n[0]+=a; r=n
    return r
def pnn(n,l):
    if all(a>=0 for a in pshift(l[::-1])): return True
    if n==0: return False
    k=len(l)
    h=[a*2**(k-1-i) for i,a in enumerate(l)]
    return pnn(n-1,h) and pnn(n-1,pshift(h))
def pcert(j,n,p,q,d,l):
    l2=paff(p,q,d,l)
    t=l2[:j]; s=sum(abs(x) for x in l2[j:])
    t[0]-=s
    return pnn(n,paff(-1,2,1,t))
def rcert(j,n,p,q,d,P,Q,Tt,M,E,N,de):
    A=psmul(N,padd(psmul(M,P),psmul(-1,pmul(Tt,Q))))
    B=psmul(E*M,Q)
    Qd=list(Q); Qd[0]-=de
    return (pcert(j,n,p,q,d,padd(B,A)),pcert(j,n,p,q,d,padd(B,psmul(-1,A))),pcert(j,n,p,q,d,Qd))
def vZ(N,c):
    r=[x*N for x in c]; assert all(x.denominator==1 for x in r); return [int(x) for x in r]
def liL(n,M,K): return [M//(k+1)**n for k in range(K)]
def eulL(n,M,K):
    l=[M//(k+1) for k in range(K)]
    for _ in range(n):
        s=0;r=[]
        for k,a in enumerate(l):
            s+=a; r.append(s//(k+1))
        l=r
    return l
def phom(l):
    # (1-w)^(n-1) l(-w/(1-w))
    r=[]; pw=[1]
    for a in reversed(l):
        n=[0]+[-x for x in r]
        r=padd(n,psmul(a,pw)); pw=pmul(pw,[1,-1])
    return r
def ev(l,x):
    r=Fr(0)
    for a in reversed(l): r=a+x*r
    return r
def vabs(c,X): return float(ev([abs(a) for a in c],Fr(X)))
