#!/usr/bin/env python3
"""Replica of the analyser Verif/Sem/FPExpr.lean `chk` and generator of Props/Cl?FP.lean."""
import re,sys
from fractions import Fraction as Fr
M='/verif/lean/Verif/Model/'
# ---------- expressions ----------
class E:
    def __init__(s,k,*a): s.k=k; s.a=a
    def __add__(s,o): return E('add',s,o)
    def __sub__(s,o): return E('sub',s,o)
    def __mul__(s,o): return E('mul',s,o)
    def __truediv__(s,o): return E('div',s,o)
def lit(q): return E('lit',Fr(q))
def var(i): return E('var',i)
def fin1(p,K,lo,hi,e):
    m=max(abs(lo),abs(hi))+e
    if m>2**(K+100): raise Exception('big')
    return (lo,hi,e+(m>>p)+2)
def litB(p,K,q):
    n,d=q.numerator,q.denominator
    if abs(n)<=2**24 and d<=2**24 and 2**24%d==0:
        v=n*(2**K//d); return (v,v,0)
    v=n*2**K//d
    return fin1(p,K,v,v+1,0)
def neg(b): return (-b[1],-b[0],b[2])
def add(p,K,a,b): return fin1(p,K,a[0]+b[0],a[1]+b[1],a[2]+b[2])
def mag(b): return max(abs(b[0]),abs(b[1]))
def mul(p,K,a,b):
    c=[a[0]*b[0],a[0]*b[1],a[1]*b[0],a[1]*b[1]]
    return fin1(p,K,min(c)>>K,(max(c)>>K)+1,((a[2]*(mag(b)+b[2])+b[2]*mag(a))>>K)+1)
def divP(p,K,a,b):
    if b[0]-b[2]<=0: raise Exception('div')
    lo=min((a[0]<<K)//b[0],(a[0]<<K)//b[1]); hi=max((a[1]<<K)//b[0],(a[1]<<K)//b[1])+1
    return fin1(p,K,lo,hi,((a[2]<<K)+max(abs(lo),abs(hi))*b[2])//(b[0]-b[2])+1)
def chk(p,K,env,e):
    k=e.k
    if k=='var': return env[e.a[0]]
    if k=='lit': return litB(p,K,e.a[0])
    a=chk(p,K,env,e.a[0]); b=chk(p,K,env,e.a[1])
    if k=='add': return add(p,K,a,b)
    if k=='sub': return add(p,K,a,neg(b))
    if k=='mul': return mul(p,K,a,b)
    if k=='div':
        if b[1]<0: return divP(p,K,neg(a),neg(b))
        return divP(p,K,a,b)
def chkP(p,K,env,ds,e):
    env=list(env)
    for d in ds: env.append(chk(p,K,env,d))
    return chk(p,K,env,e)
def boxes(p,K,d,env,e0,ds,e,a,n):
    B=0
    for j in range(n):
        B=max(B,chkP(p,K,[(a+j*d,a+(j+1)*d,e0)]+env,ds,e)[2])
    return B
# ---------- parse model ----------
def tabs(txt):
    T={}
    for m in re.finditer(r'def (\w+) : Vector ℚ \d+ :=\s*#v\[(.*?)\]',txt,re.S):
        T[m.group(1)]=[Fr(x.replace(' ','')) if '/' not in x else Fr(x.replace(' ','')) for x in m.group(2).replace('\n',' ').split(',')]
    return T
def pyexpr(s,T,names):
    s=re.sub(r'♯\((\w+)\[(\d+)\]\)',lambda m:'lit(T["%s"][%s])'%(m.group(1),m.group(2)),s)
    s=re.sub(r'♯([\d.e-]+)',r'lit("\1")',s)
    for a,b in (('+.','+'),('-.','-'),('*.','*'),('/.','/')): s=s.replace(a,b)
    s=s.replace('(xlog x)','L')
    return eval(s,dict(names,lit=lit,T=T))
def branch(n,v):
    """returns dict with lo / hi : (defs [(name, text)], res text)"""
    txt=open(M+'Cl%d.lean'%n).read()
    T=tabs(txt)
    body=txt[txt.index('def Cl%d%s '%(n,v)):]
    nx=body.find('\n/--'); 
    if nx<0: nx=len(body)
    body=body[:nx].split('\nend')[0]
    lines=body.split('\n')
    lo_i=[i for i,l in enumerate(lines) if 'if x <. PIH' in l][0]
    hi_i=[i for i,l in enumerate(lines) if i>lo_i and l.strip()=='else'][0]
    hdr=[]
    for l in lines[1:lo_i]:
        m=re.match(r'\s*let (\w+)( : F)? := (.*)$',l)
        if m and m.group(1) not in ('x','xs','sgn'): hdr.append((m.group(1),m.group(3)))
    out={'T':T,'hdr':hdr}
    for nm,seg in (('lo',lines[lo_i+1:hi_i]),('hi',lines[hi_i+1:])):
        defs=[];res=None
        for l in seg:
            m=re.match(r'\s*let (\w+) := (.*)$',l)
            if m:
                if m.group(1)=='h': res=m.group(2)
                else: defs.append((m.group(1),m.group(2)))
            elif l.strip() and l.strip()!='sgn *. h': res=l.strip()
        out[nm]=(defs,res)
    return out
if __name__=='__main__':
    for n in (2,3,4,5,6):
        for v in 'dl':
            b=branch(n,v)
            print(n,v,b['hdr']); print('  lo',b['lo'][0][:2],[d[0] for d in b['lo'][0]],b['lo'][1]); print('  hi',[d[0] for d in b['hi'][0]],b['hi'][1])
