from cl import *
# measure sampled max errors
def pe(l,x):
    r=Fr(0)
    for a in reversed(l): r=a+x*r
    return r
def fx(x): return Fr(int(x*10**60),10**60)
for n in range(2,7):
  for pr in 'dl':
    for br in ('lo','hi'):
        P=TAB['cl%d%s%sP'%(n,pr,br)];Q=TAB['cl%d%s%sQ'%(n,pr,br)]
        M=ML if br=='lo' else MH
        Tt=TL[n] if br=='lo' else TH[n]
        sh = 1 if (br=='lo' and n<=4) else 0
        Tt=Tt[sh:]
        shift = (br=='hi') or (pr=='l' and n<=4)
        c=PI*PI/8 if shift else Fr(0)
        N=40; mx=Fr(0); mq=None; vals=[]
        for i in range(N+1):
            t=Fr(24675,10000)*i/N
            z=fx(t-c)
            q=pe(Q,z); e=pe(P,z)/q-fx(pe(Tt,t))/M
            mx=max(mx,abs(e)); mq=q if mq is None else min(mq,q)
        X=Fr(2468,1000) if not shift else Fr(1234,1000)
        vP=sum(abs(a)*X**i for i,a in enumerate(P)); vQ=sum(abs(a)*X**i for i,a in enumerate(Q))
        print(n,pr,br,'err %.3g minQ %.4g absP %.4g absQ %.4g T0 %.4g'%(mx,mq,vP,vQ,Tt[0]/M), len(P),len(Q))
print()
for n in (3,4,5,6):
    P=TAB['cl%dlhiP'%n];Q=TAB['cl%dlhiQ'%n]; c=PI*PI/8
    for i in range(0,21):
        t=Fr(24675,10000)*i/20; z=fx(t-c)
        e=pe(P,z)/pe(Q,z)-fx(pe(TH[n],t))/MH
        print('%.2e'%e,end=' ')
    print()
