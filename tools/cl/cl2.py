from cl import *
import math,sys
res={}
for n in range(2,7):
  for pr in 'dl':
    for br in ('lo','hi'):
        nm='cl%d%s%s'%(n,pr,br)
        P=TAB[nm+'P'];Q=TAB[nm+'Q']
        M=ML if br=='lo' else MH
        K=(20 if pr=='d' else 37) if br=='lo' else (38 if pr=='d' else (72 if n==2 else 56))
        Tt=(TL[n] if br=='lo' else TH[n])[:K]
        sh = 1 if (br=='lo' and n<=4) else 0
        Tt=Tt[sh:]
        shift = (br=='hi') or (pr=='l' and n<=4)
        if shift:
            cd=(10**20+1) if pr=='d' else 10**40+1
            cn=rnd(PI*PI/8*cd)
            T2=paff(cn,cd,cd,Tt); M2=M*cd**(len(Tt)-1)
            p,q,d=0,12337,9999
        else:
            T2=Tt;M2=M;p,q,d=12337,12337,9999
        den=1
        for x in list(P)+list(Q): den=den*x.denominator//math.gcd(den,x.denominator)
        Nn=0
        while (10**Nn)%den: Nn+=1
        errs={'cl2dlo':5.38e-19,'cl2dhi':5.2e-18,'cl2llo':5.75e-42,'cl2lhi':1.21e-40,'cl3dlo':1.2e-17,'cl3dhi':3.55e-18,'cl3llo':3.02e-41,'cl3lhi':1.44e-26,'cl4dlo':4.44e-18,'cl4dhi':1.51e-17,'cl4llo':1.58e-41,'cl4lhi':1.45e-26,'cl5dlo':2.63e-17,'cl5dhi':3.99e-18,'cl5llo':1.92e-39,'cl5lhi':2.66e-26,'cl6dlo':2.19e-16,'cl6dhi':1.13e-17,'cl6llo':7.92e-39,'cl6lhi':1.6e-26}
        e=errs[nm]; k=-int(math.floor(math.log10(e)))
        E=int(e*1.1*10**(k+1))+2; EN=10**(k+1)
        PZ=vZ(10**Nn,P);QZ=vZ(10**Nn,Q)
        mq={'cl2lhi':.42,'cl3lhi':.066,'cl4lhi':.169,'cl5lhi':.06,'cl6lhi':.055,'cl2dhi':.72,'cl3dhi':.77,'cl4dhi':.79}.get(nm,.85)
        de=int(mq*1000)*10**(Nn-3)
        for (j,dep) in ((16,4),(20,5),(24,6),(30,6),(36,7),(44,8)):
            t0=time.time()
            r=rcert(j,dep,p,q,d,PZ,QZ,T2,M2,E,EN,de)
            if all(r): break
        print(nm,'N=10^%d'%Nn,'K',K,'j',j,'dep',dep,'E %d/10^%d'%(E,k+1),'de %g'%mq,r,'%.2fs'%(time.time()-t0)); sys.stdout.flush()
