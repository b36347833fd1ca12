import sys; sys.path.insert(0,'/tmp/s')
from cl import *
import math
OUT='/verif/lean/Verif/Proofs/'
def lst(l,per=2):
    return '[\n  '+',\n  '.join(', '.join(str(x) for x in l[i:i+per]) for i in range(0,len(l),per))+']'
s='''import Verif.Proofs.ClCoef

/-! # Integer tables of the coefficients of the Clausen functions (generated)

`clLo n` : `2^190` times the coefficients of the expansion of `Cl_n` about `0`;
`clHi n` : `2^240` times the coefficients of the expansion about `π`; rounded to integers. -/

namespace Polylog
set_option linter.style.longLine false
'''
for n in range(2,7):
    s+='\ndef clLo%d : List ℤ := %s\n'%(n,lst(TL[n]))
    s+='\ndef clHi%d : List ℤ := %s\n'%(n,lst(TH[n]))
s+='\n'
for n in range(2,7):
    m=(n-1)//2;p=(n+1)%2
    s+='theorem clLo%d_chk : tabChk (2 ^ 190) (loQ %d %d) %d 0 clLo%d (bernL 40) = true := by decide +kernel\n'%(n,m,p,m,n)
    s+='theorem clHi%d_chk : tabChk (2 ^ 240) (hiQ %d %d) %d 0 clHi%d (bernL 75) = true := by decide +kernel\n'%(n,m,p,m,n)
    s+='theorem clLo%d_len : clLo%d.length = 37 := rfl\ntheorem clHi%d_len : clHi%d.length = 72 := rfl\n'%(n,n,n,n)
s+='''
end Polylog
'''
open(OUT+'ClTab.lean','w').write(s)
