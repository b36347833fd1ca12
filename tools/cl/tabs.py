import re
from fractions import Fraction as Fr
import glob
T={}
src=""
for f in glob.glob('/verif/lean/Verif/Model/*.lean'):
    s=open(f).read()
    for m in re.finditer(r"def (\w+) : Vector ℚ (\d+) :=\s*#v\[(.*?)\]",s,re.S):
        items=[x.strip() for x in m.group(3).replace("\n"," ").split(",")]
        def ev(x):
            x=x.replace("(","").replace(")","")
            if "/" in x:
                a,b=x.split("/"); return Fr(a.strip())/Fr(b.strip())
            return Fr(x)
        T[m.group(1)]=[ev(x) for x in items]
        assert len(T[m.group(1)])==int(m.group(2)),m.group(1)
