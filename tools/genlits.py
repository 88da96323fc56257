import re
S=[]
for p in ['Model/ContentBytes.lean','Spec/ContentReader.lean']:
    s=open(p).read()
    for m in re.finditer(r'lit "((?:[^"\\]|\\.)*)"',s):
        if m.group(1) not in S: S.append(m.group(1))
for x in ['[<','>] TJ\\n','rg','RG','k','K']:
    if x not in S: S.append(x)
out=["import Verif.Base.Bytes","/- The bytes of the literals of content streams (generated by tools/genlits.py). -/","namespace Verif.Content",""]
for i,x in enumerate(S):
    raw=x.replace('\\n','\n')
    out.append(f'@[simp] theorem lit_{i} : lit "{x}" = {list(map(ord,raw))} := by decide +kernel')
out.append("\nend Verif.Content\n")
open('Lemmas/Content/Literals.lean','w').write("\n".join(out))
print(len(S))
