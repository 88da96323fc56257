#!/usr/bin/env python3
"""Print the axioms of every theorem named in MANIFEST.json -> AXIOMS.md (run after `lake build`)."""
import json,os,re,subprocess,tempfile
root=os.path.dirname(os.path.dirname(os.path.abspath(__file__)))
m=json.load(open(root+'/MANIFEST.json'))['claims']
t=sorted({x for c in m for x in c['theorems']})
with tempfile.NamedTemporaryFile('w',suffix='.lean',delete=False) as f:
    f.write('import Verif\n'+'\n'.join('#print axioms '+x for x in t)+'\n')
out=subprocess.run(['lake','env','lean',f.name],cwd=root+'/lean',capture_output=True,text=True).stdout
by={}
for n,a in re.findall(r"'(\S+)' (?:depends on axioms: \[(.*?)\]|does not depend on any axioms)",out,re.S):
    by.setdefault(', '.join(a.split(', ')) if a else 'none',[]).append(n)
assert sum(map(len,by.values()))==len(t)
with open(root+'/AXIOMS.md','w') as g:
    g.write('# Axioms each theorem depends on\n\nGenerated by `tools/axioms.py` from `#print axioms`.\n')
    for a in sorted(by):
        g.write('\n## '+a+'\n\n'+''.join('* `'+n+'`\n' for n in sorted(by[a])))
print({a:len(v) for a,v in by.items()})
