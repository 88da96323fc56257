#!/usr/bin/env python3
"""Collect `**Cnn**` tags from theorem doc comments in lean/Verif/Props and merge with notes -> MANIFEST.json"""
import re,json,glob,os
root=os.path.dirname(os.path.dirname(os.path.abspath(__file__)))
props=[json.loads(l) for l in open(root+'/properties.jsonl')]
notes=json.load(open(root+'/tools/notes.json')) if os.path.exists(root+'/tools/notes.json') else {}
th={}
for f in sorted(glob.glob(root+'/lean/Verif/Props/*.lean')):
    s=open(f).read()
    tok=re.compile(r'^(namespace|end)\s+(\S+)\s*$|/--((?:(?!-/).)*)-/\s*(?:@\[[^\]]*\]\s*)?theorem\s+(\S+)',re.S|re.M)
    ns=[]
    for m in tok.finditer(s):
        if m.group(1)=='namespace': ns.append(m.group(2)); continue
        if m.group(1)=='end':
            if ns and ns[-1]==m.group(2): ns.pop()
            continue
        for grp in re.findall(r'\*\*(C\d+(?:/C\d+)*)\*\*',m.group(3)):
            for c in grp.split('/'):
                th.setdefault(c,[]).append('.'.join(ns+[m.group(4)]))
claims=[]
for p in props:
    c=p['id']; t=th.get(c,[])
    n=notes.get(c,{})
    st=n.get('status') or ('partial' if (not t or any(x.endswith('_partial') or x.endswith('_fails') for x in t)) else 'proved')
    claims.append(dict(property=c,status=st,theorems=t,note=n.get('note','' if t else 'model in progress')))
json.dump(dict(claims=claims),open(root+'/MANIFEST.json','w'),indent=1,ensure_ascii=False)
print(sum(bool(c['theorems']) for c in claims),'of',len(claims),'covered;',[c['property'] for c in claims if not c['theorems']])
