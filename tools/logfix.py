"""logfix.py DEFN FRAGMENT theorem,... : record that a surviving edit made us tighten theorems."""
import json,sys
out=[];n=0
for l in open('/verif/seeded/LOG.jsonl'):
    d=json.loads(l)
    if d['definition']==sys.argv[1] and sys.argv[2] in json.dumps(d,ensure_ascii=False) and d['survived']:
        d['theorems_tightened']=sys.argv[3].split(','); n+=1
        if len(sys.argv)>4: d['note']=sys.argv[4]
    out.append(json.dumps(d,ensure_ascii=False))
open('/verif/seeded/LOG.jsonl','w').write('\n'.join(out)+'\n'); print(n,'updated')
