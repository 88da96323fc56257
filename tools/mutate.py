#!/usr/bin/env python3
"""Apply realistic bugs to a scratch copy of the model and see which theorems stop proving.
usage: mutate.py MUTATIONS.py [--log]   (MUTATIONS.py defines M = [(file, definition, old, new, property, claim), ...])
The scratch copy is /tmp/mut/lean (the last commit, with the build products of /verif/lean)."""
import sys, subprocess, re, json, os, runpy, time, threading, signal
MUT='/tmp/mut/lean'
def sh(c,**k): return subprocess.run(c,shell=True,capture_output=True,text=True,**k)
def sync():
    os.makedirs('/tmp/mut',exist_ok=True)
    if not os.path.exists(MUT): sh('cp -a /verif/lean /tmp/mut/')
    sh(f'cd {MUT} && rm -rf Verif Verif.lean && git -C /verif archive HEAD lean/Verif lean/Verif.lean | tar x --strip-components=1')
def enclosing(path,line):
    src=open(path).read().split('\n')
    for i in range(min(line,len(src))-1,-1,-1):
        m=re.match(r'\s*(?:@\[[^\]]*\]\s*)?(?:private |protected |noncomputable )*(theorem|lemma|def|instance|example|structure|inductive|abbrev)\s*([^\s:({\[]*)',src[i])
        if m: return (m.group(2) or f'{m.group(1)}@{os.path.basename(path)}:{i+1}')
    return '?'
CLEAN='/tmp/mut/clean'
def restore(): sh(f'rm -rf {MUT}/.lake && cp -a {CLEAN} {MUT}/.lake')
def build(early=False):
    """early: stop a few seconds after the first error"""
    q=subprocess.Popen(f'cd {MUT} && exec lake build 2>&1',shell=True,stdout=subprocess.PIPE,text=True,start_new_session=True)
    class r: returncode=None
    buf=[]; timer=None
    for l in q.stdout:
        buf.append(l)
        if early and timer is None and l.startswith('error: Verif/'):
            timer=threading.Timer(8,lambda: os.killpg(q.pid,signal.SIGKILL)); timer.start()
    q.wait(); r.returncode=q.returncode
    if timer: timer.cancel()
    out=''.join(buf)
    fails=[]
    for m in re.finditer(r'^error: (Verif/\S+?\.lean):(\d+):(\d+)',out,re.M):
        n=enclosing(f'{MUT}/{m.group(1)}',int(m.group(2)))
        n=f"{m.group(1)[6:-5].replace('/','.')}:{n}"
        if n not in fails: fails.append(n)
    return r.returncode,fails,out
if __name__=='__main__':
    muts=runpy.run_path(sys.argv[1])['M']
    log='--log' in sys.argv
    start=int(next((a[2:] for a in sys.argv if a.startswith('k=')),0))
    only=[a for a in sys.argv[2:] if a.isdigit()]
    sync()
    rc,f,out=build()
    assert rc==0,(f,out[-2000:])
    sh(f'rm -rf {CLEAN} && cp -a {MUT}/.lake {CLEAN}')
    for k,(file,defn,old,new,prop,claim) in enumerate(muts):
        if k<start or only and str(k) not in only: continue
        p=f'{MUT}/Verif/{file}'
        s=open(p).read()
        if s.count(old)!=1: print(k,'BAD PATTERN',defn,s.count(old)); continue
        open(p,'w').write(s.replace(old,new))
        t=time.time(); rc,f,out=build(True); dt=int(time.time()-t)
        open(p,'w').write(s); restore()
        verdict='SURVIVED' if rc==0 else 'killed'
        modelbroke=[x for x in f if x.startswith('Model.') or x.startswith('Base.')]
        print(k,verdict,prop,defn,'|',f[:6],f'{dt}s','MODEL ERROR' if modelbroke else '',flush=True)
        if modelbroke: print(out[-1500:])
        if log and not modelbroke:
            with open('/verif/seeded/LOG.jsonl','a') as g:
                g.write(json.dumps({"definition":defn,"file":"lean/Verif/"+file,"edit":{"from":old,"to":new},"property":prop,"claim_broken":claim,"theorems_failed":f,"survived":rc==0,"theorems_tightened":[]},ensure_ascii=False)+'\n')
