#!/usr/bin/env python3
"""Generate Lemmas/Objects/Literals.lean: the tokens of every literal of Model/Objects.lean and Model/Streams.lean."""
import re,os
root=os.path.join(os.path.dirname(os.path.abspath(__file__)),'..','lean','Verif')
lits=[]
for f in ['Model/Objects.lean','Model/Streams.lean']:
    for m in re.finditer(r'lit "((?:[^"\\]|\\.)*)"',open(os.path.join(root,f)).read()):
        s=m.group(1).encode().decode('unicode_escape')
        if s not in lits: lits.append(s)
white='\0\t\n\f\r '
delim='()<>[]{}/%'
reg=lambda c: c not in white and c not in delim
def boundary(c):
    if c in white: return [],('gap',)
    if c=='[': return ['.arrOpen'],('gap',)
    if c==']': return ['.arrClose'],('gap',)
    if c=='<': return [],('lt',)
    if c=='>': return [],('gt',)
    if c=='/': return [],('name','')
    if c=='(': return [],('str','')
    raise ValueError
def q(s): return 'lit "'+s.replace('\\','\\\\').replace('"','\\"').replace('\n','\\n').replace('\t','\\t')+'"'
def feed(m,c):
    k=m[0]
    if k=='gap': return ([],('word',c)) if reg(c) else boundary(c)
    if k=='word':
        if reg(c): return [],('word',m[1]+c)
        t,n=boundary(c); return ['.word (%s)'%q(m[1])]+t,n
    if k=='name':
        if reg(c): return [],('name',m[1]+c)
        t,n=boundary(c); return ['.name (%s)'%q(m[1])]+t,n
    if k=='lt':
        if c=='<': return ['.dictOpen'],('gap',)
        if c=='>': return ['.str []'],('gap',)
        if c in '0123456789abcdefABCDEF': return [],('hex',c)
        raise ValueError
    if k=='gt':
        if c=='>': return ['.dictClose'],('gap',)
        raise ValueError
    if k=='hex':
        if c in '0123456789abcdefABCDEF': return [],('hex',m[1]+c)
        raise ValueError
    if k=='str':
        if c==')': return ['.str (%s)'%q(m[1])],('gap',)
        if c in '(\\\r': raise ValueError
        return [],('str',m[1]+c)
def mode(m):
    if m[0] in('gap','lt','gt'): return '.'+m[0]
    if m[0]=='str': return '.str .norm 0 (%s)'%(q(m[1]) if m[1] else '[]')
    return '.%s (%s)'%(m[0],q(m[1]) if m[1] else '[]')
out=[]; words=[]; starts=[]; runs=[]; fins=[]; names=[]
lexs=[]
n=0
for s in lits:
    try:
        m=('gap',); ts=[]
        for c in s:
            t,m=feed(m,c); ts+=t
    except ValueError:
        out.append('-- not read from a gap: %s'%q(s)); continue
    n+=1
    out.append('theorem lex_%d : feedAll .gap (%s) = some ([%s], %s) := by decide +kernel'%(n,q(s),', '.join(ts),mode(m)))
    if not reg(s[0]):
        out.append('theorem starts_%d : Starts (%s) = true := by decide +kernel'%(n,q(s)))
        out.append('theorem starts_%d_ (b : Bytes) : Starts (%s ++ b) = true := starts_append starts_%d'%(n,q(s),n))
        starts+=['starts_%d'%n,'starts_%d_'%n]
    for t in ts:
        w=re.match(r'\.word \(lit "(.*)"\)$',t)
        if w and w.group(1) not in words: words.append(w.group(1))
    lexs.append((n,s,ts,m))
if 'R' not in words: words.append('R')
pushes=[]
for i,w in enumerate(words):
    if re.fullmatch(r'[0-9.]+',w):
        v=str(int(float(w)))
        pushes.append('push_%d'%i)
        out.append('theorem push_%d (st : List Entry) : push st (.word (lit "%s")) = some (.val (.num %s) :: st) :=\n  push_number (by decide +kernel) st'%(i,w,v))
out.append("""
/-- Objects of the tokens of a literal. -/
macro "push_lit" : tactic => `(tactic| simp only [pushAll_cons, pushAll_nil, push_name, push_str, push_arrOpen, push_arrClose,
  push_dictOpen, push_dictClose, push_null, push_R2, closeArr_val, closeArr_open, closeDict_val, Option.bind_some, Option.bind_assoc,
  %s])
"""%', '.join(pushes))
def simulate(ts):
    """steps: list of ('vals',stack entries) / ('arr',acc) / ('dict',acc)"""
    steps=[]; st=[]
    for t in ts:
        w=re.match(r'\.(word|name|str) \((.*)\)$',t)
        if w:
            k,b=w.groups()
            if k=='word':
                x=re.match(r'lit "(.*)"$',b).group(1)
                if x=='R':
                    if len(st)<2: return None
                    g=st.pop(); k=st.pop()
                    assert g=='.val (.num 0)',g
                    if k!='.val (.num 2)': return None
                    st.append('.val (.ref 2)')
                elif x=='null': st.append('.val .null')
                elif re.fullmatch(r'[0-9.]+',x): st.append('.val (.num %d)'%int(float(x)))
                else: return None
            else: st.append('.val (.%s (%s))'%(k,b))
        elif t=='.arrOpen': st.append('.arrOpen')
        elif t=='.dictOpen': st.append('.dictOpen')
        elif t in('.arrClose','.dictClose'):
            o='.arrOpen' if t=='.arrClose' else '.dictOpen'
            acc=[]
            while st and st[-1]!=o: acc.insert(0,re.match(r'\.val (.*)$',st.pop()).group(1))
            l='['+', '.join(x[1:-1] if x[0]=='(' else x for x in acc)+']'
            if st:
                if o=='.dictOpen': return None
                st.pop(); st.append('.val (.arr %s)'%l)
            else:
                steps.append(('closeArr' if o=='.arrOpen' else 'closeDict',l))
        else: return None
    return steps,st
def stack(st): return '('+' :: '.join(list(reversed(st))+['st'])+')' if st else 'st'
for (n,s,ts,m) in lexs:
    if m[0]=='word': continue
    r=simulate(ts)
    if r is None:
        out.append('-- by hand: %d %s'%(n,q(s))); continue
    steps,st=r
    pre=''.join('(%s %s st).bind fun st => '%x for x in steps)
    if m[0]=='gap':
        out.append('theorem run_%d (st : List Entry) (b : Bytes) : run st (%s ++ b) = %srun %s b := by\n  rw [run_gap lex_%d]; push_lit'%(n,q(s),pre,stack(st),n))
        out.append('theorem fin_%d (st : List Entry) : run st (%s) = %ssome %s := by\n  rw [run_end lex_%d]; push_lit'%(n,q(s),pre,stack(st),n))
        runs.append('run_%d'%n); fins.append('fin_%d'%n)
    elif not steps and m==('name',''):
        out.append('theorem name_%d (st : List Entry) {w b : Bytes} (hw : NameChars w) (hb : Starts b = true) :\n    run st (%s ++ (w ++ b)) = run (.val (.name w) :: %s) b :=\n  run_name lex_%d (by push_lit) hw hb'%(n,q(s),stack(st),n))
        names.append('name_%d'%n)
    elif not steps and m==('str',''):
        out.append('theorem str_%d (st : List Entry) {w b : Bytes} :\n    run st (%s ++ (Escape.escape w ++ 41 :: b)) = run (.val (.str w) :: %s) b :=\n  run_str lex_%d (by push_lit)'%(n,q(s),stack(st),n))
    else: out.append('-- by hand: %d %s'%(n,q(s)))
out.append("""
/-- Read the literals, numbers and references of a text. -/
syntax "run_simp" : tactic
set_option maxRecDepth 10000 in
macro_rules
  | `(tactic| run_simp) => `(tactic| simp only [List.append_assoc, run_dec, run_decInt, run_fixed2, run_fixed3, run_fixed6, run_ref, run_refList, run_linkList, run_nil,
  closeArr_val, closeArr_open, closeArr_onStack, closeDict_val, closeDict_onStack, Option.bind_some, Option.bind_assoc, List.append_nil,
  List.nil_append,
  %s,
  %s,
  %s])
"""%tuple(', '.join(x) for x in (starts,runs,fins)))
open(os.path.join(root,'Lemmas/Objects/Literals.lean'),'w').write("""import Verif.Lemmas.Objects.Run
/- Generated by tools/literals.py: reading the literal texts of Model/Objects.lean and Model/Streams.lean. -/
namespace Verif.PdfObject

"""+'\n'.join(out)+"""

end Verif.PdfObject
""")
print(n,words)
