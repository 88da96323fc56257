import struct
def u16(*a): return b''.join(struct.pack('>H',x&0xffff) for x in a)
def u32(*a): return b''.join(struct.pack('>I',x) for x in a)
def simple(k): return u16(1,0,0,k,k,0)
def comp(*cs):
    b=u16(0xFFFF,0,0,9,9)
    for i,c in enumerate(cs):
        b+=u16(0x0002|(0x20 if i<len(cs)-1 else 0),c)+bytes([0,0])
    return b
glyphs=[simple(1),comp(2),comp(3),simple(3),simple(4)]
n=len(glyphs)
loca=[0]
for g in glyphs: loca.append(loca[-1]+len(g))
head=u32(0x10000,0x10000,0,0x5F0F3CF5)+u16(0,1000)+bytes(16)+u16(0,0,9,9)+u16(0,8,2,0,0)
assert len(head)==54
hhea=u32(0x10000)+u16(800,-200,0,500)+bytes(22)+u16(n)
assert len(hhea)==36,len(hhea)
maxp=u32(0x5000)+u16(n)
hmtx=b''.join(u16(500+i,0) for i in range(n))
cm4=u16(4,32,0,4,4,1,0)+u16(0x44,0xFFFF)+u16(0)+u16(0x41,0xFFFF)+u16(1-0x41,1)+u16(0,0)
assert len(cm4)==32
cmap=u16(0,1)+u16(3,1)+u32(12)+cm4
tabs={'cmap':cmap,'glyf':b''.join(glyphs),'head':head,'hhea':hhea,'hmtx':hmtx,'loca':u16(*[x//2 for x in loca]),'maxp':maxp}
def build(tabs):
    k=len(tabs)
    pos=12+16*k
    d=u32(0x10000)+u16(k,64,2,k*16-64)
    body=b''
    for t in sorted(tabs):
        b=tabs[t]; p=b+bytes(-len(b)%4)
        s=sum(struct.unpack('>%dI'%(len(p)//4),p))&0xffffffff
        d+=t.encode()+u32(s,pos,len(b)); pos+=len(p); body+=p
    return d+body
f=build(tabs)
print(len(f))
L=[str(b) for b in f]
lines=[', '.join(L[i:i+24]) for i in range(0,len(L),24)]
open('/tmp/demo.txt','w').write('  ['+',\n   '.join(lines)+']')
