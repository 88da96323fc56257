# A font file with all the tables AddTTFFont reads (Props/TypesetExample.lean).
import struct
from ttf import u16,u32,simple,comp,build
glyphs=[simple(1),comp(2),simple(3)]
n=len(glyphs)
loca=[0]
for g in glyphs: loca.append(loca[-1]+len(g))
head=u32(0x10000,0x10000,0,0x5F0F3CF5)+u16(0,2048)+bytes(16)+u16(-10,-20,900,800)+u16(0,8,2,0,0)
hhea=u32(0x10000)+u16(800,-200,0,500)+bytes(22)+u16(n)
maxp=u32(0x5000)+u16(n)
hmtx=b''.join(u16(1000+100*i,0) for i in range(n))
cm4=u16(4,32,0,4,4,1,0)+u16(0x42,0xFFFF)+u16(0)+u16(0x41,0xFFFF)+u16(1-0x41,1)+u16(0,0)
cmap=u16(0,1)+u16(3,1)+u32(12)+cm4
os2=u16(2)+bytes(66)+u16(700,-150,0,750,180)+bytes(8)+u16(450,650)
assert len(os2)==90
post=u32(0x30000)+u16(-9,0)+u16(-100,50)+u32(0)
name=u16(0,1,18)+u16(3,1,0x409,6,2,0)+b'\0F'
kern=u16(0,1)+u16(0,20,1,1,6,0,0)+u16(1,2,-80)
tabs={'cmap':cmap,'glyf':b''.join(glyphs),'head':head,'hhea':hhea,'hmtx':hmtx,'loca':u16(*[x//2 for x in loca]),'maxp':maxp,'OS/2':os2,'post':post,'name':name,'kern':kern}
f=build(tabs)
print(len(f))
L=[str(b) for b in f]
lines=[', '.join(L[i:i+24]) for i in range(0,len(L),24)]
open('/tmp/demo2.txt','w').write('  ['+',\n   '.join(lines)+']')
for t in sorted(tabs): 
    i=f.index(t.encode()); print(t, struct.unpack('>II',f[i+8:i+16]))
