from gf2big import *
import random,time,json,sys,re
M64=(1<<64)-1; M52=(1<<52)-1; M104=(1<<104)-1
def rec(u,a,b):
    a0=a&M52; a1=a>>52; b0=b&M52; b1=b>>52; u0=u&M64; u1=u>>64
    l0=((a0<<19)&M64)^(u1>>32)^((u1<<32)&M64)^b0
    l1=((a1<<19)&M64)^(u0>>32)^((u0<<32)&M64)^b1
    r0=(l0>>12)^(l0&0x000ffafffffffb3f)^a0
    r1=(l1>>12)^(l1&0x000ffdfffc90fffd)^a1
    return (r0|(r1<<52)), l0|(l1<<64)
M128=(1<<128)-1
def step(s):
    u=s&M128; W=s>>128
    r,l=rec(u,W&M104,(W>>(104*117))&M104)
    return l | (((W>>104)|(r<<(104*190)))<<128)
d=19992
random.seed(2)
for LB in [128+104*190, 128+104*190+52, 0, 64]:
    v0=random.getrandbits(d)
    s=v0; bits=[]
    for k in range(2*d+100):
        bits.append((s>>LB)&1); s=step(s)
    m,L=bm(bits)
    print(LB,L)
    if L==d: break
assert L==d
S=0
for k in range(d): S|=bits[k]<<(d-1-k)
N=clmul(m,S)>>d
h=egcd_inv(N,m)
s=v0; v=0
for k in range(d):
    if (h>>k)&1: v^=s
    s=step(s)
s=v
for k in range(d):
    assert ((s>>LB)&1)==(1 if k==d-1 else 0),k
    s=step(s)
s=v; acc=0
for k in range(d+1):
    if (m>>k)&1: acc^=s
    s=step(s)
assert acc==0
big=m^(m<<191)
x=2
src=open('/verif/lean/Verif/Model/SimdPoly.lean').read()
tabs={e:int(re.search(r'def dsfmtPoly%d : Nat :=\n  (0x[0-9a-f]+)'%e,src).group(1),16) for e in (128,132,136,140,144)}
D=big.bit_length()-1
for e in range(1,145):
    x=divmod2(clmul(x,x),big)[1]
    if e in tabs: print(e,x==tabs[e])
json.dump(dict(m=hex(m),v=hex(v),LB=LB,big=hex(big)),open('dsfmt.json','w'))
