from gf2big import *
import re,random,time,json,sys
A=0x9908b0df
d=19937
# packed reduced state: bit0 = msb of x0; word i (1..623) at 1+32(i-1)
def step(s):
    x0=s&1; x1=(s>>1)&0xffffffff; xm=(s>>(1+32*396))&0xffffffff
    y=(x0<<31)|(x1&0x7fffffff)
    n=xm^(y>>1)^(A if y&1 else 0)
    r=(s>>32)           # drops msb x0 and low 31 bits of x1 ; bit0 = msb of x1
    return r|(n<<(1+32*622))
if __name__=="__main__":
    random.seed(1)
    v0=random.getrandbits(d)
    s=v0; bits=[]
    t=time.time()
    OB=1+32*622
    for k in range(2*d+100):
        bits.append((s>>OB)&1); s=step(s)
    m,L=bm(bits)
    print("L",L,m.bit_length(),bin(m).count('1'),time.time()-t)
    assert L==d
    S=0
    for k in range(d): S|=bits[k]<<(d-1-k)
    N=clmul(m,S)>>d
    h=egcd_inv(N,m)
    s=v0; v=0
    for k in range(d):
        if (h>>k)&1: v^=s
        s=step(s)
    s=v
    for k in range(d):
        assert ((s>>OB)&1)==(1 if k==d-1 else 0); s=step(s)
    s=v; acc=0
    for k in range(d+1):
        if (m>>k)&1: acc^=s
        s=step(s)
    assert acc==0
    json.dump(dict(m=hex(m),v=hex(v)),open('mt.json','w'))
    txt=open('/repo/randomgen/src/mt19937/mt19937-poly.h').read()
    P={}
    for mm in re.finditer(r'poly_(\w+)\s*=\s*((?:\s*"[01]*")+)\s*;',txt):
        P[mm.group(1)]=''.join(re.findall(r'"([01]*)"',mm.group(2)))
    def spread16(a): return a
    def sq(a): 
        return int('0'.join(bin(a)[2:]),2)
    g=2
    res={}
    for e in range(1,145):
        g=divmod2(sq(g),m)[1]
        if e in(128,132,136,140,144): res[e]=g
    for k,p in P.items():
        print(k,len(p), 'deg',len(p.lstrip('0'))-1,'g0',p[-1])
        # string: char j -> coefficient MEXP-1-j
        q=p[:19937]; val=int(q,2)<<(19937-len(q))
        for e in res:
            if res[e]==val: print('  == x^(2^%d)'%e)
            if divmod2(val<<1,m)[1]==res[e] : print(' shift')
    json.dump({k:hex(int(p,2)) for k,p in P.items()},open('mtpoly.json','w'))
    print(time.time()-t)
