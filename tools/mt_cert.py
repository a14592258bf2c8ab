from gf2big import *
import random,time,json
def mk(w,N,M,A):
    h=w-31; d=w*N-31; kt=w*(N-1)-31; km=w*M-31
    mh=(1<<h)-1; mw=(1<<w)-1
    def step(s):
        y=((s&mh)<<31)^((s>>h)&0x7fffffff)
        n=((s>>km)&mw)^(y>>1)^(A if y&1 else 0)
        return (s>>w)^(n<<kt)
    return step,d,kt
def run(name,w,N,M,A):
    step,d,kt=mk(w,N,M,A)
    random.seed(1); v0=random.getrandbits(d); s=v0; bits=[]
    for k in range(2*d+100): bits.append((s>>kt)&1); s=step(s)
    m,L=bm(bits); print(name,L,bin(m).count('1')); assert L==d
    S=0
    for k in range(d): S|=bits[k]<<(d-1-k)
    N_=clmul(m,S)>>d; h=egcd_inv(N_,m)
    s=v0; v=0
    for k in range(d):
        if (h>>k)&1: v^=s
        s=step(s)
    s=v
    for k in range(d):
        assert ((s>>kt)&1)==(1 if k==d-1 else 0); s=step(s)
    exps=[i for i in range(d+1) if (m>>i)&1]
    print(exps[-5:],exps[:5])
    json.dump(dict(m=hex(m),v=hex(v)),open(name+'.json','w'))
run('mt32',32,624,397,0x9908b0df)
run('mt64',64,312,156,0xB5026F5AA96619E9)
