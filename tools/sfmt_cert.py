from gf2big import *
import re,random,time,json,sys
M=(1<<128)-1
W=0xffffffff
MSK=[0xdfffffef,0xddfecb7f,0xbffaffff,0xbffffff6]
MASK=sum(MSK[i]<<(32*i) for i in range(4))
SR1=11
SRM=sum((W>>11)<<(32*i) for i in range(4)); SLM=sum(((W<<18)&W)<<(32*i) for i in range(4))
def rec(a,b,c,d):
    return a^((a<<8)&M)^(((b>>11)&SRM)&MASK)^(c>>8)^((d<<18)&SLM)
def step(s):
    a=s&M; b=(s>>(128*122))&M; c=(s>>(128*154))&M; d=s>>(128*155)
    return (s>>128)|(rec(a,b,c,d)<<(128*155))
random.seed(1)
d=19968
v0=random.getrandbits(d)
s=v0; bits=[]
t=time.time()
for k in range(2*d+100):
    bits.append((s>>(128*155))&1)   # lambda = low bit of the newest word
    s=step(s)
m,L=bm(bits)
print("L",L,time.time()-t)
assert L==d
# check
# N(x): sum s_k x^{-k-1}*m => polynomial part
# N = floor part: coefficients n_j = sum_{i>j} m_i s_{i-j-1}
S=0
for k in range(d): S|=bits[k]<<(d-1-k)   # S = sum s_k x^{d-1-k}
prod=clmul(m,S)  # = sum m_i s_k x^{i+d-1-k};  N=coefs x^{i-k-1}>=0 => shift by d
N=prod>>d
h=egcd_inv(N,m)
print("inv",time.time()-t)
# v = h(T) v0
s=v0; v=0
for k in range(d):
    if (h>>k)&1: v^=s
    s=step(s)
# check impulses
s=v
for k in range(d):
    b=(s>>(128*155))&1
    assert b==(1 if k==d-1 else 0),k
    s=step(s)
s=v; acc=0
for k in range(d+1):
    if (m>>k)&1: acc^=s
    s=step(s)
assert acc==0
json.dump(dict(m=hex(m),v=hex(v)),open('sfmt.json','w'))
print("ok",time.time()-t, hex(v)[:60], v.bit_length())
