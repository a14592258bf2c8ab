import sys
def bm(bits):
    C=B=1; L,m=0,1; win=0
    for n,b in enumerate(bits):
        win=(win<<1)|b
        d=(C&win).bit_count()&1
        if d==0: m+=1
        elif 2*L<=n:
            T=C; C^=B<<m; L=n+1-L; B=T; m=1
        else:
            C^=B<<m; m+=1
        if n%64==0 and win.bit_length()>2*L+200: win&=(1<<(L+70))-1
    # minimal poly: reciprocal of C with degree L
    P=int(bin(C)[2:].zfill(L+1)[::-1].ljust(0,'0'),2) if False else sum(0 for _ in [])
    s=bin(C)[2:][::-1].ljust(L+1,'0')   # s[i]=coef D^i
    P=int(s,2)  # bit L-i = c_i
    return P,L
SPT=None
def spread(a,k=16):
    # slow spread via string
    s=bin(a)[2:]
    return int(('0'*(k-1)).join(s),2)
def unspread(a,k=16):
    s=bin(a)[2:]
    r=s[::-1][::k][::-1]
    return int(r,2) if r else 0
def clmul(a,b):
    n=max(a.bit_length(),b.bit_length())
    x=spread(a)*spread(b)
    return unspread(x)
def divmod2(a,m):
    d=m.bit_length()-1
    q=0
    while True:
        k=a.bit_length()-1-d
        if k<0: return q,a
        q|=1<<k; a^=m<<k
def egcd_inv(a,m):
    r0,r1=m,a; t0,t1=0,1
    while r1:
        q=0
        while True:
            k=r0.bit_length()-r1.bit_length()
            if r0==0 or k<0: break
            r0^=r1<<k; t0^=t1<<k
        r0,r1=r1,r0; t0,t1=t1,t0
    assert r0==1, r0.bit_length()
    return divmod2(t0,m)[1]
