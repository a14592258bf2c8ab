"""Certificates for the periods of Xoshiro512 and Xorshift1024: writes lean/Verif/Proof/FermatPrimes.lean and
XorPeriod.lean. The prime factors of 2^512 - 1 and 2^1024 - 1 are those of the Fermat numbers F0 .. F9. Nothing here is
trusted; the kernel checks the numbers."""
import os, random, re
from functools import reduce
from math import gcd
from simd_period import divmod2, square, egcd

P = os.path.join(os.path.dirname(os.path.abspath(__file__)), '../lean/Verif/')

def isp(n):
    if n<2: return False
    for p in (2,3,5,7,11,13,17,19,23,29,31,37,41,43):
        if n%p==0: return n==p
    d=n-1;s=0
    while d%2==0: d//=2;s+=1
    for a in (2,3,5,7,11,13,17,19,23,29,31,37,41,43):
        x=pow(a,d,n)
        if x in (1,n-1): continue
        for _ in range(s-1):
            x=x*x%n
            if x==n-1: break
        else: return False
    return True
def rho(n):
    if n%2==0: return 2
    while True:
        c=random.randrange(1,n);x=y=random.randrange(n);d=1;q=1
        while d==1:
            for _ in range(200):
                x=(x*x+c)%n;y=(y*y+c)%n;y=(y*y+c)%n
                q=q*abs(x-y)%n
            d=gcd(q,n)
        if d!=n: return d
known=[31618624099079,1057372046781162536274034354686893329625329,10608557,25353082741699,9243081088796207,82488781,1143290228161321,43226490359557706629,514601075709020317,40644377,17338437577121,16975143302271505426897585653131126520182328037821729720833840187223,1746751,12088361983,1392542208042011209,3088888502468305782559,220714482277,72174509311,83447159]
def fac(n):
    r=[]
    for k in known:
        while n%k==0 and n!=1 and k<=n and isp(k):
            r.append(k); n//=k
    for p in range(2,10000):
        while n%p==0: r.append(p); n//=p
    st=[n] if n>1 else []
    while st:
        m=st.pop()
        if m==1: continue
        if isp(m): r.append(m); continue
        d=rho(m); st+= [d,m//d]
    return sorted(r)
P62=93461639715357977769163558199606896584051237541638188580280321
P49=7455602825647884208337395736200454918783366342657
F9=2**512+1
P99=F9//2424833//P49
assert P99*P49*2424833==F9
roots=[3,5,17,257,65537,641,6700417,274177,67280421310721,59649589127497217,5704689200685129054721,1238926361552897,P62,2424833,P49,P99]
from functools import reduce
assert reduce(lambda a,b:a*b,roots)==2**1024-1 and reduce(lambda a,b:a*b,roots[:13])==2**512-1

def primes():
    have = set(int(x) for x in re.findall(r'theorem prime_(\d+) ', open(P + 'Common/Prime.lean').read()))
    out = ['import Verif.Common.Prime', '', '/-! Primality certificates for the prime factors of 2^512 - 1 and 2^1024 - 1. The numbers come from tools/xor_period.py. -/', '',
           'namespace Verif.Prime', '']
    def prove(p):
        if p in have: return
        have.add(p)
        if p < 3000:
            out.append('theorem prime_%d : Nat.Prime %d := by norm_num' % (p, p)); return
        fs = fac(p - 1)
        for q in sorted(set(fs)): prove(q)
        g = 2
        while not (pow(g, p - 1, p) == 1 and all(pow(g, (p - 1) // q, p) != 1 for q in set(fs))): g += 1
        out.append('theorem prime_%d : Nat.Prime %d :=\n  prime_of_cert %d %d [%s]\n    (by simp only [List.forall_mem_cons]; exact ⟨%s, by simp⟩)\n    (by decide +kernel)'
                   % (p, p, p, g, ', '.join(map(str, fs)), ', '.join('prime_%d' % q for q in fs)))
    for p in roots: prove(p)
    open(P + 'Proof/FermatPrimes.lean', 'w').write('\n'.join(out) + '\n\nend Verif.Prime\n')

def cert(name, poly, d, qs, doc):
    mu = divmod2(1 << (2 * d), poly)[0]
    out = ['/-- The quotient of `x^%d` by `%s`. -/' % (2 * d, name + 'Poly'), 'def %sMu : Nat :=' % name, '  ' + hex(mu), '',
           '/-- The prime factors `q` of `2^%d - 1`, with `x^((2^%d - 1)/q)` modulo the polynomial, and the inverse of that minus 1. -/' % (d, d),
           'def %sOrd : List (Nat × Nat × Nat) :=' % name]
    a = 2
    for _ in range(d): a = divmod2(square(a), poly)[1]
    assert a == 2
    rows = []; chk = []
    for q in qs:
        a = 1
        for b in bin((2 ** d - 1) // q)[2:]:
            a = divmod2(square(a), poly)[1]
            if b == '1': a = divmod2(a << 1, poly)[1]
        g, u, w = egcd(a ^ 1, poly)
        assert g == 1
        rows.append('(%d, %s,\n    %s)' % (q, hex(a), hex(divmod2(u, poly)[1])))
        chk += ['theorem %sOrd_%d : ordCheck %sPoly %sMu %d %d %d %s\n    %s = true := by decide +kernel' % (name, q, name, name, d // 16, d, q, hex(a), hex(divmod2(u, poly)[1])), '']
    out += ['  [' + ',\n   '.join(rows) + ']', ''] + chk + [
            'theorem %sSq_check : sqCheck %sPoly %sMu %d %d 2 2 = true := by decide +kernel' % (name, name, name, d, d.bit_length() - 1), '',
            'theorem %sOrd_prod : (%sOrd.map Prod.fst).prod = 2 ^ %d - 1 := by decide +kernel' % (name, name, d), '',
            'theorem %sOrd_prime : ∀ c ∈ %sOrd, c.1.Prime := by' % (name, name),
            '  simp only [%sOrd, List.forall_mem_cons]' % name,
            '  exact ⟨' + ', '.join('prime_%d' % q for q in qs) + ', by simp⟩', '',
            'theorem %sOrd_check : ∀ c ∈ %sOrd, ordCheck %sPoly %sMu %d %d c.1 c.2.1 c.2.2 = true := by' % (name, name, name, name, d // 16, d),
            '  simp only [%sOrd, List.forall_mem_cons]' % name,
            '  exact ⟨' + ', '.join('%sOrd_%d' % (name, q) for q in qs) + ', by simp⟩', '']
    return out

if __name__ == '__main__':
    primes()
    def poly(f, n): return int(re.search(r'def %s : Nat :=\s*(0x[0-9a-f]+)' % n, open(P + 'Proof/' + f).read()).group(1), 16)
    out = ['import Verif.Proof.KronPow', 'import Verif.Proof.FermatPrimes', '',
           '/-! Certificates for the order of the maps of Xoshiro512 and Xorshift1024. The numbers come from tools/xor_period.py. -/', '',
           'namespace Verif.Linear', 'open Verif.GF2 Verif.Prime', '']
    out += cert('xosh512', poly('Xosh512.lean', 'xosh512Poly'), 512, roots[:13], 'Xoshiro512')
    out += cert('xors1024', poly('Xors1024.lean', 'xors1024Poly'), 1024, roots, 'Xorshift1024')
    open(P + 'Proof/XorPeriodCert.lean', 'w').write('\n'.join(out) + '\nend Verif.Linear\n')
