"""Certificates for the periods of SFMT and dSFMT: writes lean/Verif/Proof/SfmtFrob.lean, DsfmtFrob.lean
and DsfmtFix.lean.

The characteristic polynomial is the product of `phi` of degree 19937 and of `psi` of small degree. The files contain
both factors, the coefficients of Bezout's identity, the image of the cyclic vector under `phi(T)` and the repeated
squarings of `x` modulo `phi`. Nothing here is trusted; the kernel checks the numbers."""
import os, re

P = os.path.join(os.path.dirname(os.path.abspath(__file__)), '../lean/Verif/Proof/')

def load(f, n):
    return int(re.search(r'def %s : Nat :=\s*(0x[0-9a-f]+)' % n, open(P + f).read()).group(1), 16)

def divmod2(a, b):
    db = b.bit_length(); q = 0
    while a.bit_length() >= db:
        s = a.bit_length() - db
        q |= 1 << s; a ^= b << s
    return q, a

def gcd(a, b):
    while b: a, b = b, divmod2(a, b)[1]
    return a

def square(a): return int('0'.join(bin(a)[2:]), 2) if a else 0

def spread(a, k=16): return int(('0' * (k - 1)).join(bin(a)[2:]), 2) if a else 0

def mul(a, b):
    if a > b: a, b = b, a
    if a.bit_length() < 64:
        r = 0
        for i in range(a.bit_length()):
            if a >> i & 1: r ^= b << i
        return r
    c = bin(spread(a) * spread(b))[2:]
    c = c.zfill((len(c) + 15) // 16 * 16)
    return int(c[15::16], 2)

def egcd(a, b):
    x0, y0, x1, y1 = 1, 0, 0, 1
    while b:
        q, r = divmod2(a, b)
        a, b = b, r
        x0, x1 = x1, x0 ^ mul(q, x1)
        y0, y1 = y1, y0 ^ mul(q, y1)
    return a, x0, y0

m128 = (1 << 128) - 1
def sfmt(s):
    a = s & m128; b = (s >> 15616) & m128; c = (s >> 19712) & m128; d = (s >> 19840) & m128
    r = a ^ ((a << 8) & m128) ^ ((b >> 11) & 0x1ffff6001affff001ecb7f001fffef) ^ (c >> 8) ^ ((d << 18) & 0xfffc0000fffc0000fffc0000fffc0000)
    return (s >> 128) ^ (r << 19840)

M52 = (1 << 52) - 1; M64 = (1 << 64) - 1
def dsfmt(s):
    def lung(x, y, u): return ((x << 19) & M64) ^ (u >> 32) ^ ((u << 32) & M64) ^ y
    def out(m, l, x): return (l >> 12) ^ (l & m) ^ x
    w = s >> 128; a0 = w & M52; a1 = (w >> 52) & M52
    l0 = lung(a0, (w >> 12168) & M52, (s >> 64) & M64); l1 = lung(a1, (w >> 12220) & M52, s & M64)
    return (((w >> 104) ^ ((out(0x000ffafffffffb3f, l0, a0) ^ (out(0x000ffdfffc90fffd, l1, a1) << 52)) << 19760)) << 128) ^ l0 ^ (l1 << 64)

def horner(F, m, v):
    s = 0
    for i in range(m.bit_length() - 1, -1, -1):
        s = F(s)
        if m >> i & 1: s ^= v
    return s

def reducer(phi, d):
    tab = [0] * 256  # multiples of phi by the value of bits d .. d + 7
    for i in range(8):
        m = phi << i
        for j in range(d + i - 1, d - 1, -1):
            if m >> j & 1: m ^= tab[1 << (j - d)]
        tab[1 << i] = m
        for h in range(1 << i): tab[(1 << i) | h] = m ^ tab[h]
    assert all(t >> d == h for h, t in enumerate(tab))
    def red(a):
        s = (a.bit_length() - d + 7) // 8 * 8
        while s > 0:
            s -= 8
            h = a >> (d + s)
            if h: a ^= tab[h] << s
        return a
    return red

def emit(n, N, F, mask, r, names_):
    d = 19937
    chi = load(N + 'Cert.lean', n + 'Chi'); vec = load(N + 'Cert.lean', n + 'Vec')
    phi = chi; x = 2
    for k in range(1, 60):
        if phi.bit_length() - 1 == d: break
        x = divmod2(square(x), phi)[1]
        g = gcd(phi, x ^ 2)
        while g.bit_length() > 1:
            phi = divmod2(phi, g)[0]
            g = gcd(phi, g)
        x = divmod2(x, phi)[1]
    psi, rem = divmod2(chi, phi)
    assert rem == 0 and phi.bit_length() == d + 1
    e = psi.bit_length() - 1
    g, u, w = egcd(psi, phi)
    assert g == 1 and mul(u, psi) ^ mul(w, phi) == 1 and w < 1 << e
    u0 = horner(F, phi, vec)
    s = u0
    for k in range(e):
        assert bin(s & mask).count('1') % 2 == 0
        s = F(s)
    assert horner(F, psi, u0) == 0
    mu, red = divmod2(1 << (2 * d), phi)[0], reducer(phi, d)
    ks = [9] * 38 + [8, 7, 6, 5, 0]
    vals = [2]
    for k in ks:
        a = vals[-1]
        for _ in range(2 ** k): a = red(square(a))
        vals.append(a)
    assert vals[-1] == 2
    q = 0; t = phi ^ 1
    for i in range(d, 0, -1):
        if t >> i & 1:
            q |= 1 << (i - 1); t ^= 3 << (i - 1)
    assert t == 0 and phi == 1 ^ q ^ (q << 1)
    # x^r = 1 modulo psi
    a = 1
    for b in bin(r)[2:]:
        a = divmod2(mul(a, a), psi)[1]
        if b == '1': a = divmod2(a << 1, psi)[1]
    assert a == 1
    o = ['import Verif.Proof.%sCert' % N, 'import Verif.Proof.MtChi', '',
         '/-! The factors of the characteristic polynomial of %s, and the certificate that `x^(2^19937) = x` modulo the large' % names_,
         'one, in 43 pieces. The numbers come from tools/simd_period.py; the kernel checks them. -/', '', 'set_option Elab.async false', '',
         'namespace Verif.Linear', 'open Verif.GF2', '']
    def dfn(name, doc, v): o.extend(['/-- %s -/' % doc, 'def %s : Nat :=' % name, '  ' + hex(v), ''])
    dfn(n + 'Phi', 'The large factor.', phi)
    dfn(n + 'Psi', 'The small factor, of degree %d.' % e, psi)
    dfn(n + 'PhiMu', 'The quotient of `x^39874` by `%sPhi`.' % n, mu)
    dfn(n + 'Q1', 'The quotient of `%sPhi + 1` by `x + 1`.' % n, q)
    dfn(n + 'Bu', "The coefficient of `%sPsi` in Bezout's identity." % n, u)
    dfn(n + 'Bw', "The coefficient of `%sPhi` in Bezout's identity." % n, w)
    dfn(n + 'U0', 'The image of `%sVec` under `%sPhi` of the map.' % (n, n), u0)
    o += ['theorem %sQ1_eq : %sPhi = 1 ^^^ %sQ1 ^^^ (2 * %sQ1) := by decide +kernel' % (n, n, n, n), '',
          'theorem %sPhi_mul : clmul %sPhi %d %sPsi 0 = %sChi := by decide +kernel' % (n, n, e + 1, n, n), '',
          'theorem %sBezout : Nat.xor (clmul %sBu %d %sPsi 0) (clmul %sPhi %d %sBw 0) = 1 := by decide +kernel' % (n, n, e + 1, n, n, e, n), '',
          'theorem %sU0_eq : hornerBits %sF %sPhi %sVec 19938 15 0 = %sU0 := by decide +kernel' % (n, n, n, n, n), '',
          'theorem %sPsi_pow : powmod %sPsi %d %d %d 1 = 1 := by decide +kernel' % (n, n, e, r, r.bit_length()), '']
    ex = 0; names = ['2']
    for i, k in enumerate(ks):
        ex += 2 ** k
        if i + 1 < len(ks):
            m = '%sF%d' % (n, i + 1)
            dfn(m, '`x^(2^%d)` modulo `%sPhi`.' % (ex, n), vals[i + 1])
        else: m = '2'
        names.append(m)
        o += ['theorem %sSq%d : sqCheck %sPhi %sPhiMu 19937 %d %s %s = true := by decide +kernel' % (n, i + 1, n, n, k, names[-2], m), '']
    o += ['/-- Every root of the large factor in a ring of characteristic two is its own conjugate of order 19937. -/',
          'theorem %s_frob {R : Type} [_root_.Ring R] (t : R) (h2 : ∀ x : R, x + x = 0) (h : ev t %sPhi = 0) : t ^ 2 ^ 19937 = t := by' % (n, n),
          '  have hm : %sPhi < 2 ^ 32767 := by decide +kernel' % n,
          '  have f1 : ev t 2 = t := by', '    have := ev_two_mul t 1', '    rw [ev_one] at this', '    rw [show 2 = 2 * 1 from rfl, this, mul_one]',
          '  have f0 : ev t 2 = t ^ 2 ^ 0 := by rw [f1, pow_zero, pow_one]',
          '  have b0 : 2 < 2 ^ 32767 := by decide +kernel']
    for i in range(1, len(ks)): o.append('  have b%d : %s < 2 ^ 32767 := by decide +kernel' % (i, names[i]))
    o.append('  have b%d : 2 < 2 ^ 32767 := b0' % len(ks))
    ex = 0
    for i, k in enumerate(ks):
        ex += 2 ** k
        o.append('  replace f0 : ev t %s = t ^ 2 ^ %d := frob_step f0 (ev_of_sqCheck t h2 hm b%d b%d h %sSq%d) (by decide)' % (names[i + 1], ex, i, i + 1, n, i + 1))
    o += ['  exact f0.symm.trans f1', '', 'end Verif.Linear', '']
    open(P + '%sFrob.lean' % N, 'w').write('\n'.join(o))
    print(n, 'done', flush=True)

def dstep(s):
    """The step of dSFMT on states whose words have the high bits 0x3ff: an affine map with linear part `dsfmt`."""
    H = 0x3ff << 52
    def lung(x, y, u): return ((x << 19) & M64) ^ (u >> 32) ^ ((u << 32) & M64) ^ y
    def out(m, l, x): return (l >> 12) ^ (l & m) ^ x
    w = s >> 128; a0 = w & M52 | H; a1 = (w >> 52) & M52 | H
    l0 = lung(a0, (w >> 12168) & M52 | H, (s >> 64) & M64); l1 = lung(a1, (w >> 12220) & M52 | H, s & M64)
    r0 = out(0x000ffafffffffb3f, l0, a0); r1 = out(0x000ffdfffc90fffd, l1, a1)
    return (((w >> 104) ^ (((r0 & M52) ^ ((r1 & M52) << 52)) << 19760)) << 128) ^ l0 ^ (l1 << 64)

def emit_fix():
    """A state `f` with `psi(T)(f + step f) = 0`; its lung is the constant of the period certification."""
    phi = load('DsfmtFrob.lean', 'dsfmtPhi'); psi = load('DsfmtFrob.lean', 'dsfmtPsi')
    h = psi ^ (psi << 1); s = beta = 0
    for k in range(h.bit_length()):
        if h >> k & 1: beta ^= s
        s = dstep(s)
    g, u, w = egcd(h, phi)
    f = horner(dsfmt, u, beta)
    z = f ^ dstep(f)
    assert horner(dsfmt, psi, z) == 0 and f & m128 == 0x90014964b32f4329 | 0x3b8d12ac548a7c7a << 64
    o = ['import Verif.Proof.DsfmtFrob', '',
         '/-! A state of dSFMT that its step leaves unchanged up to the kernel of the small factor. The numbers come from',
         'tools/simd_period.py; the kernel checks them. -/', '', 'namespace Verif.Linear', 'open Verif.GF2', '',
         '/-- The state. -/', 'def dsfmtFix : Nat :=', '  ' + hex(f), '',
         '/-- The difference between the state and the next one. -/', 'def dsfmtFixD : Nat :=', '  ' + hex(z), '',
         'theorem dsfmtFixD_psi : hornerBits dsfmtF dsfmtPsi dsfmtFixD 56 6 0 = 0 := by decide +kernel', '', 'end Verif.Linear', '']
    open(P + 'DsfmtFix.lean', 'w').write('\n'.join(o))

if __name__ == '__main__':
    emit('sfmt', 'Sfmt', sfmt, 1 | 0x13c9e684 << 96, 8191 * 32767, 'SFMT')
    emit('dsfmt', 'Dsfmt', dsfmt, 0x3d84e1ac0dc82880 | 1 << 64, 4 * 511 * (2 ** 32 - 1), 'dSFMT')
    emit_fix()
