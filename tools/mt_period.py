"""Certificates that x^(2^19937) = x modulo the characteristic polynomials of MT19937 and MT64.

usage: mt_period.py (run in tools/; reads lean/Verif/Proof/MtChi.lean, writes lean/Verif/Proof/MtFrob32.lean, MtFrob64.lean)
"""
import re
P = '../lean/Verif/Proof/'
src = open(P + 'MtChi.lean').read()
B = [int(bin(i)[2:], 4) for i in range(1 << 16)]  # squares of 16-bit polynomials

def square(a):
    bs = a.to_bytes((a.bit_length() + 15) // 16 * 2 or 2, 'little')
    return int.from_bytes(b''.join(B[bs[i] | bs[i + 1] << 8].to_bytes(4, 'little') for i in range(0, len(bs), 2)), 'little')

def emit(w):
    chi = int(re.search(r'def mt%sChi : Nat :=\n  (0x[0-9a-f]+)' % w, src).group(1), 16)
    d = chi.bit_length() - 1
    assert d == 19937
    low = [i for i in range(d) if chi >> i & 1]
    print(w, len(low) + 1, 'terms, second', low[-1])
    def red(a):
        while a.bit_length() > d:
            h = a >> d
            a &= (1 << d) - 1
            for i in low: a ^= h << i
        return a
    ks = [9] * 38 + [8, 7, 6, 5, 0]
    assert sum(2 ** k for k in ks) == 19937
    vals = [2]
    for k in ks:
        a = vals[-1]
        for _ in range(2 ** k): a = red(square(a))
        vals.append(a)
    assert vals[-1] == 2
    q = 0
    # chi = 1 + (x + 1) q
    r = chi ^ 1
    for i in range(d, 0, -1):
        if r >> i & 1:
            q |= 1 << (i - 1); r ^= 3 << (i - 1)
    assert r == 0 and chi == 1 ^ q ^ (q << 1)
    o = ['import Verif.Proof.MtChi', '',
         '/-! Certificate that `x^(2^19937) = x` modulo the characteristic polynomial of mt%s, in 43 pieces. The numbers come from' % w,
         'tools/mt_period.py; the kernel checks them. -/', '', 'set_option Elab.async false', '', 'namespace Verif.Linear', 'open Verif.GF2', '',
         '/-- The quotient of `mt%sChi + 1` by `x + 1`. -/' % w, 'def mt%sQ1 : Nat :=' % w, '  ' + hex(q), '',
         'theorem mt%sQ1_eq : mt%sChi = 1 ^^^ mt%sQ1 ^^^ (2 * mt%sQ1) := by decide +kernel' % (w, w, w, w), '']
    e = 0
    names = ['2']
    for i, k in enumerate(ks):
        e += 2 ** k
        if i + 1 < len(ks):
            n = 'mt%sF%d' % (w, i + 1)
            o += ['/-- `x^(2^%d)` modulo `mt%sChi`. -/' % (e, w), 'def %s : Nat :=' % n, '  ' + hex(vals[i + 1]), '']
        else: n = '2'
        names.append(n)
        o += ['theorem mt%sSq%d : sqCheck mt%sChi mt%sMu 19937 %d %s %s = true := by decide +kernel' % (w, i + 1, w, w, k, names[-2], n), '']
    o += ['/-- Every root of the polynomial in a ring of characteristic two is its own conjugate of order 19937. -/',
          'theorem mt%s_frob {R : Type} [_root_.Ring R] (t : R) (h2 : ∀ x : R, x + x = 0) (h : ev t mt%sChi = 0) : t ^ 2 ^ 19937 = t := by' % (w, w),
          '  have hm : mt%sChi < 2 ^ 32767 := by decide +kernel' % w,
          '  have f1 : ev t 2 = t := by', '    have := ev_two_mul t 1', '    rw [ev_one] at this', '    rw [show 2 = 2 * 1 from rfl, this, mul_one]',
          '  have f0 : ev t 2 = t ^ 2 ^ 0 := by rw [f1, pow_zero, pow_one]',
          '  have b0 : 2 < 2 ^ 32767 := by decide +kernel']
    for i in range(1, len(ks)): o.append('  have b%d : %s < 2 ^ 32767 := by decide +kernel' % (i, names[i]))
    o.append('  have b%d : 2 < 2 ^ 32767 := b0' % len(ks))
    e = 0
    for i, k in enumerate(ks):
        e2 = e + 2 ** k
        o.append('  replace f0 : ev t %s = t ^ 2 ^ %d := frob_step f0 (ev_of_sqCheck t h2 hm b%d b%d h mt%sSq%d) (by decide)' % (names[i + 1], e2, i, i + 1, w, i + 1))
        e = e2
    o += ['  exact f0.symm.trans f1', '', 'end Verif.Linear', '']
    open(P + 'MtFrob%s.lean' % w, 'w').write('\n'.join(o))

emit('32'); emit('64')
