"""Compute the GF(2) certificates used by lean/Verif/Proof/*.lean.

Nothing here is trusted: the Lean kernel re-checks every number printed by this script.
"""
import sys

M = (1 << 64) - 1


def rotl(x, k):
    return ((x << k) | (x >> (64 - k))) & M


def xoro_plus(s):
    s0, s1 = s
    s1 ^= s0
    return (rotl(s0, 24) ^ s1 ^ ((s1 << 16) & M), rotl(s1, 37))


def xoro_pp(s):
    s0, s1 = s
    s1 ^= s0
    return (rotl(s0, 49) ^ s1 ^ ((s1 << 21) & M), rotl(s1, 28))


def xosh256(s):
    s0, s1, s2, s3 = s
    t = (s1 << 17) & M
    s2 ^= s0
    s3 ^= s1
    s1 ^= s2
    s0 ^= s3
    s2 ^= t
    s3 = rotl(s3, 45)
    return (s0, s1, s2, s3)


def xosh512(s):
    s = list(s)
    t = (s[1] << 11) & M
    s[2] ^= s[0]
    s[5] ^= s[1]
    s[1] ^= s[2]
    s[7] ^= s[3]
    s[3] ^= s[4]
    s[4] ^= s[5]
    s[0] ^= s[6]
    s[6] ^= s[7]
    s[6] ^= t
    s[7] = rotl(s[7], 21)
    return tuple(s)


def xors1024(u):
    s0, s1 = u[0], u[1]
    s1 ^= (s1 << 31) & M
    new = s1 ^ s0 ^ (s1 >> 11) ^ (s0 >> 30)
    return (new,) + tuple(u[2:]) + (u[0],)


def bm(bits):
    """Berlekamp-Massey over GF(2); returns connection polynomial and length."""
    # C, B as ints, bit i = coefficient of D^i ; keep reversed window of the sequence
    C = B = 1
    L, m = 0, 1
    win = 0  # bit i = s[n-i]
    for n, b in enumerate(bits):
        win = (win << 1) | b
        d = bin(C & win).count("1") & 1
        if d == 0:
            m += 1
        elif 2 * L <= n:
            T = C
            C ^= B << m
            L = n + 1 - L
            B = T
            m = 1
        else:
            C ^= B << m
            m += 1
    return C, L


def charpoly(step, nwords, bit=0):
    s = tuple((0x9E3779B97F4A7C15 * (2 * i + 1) + i * i * 77777) & M for i in range(nwords))
    bits = []
    for _ in range(2 * 64 * nwords + 64):
        bits.append((s[0] >> bit) & 1)
        s = step(s)
    C, L = bm(bits)
    # reciprocal
    p = 0
    for i in range(L + 1):
        if (C >> i) & 1:
            p |= 1 << (L - i)
    return p, L


def mul(a, b):
    r = 0
    while b:
        if b & 1:
            r ^= a
        a <<= 1
        b >>= 1
    return r


def mod(a, p):
    d = p.bit_length()
    while a.bit_length() >= d:
        a ^= p << (a.bit_length() - d)
    return a


def mulmod(a, b, p):
    return mod(mul(a, b), p)


def powx(e, p):
    r = 1
    for c in bin(e)[2:]:
        r = mulmod(r, r, p)
        if c == "1":
            r = mod(r << 1, p)
    return r


def divmod2(a, b):
    q = 0
    while a.bit_length() >= b.bit_length():
        k = a.bit_length() - b.bit_length()
        q |= 1 << k
        a ^= b << k
    return q, a


def inv(a, p):
    r0, r1, s0, s1 = p, a, 0, 1
    while r1:
        q, r = divmod2(r0, r1)
        r0, r1 = r1, r
        s0, s1 = s1, s0 ^ mul(q, s1)
    return mod(s0, p) if r0 == 1 else None


JUMPS = {
    "xoroPlus": (xoro_plus, 2, 64, [0xDF900294D8F554A5, 0x170865DF4B3201FC]),
    "xoroPP": (xoro_pp, 2, 64, [0x2BD7A6A6E99C2DDC, 0x0992CCAF6A6FCA05]),
    "xosh256": (xosh256, 4, 128, [0x180EC6D33CFD0ABA, 0xD5A61266F0C9392C, 0xA9582618E03FC9AA, 0x39ABDC4529B1661C]),
    "xosh512": (xosh512, 8, 256, [0x33ED89B6E7A353F9, 0x760083D7955323BE, 0x2837F2FBB5F22FAE, 0x4B8C5674D309511C,
                                  0xB11AC47A7BA28C25, 0xF1BE7667092BCC1C, 0x53851EFDB6DF0AAF, 0x1EBBC8B23EAF25DB]),
    "xors1024": (xors1024, 16, 512, None),
}

if __name__ == "__main__":
    for name, (step, k, lg, J) in JUMPS.items():
        p, L = charpoly(step, k)
        print(name, "degree", L, hex(p))
        e = 2
        for _ in range(lg):
            e = mulmod(e, e, p)
        print("  x^(2^%d) mod p =" % lg, [hex((e >> (64 * i)) & M) for i in range(k)])
        if J is not None:
            print("  matches JUMP:", e == sum(w << (64 * i) for i, w in enumerate(J)))
