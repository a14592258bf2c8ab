import Verif.Common.Words
import Verif.Common.Draw

/-! ChaCha (randomgen/src/chacha/chacha.h, chacha.c): the block function in its portable and SSE2/SSSE3 forms,
the buffered generator, seeding and the C-level `chacha_advance`. -/

namespace Verif

/-- Four 32-bit words: a row of the ChaCha matrix, or an `__m128i` register seen as `epi32`, lane 0 first. -/
structure V4 where
  x0 : U32
  x1 : U32
  x2 : U32
  x3 : U32
  deriving DecidableEq, Repr

namespace V4
/-- Lane number `i`. -/
def get (v : V4) (i : Nat) : U32 := if i = 0 then v.x0 else if i = 1 then v.x1 else if i = 2 then v.x2 else v.x3
/-- Lane-wise operation. -/
def map2 (f : U32 → U32 → U32) (a b : V4) : V4 := ⟨f a.x0 b.x0, f a.x1 b.x1, f a.x2 b.x2, f a.x3 b.x3⟩
/-- Lane-wise operation. -/
def map (f : U32 → U32) (a : V4) : V4 := ⟨f a.x0, f a.x1, f a.x2, f a.x3⟩
end V4

/-- The 16 words `block[16]` as four rows: `block[4 i + j]` is lane `j` of row `i`. -/
structure Rows where
  a : V4
  b : V4
  c : V4
  d : V4
  deriving DecidableEq, Repr

/-- `block[k]`. -/
def Rows.get (r : Rows) (k : Nat) : U32 :=
  (if k / 4 = 0 then r.a else if k / 4 = 1 then r.b else if k / 4 = 2 then r.c else r.d).get (k % 4)

/-! ### Portable core -/

/-- `CHACHA_ROTL32` (chacha.h:144). -/
def ccRotl (x : U32) (n : Nat) : U32 := (x <<< n) ||| (x >>> (32 - n))

/-- `CHACHA_QUARTERROUND` (chacha.h:146-150) on the four words it touches. -/
def quarter (a b c d : U32) : V4 :=
  let a := a + b
  let d := ccRotl (d ^^^ a) 16
  let c := c + d
  let b := ccRotl (b ^^^ c) 12
  let a := a + b
  let d := ccRotl (d ^^^ a) 8
  let c := c + d
  let b := ccRotl (b ^^^ c) 7
  ⟨a, b, c, d⟩

/-- The body of the loop of `chacha_core` (chacha.h:152-161): four column rounds, four diagonal rounds. -/
def doubleRound (r : Rows) : Rows :=
  let q0 := quarter r.a.x0 r.b.x0 r.c.x0 r.d.x0
  let q1 := quarter r.a.x1 r.b.x1 r.c.x1 r.d.x1
  let q2 := quarter r.a.x2 r.b.x2 r.c.x2 r.d.x2
  let q3 := quarter r.a.x3 r.b.x3 r.c.x3 r.d.x3
  -- CHACHA_QUARTERROUND(block, 0, 5, 10, 15); (1, 6, 11, 12); (2, 7, 8, 13); (3, 4, 9, 14)
  let p0 := quarter q0.x0 q1.x1 q2.x2 q3.x3
  let p1 := quarter q1.x0 q2.x1 q3.x2 q0.x3
  let p2 := quarter q2.x0 q3.x1 q0.x2 q1.x3
  let p3 := quarter q3.x0 q0.x1 q1.x2 q2.x3
  { a := ⟨p0.x0, p1.x0, p2.x0, p3.x0⟩
    b := ⟨p3.x1, p0.x1, p1.x1, p2.x1⟩
    c := ⟨p2.x2, p3.x2, p0.x2, p1.x2⟩
    d := ⟨p1.x3, p2.x3, p3.x3, p0.x3⟩ }

/-- Number of passes of `for (i = 0; i < rounds; i += 2)`. Values of `rounds` next to `INT_MAX`, where `i += 2`
would overflow, are not distinguished. -/
def ccPasses (rounds : Int) : Nat := ((rounds + 1) / 2).toNat

/-- `chacha_core` (chacha.h:142-165). -/
def ccCore (rounds : Int) (r : Rows) : Rows := doubleRound^[ccPasses rounds] r

/-! ### SSE core -/

/-- The sixteen bytes of a register, byte 0 first. -/
def V4.byte (v : V4) (i : Nat) : BitVec 8 := ((v.get (i / 4)) >>> (8 * (i % 4))).truncate 8

/-- A word from four bytes, least significant first. -/
def word32 (b0 b1 b2 b3 : BitVec 8) : U32 := b3 ++ b2 ++ b1 ++ b0

/-- `_mm_shuffle_epi8(v, idx)` for index bytes below 128: byte `i` of the result is byte `idx i` of `v`. -/
def shuffleEpi8 (v : V4) (idx : Nat → Nat) : V4 :=
  let b := fun i => v.byte (idx i)
  ⟨word32 (b 0) (b 1) (b 2) (b 3), word32 (b 4) (b 5) (b 6) (b 7), word32 (b 8) (b 9) (b 10) (b 11),
    word32 (b 12) (b 13) (b 14) (b 15)⟩

/-- `_mm_set_epi8(e15, ..., e0)` read as an index table. -/
def setEpi8 (l : List Nat) (i : Nat) : Nat := l.getD (15 - i) 0

/-- `_mm_shuffle_epi32(v, imm)`: lane `i` of the result is lane `(imm >> 2i) & 3` of `v`. -/
def shuffleEpi32 (v : V4) (imm : Nat) : V4 :=
  ⟨v.get (imm % 4), v.get (imm / 4 % 4), v.get (imm / 16 % 4), v.get (imm / 64 % 4)⟩

/-- `_mm_roti_epi32` (chacha.h:51-77); `ssse3` selects the byte-shuffle form of the three byte-aligned rotations. -/
def rotiEpi32 (ssse3 : Bool) (r : V4) (c : Nat) : V4 :=
  if ssse3 ∧ c = 8 then shuffleEpi8 r (setEpi8 [14, 13, 12, 15, 10, 9, 8, 11, 6, 5, 4, 7, 2, 1, 0, 3])
  else if ssse3 ∧ c = 16 then shuffleEpi8 r (setEpi8 [13, 12, 15, 14, 9, 8, 11, 10, 5, 4, 7, 6, 1, 0, 3, 2])
  else if ssse3 ∧ c = 24 then shuffleEpi8 r (setEpi8 [12, 15, 14, 13, 8, 11, 10, 9, 4, 7, 6, 5, 0, 3, 2, 1])
  else V4.map2 (· ^^^ ·) (r.map (· <<< c)) (r.map (· >>> (32 - c)))

/-- Half a pass of `chacha_core_ssse3` (chacha.h:97-108, 114-125). -/
def sseHalf (f : Bool) (r : Rows) : Rows :=
  let a := V4.map2 (· + ·) r.a r.b
  let d := rotiEpi32 f (V4.map2 (· ^^^ ·) r.d a) 16
  let c := V4.map2 (· + ·) r.c d
  let b := rotiEpi32 f (V4.map2 (· ^^^ ·) r.b c) 12
  let a := V4.map2 (· + ·) a b
  let d := rotiEpi32 f (V4.map2 (· ^^^ ·) d a) 8
  let c := V4.map2 (· + ·) c d
  let b := rotiEpi32 f (V4.map2 (· ^^^ ·) b c) 7
  ⟨a, b, c, d⟩

/-- One pass of the loop of `chacha_core_ssse3` (chacha.h:96-130). -/
def sseDouble (f : Bool) (r : Rows) : Rows :=
  let h := sseHalf f r
  let h := sseHalf f ⟨h.a, shuffleEpi32 h.b 0x39, shuffleEpi32 h.c 0x4e, shuffleEpi32 h.d 0x93⟩
  ⟨h.a, shuffleEpi32 h.b 0x93, shuffleEpi32 h.c 0x4e, shuffleEpi32 h.d 0x39⟩

/-- `chacha_core_ssse3` (chacha.h:82-134). -/
def sseCore (f : Bool) (rounds : Int) (r : Rows) : Rows := (sseDouble f)^[ccPasses rounds] r

/-! ### The generator -/

/-- `chacha_state_t` (chacha.h:43-48). `keysetup[0..3]` is `k0`, `keysetup[4..7]` is `k1`. -/
structure ChaCha where
  block : Rows
  k0 : V4
  k1 : V4
  ctr0 : U64
  ctr1 : U64
  rounds : Int
  deriving DecidableEq, Repr

/-- `input[16]` of `generate_block` (chacha.h:168-179). -/
def ccInput (k0 k1 : V4) (ctr0 ctr1 : U64) : Rows :=
  { a := ⟨0x61707865, 0x3320646e, 0x79622d32, 0x6b206574⟩
    b := k0
    c := k1
    d := ⟨((ctr0 / 16#64) &&& 0xffffffff#64).truncate 32,
          (((ctr1.truncate 32 : U32) % 16#32) <<< 28) ||| ((ctr0 / 16#64) >>> 32).truncate 32,
          ((ctr1 / 16#64) &&& 0xffffffff#64).truncate 32,
          ((ctr1 / 16#64) >>> 32).truncate 32⟩ }

/-- Word-wise sum of two blocks (chacha.h:191). -/
def Rows.add (x y : Rows) : Rows :=
  ⟨V4.map2 (· + ·) x.a y.a, V4.map2 (· + ·) x.b y.b, V4.map2 (· + ·) x.c y.c, V4.map2 (· + ·) x.d y.d⟩

/-- `generate_block` (chacha.h:167-192) with the core `core`. -/
def ccGenWith (core : Int → Rows → Rows) (s : ChaCha) : ChaCha :=
  let inp := ccInput s.k0 s.k1 s.ctr0 s.ctr1
  { s with block := (core s.rounds inp).add inp }

/-- `generate_block` without SIMD. -/
def ccGen (s : ChaCha) : ChaCha := ccGenWith ccCore s

/-- `chacha_next32` (chacha.h:194-201), with `generate_block` as a parameter. -/
def ccNextWith (gen : ChaCha → ChaCha) (s : ChaCha) : U32 × ChaCha :=
  let idx := (s.ctr0 % 16#64).toNat
  let s := if idx = 0 then gen s else s
  let c0 := s.ctr0 + 1
  let c1 := if c0 = 0 then s.ctr1 + 1 else s.ctr1
  (s.block.get idx, { s with ctr0 := c0, ctr1 := c1 })

/-- `chacha_next32` without SIMD. -/
def ccNext : ChaCha → U32 × ChaCha := ccNextWith ccGen

/-- `chacha_seed` (chacha.c:34-56) over any old state; `rounds` was stored by the constructor. -/
def ccSeed (old : ChaCha) (s0 s1 t0 t1 c0 c1 : U64) : ChaCha :=
  let k0 : V4 := ⟨(s0 &&& 0xffffffff#64).truncate 32, (s0 >>> 32).truncate 32, (s1 &&& 0xffffffff#64).truncate 32, (s1 >>> 32).truncate 32⟩
  let k1 : V4 := ⟨(t0 &&& 0xffffffff#64).truncate 32, (t0 >>> 32).truncate 32, (t1 &&& 0xffffffff#64).truncate 32, (t1 >>> 32).truncate 32⟩
  let s := ccGen { old with k0 := k0, k1 := k1, ctr0 := (c0 >>> 4) <<< 4, ctr1 := c1 }
  { s with ctr0 := c0 }

/-- `chacha_advance` (chacha.c:58-68). `idx` is an `int`, converted to `uint64_t` in the sum. -/
def ccAdvance (s : ChaCha) (d0 d1 : U64) : ChaCha :=
  let idx := s.ctr0 % 16#64
  let c0 := s.ctr0 + d0
  let carry : U64 := if c0 < s.ctr0 then 1 else 0
  let c1 := s.ctr1 + (d1 + carry)
  let s := { s with ctr0 := c0, ctr1 := c1 }
  if (16#64 ≤ idx + d0 ∨ d1 ≠ 0) ∧ c0 % 16#64 ≠ 0 then ccGen s else s

end Verif
