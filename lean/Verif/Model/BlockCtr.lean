import Verif.Common.Draw
import Verif.Common.Words
import Verif.Model.Ints

/-! The block-cipher generators SPECK128 and AESCounter (portable code paths, little-endian machine). -/

namespace Verif

/-- A 128-bit counter as stored: `u64[0]` (low) and `u64[1]` (high). -/
structure Ctr where
  lo : U64
  hi : U64
  deriving DecidableEq, Repr

/-- Eight bytes read by `memcpy` at byte offset `o` from an array of `m` 64-bit words on a little-endian
machine; reading outside the array is `none`. -/
def read8 (m : Nat) (buf : Nat → U64) (o : Int) : Option U64 :=
  if 0 ≤ o ∧ o + 8 ≤ 8 * m then
    let q := o.toNat / 8
    let r := o.toNat % 8
    some (if r = 0 then buf q else (buf q >>> (8 * r)) ||| (buf (q + 1) <<< (64 - 8 * r)))
  else none

/-- The steps `step[0], step[1], step[2]` that both `advance` methods hand to C:
`int_to_array(wrap_int(delta, 129), "delta", 64*3, 64)` (randomgen/speck128.pyx:437-441,
randomgen/aes.pyx:407-411). -/
def steps129 (delta : Int) : Except PyErr (U64 × U64 × U64) :=
  match Ints.intToArray (.int (Ints.wrapInt delta 129)) (64 * 3) 64 with
  | .ok [a, b, c] => .ok (BitVec.ofNat 64 a, BitVec.ofNat 64 b, BitVec.ofNat 64 c)
  | .ok _ => .error .runtimeError
  | .error e => .error e

/-! ## SPECK128 -/

/-- `ROTR64` (randomgen/src/speck-128/speck-128.h:26). -/
def rotr64 (x : U64) (k : Nat) : U64 := x >>> k ||| x <<< (64 - k)

/-- `ER64(x, y, s)` (speck-128.h:29): returns the new `x, y`. -/
def er64 (x y s : U64) : U64 × U64 :=
  let x := (rotr64 x 8 + y) ^^^ s
  (x, rotl64 y 3 ^^^ x)

/-- One pass of the loop of `speck_expandkey_128x256` (speck-128.h:51-61) on `(D, C, B, A)`; the three round
keys it stores are returned in order. -/
def speckKeyPass (i : Nat) (st : U64 × U64 × U64 × U64) : (U64 × U64 × U64) × (U64 × U64 × U64 × U64) :=
  let (D, C, B, A) := st
  let k0 := A
  let (B, A) := er64 B A (BitVec.ofNat 64 i)
  let k1 := A
  let (C, A) := er64 C A (BitVec.ofNat 64 (i + 1))
  let k2 := A
  let (D, A) := er64 D A (BitVec.ofNat 64 (i + 2))
  ((k0, k1, k2), (D, C, B, A))

/-- `speck_expandkey_128x256` (speck-128.h:44-64): eleven passes and the last key. Both halves of a
`round_key[i]` get the same word, kept once here. -/
def speckKeyLoop : Nat → Nat → U64 × U64 × U64 × U64 → List U64
  | 0, _, st => [st.2.2.2]
  | n + 1, i, st =>
    let r := speckKeyPass i st
    [r.1.1, r.1.2.1, r.1.2.2] ++ speckKeyLoop n (i + 3) r.2

def speckExpandKey (k0 k1 k2 k3 : U64) : List U64 := speckKeyLoop 11 0 (k3, k2, k1, k0)

/-- `speck_state_t` (speck-128-common.h:22-31): `buf` holds the 12 words of `buffer`, `offset` is in bytes. -/
structure Speck where
  rk : Nat → U64
  ctr : Fin 6 → Ctr
  buf : Nat → U64
  rounds : Int
  offset : Int
  has : Bool
  uinteger : U32

/-- The round loop of `generate_block_fast` (speck-128.h:89-100) on one counter: word 1 is `x`, word 0 is `y`.
The six lanes are independent. -/
def speckEnc (rk : Nat → U64) : Nat → Ctr → Ctr
  | 0, c => c
  | n + 1, c =>
    let c := speckEnc rk n c
    let r := er64 c.hi c.lo (rk n)
    ⟨r.2, r.1⟩

/-- `advance_counter` (speck-128-common.h:35-44) on one counter: add `SPECK_CTR_SZ` with carry. -/
def speckAdd6 (c : Ctr) : Ctr :=
  let lo := c.lo + 6
  ⟨lo, if lo < c.lo then c.hi + 1 else c.hi⟩

/-- `generate_block_fast` (speck-128.h:83-103). -/
def speckGen (s : Speck) : Speck :=
  { s with
    buf := fun j =>
      let e := speckEnc s.rk s.rounds.toNat (s.ctr ⟨j / 2 % 6, Nat.mod_lt _ (by decide)⟩)
      if j % 2 = 0 then e.lo else e.hi
    ctr := fun i => speckAdd6 (s.ctr i)
    offset := 0 }

/-- `speck_next64` (speck-128.h:105-122), portable path. -/
def speckNext (s : Speck) : Option (U64 × Speck) :=
  let s := if s.offset = 96 then speckGen s else s
  (read8 12 s.buf s.offset).map fun out => (out, { s with offset := s.offset + 8 })

/-- `speck_set_counter` (speck-128.c:36-45) on one counter. -/
def speckSetCtr (c : Ctr) (i : Nat) : Ctr :=
  let lo := c.lo + BitVec.ofNat 64 i
  ⟨lo, c.hi + (if lo < c.lo then 1 else 0)⟩

/-- `SPECK128.seed(key=key, counter=counter)` after conversion of its arguments (speck128.pyx:221-230,
`speck_seed` speck-128.c:21-32): round keys, counters, `offset`, and the 32-bit buffer are overwritten;
`buffer` and `rounds` keep their values. -/
def speckSeed (old : Speck) (k0 k1 k2 k3 : U64) (c : Ctr) : Speck :=
  { old with
    rk := fun i => (speckExpandKey k0 k1 k2 k3).getD i 0
    ctr := fun i => speckSetCtr c i.val
    offset := 96
    has := false
    uinteger := 0 }

/-- The counter update of `speck_advance` (speck-128.c:71-78) on one counter. -/
def speckAdvCtr (a0 a1 : U64) (c : Ctr) : Ctr :=
  let lo := c.lo + a0
  let hi := c.hi + a1 + (if lo < c.lo then 1 else 0)
  let lo' := lo - 6
  ⟨lo', hi - (if lo < lo' then 1 else 0)⟩

/-- Forced buffer refill at the start of the advance (speck-128.c:51-56). -/
def speckForce (s : Speck) : Option Speck :=
  if s.offset = 96 then (speckNext s).map fun r => { r.2 with offset := 0 } else some s

/-- `speck_advance` (speck-128.c:47-86). -/
def speckAdvance (s : Speck) (d0 d1 d2 : U64) : Option Speck := do
  let s ← speckForce s
  let s := { s with offset := s.offset + 8 * (d0 % 2#64).toNat }
  let a0 := d0 / 2#64 + ((d1 % 2#64) <<< 63)
  let a1 := d1 / 2#64 + ((d2 % 2#64) <<< 63)
  if a0 = 0 ∧ a1 = 0 then some s
  else
    let s := { s with ctr := fun i => speckAdvCtr a0 a1 (s.ctr i) }
    let newOffset := s.offset
    let r ← speckNext { s with offset := 96 }
    some { r.2 with offset := newOffset }

/-- `SPECK128.advance` (speck128.pyx:437-445). The outer `Except` is Python's, the inner `Option` is C's
undefined behaviour. -/
def speckPyAdvance (s : Speck) (delta : Int) : Except PyErr (Option Speck) :=
  if Ints.wrapInt delta 129 = 0 then .ok (some s)
  else
    match steps129 delta with
    | .error e => .error e
    | .ok (d0, d1, d2) => .ok ((speckAdvance s d0 d1 d2).map fun s => { s with has := false, uinteger := 0 })

/-- `SPECK128.jump_inplace` (speck128.pyx:340-349). -/
def speckJumpInplace (s : Speck) (iter : Int) : Except PyErr (Option Speck) := speckPyAdvance s (iter * 2 ^ 64)

/-! ## AESCounter -/

/-- A byte. -/
abbrev U8 := BitVec 8

/-- `sbox` (randomgen/src/aesctr/softaes.h:22-46). -/
def sboxTable : List U8 :=
  [0x63, 0x7c, 0x77, 0x7b, 0xf2, 0x6b, 0x6f, 0xc5, 0x30, 0x01, 0x67, 0x2b,
    0xfe, 0xd7, 0xab, 0x76, 0xca, 0x82, 0xc9, 0x7d, 0xfa, 0x59, 0x47, 0xf0,
    0xad, 0xd4, 0xa2, 0xaf, 0x9c, 0xa4, 0x72, 0xc0, 0xb7, 0xfd, 0x93, 0x26,
    0x36, 0x3f, 0xf7, 0xcc, 0x34, 0xa5, 0xe5, 0xf1, 0x71, 0xd8, 0x31, 0x15,
    0x04, 0xc7, 0x23, 0xc3, 0x18, 0x96, 0x05, 0x9a, 0x07, 0x12, 0x80, 0xe2,
    0xeb, 0x27, 0xb2, 0x75, 0x09, 0x83, 0x2c, 0x1a, 0x1b, 0x6e, 0x5a, 0xa0,
    0x52, 0x3b, 0xd6, 0xb3, 0x29, 0xe3, 0x2f, 0x84, 0x53, 0xd1, 0x00, 0xed,
    0x20, 0xfc, 0xb1, 0x5b, 0x6a, 0xcb, 0xbe, 0x39, 0x4a, 0x4c, 0x58, 0xcf,
    0xd0, 0xef, 0xaa, 0xfb, 0x43, 0x4d, 0x33, 0x85, 0x45, 0xf9, 0x02, 0x7f,
    0x50, 0x3c, 0x9f, 0xa8, 0x51, 0xa3, 0x40, 0x8f, 0x92, 0x9d, 0x38, 0xf5,
    0xbc, 0xb6, 0xda, 0x21, 0x10, 0xff, 0xf3, 0xd2, 0xcd, 0x0c, 0x13, 0xec,
    0x5f, 0x97, 0x44, 0x17, 0xc4, 0xa7, 0x7e, 0x3d, 0x64, 0x5d, 0x19, 0x73,
    0x60, 0x81, 0x4f, 0xdc, 0x22, 0x2a, 0x90, 0x88, 0x46, 0xee, 0xb8, 0x14,
    0xde, 0x5e, 0x0b, 0xdb, 0xe0, 0x32, 0x3a, 0x0a, 0x49, 0x06, 0x24, 0x5c,
    0xc2, 0xd3, 0xac, 0x62, 0x91, 0x95, 0xe4, 0x79, 0xe7, 0xc8, 0x37, 0x6d,
    0x8d, 0xd5, 0x4e, 0xa9, 0x6c, 0x56, 0xf4, 0xea, 0x65, 0x7a, 0xae, 0x08,
    0xba, 0x78, 0x25, 0x2e, 0x1c, 0xa6, 0xb4, 0xc6, 0xe8, 0xdd, 0x74, 0x1f,
    0x4b, 0xbd, 0x8b, 0x8a, 0x70, 0x3e, 0xb5, 0x66, 0x48, 0x03, 0xf6, 0x0e,
    0x61, 0x35, 0x57, 0xb9, 0x86, 0xc1, 0x1d, 0x9e, 0xe1, 0xf8, 0x98, 0x11,
    0x69, 0xd9, 0x8e, 0x94, 0x9b, 0x1e, 0x87, 0xe9, 0xce, 0x55, 0x28, 0xdf,
    0x8c, 0xa1, 0x89, 0x0d, 0xbf, 0xe6, 0x42, 0x68, 0x41, 0x99, 0x2d, 0x0f,
    0xb0, 0x54, 0xbb, 0x16]

/-- `getSBoxValue` (softaes.h:48). -/
def sbox (x : U8) : U8 := sboxTable.getD x.toNat 0

/-- `state_t`: four columns of four bytes; `(*state)[i][j]` is `s i j`. -/
abbrev AesBlk := Fin 4 → Fin 4 → U8

/-- `SubBytes` (softaes.h:116-123). -/
def aesSub (s : AesBlk) : AesBlk := fun i j => sbox (s i j)

/-- `ShiftRows` (softaes.h:128-153), assignment by assignment: row 1 (`[.][1]`) moves one column to the left,
row 2 two, row 3 three. -/
def aesShift (s : AesBlk) : AesBlk := fun i j =>
  match j with
  | 0 => s i 0
  | 1 => match i with | 0 => s 1 1 | 1 => s 2 1 | 2 => s 3 1 | 3 => s 0 1
  | 2 => match i with | 0 => s 2 2 | 1 => s 3 2 | 2 => s 0 2 | 3 => s 1 2
  | 3 => match i with | 0 => s 3 3 | 1 => s 0 3 | 2 => s 1 3 | 3 => s 2 3

/-- `xtime` (softaes.h:155-157). -/
def xtime (x : U8) : U8 := (x <<< 1) ^^^ (((x >>> 7) &&& 1) * 0x1b)

/-- One column of `MixColumns` (softaes.h:163-178). The assignments update the column in place, so `Tm` for
bytes 1 and 2 is computed from bytes not yet changed and for byte 3 from byte 3 and the saved `t`. -/
def aesMixCol (c : Fin 4 → U8) : Fin 4 → U8 := fun j =>
  let t := c 0
  let tmp := c 0 ^^^ c 1 ^^^ c 2 ^^^ c 3
  match j with
  | 0 => c 0 ^^^ (xtime (c 0 ^^^ c 1) ^^^ tmp)
  | 1 => c 1 ^^^ (xtime (c 1 ^^^ c 2) ^^^ tmp)
  | 2 => c 2 ^^^ (xtime (c 2 ^^^ c 3) ^^^ tmp)
  | 3 => c 3 ^^^ (xtime (c 3 ^^^ t) ^^^ tmp)

/-- `MixColumns` (softaes.h:160-179). -/
def aesMix (s : AesBlk) : AesBlk := fun i => aesMixCol (s i)

/-- `AddRoundKey` (softaes.h:183-191); `rk` is the 176-byte expanded key. -/
def aesAddKey (round : Nat) (rk : Nat → U8) (s : AesBlk) : AesBlk := fun i j =>
  s i j ^^^ rk (round * 16 + i.val * 4 + j.val)

/-- The loop of `tiny_encrypt` (softaes.h:203-208) after `n` rounds, from the whitened block. -/
def aesRounds (rk : Nat → U8) : Nat → AesBlk → AesBlk
  | 0, s => aesAddKey 0 rk s
  | n + 1, s => aesAddKey (n + 1) rk (aesMix (aesShift (aesSub (aesRounds rk n s))))

/-- `tiny_encrypt` (softaes.h:194-215). -/
def aesEncrypt (rk : Nat → U8) (s : AesBlk) : AesBlk :=
  aesAddKey 10 rk (aesShift (aesSub (aesRounds rk 9 s)))

/-- `Rcon` (softaes.h:53-54). -/
def rconTable : List U8 := [0x8d, 0x01, 0x02, 0x04, 0x08, 0x10, 0x20, 0x40, 0x80, 0x1b, 0x36]

/-- Word `i` of `tinyaes_expand_key` (softaes.h:56-112) appended to the words already computed; a word is the
list of its four bytes. -/
def aesKeyWord (ws : List (List U8)) (i : Nat) : List (List U8) :=
  let t := ws.getD (i - 1) []
  let t := if i % 4 = 0 then
      let t := [sbox (t.getD 1 0), sbox (t.getD 2 0), sbox (t.getD 3 0), sbox (t.getD 0 0)]
      [t.getD 0 0 ^^^ rconTable.getD (i / 4) 0, t.getD 1 0, t.getD 2 0, t.getD 3 0]
    else t
  let p := ws.getD (i - 4) []
  ws ++ [[p.getD 0 0 ^^^ t.getD 0 0, p.getD 1 0 ^^^ t.getD 1 0, p.getD 2 0 ^^^ t.getD 2 0, p.getD 3 0 ^^^ t.getD 3 0]]

/-- Byte `k` of a 64-bit word in little-endian memory. -/
def leByte (x : U64) (k : Nat) : U8 := (x >>> (8 * k)).truncate 8

/-- `tinyaes_expand_key` of the 16 key bytes held in two words. -/
def aesExpandKey (k0 k1 : U64) : Nat → U8 := fun n =>
  let first := [[leByte k0 0, leByte k0 1, leByte k0 2, leByte k0 3], [leByte k0 4, leByte k0 5, leByte k0 6, leByte k0 7],
    [leByte k1 0, leByte k1 1, leByte k1 2, leByte k1 3], [leByte k1 4, leByte k1 5, leByte k1 6, leByte k1 7]]
  let ws := ((List.range 40).map (· + 4)).foldl aesKeyWord first
  (ws.getD (n / 4) []).getD (n % 4) 0

/-- The 16 bytes of a counter in memory, as a `state_t`: `memcpy(&state->state, &state->ctr, ..)`
(aesctr.h:80). -/
def ctrToBlk (c : Ctr) : AesBlk := fun i j =>
  let n := i.val * 4 + j.val
  if n < 8 then leByte c.lo n else leByte c.hi (n - 8)

/-- The four bytes of a column as a little-endian number of `n` columns. -/
def le64 (b : Nat → U8) : U64 :=
  (b 7 ++ b 6 ++ b 5 ++ b 4 ++ b 3 ++ b 2 ++ b 1 ++ b 0 : BitVec 64)

/-- The two 64-bit words read back from an encrypted block (aesctr.h:101-102). -/
def blkToCtr (s : AesBlk) : Ctr :=
  let byte (n : Nat) : U8 := s ⟨n / 4 % 4, Nat.mod_lt _ (by decide)⟩ ⟨n % 4, Nat.mod_lt _ (by decide)⟩
  ⟨le64 byte, le64 fun k => byte (k + 8)⟩

/-- `tiny_encrypt` on a counter. -/
def aesEnc (rk : Nat → U8) (c : Ctr) : Ctr := blkToCtr (aesEncrypt rk (ctrToBlk c))

/-- `aesctr_state_t` (aesctr.h:38-45): `seed` is the expanded key (176 bytes), `buf` the eight 64-bit words
of `state`, `offset` a `size_t` in bytes. -/
structure Aes where
  ctr : Fin 4 → Ctr
  seed : Nat → U8
  buf : Nat → U64
  offset : Nat
  has : Bool
  uinteger : U32

/-- Counter update of `aesctr_r` (aesctr.h:94-96) on one counter. -/
def aesAdd4 (c : Ctr) : Ctr :=
  let lo := c.lo + 4
  ⟨lo, c.hi + (if lo < 4 then 1 else 0)⟩

/-- The refill branch of `aesctr_r` (aesctr.h:78-99), portable path. -/
def aesGen (s : Aes) : Aes :=
  { s with
    buf := fun j =>
      let e := aesEnc s.seed (s.ctr ⟨j / 2 % 4, Nat.mod_lt _ (by decide)⟩)
      if j % 2 = 0 then e.lo else e.hi
    ctr := fun i => aesAdd4 (s.ctr i)
    offset := 0 }

/-- `aesctr_r` (aesctr.h:49-110), portable path. -/
def aesNext (s : Aes) : Option (U64 × Aes) :=
  let s := if s.offset ≥ 64 then aesGen s else s
  (read8 8 s.buf s.offset).map fun out => (out, { s with offset := s.offset + 8 })

/-- Counter `i` set by `AESCounter.seed` (aes.pyx:238-243): `int_to_array((counter + i) % 2**128)`. -/
def aesSetCtr (counter : Nat) (i : Nat) : Ctr :=
  let v := (counter + i) % 2 ^ 128
  ⟨BitVec.ofNat 64 v, BitVec.ofNat 64 (v / 2 ^ 64)⟩

/-- `AESCounter.seed(key=key, counter=counter)` after conversion of its arguments (aes.pyx:233-246,
`aesctr_seed_r` aesctr.c:32-99). -/
def aesSeed (old : Aes) (k0 k1 : U64) (counter : Nat) : Aes :=
  { old with
    seed := aesExpandKey k0 k1
    ctr := fun i => aesSetCtr counter i.val
    offset := 64
    has := false
    uinteger := 0 }

/-- First loop of `aesctr_advance` (aesctr.c:174-185) on one counter. -/
def aesAdvAdd (a0 a1 : U64) (c : Ctr) : Ctr :=
  let lo := c.lo + a0
  let hi := c.hi + a1
  ⟨lo, if lo < c.lo then hi + 1 else hi⟩

/-- Second loop of `aesctr_advance` (aesctr.c:187-197) on one counter. -/
def aesAdvSub (c : Ctr) : Ctr :=
  let lo := c.lo - 4
  ⟨lo, if c.lo < lo then c.hi - 1 else c.hi⟩

/-- Forced buffer refill at the start of the advance (aesctr.c:157-162). -/
def aesForce (s : Aes) : Option Aes :=
  if s.offset = 64 then (aesNext s).map fun r => { r.2 with offset := 0 } else some s

/-- `aesctr_advance` (aesctr.c:150-204). -/
def aesAdvance (s : Aes) (d0 d1 d2 : U64) : Option Aes := do
  let s ← aesForce s
  let s := { s with offset := s.offset + 8 * (d0 % 2#64).toNat }
  let a0 := d0 / 2#64 + ((d1 % 2#64) <<< 63)
  let a1 := d1 / 2#64 + ((d2 % 2#64) <<< 63)
  if a0 = 0 ∧ a1 = 0 then some s
  else
    let s := { s with ctr := fun i => aesAdvAdd a0 a1 (s.ctr i) }
    let s := { s with ctr := fun i => aesAdvSub (s.ctr i) }
    let newOffset := s.offset
    let r ← aesNext { s with offset := 64 }
    some { r.2 with offset := newOffset }

/-- `AESCounter.advance` (aes.pyx:407-415). -/
def aesPyAdvance (s : Aes) (delta : Int) : Except PyErr (Option Aes) :=
  if Ints.wrapInt delta 129 = 0 then .ok (some s)
  else
    match steps129 delta with
    | .error e => .error e
    | .ok (d0, d1, d2) => .ok ((aesAdvance s d0 d1 d2).map fun s => { s with has := false, uinteger := 0 })

/-- `AESCounter.jump_inplace` (aes.pyx:305-316). -/
def aesJumpInplace (s : Aes) (iter : Int) : Except PyErr (Option Aes) := aesPyAdvance s (iter * 2 ^ 64)

end Verif
