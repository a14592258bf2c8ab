import Verif.Model.BlockCtr
import Verif.Model.Sfmt
import Batteries.Data.BitVec

/-! The SSSE3 path of SPECK128 (randomgen/src/speck-128/speck-128-sse.h, `SPECK_UNROLL` 12). -/

namespace Verif

/-- `_mm_shuffle_epi8`: byte `i` of the result is zero if bit 7 of byte `i` of the mask is set, and otherwise the byte of
`x` selected by the low four bits of byte `i` of the mask. -/
def mmShuffle8 (x m : U128) : U128 := BitVec.ofFnLE fun i : Fin 128 =>
  let b := m.extractLsb' (8 * (i.val / 8)) 8
  if b.getLsbD 7 then false else x.getLsbD (8 * (b &&& 15).toNat + i.val % 8)

/-- `_mm_set_epi64x(hi, lo)` -/
def mmSet64 (hi lo : U64) : U128 := (hi ++ lo : BitVec (64 + 64))

/-- `_mm_unpacklo_epi64(a, b)`: the low halves, that of `a` first. -/
def mmUnpackLo (a b : U128) : U128 := mmSet64 (b.extractLsb' 0 64) (a.extractLsb' 0 64)
/-- `_mm_unpackhi_epi64(a, b)` -/
def mmUnpackHi (a b : U128) : U128 := mmSet64 (b.extractLsb' 64 64) (a.extractLsb' 64 64)

/-- `_mm_add_epi64`: both halves added without carry between them. -/
def mmAdd64 (a b : U128) : U128 := mmSet64 (a.extractLsb' 64 64 + b.extractLsb' 64 64) (a.extractLsb' 0 64 + b.extractLsb' 0 64)

/-- `ROR8`, speck-128-sse.h:23-24. -/
def sseRor8 (x : U128) : U128 := mmShuffle8 x (mmSet64 0x080f0e0d0c0b0a09 0x0007060504030201)

/-- `ROL`, speck-128-sse.h:25. -/
def sseRol (x : U128) (r : Nat) : U128 := mmSlli64 x r ^^^ mmSrli64 x (64 - r)

/-- One of the three pairs of registers in `Rx6` (speck-128-sse.h:37-43); the round key holds the same word twice
(speck-128.h:51-64). -/
def sseRound (k : U64) (p : U128 × U128) : U128 × U128 :=
  let (X, Y) := p
  let X := mmAdd64 (sseRor8 X) Y
  let X := X ^^^ mmSet64 k k
  let Y := sseRol Y 3
  let Y := Y ^^^ X
  (X, Y)

/-- The round loop of `speck_128x256_encrypt_sse` (speck-128-sse.h:117-134) on one pair of registers. -/
def sseRounds (rk : Nat → U64) : Nat → U128 × U128 → U128 × U128
  | 0, p => p
  | n + 1, p => sseRound (rk n) (sseRounds rk n p)

/-- `LOAD`, rounds and `STORE` (speck-128-sse.h:73-115) on two neighbouring blocks. -/
def ssePair (rk : Nat → U64) (n : Nat) (c d : Ctr) : U128 × U128 :=
  let R := mmSet64 c.hi c.lo
  let S := mmSet64 d.hi d.lo
  let p := sseRounds rk n (mmUnpackHi R S, mmUnpackLo R S)
  (mmUnpackLo p.2 p.1, mmUnpackHi p.2 p.1)

/-- `generate_block_ssse3` (speck-128-sse.h:136-143). -/
def speckGenSse (s : Speck) : Speck :=
  { s with
    buf := fun j =>
      let i := j / 4 % 3
      let p := ssePair s.rk s.rounds.toNat (s.ctr ⟨2 * i % 6, Nat.mod_lt _ (by decide)⟩) (s.ctr ⟨(2 * i + 1) % 6, Nat.mod_lt _ (by decide)⟩)
      let w := if j / 2 % 2 = 0 then p.1 else p.2
      if j % 2 = 0 then w.extractLsb' 0 64 else w.extractLsb' 64 64
    ctr := fun i => speckAdd6 (s.ctr i)
    offset := 0 }

/-- `speck_next64` (speck-128.h:105-122) with `RANDOMGEN_USE_SSE41 == 1`. -/
def speckNextSse (s : Speck) : Option (U64 × Speck) :=
  let s := if s.offset = 96 then speckGenSse s else s
  (read8 12 s.buf s.offset).map fun out => (out, { s with offset := s.offset + 8 })

end Verif
