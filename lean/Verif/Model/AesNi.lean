import Verif.Model.BlockCtr
import Verif.Common.Fips197

/-! The AES-NI path of AESCounter (randomgen/src/aesctr/aesctr.h:52-76, aesctr.c:21-74) and the process-wide flag
that selects it (aesctr.c:6-19, aes.pyx:154-180).

The instructions are modelled after the Intel manual on the 16 bytes of a register: `x i j` is byte `j` of 32-bit
lane `i`, which is byte `4i + j` in memory. The transformations inside the instructions are those of FIPS 197
(`Verif.Fips197`), not the tables and loops of softaes.h. -/

namespace Verif

/-- A 128-bit register: `x i j` is byte `j` (least significant first) of 32-bit lane `i`. -/
abbrev M128 := Fin 4 → Fin 4 → U8

/-- `_mm_xor_si128`. -/
def mmXor (a b : M128) : M128 := fun i j => a i j ^^^ b i j

/-- `_mm_slli_si128(a, 4)`: shift left by four bytes, filling with zeros. -/
def mmSlli4 (a : M128) : M128 := fun i j => match i with | 0 => 0 | 1 => a 0 j | 2 => a 1 j | 3 => a 2 j

/-- `_mm_shuffle_epi32(a, _MM_SHUFFLE(3, 3, 3, 3))`: lane 3 in every lane. -/
def mmShuffle3333 (a : M128) : M128 := fun _ j => a 3 j

/-- `_mm_aeskeygenassist_si128(a, rcon)`: `SubWord(X1)`, `RotWord(SubWord(X1)) ^ rcon`, `SubWord(X3)`,
`RotWord(SubWord(X3)) ^ rcon`; `RotWord` moves byte 1 to byte 0. -/
def mmKeygenAssist (a : M128) (rcon : U8) : M128 := fun i j =>
  let x : Fin 4 → U8 := match i with | 0 => a 1 | 1 => a 1 | 2 => a 3 | 3 => a 3
  let sub : Fin 4 → U8 := fun j => Fips197.subByte (x j)
  match i with
  | 0 => sub j
  | 2 => sub j
  | _ => sub (j + 1) ^^^ (if j = 0 then rcon else 0)

/-- A transformation of the FIPS 197 state applied to a register: lane `i` is column `i`, byte `j` row `j`. -/
def mmState (f : Fips197.State → Fips197.State) (a : M128) : M128 := fun i j => f (fun r c => a c r) j i

/-- `_mm_aesenclast_si128(a, k)`: ShiftRows, SubBytes, then the round key. -/
def mmAesencLast (a k : M128) : M128 := mmXor (mmState (fun s => Fips197.subBytes (Fips197.shiftRows s)) a) k

/-- `_mm_aesenc_si128(a, k)`: ShiftRows, SubBytes, MixColumns, then the round key. -/
def mmAesenc (a k : M128) : M128 :=
  mmXor (mmState (fun s => Fips197.mixColumns (Fips197.subBytes (Fips197.shiftRows s))) a) k

/-- `_mm_add_epi64`, on the `u64` view of the counter. -/
def mmAddCtr (a b : Ctr) : Ctr := ⟨a.lo + b.lo, a.hi + b.hi⟩

/-- `state->seed[r].m128`: round key `r` of the 176 bytes. -/
def seedReg (rk : Nat → U8) (r : Nat) : M128 := fun i j => rk (16 * r + 4 * i + j)

/-- The loop over rounds of the AES-NI branch (aesctr.h:59-64), one block. -/
def niRounds (rk : Nat → U8) (w : M128) : Nat → M128
  | 0 => w
  | r + 1 => mmAesenc (niRounds rk w r) (seedReg rk (r + 1))

/-- One block of the AES-NI branch (aesctr.h:55-64, 73-75). -/
def niBlock (rk : Nat → U8) (c : M128) : M128 :=
  mmAesencLast (niRounds rk (mmXor c (seedReg rk 0)) 9) (seedReg rk 10)

/-- The counter update of the AES-NI branch (aesctr.h:66-72): `_mm_set_epi64x(0, 4)` is `⟨4, 0⟩`. -/
def niAdd4 (c : Ctr) : Ctr :=
  let d := mmAddCtr c ⟨4, 0⟩
  if d.lo < 4 then mmAddCtr d ⟨0, 1⟩ else d

/-- The refill of `aesctr_r` with `RANDOMGEN_USE_AESNI` set (aesctr.h:53-76). -/
def niGen (s : Aes) : Aes :=
  { s with
    buf := fun j =>
      let e := blkToCtr (niBlock s.seed (ctrToBlk (s.ctr ⟨j / 2 % 4, Nat.mod_lt _ (by decide)⟩)))
      if j % 2 = 0 then e.lo else e.hi
    ctr := fun i => niAdd4 (s.ctr i)
    offset := 0 }

/-- `AES_ROUND(rcon, index)` (aesctr.c:21-30): the next round key. -/
def niKeyRound (k : M128) (rcon : U8) : M128 :=
  let k2 := mmKeygenAssist k rcon
  let k := mmXor k (mmSlli4 k)
  let k := mmXor k (mmSlli4 k)
  let k := mmXor k (mmSlli4 k)
  mmXor k (mmShuffle3333 k2)

/-- The round keys written by the AES-NI branch of `aesctr_seed_r` (aesctr.c:47-69), in order: the immediates of
the ten calls of `AES_ROUND`. -/
def niKeys (k : M128) : List M128 :=
  [0x01, 0x02, 0x04, 0x08, 0x10, 0x20, 0x40, 0x80, 0x1b, 0x36].scanl niKeyRound k

/-- The 176 bytes of `state->seed` after the AES-NI branch; `_mm_set_epi64x(seed[1], seed[0])` is the register
whose memory image is the two words in order. -/
def niExpandKey (k0 k1 : U64) : Nat → U8 := fun n =>
  (niKeys (ctrToBlk ⟨k0, k1⟩)).getD (n / 16) (fun _ _ => 0) ⟨n / 4 % 4, Nat.mod_lt _ (by decide)⟩
    ⟨n % 4, Nat.mod_lt _ (by decide)⟩

/-! ### The process-wide flag -/

/-- What the process fixes once: whether the extension was compiled with `__AES__`, and the bit the CPU reports. -/
structure AesHost where
  compiled : Bool
  cpu : Bool

/-- The value `aes_capable` (aesctr.c:8-19) returns and stores in `RANDOMGEN_USE_AESNI`. -/
def AesHost.capable (h : AesHost) : Bool := h.compiled && h.cpu

/-- `use_aesni` setter (aes.pyx:174-179): the new flag and whether `ValueError` was raised. `aes_capable()` is called
first, so the flag is overwritten even if the setter then raises. -/
def useAesni (h : AesHost) (value : Bool) : Bool × Bool :=
  let flag := h.capable
  if value && !h.capable then (flag, true) else (value, false)

/-- `aesctr_r` (aesctr.h:49-110) under the value of the flag. With the flag set on a build without `__AES__` the
whole refill is compiled out and the read is past the buffer: undefined behaviour, `none`. With the flag set on
a CPU without the instructions the process is killed: also `none`. -/
def aesNextF (h : AesHost) (flag : Bool) (s : Aes) : Option (U64 × Aes) :=
  if s.offset ≥ 64 then
    if flag then
      if h.compiled && h.cpu then
        let s := niGen s
        (read8 8 s.buf s.offset).map fun out => (out, { s with offset := s.offset + 8 })
      else none
    else
      let s := aesGen s
      (read8 8 s.buf s.offset).map fun out => (out, { s with offset := s.offset + 8 })
  else (read8 8 s.buf s.offset).map fun out => (out, { s with offset := s.offset + 8 })

/-- `AESCounter.seed(key=key, counter=counter)`: `aesctr_seed_r` (aesctr.c:32-99) calls `aes_capable()` and takes
the branch the result selects; the counters are then overwritten (aes.pyx:238-246). Returns the flag it leaves. The AES-NI
branch is compiled with `__AES__` only and kills the process on a CPU without the instructions: `none`. -/
def aesSeedF (h : AesHost) (old : Aes) (k0 k1 : U64) (counter : Nat) : Option (Bool × Aes) :=
  let flag := h.capable
  let key := if flag then if h.compiled && h.cpu then some (niExpandKey k0 k1) else none else some (aesExpandKey k0 k1)
  key.map fun seed => (flag, { old with
    seed := seed
    ctr := fun i => aesSetCtr counter i.val
    offset := 64
    has := false
    uinteger := 0 })

/-- What a program does with AES generators: `seed` creates or reseeds generator `g`, `next` draws from it, `toggle`
assigns `use_aesni` on any generator. Generators are numbered. -/
inductive AesOp
  | seed (g : Nat) (k0 k1 : U64) (counter : Nat)
  | next (g : Nat)
  | toggle (value : Bool)

/-- The process: the flag, and the generators. -/
structure AesProc where
  flag : Bool
  gens : Nat → Aes

/-- One operation; the result of a draw, `none` for the other operations. The outer `Option` is undefined
behaviour. -/
def aesOp (h : AesHost) (p : AesProc) : AesOp → Option (Option U64 × AesProc)
  | .seed g k0 k1 c => (aesSeedF h (p.gens g) k0 k1 c).map fun r => (none, ⟨r.1, Function.update p.gens g r.2⟩)
  | .next g => (aesNextF h p.flag (p.gens g)).map fun r => (some r.1, { p with gens := Function.update p.gens g r.2 })
  | .toggle v => some (none, { p with flag := (useAesni h v).1 })

/-- A program: the values of its draws, in order. -/
def aesRun (h : AesHost) (p : AesProc) : List AesOp → Option (List U64 × AesProc)
  | [] => some ([], p)
  | o :: os => do
    let r ← aesOp h p o
    let t ← aesRun h r.2 os
    some (r.1.toList ++ t.1, t.2)

end Verif
