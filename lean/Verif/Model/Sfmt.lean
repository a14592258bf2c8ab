import Verif.Common.Draw

/-! SFMT and dSFMT (randomgen/src/sfmt, randomgen/src/dsfmt, randomgen/sfmt.pyx, randomgen/dsfmt.pyx) with
`SFMT_MEXP = DSFMT_MEXP = 19937`, little endian.

Both generators fill arrays of 128-bit words by the same loops; they differ in the recursion and in the registers the
recursion carries along (the last two words for SFMT, the `lung` for dSFMT). The loops are therefore written once, over
a type `W` of words and a type `R` of registers. Arrays are functions on indices. The `assert`s of the C text
(`sfmt.c:335-337` and the like) are not modelled: the package is compiled with or without `NDEBUG`. -/

namespace Verif

/-- A 128-bit word as four 32-bit lanes: `union W128_T`, sfmt.h:80-116. -/
structure W128 where
  u0 : U32
  u1 : U32
  u2 : U32
  u3 : U32
  deriving DecidableEq, Repr

/-- Lane-wise xor. -/
def W128.xor (a b : W128) : W128 := ⟨a.u0 ^^^ b.u0, a.u1 ^^^ b.u1, a.u2 ^^^ b.u2, a.u3 ^^^ b.u3⟩

/-! ### SFMT: portable recursion -/

def sfmtN : Nat := 156
def sfmtPos1 : Nat := 122

/-- `((uint64_t)hi << 32) | lo` -/
def join32 (hi lo : U32) : U64 := hi.zeroExtend 64 <<< 32 ||| lo.zeroExtend 64

/-- `rshift128`, sfmt-common.h:60-73: right shift by `8 * shift` bits. -/
def rshift128 (x : W128) (shift : Nat) : W128 :=
  let th := join32 x.u3 x.u2
  let tl := join32 x.u1 x.u0
  let oh := th >>> (shift * 8)
  let ol := tl >>> (shift * 8)
  let ol := ol ||| th <<< (64 - shift * 8)
  ⟨ol.truncate 32, (ol >>> 32).truncate 32, oh.truncate 32, (oh >>> 32).truncate 32⟩

/-- `lshift128`, sfmt-common.h:99-112. -/
def lshift128 (x : W128) (shift : Nat) : W128 :=
  let th := join32 x.u3 x.u2
  let tl := join32 x.u1 x.u0
  let oh := th <<< (shift * 8)
  let ol := tl <<< (shift * 8)
  let oh := oh ||| tl >>> (64 - shift * 8)
  ⟨ol.truncate 32, (ol >>> 32).truncate 32, oh.truncate 32, (oh >>> 32).truncate 32⟩

/-- `do_recursion`, sfmt-common.h:140-156, with the constants of sfmt-params19937.h:5-13. -/
def sfmtRec (a b c d : W128) : W128 :=
  let x := lshift128 a 1
  let y := rshift128 c 1
  ⟨a.u0 ^^^ x.u0 ^^^ ((b.u0 >>> 11) &&& 0xdfffffef) ^^^ y.u0 ^^^ (d.u0 <<< 18),
   a.u1 ^^^ x.u1 ^^^ ((b.u1 >>> 11) &&& 0xddfecb7f) ^^^ y.u1 ^^^ (d.u1 <<< 18),
   a.u2 ^^^ x.u2 ^^^ ((b.u2 >>> 11) &&& 0xbffaffff) ^^^ y.u2 ^^^ (d.u2 <<< 18),
   a.u3 ^^^ x.u3 ^^^ ((b.u3 >>> 11) &&& 0xbffffff6) ^^^ y.u3 ^^^ (d.u3 <<< 18)⟩

/-- The recursion together with `r1 = r2; r2 = &array[i]` (sfmt.c:105-110). The pointers are represented by the words
they point to: neither word is overwritten while it is pointed to. -/
def sfmtStep (r : W128 × W128) (a b : W128) : W128 × (W128 × W128) :=
  let z := sfmtRec a b r.1 r.2
  (z, (r.2, z))

/-! ### SFMT: SSE2 recursion -/

/-- `_mm_srli_epi32`: every 32-bit lane shifted right. -/
def mmSrli32 (x : U128) (k : Nat) : U128 :=
  ((x.extractLsb' 96 32 >>> k) ++ (x.extractLsb' 64 32 >>> k) ++ (x.extractLsb' 32 32 >>> k) ++ (x.extractLsb' 0 32 >>> k) : BitVec (32 + 32 + 32 + 32))

/-- `_mm_slli_epi32` -/
def mmSlli32 (x : U128) (k : Nat) : U128 :=
  ((x.extractLsb' 96 32 <<< k) ++ (x.extractLsb' 64 32 <<< k) ++ (x.extractLsb' 32 32 <<< k) ++ (x.extractLsb' 0 32 <<< k) : BitVec (32 + 32 + 32 + 32))

/-- A register loaded from four lanes (little endian). -/
def W128.pack (x : W128) : U128 := (x.u3 ++ x.u2 ++ x.u1 ++ x.u0 : BitVec (32 + 32 + 32 + 32))

/-- `mm_recursion`, sfmt-sse2.h:31-45; `_mm_srli_si128`/`_mm_slli_si128` shift the whole register by bytes. -/
def mmRec (a b c d : U128) : U128 :=
  let y := mmSrli32 b 11
  let z := c >>> (1 * 8)
  let v := mmSlli32 d 18
  let z := z ^^^ a
  let z := z ^^^ v
  let x := a <<< (1 * 8)
  let y := y &&& W128.pack ⟨0xdfffffef, 0xddfecb7f, 0xbffaffff, 0xbffffff6⟩
  let z := z ^^^ x
  let z := z ^^^ y
  z

/-- The same with the two carried registers (sfmt-sse2.h:86-96). -/
def mmStep (r : U128 × U128) (a b : U128) : U128 × (U128 × U128) :=
  let z := mmRec a b r.1 r.2
  (z, (r.2, z))

/-! ### Filling an array -/

section
variable {W R : Type}

/-- Loop state: the array being filled, the registers and the generator's own array. -/
structure Fill (W R : Type) where
  arr : Nat → W
  reg : R
  st : Nat → W

/-- `array[i] = recursion(a, b, registers)` -/
def Fill.put (step : R → W → W → W × R) (f : Fill W R) (i : Nat) (a b : W) : Fill W R :=
  let z := step f.reg a b
  { f with arr := Function.update f.arr i z.1, reg := z.2 }

/-- `gen_rand_array`, sfmt.c:99-134 and sfmt-sse2.h:79-113, and `gen_rand_array_c1o2`, dsfmt.c:140-168: fills
`arr[0..size)` and leaves the last `N` words in the generator's array. -/
def genArray (step : R → W → W → W × R) (N P size : Nat) (arr : Nat → W) (reg : R) (st : Nat → W) : Fill W R :=
  let f : Fill W R := ⟨arr, reg, st⟩
  let f := (List.range (N - P)).foldl (fun f i => f.put step i (f.st i) (f.st (i + P))) f
  let f := (List.range' (N - P) P).foldl (fun f i => f.put step i (f.st i) (f.arr (i + P - N))) f
  let f := (List.range' N (size - N - N)).foldl (fun f i => f.put step i (f.arr (i - N)) (f.arr (i + P - N))) f
  let f := (List.range (2 * N - size)).foldl (fun f j => { f with st := Function.update f.st j (f.arr (j + size - N)) }) f
  (List.range' (N + (size - N - N)) (size - (N + (size - N - N)))).foldl (fun f i =>
    let f := f.put step i (f.arr (i - N)) (f.arr (i + P - N))
    { f with st := Function.update f.st (2 * N - size + (i - (N + (size - N - N)))) (f.arr i) }) f

end

/-- The 64-bit words of a filled array: `(w128_t *)array` seen as `uint64_t[]`. -/
def words64 (arr : Nat → W128) (i : Nat) : U64 :=
  if i % 2 = 0 then join32 (arr (i / 2)).u1 (arr (i / 2)).u0 else join32 (arr (i / 2)).u3 (arr (i / 2)).u2

/-- The part of `sfmt_state_t` (sfmt.h:311-318) used by 64-bit draws; `sfmt_t.idx` is not read by the package. -/
structure Sfmt where
  st : Nat → W128
  buf : Nat → U64
  loc : Int

/-- `sfmt_fill_array64(state, buffered_uint64, SFMT_N64)`, sfmt.c:334-345. The buffer's old content is passed along as
the array's old content. -/
def sfmtFill (s : Sfmt) : Sfmt :=
  let f := genArray sfmtStep sfmtN sfmtPos1 (312 / 2) (fun _ => ⟨0, 0, 0, 0⟩) (s.st (sfmtN - 2), s.st (sfmtN - 1)) s.st
  { s with st := f.st, buf := words64 f.arr }

/-- `sfmt_next_buffer`/`sfmt_next64`, sfmt.h:320-333; a negative location is read outside the buffer: `none`. -/
def sfmtNext64 (s : Sfmt) : Option (U64 × Sfmt) :=
  if s.loc < 312 then
    if 0 ≤ s.loc then some (s.buf s.loc.toNat, { s with loc := s.loc + 1 }) else none
  else
    let s := sfmtFill s
    some (s.buf 0, { s with loc := 1 })

/-- The SSE2 build: the same with `mm_recursion` on packed words. -/
def sfmtFillSse (s : Sfmt) : Sfmt :=
  let unpack := fun (x : U128) => (⟨x.extractLsb' 0 32, x.extractLsb' 32 32, x.extractLsb' 64 32, x.extractLsb' 96 32⟩ : W128)
  let f := genArray mmStep sfmtN sfmtPos1 (312 / 2) (fun _ => 0)
    ((s.st (sfmtN - 2)).pack, (s.st (sfmtN - 1)).pack) (fun i => (s.st i).pack)
  { s with st := fun i => unpack (f.st i), buf := words64 (fun i => unpack (f.arr i)) }

def sfmtNext64Sse (s : Sfmt) : Option (U64 × Sfmt) :=
  if s.loc < 312 then
    if 0 ≤ s.loc then some (s.buf s.loc.toNat, { s with loc := s.loc + 1 }) else none
  else
    let s := sfmtFillSse s
    some (s.buf 0, { s with loc := 1 })

/-! ### SFMT: seeding -/

/-- `func1`, `func2`, sfmt.c:157-169; `ini_func1`, `ini_func2`, dsfmt.c:302-314. -/
def simdFunc1 (x : U32) : U32 := (x ^^^ (x >>> 27)) * 1664525
def simdFunc2 (x : U32) : U32 := (x ^^^ (x >>> 27)) * 1566083941

/-- One step of the first two mixing loops of `init_by_array` (sfmt.c:409-417 and 418-426): `add` is
`init_key[j] + i` or `i`. -/
def simdMix1 (n : Nat) (s : (Nat → U32) × Nat) (k : U32) : (Nat → U32) × Nat :=
  let lag := 11
  let mid := (n - lag) / 2
  let a := s.1
  let i := s.2
  let r := simdFunc1 (a i ^^^ a ((i + mid) % n) ^^^ a ((i + n - 1) % n))
  let a := Function.update a ((i + mid) % n) (a ((i + mid) % n) + r)
  let r := r + (k + BitVec.ofNat 32 i)
  let a := Function.update a ((i + mid + lag) % n) (a ((i + mid + lag) % n) + r)
  let a := Function.update a i r
  (a, (i + 1) % n)

/-- One step of the last loop (sfmt.c:427-435). -/
def simdMix2 (n : Nat) (s : (Nat → U32) × Nat) : (Nat → U32) × Nat :=
  let lag := 11
  let mid := (n - lag) / 2
  let a := s.1
  let i := s.2
  let r := simdFunc2 (a i + a ((i + mid) % n) + a ((i + n - 1) % n))
  let a := Function.update a ((i + mid) % n) (a ((i + mid) % n) ^^^ r)
  let r := r - BitVec.ofNat 32 i
  let a := Function.update a ((i + mid + lag) % n) (a ((i + mid + lag) % n) ^^^ r)
  let a := Function.update a i r
  (a, (i + 1) % n)

/-- `sfmt_init_by_array` up to the period certification (sfmt.c:376-435) and the same part of
`dsfmt_chk_init_by_array` (dsfmt.c:546-611): `n` words of 32 bits, `n ≥ 623` (hence `lag = 11`). -/
def simdInit (n : Nat) (key : List U32) : Nat → U32 :=
  let lag := 11
  let mid := (n - lag) / 2
  let count := (if key.length + 1 > n then key.length + 1 else n) - 1
  let a : Nat → U32 := fun _ => 0x8b8b8b8b
  let r := simdFunc1 (a 0 ^^^ a (mid % n) ^^^ a ((n - 1) % n))
  let a := Function.update a (mid % n) (a (mid % n) + r)
  let r := r + BitVec.ofNat 32 key.length
  let a := Function.update a ((mid + lag) % n) (a ((mid + lag) % n) + r)
  let a := Function.update a 0 r
  let s := key.foldl (simdMix1 n) (a, 1)
  let s := (List.replicate (count - key.length) (0 : U32)).foldl (simdMix1 n) s
  ((simdMix2 n)^[n] s).1

/-- `inner ^= inner >> i` for `i = 16, 8, 4, 2, 1`, then `inner &= 1` (sfmt.c:186-189). -/
def fold32 (x : U32) : U32 :=
  let x := x ^^^ (x >>> 16)
  let x := x ^^^ (x >>> 8)
  let x := x ^^^ (x >>> 4)
  let x := x ^^^ (x >>> 2)
  let x := x ^^^ (x >>> 1)
  x &&& 1

/-- `SFMT_PARITY1 .. SFMT_PARITY4`, sfmt-params19937.h:14-17. -/
def sfmtParity : Nat → U32
  | 0 => 0x00000001
  | 3 => 0x13c9e684
  | _ => 0

/-- The search of sfmt.c:195-203 for the lowest bit `j` of a parity word, from `j` on, `n` bits left. -/
def lowBit (p : U32) : Nat → Nat → Option Nat
  | 0, _ => none
  | n + 1, j => if ((1 : U32) <<< j) &&& p ≠ 0 then some j else lowBit p n (j + 1)

/-- The outer loop of sfmt.c:195-203: the first parity word with a bit set. -/
def firstBit : List Nat → Option (Nat × Nat)
  | [] => none
  | i :: is => match lowBit (sfmtParity i) 32 0 with
    | some j => some (i, j)
    | none => firstBit is

/-- `period_certification`, sfmt.c:175-205, on the state seen as 32-bit words. -/
def sfmtCert (a : Nat → U32) : Nat → U32 :=
  let inner := (0 : U32) ^^^ (a 0 &&& sfmtParity 0) ^^^ (a 1 &&& sfmtParity 1) ^^^ (a 2 &&& sfmtParity 2) ^^^ (a 3 &&& sfmtParity 3)
  if fold32 inner = 1 then a
  else match firstBit [0, 1, 2, 3] with
    | some (i, j) => Function.update a i (a i ^^^ ((1 : U32) <<< j))
    | none => a

/-- 32-bit words seen as 128-bit words. -/
def words128 (a : Nat → U32) (i : Nat) : W128 := ⟨a (4 * i), a (4 * i + 1), a (4 * i + 2), a (4 * i + 3)⟩

/-- `SFMT._seed_from_seq`, sfmt.pyx:137-147, and `_reset_state_variables`: seeding over an old instance. -/
def sfmtSeed (old : Sfmt) (key : List U32) : Sfmt :=
  { old with st := words128 (sfmtCert (simdInit (4 * sfmtN) key)), loc := 312 }

/-! ### dSFMT -/

def dsfmtN : Nat := 191
def dsfmtPos1 : Nat := 117

/-- Two 64-bit lanes: `union W128_T`, dsfmt.h:145-169. -/
structure D128 where
  u0 : U64
  u1 : U64
  deriving DecidableEq, Repr

/-- `do_recursion`, dSFMT-common.h:101-113, constants of dSFMT-params19937.h and `DSFMT_SR` 12 (dSFMT-params.h). -/
def dsfmtStep (lung a b : D128) : D128 × D128 :=
  let t0 := a.u0
  let t1 := a.u1
  let l0 := (t0 <<< 19) ^^^ (lung.u1 >>> 32) ^^^ (lung.u1 <<< 32) ^^^ b.u0
  let l1 := (t1 <<< 19) ^^^ (lung.u0 >>> 32) ^^^ (lung.u0 <<< 32) ^^^ b.u1
  (⟨(l0 >>> 12) ^^^ (l0 &&& 0x000ffafffffffb3f) ^^^ t0, (l1 >>> 12) ^^^ (l1 &&& 0x000ffdfffc90fffd) ^^^ t1⟩, ⟨l0, l1⟩)

/-- `_mm_slli_epi64`, `_mm_srli_epi64`: both 64-bit lanes shifted. -/
def mmSlli64 (x : U128) (k : Nat) : U128 := ((x.extractLsb' 64 64 <<< k) ++ (x.extractLsb' 0 64 <<< k) : BitVec (64 + 64))
def mmSrli64 (x : U128) (k : Nat) : U128 := ((x.extractLsb' 64 64 >>> k) ++ (x.extractLsb' 0 64 >>> k) : BitVec (64 + 64))

/-- `_mm_shuffle_epi32(x, 0x1b)` (`SSE2_SHUFF`, dSFMT-params.h): the four lanes in reverse order. -/
def mmShuf1b (x : U128) : U128 :=
  (x.extractLsb' 0 32 ++ x.extractLsb' 32 32 ++ x.extractLsb' 64 32 ++ x.extractLsb' 96 32 : BitVec (32 + 32 + 32 + 32))

/-- A register loaded from two 64-bit lanes. -/
def D128.pack (x : D128) : U128 := (x.u1 ++ x.u0 : BitVec (64 + 64))

/-- `do_recursion` with SSE2, dSFMT-common.h:77-92. -/
def dsfmtStepSse (u a b : U128) : U128 × U128 :=
  let x := a
  let z := mmSlli64 x 19
  let y := mmShuf1b u
  let z := z ^^^ b
  let y := y ^^^ z
  let v := mmSrli64 y 12
  let w := y &&& D128.pack ⟨0x000ffafffffffb3f, 0x000ffdfffc90fffd⟩
  let v := v ^^^ x
  let v := v ^^^ w
  (v, y)

/-- `dsfmt_state_t`, dsfmt.h:646-650: `status[0..N)`, `status[N]` (the lung), the buffered doubles as bit patterns. -/
structure Dsfmt where
  st : Nat → D128
  lung : D128
  buf : Nat → U64
  loc : Int

/-- The doubles of a filled array, as bit patterns. -/
def wordsD (arr : Nat → D128) (i : Nat) : U64 := if i % 2 = 0 then (arr (i / 2)).u0 else (arr (i / 2)).u1

/-- `dsfmt_fill_array_close1_open2(state, buffered_uniforms, DSFMT_N64)`, dsfmt.c:444-448. -/
def dsfmtFill (s : Dsfmt) : Dsfmt :=
  let f := genArray dsfmtStep dsfmtN dsfmtPos1 (382 / 2) (fun _ => ⟨0, 0⟩) s.lung s.st
  { s with st := f.st, lung := f.reg, buf := wordsD f.arr }

/-- `dsfmt_next_buffer`, dsfmt.h:652-662 (also `dsfmt_next_raw`, dsfmt.h:687-691): the bits of the next double. -/
def dsfmtNext (s : Dsfmt) : Option (U64 × Dsfmt) :=
  if s.loc < 382 then
    if 0 ≤ s.loc then some (s.buf s.loc.toNat, { s with loc := s.loc + 1 }) else none
  else
    let s := dsfmtFill s
    some (s.buf 0, { s with loc := 1 })

/-- `dsfmt_next64`, dsfmt.h:668-677. -/
def dsfmtNext64 (s : Dsfmt) : Option (U64 × Dsfmt) := do
  let (r, s) ← dsfmtNext s
  let out := (r >>> 16) <<< 32
  let (r, s) ← dsfmtNext s
  some (out ||| ((r >>> 16) &&& 0xffffffff), s)

/-- `dsfmt_next32`, dsfmt.h:679-685. -/
def dsfmtNext32 (s : Dsfmt) : Option (U32 × Dsfmt) := do
  let (r, s) ← dsfmtNext s
  some (((r >>> 16) &&& 0xffffffff).truncate 32, s)

/-- The value of the finite normal binary64 number with bits `x` (sign, 11 exponent bits, 52 fraction bits), as a
fraction over `2^1074`; other bit patterns (zero, subnormal, infinite, not a number) are `none`. -/
def dblVal (x : U64) : Option Int :=
  let e := ((x >>> 52) &&& 0x7ff).toNat
  if e = 0 ∨ e = 2047 then none
  else
    let m : Int := (((x &&& 0xfffffffffffff).toNat + 2 ^ 52) * 2 ^ (e - 1) : Nat)
    some (if x.getLsbD 63 then -m else m)

/-- `initial_mask`, dsfmt.c:321-329: `DSFMT_LOW_MASK` 0x000FFFFFFFFFFFFF, `DSFMT_HIGH_CONST` 0x3FF0000000000000
(dSFMT-params.h). -/
def dsfmtMask (x : D128) : D128 :=
  ⟨(x.u0 &&& 0x000FFFFFFFFFFFFF) ||| 0x3FF0000000000000, (x.u1 &&& 0x000FFFFFFFFFFFFF) ||| 0x3FF0000000000000⟩

/-- `inner ^= inner >> i` for `i = 32, 16, 8, 4, 2, 1`, then `inner &= 1` (dsfmt.c:350-353). -/
def fold64 (x : U64) : U64 :=
  let x := x ^^^ (x >>> 32)
  let x := x ^^^ (x >>> 16)
  let x := x ^^^ (x >>> 8)
  let x := x ^^^ (x >>> 4)
  let x := x ^^^ (x >>> 2)
  let x := x ^^^ (x >>> 1)
  x &&& 1

/-- `period_certification`, dsfmt.c:335-374 (`DSFMT_PCV2` is odd). -/
def dsfmtCert (lung : D128) : D128 :=
  let t0 := lung.u0 ^^^ 0x90014964b32f4329
  let t1 := lung.u1 ^^^ 0x3b8d12ac548a7c7a
  let inner := t0 &&& 0x3d84e1ac0dc82880
  let inner := inner ^^^ (t1 &&& 0x0000000000000001)
  if fold64 inner = 1 then lung else ⟨lung.u0, lung.u1 ^^^ 1⟩

/-- 32-bit words seen as two 64-bit lanes. -/
def wordsD128 (a : Nat → U32) (i : Nat) : D128 := ⟨join32 (a (4 * i + 1)) (a (4 * i)), join32 (a (4 * i + 3)) (a (4 * i + 2))⟩

/-- `DSFMT._seed_from_seq`, dsfmt.pyx:138-147, and `dsfmt_chk_init_by_array`, dsfmt.c:546-615. -/
def dsfmtSeed (old : Dsfmt) (key : List U32) : Dsfmt :=
  let w := wordsD128 (simdInit (4 * (dsfmtN + 1)) key)
  { old with st := fun i => dsfmtMask (w i), lung := dsfmtCert (w dsfmtN), loc := 382 }

/-! ### Jumping -/

/-- The working state of `SFMT_jump`/`dSFMT_jump`: array, registers kept in the state (the lung of dSFMT), position in
128-bit words. -/
structure Ring (W R : Type) where
  st : Nat → W
  reg : R
  pos : Nat

section
variable {W R L : Type}

/-- `next_state`, sfmt-jump.c:79-92 and dSFMT-jump.c:109-120. `load` reads the registers of the recursion, `keep`
writes back those that are part of the state. -/
def ringNext (step : L → W → W → W × L) (load : (Nat → W) → R → Nat → L) (keep : L → R → R) (N P : Nat) (s : Ring W R) : Ring W R :=
  let i := s.pos % N
  let z := step (load s.st s.reg i) (s.st i) (s.st ((i + P) % N))
  ⟨Function.update s.st i z.1, keep z.2 s.reg, s.pos + 1⟩

/-- `add`, sfmt-jump.c:54-71 and dSFMT-jump.c:84-101, into a state at position 0. -/
def ringAdd (addW : W → W → W) (addR : R → R → R) (N : Nat) (dest src : Ring W R) : Ring W R :=
  let diff := (src.pos - dest.pos + N) % N
  let st := (List.range (N - diff)).foldl (fun k i => Function.update k i (addW (k i) (src.st (i + diff)))) dest.st
  let st := (List.range' (N - diff) diff).foldl (fun k i => Function.update k i (addW (k i) (src.st (i + diff - N)))) st
  ⟨st, addR dest.reg src.reg, dest.pos⟩

/-- The loop of `SFMT_jump` (sfmt-jump.c:105-121) and `dSFMT_jump` (dSFMT-jump.c:159-175) over the coefficients of the
jump polynomial, lowest first: (generator, sum). -/
def ringJump (nxt : Ring W R → Ring W R) (add : Ring W R → Ring W R → Ring W R) (cs : List Bool) (s : Ring W R × Ring W R) : Ring W R × Ring W R :=
  cs.foldl (fun s c => (nxt s.1, if c then add s.2 s.1 else s.2)) s

end

/-- The coefficients of a jump string: `digits` hexadecimal digits, four coefficients each, lowest first. The string is
given as the number whose hexadecimal digits are the string read backwards. -/
def jumpCoeffs (poly digits : Nat) : List Bool := (List.range (4 * digits)).map poly.testBit

/-- `SFMT_jump`, sfmt-jump.c:98-124; `sfmt->idx = SFMT_N32` is position `N`. -/
def sfmtJump (cs : List Bool) (st : Nat → W128) : Nat → W128 :=
  let nxt := ringNext sfmtStep (fun st (_ : Unit) i => (st ((i + sfmtN - 2) % sfmtN), st ((i + sfmtN - 1) % sfmtN))) (fun _ _ => ()) sfmtN sfmtPos1
  (ringJump nxt (ringAdd W128.xor (fun _ _ => ()) sfmtN) cs (⟨st, (), sfmtN⟩, ⟨fun _ => ⟨0, 0, 0, 0⟩, (), 0⟩)).2.st

/-- `dSFMT_jump`, dSFMT-jump.c:149-179; `add_fix` does nothing for 19937, which is not in its table. The position is
reduced modulo `N` by the C code at every step; it is only used modulo `N`. -/
def dsfmtJump (cs : List Bool) (st : Nat → D128) (lung : D128) : (Nat → D128) × D128 :=
  let xor := fun (a b : D128) => (⟨a.u0 ^^^ b.u0, a.u1 ^^^ b.u1⟩ : D128)
  let nxt := ringNext dsfmtStep (fun _ l _ => l) (fun l _ => l) dsfmtN dsfmtPos1
  let r := (ringJump nxt (ringAdd xor xor dsfmtN) cs (⟨st, lung, dsfmtN⟩, ⟨fun _ => ⟨0, 0⟩, ⟨0, 0⟩, 0⟩)).2
  (r.st, r.reg)

/-! ### Several jumps -/

/-- `sfmt_jump_n` (sfmt.c:443-464), `dsfmt_jump_n` (dsfmt.c:635-656) and `mt19937_jump_n` (mt19937.c:134-166): the
exponents `e` of the jump tables `poly_e` used, in order. -/
def jumpPlan (remaining : Nat) : List Nat :=
  if remaining = 0 then []
  else if remaining ≥ 65536 then 144 :: jumpPlan (remaining - 65536)
  else if remaining ≥ 4096 then 140 :: jumpPlan (remaining - 4096)
  else if remaining ≥ 256 then 136 :: jumpPlan (remaining - 256)
  else if remaining ≥ 16 then 132 :: jumpPlan (remaining - 16)
  else 128 :: jumpPlan (remaining - 1)
termination_by remaining
decreasing_by all_goals omega

/-- `sfmt_jump_n` and its companions with the table jumps `J e`. -/
def jumpN {σ : Type} (J : Nat → σ → σ) (count : Nat) (s : σ) : σ := (jumpPlan count).foldl (fun s e => J e s) s

/-- `jump_inplace` (sfmt.pyx:173-188, dsfmt.pyx:173-188, mt19937.pyx:171-184): a negative number is refused; the
number is converted to a C `int`, which refuses what does not fit. (MT19937 converts first, so numbers below `-2^31`
raise the other exception.) -/
def jumpInplace {σ : Type} (J : Nat → σ → σ) (iter : Int) (s : σ) : Except PyErr σ :=
  if iter < 0 then .error .valueError
  else if iter ≥ 2 ^ 31 then .error .overflowError
  else .ok (jumpN J iter.toNat s)

end Verif
