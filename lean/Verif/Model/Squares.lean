import Verif.Common.Draw
import Verif.Common.Words

/-! The Squares generator and its key generation: randomgen/src/squares/squares.h, randomgen/squares.pyx. -/

namespace Verif

/-- `key` and `counter` of `squares_state_t` (squares.h:6-12); the cached half is `Buf`. -/
structure Squares where
  key : U64
  counter : U64
  deriving DecidableEq, Repr

/-- `x = (x >> 32) | (x << 32)`. -/
def sqSwap (x : U64) : U64 := (x >>> 32) ||| (x <<< 32)

/-- The value of `squares32` as a function of `y` and `key` (squares.h:15-27). -/
def sqMix32 (y key : U64) : U32 :=
  let x := y
  let z := y + key
  let x := sqSwap (x * x + y)
  let x := sqSwap (x * x + z)
  let x := sqSwap (x * x + y)
  ((x * x + z) >>> 32).truncate 32

/-- The value of `squares64` as a function of `y` and `key` (squares.h:29-43). -/
def sqMix64 (y key : U64) : U64 :=
  let x := y
  let z := y + key
  let x := sqSwap (x * x + y)
  let x := sqSwap (x * x + z)
  let x := sqSwap (x * x + y)
  let t := x * x + z
  let x := sqSwap t
  t ^^^ ((x * x + y) >>> 32)

/-- `squares32` (squares.h:14-27). -/
def sqNext32 (s : Squares) : U32 × Squares := (sqMix32 (s.counter * s.key) s.key, { s with counter := s.counter + 1 })
/-- `squares64` (squares.h:29-43). -/
def sqNext64 (s : Squares) : U64 × Squares := (sqMix64 (s.counter * s.key) s.key, { s with counter := s.counter + 1 })

/-- `Squares.advance` (squares.pyx:551-570): `uint64_t delta`; the cached half is dropped. -/
def sqAdvance (b : Buf Squares) (delta : U64) : Buf Squares :=
  ⟨{ b.core with counter := b.core.counter + delta }, false, 0⟩

/-- `step` of `Squares.jumped` (squares.pyx:597). -/
def sqStep : U64 := 11400714819323198485

/-- `Squares.jumped` (squares.pyx:572-608): `none` is the ValueError for `iter <= 0`. -/
def sqJumped (b : Buf Squares) (iter : Int) : Option (Buf Squares) :=
  if iter ≤ 0 then none
  else some ⟨{ b.core with counter := (· + sqStep)^[iter.toNat] b.core.counter }, false, 0⟩

/-! ### Key generation -/

/-- How key generation can fail to return: reading past `random_well`, or not finishing within the fuel given to
the rejection loops (the C loops have no bound). -/
inductive KeyErr | oob | fuel
  deriving DecidableEq, Repr

/-- `_SequenceSampler` (squares.pyx:65-84). -/
structure Sampler where
  drawn : Nat
  loc : Nat
  index : Nat
  words : List U64
  well : U64
  deriving DecidableEq, Repr

/-- `refill` (squares.pyx:86-95); `gs n` is `seed_seq.generate_state(n, dtype=np.uint64)`. Bounds checking is
switched off (squares.pyx:2), so reading past `random_well` is undefined: `oob`. The `int` holding
`randoms_drawm` is taken as unbounded. -/
def samplerRefill (gs : Nat → List U64) (s : Sampler) : Except KeyErr Sampler :=
  match s.words[s.index]? with
  | none => .error .oob
  | some w =>
    let s := { s with well := w, loc := 0, index := s.index + 1 }
    .ok (if s.drawn < s.index then { s with drawn := s.drawn * 2, words := gs (s.drawn * 2) } else s)

/-- `__init__` (squares.pyx:75-84). -/
def samplerInit (gs : Nat → List U64) (initial : Nat) : Except KeyErr Sampler :=
  samplerRefill gs ⟨initial, 0, 0, gs initial, 0⟩

/-- `if self.bit_well_loc + nbits > 64: self.refill()` (squares.pyx:101-102). -/
def samplerReady (gs : Nat → List U64) (nbits : Nat) (s : Sampler) : Except KeyErr Sampler :=
  if s.loc + nbits > 64 then samplerRefill gs s else .ok s

/-- `gen_bits` (squares.pyx:97-106); used with at most 4 bits. -/
def genBits (gs : Nat → List U64) (nbits : Nat) (s : Sampler) : Except KeyErr (U64 × Sampler) := do
  let s ← samplerReady gs nbits s
  pure (s.well &&& BitVec.ofNat 64 (2 ^ nbits - 1), { s with well := s.well >>> nbits, loc := s.loc + nbits })

/-- The rejection loop of `random_inverval` (squares.pyx:126-129). -/
def rejectLoop (gs : Nat → List U64) (bits : Nat) (maxv : U64) : Nat → Sampler → Except KeyErr (U64 × Sampler)
  | 0, _ => .error .fuel
  | f + 1, s => do
    let r ← genBits gs bits s
    if r.1 < maxv then pure r else rejectLoop gs bits maxv f r.2

/-- `random_inverval` (squares.pyx:108-129). -/
def randInterval (gs : Nat → List U64) (fuel : Nat) (maxv : U64) (s : Sampler) : Except KeyErr (U64 × Sampler) :=
  if maxv = 1 then .ok (0, s)
  else if maxv = 2 then genBits gs 1 s
  else rejectLoop gs (if maxv < 4 then 2 else if maxv < 8 then 3 else 4) maxv fuel s

/-- The swap in `shuffle`; an index outside the array is undefined. -/
def swapAt {α : Type} (a : List α) (i j : Nat) : Except KeyErr (List α) :=
  match a[i]?, a[j]? with
  | some x, some y => .ok ((a.set i y).set j x)
  | _, _ => .error .oob

/-- The loop of `shuffle` (squares.pyx:131-143): `k` iterations left, at index `i`. -/
def shuffleLoop {α : Type} (gs : Nat → List U64) (fuel : Nat) : Nat → Nat → List α → Sampler → Except KeyErr (List α × Sampler)
  | 0, _, a, s => .ok (a, s)
  | k + 1, i, a, s => do
    let r ← randInterval gs fuel (BitVec.ofNat 64 (a.length - i)) s
    let a ← swapAt a i (i + r.1.toNat)
    shuffleLoop gs fuel k (i + 1) a r.2

/-- `shuffle` (squares.pyx:131-143). -/
def shuffle {α : Type} (gs : Nat → List U64) (fuel : Nat) (a : List α) (s : Sampler) : Except KeyErr (List α × Sampler) :=
  shuffleLoop gs fuel (a.length - 1) 0 a s

/-- `_reset_words` (squares.pyx:36-39): `WORDS` is 0 … 15. -/
def sqWords : List (BitVec 8) := (List.range 16).map (BitVec.ofNat 8)

/-- The correction of an even first digit (squares.pyx:161-166). -/
def fixFirst (t : List (BitVec 8)) : List (BitVec 8) :=
  if t.getD 0 0 &&& 1 = 0 then
    let old := t.getD 0 0
    (List.range' 1 7).foldl (fun t i => if t.getD i 0 = t.getD 0 0 then t.set i old else t) (t.set 0 (old + 1))
  else t

/-- `out |= <uint64_t> d << (4 * i)`. -/
def putDigit (out : U64) (i : Nat) (d : BitVec 8) : U64 := out ||| (d.setWidth 64 <<< (4 * i))

/-- The loop `while next_value == last_value or next_value == 0` (squares.pyx:181-183), with `next_word`
(squares.pyx:145-147). -/
def nextHigh (gs : Nat → List U64) (last : BitVec 8) : Nat → BitVec 8 → Sampler → Except KeyErr (BitVec 8 × Sampler)
  | 0, _, _ => .error .fuel
  | f + 1, v, s =>
    if v = last ∨ v = 0 then do
      let r ← genBits gs 4 s
      nextHigh gs last f (r.1.truncate 8) r.2
    else .ok (v, s)

/-- The loop over digits 8 to 15 (squares.pyx:180-185). -/
def highDigits (gs : Nat → List U64) (fuel : Nat) : Nat → Nat → BitVec 8 → U64 → Sampler → Except KeyErr (U64 × Sampler)
  | 0, _, _, out, s => .ok (out, s)
  | k + 1, i, last, out, s => do
    let r ← nextHigh gs last fuel 0 s
    highDigits gs fuel k (i + 1) r.1 (putDigit out i r.1) r.2

/-- `generate_key` (squares.pyx:150-187). -/
def generateKey (gs : Nat → List U64) (fuel : Nat) (s : Sampler) : Except KeyErr (U64 × Sampler) := do
  let r ← shuffle gs fuel sqWords s
  let t := fixFirst r.1
  let out := (List.range 8).foldl (fun o i => putDigit o i (t.getD i 0)) 0
  highDigits gs fuel 8 8 (t.getD 7 0) out r.2

/-- The loop `for i in range(start, n): out[i] = generate_key(seq_sampler)` (squares.pyx:287-288). -/
def keysLoop (gs : Nat → List U64) (fuel : Nat) : Nat → Sampler → Except KeyErr (List U64 × Sampler)
  | 0, s => .ok ([], s)
  | k + 1, s => do
    let r ← generateKey gs fuel s
    let q ← keysLoop gs fuel k r.2
    pure (r.1 :: q.1, q.2)

/-- The entries of an array at the sorted first-occurrence indices: `np.unique(out, return_index=True)` and
`index_arr.sort()` (squares.pyx:292-294). -/
def firstSeen (l : List U64) : List U64 := l.foldl (fun acc x => if x ∈ acc then acc else acc ++ [x]) []

/-- The loop `while incomplete` of `generate_keys` (squares.pyx:286-308); `kept` are the keys already in place. The
test-only sentinel that shortens `nunique` is off. -/
def uniqueLoop (gs : Nat → List U64) (fuel : Nat) (unique : Bool) (n : Nat) : Nat → List U64 → Sampler → Except KeyErr (List U64)
  | 0, _, _ => .error .fuel
  | f + 1, kept, s => do
    let r ← keysLoop gs fuel (n - kept.length) s
    let out := kept ++ r.1
    if unique = false then pure out
    else if (firstSeen out).length = n then pure out
    else uniqueLoop gs fuel unique n f (firstSeen out) r.2

/-- `generate_keys` for `n >= 1` (squares.pyx:190-310). -/
def generateKeys (gs : Nat → List U64) (fuel : Nat) (n : Nat) (unique : Bool) : Except KeyErr (List U64) := do
  let s ← samplerInit gs (10 * n)
  uniqueLoop gs fuel unique n fuel [] s

end Verif
