import Verif.Common.Draw
import Mathlib.Logic.Function.Basic

/-! MT19937 (randomgen/src/mt19937/mt19937.c, mt19937.h, mt19937-jump.c) and MT64 (randomgen/src/mt64/mt64.c, mt64.h).

The state array of length `N` is a function on indices; only indices below `N` are ever read or written by the
functions below, except through the position, which is checked where it is used. -/

namespace Verif

/-- The numbers of the recurrence: `N`, `M`, the masks and `MATRIX_A` (mt19937.h:8-12, mt64.h:61-65). -/
structure MtPar (w : Nat) where
  N : Nat
  M : Nat
  upper : BitVec w
  lower : BitVec w
  a : BitVec w
  hM : 0 < M ∧ M + 1 < N

/-- mt19937.h:8-12 -/
def mt32 : MtPar 32 := ⟨624, 397, 0x80000000, 0x7fffffff, 0x9908b0df, by decide⟩
/-- mt64.h:61-65 -/
def mt64 : MtPar 64 := ⟨312, 156, 0xFFFFFFFF80000000, 0x7FFFFFFF, 0xB5026F5AA96619E9, by decide⟩

/-- An array with the next read position (`mt19937_state_t`, `mt64_state_t`). -/
structure Mt (w : Nat) where
  key : Nat → BitVec w
  pos : Int

/-- `key[i] = key[src] ^ (y >> 1) ^ (-(y & 1) & MATRIX_A)` with `y = (key[i] & UPPER_MASK) | (key[nxt] & LOWER_MASK)`
(mt19937.c:100-101); MT64 looks the last term up in `mag01[y & 1]` (mt64.c:119-120). -/
def mtSet {w : Nat} (P : MtPar w) (k : Nat → BitVec w) (i nxt src : Nat) : Nat → BitVec w :=
  let y := (k i &&& P.upper) ||| (k nxt &&& P.lower)
  Function.update k i (k src ^^^ (y >>> 1) ^^^ (-(y &&& 1) &&& P.a))

/-- `mt19937_gen` (mt19937.c:93-113), `mt64_gen` (mt64.c:108-132) after the check of the seed. -/
def mtGen {w : Nat} (P : MtPar w) (k : Nat → BitVec w) : Nat → BitVec w :=
  let k := (List.range (P.N - P.M)).foldl (fun k i => mtSet P k i (i + 1) (i + P.M)) k
  let k := (List.range' (P.N - P.M) (P.M - 1)).foldl (fun k i => mtSet P k i (i + 1) (i + P.M - P.N)) k
  mtSet P k (P.N - 1) 0 (P.M - 1)

/-- Tempering of `mt19937_next` (mt19937.h:33-36). -/
def temper32 (y : U32) : U32 :=
  let y := y ^^^ (y >>> 11)
  let y := y ^^^ ((y <<< 7) &&& 0x9d2c5680)
  let y := y ^^^ ((y <<< 15) &&& 0xefc60000)
  y ^^^ (y >>> 18)

/-- Tempering of `mt64_next` (mt64.h:97-100). -/
def temper64 (x : U64) : U64 :=
  let x := x ^^^ ((x >>> 29) &&& 0x5555555555555555)
  let x := x ^^^ ((x <<< 17) &&& 0x71D67FFFEDA60000)
  let x := x ^^^ ((x <<< 37) &&& 0xFFF7EEE000000000)
  x ^^^ (x >>> 43)

/-- `y = key[pos++]` and the tempering `t`; a position outside the array is undefined: `none`. -/
def mtRead {w : Nat} (P : MtPar w) (t : BitVec w → BitVec w) (s : Mt w) : Option (BitVec w × Mt w) :=
  if 0 ≤ s.pos ∧ s.pos < P.N then some (t (s.key s.pos.toNat), { s with pos := s.pos + 1 }) else none

/-- `mt19937_next` (mt19937.h:23-39). -/
def mtNext32 (s : Mt 32) : Option (U32 × Mt 32) :=
  mtRead mt32 temper32 (if s.pos = mt32.N then ⟨mtGen mt32 s.key, 0⟩ else s)

/-- Knuth's filling of the array: `mt19937_seed` (mt19937.c:5-17), `init_genrand` (mt19937.c:20-39), `mt64_seed`
(mt64.c:60-67). -/
def mtKnuth {w : Nat} (P : MtPar w) (mult : BitVec w) (sh : Nat) (seed : BitVec w) (k : Nat → BitVec w) : Mt w :=
  ⟨(List.range' 1 (P.N - 1)).foldl (fun k i =>
      Function.update k i (mult * (k (i - 1) ^^^ (k (i - 1) >>> sh)) + BitVec.ofNat w i)) (Function.update k 0 seed),
    P.N⟩

/-- `mt64_next` (mt64.h:89-103), with the default seed of `mt64_gen` (mt64.c:115-116). -/
def mtNext64 (s : Mt 64) : Option (U64 × Mt 64) :=
  mtRead mt64 temper64
    (if mt64.N ≤ s.pos then
      ⟨mtGen mt64 (if s.pos = mt64.N + 1 then (mtKnuth mt64 6364136223846793005 62 5489 s.key).key else s.key), 0⟩
    else s)

/-! ### Seeding by array -/

/-- The variables `mt`, `i`, `j` of `mt19937_init_by_array` / `mt64_init_by_array`. -/
structure MtInit (w : Nat) where
  k : Nat → BitVec w
  i : Nat
  j : Nat

/-- `i++; if (i >= N) { mt[0] = mt[N - 1]; i = 1; }` -/
def mtWrap {w : Nat} (P : MtPar w) (s : MtInit w) : MtInit w :=
  if P.N ≤ s.i + 1 then { s with k := Function.update s.k 0 (s.k (P.N - 1)), i := 1 } else { s with i := s.i + 1 }

/-- First loop body (mt19937.c:58-76, mt64.c:80-92). -/
def mtInit1 {w : Nat} (P : MtPar w) (c : BitVec w) (sh : Nat) (key : List (BitVec w)) (s : MtInit w) : MtInit w :=
  let v := (s.k s.i ^^^ ((s.k (s.i - 1) ^^^ (s.k (s.i - 1) >>> sh)) * c)) + key.getD s.j 0 + BitVec.ofNat w s.j
  let s := mtWrap P { s with k := Function.update s.k s.i v }
  { s with j := if key.length ≤ s.j + 1 then 0 else s.j + 1 }

/-- Second loop body (mt19937.c:77-88, mt64.c:93-102). -/
def mtInit2 {w : Nat} (P : MtPar w) (c : BitVec w) (sh : Nat) (s : MtInit w) : MtInit w :=
  let v := (s.k s.i ^^^ ((s.k (s.i - 1) ^^^ (s.k (s.i - 1) >>> sh)) * c)) - BitVec.ofNat w s.i
  mtWrap P { s with k := Function.update s.k s.i v }

/-- `init_by_array` (mt19937.c:46-91, mt64.c:72-105) for a nonempty `init_key`. -/
def mtInitArray {w : Nat} (P : MtPar w) (knuth c1 c2 : BitVec w) (sh : Nat) (msb : BitVec w) (key : List (BitVec w))
    (old : Nat → BitVec w) : Mt w :=
  let s0 := mtKnuth P knuth sh 19650218 old
  let s1 := (mtInit1 P c1 sh key)^[max P.N key.length] ⟨s0.key, 1, 0⟩
  let s2 := (mtInit2 P c2 sh)^[P.N - 1] s1
  ⟨Function.update s2.k 0 msb, s0.pos⟩

/-- `mt19937_init_by_array` (mt19937.c:46-91). -/
def mtSeed32 (key : List U32) (old : Nat → U32) : Mt 32 :=
  mtInitArray mt32 1812433253 1664525 1566083941 30 0x80000000 key old

/-- `mt64_init_by_array` (mt64.c:72-105). -/
def mtSeed64 (key : List U64) (old : Nat → U64) : Mt 64 :=
  mtInitArray mt64 6364136223846793005 3935559000370003845 2862933555777941757 62 ((1 : U64) <<< 63) key old

/-- `_seed_from_seq_numpy_compat` (mt19937.pyx:138-145): `val` has 624 words, the loop leaves `i = 623`. -/
def mtSeedNumpy (val : List U32) (old : Nat → U32) : Mt 32 :=
  ⟨(List.range' 1 623).foldl (fun k i => Function.update k i (val.getD i 0)) (Function.update old 0 0x80000000), 623⟩

/-! ### Jumping -/

/-- `gen_next` (mt19937-jump.c:50-75): one word of the array is renewed in place. Positions from `N` on leave the
state alone; negative ones do not reach this function (`mtJumpState`). -/
def mtStep {w : Nat} (P : MtPar w) (s : Mt w) : Mt w :=
  if 0 ≤ s.pos ∧ s.pos < P.N - P.M then
    ⟨mtSet P s.key s.pos.toNat (s.pos.toNat + 1) (s.pos.toNat + P.M), s.pos + 1⟩
  else if 0 ≤ s.pos ∧ s.pos < P.N - 1 then
    ⟨mtSet P s.key s.pos.toNat (s.pos.toNat + 1) (s.pos.toNat + P.M - P.N), s.pos + 1⟩
  else if s.pos = P.N - 1 then ⟨mtSet P s.key (P.N - 1) 0 (P.M - 1), 0⟩
  else s

/-- `add_state` (mt19937-jump.c:77-99) for positions in `0..N-1`: word `(i + pt1) mod N` of the first array is
xored with word `(i + pt2) mod N` of the second. The three index loops of the C text, written out for each of the two
orders of `pt1`, `pt2`. -/
def mtAdd {w : Nat} (P : MtPar w) (s t : Mt w) : Mt w :=
  let p1 := s.pos.toNat
  let p2 := t.pos.toNat
  let x := fun (k : Nat → BitVec w) (i j : Nat) => Function.update k i (k i ^^^ t.key j)
  if p1 ≤ p2 then
    let k := (List.range (P.N - p2)).foldl (fun k i => x k (i + p1) (i + p2)) s.key
    let k := (List.range' (P.N - p2) (p2 - p1)).foldl (fun k i => x k (i + p1) (i + p2 - P.N)) k
    let k := (List.range' (P.N - p1) p1).foldl (fun k i => x k (i + p1 - P.N) (i + p2 - P.N)) k
    ⟨k, s.pos⟩
  else
    let k := (List.range (P.N - p1)).foldl (fun k i => x k (i + p1) (i + p2)) s.key
    let k := (List.range' (P.N - p1) (p1 - p2)).foldl (fun k i => x k (i + p1 - P.N) (i + p2)) k
    let k := (List.range' (P.N - p2) p2).foldl (fun k i => x k (i + p1 - P.N) (i + p2 - P.N)) k
    ⟨k, s.pos⟩

/-- The loop of `horner1` (mt19937-jump.c:112-129), from the coefficient below the leading one down to 0: `cs` lists
the remaining coefficients, highest first; every coefficient but the last is followed by `gen_next`. -/
def mtHornerLoop {w : Nat} (P : MtPar w) (s : Mt w) : List Bool → Mt w → Mt w
  | [], t => t
  | [c], t => if c then mtAdd P t s else t
  | c :: d :: cs, t => mtHornerLoop P s (d :: cs) (mtStep P (if c then mtAdd P t s else t))

/-- `horner1` (mt19937-jump.c:102-137) on the coefficient string of `mt19937_jump_state`, highest first: leading
zeros are skipped, the leading one copies the state. A polynomial without a one makes the C code read before the
array: `none`. -/
def mtHorner {w : Nat} (P : MtPar w) (s : Mt w) : List Bool → Option (Mt w)
  | [] => none
  | false :: cs => mtHorner P s cs
  | [true] => some s
  | true :: c :: cs => some (mtHornerLoop P s (c :: cs) (mtStep P s))

/-- `mt19937_jump_state` (mt19937-jump.c:139-160). A negative position makes `gen_next` write outside the array: `none`. -/
def mtJumpState {w : Nat} (P : MtPar w) (poly : List Bool) (s : Mt w) : Option (Mt w) :=
  if s.pos < 0 then none else mtHorner P (if P.N ≤ s.pos then { s with pos := 0 } else s) poly

end Verif
