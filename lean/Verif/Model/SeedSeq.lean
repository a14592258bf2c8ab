import Verif.Common.Basic

/-! Model of `randomgen/_seed_sequence.pyx`. -/

namespace Verif.SeedSeq

/-- `INIT_A`, `MULT_A`, `INIT_B`, `MULT_B`, `MIX_MULT_L`, `MIX_MULT_R`,
randomgen/_seed_sequence.pyx:59-64; `XSHIFT` (:65) is 16. -/
def INIT_A : U32 := 0x43b0d7e5
def MULT_A : U32 := 0x931e8875
def INIT_B : U32 := 0x8b51f9dd
def MULT_B : U32 := 0x58f38ded
def MIX_MULT_L : U32 := 0xca01f9dd
def MIX_MULT_R : U32 := 0x4973f715

/-- The `while n > 0` loop of `_int_to_uint32_array`, randomgen/_seed_sequence.pyx:78-80. -/
def splitWords (n : Nat) : List U32 :=
  if h : n > 0 then BitVec.ofNat 32 (n &&& 0xFFFFFFFF) :: splitWords (n / 2 ^ 32) else []
termination_by n
decreasing_by exact Nat.div_lt_self h (by decide)

/-- `_int_to_uint32_array`, randomgen/_seed_sequence.pyx:69-81. -/
def intToWords (n : Int) : Except PyErr (List U32) :=
  if n < 0 then .error .valueError
  else .ok ((if n = 0 then [0] else []) ++ splitWords n.toNat)

/-- Values accepted as entropy or as a spawn key: an integer, a `uint32` array, or a sequence of such.
Strings (lines 135-141), which are converted to integers by Python's `int`, and floats (TypeError,
lines 144-145) are not represented. -/
inductive Ent where
  | int (n : Int)
  | words (l : List U32)
  | seq (l : List Ent)

mutual
/-- `_coerce_to_uint32_array`, randomgen/_seed_sequence.pyx:84-152. -/
def coerce : Ent → Except PyErr (List U32)
  | .int n => intToWords n
  | .words l => .ok l
  | .seq l => coerceAll l
/-- `np.concatenate` of the coerced elements, randomgen/_seed_sequence.pyx:146-152. -/
def coerceAll : List Ent → Except PyErr (List U32)
  | [] => .ok []
  | e :: es => do
    let a ← coerce e
    let b ← coerceAll es
    pure (a ++ b)
end

/-- `hashmix`, randomgen/_seed_sequence.pyx:155-161: returns the value and the new `hash_const`. -/
def hashmix (value hc : U32) : U32 × U32 :=
  let value := value ^^^ hc
  let hc := hc * MULT_A
  let value := value * hc
  (value ^^^ (value >>> 16), hc)

/-- `mix`, randomgen/_seed_sequence.pyx:163-166. -/
def mix (x y : U32) : U32 :=
  let result := MIX_MULT_L * x - MIX_MULT_R * y
  result ^^^ (result >>> 16)

/-- The mixer array together with `hash_const[0]`. -/
abbrev Mixer := List U32 × U32

/-- Body of the first loop of `mix_entropy`, randomgen/_seed_sequence.pyx:350-357. -/
def fillStep (entropy : List U32) (m : Mixer) (i : Nat) : Mixer :=
  let r := hashmix (if i < entropy.length then entropy.getD i 0 else 0) m.2
  (m.1.set i r.1, r.2)

/-- Body of the second loop, randomgen/_seed_sequence.pyx:360-364. -/
def crossStep (src : Nat) (m : Mixer) (dst : Nat) : Mixer :=
  if src ≠ dst then
    let r := hashmix (m.1.getD src 0) m.2
    (m.1.set dst (mix (m.1.getD dst 0) r.1), r.2)
  else m

/-- Body of the third loop, randomgen/_seed_sequence.pyx:368-371; `e` is `entropy_array[i_src]`. -/
def tailStep (e : U32) (m : Mixer) (dst : Nat) : Mixer :=
  let r := hashmix e m.2
  (m.1.set dst (mix (m.1.getD dst 0) r.1), r.2)

/-- First loop. -/
def fill (entropy : List U32) (m : Mixer) : Mixer :=
  (List.range m.1.length).foldl (fillStep entropy) m
/-- Second loop. -/
def cross (m : Mixer) : Mixer :=
  (List.range m.1.length).foldl (fun m' src => (List.range m.1.length).foldl (crossStep src) m') m
/-- Inner loop of the third loop, for one further entropy word. -/
def absorbOne (n : Nat) (m : Mixer) (e : U32) : Mixer := (List.range n).foldl (tailStep e) m
/-- Third loop: entropy words from index `len(mixer)` on. -/
def absorb (entropy : List U32) (m : Mixer) : Mixer :=
  (entropy.drop m.1.length).foldl (absorbOne m.1.length) m

/-- `mix_entropy`, randomgen/_seed_sequence.pyx:337-371. -/
def mixEntropy (mixer : List U32) (entropy : List U32) : List U32 :=
  (absorb entropy (cross (fill entropy (mixer, INIT_A)))).1

/-- `get_assembled_entropy`, randomgen/_seed_sequence.pyx:373-398, on the coerced arrays. -/
def assemble (run spawn : List U32) (poolSize : Nat) : List U32 :=
  let run := if spawn.length > 0 ∧ run.length < poolSize
    then run ++ List.replicate (poolSize - run.length) 0 else run
  run ++ spawn

/-- A `SeedSequence` object. The spawn key is a tuple of integers; children get keys extended by
small integers. -/
structure SeedSeq where
  entropy : Ent
  spawnKey : List Int
  poolSize : Nat
  nChildren : Int
  pool : List U32

/-- `SeedSequence.__init__`, randomgen/_seed_sequence.pyx:292-309, with `entropy` given (for `None`
the code draws an integer below `2**(32*pool_size)` from the operating system). -/
def mk (entropy : Ent) (spawnKey : List Int) (poolSize : Int) (nChildren : Int) :
    Except PyErr SeedSeq :=
  if poolSize < 4 then .error .valueError
  else do
    let run ← coerce entropy
    let spawn ← coerce (.seq (spawnKey.map .int))
    pure { entropy, spawnKey, poolSize := poolSize.toNat, nChildren
           pool := mixEntropy (List.replicate poolSize.toNat 0) (assemble run spawn poolSize.toNat) }

/-- Loop body of `generate_state`, randomgen/_seed_sequence.pyx:435-441: the state is the words so
far and `hash_const`; `cycle(self.pool)` at step `i` yields `pool[i % len(pool)]`. -/
def genStep (pool : List U32) (st : List U32 × U32) (i : Nat) : List U32 × U32 :=
  let v := pool.getD (i % pool.length) 0
  let v := v ^^^ st.2
  let hc := st.2 * MULT_B
  let v := v * hc
  (st.1 ++ [v ^^^ (v >>> 16)], hc)

/-- `generate_state(n_words)` for `uint32`, randomgen/_seed_sequence.pyx:400-446. -/
def generate32 (pool : List U32) (n : Nat) : List U32 :=
  ((List.range n).foldl (genStep pool) ([], INIT_B)).1

/-- Viewing little-endian `uint32` pairs as `uint64`, randomgen/_seed_sequence.pyx:442-445. -/
def pairUp : List U32 → List U64
  | lo :: hi :: rest => (hi ++ lo) :: pairUp rest
  | _ => []

/-- `generate_state(n_words, np.uint64)`. -/
def generate64 (pool : List U32) (n : Nat) : List U64 := pairUp (generate32 pool (n * 2))

/-- `spawn`, randomgen/_seed_sequence.pyx:448-476. The loop variable is a C `int`: an end of the range
that does not fit raises OverflowError. `range` is empty for a negative `n_children`, but the counter
is still changed by it. Returns the children and the parent afterwards. -/
def spawn (s : SeedSeq) (n : Int) : Except PyErr (List SeedSeq × SeedSeq) :=
  if s.nChildren + n ≥ 2 ^ 31 ∨ s.nChildren ≥ 2 ^ 31 then .error .overflowError
  else do
    let cs ← (List.range n.toNat).mapM (fun k : Nat => mk s.entropy (s.spawnKey ++ [s.nChildren + (k : Int)]) s.poolSize 0)
    pure (cs, { s with nChildren := s.nChildren + n })

end Verif.SeedSeq
