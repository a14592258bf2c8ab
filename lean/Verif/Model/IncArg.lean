import Verif.Model.Reseed
import Verif.Model.Session5

/-! `seed(seed, inc)` of PCG32, PCG64 and LCG128Mix with the argument `inc` as the caller gives it, on an instance together with the seed sequence
it refers to (the attribute `_seed_seq`, returned by `seed_seq` and given to the generators made by `jumped`). A seed sequence is the words it
generates. `inc` is `None` or an integer: other scalars and arrays are not represented. A call that raises returns what it has changed. -/

namespace Verif

/-- The instance and the words of its seed sequence. -/
structure Seeded (σ : Type) where
  seq : Nat → U64
  core : σ

/-- The check of pcg32.pyx:143-150 and pcg64.pyx:289-297 (`ub = 2 ** b`). -/
def incCheck (b : Nat) (inc : Option Int) : Bool := match inc with
  | none => true
  | some i => ¬ (i < 0 ∨ i > 2 ^ b)

/-- `<uint64_t>inc` (pcg32.pyx:116) for a Python integer: `OverflowError` unless it fits. -/
def castU64 (i : Int) : Except PyErr U64 := if 0 ≤ i ∧ i < 2 ^ 64 then .ok (BitVec.ofInt 64 i) else .error .overflowError

/-- `_seed_from_seq` of PCG32 (pcg32.pyx:113-117). -/
def pcg32FromSeq (gen : Nat → U64) (inc : Option Int) (s : Pcg32I) : Except PyErr Pcg32I := match inc with
  | none => .ok (pcg32Reseed gen none s)
  | some i => match castU64 i with
    | .ok v => .ok (pcg32Reseed gen (some v) s)
    | .error e => .error e

/-- `PCG32.seed` (pcg32.pyx:119-151) with the seed sequence of words `gen`, and `_seed_with_seed_sequence` (common.pyx:79-85), which replaces
`_seed_seq` first. -/
def pcg32SeedCall (gen : Nat → U64) (inc : Option Int) (s : Seeded Pcg32I) : Except PyErr Unit × Seeded Pcg32I :=
  if incCheck 64 inc then
    let s := { s with seq := gen }
    match pcg32FromSeq gen inc s.core with
    | .ok c => (.ok (), { s with core := c })
    | .error e => (.error e, s)
  else (.error .valueError, s)

/-- `_seed_from_seq` of PCG64 (pcg64.pyx:238-254): both halves of `inc` are stored in an array of `uint64`; NumPy raises `OverflowError` for a
number that does not fit (negative numbers do not get here). -/
def pcg64FromSeq (gen : Nat → U64) (inc : Option Int) (s : Pcg64I) : Except PyErr Pcg64I := match inc with
  | none => .ok (pcg64Reseed gen none s)
  | some i => match castU64 (i / 2 ^ 64), castU64 (i % 2 ^ 64) with
    | .ok hi, .ok lo => .ok (pcg64Reseed gen (some (hi ++ lo)) s)
    | _, _ => .error .overflowError

/-- `PCG64.seed` (pcg64.pyx:261-298). `given`: the argument `seed` is not `None`; `gen` are the words of its seed sequence, or of the one made
from entropy. `numpy`: the seeding mode (`_seed_from_seq_numpy_compat`, pcg64.pyx:256-259). -/
def pcg64SeedCall (numpy given : Bool) (gen : Nat → U64) (inc : Option Int) (s : Seeded Pcg64I) : Except PyErr Unit × Seeded Pcg64I :=
  let inc := if given then inc else none
  if incCheck 128 inc then
    let s := { s with seq := gen }
    if numpy && inc.isSome then (.error .valueError, s)
    else match pcg64FromSeq gen inc s.core with
      | .ok c => (.ok (), { s with core := c })
      | .error e => (.error e, s)
  else (.error .valueError, s)

/-- Storing a Python integer in an array of `uint64`: NumPy raises `OverflowError` for a number that does not fit; NumPy 1 (`np1`) reduces
negative numbers that fit in 64 bits with a sign (a deprecation warning at most). -/
def storeU64 (np1 : Bool) (i : Int) : Except PyErr U64 :=
  if 0 ≤ i ∧ i < 2 ^ 64 then .ok (BitVec.ofInt 64 i)
  else if np1 ∧ -2 ^ 63 ≤ i ∧ i < 0 then .ok (BitVec.ofInt 64 i) else .error .overflowError

/-- `LCG128Mix.seed` (pcg64.pyx:743-770) and `_seed_from_seq` (pcg64.pyx:721-741), which has no check; `//` and `%` are the floor division.
`mult` is the attribute `multiplier`. -/
def lcgSeedCall (np1 : Bool) (mult : U128) (gen : Nat → U64) (inc : Option Int) (s : Seeded LcgMixI) : Except PyErr Unit × Seeded LcgMixI :=
  let s := { s with seq := gen }
  match inc with
  | none => (.ok (), { s with core := lcgMixReseed mult gen none s.core })
  | some i => match storeU64 np1 (i / 2 ^ 64), storeU64 np1 (i % 2 ^ 64) with
    | .ok hi, .ok lo => (.ok (), { s with core := lcgMixReseed mult gen (some (hi ++ lo)) s.core })
    | _, _ => (.error .overflowError, s)

/-- One call of `Squares.seed`: what it raises and what it leaves (squares.pyx:478-513). -/
def squaresSeedCall (sd : SquaresSeed) (s : SquaresI) : Except PyErr Unit × SquaresI := match squaresReseed sd.1 sd.2.1 sd.2.2 s with
  | .ok t => (.ok (), t)
  | .error e => (.error e, squaresSeedFail sd s)

end Verif
