import Verif.Model.Session
import Verif.Model.CtrMode
import Verif.Model.Doubles

/-! Philox and ThreeFry as classes whose instances programs make, seed, draw from, move, and give the states of other instances
(randomgen/philox.pyx, randomgen/threefry.pyx, randomgen/src/philox/philox.h, randomgen/src/threefry/threefry.h). -/

namespace Verif

/-- What differs between the two classes. -/
structure CtrFam where
  short : String
  full : String
  /-- the number of key words of a generator with `n` counter words -/
  keys : Nat → Nat
  /-- the number of key words there is room for -/
  room : Nat
  /-- whether the argument `numpy_seed` exists -/
  numpyOk : Bool
  /-- the words taken from the seed sequence -/
  seedKey : Nat → Nat → (Nat → U64) → List U64
  /-- the block function -/
  blk : (w : Nat) → List (BitVec w) → List (BitVec w) → List (BitVec w)

/-- Philox: key words philox.pyx:305, `_seed_from_seq` philox.pyx:233-240, names and room as in `philoxSet`. -/
def philoxFam : CtrFam where
  short := "Philox"
  full := "randomgen.philox.Philox"
  keys := (· / 2)
  room := 2
  numpyOk := true
  seedKey n w ws :=
    let l := (List.range (max (n * w / 128) 1)).map ws
    if n = 2 ∧ w = 32 then l.map (· % 4294967296) else l
  blk _ := philox

/-- ThreeFry: key words threefry.pyx:290, `_seed_from_seq` threefry.pyx:228-231. -/
def threefryFam : CtrFam where
  short := "ThreeFry"
  full := "randomgen.threefry.ThreeFry"
  keys := id
  room := 4
  numpyOk := false
  seedKey n w ws := (List.range (n * w / 64)).map ws
  blk _ := threefry

/-- The part of the structure that the functions for `N` words of `w` bits work on. -/
def CtrI.gen (keys : Nat → Nat) (N w : Nat) (s : CtrI) : CtrGen w where
  ctr := (s.ctr.toList.take N).map (·.setWidth w)
  key := (s.key.toList.take (keys N)).map (·.setWidth w)
  buf i := if i < N then (s.buf.toList.getD i 0).setWidth w else 0
  pos := s.pos.toInt
  has := s.has != 0
  uinteger := s.uint

/-- `slot.u64 = x` or `slot.u32 = x`. -/
def slotPut {w : Nat} (old : U64) (x : BitVec w) : U64 := if w = 64 then x.setWidth 64 else setLow old (x.setWidth 32)

/-- The structure after such a function. Buffer slots from `N` on, which these functions do not read, are left alone, and a non-zero
`has_uint32` becomes 1. -/
def CtrI.put {w : Nat} (N : Nat) (s : CtrI) (g : CtrGen w) : CtrI :=
  { s with
    ctr := Vector.ofFn fun i => match g.ctr[i.val]? with
      | some x => slotPut s.ctr[i] x
      | none => s.ctr[i]
    key := Vector.ofFn fun i => match g.key[i.val]? with
      | some x => slotPut s.key[i] x
      | none => s.key[i]
    buf := Vector.ofFn fun i => if i.val < N then slotPut s.buf[i] (g.buf i) else s.buf[i]
    pos := BitVec.ofInt 32 g.pos
    has := if g.has then 1 else 0
    uint := g.uinteger }

/-- The draws of the 64-bit variants: philox.h:441-443, 457-469, 476-479; the same in threefry.h. `none` is a read outside the buffer. -/
def ctrOp64 (N : Nat) (blk : List U64 → List U64 → List U64) (o : Op) (g : CtrGen 64) : Option (Out × CtrGen 64) := match o with
  | .u64 => (cmNext N blk g).map fun r => (.o64 r.1, r.2)
  | .dbl => (cmNext N blk g).map fun (r : U64 × CtrGen 64) => (.odbl (r.1 >>> 11).toNat, r.2)
  | .u32 =>
    if g.has then some (.o32 g.uinteger, { g with has := false })
    else (cmNext N blk g).map fun r => (.o32 (r.1.truncate 32), { r.2 with has := true, uinteger := (r.1 >>> 32).truncate 32 })

/-- The draws of the 32-bit variants: philox.h:446-448, 457-459, 481-485. `hiFirst`: the order in which the compiler evaluates the two calls of
`next64` (C52). -/
def ctrOp32 (N : Nat) (blk : List U32 → List U32 → List U32) (hiFirst : Bool) (o : Op) (g : CtrGen 32) : Option (Out × CtrGen 32) :=
  match o with
  | .u32 => (cmNext N blk g).map fun r => (.o32 r.1, r.2)
  | .u64 => (twoCallsO (cmNext N blk) hiFirst g).map fun r => (.o64 r.1, r.2)
  | .dbl => do
    let a ← cmNext N blk g
    let b ← cmNext N blk a.2
    return (.odbl (Doubles.dbl32 a.1 b.1), b.2)

/-- The installed functions (`_setup_generator`, philox.pyx:194-215, threefry.pyx:189-210). -/
def ctrOp (F : CtrFam) (hiFirst : Bool) (o : Op) (s : CtrI) : Option (Out × CtrI) :=
  let N := s.actN.toNat
  if s.actW = 64 then (ctrOp64 N (F.blk 64) o (s.gen F.keys N 64)).map fun r => (r.1, s.put N r.2)
  else (ctrOp32 N (F.blk 32) hiFirst o (s.gen F.keys N 32)).map fun r => (r.1, s.put N r.2)

/-- `advance(delta, counter)` (philox.pyx:526-568, threefry.pyx:505-547) for the variant in `n` and `w`. -/
def ctrMove (F : CtrFam) (d : Int) (counter : Bool) (s : CtrI) : Made CtrI :=
  let N := s.n.toNat
  if s.w = 64 then match cmPyAdvance N (F.blk 64) (s.gen F.keys N 64) d counter with
    | .ok g => .ok (s.put N g)
    | .error e => .err e
  else match cmPyAdvance N (F.blk 32) (s.gen F.keys N 32) d counter with
    | .ok g => .ok (s.put N g)
    | .error e => .err e

/-- `seed(key=key, counter=counter)` (philox.pyx:289-319, threefry.pyx:281-309): both arguments are checked before anything is stored. -/
def ctrSeedKey (F : CtrFam) (key counter : Ints.ObjIn) (s : CtrI) : Except PyErr CtrI := do
  let N := s.n.toNat
  let k ← Ints.objectToInt key (F.keys N * s.w.toNat)
  let c ← Ints.objectToInt counter (N * s.w.toNat)
  let k := (k.getD 0).toNat
  let c := (c.getD 0).toNat
  return if s.w = 64 then s.put N (cmSeed N (F.keys N) (s.gen F.keys N 64) k c) else s.put N (cmSeed N (F.keys N) (s.gen F.keys N 32) k c)

/-- The words of the seed sequence, and the arguments `counter` and `key` (integers or `None`; with a key there is no seed). -/
structure CtrSeed where
  words : Nat → U64
  counter : Option Int
  key : Option Int

/-- `None` or an integer. -/
def objOf : Option Int → Ints.ObjIn
  | none => .none
  | some v => .int v

/-- `seed` (philox.pyx:248-319; threefry.pyx:233-309): without a key, `_seed_from_seq` (philox.pyx:233-240), or in NumPy's mode
`_seed_from_seq_numpy_compat` (philox.pyx:242-245), which does not pass the counter on. -/
def ctrReseed (F : CtrFam) (numpy : Bool) (sd : CtrSeed) (s : CtrI) : Except PyErr CtrI := match sd.key with
  | some k => ctrSeedKey F (.int k) (objOf sd.counter) s
  | none =>
    if numpy then
      if s.n ≠ 4 ∨ s.w ≠ 64 then .error .valueError
      else ctrSeedKey F (.arr64 (F.seedKey s.n.toNat s.w.toNat sd.words)) .none s
    else ctrSeedKey F (.arr64 (F.seedKey s.n.toNat s.w.toNat sd.words)) (objOf sd.counter) s

/-- The constructor arguments `number`, `width` and `numpy_seed`. -/
structure CtrArgs where
  number : Int := 4
  width : Int := 64
  numpy : Bool := false

/-- `__init__` (philox.pyx:177-192, threefry.pyx:168-187). -/
def ctrNew (F : CtrFam) (p : CtrArgs) (sd : CtrSeed) : Made (Bool × CtrI) :=
  if p.numpy ∧ ¬F.numpyOk then .err .typeError
  else if p.number ≠ 2 ∧ p.number ≠ 4 then .err .valueError
  else if p.width ≠ 32 ∧ p.width ≠ 64 then .err .valueError
  else
    let n := BitVec.ofInt 32 p.number
    let w := BitVec.ofInt 32 p.width
    match ctrReseed F p.numpy sd ⟨n, w, n, w, n, w, Vector.replicate 4 0, Vector.replicate 4 0, Vector.replicate 4 0, 0, 0, 0⟩ with
    | .ok s => .ok (p.numpy, s)
    | .error e => .err e

/-- philox.pyx: `jump_inplace` :415-427, `jump` :429-452 (any integer), `jumped` :454-482 (a C integer; the new instance is the default
variant, in the same mode), `advance` :484-568; threefry.pyx likewise. An instance is the mode and the structure. `counter` is the argument of
`advance`. -/
def ctrCls (F : CtrFam) (hiFirst counter : Bool) : GCls CtrArgs CtrSeed (Bool × CtrI) where
  new := ctrNew F
  seed sd s := match ctrReseed F s.1 sd s.2 with
    | .ok t => .ok (s.1, t)
    | .error e => .err e
  op o s := (ctrOp F hiFirst o s.2).map fun r => (r.1, s.1, r.2)
  get s := ctrGet F.full F.keys s.2
  set v s := ((ctrSet F.short F.full F.keys F.room v s.2).1, s.1, (ctrSet F.short F.full F.keys F.room v s.2).2)
  inplace := some fun n s => match ctrMove F (n * 2 ^ (s.2.w.toNat * s.2.n.toNat / 2)) true s.2 with
    | .ok t => .ok (s.1, t)
    | .err e => .err e
    | .hang => .hang
    | .ub => .ub
  jump := some false
  clone := some (true, fun sd s => ctrNew F { numpy := s.1 } ⟨sd.words, none, none⟩)
  advance := some fun d s => match ctrMove F d counter s.2 with
    | .ok t => .ok (s.1, t)
    | .err e => .err e
    | .hang => .hang
    | .ub => .ub

end Verif
