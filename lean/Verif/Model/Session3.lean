import Verif.Model.Session2
import Verif.Model.BlockCtr

/-! The block-cipher classes for the programs of `Verif.Model.Session`: SPECK128, AESCounter. A seed is the words of the key (of the seed
sequence, or the `key` argument) and the `counter` argument. -/

namespace Verif

/-- Outcome of a call that may raise or be undefined. -/
def madeOfExceptO {σ : Type} : Except PyErr (Option σ) → Made σ
  | .ok (some s) => .ok s
  | .ok none => .ub
  | .error e => .err e

/-- `object_to_int(counter, 128, "counter")` and `counter = 0 if counter is None else counter` (speck128.pyx:222, 226; aes.pyx:230, 235). -/
def counter128 (c : Option Int) : Except PyErr Nat :=
  match Ints.objectToInt (match c with | none => .none | some i => .int i) 128 with
  | .ok none => .ok 0
  | .ok (some v) => .ok v.toNat
  | .error e => .error e

/-! #### SPECK128 -/

/-- The structure as the functions of `Model/BlockCtr` see it; what they see outside the arrays is never read. Each round key is stored twice. -/
def speckView (x : SpeckI) : Speck where
  rk i := if h : i < 34 then x.roundKey[2 * i] else 0
  ctr i := ⟨x.ctr[2 * i.val], x.ctr[2 * i.val + 1]⟩
  buf i := if h : i < 12 then x.buffer[i] else 0
  rounds := x.rounds.toInt
  offset := x.offset.toInt
  has := x.has != 0
  uinteger := x.uint

def speckPut (c : Speck) : SpeckI :=
  ⟨Vector.ofFn fun i : Fin 12 => if i.val % 2 = 0 then (c.ctr ⟨i.val / 2, by omega⟩).lo else (c.ctr ⟨i.val / 2, by omega⟩).hi,
    Vector.ofFn fun i : Fin 12 => c.buf i.val, Vector.ofFn fun i : Fin 68 => c.rk (i.val / 2), BitVec.ofInt 32 c.rounds,
    BitVec.ofInt 32 c.offset, halfI c.has, c.uinteger⟩

def speckBuf (x : SpeckI) : Buf Speck := ⟨speckView x, x.has != 0, x.uint⟩
def speckPutBuf (_ : SpeckI) (b : Buf Speck) : SpeckI := speckPut { b.core with has := b.has, uinteger := b.uinteger }

/-- `seed` (speck128.pyx:174-177, 216-230): a refused counter raises before anything is stored. -/
def speckReseed (sd : (Nat → U64) × Option Int) (s : Speck) : Made SpeckI :=
  match counter128 sd.2 with
  | .error e => .err e
  | .ok c => .ok (speckPut (speckSeed s (sd.1 0) (sd.1 1) (sd.1 2) (sd.1 3) ⟨BitVec.ofNat 64 (c % 2 ^ 64), BitVec.ofNat 64 (c / 2 ^ 64)⟩))

/-- `__init__` (speck128.pyx:141-164) for an integer `rounds`. -/
def speckNew (rounds : Int) (sd : (Nat → U64) × Option Int) : Made SpeckI :=
  if rounds ≤ 0 ∨ rounds > 34 then .err .valueError
  else speckReseed sd ⟨fun _ => 0, fun _ => ⟨0, 0⟩, fun _ => 0, rounds, 0, false, 0⟩

/-- A C function on the structure that may be undefined. -/
def speckLift (r : Except PyErr (Option Speck)) : Made SpeckI := match madeOfExceptO r with
  | .ok s => .ok (speckPut s)
  | .err e => .err e
  | .hang => .hang
  | .ub => .ub

/-- speck128.pyx: `jump_inplace` :340-349, `jump` :351-375, `jumped` :377-400 (34 rounds and no counter until the state is assigned),
`advance` :402-446 -/
def speckCls : GCls Int ((Nat → U64) × Option Int) SpeckI where
  new := speckNew
  seed sd s := speckReseed sd (speckView s)
  op := bufOpO speckNext speckBuf speckPutBuf
  get := speckGet
  set := speckSet
  inplace := some fun n s => speckLift (speckJumpInplace (speckView s) n)
  jump := some false
  clone := some (false, fun sd _ => speckNew 34 (sd.1, none))
  advance := some fun d s => speckLift (speckPyAdvance (speckView s) d)

/-! #### AESCounter -/

/-- The structure; the expanded key and the output as bytes in memory order. -/
def aesView (x : AesI) : Aes where
  ctr i := ⟨x.ctr[2 * i.val], x.ctr[2 * i.val + 1]⟩
  seed n := if h : n < 176 then leByte x.seed[n / 8] (n % 8) else 0
  buf i := if h : i < 8 then le64 fun k => x.state[(8 * i + k) % 64]'(Nat.mod_lt _ (by decide)) else 0
  offset := x.offset.toNat
  has := x.has != 0
  uinteger := x.uint

def aesPut (c : Aes) : AesI :=
  ⟨Vector.ofFn fun i : Fin 8 => if i.val % 2 = 0 then (c.ctr ⟨i.val / 2, by omega⟩).lo else (c.ctr ⟨i.val / 2, by omega⟩).hi,
    Vector.ofFn fun i : Fin 22 => le64 fun k => c.seed (8 * i.val + k), Vector.ofFn fun i : Fin 64 => leByte (c.buf (i.val / 8)) (i.val % 8),
    BitVec.ofNat 64 c.offset, halfI c.has, c.uinteger⟩

def aesBuf (x : AesI) : Buf Aes := ⟨aesView x, x.has != 0, x.uint⟩
def aesPutBuf (_ : AesI) (b : Buf Aes) : AesI := aesPut { b.core with has := b.has, uinteger := b.uinteger }

/-- `seed` (aes.pyx:180-183, 223-246). -/
def aesReseed (sd : (Nat → U64) × Option Int) (s : Aes) : Made AesI :=
  match counter128 sd.2 with
  | .error e => .err e
  | .ok c => .ok (aesPut (aesSeed s (sd.1 0) (sd.1 1) c))

/-- `__init__` (aes.pyx:131-143). -/
def aesNew (sd : (Nat → U64) × Option Int) : Made AesI := aesReseed sd ⟨fun _ => ⟨0, 0⟩, fun _ => 0, fun _ => 0, 0, false, 0⟩

def aesLift (r : Except PyErr (Option Aes)) : Made AesI := match madeOfExceptO r with
  | .ok s => .ok (aesPut s)
  | .err e => .err e
  | .hang => .hang
  | .ub => .ub

/-- aes.pyx: `jump_inplace` :305-316, `jump` :318-343, `jumped` :345-370, `advance` :372-415 -/
def aesCls : GCls Unit ((Nat → U64) × Option Int) AesI where
  new _ := aesNew
  seed sd s := aesReseed sd (aesView s)
  op := bufOpO aesNext aesBuf aesPutBuf
  get := aesGet
  set := aesSet
  inplace := some fun n s => aesLift (aesJumpInplace (aesView s) n)
  jump := some false
  clone := some (false, fun sd _ => aesNew (sd.1, none))
  advance := some fun d s => aesLift (aesPyAdvance (aesView s) d)

end Verif
