import Verif.Model.Session
import Verif.Model.Mt

/-! Further classes for the programs of `Verif.Model.Session`: EFIIX64, Tyche, MT64. -/

namespace Verif

/-- The draws of a 64-bit generator with a cached half whose word function may be undefined (`none`). -/
def Buf.opO {κ : Type} (nx : κ → Option (U64 × κ)) (o : Op) (b : Buf κ) : Option (Out × Buf κ) := match o with
  | .u64 => (nx b.core).map fun r => (.o64 r.1, { b with core := r.2 })
  | .dbl => (Doubles.dbl64O nx b.core).map fun r => (.odbl r.1, { b with core := r.2 })
  | .u32 => (Doubles.next32O nx b).map fun r => (.o32 r.1, r.2)

/-- The same on an instance record. -/
def bufOpO {σ κ : Type} (nx : κ → Option (U64 × κ)) (view : σ → Buf κ) (put : σ → Buf κ → σ) (o : Op) (s : σ) : Option (Out × σ) :=
  (Buf.opO nx o (view s)).map fun r => (r.1, put s r.2)

/-! #### EFIIX64 -/

def efiixView (x : EfiixI) : Buf Efiix := ⟨⟨fun j => x.ind[j], fun j => x.itr[j], x.i, x.a, x.b, x.c⟩, x.has != 0, x.uint⟩
def efiixPut (_ : EfiixI) (b : Buf Efiix) : EfiixI :=
  ⟨Vector.ofFn b.core.ind, Vector.ofFn b.core.itr, b.core.i, b.core.a, b.core.b, b.core.c, halfI b.has, b.uinteger⟩

/-- efiix64.pyx: `__init__` :103-111; draws efiix64.h:44-64; no jump, no advance -/
def efiixCls : GCls Unit (Nat → U64) EfiixI where
  new _ gen := .ok (efiixReseed gen ⟨Vector.replicate 16 0, Vector.replicate 32 0, 0, 0, 0, 0, 0, 0⟩)
  seed gen s := .ok (efiixReseed gen s)
  op := bufOp efiixNext efiixView efiixPut
  get := efiixGet
  set := efiixSet
  inplace := none
  jump := none
  clone := none
  advance := none

/-! #### Tyche -/

def tycheView (x : TycheI) : Tyche := ⟨x.a, x.b, x.c, x.d⟩
def tychePut (x : TycheI) (c : Tyche) : TycheI := { x with a := c.a, b := c.b, c := c.c, d := c.d }

/-- The draws of Tyche: tyche.h:62-73, 92-105. `hiFirst`: the order in which the compiler evaluates the two calls of a 64-bit draw (C52). -/
def tycheOp (hiFirst : Bool) (o : Op) (s : TycheI) : Option (Out × TycheI) :=
  let nx := if s.actOriginal then tycheNext else tycheOpenNext
  match o with
  | .u32 => some (.o32 (nx (tycheView s)).1, tychePut s (nx (tycheView s)).2)
  | .u64 => some (.o64 (twoCalls nx hiFirst (tycheView s)).1, tychePut s (twoCalls nx hiFirst (tycheView s)).2)
  | .dbl => some (.odbl (Doubles.dblCalls nx (tycheView s)).1, tychePut s (Doubles.dblCalls nx (tycheView s)).2)

/-- Outcome of a call that may raise. -/
def madeOfExcept {σ : Type} : Except PyErr σ → Made σ
  | .ok s => .ok s
  | .error e => .err e

/-- tyche.pyx: `__init__` :109-115 (`original` is stored before seeding, the functions are installed after it), `seed` :143-163 with `idx`;
no jump, no advance -/
def tycheCls (hiFirst : Bool) : GCls Bool ((Nat → U32) × Option Int) TycheI where
  new org sd := madeOfExcept (tycheReseed sd.1 sd.2 ⟨0, 0, 0, 0, org, org⟩)
  seed sd s := madeOfExcept (tycheReseed sd.1 sd.2 s)
  op := tycheOp hiFirst
  get := tycheGet
  set := tycheSet
  inplace := none
  jump := none
  clone := none
  advance := none

/-! #### MT64 -/

/-- The structure as the functions of `Model/Mt` see it; what they see outside the array is never read. -/
def mt64View (x : Mt64I) : Buf (Mt 64) := ⟨⟨fun i => if h : i < 312 then x.mt[i] else 0, x.mti.toInt⟩, x.has != 0, x.uint⟩
def mt64Put (_ : Mt64I) (b : Buf (Mt 64)) : Mt64I :=
  ⟨Vector.ofFn fun i : Fin 312 => b.core.key i.val, BitVec.ofInt 32 b.core.pos, halfI b.has, b.uinteger⟩

/-- mt64.pyx:104-113: 312 words of the seed sequence go through `mt64_init_by_array`, over the old array. -/
def mt64Reseed (gen : Nat → U64) (s : Mt64I) : Mt64I :=
  mt64Put s ⟨mtSeed64 ((List.range 312).map gen) (mt64View s).core.key, false, 0⟩

/-- mt64.pyx: `__init__` :94-102; draws mt64.h:89-124; no jump, no advance -/
def mt64Cls : GCls Unit (Nat → U64) Mt64I where
  new _ gen := .ok (mt64Reseed gen ⟨Vector.replicate 312 0, 0, 0, 0⟩)
  seed gen s := .ok (mt64Reseed gen s)
  op := bufOpO mtNext64 mt64View mt64Put
  get := mt64Get
  set := mt64Set
  inplace := none
  jump := none
  clone := none
  advance := none

end Verif
