import Verif.Model.Session3
import Verif.Model.ChaCha
import Verif.Model.Hc128
import Verif.Model.Api

/-! Classes without jumps for the programs of `Verif.Model.Session`: ChaCha, JSF, HC128. -/

namespace Verif

/-- The draws of a 32-bit generator whose 64-bit draws are two calls in one expression and whose doubles are `next64 >> 11`.
`hiFirst`: the order in which the compiler evaluates the two calls (C52). -/
def calls32 {κ : Type} (nx : κ → Option (U32 × κ)) (hiFirst : Bool) (o : Op) (c : κ) : Option (Out × κ) := match o with
  | .u32 => (nx c).map fun r => (.o32 r.1, r.2)
  | .u64 => (twoCallsO nx hiFirst c).map fun r => (.o64 r.1, r.2)
  | .dbl => (Doubles.dbl64O (twoCallsO nx hiFirst) c).map fun r => (.odbl r.1, r.2)

/-! #### ChaCha -/

def chachaView (x : ChaChaI) : ChaCha where
  block := ⟨⟨x.block[0], x.block[1], x.block[2], x.block[3]⟩, ⟨x.block[4], x.block[5], x.block[6], x.block[7]⟩,
    ⟨x.block[8], x.block[9], x.block[10], x.block[11]⟩, ⟨x.block[12], x.block[13], x.block[14], x.block[15]⟩⟩
  k0 := ⟨x.keysetup[0], x.keysetup[1], x.keysetup[2], x.keysetup[3]⟩
  k1 := ⟨x.keysetup[4], x.keysetup[5], x.keysetup[6], x.keysetup[7]⟩
  ctr0 := x.ctr[0]
  ctr1 := x.ctr[1]
  rounds := x.rounds.toInt

def chachaPut (c : ChaCha) : ChaChaI :=
  ⟨Vector.ofFn fun i : Fin 16 => c.block.get i.val, Vector.ofFn fun i : Fin 8 => if i.val < 4 then c.k0.get i.val else c.k1.get (i.val - 4),
    #v[c.ctr0, c.ctr1], BitVec.ofInt 32 c.rounds⟩

/-- `seed` (chacha.pyx:158-160, 227-247): a refused counter raises before anything is stored; the number of rounds stays. -/
def chachaReseed (sd : (Nat → U64) × Option Int) (s : ChaCha) : Made ChaChaI :=
  match counter128 sd.2 with
  | .error e => .err e
  | .ok c => .ok (chachaPut (ccSeed s (sd.1 0) (sd.1 1) (sd.1 2) (sd.1 3) (BitVec.ofNat 64 (c % 2 ^ 64)) (BitVec.ofNat 64 (c / 2 ^ 64))))

/-- `__init__` (chacha.pyx:136-152) for an integer `rounds`, which is stored in a C int. -/
def chachaNew (rounds : Int) (sd : (Nat → U64) × Option Int) : Made ChaChaI :=
  if rounds % 2 ≠ 0 ∨ rounds ≤ 0 then .err .valueError
  else if 2 ^ 31 ≤ rounds then .err .overflowError
  else chachaReseed sd ⟨⟨⟨0, 0, 0, 0⟩, ⟨0, 0, 0, 0⟩, ⟨0, 0, 0, 0⟩, ⟨0, 0, 0, 0⟩⟩, ⟨0, 0, 0, 0⟩, ⟨0, 0, 0, 0⟩, 0, 0, rounds⟩

/-- chacha.pyx; draws chacha.h:194-210. The class has no `jump`, `jumped` or `advance`. -/
def chachaCls (hiFirst : Bool) : GCls Int ((Nat → U64) × Option Int) ChaChaI where
  new := chachaNew
  seed sd s := chachaReseed sd (chachaView s)
  op o s := (calls32 (fun c => some (ccNext c)) hiFirst o (chachaView s)).map fun r => (r.1, chachaPut r.2)
  get := chachaGet
  set := chachaSet
  inplace := none
  jump := none
  clone := none
  advance := none

/-! #### JSF -/

/-- `size`, `seed_size`, `p`, `q`, `r` -/
structure JsfArgs where
  size : Int
  seedSize : Int
  p : Option Int
  q : Option Int
  r : Option Int

def jsfGood (s : JsfI) : JsfPar := ⟨s.p.toInt, s.q.toInt, s.r.toInt⟩
def jsfBuf (s : JsfI) : Buf (Jsf 64) := ⟨⟨s.a, s.b, s.c, s.d⟩, s.has != 0, s.uint⟩
def jsfPutBuf (s : JsfI) (b : Buf (Jsf 64)) : JsfI :=
  { s with a := b.core.a, b := b.core.b, c := b.core.c, d := b.core.d, has := halfI b.has, uint := b.uinteger }
def jsfLow (s : JsfI) : Jsf 32 := ⟨s.a.truncate 32, s.b.truncate 32, s.c.truncate 32, s.d.truncate 32⟩
def jsfPutLow (s : JsfI) (c : Jsf 32) : JsfI :=
  { s with a := setLow s.a c.a, b := setLow s.b c.b, c := setLow s.c c.c, d := setLow s.d c.d }

/-- The draws: jsf.h:70-113, jsf.pyx:59-78; the functions for 64 or 32 bits are installed by `setup_generator`. -/
def jsfOp (hiFirst : Bool) (o : Op) (s : JsfI) : Option (Out × JsfI) :=
  if s.act64 then bufOpO (jsfNext (jsfGood s)) jsfBuf jsfPutBuf o s
  else (calls32 (jsfNext (jsfGood s)) hiFirst o (jsfLow s)).map fun r => (r.1, jsfPutLow s r.2)

/-- Outcome of a call that may be undefined. -/
def madeOfOption {σ : Type} : Option σ → Made σ
  | some s => .ok s
  | none => .ub

/-- `__init__` (jsf.pyx:190-211), `setup_generator` (:213-226): sizes and parameters are checked, defaults filled in. -/
def jsfNew (p : JsfArgs) (sd : (Nat → U64) × (Nat → U32)) : Made JsfI :=
  match jsfInit p.size p.p p.q p.r with
  | .error e => .err e
  | .ok P => if p.seedSize = 1 ∨ p.seedSize = 2 ∨ p.seedSize = 3 then
      madeOfOption (jsfReseed sd.1 sd.2 ⟨0, 0, 0, 0, BitVec.ofInt 32 P.2.p, BitVec.ofInt 32 P.2.q, BitVec.ofInt 32 P.2.r, 0, 0,
        BitVec.ofInt 32 p.size, BitVec.ofInt 32 p.seedSize, p.size == 64⟩)
    else .err .valueError

/-- jsf.pyx: no jump, no advance. The seed sequence delivers 64-bit words or 32-bit words, as `size` asks. -/
def jsfCls (hiFirst : Bool) : GCls JsfArgs ((Nat → U64) × (Nat → U32)) JsfI where
  new := jsfNew
  seed sd s := madeOfOption (jsfReseed sd.1 sd.2 s)
  op := jsfOp hiFirst
  get := jsfGet
  set := jsfSet
  inplace := none
  jump := none
  clone := none
  advance := none

/-! #### HC128 -/

/-- The structure as the functions of `Model/Hc128` see it; what they see outside the arrays is never read. -/
def hcView (x : Hc128I) : Hc where
  p i := if h : i < 512 then x.p[i] else 0
  q i := if h : i < 512 then x.q[i] else 0
  buffer i := if h : i < 16 then x.buffer[i] else 0
  hcIdx := x.hcIdx.toInt
  bufIdx := x.bufferIdx.toInt

def hcPut (c : Hc) : Hc128I :=
  ⟨Vector.ofFn fun i : Fin 512 => c.p i.val, Vector.ofFn fun i : Fin 512 => c.q i.val, Vector.ofFn fun i : Fin 16 => c.buffer i.val,
    BitVec.ofInt 32 c.hcIdx, BitVec.ofInt 32 c.bufIdx⟩

/-- The eight 32-bit words, low half first, of four 64-bit words (hc128.pyx:163-166). -/
def hcSeedWords (gen : Nat → U64) (i : Nat) : U32 := (gen (i / 2) >>> (32 * (i % 2))).truncate 32

/-- hc128.pyx: `__init__` :114-122, `seed` :124-167; draws hc-128.h:89-105; no jump, no advance. Seeding leaves the buffer alone. -/
def hc128Cls (hiFirst : Bool) : GCls Unit (Nat → U64) Hc128I where
  new _ gen := .ok (hcPut (hcSeed (hcSeedWords gen) (hcView ⟨Vector.replicate 512 0, Vector.replicate 512 0, Vector.replicate 16 0, 0, 0⟩)))
  seed gen s := .ok (hcPut (hcSeed (hcSeedWords gen) (hcView s)))
  op o s := (calls32 hcNext32 hiFirst o (hcView s)).map fun r => (r.1, hcPut r.2)
  get := hc128Get
  set := hc128Set
  inplace := none
  jump := none
  clone := none
  advance := none

end Verif
