import Verif.Model.Reseed
import Verif.Model.Api
import Verif.Model.XorLinear
import Verif.Model.Double32

/-! Programs that use bit generators: any number of instances of one class, created, re-seeded, drawn from, saved, restored, jumped and
advanced in any order. An instance is the record of `Verif.Model.Setters` (the C structure and the attributes draws depend on).

Not modelled: the conversion of seeds to words (C42-C46), the checks of constructor arguments, threads (C91), two classes in one program (a
state of another class is rejected by its header). -/

namespace Verif

open XorLinear

/-- One call. `i` numbers the instances in the order of their creation, `j` the saved states. -/
inductive SOp (Par Seed : Type) where
  /-- `X(seed, parameters)` -/
  | new (p : Par) (sd : Seed)
  /-- `g_i.seed(seed)` -/
  | seed (i : Nat) (sd : Seed)
  /-- one draw through the `bitgen_t` interface of `g_i` -/
  | draw (i : Nat) (o : Op)
  /-- `d = g_i.state` -/
  | save (i : Nat)
  /-- `g_i.state = d_j` -/
  | load (i j : Nat)
  /-- `g_i.jump(iter)` -/
  | jump (i : Nat) (iter : Int)
  /-- `g = g_i.jumped(iter)` -/
  | jumped (i : Nat) (iter : Int)
  /-- `g_i.advance(delta)` -/
  | advance (i : Nat) (delta : Int)

/-- What a call returns. After `hang` and `ub` nothing more happens. -/
inductive SRes where
  | val (o : Out)
  | done
  | err (e : PyErr)
  | noObject
  | noMethod
  | ub
  | hang
  deriving DecidableEq, Repr

/-- Outcome of a call that makes or changes an instance. -/
inductive Made (σ : Type) where
  | ok (s : σ)
  | err (e : PyErr)
  | hang
  | ub

/-- A bit generator class. -/
structure GCls (Par Seed σ : Type) where
  /-- the constructor -/
  new : Par → Seed → Made σ
  /-- `seed` -/
  seed : Seed → σ → Made σ
  /-- the draw functions; `none` is undefined behaviour -/
  op : Op → σ → Option (Out × σ)
  get : σ → PyVal
  set : PyVal → SetM σ Unit
  /-- `jump_inplace` -/
  inplace : Option (Int → σ → Made σ)
  /-- whether the class has `jump`, and whether it takes a C integer -/
  jump : Option Bool
  /-- the constructor call in `jumped`, where the seed is that of the old instance, and whether `jumped` takes a C integer -/
  clone : Option (Bool × (Seed → σ → Made σ))
  advance : Option (Int → σ → Made σ)
  /-- what a `seed` that raises leaves behind -/
  seedFail : Seed → σ → σ := fun _ s => s

/-- The instances, each with its seed sequence, and the saved states. -/
structure SHeap (Seed σ : Type) where
  insts : List (Seed × σ)
  dicts : List PyVal

/-- Conversion to `np.npy_intp` (64 bits). -/
def isIntp (n : Int) : Bool := -2 ^ 63 ≤ n && n < 2 ^ 63

namespace GCls
variable {Par Seed σ : Type} (C : GCls Par Seed σ)

/-- One call. Assigning a state stores what the setter has stored, also when it raises. -/
def step (h : SHeap Seed σ) : SOp Par Seed → SRes × SHeap Seed σ
  | .new p sd => match C.new p sd with
    | .ok s => (.done, { h with insts := h.insts ++ [(sd, s)] })
    | .err e => (.err e, h)
    | .hang => (.hang, h)
    | .ub => (.ub, h)
  | .seed i sd => match h.insts[i]? with
    | none => (.noObject, h)
    | some (sd0, s) => match C.seed sd s with
      | .ok s' => (.done, { h with insts := h.insts.set i (sd, s') })
      | .err e => (.err e, { h with insts := h.insts.set i (sd0, C.seedFail sd s) })
      | .hang => (.hang, h)
      | .ub => (.ub, h)
  | .draw i o => match h.insts[i]? with
    | none => (.noObject, h)
    | some (sd, s) => match C.op o s with
      | some r => (.val r.1, { h with insts := h.insts.set i (sd, r.2) })
      | none => (.ub, h)
  | .save i => match h.insts[i]? with
    | none => (.noObject, h)
    | some (_, s) => (.done, { h with dicts := h.dicts ++ [C.get s] })
  | .load i j => match h.insts[i]?, h.dicts[j]? with
    | some (sd, s), some v => match C.set v s with
      | (.ok _, s') => (.done, { h with insts := h.insts.set i (sd, s') })
      | (.err e, s') => (.err e, { h with insts := h.insts.set i (sd, s') })
      | (.ub, _) => (.ub, h)
    | _, _ => (.noObject, h)
  | .jump i n => match h.insts[i]? with
    | none => (.noObject, h)
    | some (sd, s) => match C.jump, C.inplace with
      | some c, some f => if c && !isIntp n then (.err .overflowError, h) else match f n s with
        | .ok s' => (.done, { h with insts := h.insts.set i (sd, s') })
        | .err e => (.err e, h)
        | .hang => (.hang, h)
        | .ub => (.ub, h)
      | _, _ => (.noMethod, h)
  | .jumped i n => match h.insts[i]? with
    | none => (.noObject, h)
    | some (sd, s) => match C.clone, C.inplace with
      | some (c, build), some f => if c && !isIntp n then (.err .overflowError, h) else match build sd s with
        | .ok t => match C.set (C.get s) t with
          | (.ok _, t') => match f n t' with
            | .ok t' => (.done, { h with insts := h.insts ++ [(sd, t')] })
            | .err e => (.err e, h)
            | .hang => (.hang, h)
            | .ub => (.ub, h)
          | (.err e, _) => (.err e, h)
          | (.ub, _) => (.ub, h)
        | .err e => (.err e, h)
        | .hang => (.hang, h)
        | .ub => (.ub, h)
      | _, _ => (.noMethod, h)
  | .advance i d => match h.insts[i]? with
    | none => (.noObject, h)
    | some (sd, s) => match C.advance with
      | some f => match f d s with
        | .ok s' => (.done, { h with insts := h.insts.set i (sd, s') })
        | .err e => (.err e, h)
        | .hang => (.hang, h)
        | .ub => (.ub, h)
      | none => (.noMethod, h)

/-- A program: the results of its calls. -/
def run (h : SHeap Seed σ) : List (SOp Par Seed) → List SRes
  | [] => []
  | o :: os => match C.step h o with
    | (.hang, _) => [.hang]
    | (.ub, _) => [.ub]
    | (r, h') => r :: run h' os

/-- A program from the start. -/
def program (os : List (SOp Par Seed)) : List SRes := C.run ⟨[], []⟩ os

end GCls

/-! ### The classes -/

/-- The cached half as in the C structures. The draws test `has_uint32` for being non-zero and store 0 or 1. -/
def halfI (b : Bool) : U32 := if b then 1 else 0

/-- Draws of a class whose C structure is read as a `Buf`. -/
def bufOp {σ κ : Type} (nx : κ → U64 × κ) (view : σ → Buf κ) (put : σ → Buf κ → σ) (o : Op) (s : σ) : Option (Out × σ) :=
  some ((Buf.op nx o (view s)).1, put s (Buf.op nx o (view s)).2)

/-! #### Xoshiro256 -/

def xo256View (x : XoshI 4) : Buf S4 := ⟨⟨x.s[0], x.s[1], x.s[2], x.s[3]⟩, x.has != 0, x.uint⟩
def xo256Put (_ : XoshI 4) (b : Buf S4) : XoshI 4 := ⟨#v[b.core.s0, b.core.s1, b.core.s2, b.core.s3], halfI b.has, b.uinteger⟩

/-- xoshiro256.pyx: `__init__` :118-126, `jump` :182-208, `jumped` :210-235 -/
def xo256Cls : GCls Unit (Nat → U64) (XoshI 4) where
  new _ gen := .ok (xoshReseed gen ⟨Vector.replicate 4 0, 0, 0⟩)
  seed gen s := .ok (xoshReseed gen s)
  op := bufOp xosh256Next xo256View xo256Put
  get := xoshGet "randomgen.xoshiro256.Xoshiro256"
  set := xoshSet "Xoshiro256" "randomgen.xoshiro256.Xoshiro256"
  inplace := some fun n s => .ok (xo256Put s (xosh256JumpInplace (xo256View s) n))
  jump := some true
  clone := some (true, fun gen _ => .ok (xoshReseed gen ⟨Vector.replicate 4 0, 0, 0⟩))
  advance := none

/-! #### Xoshiro512 -/

def xo512View (x : XoshI 8) : Buf S8 :=
  ⟨⟨x.s[0], x.s[1], x.s[2], x.s[3], x.s[4], x.s[5], x.s[6], x.s[7]⟩, x.has != 0, x.uint⟩
def xo512Put (_ : XoshI 8) (b : Buf S8) : XoshI 8 :=
  ⟨#v[b.core.s0, b.core.s1, b.core.s2, b.core.s3, b.core.s4, b.core.s5, b.core.s6, b.core.s7], halfI b.has, b.uinteger⟩

/-- xoshiro512.pyx: `__init__` :115-123, `jump` :179-205, `jumped` :207-232 -/
def xo512Cls : GCls Unit (Nat → U64) (XoshI 8) where
  new _ gen := .ok (xoshReseed gen ⟨Vector.replicate 8 0, 0, 0⟩)
  seed gen s := .ok (xoshReseed gen s)
  op := bufOp xosh512Next xo512View xo512Put
  get := xoshGet "randomgen.xoshiro512.Xoshiro512"
  set := xoshSet "Xoshiro512" "randomgen.xoshiro512.Xoshiro512"
  inplace := some fun n s => .ok (xo512Put s (xosh512JumpInplace (xo512View s) n))
  jump := some true
  clone := some (true, fun gen _ => .ok (xoshReseed gen ⟨Vector.replicate 8 0, 0, 0⟩))
  advance := none

/-! #### Xoroshiro128 -/

def xoroView (x : XoroI) : Buf S2 := ⟨⟨x.s[0], x.s[1]⟩, x.has != 0, x.uint⟩
def xoroPut (x : XoroI) (b : Buf S2) : XoroI := { x with s := #v[b.core.s0, b.core.s1], has := halfI b.has, uint := b.uinteger }

/-- xoroshiro128.pyx: `__init__` :131-136 with the argument `plusplus`, `jump_inplace` :188-205 (by `_plusplus`, while the draws are by the
installed functions), `jump` :207-232, `jumped` :234-259 (a new instance with the default `plusplus=False`) -/
def xoroCls : GCls Bool (Nat → U64) XoroI where
  new pp gen := .ok (xoroReseed gen ⟨Vector.replicate 2 0, 0, 0, pp, pp⟩)
  seed gen s := .ok (xoroReseed gen s)
  op o s := bufOp (xoroNext s.actPlusplus) xoroView xoroPut o s
  get := xoroGet
  set := xoroSet
  inplace := some fun n s => .ok (xoroPut s (Xoro.jumpInplace ⟨xoroView s, s.plusplus⟩ n).buf)
  jump := some true
  clone := some (true, fun gen _ => .ok (xoroReseed gen ⟨Vector.replicate 2 0, 0, 0, false, false⟩))
  advance := none

/-! #### Xorshift1024 -/

/-- The structure as the functions of `Model/XorLinear` see it, for a position in range. -/
def xs1024View (x : Xs1024I) : Buf X16 := ⟨⟨fun i => x.s[i], ⟨x.p.toNat % 16, Nat.mod_lt _ (by decide)⟩⟩, x.has != 0, x.uint⟩
def xs1024Put (_ : Xs1024I) (b : Buf X16) : Xs1024I := ⟨Vector.ofFn b.core.s, BitVec.ofNat 32 b.core.p.val, halfI b.has, b.uinteger⟩

/-- xorshift1024.pyx: `__init__` :118-126, `jump` :183-209, `jumped` :211-236. A position outside the array is undefined behaviour in the
draws (`not_C13_*`). -/
def xs1024Cls : GCls Unit (Nat → U64) Xs1024I where
  new _ gen := .ok (xs1024Reseed gen ⟨Vector.replicate 16 0, 0, 0, 0⟩)
  seed gen s := .ok (xs1024Reseed gen s)
  op o s := if 0 ≤ s.p.toInt ∧ s.p.toInt < 16 then bufOp xors1024Next xs1024View xs1024Put o s else none
  get := xs1024Get
  set := xs1024Set
  inplace := some fun n s => .ok (xs1024Put s (xors1024JumpInplace (xs1024View s) n))
  jump := some true
  clone := some (true, fun gen _ => .ok (xs1024Reseed gen ⟨Vector.replicate 16 0, 0, 0, 0⟩))
  advance := none

/-! #### LXM -/

def lxmView (x : LxmI) : Buf Lxm := ⟨⟨⟨x.x[0], x.x[1], x.x[2], x.x[3]⟩, x.lcg, x.b⟩, x.has != 0, x.uint⟩
def lxmPut (_ : LxmI) (b : Buf Lxm) : LxmI :=
  ⟨#v[b.core.x.s0, b.core.x.s1, b.core.x.s2, b.core.x.s3], b.core.lcg, b.core.b, halfI b.has, b.uinteger⟩

/-- A seeding that does not end is `hang`. -/
def madeOf {σ : Type} : Option σ → Made σ
  | some s => .ok s
  | none => .hang

/-- lxm.pyx: `__init__` :129-138 (`b` is stored after seeding), `jump` :199-225, `jumped` :227-252 (a new instance with the default `b`) -/
def lxmCls : GCls U64 (Nat → U64) LxmI where
  new b gen := madeOf ((lxmReseed gen ⟨Vector.replicate 4 0, 0, 0, 0, 0⟩).map fun s => { s with b := b ||| 1 })
  seed gen s := madeOf (lxmReseed gen s)
  op := bufOp lxmNext lxmView lxmPut
  get := lxmGet
  set := lxmSet
  inplace := some fun n s => .ok (lxmPut s (lxmJumpInplace (lxmView s) n))
  jump := some true
  clone := some (true, fun gen _ => madeOf ((lxmReseed gen ⟨Vector.replicate 4 0, 0, 0, 0, 0⟩).map fun s => { s with b := 3037000493 ||| 1 }))
  advance := none

/-! #### SFC64 -/

def sfcView (x : SfcI) : Buf Sfc := ⟨⟨x.a, x.b, x.c, x.w, x.k⟩, x.has != 0, x.uint⟩
def sfcPut (_ : SfcI) (b : Buf Sfc) : SfcI := ⟨b.core.a, b.core.b, b.core.c, b.core.w, b.core.k, halfI b.has, b.uinteger⟩

/-- sfc.pyx: `__init__` :125-135 with the arguments `w` and `k`, kept as attributes and used by every later `seed`; no jump, no advance. The
instance is the attributes and the structure. -/
def sfcCls : GCls (Option U64 × Option U64) (Nat → U64) ((Option U64 × Option U64) × SfcI) where
  new p gen := .ok (p, sfcReseed p.1 p.2 gen ⟨0, 0, 0, 0, 0, 0, 0⟩)
  seed gen s := .ok (s.1, sfcReseed s.1.1 s.1.2 gen s.2)
  op o s := (bufOp sfcNext sfcView sfcPut o s.2).map fun r => (r.1, s.1, r.2)
  get s := sfcGet s.2
  set v s := ((sfcSet v s.2).1, s.1, (sfcSet v s.2).2)
  inplace := none
  jump := none
  clone := none
  advance := none

/-! #### Romu -/

def romuView (x : RomuI) : Buf Romu := ⟨⟨x.w, x.x, x.y, x.z⟩, x.has != 0, x.uint⟩
def romuPut (x : RomuI) (b : Buf Romu) : RomuI :=
  { x with w := b.core.w, x := b.core.x, y := b.core.y, z := b.core.z, has := halfI b.has, uint := b.uinteger }

/-- The name of a variant. -/
def romuName (quad : Bool) : String := if quad then "quad" else "trio"

/-- romu.pyx: `__init__` :94-101 with the argument `variant`; no jump, no advance -/
def romuCls : GCls Bool (Nat → U64) RomuI where
  new q gen := .ok (romuReseed gen ⟨0, 0, 0, 0, 0, 0, romuName q, q⟩)
  seed gen s := .ok (romuReseed gen s)
  op o s := bufOp (if s.actQuad then romuQuadNext else romuTrioNext) romuView romuPut o s
  get := romuGet
  set := romuSet
  inplace := none
  jump := none
  clone := none
  advance := none

/-! #### PCG64, PCG64DXSM -/

/-- The variant the draws use: the installed functions (`actCheap`) and, for the others, the flag of the structure. -/
def pcg64Variant (x : Pcg64I) : Pcg.Variant := if x.actCheap then .cmDxsm else if x.cDxsm != 0 then .dxsm128 else .xslRr
/-- The same for `advance`, which goes by the attribute `cheap_multiplier` (pcg64.pyx:397-399). -/
def pcg64AdvVariant (x : Pcg64I) : Pcg.Variant := if x.cheap then .cmDxsm else if x.cDxsm != 0 then .dxsm128 else .xslRr

def pcg64View (v : Pcg.Variant) (x : Pcg64I) : Buf Pcg.Core := ⟨⟨x.state, x.inc, v⟩, x.has != 0, x.uint⟩
def pcg64Put (x : Pcg64I) (b : Buf Pcg.Core) : Pcg64I :=
  { x with state := b.core.state, inc := b.core.inc, has := halfI b.has, uint := b.uinteger }

/-- `advance` (pcg64.pyx:356-401); `_reset_state_variables` (:235-238) also stores `use_dxsm`. -/
def pcg64AdvI (d : Int) (x : Pcg64I) : Pcg64I :=
  let y := pcg64Put x (Pcg.advance (pcg64View (pcg64AdvVariant x) x) d)
  { y with cDxsm := if x.useDxsm then 1 else 0 }

/-- `jump_inplace` (pcg64.pyx:403-423) -/
def pcg64JumpI (n : Int) (x : Pcg64I) : Pcg64I :=
  let step := Pcg.phi128 * n
  pcg64AdvI (step - 2 ^ 128 * Int.fdiv step (2 ^ 128)) x

/-- The attribute `variant` after the constructor's normalisation, before `_setup_rng_state`. -/
def variantName : Pcg.Variant → String
  | .cmDxsm => "dxsm"
  | .dxsm128 => "dxsm128"
  | .xslRr => "xslrr"

/-- A new instance before seeding: pcg64.pyx:166-195. -/
def pcg64Fresh (v : Pcg.Variant) : Pcg64I := pcg64Setup ⟨0, 0, 0, 0, 0, variantName v, false, false, false⟩

/-- The constructor with `numpy_seed`: any variant but `xsl-rr` and any `inc` is refused (pcg64.pyx:182-192). The test is on the name as
given; `jumped` gives the attribute `variant`. -/
def pcg64New (numpy : Bool) (name : String) (v : Pcg.Variant) (gen : Nat → U64) (inc : Option U128) : Made (Bool × Pcg64I) :=
  if numpy && (name != "xsl-rr" || inc.isSome) then .err .valueError else .ok (numpy, pcg64Reseed gen inc (pcg64Fresh v))

/-- The variant meant by a value of the attribute `variant`, after `lower().replace("-", "")` (pcg64.pyx:173-181, 198-209). -/
def variantOf (name : String) : Pcg.Variant :=
  if name = "dxsm" then .cmDxsm else if name = "dxsm-128" then .dxsm128 else .xslRr

/-- The name the caller uses for a variant. -/
def variantArg : Pcg.Variant → String
  | .cmDxsm => "dxsm"
  | .dxsm128 => "dxsm-128"
  | .xslRr => "xsl-rr"

/-- pcg64.pyx: `__init__` :157-196, `seed` with `inc` after its checks (and
`_seed_from_seq_numpy_compat` :256-259), `jump` :425-457, `jumped` :459-494 (the new instance gets the variant
and the seeding mode). The instance is the mode (`true` for numpy) and the structure. -/
def pcg64Cls : GCls (Bool × Pcg.Variant) ((Nat → U64) × Option U128) (Bool × Pcg64I) where
  new p sd := pcg64New p.1 (variantArg p.2) p.2 sd.1 sd.2
  seed sd s := if s.1 && sd.2.isSome then .err .valueError else .ok (s.1, pcg64Reseed sd.1 sd.2 s.2)
  op o s := (bufOp Pcg.next (pcg64View (pcg64Variant s.2)) pcg64Put o s.2).map fun r => (r.1, s.1, r.2)
  get s := pcg64Get s.2
  set v s := ((pcg64Set v s.2).1, s.1, (pcg64Set v s.2).2)
  inplace := some fun n s => .ok (s.1, pcg64JumpI n s.2)
  jump := some true
  clone := some (false, fun sd s => pcg64New s.1 s.2.variant (variantOf s.2.variant) sd.1 none)
  advance := some fun d s => .ok (s.1, pcg64AdvI d s.2)

/-- pcg64.pyx: `PCG64DXSM.__init__` :1069-1070, `jumped` :1127-1156; `jump` raises `NotImplementedError` (:1158-1162), here as a missing
method -/
def pcg64DxsmCls : GCls Unit ((Nat → U64) × Option U128) Pcg64I where
  new _ sd := .ok (pcg64Reseed sd.1 sd.2 (pcg64Fresh .cmDxsm))
  seed sd s := .ok (pcg64Reseed sd.1 sd.2 s)
  op o s := bufOp Pcg.next (pcg64View (pcg64Variant s)) pcg64Put o s
  get := pcg64DxsmGet
  set := pcg64DxsmSet
  inplace := some fun n s => .ok (pcg64JumpI n s)
  jump := none
  clone := some (false, fun sd _ => .ok (pcg64Reseed sd.1 none (pcg64Fresh .cmDxsm)))
  advance := some fun d s => .ok (pcg64AdvI d s)

/-! #### PCG32 -/

def pcg32View (x : Pcg32I) : Pcg32.Core := ⟨x.state, x.inc⟩
def pcg32Put (c : Pcg32.Core) : Pcg32I := ⟨c.state, c.inc⟩

/-- The draws of PCG32: pcg32.h:64-77. `hiFirst`: the order in which the compiler evaluates the two calls of `pcg32_next64` (C52). -/
def pcg32Op (hiFirst : Bool) (o : Op) (s : Pcg32I) : Option (Out × Pcg32I) := match o with
  | .u32 => some (.o32 (Pcg32.next (pcg32View s)).1, pcg32Put (Pcg32.next (pcg32View s)).2)
  | .u64 => some (.o64 (twoCalls Pcg32.next hiFirst (pcg32View s)).1, pcg32Put (twoCalls Pcg32.next hiFirst (pcg32View s)).2)
  | .dbl => some (.odbl (Doubles.dblCalls Pcg32.next (pcg32View s)).1, pcg32Put (Doubles.dblCalls Pcg32.next (pcg32View s)).2)

/-- pcg32.pyx: `__init__` :104-111, `advance` :179-214, `jump_inplace` :216-232, `jump` :234-262, `jumped` :264-293 -/
def pcg32Cls (hiFirst : Bool) : GCls Unit ((Nat → U64) × Option U64) Pcg32I where
  new _ sd := .ok (pcg32Reseed sd.1 sd.2 ⟨0, 0⟩)
  seed sd s := .ok (pcg32Reseed sd.1 sd.2 s)
  op := pcg32Op hiFirst
  get := pcg32Get
  set := pcg32Set
  inplace := some fun n s => .ok (pcg32Put (Pcg32.jumped (pcg32View s) n))
  jump := some false
  clone := some (false, fun sd _ => .ok (pcg32Reseed sd.1 none ⟨0, 0⟩))
  advance := some fun d s => .ok (pcg32Put (Pcg32.advance (pcg32View s) d))

end Verif
