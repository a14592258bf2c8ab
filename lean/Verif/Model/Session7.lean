import Verif.Model.Session2
import Verif.Model.Sfmt
import Verif.Model.SimdPoly
import Verif.Model.MtPoly

/-! The Mersenne twisters SFMT, DSFMT and MT19937 as classes whose instances programs make, seed, draw from, jump, and give the states of other
instances (randomgen/sfmt.pyx, dsfmt.pyx, mt19937.pyx). -/

namespace Verif

/-! #### SFMT -/

/-- The structure as the functions of `Model/Sfmt` see it; what they see outside the arrays is never read. -/
def sfmtView (x : SfmtI) : Buf Sfmt :=
  ⟨⟨fun i => words128 (fun j => if h : j < 624 then (view32 x.st)[j] else 0) i, fun i => if h : i < 312 then x.buf[i] else 0, x.loc.toInt⟩,
    x.has != 0, x.uint⟩

/-- `idx` is left alone: a new block sets it to 624, which it already is in every instance that has not been given another number. -/
def sfmtPut (x : SfmtI) (b : Buf Sfmt) : SfmtI :=
  ⟨Vector.ofFn fun i : Fin 312 => words64 b.core.st i.val, x.idx, Vector.ofFn fun i : Fin 312 => b.core.buf i.val, BitVec.ofInt 32 b.core.loc, halfI b.has,
    b.uinteger⟩

/-- sfmt.pyx:137-147: 624 words of the seed sequence go through `sfmt_init_by_array`. -/
def sfmtReseed (gen : Nat → U32) (s : SfmtI) : SfmtI :=
  { sfmtPut s ⟨sfmtSeed (sfmtView s).core ((List.range 624).map gen), false, 0⟩ with idx := 624 }

/-- sfmt.pyx: `__init__` :116-129; draws :13-24 and sfmt.h:320-348; `jump_inplace` :173-188, `jump` :190-211, `jumped` :213-238 -/
def sfmtCls : GCls Unit (Nat → U32) SfmtI where
  new _ gen := .ok (sfmtReseed gen ⟨Vector.replicate 312 0, 0, Vector.replicate 312 0, 312, 0, 0⟩)
  seed gen s := .ok (sfmtReseed gen s)
  op := bufOpO sfmtNext64 sfmtView sfmtPut
  get := sfmtGet
  set := sfmtSet
  inplace := some fun n s =>
    match jumpInplace (fun e st => sfmtJump (jumpCoeffs (sfmtPoly e).1 (sfmtPoly e).2) st) n (sfmtView s).core.st with
    | .ok st => .ok (sfmtPut s ⟨{ (sfmtView s).core with st := st, loc := 312 }, false, 0⟩)
    | .error e => .err e
  jump := some true
  clone := some (true, fun gen _ => .ok (sfmtReseed gen ⟨Vector.replicate 312 0, 0, Vector.replicate 312 0, 312, 0, 0⟩))
  advance := none

/-! #### DSFMT -/

/-- As `sfmtView`. -/
def dsfmtView (x : DsfmtI) : Dsfmt :=
  ⟨fun i => if h : i < 191 then ⟨x.st[2 * i], x.st[2 * i + 1]⟩ else ⟨0, 0⟩, ⟨x.st[382], x.st[383]⟩, fun i => if h : i < 382 then x.buf[i] else 0,
    x.loc.toInt⟩

def dsfmtPut (x : DsfmtI) (s : Dsfmt) : DsfmtI :=
  ⟨Vector.ofFn fun i : Fin 384 => if i.val < 382 then wordsD s.st i.val else if i.val = 382 then s.lung.u0 else s.lung.u1, x.idx,
    Vector.ofFn fun i : Fin 382 => s.buf i.val, BitVec.ofInt 32 s.loc⟩

/-- dsfmt.pyx:138-147: 764 words of the seed sequence go through `dsfmt_init_by_array`. -/
def dsfmtReseed (gen : Nat → U32) (s : DsfmtI) : DsfmtI :=
  { dsfmtPut s (dsfmtSeed (dsfmtView s) ((List.range 764).map gen)) with idx := 382 }

/-- The draws (dsfmt.h:652-691). A double is returned as a fraction over `2^53`; `none` also stands for one outside `[0, 1)`, which only a
state with other numbers than those in `[1, 2)` in its array gives. -/
def dsfmtOp (o : Op) (s : Dsfmt) : Option (Out × Dsfmt) := match o with
  | .u64 => (dsfmtNext64 s).map fun r => (.o64 r.1, r.2)
  | .u32 => (dsfmtNext32 s).map fun r => (.o32 r.1, r.2)
  | .dbl => (dsfmtNext s).bind fun r => (dblVal r.1).bind fun v =>
    if 2 ^ 1074 ≤ v ∧ v < 2 * 2 ^ 1074 then some (.odbl ((v - 2 ^ 1074) / 2 ^ 1021).toNat, r.2) else none

/-- dsfmt.pyx: `__init__` :117-130; draws :14-24; `jump_inplace` :173-188, `jump` :190-211, `jumped` :213-238 -/
def dsfmtCls : GCls Unit (Nat → U32) DsfmtI where
  new _ gen := .ok (dsfmtReseed gen ⟨Vector.replicate 384 0, 0, Vector.replicate 382 0, 382⟩)
  seed gen s := .ok (dsfmtReseed gen s)
  op o s := (dsfmtOp o (dsfmtView s)).map fun r => (r.1, dsfmtPut s r.2)
  get := dsfmtGet
  set := dsfmtSet
  inplace := some fun n s =>
    match jumpInplace (fun e (p : (Nat → D128) × D128) => dsfmtJump (jumpCoeffs (dsfmtPoly e).1 (dsfmtPoly e).2) p.1 p.2) n
      ((dsfmtView s).st, (dsfmtView s).lung) with
    | .ok p => .ok (dsfmtPut s { dsfmtView s with st := p.1, lung := p.2, loc := 382 })
    | .error e => .err e
  jump := some true
  clone := some (true, fun gen _ => .ok (dsfmtReseed gen ⟨Vector.replicate 384 0, 0, Vector.replicate 382 0, 382⟩))
  advance := none

/-! #### MT19937 -/

/-- As `sfmtView`. -/
def mt32View (x : Mt32I) : Mt 32 := ⟨fun i => if h : i < 624 then x.key[i] else 0, x.pos.toInt⟩
def mt32Put (s : Mt 32) : Mt32I := ⟨Vector.ofFn fun i : Fin 624 => s.key i.val, BitVec.ofInt 32 s.pos⟩

/-- mt19937.pyx:132-145: 624 words of the seed sequence go through `mt19937_init_by_array`, or in NumPy's mode into the array. -/
def mt32Reseed (numpy : Bool) (gen : Nat → U32) (s : Mt32I) : Mt32I :=
  mt32Put (if numpy then mtSeedNumpy ((List.range 624).map gen) (mt32View s).key else mtSeed32 ((List.range 624).map gen) (mt32View s).key)

/-- The draws (mt19937.h:44-56); `hiFirst`: the order in which the compiler evaluates the two calls of `next64` (C52). -/
def mt32Op (hiFirst : Bool) (o : Op) (s : Mt 32) : Option (Out × Mt 32) := match o with
  | .u32 => (mtNext32 s).map fun r => (.o32 r.1, r.2)
  | .u64 => (twoCallsO mtNext32 hiFirst s).map fun r => (.o64 r.1, r.2)
  | .dbl => do
    let a ← mtNext32 s
    let b ← mtNext32 a.2
    return (.odbl (Doubles.dbl32 a.1 b.1), b.2)

/-- mt19937.pyx: `__init__` :120-127; `jump_inplace` :171-184, `jump` :208-229, `jumped` :231-277; draws :10-20, whose arguments are C `int`s. An instance is the
mode and the structure. -/
def mt32Cls (hiFirst : Bool) : GCls Bool (Nat → U32) (Bool × Mt32I) where
  new numpy gen := .ok (numpy, mt32Reseed numpy gen ⟨Vector.replicate 624 0, 0⟩)
  seed gen s := .ok (s.1, mt32Reseed s.1 gen s.2)
  op o s := (mt32Op hiFirst o (mt32View s.2)).map fun r => (r.1, s.1, mt32Put r.2)
  get s := mt32Get s.2
  set v s := ((mt32Set v s.2).1, s.1, (mt32Set v s.2).2)
  inplace := some fun n s =>
    if n < -2 ^ 31 ∨ n ≥ 2 ^ 31 then .err .overflowError
    else if n < 0 then .err .valueError
    else match mtJumps n.toNat (mt32View s.2) with
      | some t => .ok (s.1, mt32Put t)
      | none => .ub
  jump := some false
  clone := some (false, fun gen s => .ok (s.1, mt32Reseed s.1 gen ⟨Vector.replicate 624 0, 0⟩))
  advance := none

end Verif
