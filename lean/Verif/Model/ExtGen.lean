import Verif.Model.Session2
import Verif.Model.Session4
import Verif.Model.Session5
import Verif.Model.Session6

/-! `ExtendedGenerator` and the bit generator it wraps (randomgen/generator.pyx:160-292, randomgen/_pickle.py:57-108). The constructor copies the
structure `bitgen_t` of the bit generator, that is the pointer to its state and the pointers to its draw functions (generator.pyx:175), and `uintegers`
(generator.pyx:236-292) and `random` call the copied functions. The bit generator goes on replacing its own function pointers when its state is set.
Represented are the draws of a 64-bit word, of a 32-bit word and of a double. -/

namespace Verif

/-- How the instances of a class hold the installed draw functions: reading them, and the instance as it would be with other ones. -/
structure Fns (φ σ : Type) where
  fns : σ → φ
  put : φ → σ → σ

/-- An `ExtendedGenerator`: the copied functions and the bit generator. -/
structure Eg (φ σ : Type) where
  f : φ
  bg : σ

/-- What can be done with an `ExtendedGenerator` and, through the attribute `bit_generator`, with its bit generator. -/
inductive EgOp (Seed : Type) where
  /-- a draw by `uintegers` or `random` -/
  | draw (o : Op)
  /-- a draw by the bit generator itself (`bit_generator.random_raw()`) -/
  | raw (o : Op)
  /-- `state = v` (generator.pyx:232-234), which is `bit_generator.state = v` -/
  | setState (v : PyVal)
  /-- `bit_generator.seed(…)` -/
  | seed (sd : Seed)
  /-- `bit_generator.jump(n)` -/
  | jump (n : Int)
  /-- `bit_generator.advance(d)` -/
  | advance (d : Int)

/-- What a call does. -/
inductive EgRes where
  | out (x : Out)
  | done
  | err (e : PyErr)
  | noMethod
  | hang
  | ub
  deriving DecidableEq

/-- The outcome of a method that returns nothing; `old` is what it leaves when it raises. -/
def madeRes {σ : Type} (old : σ) : Made σ → EgRes × σ
  | .ok s => (.done, s)
  | .err e => (.err e, old)
  | .hang => (.hang, old)
  | .ub => (.ub, old)

/-- The outcome of a draw. -/
def drawRes {σ : Type} (old : σ) : Option (Out × σ) → EgRes × σ
  | some (x, s) => (.out x, s)
  | none => (.ub, old)

/-- The outcome of an assignment to `state`. -/
def setRes {σ : Type} : Res Unit × σ → EgRes × σ
  | (.ok _, s) => (.done, s)
  | (.err e, s) => (.err e, s)
  | (.ub, s) => (.ub, s)

section
variable {Par Seed σ φ : Type} (C : GCls Par Seed σ) (W : Fns φ σ)

/-- A method of the bit generator called directly; draws are those of its own functions. -/
def bgCall (s : σ) : EgOp Seed → EgRes × σ
  | .draw o => drawRes s (C.op o s)
  | .raw o => drawRes s (C.op o s)
  | .setState v => setRes (C.set v s)
  | .seed sd => madeRes (C.seedFail sd s) (C.seed sd s)
  | .jump n => match C.jump, C.inplace with
    | some c, some f => if c && !isIntp n then (.err .overflowError, s) else madeRes s (f n s)
    | _, _ => (.noMethod, s)
  | .advance d => match C.advance with
    | some f => madeRes s (f d s)
    | none => (.noMethod, s)

/-- A draw by the copied functions on the state of the bit generator, which keeps its own (generator.pyx:268-288). -/
def egDraw (e : Eg φ σ) (o : Op) : Option (Out × σ) := (C.op o (W.put e.f e.bg)).map fun r => (r.1, W.put (W.fns e.bg) r.2)

/-- A call on an `ExtendedGenerator`. -/
def egCall (e : Eg φ σ) : EgOp Seed → EgRes × Eg φ σ
  | .draw o => ((drawRes e.bg (egDraw C W e o)).1, ⟨e.f, (drawRes e.bg (egDraw C W e o)).2⟩)
  | o => ((bgCall C e.bg o).1, ⟨e.f, (bgCall C e.bg o).2⟩)

/-- The results of a program on an `ExtendedGenerator`; it ends where a call does not return or is undefined. -/
def egRun (e : Eg φ σ) : List (EgOp Seed) → List EgRes
  | [] => []
  | o :: os => match egCall C W e o with
    | (.hang, _) => [.hang]
    | (.ub, _) => [.ub]
    | (r, e') => r :: egRun e' os

/-- The results of the same program on the bit generator alone. -/
def bgRun (s : σ) : List (EgOp Seed) → List EgRes
  | [] => []
  | o :: os => match bgCall C s o with
    | (.hang, _) => [.hang]
    | (.ub, _) => [.ub]
    | (r, s') => r :: bgRun s' os

/-- `ExtendedGenerator(bit_generator)` (generator.pyx:164-178). -/
def egNew (s : σ) : Eg φ σ := ⟨W.fns s, s⟩

/-- `pickle.loads(pickle.dumps(e))`, also what `copy.copy` and `copy.deepcopy` do: `__reduce__` (generator.pyx:196-199) gives the name and the state
of the bit generator, `__extended_generator_ctor` (_pickle.py:86-108) makes an instance `b` of the class without arguments and an
`ExtendedGenerator` of it, and `__setstate__` (generator.pyx:193-194) assigns the state. -/
def egCopy (b : σ) (e : Eg φ σ) : EgRes × Eg φ σ :=
  let r := setRes (C.set (C.get e.bg) (egNew W b).bg)
  (r.1, ⟨(egNew W b).f, r.2⟩)

end

/-! ### The installed functions of the classes with variants -/

/-- `_set_generators`, xoroshiro128.pyx:138-148. -/
def xoroFns : Fns Bool XoroI := ⟨fun s => s.actPlusplus, fun f s => { s with actPlusplus := f }⟩
/-- `_setup_bitgen`, romu.pyx:102-112. -/
def romuFns : Fns Bool RomuI := ⟨fun s => s.actQuad, fun f s => { s with actQuad := f }⟩
/-- `_setup_bitgen`, tyche.pyx:117-127. -/
def tycheFns : Fns Bool TycheI := ⟨fun s => s.actOriginal, fun f s => { s with actOriginal := f }⟩
/-- `setup_generator`, jsf.pyx:213-226. -/
def jsfFns : Fns Bool JsfI := ⟨fun s => s.act64, fun f s => { s with act64 := f }⟩
/-- `_setup_bitgen`, squares.pyx:448-458. -/
def squaresFns : Fns Bool SquaresI := ⟨fun s => s.act64, fun f s => { s with act64 := f }⟩
/-- `_setup_rng_state`, pcg64.pyx:198-220. -/
def pcg64Fns : Fns Bool (Bool × Pcg64I) := ⟨fun s => s.2.actCheap, fun f s => (s.1, { s.2 with actCheap := f })⟩
/-- `_setup_generator`, philox.pyx:194-215, threefry.pyx:189-210: the functions for a number of words and a width. -/
def ctrFns : Fns (U32 × U32) (Bool × CtrI) :=
  ⟨fun s => (s.2.actN, s.2.actW), fun f s => (s.1, { s.2 with actN := f.1, actW := f.2 })⟩

/-- `ExtendedGenerator()` for the words of a seed sequence: the bit generator is `PCG64(variant="dxsm")` (generator.pyx:165-166). -/
def egDefault (gen : Nat → U64) : Eg Bool (Bool × Pcg64I) := egNew pcg64Fns (false, pcg64Reseed gen none (pcg64Fresh .cmDxsm))

/-- `PCG64()` (pcg64.pyx:157-196). -/
def pcg64Default (gen : Nat → U64) : Bool × Pcg64I := (false, pcg64Reseed gen none (pcg64Fresh .xslRr))

end Verif
