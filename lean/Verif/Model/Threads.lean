import Verif.Common.Draw
import Verif.Model.XorLinear
import Verif.Model.Rdrand
import Mathlib.Logic.Function.Basic

/-! Threads that share one bit generator: its lock (`BitGenerator.lock`) and the global interpreter lock.

An operation of a method is a list of accesses to the shared state; other threads can come between any two of them. `with lock, nogil:`
is an operation that holds the lock and gives up the GIL, `with lock:` one that holds both, a method without either holds the GIL only
(all of them start and end with the GIL). A blocked `acquire` gives up the GIL, so an operation starts when all it needs is free.
The interpreter may switch threads between operations only: Cython code does not give up the GIL in the middle.

The operations of the package:
* `with lock, nogil`: `random_raw` and `_benchmark` (common.pyx:186-195, 238-254), `RDRAND.random_raw` (rdrand.pyx:369-371, 390-392),
  `uintegers` (generator.pyx:276-288), `random` (generator.pyx:350-369, broadcasting.pyx:112-162), `complex_normal` with a size or arrays
  (generator.pyx:663-706), `standard_wishart`, `wishart` (generator.pyx:725, 800, 976);
* `with lock`: the same methods for one value, `SFC64.weyl_increments` (sfc.pyx:184);
* neither: `complex_normal()` of scalars without a size (generator.pyx:650-656), every `state` getter and setter, `seed`, `advance`,
  `jump`, `jumped`, and the update of the status after `RDRAND.random_raw` (rdrand.pyx:372, 393). -/

namespace Verif

open XorLinear

/-- An operation on the shared state `σ` with local memory `L`. -/
structure TOp (σ L : Type) where
  locked : Bool
  nogil : Bool
  body : List (σ × L → σ × L)

/-- A thread: the operations still to start, the running one (with the accesses left and the local memory), and the local memories
the finished ones left. -/
structure Thread (σ L : Type) where
  prog : List (TOp σ L)
  cur : Option (TOp σ L × List (σ × L → σ × L) × L)
  done : List L

/-- The shared state, the holders of the two locks, and the threads. -/
structure World (σ L : Type) where
  mem : σ
  lock : Option Nat
  gil : Option Nat
  th : Nat → Thread σ L

variable {σ L : Type}

/-- Thread `t` gets the processor for one access, one start or one end of an operation; nothing happens if it has to wait. -/
def World.step (l0 : L) (w : World σ L) (t : Nat) : World σ L :=
  match (w.th t).cur with
  | none =>
    match (w.th t).prog with
    | [] => w
    | o :: os =>
      if w.gil = none ∧ (o.locked = true → w.lock = none) then
        ⟨w.mem, if o.locked then some t else w.lock, if o.nogil then none else some t,
          Function.update w.th t ⟨os, some (o, o.body, l0), (w.th t).done⟩⟩
      else w
  | some (o, [], l) =>
    if o.nogil = true → w.gil = none then
      ⟨w.mem, if o.locked then none else w.lock, none, Function.update w.th t ⟨(w.th t).prog, none, (w.th t).done ++ [l]⟩⟩
    else w
  | some (o, a :: as, l) =>
    ⟨(a (w.mem, l)).1, w.lock, w.gil, Function.update w.th t ⟨(w.th t).prog, some (o, as, (a (w.mem, l)).2), (w.th t).done⟩⟩

/-- The schedule `sch` says which thread gets the processor when. -/
def World.run (l0 : L) (w : World σ L) (sch : List Nat) : World σ L := sch.foldl (World.step l0) w

/-- The start: nothing runs, nothing is held. -/
def World.start (m : σ) (progs : Nat → List (TOp σ L)) : World σ L := ⟨m, none, none, fun t => ⟨progs t, none, []⟩⟩

/-! ## Draws -/

/-- Local memory of a draw: the copy of the state `next` works on, and the values so far. -/
abbrev DrawMem (σ α : Type) := Option σ × List α

/-- `next` of kind `k` in two accesses: it reads the state, and later writes the new one. -/
def drawAcc {κ α : Type} (nx : κ → σ → α × σ) (k : κ) : List (σ × DrawMem σ α → σ × DrawMem σ α) :=
  [fun x => (x.1, some x.1, x.2.2),
   fun x => match x.2.1 with
    | none => x
    | some s => ((nx k s).2, none, x.2.2 ++ [(nx k s).1])]

/-- A loop of draws of the kinds `ks`. -/
def drawOp {κ α : Type} (nx : κ → σ → α × σ) (locked nogil : Bool) (ks : List κ) : TOp σ (DrawMem σ α) :=
  ⟨locked, nogil, ks.flatMap (drawAcc nx)⟩

/-- Assignment to the state (`seed`, the `state` setter) in one access. -/
def assignOp {α : Type} (s : σ) : TOp σ (DrawMem σ α) := ⟨false, false, [fun x => (s, x.2)]⟩

/-- `advance`, `jump`: read the state, write the new one. -/
def updateOp {α : Type} (f : σ → σ) : TOp σ (DrawMem σ α) :=
  ⟨false, false, [fun x => (x.1, some x.1, x.2.2), fun x => match x.2.1 with | none => x | some s => (f s, none, x.2.2)]⟩

/-! ## The words of Xoroshiro128 -/

/-- Local memory: the variables `s0`, `s1`, and the words copied by the getter. -/
abbrev XoroMem := U64 × U64

/-- `xoroshiro128_next` access by access (xoroshiro128.h:18-29), inside `random_raw(1)`. -/
def xoroDrawOp : TOp S2 XoroMem :=
  ⟨true, true,
    [fun x => (x.1, x.1.s0, x.2.2), fun x => (x.1, x.2.1, x.1.s1),
     fun x => (⟨rotl64 x.2.1 24 ^^^ (x.2.2 ^^^ x.2.1) ^^^ ((x.2.2 ^^^ x.2.1) <<< 16), x.1.s1⟩, x.2),
     fun x => (⟨x.1.s0, rotl64 (x.2.2 ^^^ x.2.1) 37⟩, x.2)]⟩

/-- The `state` getter of Xoroshiro128 (xoroshiro128.pyx:261-263). -/
def xoroGetOp : TOp S2 XoroMem := ⟨false, false, [fun x => (x.1, x.1.s0, x.2.2), fun x => (x.1, x.2.1, x.1.s1)]⟩

/-! ## RDRAND -/

/-- Local memory: the variable `status`, the flag read for `&=`, the values drawn (`none` is an access outside the buffer), and whether
the call raised. -/
structure RdMem where
  status : Int
  flag : Int
  vals : List (Option U64)
  raised : Bool
  deriving DecidableEq

/-- `random_raw(1)` of RDRAND: the loop under the lock (rdrand.pyx:389-392). -/
def rdRaw1 (hw : Hw) : TOp Rdr RdMem :=
  ⟨true, true, [fun x =>
    let r := rdDirect hw 0 x.1
    (r.2, { x.2 with status := r.2.status, vals := x.2.vals ++ [some r.1] })]⟩

/-- `self.rng_state.status &= status` after the lock is released (rdrand.pyx:393); `status` is what the loop left. -/
def rdAnd (status : Int) : TOp Rdr RdMem :=
  ⟨false, false,
    [fun x => (x.1, { x.2 with flag := x.1.status }),
     fun x => ({ x.1 with status := if x.2.flag = 1 ∧ status = 1 then 1 else 0 }, x.2)]⟩

/-- A 64-bit draw from the buffer under the lock, e.g. `uintegers(1)`. `RaisingLock` clears the error of the thread when the lock is
acquired, and raises it when the lock is released (rdrand.pyx:80-99). -/
def rdDraw (hw : Hw) : TOp Rdr RdMem :=
  ⟨true, true, [fun x =>
    match rdNext64 hw { x.1 with err := false } with
    | none => (x.1, { x.2 with vals := x.2.vals ++ [none] })
    | some r => ({ r.2 with err := false }, { x.2 with vals := x.2.vals ++ [some r.1], raised := r.2.err })]⟩

end Verif
