import Verif.Common.Draw
import Verif.Model.Api
import Mathlib.Logic.Function.Basic

/-! RDRAND: randomgen/src/rdrand/rdrand.h and randomgen/rdrand.pyx. The processor is a trace
`hw : Nat → Option U64`: attempt number `t` of the `rdrand` instruction delivers a word or fails. -/

namespace Verif

/-- What successive executions of the instruction deliver. -/
abbrev Hw := Nat → Option U64

/-- `rdrand_state` (rdrand.h:12-18) with the number `t` of attempts made so far and the Python error indicator of the
thread. `weyl_seq` is never read. -/
structure Rdr where
  buffer : Nat → U64
  loc : Int
  status : Int
  retries : Int
  t : Nat
  err : Bool

/-- `while ((status == 0) && (retries_cnt++ <= state->retries)) status = _rdrand64_step(&val)` (rdrand.h:42-64,
:94-112, 64-bit branch) with `k` attempts left: the word if one succeeded, and the attempts used. -/
def rdAttempts (hw : Hw) : Nat → Nat → Option U64 × Nat
  | 0, t => (none, t)
  | k + 1, t =>
    match hw t with
    | some v => (some v, t + 1)
    | none => rdAttempts hw k (t + 1)

/-- The number of attempts allowed: the counter runs over `0, …, retries`. The overflow of the `int` counter for
`retries = INT_MAX` is not modelled. -/
def rdAllowed (retries : Int) : Nat := (retries + 1).toNat

/-- Golden ratio constant `PHI_M_1` (rdrand.h:10). -/
def phiM1 : U64 := 11400714819323198485

/-- Body of the loop of `rdrand_fill_buffer` for index `i` (rdrand.h:39-82). -/
def rdFillOne (hw : Hw) (s : Rdr) (i : Nat) : Rdr :=
  match rdAttempts hw (rdAllowed s.retries) s.t with
  | (some v, t) => { s with buffer := Function.update s.buffer i v, t := t }
  | (none, t) =>
    { s with
      buffer := Function.update s.buffer i (if 0 < i then s.buffer (i - 1) + phiM1 else phiM1)
      status := 0
      t := t }

/-- `rdrand_fill_buffer` (rdrand.h:30-85); the status returned is the field. -/
def rdFill (hw : Hw) (s : Rdr) : Rdr := { (List.range 256).foldl (rdFillOne hw) s with loc := 0 }

/-- `val = state.buffer[state.buffer_loc]; state.buffer_loc += 1`: `none` outside the 256 words. -/
def rdTake (s : Rdr) : Option (U64 × Rdr) :=
  if 0 ≤ s.loc ∧ s.loc < 256 then some (s.buffer s.loc.toNat, { s with loc := s.loc + 1 }) else none

/-- `rdrand_uint64` (rdrand.pyx:26-51). -/
def rdNext64 (hw : Hw) (s : Rdr) : Option (U64 × Rdr) :=
  if s.status = 1 ∧ s.loc < 256 then rdTake s
  else if s.status = 1 then do
    let s := rdFill hw s
    let r ← rdTake s
    if s.status = 0 then return (r.1, { r.2 with err := true }) else return r
  else rdTake s

/-- `rdrand_uint32` (rdrand.pyx:54-56). -/
def rdNext32 (hw : Hw) (s : Rdr) : Option (U32 × Rdr) := (rdNext64 hw s).map fun r => (r.1.truncate 32, r.2)

/-- `rdrand_double` (rdrand.pyx:58-59), numerator over `2^53`. -/
def rdNextDouble (hw : Hw) (s : Rdr) : Option (Nat × Rdr) := do
  let r ← rdNext64 hw s
  return (BitVec.toNat (BitVec.ushiftRight r.1 11), r.2)

/-- `rdrand_next64` (rdrand.h:87-117): value written to `*val` (the instruction writes 0 when it fails; with no attempt
allowed the variable keeps what it held, here `old`), the state with `state->status &= status`. The status returned is
the field. -/
def rdDirect (hw : Hw) (old : U64) (s : Rdr) : U64 × Rdr :=
  match rdAttempts hw (rdAllowed s.retries) s.t with
  | (some v, t) => (v, { s with t := t })
  | (none, t) => (if rdAllowed s.retries = 0 then old else 0, { s with status := 0, t := t })

/-- The loop `for i in range(n): status &= rdrand_next64(…)` (rdrand.pyx:370-371, :391-392): values, local status,
state. -/
def rdLoop (hw : Hw) : Nat → Int → Rdr → List U64 × Int × Rdr
  | 0, st, s => ([], st, s)
  | n + 1, st, s =>
    let r := rdDirect hw 0 s
    let rest := rdLoop hw n (if st = 1 ∧ r.2.status = 1 then 1 else 0) r.2
    (r.1 :: rest.1, rest.2)

/-- Errors of `RDRAND.random_raw`. -/
inductive RdErr where
  | runtime | value | type
  deriving DecidableEq, Repr

/-- `RDRAND.random_raw` (rdrand.pyx:334-397). Values are 0 or 1 for both status variables, so `&` is conjunction. With
`output=False` a tuple cannot be converted to `Py_ssize_t` (TypeError). -/
def rdRandomRaw (hw : Hw) (size : Size) (output : Bool) (s : Rdr) : Except RdErr RawOut × Rdr :=
  let fin (r : List U64 × Int × Rdr) (out : RawOut) : Except RdErr RawOut × Rdr :=
    let s' := { r.2.2 with status := if r.2.2.status = 1 ∧ r.2.1 = 1 then 1 else 0 }
    if r.2.1 = 0 then (.error .runtime, s') else (.ok out, s')
  if output = false then
    match size with
    | .none => fin (rdLoop hw 1 s.status s) .nothing
    | .int n => fin (rdLoop hw n.toNat s.status s) .nothing
    | .tup _ => (.error .type, s)
  else
    match size with
    | .none =>
      let r := rdDirect hw 0 s
      if r.2.status = 0 then (.error .runtime, { r.2 with status := 0 }) else (.ok (.scalar r.1), r.2)
    | size =>
      match npEmptySize size.dims with
      | .error _ => (.error .value, s)
      | .ok n =>
        let r := rdLoop hw n 1 s
        fin r (.array size.dims r.1)

/-- `RDRAND.__init__` (rdrand.pyx:246-271) for `retries ≥ 0`. -/
def rdInit (retries : Int) (t : Nat) : Rdr :=
  { buffer := fun _ => 18446744073709551615, loc := 256, status := 1, retries := retries, t := t, err := false }

/-- `_reset` (rdrand.pyx:294-305). -/
def rdReset (s : Rdr) : Rdr := if s.status = 0 then { s with status := 1, loc := 256 } else s

/-- What a program can do with one `RDRAND`: draw through the bit generator interface, call `random_raw(size, output)`,
assign a state dictionary with the given `retries` (the only entry the setter uses, rdrand.pyx:458-466), call `_reset`. -/
inductive RdOp where
  | draw
  | raw (size : Size) (output : Bool)
  | setRetries (r : Int)
  | reset

/-- The words an object returned by `random_raw` holds. -/
def RawOut.words : RawOut → List U64
  | .nothing => []
  | .scalar v => [v]
  | .array _ vs => vs

/-- One step of a program: the words delivered as random, and the state afterwards. A draw through the interface counts as
delivered if the flag is 1 after it, a call of `random_raw` if it returns instead of raising. -/
def rdOp (hw : Hw) (s : Rdr) : RdOp → Option (List U64 × Rdr)
  | .draw => (rdNext64 hw s).map fun r => (if r.2.status = 1 then [r.1] else [], r.2)
  | .raw size output =>
    match rdRandomRaw hw size output s with
    | (.ok v, s') => some (v.words, s')
    | (.error _, s') => some ([], s')
  | .setRetries r => some ([], { s with retries := r })
  | .reset => some ([], rdReset s)

/-- A whole program. -/
def rdProg (hw : Hw) : List RdOp → Rdr → Option (List U64 × Rdr)
  | [], s => some ([], s)
  | o :: os, s => do
    let r ← rdOp hw s o
    let q ← rdProg hw os r.2
    return (r.1 ++ q.1, q.2)

end Verif
