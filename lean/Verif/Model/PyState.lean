import Verif.Common.Basic

/-! Python values handed to a `state` setter, the conversions Cython applies to them, and the order of effects.

A setter is a sequence of stores into the generator. A store whose right-hand side raises ends the setter and leaves the
earlier stores in place: `SetM σ α = σ → Res α × σ`. -/

namespace Verif

/-- Values that occur in state dictionaries. -/
inductive PyVal where
  | none
  | bool (b : Bool)
  | int (i : Int)
  /-- a double, by its bits -/
  | float (x : U64)
  | str (s : String)
  /-- one-dimensional `ndarray` of dtype `uint<bits>`; the entries are understood modulo `2^bits` -/
  | arr (bits : Nat) (xs : List Nat)
  /-- one-dimensional `ndarray` of dtype `float64` -/
  | floats (xs : List U64)
  /-- flat Python list of integers -/
  | list (xs : List Int)
  /-- a ctypes function, by its address -/
  | func (address : Nat)
  | tuple (n : Nat) (f : Nat → PyVal)
  | dict (f : String → Option PyVal)

/-- A value, a Python exception, or undefined behaviour of the C code (a write outside an array). -/
inductive Res (α : Type) where
  | ok (a : α)
  | err (e : PyErr)
  | ub
  deriving DecidableEq, Repr

instance : Monad Res where
  pure := .ok
  bind x f := match x with
    | .ok a => f a
    | .err e => .err e
    | .ub => .ub

/-- Effects on a generator of type `σ`. -/
def SetM (σ α : Type) := σ → Res α × σ

instance {σ : Type} : Monad (SetM σ) where
  pure a := fun s => (.ok a, s)
  bind x f := fun s => match x s with
    | (.ok a, s) => f a s
    | (.err e, s) => (.err e, s)
    | (.ub, s) => (.ub, s)

namespace SetM
variable {σ α : Type}
/-- Evaluate an expression without touching the generator. -/
def lift (r : Res α) : SetM σ α := fun s => (r, s)
/-- A store that cannot fail. -/
def modify (f : σ → σ) : SetM σ Unit := fun s => (.ok (), f s)
/-- Read the generator. -/
def read : SetM σ σ := fun s => (.ok s, s)
/-- Evaluate a right-hand side and store it. -/
def store (r : Res α) (f : α → σ → σ) : SetM σ Unit := fun s => match r with
  | .ok a => (.ok (), f a s)
  | .err e => (.err e, s)
  | .ub => (.ub, s)
end SetM

open SetM

/-! ### Conversions -/

/-- `v["key"]` -/
def PyVal.item (v : PyVal) (k : String) : Res PyVal := match v with
  | .dict f => match f k with
    | some x => .ok x
    | Option.none => .err .keyError
  | .arr _ _ => .err .indexError
  | .floats _ => .err .indexError
  | _ => .err .typeError

/-- `v["k1"]["k2"]` -/
def PyVal.item2 (v : PyVal) (k1 k2 : String) : Res PyVal := do (← v.item k1).item k2

/-- `v[i]` with a nonnegative integer; strings and dictionaries do not occur here. -/
def PyVal.at (v : PyVal) (i : Nat) : Res PyVal := match v with
  | .arr b xs => match xs[i]? with
    | some x => .ok (.int (x % 2 ^ b : Nat))
    | Option.none => .err .indexError
  | .list xs => match xs[i]? with
    | some x => .ok (.int x)
    | Option.none => .err .indexError
  | .floats xs => match xs[i]? with
    | some x => .ok (.float x)
    | Option.none => .err .indexError
  | .tuple n f => if i < n then .ok (f i) else .err .indexError
  | .dict _ => .err .keyError
  | _ => .err .typeError

/-- Conversion of an object to an unsigned C integer of `w` bits. -/
def asU (w : Nat) (v : PyVal) : Res (BitVec w) := match v with
  | .int i => if 0 ≤ i ∧ i < 2 ^ w then .ok (BitVec.ofInt w i) else .err .overflowError
  | .bool b => .ok (if b then 1 else 0)
  | _ => .err .typeError

/-- Conversion of an object to a C `int`, kept as its 32 bits. -/
def asInt (v : PyVal) : Res U32 := match v with
  | .int i => if -2 ^ 31 ≤ i ∧ i < 2 ^ 31 then .ok (BitVec.ofInt 32 i) else .err .overflowError
  | .bool b => .ok (if b then 1 else 0)
  | _ => .err .typeError

/-- Conversion of an object to a C `double`. Integers, which Python would convert, are not accepted here. -/
def asDouble (v : PyVal) : Res U64 := match v with
  | .float x => .ok x
  | _ => .err .typeError

/-- Truth value of an object (assignment to a `bint`). An empty dictionary, which would be false, is not told apart. -/
def asBool (v : PyVal) : Res Bool := match v with
  | .none => .ok false
  | .bool b => .ok b
  | .int i => .ok (i != 0)
  | .float x => .ok ((x <<< 1) != 0)
  | .str s => .ok (s != "")
  | .arr b xs => match xs with
    | [x] => .ok (x % 2 ^ b != 0)
    | _ => .err .valueError
  | .floats xs => match xs with
    | [x] => .ok ((x <<< 1) != 0)
    | _ => .err .valueError
  | .list xs => .ok (!xs.isEmpty)
  | .func _ => .ok true
  | .tuple n _ => .ok (n != 0)
  | .dict _ => .ok true

/-- `int(v)` -/
def pyInt (v : PyVal) : Res Int := match v with
  | .int i => .ok i
  | .bool b => .ok (if b then 1 else 0)
  | .str _ => .err .valueError
  | _ => .err .typeError

/-- `np.uint64` element assigned from a Python integer. -/
def asNp64 (i : Int) : Res U64 := if 0 ≤ i ∧ i < 2 ^ 64 then .ok (BitVec.ofInt 64 i) else .err .overflowError

/-- The vector of `n` words of `w` bits with entries `xs`. -/
def vecOf (w n : Nat) (xs : List Nat) : Vector (BitVec w) n := Vector.ofFn fun i => BitVec.ofNat w (xs.getD i 0)

/-- `check_state_array`, randomgen/common.pyx:399-408. A Python list is converted by NumPy first, which refuses
integers out of range. Scalars become 0-dimensional arrays and are refused. -/
def checkStateArray (v : PyVal) (n w : Nat) : Res (Vector (BitVec w) n) := match v with
  | .arr b xs => if b = w ∧ xs.length = n then .ok (vecOf w n xs) else .err .valueError
  | .list xs =>
    if xs.all (fun i => 0 ≤ i ∧ i < 2 ^ w) then
      if xs.length = n then .ok (vecOf w n (xs.map Int.toNat)) else .err .valueError
    else .err .overflowError
  | .floats _ => .err .valueError
  | .int _ => .err .valueError
  | .bool _ => .err .valueError
  | .float _ => .err .valueError
  | .str _ => .err .valueError
  | _ => .err .typeError

/-- An array read back as a Python object. -/
def pyArr {w n : Nat} (v : Vector (BitVec w) n) : PyVal := .arr w (v.toList.map BitVec.toNat)

/-- An unsigned field and a C `int` read back as Python objects. -/
def pyU {w : Nat} (x : BitVec w) : PyVal := .int x.toNat
def pyI (x : U32) : PyVal := .int x.toInt

/-- A dictionary display. -/
def mkDict (l : List (String × PyVal)) : PyVal := .dict fun k => l.lookup k

/-- The checks at the top of every setter (e.g. randomgen/sfc.pyx:355-361): a dictionary whose `bit_generator` is the
class name, plain or qualified. A missing name is the empty string. -/
def header (short full : String) (v : PyVal) : Res Unit := match v with
  | .dict f => match f "bit_generator" with
    | some (.str s) => if s = short ∨ s = full then .ok () else .err .valueError
    | _ => .err .valueError
  | _ => .err .typeError

/-- `for i in range(n): field[i] = src[i]` with the field reached by `g` and written by `p`. -/
def storeFrom {σ : Type} {w n : Nat} (conv : PyVal → Res (BitVec w)) (g : σ → Vector (BitVec w) n)
    (p : Vector (BitVec w) n → σ → σ) (src : PyVal) : List Nat → SetM σ Unit
  | [] => pure ()
  | i :: is => do
    store (do conv (← src.at i)) fun x s => p ((g s).setIfInBounds i x) s
    storeFrom conv g p src is

def storeVec {σ : Type} {w n : Nat} (conv : PyVal → Res (BitVec w)) (g : σ → Vector (BitVec w) n)
    (p : Vector (BitVec w) n → σ → σ) (src : PyVal) : SetM σ Unit := storeFrom conv g p src (List.range n)

end Verif
