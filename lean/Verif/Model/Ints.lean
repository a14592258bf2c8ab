import Verif.Common.Basic

/-! Model of the integer utilities of `randomgen/common.pyx`. -/

namespace Verif.Ints

/-- `wrap_int`, randomgen/common.pyx:391-397. Python `//` is floor division. -/
def wrapInt (val : Int) (bits : Nat) : Int :=
  let upper : Int := 2 ^ bits
  if ¬ (0 ≤ val ∧ val < upper) then
    let divisor := Int.fdiv val upper
    val - upper * divisor
  else
    val

/-- The `while value:` loop of `int_to_array`, randomgen/common.pyx:452-454
(`value` is non-negative at this point whenever `bits` is not `None`).
`u` is `uint_size`; the code only reaches the loop with `u` equal to 32 or 64; the guard
`0 < u` is only there to make the definition total. -/
def splitLoop (u : Nat) (value : Nat) : List Nat :=
  if h : value ≠ 0 ∧ 0 < u then (value % 2 ^ u) :: splitLoop u (value >>> u) else []
termination_by value
decreasing_by
  rw [Nat.shiftRight_eq_div_pow]
  exact Nat.div_lt_self (Nat.pos_of_ne_zero h.1) (Nat.one_lt_two_pow (by omega))

/-- The value handed to `int_to_array`: a scalar integer or a one-dimensional
array/sequence of integers. -/
inductive IntOrWords where
  | int (v : Int)
  | words (l : List Int)
  deriving DecidableEq, Repr

/-- `int_to_array`, randomgen/common.pyx:411-467, for integral input and a given `bits`
(every caller passes one). Non-integral scalars (`TypeError`, line 445) and
multi-dimensional arrays are not representable in the input type. The message of the shape
error formats the builtin `len`, not the length (cosmetic). -/
def intToArray (value : IntOrWords) (bits u : Nat) : Except PyErr (List Nat) :=
  let reqLen := bits / u
  if u ≠ 32 ∧ u ≠ 64 then .error .valueError
  else match value with
    | .int v =>
      if v < 0 ∨ v ≥ 2 ^ bits then .error .valueError
      else
        let out := splitLoop u v.toNat
        .ok (if out.length < reqLen then out ++ List.replicate (reqLen - out.length) 0 else out)
    | .words l =>
      if ¬ (l.all (fun x => 0 ≤ x) ∧ l.all (fun x => x ≤ 2 ^ u - 1)) then .error .valueError
      else
        let out := l.map Int.toNat
        if out.length ≠ reqLen then .error .valueError else .ok out

/-- Input of `object_to_int`: `None`, an integer, a NumPy array of dtype `uint64`/`uint32`
(one-dimensional, given by its elements), an array of another dtype, or a sequence of
integers. NumPy's conversion of the sequence is assumed exact (it is for lists whose elements
share an integer dtype); non-numeric and fractional sequences (lines 369-373) are errors and
not represented. -/
inductive ObjIn where
  | none
  | int (v : Int)
  | arr64 (l : List U64)
  | arr32 (l : List U32)
  | arrOther
  | seq (l : List Int)
  deriving DecidableEq, Repr

/-- The `sum` of randomgen/common.pyx:384. -/
def wordSum (power : Nat) (l : List Nat) : Nat :=
  ((List.range l.length).map (fun i => l.getD i 0 * 2 ^ (power * i))).sum

/-- Final range check, randomgen/common.pyx:385-389. -/
def objRange (bits : Nat) (out : Int) : Except PyErr (Option Int) :=
  if out < 0 ∨ out ≥ 2 ^ bits then .error .valueError else .ok (some out)

/-- `object_to_int`, randomgen/common.pyx:328-389, with `bits` given (every caller passes
one). `defaultBits` is 64 or 32; `allow64`/`allow32` say which array dtypes are allowed. -/
def objectToInt (val : ObjIn) (bits : Nat) (defaultBits : Nat := 64)
    (allow64 : Bool := true) (allow32 : Bool := false) : Except PyErr (Option Int) :=
  match val with
  | .none => .ok Option.none
  | .int v => objRange bits v
  | .arr64 l =>
    if allow64 = false then .error .typeError
    else if l.length = 0 then .error .valueError
    else objRange bits (wordSum 64 (l.map BitVec.toNat))
  | .arr32 l =>
    if allow32 = false then .error .typeError
    else if l.length = 0 then .error .valueError
    else objRange bits (wordSum 32 (l.map BitVec.toNat))
  | .arrOther => .error .typeError
  | .seq l =>
    let p := if defaultBits = 64 then 64 else 32
    if ¬ (l.all (fun x => x ≤ 2 ^ p - 1) ∧ l.all (fun x => 0 ≤ x)) then .error .valueError
    else if l.length = 0 then .error .valueError
    else objRange bits (wordSum p (l.map Int.toNat))

end Verif.Ints
