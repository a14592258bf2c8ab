import Verif.Model.SeedSeq

/-! Strings as entropy: `_coerce_to_uint32_array` (randomgen/_seed_sequence.pyx:84-152) with the branch for strings, and Python's `int(x, base=16)` and
`int(x)` for the strings that get there. Strings are lists of ASCII characters: `int` also takes the decimal digits and spaces of other scripts, which
are not represented. -/

namespace Verif.SeedSeq

/-- The value of a character as a digit (`_PyLong_DigitValue` of CPython), if it is below the base. -/
def digitVal (b : Nat) (c : Char) : Option Nat :=
  let v := if 48 ≤ c.toNat ∧ c.toNat ≤ 57 then c.toNat - 48
    else if 97 ≤ c.toNat ∧ c.toNat ≤ 122 then c.toNat - 87
    else if 65 ≤ c.toNat ∧ c.toNat ≤ 90 then c.toNat - 55 else 37
  if v < b then some v else none

/-- `Py_ISSPACE`. -/
def isSpaceChar (c : Char) : Bool := c.toNat = 32 ∨ (9 ≤ c.toNat ∧ c.toNat ≤ 13)

/-- The digits of `int(x, base)` after a first digit: single underscores may stand between digits, white space at the end. -/
def scanDigits (b : Nat) : List Char → Option (List Nat)
  | [] => some []
  | '_' :: c :: cs => match digitVal b c with
    | some d => (scanDigits b cs).map (d :: ·)
    | none => none
  | c :: cs => match digitVal b c with
    | some d => (scanDigits b cs).map (d :: ·)
    | none => if (c :: cs).all isSpaceChar then some [] else none

/-- The digits of `int(x, base)`; there must be one. -/
def digitsOf (b : Nat) : List Char → Option (List Nat)
  | [] => none
  | c :: cs => match digitVal b c with
    | some d => (scanDigits b cs).map (d :: ·)
    | none => none

/-- The number, first digit first. -/
def digitsNum (b : Nat) (l : List Nat) : Nat := l.foldl (fun a d => a * b + d) 0

/-- One underscore is allowed after `0x`. -/
def dropUnderscore : List Char → List Char
  | '_' :: cs => cs
  | cs => cs

/-- `int(x, base=16)` for a string that starts with `0x`; `x` is what follows. -/
def intHex (x : List Char) : Except PyErr Int := match digitsOf 16 (dropUnderscore x) with
  | some l => .ok (digitsNum 16 l)
  | none => .error .valueError

/-- `int(x)` for a string that starts with a decimal digit; `limit` is `sys.get_int_max_str_digits()` (4300 from Python 3.11 on, `none` before). -/
def intDec (limit : Option Nat) (x : List Char) : Except PyErr Int := match digitsOf 10 x with
  | some l => if ∃ m ∈ limit, m < l.length then .error .valueError else .ok (digitsNum 10 l)
  | none => .error .valueError

/-- The branch for strings, randomgen/_seed_sequence.pyx:135-141. `DECIMAL_RE.match` (line 56) looks at the start of the string only. -/
def strToInt (limit : Option Nat) (x : List Char) : Except PyErr Int := match x with
  | '0' :: 'x' :: cs => intHex cs
  | c :: cs => if 48 ≤ c.toNat ∧ c.toNat ≤ 57 then intDec limit (c :: cs) else .error .valueError
  | [] => .error .valueError

/-- Entropy with strings in it. -/
inductive EntS where
  | int (n : Int)
  | words (l : List U32)
  | str (s : List Char)
  | seq (l : List EntS)

mutual
/-- `_coerce_to_uint32_array`, randomgen/_seed_sequence.pyx:84-152. -/
def coerceS (limit : Option Nat) : EntS → Except PyErr (List U32)
  | .int n => intToWords n
  | .words l => .ok l
  | .str s => match strToInt limit s with
    | .ok n => intToWords n
    | .error e => .error e
  | .seq l => coerceSAll limit l
/-- randomgen/_seed_sequence.pyx:146-152 -/
def coerceSAll (limit : Option Nat) : List EntS → Except PyErr (List U32)
  | [] => .ok []
  | e :: es => do
    let a ← coerceS limit e
    let b ← coerceSAll limit es
    pure (a ++ b)
end

end Verif.SeedSeq
