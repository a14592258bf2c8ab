import Verif.Common.Basic

/-! `SFC64.weyl_increments`: randomgen/sfc.pyx:25-36, :163-308. The method draws from two sources: words of the generator
itself (`generate_bits`), modelled as an arbitrary stream `words`, and `Generator.integers`, modelled as an arbitrary
oracle `pick i total` for the `i`-th call. Loops that may not end carry fuel; `none` means "not finished yet". -/

namespace Verif

/-- `for _i in range(63, 63-k, -1): out *= _i; out /= cnt; cnt += 1` with `k` turns left (sfc.pyx:32-35): unsigned
64-bit arithmetic. -/
def chooseLoop : Nat → U64 → U64 → U64 → U64
  | 0, _, _, out => out
  | k + 1, i, cnt, out => chooseLoop k (i - 1) (cnt + 1) (out * i / cnt)

/-- `choosek` (sfc.pyx:25-36). -/
def choosek (k : U64) : U64 :=
  let k := k - 1
  let k := if 32 < k then 63 - k else k
  chooseLoop k.toNat 63 1 1

/-- Local variables of the loop of `generate_bits` and the number `p` of words drawn so far. -/
structure GenSt where
  candidate : U64
  filled : Int
  buffer : U64
  cnt : Nat
  p : Nat

/-- Body of `while bits_filled < bits_to_fill` (sfc.pyx:182-196). -/
def genStep (words : Nat → U64) (s : GenSt) : GenSt :=
  let s := if s.cnt = 0 then { s with cnt := 8, buffer := words s.p, p := s.p + 1 } else s
  let nextBit := (s.buffer &&& 0x3f).toNat
  let s := { s with buffer := s.buffer >>> 8 }
  let cur : U64 := s.candidate.ushiftRight nextBit
  if cur &&& 1 ≠ 0 then { s with cnt := s.cnt - 1 }
  else { s with candidate := s.candidate ||| (1 : U64).shiftLeft nextBit, cnt := s.cnt - 1, filled := s.filled + 1 }

/-- The loop (sfc.pyx:182-196). -/
def genLoop (words : Nat → U64) (toFill : Int) : Nat → GenSt → Option GenSt
  | 0, s => if s.filled < toFill then none else some s
  | fuel + 1, s => if s.filled < toFill then genLoop words toFill fuel (genStep words s) else some s

/-- `generate_bits` (sfc.pyx:163-200): the value and the position in the stream. `bits` is an `int8_t` holding a value in
`0 .. 64`. -/
def generateBits (words : Nat → U64) (fuel : Nat) (bits : Int) (p : Nat) : Option (U64 × Nat) := do
  let inverse := ¬ bits ≤ 32
  let toFill := if bits ≤ 32 then bits else 64 - bits + 1
  let s ← genLoop words toFill fuel { candidate := 1, filled := 1, buffer := 0, cnt := 0, p := p }
  return (if inverse then ~~~ s.candidate ||| 1 else s.candidate, s.p)

/-- `for j in range(nbits)` (sfc.pyx:294-298): bit count chosen so far, pairs `(bits_arr[j], cum_count_arr[j])`. -/
def weylPick (val : U64) : Int → List (Int × U64) → Int × List (Int × U64)
  | nz, [] => (nz, [])
  | nz, (b, c) :: rest =>
    let nz := if val < c ∧ nz = 0 then b else nz
    let c := if nz > 0 then c - 1 else c
    let r := weylPick val nz rest
    (r.1, (b, c) :: r.2)

/-- `while True: candidate = …; if candidate not in values: …; break` (sfc.pyx:300-305). -/
def weylFresh (words : Nat → U64) (gfuel : Nat) (bits : Int) (values : List U64) : Nat → Nat → Option (U64 × Nat)
  | 0, _ => none
  | fuel + 1, p => do
    let r ← generateBits words gfuel bits p
    if r.1 ∈ values then weylFresh words gfuel bits values fuel r.2 else return r

/-- `cum_count_arr[nbits - 1]`. -/
def lastCum (cum : List (Int × U64)) : U64 := (cum.getLastD (0, 0)).2

/-- `for i in range(n)` (sfc.pyx:291-305) with `k` turns left: the values produced so far are in `values`, latest first. -/
def weylLoop (words : Nat → U64) (pick : Nat → U64 → U64) (fuel : Nat) :
    Nat → Nat → Nat → U64 → List (Int × U64) → List U64 → Option (List U64)
  | 0, _, _, _, _, values => some values.reverse
  | k + 1, i, p, total, cum, values => do
    let r := weylPick (pick i total) 0 cum
    let c ← weylFresh words fuel r.1 values fuel p
    weylLoop words pick fuel k (i + 1) c.2 (lastCum r.2) r.2 (c.1 :: values)

/-- `sum(choosek(i) for i in min_bits .. max_bits)` as a Python integer (sfc.pyx:253-255); `nb` terms from `b`. -/
def weylAvailable : Nat → Nat → Nat
  | _, 0 => 0
  | b, nb + 1 => (choosek (BitVec.ofNat 64 b)).toNat + weylAvailable (b + 1) nb

/-- `bits_arr` and `cum_count_arr` (sfc.pyx:270-280), 64-bit cumulative sums. -/
def weylCum : Nat → Nat → U64 → List (Int × U64)
  | _, 0, _ => []
  | b, nb + 1, acc =>
    let c := choosek (BitVec.ofNat 64 b) + acc
    ((b : Int), c) :: weylCum (b + 1) nb c

/-- Outcome of `weyl_increments`: `ValueError`, an array, or still running when the fuel is used up. -/
inductive WeylOut where
  | refused
  | values (l : List U64)
  | running
  deriving DecidableEq, Repr

/-- `SFC64.weyl_increments(n, max_bits, min_bits)` (sfc.pyx:202-306). The warning is not modelled. -/
def weylIncrements (words : Nat → U64) (pick : Nat → U64 → U64) (fuel : Nat) (n maxBits : Int) (minBits : Option Int) :
    WeylOut :=
  let minBits := minBits.getD maxBits
  if n < 1 then .refused
  else if ¬ (1 ≤ maxBits ∧ maxBits ≤ 64) then .refused
  else if ¬ (1 ≤ minBits ∧ minBits ≤ maxBits) then .refused
  else
    let nb := (maxBits - minBits + 1).toNat
    if (weylAvailable minBits.toNat nb : Int) < n then .refused
    else
      let cum := weylCum minBits.toNat nb 0
      match weylLoop words pick fuel n.toNat 0 0 (lastCum cum) cum [] with
      | some l => .values l
      | none => .running

end Verif
