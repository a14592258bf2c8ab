import Verif.Model.Session

/-! The classes LCG128Mix and Squares for programs (`Verif.Model.Session`). -/

namespace Verif

/-! #### LCG128Mix -/

/-- The keyword arguments of the constructor (pcg64.pyx:633-635); `out` is `output.lower()`. User supplied output functions are left out. -/
structure LcgArgs where
  mult : Int
  dxsm : Int
  post : Bool
  out : String
  deriving DecidableEq

/-- The defaults (pcg64.pyx:633-635). -/
def lcgDefault : LcgArgs := ⟨47026247687942121848144207491837523525, 15750249268501108917, true, "xsl-rr"⟩

/-- `__init__` (pcg64.pyx:633-693). The instance is the attribute `multiplier` and the structure. -/
def lcgNew (p : LcgArgs) (sd : (Nat → U64) × Option U128) : Made (U128 × LcgMixI) :=
  match outputLookup.lookup p.out with
  | none => .err .valueError
  | some i =>
    if ¬(0 < p.mult ∧ p.mult < 2 ^ 128) ∨ p.mult % 2 = 0 then .err .valueError
    else if ¬(0 < p.dxsm ∧ p.dxsm < 2 ^ 64) ∨ p.dxsm % 2 = 0 then .err .valueError
    else
      let m := BitVec.ofInt 128 p.mult
      .ok (m, lcgMixReseed m sd.1 sd.2 ⟨0, 0, 0, BitVec.ofInt 64 p.dxsm, halfI p.post, i, 0, 0, 0, none⟩)

def lcgPut (x : LcgMixI) (b : Buf Lcg128.Core) : LcgMixI := { x with state := b.core.state, has := halfI b.has, uint := b.uinteger }

/-- `advance` (pcg64.pyx:869-912) -/
def lcgAdvI (ext : Nat → U64 → U64 → U64) (d : Int) (x : LcgMixI) : LcgMixI := lcgPut x (Lcg128.advance (x.toBuf ext) d)

/-- `jump_inplace` (pcg64.pyx:914-933) -/
def lcgJumpI (ext : Nat → U64 → U64 → U64) (n : Int) (x : LcgMixI) : LcgMixI :=
  let step := Pcg.phi128 * n
  lcgAdvI ext (step - 2 ^ 128 * Int.fdiv step (2 ^ 128)) x

/-- pcg64.pyx: `seed` :743-767 (with the attribute `multiplier`, which no setter changes), `jumped` :935-965 (a new instance with the default
arguments, then its state). The getter raises for an unknown output function only, which cannot happen here. -/
def lcgCls (ext : Nat → U64 → U64 → U64) : GCls LcgArgs ((Nat → U64) × Option U128) (U128 × LcgMixI) where
  new := lcgNew
  seed sd s := .ok (s.1, lcgMixReseed s.1 sd.1 sd.2 s.2)
  op o s := (bufOp Lcg128.next (LcgMixI.toBuf ext) lcgPut o s.2).map fun r => (r.1, s.1, r.2)
  get s := match lcgMixGet s.2 with
    | .ok v => v
    | _ => .none
  set v s := ((lcgMixSet v s.2).1, s.1, (lcgMixSet v s.2).2)
  inplace := some fun n s => .ok (s.1, lcgJumpI ext n s.2)
  jump := none
  clone := some (false, fun sd _ => lcgNew lcgDefault (sd.1, none))
  advance := some fun d s => .ok (s.1, lcgAdvI ext d s.2)

/-! #### Squares -/

def squaresPut (x : SquaresI) (b : Buf Squares) : SquaresI :=
  { x with key := b.core.key, counter := b.core.counter, has := halfI b.has, uint := b.uinteger }

/-- The seed is the key `generate_key` makes from the seed sequence, and the arguments `counter` and `key`. -/
abbrev SquaresSeed := U64 × Option Int × Option Int

/-- `__init__` (squares.pyx:432-446) -/
def squaresNew (variant : Int) (sd : SquaresSeed) : Made SquaresI :=
  if variant ≠ 64 ∧ variant ≠ 32 then .err .valueError
  else match squaresReseed sd.1 sd.2.1 sd.2.2 ⟨0, 0, 0, 0, BitVec.ofInt 32 variant, variant == 64, variant == 64⟩ with
    | .ok s => .ok s
    | .error e => .err e

/-- What `seed` has stored when it raises (squares.pyx:505-513): the counter comes first. -/
def squaresSeedFail (sd : SquaresSeed) (s : SquaresI) : SquaresI := match sd.2.1 with
  | none => { s with counter := 0 }
  | some c => match squaresCheck c false with
    | .ok c => { s with counter := c }
    | .error _ => s

/-- The draw functions: squares.h:45-76, installed by `_setup_bitgen` (squares.pyx:448-458). `hiFirst`: the order in which the compiler
evaluates the two calls of `squares_32_next64` (C52). -/
def squaresOp (hiFirst : Bool) (o : Op) (s : SquaresI) : Option (Out × SquaresI) :=
  if s.act64 then bufOp sqNext64 SquaresI.toBuf squaresPut o s
  else
    let c := s.toBuf.core
    let put (c : Squares) : SquaresI := { s with key := c.key, counter := c.counter }
    match o with
    | .u32 => some (.o32 (sqNext32 c).1, put (sqNext32 c).2)
    | .u64 => some (.o64 (twoCalls sqNext32 hiFirst c).1, put (twoCalls sqNext32 hiFirst c).2)
    | .dbl => some (.odbl (Doubles.dblCalls sqNext32 c).1, put (Doubles.dblCalls sqNext32 c).2)

/-- squares.pyx: `seed` :478-513, `advance` :551-570 (a C integer), `jumped` :572-608 (the check of `iter` comes first; the new instance cannot
fail). -/
def squaresCls (hiFirst : Bool) : GCls Int SquaresSeed SquaresI where
  new := squaresNew
  seed sd s := match squaresReseed sd.1 sd.2.1 sd.2.2 s with
    | .ok s => .ok s
    | .error e => .err e
  op := squaresOp hiFirst
  get := squaresGet
  set := squaresSet
  inplace := some fun n s => match sqJumped s.toBuf n with
    | some b => .ok (squaresPut s b)
    | none => .err .valueError
  jump := none
  clone := some (true, fun sd s => squaresNew s.variant.toInt (sd.1, none, none))
  advance := some fun d s => if 0 ≤ d ∧ d < 2 ^ 64 then .ok (squaresPut s (sqAdvance s.toBuf (BitVec.ofInt 64 d))) else .err .overflowError
  seedFail := squaresSeedFail

end Verif
