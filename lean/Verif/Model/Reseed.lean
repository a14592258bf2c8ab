import Verif.Model.Setters
import Verif.Model.Chaotic
import Verif.Model.Pcg64
import Verif.Model.Sfmt
import Verif.Model.Squares

/-! Re-seeding of a living instance: `_seed_from_seq` of the classes whose seeding is a plain assignment of words, on
the instance records of `Verif.Model.Setters`. `gen i` is word `i` delivered by `generate_state` of the new seed sequence
(`BitGenerator._seed_with_seed_sequence`, common.pyx:79-87, only replaces the sequence and calls `_seed_from_seq`). A new
instance is the same function on zeroed memory with the attributes stored by the constructor. The block generators have
their seeding functions, over any old state, in `Model/BlockCtr`, `CtrMode`, `ChaCha`, `Mt`, `Sfmt`, `Hc128`. -/

namespace Verif

/-- xoshiro256.pyx:132-138, xoshiro512.pyx:129-135 -/
def xoshReseed {n : Nat} (gen : Nat → U64) (s : XoshI n) : XoshI n :=
  { s with s := Vector.ofFn fun i => gen i, has := 0, uint := 0 }

/-- xoroshiro128.pyx:154-160 -/
def xoroReseed (gen : Nat → U64) (s : XoroI) : XoroI :=
  { s with s := Vector.ofFn fun i => gen i, has := 0, uint := 0 }

/-- xorshift1024.pyx:132-138: the position `p` is not touched. -/
def xs1024Reseed (gen : Nat → U64) (s : Xs1024I) : Xs1024I :=
  { s with s := Vector.ofFn fun i => gen i, has := 0, uint := 0 }

/-- lxm.pyx:149-155: the `while` loop, where `gens k` are the words returned by call `k` of `generate_state`. `none`: the
loop has not ended after the given number of passes. -/
def lxmSeedLoop (gens : Nat → Nat → U64) : Nat → Nat → LxmI → Option LxmI
  | 0, _, _ => none
  | fuel + 1, k, s =>
    let g := gens k
    let s := { s with x := Vector.ofFn fun i => g i, lcg := g 4 }
    if g 0 ||| g 1 ||| g 2 ||| g 3 = 0 then lxmSeedLoop gens fuel (k + 1) s
    else some { s with has := 0, uint := 0 }

/-- lxm.pyx:144-155 for a seed sequence whose `generate_state` is a function, as it is for `SeedSequence`: every call
returns the same words, so that the loop ends after the first pass or never (`none`). `lxmSeedLoop_const` proves that this
is what the loop does. -/
def lxmReseed (gen : Nat → U64) (s : LxmI) : Option LxmI :=
  if gen 0 ||| gen 1 ||| gen 2 ||| gen 3 = 0 then none
  else some { s with x := Vector.ofFn fun i => gen i, lcg := gen 4, has := 0, uint := 0 }

theorem lxmSeedLoop_const (gen : Nat → U64) (fuel k : Nat) (s : LxmI) :
    lxmSeedLoop (fun _ => gen) (fuel + 1) k s = lxmReseed gen s := by
  induction fuel generalizing k s with
  | zero => simp only [lxmSeedLoop, lxmReseed]
  | succ n ih =>
    rw [lxmSeedLoop]
    by_cases h : gen 0 ||| gen 1 ||| gen 2 ||| gen 3 = 0
    · simp only [h, if_true, ih, lxmReseed]
    · simp only [h, if_false, lxmReseed]

/-- sfc.pyx:144-156 with the attributes `w` and `k` of the instance. -/
def sfcReseed (w k : Option U64) (gen : Nat → U64) (s : SfcI) : SfcI :=
  let r := sfcFromSeq gen w k
  { s with a := r.a, b := r.b, c := r.c, w := r.w, k := r.k, has := 0, uint := 0 }

/-- romu.pyx:125-135 -/
def romuReseed (gen : Nat → U64) (s : RomuI) : RomuI :=
  let s := { s with actQuad := s.variant == "quad" }
  let r := romuFromSeq (s.variant == "quad") (gen 0) (gen 1) (gen 2) (gen 3)
  { s with w := r.w, x := r.x, y := r.y, z := r.z, has := 0, uint := 0 }

/-- tyche.pyx:129-141; `gen` delivers 32-bit words, of which the first two are read as one 64-bit word. -/
def tycheReseed (gen : Nat → U32) (idx : Option Int) (s : TycheI) : Except PyErr TycheI :=
  let seed : U64 := join32 (gen 1) (gen 0)
  let put := fun (i : U32) =>
    let r := tycheSeed s.original seed i
    { s with a := r.a, b := r.b, c := r.c, d := r.d }
  match idx with
  | none => .ok (put (gen 2))
  | some i => if 0 ≤ i ∧ i ≤ 2 ^ 32 - 1 then .ok (put (BitVec.ofInt 32 i)) else .error .valueError

/-- jsf.pyx:232-243: `jsf64_seed` on the 64-bit members or `jsf32_seed` on the 32-bit members of the words. -/
def jsfReseed (gen64 : Nat → U64) (gen32 : Nat → U32) (s : JsfI) : Option JsfI :=
  let P : JsfPar := ⟨s.p.toInt, s.q.toInt, s.r.toInt⟩
  if s.size = 64 then
    (jsfSeed P gen64 s.seedSize.toInt).map fun r => { s with a := r.a, b := r.b, c := r.c, d := r.d, has := 0, uint := 0 }
  else
    (jsfSeed P gen32 s.seedSize.toInt).map fun r =>
      { s with a := setLow s.a r.a, b := setLow s.b r.b, c := setLow s.c r.c, d := setLow s.d r.d, has := 0, uint := 0 }

/-- efiix64.pyx:117-123, `efiix64_seed` over the old tables. -/
def efiixReseed (gen : Nat → U64) (s : EfiixI) : EfiixI :=
  let r := efiixSeed ⟨fun j => s.ind[j], fun j => s.itr[j], s.i, s.a, s.b, s.c⟩ (gen 0) (gen 1) (gen 2) (gen 3)
  { s with
    ind := Vector.ofFn r.ind
    itr := Vector.ofFn r.itr
    i := r.i
    a := r.a
    b := r.b
    c := r.c
    has := 0
    uint := 0 }

/-- pcg32.pyx:113-117; `inc` after its checks. -/
def pcg32Reseed (gen : Nat → U64) (inc : Option U64) (_ : Pcg32I) : Pcg32I :=
  let r := Pcg32.seed (gen 0) (inc.getD (gen 1))
  ⟨r.state, r.inc⟩

/-- pcg64.pyx:235-251, `pcg64_set_seed` pcg64-v2.c:25-38; `inc` after its checks. -/
def pcg64Reseed (gen : Nat → U64) (inc : Option U128) (s : Pcg64I) : Pcg64I :=
  let r := Pcg.initPcg (if s.cheap then Pcg.cheapMult else Pcg.defaultMult) (Pcg.const128 (gen 0) (gen 1))
    (inc.getD (Pcg.const128 (gen 2) (gen 3)))
  { s with state := r.1, inc := r.2, has := 0, uint := 0, cDxsm := if s.useDxsm then 1 else 0 }

/-- pcg64.pyx:721-741, `lcg128mix_seed` lcg128mix.c:23-30; `mult` is the attribute `multiplier`. -/
def lcgMixReseed (mult : U128) (gen : Nat → U64) (inc : Option U128) (s : LcgMixI) : LcgMixI :=
  let r := Pcg.initPcg mult (Pcg.const128 (gen 0) (gen 1)) (inc.getD (Pcg.const128 (gen 2) (gen 3)))
  { s with state := r.1, inc := r.2, mult := mult, has := 0, uint := 0 }

/-- `_check_value` (squares.pyx:461-469) -/
def squaresCheck (v : Int) (odd : Bool) : Except PyErr U64 :=
  if 0 ≤ v ∧ v ≤ 2 ^ 64 - 1 then if odd ∧ v % 2 = 0 then .error .valueError else .ok (BitVec.ofInt 64 v) else .error .valueError

/-- `Squares.seed` (squares.pyx:505-513); `gen` is the key `generate_key` makes from the new seed sequence. -/
def squaresReseed (gen : U64) (counter key : Option Int) (s : SquaresI) : Except PyErr SquaresI := do
  let c ← match counter with | none => .ok 0 | some c => squaresCheck c false
  let k ← match key with | none => .ok gen | some k => squaresCheck k true
  return { s with counter := c, key := k, has := 0, uint := 0 }

/-- `xorshift1024_next` (xorshift1024.h:13-19) on the struct: the first read uses the stored position as it is. -/
def xs1024NextI (s : Xs1024I) : Option (U64 × Xs1024I) :=
  let p := s.p.toInt
  if h : 0 ≤ p ∧ p < 16 then
    let s0 := s.s[p.toNat]
    let q := (p.toNat + 1) % 16
    let s1 := s.s[q]'(Nat.mod_lt _ (by decide))
    let s1 := s1 ^^^ (s1 <<< 31)
    let v := s1 ^^^ s0 ^^^ (s1 >>> 11) ^^^ (s0 >>> 30)
    some (v * 0x9e3779b97f4a7c13, { s with s := s.s.set q v (Nat.mod_lt _ (by decide)), p := BitVec.ofNat 32 q })
  else none

/-! ### What draws see -/

/-- `output_idx` and `output_func` as the draws see them; `ext` maps addresses to functions. Any other index gives the constant
`2^64 - 1` (lcg128mix.h:73). -/
def LcgMixI.output (ext : Nat → U64 → U64 → U64) (s : LcgMixI) : Lcg128.Output :=
  if s.outputIdx = 0 then .xslRr else if s.outputIdx = 1 then .dxsm else if s.outputIdx = 2 then .murmur3
  else if s.outputIdx = 3 then .upper else if s.outputIdx = 4 then .lower
  else if s.outputIdx = BitVec.ofInt 32 (-1) then .custom (ext s.outputFunc) else .custom fun _ _ => BitVec.allOnes 64

/-- What draws see. -/
def LcgMixI.toBuf (ext : Nat → U64 → U64 → U64) (s : LcgMixI) : Buf Lcg128.Core :=
  ⟨⟨s.state, s.inc, s.mult, s.dxsm, s.post == 1, s.output ext⟩, s.has != 0, s.uint⟩

/-- What the draws of a 64-bit instance see. -/
def SquaresI.toBuf (s : SquaresI) : Buf Squares := ⟨⟨s.key, s.counter⟩, s.has != 0, s.uint⟩

end Verif
