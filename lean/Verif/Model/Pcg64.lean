import Verif.Common.Draw
import Verif.Model.Ints

/-! Model of `PCG64` and `LCG128Mix` on a platform with native 128-bit integers, and of the
shared Brown advance loop. -/

namespace Verif.Pcg

/-- The `while (delta > 0)` loop of Brown's advance, randomgen/src/pcg64/pcg64-common.c:9-16 (w = 128)
and randomgen/src/pcg32/pcg32.c:12-20 (w = 64). Returns `(acc_mult, acc_plus)`. -/
def advLoop {w : Nat} (delta curMult curPlus accMult accPlus : BitVec w) :
    BitVec w × BitVec w :=
  if h : delta.toNat > 0 then
    let acc := if delta &&& 1#w ≠ 0#w then (accMult * curMult, accPlus * curMult + curPlus)
      else (accMult, accPlus)
    advLoop (delta / 2#w) (curMult * curMult) ((curMult + 1) * curPlus) acc.1 acc.2
  else (accMult, accPlus)
termination_by delta.toNat
decreasing_by
  rw [BitVec.toNat_udiv]
  rcases Nat.lt_or_ge ((2#w).toNat) 2 with h2 | h2
  · simp only [BitVec.toNat_ofNat] at h2 ⊢
    have : 2 % 2 ^ w = 0 := by
      rcases w with _ | _ | w
      · simp [Nat.mod_one]
      · simp
      · have : 2 % 2 ^ (w + 2) = 2 := by
          apply Nat.mod_eq_of_lt
          have := Nat.one_le_two_pow (n := w)
          rw [Nat.pow_add]; omega
        rw [this] at h2; exact absurd h2 (by omega)
    rw [this, Nat.div_zero]; exact h
  · exact Nat.div_lt_self h h2

/-- `pcg_advance_lcg_128` (native branch), randomgen/src/pcg64/pcg64-common.c:5-18, and
`pcg_advance_lcg_64`, randomgen/src/pcg32/pcg32.c:7-22. -/
def advanceLcg {w : Nat} (state delta curMult curPlus : BitVec w) : BitVec w :=
  let acc := advLoop delta curMult curPlus 1 0
  acc.1 * state + acc.2

/-- LCG step `state * multiplier + inc`, randomgen/src/pcg64/pcg64-v2.h:22-60 and
lcg128mix.h:16-32, native branches. -/
def lcgStep {w : Nat} (mult inc : BitVec w) (state : BitVec w) : BitVec w := state * mult + inc

/-- `PCG_DEFAULT_MULTIPLIER_128`, randomgen/src/pcg64/pcg64-v2.h:6-12. -/
def defaultMult : U128 := 2549297995355413924#64 ++ 4865540595714422341#64
/-- `PCG_CHEAP_MULTIPLIER_128`, randomgen/src/pcg64/pcg64-v2.h:14-20 (high word 0). -/
def cheapMult : U128 := 0#64 ++ 0xda942042e4dd58b5#64

/-- `PCG_HIGH`, pcg64-common.h:44-48 -/
def hi (a : U128) : U64 := (a >>> 64).truncate 64
/-- `PCG_LOW`, pcg64-common.h:50-54 -/
def lo (a : U128) : U64 := a.truncate 64
/-- `PCG_128BIT_CONSTANT`, pcg64-common.h:33-42: `((pcg128_t)(high) << 64) + low`. -/
def const128 (high low : U64) : U128 := (high.zeroExtend 128 <<< 64) + low.zeroExtend 128

/-- `pcg_rotr_64`, pcg64-common.h:104-110; the rotation is below 64 in every call. -/
def rotr64 (value : U64) (rot : Nat) : U64 := (value >>> rot) ||| (value <<< ((64 - rot) % 64))

/-- `pcg_output_dxsm`, pcg64-common.h:112-122 -/
def outDxsm (high low mult : U64) : U64 :=
  let lo := low ||| 1
  let hi := high ^^^ (high >>> 32)
  let hi := hi * mult
  let hi := hi ^^^ (hi >>> 48)
  hi * lo

/-- `pcg_output_xsl_rr`, pcg64-common.h:124-126 -/
def outXslRr (high low : U64) : U64 := rotr64 (high ^^^ low) (high >>> 58).toNat
/-- `pcg_output_upper`, pcg64-common.h:128-130 -/
def outUpper (high _low : U64) : U64 := high
/-- `pcg_output_lower`, pcg64-common.h:132-134 -/
def outLower (_high low : U64) : U64 := low
/-- `pcg_output_murmur3`, pcg64-common.h:136-140 (the low word is unused). -/
def outMurmur3 (high _low : U64) : U64 :=
  let z := (high ^^^ (high >>> 30)) * 0xbf58476d1ce4e5b9#64
  let z := (z ^^^ (z >>> 27)) * 0x94d049bb133111eb#64
  z ^^^ (z >>> 31)

/-- The stream variants selected by `_setup_rng_state`, randomgen/pcg64.pyx:198-220. -/
inductive Variant where
  | cmDxsm   -- cheap multiplier, DXSM output before the step
  | dxsm128  -- default multiplier, DXSM output after the step
  | xslRr    -- default multiplier, XSL-RR output after the step
  deriving DecidableEq, Repr

/-- C core of PCG64: `pcg_state` (state, inc) plus the variant fixed by the Cython class. -/
structure Core where
  state : U128
  inc : U128
  variant : Variant
  deriving DecidableEq, Repr

/-- Multiplier used by step and advance for a variant (`cheap_multiplier`). -/
def multOf : Variant → U128
  | .cmDxsm => cheapMult
  | _ => defaultMult

/-- `pcg64_random_r`, pcg64-v2.h:85-93 (step first) and `pcg64_dxsm_random_r`, :95-100 (output
first), as selected at randomgen/pcg64.pyx:198-220. -/
def next (c : Core) : U64 × Core :=
  match c.variant with
  | .cmDxsm =>
    let out := outDxsm (hi c.state) (lo c.state) 0xda942042e4dd58b5#64
    (out, { c with state := lcgStep cheapMult c.inc c.state })
  | .dxsm128 =>
    let s := lcgStep defaultMult c.inc c.state
    (outDxsm (hi s) (lo s) 0xda942042e4dd58b5#64, { c with state := s })
  | .xslRr =>
    let s := lcgStep defaultMult c.inc c.state
    (outXslRr (hi s) (lo s), { c with state := s })

/-- `pcg64_initialize`, pcg64-v2.h:62-83 (native branch), and `lcg128mix_initialize`,
lcg128mix.h:34-48: returns `(state, inc)`. -/
def initPcg (mult initstate initseq : U128) : U128 × U128 :=
  let inc := (initseq <<< 1) ||| 1#128
  let s := lcgStep mult inc 0#128
  let s := s + initstate
  (lcgStep mult inc s, inc)

/-- Seeding of the core: `pcg64_set_seed`, pcg64-v2.c:25-38. -/
def seedCore (v : Variant) (initstate initseq : U128) : Core :=
  let r := initPcg (multOf v) initstate initseq
  { state := r.1, inc := r.2, variant := v }

/-- `PCG64.advance`, randomgen/pcg64.pyx:356-401: wrap to 128 bits, split into two words, call
`pcg64_advance` (pcg64-v2.c:14-23, `delta = step[0] << 64 | step[1]`), clear the cached half. -/
def advance (g : Buf Core) (delta : Int) : Buf Core :=
  let d := Ints.wrapInt delta 128
  let d0 : U64 := BitVec.ofInt 64 (Int.fdiv d (2 ^ 64))
  let d1 : U64 := BitVec.ofInt 64 (Int.fmod d (2 ^ 64))
  let dd := const128 d0 d1
  let c := g.core
  Buf.reset { g with core :=
    { c with state := advanceLcg c.state dd (multOf c.variant) c.inc } }

/-- The step of `jump_inplace`, randomgen/pcg64.pyx:419. -/
def phi128 : Int := 0x9e3779b97f4a7c15f39cc0605cedc834

/-- `PCG64.jump_inplace`, randomgen/pcg64.pyx:403-423. -/
def jumpInplace (g : Buf Core) (iter : Int) : Buf Core :=
  let step := phi128 * iter
  let divisor := Int.fdiv step (2 ^ 128)
  advance g (step - 2 ^ 128 * divisor)

end Verif.Pcg

namespace Verif.Lcg128
open Verif.Pcg

/-- Output functions of `LCG128Mix` (`output_idx` 0..4, or -1 = user supplied function). -/
inductive Output where
  | xslRr | dxsm | murmur3 | upper | lower
  | custom (f : U64 → U64 → U64)

/-- C core of LCG128Mix, randomgen/src/pcg64/lcg128mix.h:6-14. `post = true` is `post == 1`. -/
structure Core where
  state : U128
  inc : U128
  multiplier : U128
  dxsmMult : U64
  post : Bool
  output : Output

/-- The `switch` of `lcg128mix_next`, lcg128mix.h:59-73. -/
def outFn (c : Core) (out : U128) : U64 :=
  match c.output with
  | .xslRr => outXslRr (hi out) (lo out)
  | .dxsm => outDxsm (hi out) (lo out) c.dxsmMult
  | .murmur3 => outMurmur3 (hi out) (lo out)
  | .upper => outUpper (hi out) (lo out)
  | .lower => outLower (hi out) (lo out)
  | .custom f => f (hi out) (lo out)

/-- `lcg128mix_next`, lcg128mix.h:50-74. -/
def next (c : Core) : U64 × Core :=
  let s := lcgStep c.multiplier c.inc c.state
  let out := if c.post then s else c.state
  (outFn c out, { c with state := s })

/-- `LCG128Mix.advance`, randomgen/pcg64.pyx:869-912, with lcg128mix.c:32-39. -/
def advance (g : Buf Core) (delta : Int) : Buf Core :=
  let d := Ints.wrapInt delta 128
  let d0 : U64 := BitVec.ofInt 64 (Int.fdiv d (2 ^ 64))
  let d1 : U64 := BitVec.ofInt 64 (Int.fmod d (2 ^ 64))
  let dd := const128 d0 d1
  let c := g.core
  Buf.reset { g with core :=
    { c with state := advanceLcg c.state dd c.multiplier c.inc } }

end Verif.Lcg128

namespace Verif.Pcg32
open Verif.Pcg

/-- `PCG_DEFAULT_MULTIPLIER_64`, randomgen/src/pcg32/pcg32.h:8 -/
def mult : U64 := 6364136223846793005#64

/-- `pcg_state_setseq_64`, randomgen/src/pcg32/pcg32.h:10-13 -/
structure Core where
  state : U64
  inc : U64
  deriving DecidableEq, Repr

/-- `pcg_rotr_32`, pcg32.h:18-20; `rot < 32` in the only call. -/
def rotr32 (value : U32) (rot : Nat) : U32 := (value >>> rot) ||| (value <<< ((32 - rot) % 32))

/-- `pcg_output_xsh_rr_64_32`, pcg32.h:26-28 -/
def out (s : U64) : U32 :=
  rotr32 ((((s >>> 18) ^^^ s) >>> 27).truncate 32) ((s >>> 59).truncate 32 : U32).toNat

/-- `pcg_setseq_64_xsh_rr_32_random_r`, pcg32.h:30-36: output of the old state. -/
def next (c : Core) : U32 × Core :=
  (out c.state, { c with state := lcgStep mult c.inc c.state })

/-- `pcg_setseq_64_srandom_r`, pcg32.h:38-46 -/
def seed (initstate initseq : U64) : Core :=
  let inc := (initseq <<< 1) ||| 1#64
  let s := lcgStep mult inc 0#64
  let s := s + initstate
  { state := lcgStep mult inc s, inc := inc }

/-- `PCG32.advance`, randomgen/pcg32.pyx:179-214 -/
def advance (c : Core) (delta : Int) : Core :=
  let d : U64 := BitVec.ofInt 64 (Ints.wrapInt delta 64)
  { c with state := advanceLcg c.state d mult c.inc }

/-- `PCG32.jumped(iter)`, randomgen/pcg32.pyx: `advance(iter * 0x9e3779b97f4a7c16)`. -/
def jumped (c : Core) (iter : Int) : Core := advance c (iter * 0x9e3779b97f4a7c16)

end Verif.Pcg32
