import Verif.Model.Pcg64

/-! Model of the code paths of PCG64/LCG128Mix that are compiled when the platform has no native
128-bit integer (`PCG_EMULATED_128BIT_MATH`). The MSVC intrinsics branches (`_umul128`,
`_addcarry_u64`) are not modelled. -/

namespace Verif.PcgEmul
open Verif.Pcg

/-- `struct PCG128_T`, randomgen/src/pcg64/pcg64-common.h:26-29 -/
structure E128 where
  high : U64
  low : U64
  deriving DecidableEq, Repr

/-- `pcg128_add`, pcg64-common.h:56-65 (emulated branch) -/
def add (a b : E128) : E128 :=
  let low := a.low + b.low
  { low := low
    high := a.high + b.high + (if low < b.low then 1 else 0) }

/-- `_pcg_mult64`, pcg64-common.h:67-88: returns `(z1, z0)`. -/
def mult64 (x y : U64) : U64 × U64 :=
  let z0 := x * y
  let x0 := x &&& 0xFFFFFFFF#64
  let x1 := x >>> 32
  let y0 := y &&& 0xFFFFFFFF#64
  let y1 := y >>> 32
  let w0 := x0 * y0
  let t := x1 * y0 + (w0 >>> 32)
  let w1 := t &&& 0xFFFFFFFF#64
  let w2 := t >>> 32
  let w1 := w1 + x0 * y1
  let z1 := x1 * y1 + w2 + (w1 >>> 32)
  (z1, z0)

/-- `pcg128_mult`, pcg64-common.h:90-102 (emulated branch) -/
def mult (a b : E128) : E128 :=
  let h1 := a.high * b.low + a.low * b.high
  let r := mult64 a.low b.low
  { high := r.1 + h1, low := r.2 }

/-- LCG step with emulated arithmetic, pcg64-v2.h:22-60 and lcg128mix.h:29-31. -/
def step (m inc s : E128) : E128 := add (mult s m) inc

/-- `PCG_DEFAULT_MULTIPLIER_128`, pcg64-v2.h:6-9 -/
def defaultMult : E128 := ⟨2549297995355413924#64, 4865540595714422341#64⟩
/-- `PCG_CHEAP_MULTIPLIER_128`, pcg64-v2.h:14-15 -/
def cheapMult : E128 := ⟨0#64, 0xda942042e4dd58b5#64⟩

/-- Multiplier of a variant. -/
def multOf : Variant → E128
  | .cmDxsm => cheapMult
  | _ => defaultMult

/-- The halving of `delta`, pcg64-common.c:32-33 -/
def halve (d : E128) : E128 :=
  { low := (d.low >>> 1) ||| (d.high <<< 63), high := d.high >>> 1 }

/-- The loop of `pcg_advance_lcg_128`, emulated branch, randomgen/src/pcg64/pcg64-common.c:25-34.
`fuel` bounds the number of iterations (128 suffice, proved in `C06_emul_advance`);
running out of fuel is a distinct outcome. -/
def advLoop : Nat → E128 → E128 → E128 → E128 → E128 → Option (E128 × E128)
  | fuel, delta, cm, cp, am, ap =>
    if delta.high > 0 ∨ delta.low > 0 then
      match fuel with
      | 0 => none
      | fuel + 1 =>
        let acc := if delta.low &&& 1#64 ≠ 0#64 then (mult am cm, add (mult ap cm) cp)
          else (am, ap)
        advLoop fuel (halve delta) (mult cm cm) (mult (add cm ⟨0, 1⟩) cp) acc.1 acc.2
    else some (am, ap)

/-- `pcg_advance_lcg_128`, emulated branch, pcg64-common.c:22-36 -/
def advanceLcg (fuel : Nat) (state delta cm cp : E128) : Option E128 :=
  (advLoop fuel delta cm cp ⟨0, 1⟩ ⟨0, 0⟩).map fun acc => add (mult acc.1 state) acc.2

/-- Core state with emulated integers. -/
structure Core where
  state : E128
  inc : E128
  variant : Variant
  deriving DecidableEq, Repr

/-- `pcg64_random_r` / `pcg64_dxsm_random_r`, pcg64-v2.h:85-100 -/
def next (c : Core) : U64 × Core :=
  match c.variant with
  | .cmDxsm =>
    let out := outDxsm c.state.high c.state.low 0xda942042e4dd58b5#64
    (out, { c with state := step cheapMult c.inc c.state })
  | .dxsm128 =>
    let s := step defaultMult c.inc c.state
    (outDxsm s.high s.low 0xda942042e4dd58b5#64, { c with state := s })
  | .xslRr =>
    let s := step defaultMult c.inc c.state
    (outXslRr s.high s.low, { c with state := s })

/-- `pcg64_initialize`, pcg64-v2.h:62-83, and `lcg128mix_initialize`, lcg128mix.h:34-48, emulated
branch: returns `(state, inc)`. -/
def initPcg (m initstate initseq : E128) : E128 × E128 :=
  let inc : E128 := { high := (initseq.high <<< 1) ||| (initseq.low >>> 63),
                      low := (initseq.low <<< 1) ||| 1#64 }
  let s := step m inc ⟨0, 0⟩
  let s := add s initstate
  (step m inc s, inc)

/-- Seeding of the core: `pcg64_set_seed`, pcg64-v2.c:25-38. -/
def seedCore (v : Variant) (initstate initseq : E128) : Core :=
  let r := initPcg (multOf v) initstate initseq
  { state := r.1, inc := r.2, variant := v }

end Verif.PcgEmul
