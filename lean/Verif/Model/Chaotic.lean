import Verif.Common.Draw
import Verif.Common.Words

/-! The chaotic generators JSF, SFC64, EFIIX64, Romu and Tyche, and SplitMix64. -/

namespace Verif

/-! ## JSF -/

/-- `rotate64`/`rotate32` of randomgen/src/jsf/jsf.h:54-68 in the portable (non-MSVC) text
`(x << k) | (x >> (W - k))`. Shifting a `W`-bit word by `W` or more, or by a negative amount, is
undefined in C; that outcome is `none`. -/
def jsfRot {w : Nat} (x : BitVec w) (k : Int) : Option (BitVec w) :=
  if 0 < k ∧ k < w then some (x <<< k.toNat ||| x >>> (w - k.toNat)) else none

/-- The words `a, b, c, d` of `jsf_state_t` (jsf.h:38-50); the width is 64 or 32. -/
structure Jsf (w : Nat) where
  a : BitVec w
  b : BitVec w
  c : BitVec w
  d : BitVec w
  deriving DecidableEq, Repr

/-- The parameters `int p, q, r` of `jsf_state_t`. -/
structure JsfPar where
  p : Int
  q : Int
  r : Int
  deriving DecidableEq, Repr

/-- `state->r ? rotate(state->d, state->r) : state->d` (jsf.h:75, 86). -/
def jsfRotR {w : Nat} (x : BitVec w) (r : Int) : Option (BitVec w) := if r = 0 then some x else jsfRot x r

/-- `next64` / `next32` of randomgen/src/jsf/jsf.h:70-90. -/
def jsfNext {w : Nat} (P : JsfPar) (s : Jsf w) : Option (BitVec w × Jsf w) := do
  let rb ← jsfRot s.b P.p
  let e := s.a - rb
  let rc ← jsfRot s.c P.q
  let a := s.b ^^^ rc
  let rd ← jsfRotR s.d P.r
  let b := s.c + rd
  let c := s.d + e
  let d := e + a
  some (d, ⟨a, b, c, d⟩)

/-- `n` draws, stopping at the first undefined one. -/
def jsfRun {w : Nat} (P : JsfPar) : Nat → Jsf w → Option (Jsf w)
  | 0, s => some s
  | n + 1, s => (jsfNext P s).bind fun r => jsfRun P n r.2

/-- The state filled in before the warm-up, `jsf64_seed`/`jsf32_seed` (randomgen/src/jsf/jsf.c:10-34):
`seed` holds the generated words, `size` is `seed_size`. -/
def jsfFill {w : Nat} (seed : Nat → BitVec w) (size : Int) : Jsf w :=
  { a := BitVec.ofNat w 0xf1ea5eed
    b := seed 0
    c := if 1 < size then seed 1 else seed 0
    d := if 2 < size then seed 2 else seed 0 }

/-- `jsf64_seed`/`jsf32_seed`: fill and draw 20 times. -/
def jsfSeed {w : Nat} (P : JsfPar) (seed : Nat → BitVec w) (size : Int) : Option (Jsf w) :=
  jsfRun P 20 (jsfFill seed size)

/-- Defaults `JSF_DEFAULTS` (randomgen/jsf.pyx:11-12). -/
def jsfDefaults (size : Nat) : JsfPar := if size = 64 then ⟨7, 13, 37⟩ else ⟨27, 17, 0⟩

/-- `JSF32_ALT_PARAMETERS` (randomgen/jsf.pyx:14-49). -/
def jsf32Params : List JsfPar :=
  [⟨27, 17, 0⟩, ⟨9, 16, 0⟩, ⟨9, 24, 0⟩, ⟨10, 16, 0⟩, ⟨10, 24, 0⟩, ⟨11, 16, 0⟩, ⟨11, 24, 0⟩, ⟨25, 8, 0⟩,
   ⟨25, 16, 0⟩, ⟨26, 8, 0⟩, ⟨26, 16, 0⟩, ⟨26, 17, 0⟩, ⟨27, 16, 0⟩, ⟨3, 14, 24⟩, ⟨3, 25, 15⟩, ⟨4, 15, 24⟩,
   ⟨6, 16, 28⟩, ⟨7, 16, 27⟩, ⟨8, 14, 3⟩, ⟨11, 16, 23⟩, ⟨12, 16, 22⟩, ⟨12, 17, 23⟩, ⟨13, 16, 22⟩, ⟨15, 25, 3⟩,
   ⟨16, 9, 3⟩, ⟨17, 9, 3⟩, ⟨17, 27, 7⟩, ⟨19, 7, 3⟩, ⟨23, 15, 11⟩, ⟨23, 16, 11⟩, ⟨23, 17, 11⟩, ⟨24, 3, 16⟩,
   ⟨24, 4, 16⟩, ⟨25, 14, 3⟩, ⟨27, 16, 6⟩, ⟨27, 16, 7⟩]

/-- `JSF64_ALT_PARAMETERS` (randomgen/jsf.pyx:50-51). -/
def jsf64Params : List JsfPar := [⟨7, 13, 37⟩, ⟨39, 11, 0⟩]

/-- The range test on a given parameter (randomgen/jsf.pyx:203-212). -/
def jsfBad (size : Int) : Option Int → Bool
  | none => false
  | some v => ¬ (0 ≤ v ∧ v ≤ size - 1)

/-- Parameter handling of `JSF.__init__` and `setup_generator` (randomgen/jsf.pyx:194-229): the
size must be 32 or 64, each given parameter must lie in `0 .. size-1`, omitted ones get the default.
(The `isinstance` tests are implied by the types here.) -/
def jsfInit (size : Int) (p q r : Option Int) : Except PyErr (Nat × JsfPar) :=
  if size ≠ 32 ∧ size ≠ 64 then .error .valueError
  else if jsfBad size p || jsfBad size q || jsfBad size r then .error .valueError
  else
    let d := jsfDefaults size.toNat
    .ok (size.toNat, ⟨p.getD d.p, q.getD d.q, r.getD d.r⟩)

/-! ## SFC64 -/

/-- `sfc_state_t` without the 32-bit buffer (randomgen/src/sfc/sfc.h). -/
structure Sfc where
  a : U64
  b : U64
  c : U64
  w : U64
  k : U64
  deriving DecidableEq, Repr

/-- `next64` of randomgen/src/sfc/sfc.h:60-68. -/
def sfcNext (s : Sfc) : U64 × Sfc :=
  let out := s.a + s.b + s.w
  (out,
   { w := s.w + s.k
     a := s.b ^^^ (s.b >>> 11)
     b := s.c + (s.c <<< 3)
     c := rotl64 s.c 24 + out
     k := s.k })

/-- `sfc_seed` (randomgen/src/sfc/sfc.c:6-15): load and draw 12 times. -/
def sfcSeed (s0 s1 s2 w k : U64) : Sfc := (stepOf sfcNext)^[12] ⟨s0, s1, s2, w, k⟩

/-- `SFC64._seed_from_seq` (randomgen/sfc.pyx:142-156): `w` and `k` come from the constructor or, if
`None`, from the generated words `gen`. A `k` given by the user is used as it is. -/
def sfcFromSeq (gen : Nat → U64) (w k : Option U64) : Sfc :=
  let w' := w.getD (gen 3)
  let loc := if w.isSome then 3 else 4
  let k' := match k with | some k => k | none => gen loc ||| 1
  sfcSeed (gen 0) (gen 1) (gen 2) w' k'

/-! ## EFIIX64 -/

/-- `efiix64_state_t` without the 32-bit buffer (randomgen/src/efiix64/efiix64.h:19-25): the two tables
have 16 and 32 entries. -/
structure Efiix where
  ind : Fin 16 → U64
  itr : Fin 32 → U64
  i : U64
  a : U64
  b : U64
  c : U64

/-- `x % 16` and `x % 32` as table indices. -/
def ix16 (x : U64) : Fin 16 := ⟨x.toNat % 16, Nat.mod_lt _ (by decide)⟩
def ix32 (x : U64) : Fin 32 := ⟨x.toNat % 32, Nat.mod_lt _ (by decide)⟩

/-- Table assignment `t[j] = v`. -/
def upd {n : Nat} (t : Fin n → U64) (j : Fin n) (v : U64) : Fin n → U64 := fun i => if i = j then v else t i

/-- `efiix64_raw64` (randomgen/src/efiix64/efiix64.h:31-42). -/
def efiixNext (s : Efiix) : U64 × Efiix :=
  let iterated := s.itr (ix32 s.i)
  let indirect := s.ind (ix16 s.c)
  let ind := upd s.ind (ix16 s.c) (iterated + s.a)
  let itr := upd s.itr (ix32 s.i) indirect
  let old := s.a ^^^ s.b
  let a := s.b + s.i
  let i := s.i + 1
  let b := s.c + indirect
  let c := old + rotl64 s.c 25
  (b ^^^ iterated, ⟨ind, itr, i, a, b, c⟩)

/-- `arbee_state_t` (efiix64.h:27-29); the member `e` is never used. -/
structure Arbee where
  a : U64
  b : U64
  c : U64
  d : U64
  i : U64
  deriving DecidableEq, Repr

/-- `arbee_raw64` (randomgen/src/efiix64/efiix64.c:6-13). -/
def arbeeNext (s : Arbee) : U64 × Arbee :=
  let e := s.a + rotl64 s.b 45
  let a := s.b ^^^ rotl64 s.c 13
  let b := s.c + rotl64 s.d 37
  let c := e + s.d + s.i
  let d := e + a
  (d, ⟨a, b, c, d, s.i + 1⟩)

/-- `arbee_seed` (efiix64.c:21-29): load, `i = 1`, 12 draws (`arbee_mix`, :15-19). -/
def arbeeSeed (s1 s2 s3 s4 : U64) : Arbee := (stepOf arbeeNext)^[12] ⟨s1, s2, s3, s4, 1⟩

/-- `for (w = 0; w < n; w++) t[idx(w)] = g(t[idx(w)], arbee_raw64(&seeder))`: the filling loops of
`efiix64_seed` (efiix64.c:37-39, 41-43, 56-59). -/
def arbeeFill {n : Nat} (idx : Nat → Fin n) (g : U64 → U64 → U64) :
    Nat → (Fin n → U64) × Arbee → (Fin n → U64) × Arbee
  | 0, p => p
  | m + 1, p =>
    let q := arbeeFill idx g m p
    let r := arbeeNext q.2
    (upd q.1 (idx m) (g (q.1 (idx m)) r.1), r.2)

/-- `efiix64_seed` (efiix64.c:31-63): overwrites an existing state `old` from four seed words. -/
def efiixSeed (old : Efiix) (s1 s2 s3 s4 : U64) : Efiix :=
  let sd := arbeeSeed s1 s2 s3 s4
  let f1 := arbeeFill (fun w => (⟨w % 16, Nat.mod_lt _ (by decide)⟩ : Fin 16)) (fun _ v => v) 16 (old.ind, sd)
  let ri := arbeeNext f1.2
  let f2 := arbeeFill (fun w => ix32 (BitVec.ofNat 64 w + ri.1)) (fun _ v => v) 32 (old.itr, ri.2)
  let ra := arbeeNext f2.2
  let rb := arbeeNext ra.2
  let rc := arbeeNext rb.2
  let st := (stepOf efiixNext)^[64] ⟨f1.1, f2.1, ri.1, ra.1, rb.1, rc.1⟩
  let r0 := arbeeNext rc.2
  let r1 := arbeeNext r0.2
  let r2 := arbeeNext r1.2
  let r3 := arbeeNext r2.2
  let sd := arbeeSeed ((s1 + r1.1) ^^^ st.a) ((s2 + r2.1) ^^^ st.b) ((s3 + r3.1) ^^^ st.c) (~~~ s4)
  let f3 := arbeeFill (fun w => (⟨w % 16, Nat.mod_lt _ (by decide)⟩ : Fin 16)) (fun t v => t ^^^ v) 16 (st.ind, sd)
  (stepOf efiixNext)^[48] { st with ind := f3.1 }

/-! ## Romu -/

/-- `romu_state_t` without the 32-bit buffer (randomgen/src/romu/romu.h). -/
structure Romu where
  w : U64
  x : U64
  y : U64
  z : U64
  deriving DecidableEq, Repr

/-- The multiplier `15241094284759029579u` of romu.h:52,62. -/
def romuM : U64 := 15241094284759029579

/-- `romuquad_next64` (randomgen/src/romu/romu.h:50-58). -/
def romuQuadNext (s : Romu) : U64 × Romu :=
  (s.x,
   { w := romuM * s.z
     x := s.z + rotl64 s.w 52
     y := s.y - s.x
     z := rotl64 (s.y + s.w) 19 })

/-- `romutrio_next64` (romu.h:60-68). The field `w` is left alone. -/
def romuTrioNext (s : Romu) : U64 × Romu :=
  (s.x,
   { w := s.w
     x := romuM * s.z
     y := rotl64 (s.y - s.x) 12
     z := rotl64 (s.z - s.y) 44 })

/-- `romu_seed` (randomgen/src/romu/romu.c:8-22): load and draw 10 times. -/
def romuSeed (quad : Bool) (w x y z : U64) : Romu :=
  if quad then (stepOf romuQuadNext)^[10] ⟨w, x, y, z⟩ else (stepOf romuTrioNext)^[10] ⟨w, x, y, z⟩

/-- `Romu._seed_from_seq` (randomgen/romu.pyx:126-137): if all four generated words are zero the last
one is replaced by 1. -/
def romuFromSeq (quad : Bool) (g0 g1 g2 g3 : U64) : Romu :=
  let g3' := if g0 = 0 ∧ g1 = 0 ∧ g2 = 0 ∧ g3 = 0 then g3 ||| 1 else g3
  romuSeed quad g0 g1 g2 g3'

/-! ## Tyche -/

/-- `tyche_state_t` (randomgen/src/tyche/tyche.h:31-40). -/
structure Tyche where
  a : U32
  b : U32
  c : U32
  d : U32
  deriving DecidableEq, Repr

/-- `mix` (randomgen/src/tyche/tyche.h:46-55), statement by statement. -/
def tycheMix (s : Tyche) : Tyche :=
  let a := s.a + s.b
  let d := rotl32 (s.d ^^^ a) 16
  let c := s.c + d
  let b := rotl32 (s.b ^^^ c) 12
  let a := a + b
  let d := rotl32 (d ^^^ a) 8
  let c := c + d
  let b := rotl32 (b ^^^ c) 7
  ⟨a, b, c, d⟩

/-- `mix_openrand` (tyche.h:76-85), statement by statement. -/
def tycheMixOpen (s : Tyche) : Tyche :=
  let b := rotl32 s.b 7 ^^^ s.c
  let c := s.c - s.d
  let d := rotl32 s.d 8 ^^^ s.a
  let a := s.a - b
  let b := rotl32 b 12 ^^^ c
  let c := c - d
  let d := rotl32 d 16 ^^^ a
  let a := a - b
  ⟨a, b, c, d⟩

/-- `tyche_next` (tyche.h:57-60) returns `b`. -/
def tycheNext (s : Tyche) : U32 × Tyche := ((tycheMix s).b, tycheMix s)

/-- `tyche_openrand_next` (tyche.h:87-90) returns `a`. -/
def tycheOpenNext (s : Tyche) : U32 × Tyche := ((tycheMixOpen s).a, tycheMixOpen s)

/-- State loaded by `tyche_seed` (randomgen/src/tyche/tyche.c:3-8). -/
def tycheFill (seed : U64) (idx : U32) : Tyche :=
  ⟨(seed >>> 32).truncate 32, seed.truncate 32, 2654435769, 1367130551 ^^^ idx⟩

/-- `tyche_seed` (tyche.c:3-18) for the two values 1 and 0 of `original`: load, mix 20 times. -/
def tycheSeed (original : Bool) (seed : U64) (idx : U32) : Tyche :=
  if original then (tycheMix)^[20] (tycheFill seed idx) else (tycheMixOpen)^[20] (tycheFill seed idx)

/-! ## SplitMix64 -/

/-- `splitmix64_next` (randomgen/src/splitmix64/splitmix64.h:9-14): the Weyl step and the output
finaliser. -/
def splitmixFin (z : U64) : U64 :=
  let z := (z ^^^ (z >>> 30)) * 0xbf58476d1ce4e5b9
  let z := (z ^^^ (z >>> 27)) * 0x94d049bb133111eb
  z ^^^ (z >>> 31)

def splitmixNext (s : U64) : U64 × U64 :=
  let s := s + 0x9e3779b97f4a7c15
  (splitmixFin s, s)

/-- Second loop of `seed_by_array` (randomgen/entropy.pyx:113-119): step `i` with the running value `x`
(`seed_copy`), the position `loc` and the array being filled. -/
def sbaStep (n : Nat) (seed : List U64) (st : U64 × Nat × List U64) (i : Nat) : U64 × Nat × List U64 :=
  let x := if h : i < seed.length then st.1 ^^^ seed[i] else st.1
  let r := splitmixNext x
  let out := st.2.2.set st.2.1 r.1
  let loc := st.2.1 + 1
  (r.2, if loc = n then 0 else loc, out)

/-- `seed_by_array` (randomgen/entropy.pyx:56-121) after validation of the seed, for `n ≥ 1` (the
uninitialised `np.empty(n)` is represented by zeros; every entry is overwritten). -/
def seedByArray (seed : List U64) (n : Nat) : List U64 :=
  ((List.range (max n seed.length)).foldl (sbaStep n seed) (0, 0, List.replicate n 0)).2.2

/-- Scalar seeds (entropy.pyx:85-94): integers outside `[0, 2^64)` are refused. -/
def seedByScalar (seed : Int) (n : Nat) : Except PyErr (List U64) :=
  if seed < 0 ∨ seed > 2 ^ 64 - 1 then .error .valueError
  else .ok (seedByArray [BitVec.ofInt 64 seed] n)

end Verif
