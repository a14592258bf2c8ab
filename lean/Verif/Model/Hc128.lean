import Verif.Common.Draw
import Mathlib.Logic.Function.Basic

/-! HC128: randomgen/src/hc-128/hc-128.h and hc-128.c, and the reference implementation of the cipher that ships next to
them (randomgen/src/hc-128/hc128_ref.h). -/

namespace Verif

/-- `rotl` (hc-128.h:19-25) for `0 < n < 32`. -/
def hcRotl (x : U32) (n : Nat) : U32 := (x <<< n) ||| (x >>> (32 - n))

/-- `G1(x, y, z)` (hc-128.h:27). -/
def hcG1 (x y z : U32) : U32 := (hcRotl x 22 ^^^ hcRotl z 9) + hcRotl y 24
/-- `G2(x, y, z)` (hc-128.h:29). -/
def hcG2 (x y z : U32) : U32 := (hcRotl x 10 ^^^ hcRotl z 23) + hcRotl y 8

/-- `H(qp, x)` (hc-128.h:31). -/
def hcH (qp : Nat → U32) (x : U32) : U32 := qp (x &&& 0xFF#32).toNat + qp (256 + ((x >>> 16) &&& 0xFF#32).toNat)

/-- `M512((i - k))` (hc-128.h:34): `i` is promoted to 32-bit unsigned. -/
def m512 (i k : Nat) : Nat := ((BitVec.ofNat 32 i - BitVec.ofNat 32 k) &&& 0x1ff#32).toNat

/-- `round_expression_pq` (with `g = G1`) and `round_expression_qp` (`g = G2`), hc-128.h:36-46, for `i < 512`: the value
returned and the table. `M512((i + 1u))` is `(i + 1) & 511`. -/
def hcRound (g : U32 → U32 → U32 → U32) (pq qp : Nat → U32) (i : Nat) : U32 × (Nat → U32) :=
  let pq := Function.update pq i (pq i + g (pq (m512 i 3)) (pq (m512 i 10)) (pq ((i + 1) % 512)))
  (pq i ^^^ hcH qp (pq (m512 i 12)), pq)

/-- `hc128_state_t` (hc-128.h:11-17). -/
structure Hc where
  p : Nat → U32
  q : Nat → U32
  buffer : Nat → U32
  hcIdx : Int
  bufIdx : Int

/-- One of the sixteen lines of a branch of `hc128_extract_unroll`: table and buffer. -/
def hcLine (g : U32 → U32 → U32 → U32) (qp : Nat → U32) (i : Nat) (s : (Nat → U32) × (Nat → U32)) (j : Nat) :
    (Nat → U32) × (Nat → U32) :=
  let r := hcRound g s.1 qp ((i + j) % 512)
  (r.2, Function.update s.2 j r.1)

/-- `hc128_extract_unroll` (hc-128.h:48-87). `uint16_t i = hc_idx`. Below 512 the index is not masked: a line with
`i + 15 ≥ 512` writes outside `p` (`none`). -/
def hcExtract (s : Hc) : Option Hc :=
  let i := (s.hcIdx % 65536).toNat
  let idx := (s.hcIdx + 16) % 1024
  if i < 512 then
    if i + 15 < 512 then
      let r := (List.range 16).foldl (hcLine hcG1 s.q i) (s.p, s.buffer)
      some { s with p := r.1, buffer := r.2, bufIdx := 0, hcIdx := idx }
    else none
  else
    let r := (List.range 16).foldl (hcLine hcG2 s.p i) (s.q, s.buffer)
    some { s with q := r.1, buffer := r.2, bufIdx := 0, hcIdx := idx }

/-- `hc128_next32` (hc-128.h:89-97). A position outside the buffer is undefined (`none`). -/
def hcNext32 (s : Hc) : Option (U32 × Hc) := do
  let s ← if s.bufIdx % 16 = 0 then hcExtract s else some s
  if 0 ≤ s.bufIdx ∧ s.bufIdx < 16 then some (s.buffer s.bufIdx.toNat, { s with bufIdx := s.bufIdx + 1 }) else none

/-- `f1` (hc-128.c:14). -/
def hcF1 (x : U32) : U32 := hcRotl x 25 ^^^ hcRotl x 14 ^^^ (x >>> 3)
/-- `f2` (hc-128.c:15). -/
def hcF2 (x : U32) : U32 := hcRotl x 15 ^^^ hcRotl x 13 ^^^ (x >>> 10)

/-- The array `w` of `hc128_init` (hc-128.c:22-31): key words 0 to 3, IV words 4 to 7 of the seed. -/
def hcExpand (seed : Nat → U32) : Nat → U32 :=
  (List.range' 16 1264).foldl
    (fun w i => Function.update w i (hcF2 (w (i - 2)) + w (i - 7) + hcF1 (w (i - 15)) + w (i - 16) + BitVec.ofNat 32 i))
    (fun i => if i < 8 then seed (i % 4) else seed (4 + i % 4))

/-- `hc128_init` (hc-128.c:17-49) over an old state: `buffer` and `buffer_idx` are left alone. -/
def hcSeed (seed : Nat → U32) (old : Hc) : Hc :=
  let w := hcExpand seed
  let pq : (Nat → U32) × (Nat → U32) := (List.range 512).foldl
    (fun s i => (Function.update s.1 i (w (i + 256)), Function.update s.2 i (w (i + 768)))) (old.p, old.q)
  let p := (List.range 512).foldl (fun p i => let r := hcRound hcG1 p pq.2 i; Function.update r.2 i r.1) pq.1
  let q := (List.range 512).foldl (fun q i => let r := hcRound hcG2 q p i; Function.update r.2 i r.1) pq.2
  { old with p := p, q := q, hcIdx := 0 }

/-- A new instance: its memory is zeroed by the allocator. -/
def hcZero : Hc := ⟨fun _ => 0, fun _ => 0, fun _ => 0, 0, 0⟩

/-! ### Reference implementation -/

/-- `HC128_State` (hc128_ref.h:41-46) without the output word. -/
structure HcRef where
  P : Nat → U32
  Q : Nat → U32
  c : Nat

/-- `ROTR32` (hc128_ref.h:48). -/
def refRotr (x : U32) (n : Nat) : U32 := (x >>> n) ||| (x <<< (32 - n))
/-- `g1` (hc128_ref.h:55). -/
def refG1 (x y z : U32) : U32 := (refRotr x 10 ^^^ refRotr z 23) + refRotr y 8
/-- `g2` (hc128_ref.h:56). -/
def refG2 (x y z : U32) : U32 := (hcRotl x 10 ^^^ hcRotl z 23) + hcRotl y 8
/-- `h1`, `h2` (hc128_ref.h:59-75). -/
def refH (T : Nat → U32) (u : U32) : U32 := T (u.truncate 8).toNat + T (256 + ((u >>> 16).truncate 8).toNat)
/-- `(i - k) & 0x1ff` in 32-bit unsigned arithmetic (hc128_ref.h:85-89). -/
def refIx (i k : Nat) : Nat := ((BitVec.ofNat 32 i - BitVec.ofNat 32 k) &&& 0x1ff#32).toNat

/-- The update of `P[i]` or `Q[i]` in `OneStep`. -/
def refUpd (g : U32 → U32 → U32 → U32) (T : Nat → U32) (i : Nat) : Nat → U32 :=
  Function.update T i (T i + g (T (refIx i 3)) (T (refIx i 10)) (T (refIx i 511)))

/-- `OneStep` (hc128_ref.h:81-101): the keystream word and the next state. -/
def refStep (s : HcRef) : U32 × HcRef :=
  let i := s.c % 512
  let c := (s.c + 1) % 1024
  if s.c < 512 then
    let P := refUpd refG1 s.P i
    (refH s.Q (P (refIx i 12)) ^^^ P i, ⟨P, s.Q, c⟩)
  else
    let Q := refUpd refG2 s.Q i
    (refH s.P (Q (refIx i 12)) ^^^ Q i, ⟨s.P, Q, c⟩)

/-- `InitOneStep` (hc128_ref.h:107-127). -/
def refInitStep (s : HcRef) : HcRef :=
  let i := s.c % 512
  let r := refStep s
  if s.c < 512 then { r.2 with P := Function.update r.2.P i r.1 } else { r.2 with Q := Function.update r.2.Q i r.1 }

/-- `f1` (hc128_ref.h:51). -/
def refF1 (x : U32) : U32 := refRotr x 7 ^^^ refRotr x 18 ^^^ (x >>> 3)
/-- `f2` (hc128_ref.h:52). -/
def refF2 (x : U32) : U32 := refRotr x 17 ^^^ refRotr x 19 ^^^ (x >>> 10)

/-- `Initialization` (hc128_ref.h:131-152). -/
def refInit (key iv : Nat → U32) : HcRef :=
  let W := (List.range' 16 1264).foldl
    (fun w i => Function.update w i (refF2 (w (i - 2)) + w (i - 7) + refF1 (w (i - 15)) + w (i - 16) + BitVec.ofNat 32 i))
    (fun i => if i < 4 then key i else if i < 8 then key (i - 4) else if i < 12 then iv (i - 8) else iv (i - 12))
  refInitStep^[1024] ⟨fun i => W (i + 256), fun i => W (i + 256 + 512), 0⟩

end Verif
