import Verif.Model.Ints
import Verif.Common.Draw

/-! Philox and ThreeFry: counter-mode generators with a small output buffer
(randomgen/src/philox, randomgen/src/threefry, randomgen/philox.pyx, randomgen/threefry.pyx).

`N` is the number of words (2 or 4), `w` the word width (32 or 64). Counters, keys and blocks are lists of
words, least significant first. -/

namespace Verif

/-! ## The block functions -/

/-- `mulhilo##W` in the double-word form (philox.h:74-79): the high word and the low word. -/
def mulhilo {w : Nat} (a b : BitVec w) : BitVec w × BitVec w :=
  let product := a.zeroExtend (2 * w) * b.zeroExtend (2 * w)
  ((product >>> w).truncate w, product.truncate w)

/-- `_mulhilo_c99_tpl` (philox.h:146-166): the same without a double-word type. -/
def mulhiloC99 {w : Nat} (a b : BitVec w) : BitVec w × BitVec w :=
  let h := w / 2
  let lomask := (1 : BitVec w) <<< h - 1
  let lo := a * b
  let ahi := a >>> h
  let alo := a &&& lomask
  let bhi := b >>> h
  let blo := b &&& lomask
  let ahbl := ahi * blo
  let albh := alo * bhi
  let s := (ahbl &&& lomask) + (albh &&& lomask)
  let hi := ahi * bhi + (ahbl >>> h) + (albh >>> h)
  let hi := hi + (s >>> h)
  let hi := hi + (if lo >>> h < (s &&& lomask) then 1 else 0)
  (hi, lo)

/-- The multipliers and Weyl constants (philox.h:231-266). -/
def philoxM0 (N w : Nat) : BitVec w :=
  BitVec.ofNat w (if N = 2 then (if w = 64 then 0xD2B74407B1CE6E93 else 0xd256d193)
    else (if w = 64 then 0xD2E7470EE14C6C93 else 0xD2511F53))
def philoxM1 (w : Nat) : BitVec w := BitVec.ofNat w (if w = 64 then 0xCA5A826395121157 else 0xCD9E8D57)
def philoxW0 (w : Nat) : BitVec w := BitVec.ofNat w (if w = 64 then 0x9E3779B97F4A7C15 else 0x9E3779B9)
def philoxW1 (w : Nat) : BitVec w := BitVec.ofNat w (if w = 64 then 0xBB67AE8584CAA73B else 0xBB67AE85)

/-- `_philox2x##W##round` (philox.h:288-295) and `_philox4x##W##round` (philox.h:302-312). Lists of another
length do not occur. -/
def philoxRound {w : Nat} (ctr key : List (BitVec w)) : List (BitVec w) :=
  match ctr, key with
  | [c0, c1], [k0] =>
    let p := mulhilo (philoxM0 2 w) c0
    [p.1 ^^^ k0 ^^^ c1, p.2]
  | [c0, c1, c2, c3], [k0, k1] =>
    let p0 := mulhilo (philoxM0 4 w) c0
    let p1 := mulhilo (philoxM1 w) c2
    [p1.1 ^^^ c1 ^^^ k0, p1.2, p0.1 ^^^ c3 ^^^ k1, p0.2]
  | c, _ => c

/-- `bumpkey` (philox.h:296-300, 314-319). -/
def philoxBump {w : Nat} : List (BitVec w) → List (BitVec w)
  | [k0] => [k0 + philoxW0 w]
  | [k0, k1] => [k0 + philoxW0 w, k1 + philoxW1 w]
  | k => k

/-- `philox##N##x##W##_R` (philox.h:322-349) with `R` rounds. -/
def philoxR {w : Nat} : Nat → List (BitVec w) → List (BitVec w) → List (BitVec w)
  | 0, ctr, _ => ctr
  | r + 1, ctr, key => philoxR r (philoxRound ctr key) (philoxBump key)

/-- `philox##N##x##W` (philox.h:369-374): ten rounds. -/
def philox {w : Nat} (ctr key : List (BitVec w)) : List (BitVec w) := philoxR 10 ctr key

/-- `RotL_##W` (threefry.h:162-174). -/
def tfRotl {w : Nat} (x : BitVec w) (n : Nat) : BitVec w := (x <<< (n % w)) ||| (x >>> ((w - n) % w))

/-- Rotation constants (threefry.h:68-154): entry `r % 8`, first and second column. -/
def tfRotTable (N w : Nat) : List (Nat × Nat) :=
  if N = 2 then
    if w = 64 then [(16, 0), (42, 0), (12, 0), (31, 0), (16, 0), (32, 0), (24, 0), (21, 0)]
    else [(13, 0), (15, 0), (26, 0), (6, 0), (17, 0), (29, 0), (16, 0), (24, 0)]
  else
    if w = 64 then [(14, 16), (52, 57), (23, 40), (5, 37), (25, 33), (46, 12), (58, 22), (32, 32)]
    else [(10, 26), (11, 21), (13, 27), (23, 5), (6, 20), (17, 11), (25, 10), (18, 20)]

/-- `SKEIN_KS_PARITY##W` (threefry.h:176-178). -/
def tfParity (w : Nat) : BitVec w := BitVec.ofNat w (if w = 64 then 0x1BD11BDAA9FC1A22 else 0x1BD11BDA)

/-- The extended key `ks[0..N]` (threefry.h:207-216, 313-322). -/
def tfKs {w : Nat} (key : List (BitVec w)) : List (BitVec w) := key ++ [key.foldl (· ^^^ ·) (tfParity w)]

/-- `X.v[a] += X.v[b]; X.v[b] = RotL(X.v[b], R); X.v[b] ^= X.v[a]`: the new pair. -/
def tfMix {w : Nat} (a b : BitVec w) (r : Nat) : BitVec w × BitVec w :=
  let a := a + b
  (a, tfRotl b r ^^^ a)

/-- Round number `r` (threefry.h:221 ff., 327 ff.): one mix for two words; for four words the pairs `(0,1),(2,3)`
in even rounds and `(0,3),(2,1)` in odd rounds. -/
def tfRound {w : Nat} (r : Nat) (x : List (BitVec w)) : List (BitVec w) :=
  match x with
  | [x0, x1] =>
    let p := tfMix x0 x1 ((tfRotTable 2 w).getD (r % 8) (0, 0)).1
    [p.1, p.2]
  | [x0, x1, x2, x3] =>
    let R := (tfRotTable 4 w).getD (r % 8) (0, 0)
    if r % 2 = 0 then
      let p := tfMix x0 x1 R.1
      let q := tfMix x2 x3 R.2
      [p.1, p.2, q.1, q.2]
    else
      let p := tfMix x0 x3 R.1
      let q := tfMix x2 x1 R.2
      [p.1, q.2, q.1, p.2]
  | x => x

/-- `InjectKey(r)`: `X.v[j] += ks[(r + j) % (N + 1)]`, then `X.v[N-1] += r` (threefry.h:222-226, 332-336, ...). -/
def tfInject {w : Nat} (ks : List (BitVec w)) (r : Nat) (x : List (BitVec w)) : List (BitVec w) :=
  match x with
  | [x0, x1] => [x0 + ks.getD (r % 3) 0, x1 + ks.getD ((r + 1) % 3) 0 + BitVec.ofNat w r]
  | [x0, x1, x2, x3] =>
    [x0 + ks.getD (r % 5) 0, x1 + ks.getD ((r + 1) % 5) 0, x2 + ks.getD ((r + 2) % 5) 0,
      x3 + ks.getD ((r + 3) % 5) 0 + BitVec.ofNat w r]
  | x => x

/-- `threefry##N##x##W##_R` (threefry.h:198-285, 304 ff.) after `n` rounds: the key is injected before round 0
and after every fourth round. -/
def threefryR {w : Nat} (key : List (BitVec w)) : Nat → List (BitVec w) → List (BitVec w)
  | 0, x => tfInject (tfKs key) 0 x
  | n + 1, x =>
    let y := tfRound n (threefryR key n x)
    if (n + 1) % 4 = 0 then tfInject (tfKs key) ((n + 1) / 4) y else y

/-- `threefry##N##x##W`: twenty rounds (threefry.h:183-195). -/
def threefry {w : Nat} (ctr key : List (BitVec w)) : List (BitVec w) := threefryR key 20 ctr

/-! ## The generators -/

/-- `philox_all_t` / `threefry_all_t` (philox.h:400-408). `buf` has four entries, `pos` is `buffer_pos`. -/
structure CtrGen (w : Nat) where
  ctr : List (BitVec w)
  key : List (BitVec w)
  buf : Nat → BitVec w
  pos : Int
  has : Bool
  uinteger : U32

/-- `do { ctr.v[i++]++; } while (ctr.v[i-1] == 0 && i < N)` (philox.h:416-418). -/
def ctrIncr {w : Nat} : List (BitVec w) → List (BitVec w)
  | [] => []
  | c :: cs => if c + 1 = 0 then (c + 1) :: ctrIncr cs else (c + 1) :: cs

/-- `philox##N##x##W##_next` (philox.h:409-428), `threefry##N##x##W##_next`, with block function `blk`.
`none` is a read outside `buffer`. -/
def cmNext {w : Nat} (N : Nat) (blk : List (BitVec w) → List (BitVec w) → List (BitVec w)) (s : CtrGen w) :
    Option (BitVec w × CtrGen w) :=
  if s.pos < N then
    if 0 ≤ s.pos then some (s.buf s.pos.toNat, { s with pos := s.pos + 1 }) else none
  else
    let ctr := ctrIncr s.ctr
    let ct := blk ctr s.key
    some (ct.getD 0 0, { s with
      ctr := ctr
      buf := fun i => if 1 ≤ i ∧ i < N then ct.getD i 0 else s.buf i
      pos := 1 })

/-- The loop of `philox##N##x##W##_advance` (philox.c:17-29); `step` has one word more than `ctr`, and the
last round of the loop (no counter word left) does not look at the next step word. -/
def cmAdvLoop {w : Nat} (N : Nat) : List (BitVec w) → List (BitVec w) → BitVec w → List (BitVec w)
  | s :: ss, c :: cs, carry =>
    let adj := s / BitVec.ofNat w N + (if cs = [] then 0 else (ss.headD 0 % BitVec.ofNat w N) <<< (w - N / 2))
    let c' := c + (adj + carry)
    let carry' : BitVec w := if c' < c ∨ (adj + carry = 0 ∧ 0 < adj) then 1 else 0
    c' :: cmAdvLoop N ss cs carry'
  | _, cs, _ => cs

/-- `philox##N##x##W##_advance` (philox.c:5-34), `threefry##N##x##W##_advance` (threefry.c:5-34). `buffer_pos` is
non-negative for every state built by the library; `%` of a negative `int` is not modelled (`Int.tmod` would be
needed), so this is stated on `pos.toNat`. -/
def cmAdvance {w : Nat} (N : Nat) (blk : List (BitVec w) → List (BitVec w) → List (BitVec w)) (s : CtrGen w)
    (step : List (BitVec w)) (useCarry : Bool) : CtrGen w :=
  let rem := (step.headD 0 % BitVec.ofNat w N).toNat
  let nextPos := s.pos.toNat + rem
  let carry : BitVec w := if ((s.pos = N ∧ rem = 0) ∨ (nextPos ≥ N ∧ rem > 0)) ∧ useCarry = true then 1 else 0
  let ctr := cmAdvLoop N step s.ctr carry
  let ct := blk ctr s.key
  { s with
    ctr := ctr
    pos := (nextPos % N : Nat)
    buf := fun i => if i < N then ct.getD i 0 else s.buf i }

/-- `_reset_state_variables` (philox.pyx:223-228, threefry.pyx:221-226): `PHILOX_BUFFER_SIZE` is 4 for every
variant. -/
def cmReset {w : Nat} (s : CtrGen w) : CtrGen w :=
  { s with uinteger := 0, has := false, pos := 4, buf := fun i => if i < 4 then 0 else s.buf i }

/-- `advance(delta, counter)` (philox.pyx:526-568, threefry.pyx:505-547). -/
def cmPyAdvance {w : Nat} (N : Nat) (blk : List (BitVec w) → List (BitVec w) → List (BitVec w)) (s : CtrGen w)
    (delta : Int) (counter : Bool) : Except PyErr (CtrGen w) :=
  if delta = 0 then .ok s
  else
    let delta := if counter then delta * N else delta
    match Ints.intToArray (.int (Ints.wrapInt delta (N * w + N / 2))) ((N + 1) * w) w with
    | .error e => .error e
    | .ok ws =>
      let s := cmAdvance N blk s (ws.map (BitVec.ofNat w)) (!counter)
      let s := { s with uinteger := 0, has := false }
      .ok (if counter then cmReset s else s)

/-- `jump_inplace` (philox.pyx:415-427, threefry.pyx:395-407). -/
def cmJump {w : Nat} (N : Nat) (blk : List (BitVec w) → List (BitVec w) → List (BitVec w)) (s : CtrGen w)
    (iter : Int) : Except PyErr (CtrGen w) :=
  cmPyAdvance N blk s (iter * 2 ^ (w * N / 2)) true

/-- The words `array[i] = value // 2**(w*i) % 2**w` of a counter or key. -/
def toWords (w : Nat) : Nat → Nat → List (BitVec w)
  | 0, _ => []
  | n + 1, v => BitVec.ofNat w v :: toWords w n (v / 2 ^ w)

/-- `seed(key=key, counter=counter)` after conversion of its arguments (philox.pyx:284-319), on any old state. -/
def cmSeed {w : Nat} (N kN : Nat) (old : CtrGen w) (key counter : Nat) : CtrGen w :=
  cmReset { old with key := toWords w kN key, ctr := toWords w N counter }

end Verif
