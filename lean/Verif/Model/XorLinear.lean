import Verif.Common.Draw
import Verif.Common.Words

/-! The GF(2)-linear generators: Xoroshiro128 (+ and ++), Xoshiro256, Xoshiro512, Xorshift1024, and
LXM, whose engine is Xoshiro256's. -/

namespace Verif.XorLinear

/-- `uint64_t s[2]`, randomgen/src/xoroshiro128/xoroshiro128.h:6-11. -/
structure S2 where
  s0 : U64
  s1 : U64
  deriving DecidableEq, Repr

/-- `uint64_t s[4]`, randomgen/src/xoshiro256/xoshiro256.h:6-10, lxm/lxm.h:12-18 (field `x`). -/
structure S4 where
  s0 : U64
  s1 : U64
  s2 : U64
  s3 : U64
  deriving DecidableEq, Repr

/-- `uint64_t s[8]`, randomgen/src/xoshiro512/xoshiro512.h:6-11. -/
structure S8 where
  s0 : U64
  s1 : U64
  s2 : U64
  s3 : U64
  s4 : U64
  s5 : U64
  s6 : U64
  s7 : U64
  deriving DecidableEq, Repr

/-- Word-wise `t[w] ^= s[w]`. -/
def S2.xor (a b : S2) : S2 := ⟨a.s0 ^^^ b.s0, a.s1 ^^^ b.s1⟩
def S4.xor (a b : S4) : S4 := ⟨a.s0 ^^^ b.s0, a.s1 ^^^ b.s1, a.s2 ^^^ b.s2, a.s3 ^^^ b.s3⟩
def S8.xor (a b : S8) : S8 :=
  ⟨a.s0 ^^^ b.s0, a.s1 ^^^ b.s1, a.s2 ^^^ b.s2, a.s3 ^^^ b.s3,
   a.s4 ^^^ b.s4, a.s5 ^^^ b.s5, a.s6 ^^^ b.s6, a.s7 ^^^ b.s7⟩

/-- The all-zero arrays the jump functions start accumulating from. -/
def S2.zero : S2 := ⟨0, 0⟩
def S4.zero : S4 := ⟨0, 0, 0, 0⟩
def S8.zero : S8 := ⟨0, 0, 0, 0, 0, 0, 0, 0⟩

/-- The loop shared by all the `*_jump` functions: for every word of the table and every bit of the
word, low bit first, XOR the current state into the accumulator if the bit is set, then draw.
Returns the accumulator and the state after the loop.
randomgen/src/xoroshiro128/xoroshiro128.c:41-80, xoshiro256/xoshiro256.c:31-61,
xoshiro512/xoshiro512.c:32-52, xorshift1024/xorshift1024.c:11-31, lxm/lxm.c:25-52. -/
def jumpLoop {σ : Type} (xor : σ → σ → σ) (step : σ → σ) (table : List U64) (zero s : σ) : σ × σ :=
  table.foldl
    (fun as w =>
      (List.range 64).foldl
        (fun as b => (if w.getLsbD b then xor as.1 as.2 else as.1, step as.2)) as)
    (zero, s)

/-! ### Xoroshiro128 -/

/-- `xoroshiro128_next`, randomgen/src/xoroshiro128/xoroshiro128.h:18-29. -/
def xoroPlusNext (s : S2) : U64 × S2 :=
  let s0 := s.s0
  let s1 := s.s1
  let result := s0 + s1
  let s1 := s1 ^^^ s0
  (result, ⟨rotl64 s0 24 ^^^ s1 ^^^ (s1 <<< 16), rotl64 s1 37⟩)

/-- `xoroshiro128plusplus_next`, randomgen/src/xoroshiro128/xoroshiro128.h:31-41. -/
def xoroPPNext (s : S2) : U64 × S2 :=
  let s0 := s.s0
  let s1 := s.s1
  let result := rotl64 (s0 + s1) 17 + s0
  let s1 := s1 ^^^ s0
  (result, ⟨rotl64 s0 49 ^^^ s1 ^^^ (s1 <<< 21), rotl64 s1 28⟩)

/-- `JUMP` of `xoroshiro128_jump`, randomgen/src/xoroshiro128/xoroshiro128.c:46. -/
def xoroPlusTable : List U64 := [0xdf900294d8f554a5, 0x170865df4b3201fc]
/-- `JUMP` of `xoroshiro128plusplus_jump`, randomgen/src/xoroshiro128/xoroshiro128.c:67. -/
def xoroPPTable : List U64 := [0x2bd7a6a6e99c2ddc, 0x0992ccaf6a6fca05]

/-- `xoroshiro128_jump`, randomgen/src/xoroshiro128/xoroshiro128.c:41-63. -/
def xoroPlusJump (s : S2) : S2 := (jumpLoop S2.xor (stepOf xoroPlusNext) xoroPlusTable S2.zero s).1
/-- `xoroshiro128plusplus_jump`, randomgen/src/xoroshiro128/xoroshiro128.c:65-82. -/
def xoroPPJump (s : S2) : S2 := (jumpLoop S2.xor (stepOf xoroPPNext) xoroPPTable S2.zero s).1

/-- A `Xoroshiro128` object: the C state and the `_plusplus` flag, randomgen/xoroshiro128.pyx:131-147. -/
structure Xoro where
  buf : Buf S2
  plusplus : Bool
  deriving DecidableEq, Repr

/-- The draw function selected by `_set_generators`, randomgen/xoroshiro128.pyx:138-148. -/
def xoroNext (plusplus : Bool) : S2 → U64 × S2 := if plusplus then xoroPPNext else xoroPlusNext
/-- The jump function selected in `jump_inplace`, randomgen/xoroshiro128.pyx:201-204. -/
def xoroJump (plusplus : Bool) : S2 → S2 := if plusplus then xoroPPJump else xoroPlusJump

/-- `Xoroshiro128.jump_inplace`, randomgen/xoroshiro128.pyx:188-205; `range(iter)` is empty for a
negative `iter`. -/
def Xoro.jumpInplace (g : Xoro) (iter : Int) : Xoro :=
  { g with buf := Buf.reset { g.buf with core := (xoroJump g.plusplus)^[iter.toNat] g.buf.core } }

/-! ### Xoshiro256 -/

/-- The linear part of `xoshiro256_next`, randomgen/src/xoshiro256/xoshiro256.h:18-27; the same text
is `xorshift` in randomgen/src/lxm/lxm.h:39-49. -/
def xosh256Step (s : S4) : S4 :=
  let t := s.s1 <<< 17
  let s2 := s.s2 ^^^ s.s0
  let s3 := s.s3 ^^^ s.s1
  let s1 := s.s1 ^^^ s2
  let s0 := s.s0 ^^^ s3
  let s2 := s2 ^^^ t
  let s3 := rotl64 s3 45
  ⟨s0, s1, s2, s3⟩

/-- `xoshiro256_next`, randomgen/src/xoshiro256/xoshiro256.h:16-30. -/
def xosh256Next (s : S4) : U64 × S4 := (rotl64 (s.s1 * 5) 7 * 9, xosh256Step s)

/-- `JUMP`, randomgen/src/xoshiro256/xoshiro256.c:34 and randomgen/src/lxm/lxm.c:27-28. -/
def xosh256Table : List U64 :=
  [0x180ec6d33cfd0aba, 0xd5a61266f0c9392c, 0xa9582618e03fc9aa, 0x39abdc4529b1661c]

/-- `xoshiro256_jump`, randomgen/src/xoshiro256/xoshiro256.c:31-61. -/
def xosh256Jump (s : S4) : S4 := (jumpLoop S4.xor (stepOf xosh256Next) xosh256Table S4.zero s).1

/-- `Xoshiro256.jump_inplace`, randomgen/xoshiro256.pyx:166-180. -/
def xosh256JumpInplace (g : Buf S4) (iter : Int) : Buf S4 :=
  Buf.reset { g with core := xosh256Jump^[iter.toNat] g.core }

/-! ### Xoshiro512 -/

/-- The linear part of `xoshiro512_next`, randomgen/src/xoshiro512/xoshiro512.h:22-35. -/
def xosh512Step (s : S8) : S8 :=
  let t := s.s1 <<< 11
  let s2 := s.s2 ^^^ s.s0
  let s5 := s.s5 ^^^ s.s1
  let s1 := s.s1 ^^^ s2
  let s7 := s.s7 ^^^ s.s3
  let s3 := s.s3 ^^^ s.s4
  let s4 := s.s4 ^^^ s5
  let s0 := s.s0 ^^^ s.s6
  let s6 := s.s6 ^^^ s7
  let s6 := s6 ^^^ t
  let s7 := rotl64 s7 21
  ⟨s0, s1, s2, s3, s4, s5, s6, s7⟩

/-- `xoshiro512_next`, randomgen/src/xoshiro512/xoshiro512.h:18-38. -/
def xosh512Next (s : S8) : U64 × S8 := (rotl64 (s.s1 * 5) 7 * 9, xosh512Step s)

/-- `JUMP`, randomgen/src/xoshiro512/xoshiro512.c:35-38. -/
def xosh512Table : List U64 :=
  [0x33ed89b6e7a353f9, 0x760083d7955323be, 0x2837f2fbb5f22fae, 0x4b8c5674d309511c,
   0xb11ac47a7ba28c25, 0xf1be7667092bcc1c, 0x53851efdb6df0aaf, 0x1ebbc8b23eaf25db]

/-- `xoshiro512_jump`, randomgen/src/xoshiro512/xoshiro512.c:32-52. -/
def xosh512Jump (s : S8) : S8 := (jumpLoop S8.xor (stepOf xosh512Next) xosh512Table S8.zero s).1

/-- `Xoshiro512.jump_inplace`, randomgen/xoshiro512.pyx:163-177. -/
def xosh512JumpInplace (g : Buf S8) (iter : Int) : Buf S8 :=
  Buf.reset { g with core := xosh512Jump^[iter.toNat] g.core }

/-! ### Xorshift1024 -/

/-- `s[16]` and `p` of `xorshift1024_state_t`, randomgen/src/xorshift1024/xorshift1024.h:6-11, for
`0 ≤ p ≤ 15`; see `Verif.Xorshift` for states outside that range. -/
structure X16 where
  s : Fin 16 → U64
  p : Fin 16

/-- `arr[i] = v`. -/
def setWord (s : Fin 16 → U64) (i : Fin 16) (v : U64) : Fin 16 → U64 := fun j => if j = i then v else s j

/-- `xorshift1024_next`, randomgen/src/xorshift1024/xorshift1024.h:13-19 (`& 15` is addition in
`Fin 16`). -/
def xors1024Next (g : X16) : U64 × X16 :=
  let s0 := g.s g.p
  let p := g.p + 1
  let s1 := g.s p
  let s1 := s1 ^^^ (s1 <<< 31)
  let v := s1 ^^^ s0 ^^^ (s1 >>> 11) ^^^ (s0 >>> 30)
  (v * 0x9e3779b97f4a7c13, ⟨setWord g.s p v, p⟩)

/-- `JUMP`, randomgen/src/xorshift1024/xorshift1024.c:13-19. -/
def xors1024Table : List U64 :=
  [0x84242f96eca9c41d, 0xa3c65b8776f96855, 0x5b34a39f070b5837, 0x4489affce4f31a1e,
   0x2ffeeb0a48316f40, 0xdc2d9891fe68c022, 0x3659132bb12fea70, 0xaac17d8efa43cab8,
   0xc4cb815590989b13, 0x5ee975283d71c93b, 0x691548c86c1bd540, 0x7910c41d10a1e6a5,
   0x0b5fc64563b3e2a8, 0x047f7684e9fc949d, 0xb99181f2d8f685ca, 0x284600e3f30e38c3]

/-- One iteration of the inner loop of `xorshift1024_jump` on `(t, state)`,
randomgen/src/xorshift1024/xorshift1024.c:23-28: `t[j] ^= s[(j + p) & 15]`. -/
def xors1024JumpBit (w : U64) (ts : (Fin 16 → U64) × X16) (b : Nat) : (Fin 16 → U64) × X16 :=
  (if w.getLsbD b then fun j => ts.1 j ^^^ ts.2.s (j + ts.2.p) else ts.1, (xors1024Next ts.2).2)

/-- `xorshift1024_jump`, randomgen/src/xorshift1024/xorshift1024.c:11-31. The final loop
`s[(j + p) & 15] = t[j]` over all `j` writes every word: word `i` receives `t[(i - p) & 15]`. -/
def xors1024Jump (g : X16) : X16 :=
  let r := xors1024Table.foldl (fun ts w => (List.range 64).foldl (xors1024JumpBit w) ts)
    ((fun _ => 0), g)
  ⟨fun i => r.1 (i - r.2.p), r.2.p⟩

/-- `Xorshift1024.jump_inplace`, randomgen/xorshift1024.pyx:167-181. -/
def xors1024JumpInplace (g : Buf X16) (iter : Int) : Buf X16 :=
  Buf.reset { g with core := xors1024Jump^[iter.toNat] g.core }

/-! ### LXM -/

/-- `x[4]`, `lcg_state`, `b` of `lxm_state_t`, randomgen/src/lxm/lxm.h:12-19. -/
structure Lxm where
  x : S4
  lcg : U64
  b : U64
  deriving DecidableEq, Repr

/-- `LCG_MULT`, randomgen/src/lxm/lxm.h:9. -/
def lcgMult : U64 := 2862933555777941757#64

/-- `murmur_hash3`, randomgen/src/lxm/lxm.h:32-37. -/
def murmurHash3 (key : U64) : U64 :=
  let key := (key ^^^ (key >>> 30)) * 0xbf58476d1ce4e5b9#64
  let key := (key ^^^ (key >>> 27)) * 0x94d049bb133111eb#64
  key ^^^ (key >>> 31)

/-- `lcg`, randomgen/src/lxm/lxm.h:51-54. -/
def lcgStep (b lcg : U64) : U64 := lcgMult * lcg + b

/-- `lxm_next64`, randomgen/src/lxm/lxm.h:56-61. -/
def lxmNext (g : Lxm) : U64 × Lxm :=
  (murmurHash3 (g.x.s0 + g.lcg), { g with lcg := lcgStep g.b g.lcg, x := xosh256Step g.x })

/-- `lxm_jump`, randomgen/src/lxm/lxm.c:54-64 with `xorshift_jump`, :25-52. -/
def lxmJump (g : Lxm) : Lxm :=
  { g with x := (jumpLoop S4.xor xosh256Step xosh256Table S4.zero g.x).1 }

/-- `LXM.jump_inplace`, randomgen/lxm.pyx:183-197. -/
def lxmJumpInplace (g : Buf Lxm) (iter : Int) : Buf Lxm :=
  Buf.reset { g with core := lxmJump^[iter.toNat] g.core }

end Verif.XorLinear
