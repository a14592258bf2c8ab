import Verif.Common.Basic

/-! Word-level helpers shared by several generators. -/

namespace Verif

/-- `rotl(x, k)` for 64-bit words: `(x << k) | (x >> (64 - k))`, randomgen/src/xoroshiro128/xoroshiro128.h:13-16,
xoshiro256/xoshiro256.h:12-14, xoshiro512/xoshiro512.h:13-16, lxm/lxm.h:23-26, sfc/sfc.h, jsf/jsf.h,
romu/romu.h, efiix64/efiix64.h. -/
def rotl64 (x : U64) (k : Nat) : U64 := x <<< k ||| x >>> (64 - k)

/-- The same for 32-bit words: jsf/jsf.h, tyche/tyche.h, chacha, hc128. -/
def rotl32 (x : U32) (k : Nat) : U32 := x <<< k ||| x >>> (32 - k)

theorem xor_left_comm {w : Nat} (a b c : BitVec w) : a ^^^ (b ^^^ c) = b ^^^ (a ^^^ c) := by
  rw [← BitVec.xor_assoc, BitVec.xor_comm a b, BitVec.xor_assoc]

theorem rotl64_eq (x : U64) (k : Nat) (hk : k < 64) : rotl64 x k = x.rotateLeft k := by
  rw [rotl64, BitVec.rotateLeft_def, Nat.mod_eq_of_lt hk]

theorem rotl32_eq (x : U32) (k : Nat) (hk : k < 32) : rotl32 x k = x.rotateLeft k := by
  rw [rotl32, BitVec.rotateLeft_def, Nat.mod_eq_of_lt hk]

end Verif
