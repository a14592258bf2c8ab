import Verif.Common.Words

/-! SPECK128/256 as its designers specify it (Beaulieu, Shors, Smith, Treatman-Clark, Weeks, Wingers, "The SIMON and SPECK
families of lightweight block ciphers", section 4), word size 64, four key words, rotations 8 and 3: written from the
paper and not from the code under `/repo`. -/

namespace Verif.SpeckSpec

/-- The round function `R_k(x, y) = ((S^-8 x + y) + k, S^3 y + (S^-8 x + y) + k)`, the outer sums bitwise. -/
def round (k : U64) (b : U64 × U64) : U64 × U64 :=
  ((b.1.rotateRight 8 + b.2) ^^^ k, b.2.rotateLeft 3 ^^^ ((b.1.rotateRight 8 + b.2) ^^^ k))

/-- The key schedule: the key is `(l_2, l_1, l_0, k_0)`, `l_(i+3) = (k_i + S^-8 l_i) xor i` and
`k_(i+1) = S^3 k_i xor l_(i+3)`. The value at `i` is `(k_i, l_i, l_(i+1), l_(i+2))`. -/
def sched (k0 l0 l1 l2 : U64) : Nat → U64 × U64 × U64 × U64
  | 0 => (k0, l0, l1, l2)
  | i + 1 =>
    let s := sched k0 l0 l1 l2 i
    let l3 := (s.1 + s.2.1.rotateRight 8) ^^^ BitVec.ofNat 64 i
    (s.1.rotateLeft 3 ^^^ l3, s.2.2.1, s.2.2.2, l3)

/-- Round key `k_i`. -/
def roundKey (k0 l0 l1 l2 : U64) (i : Nat) : U64 := (sched k0 l0 l1 l2 i).1

/-- Encryption of the block `(x, y)`, reduced to `T` rounds; SPECK128/256 has `T = 34`. -/
def encrypt (k0 l0 l1 l2 : U64) (b : U64 × U64) : Nat → U64 × U64
  | 0 => b
  | T + 1 => round (roundKey k0 l0 l1 l2 T) (encrypt k0 l0 l1 l2 b T)

end Verif.SpeckSpec
