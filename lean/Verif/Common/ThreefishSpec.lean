import Mathlib.Data.Fin.VecNotation
import Mathlib.Data.Nat.Sqrt

/-! Threefish as the Skein hash function defines it (Ferguson et al., The Skein Hash Function Family, version 1.3, section
3.3) and its reduced forms Threefry (Salmon et al., Parallel random numbers: as easy as 1, 2, 3, SC11, section 3.2), and Philox
(section 3.3 there). Stated from these papers, independently of the code. -/

namespace Verif.Threefish

/-- Word `i` of the extended key: the words of the key and the xor of all of them with the constant `C`. -/
def extKey {N w : Nat} (C : BitVec w) (key : Fin N → BitVec w) (i : Nat) : BitVec w :=
  if h : i < N then key ⟨i, h⟩ else (List.ofFn key).foldr (· ^^^ ·) C

/-- Word `i` of subkey `s`, with tweak words `t 0`, `t 1` and `t 2 = t 0 xor t 1`. -/
def subkey {N w : Nat} (C : BitVec w) (key : Fin N → BitVec w) (t : Nat → BitVec w) (s : Nat) (i : Fin N) : BitVec w :=
  let k := extKey C key ((s + i) % (N + 1))
  if i.val + 1 = N then k + BitVec.ofNat w s
  else if i.val + 2 = N then k + t ((s + 1) % 3)
  else if i.val + 3 = N then k + t (s % 3)
  else k

/-- A cipher of the family: rotation constants `R d j`, permutation of the words, key constant. -/
structure Cipher (N w : Nat) where
  R : Nat → Nat → Nat
  perm : Fin N → Fin N
  C : BitVec w

/-- `MIX` of the pairs `(2j, 2j+1)` in round `d`: the sum, and the rotated second word xor the sum. -/
def mixAll {N w : Nat} (c : Cipher N w) (d : Nat) (e : Fin N → BitVec w) (i : Fin N) : BitVec w :=
  let at' (n : Nat) : BitVec w := if h : n < N then e ⟨n, h⟩ else 0
  let sum := at' (2 * (i / 2)) + at' (2 * (i / 2) + 1)
  if i.val % 2 = 0 then sum else (at' i).rotateLeft (c.R (d % 8) (i / 2)) ^^^ sum

/-- Round `d`: every fourth round the subkey is added; the pairs are mixed; the words are permuted. -/
def round {N w : Nat} (c : Cipher N w) (key : Fin N → BitVec w) (t : Nat → BitVec w) (d : Nat) (v : Fin N → BitVec w) :
    Fin N → BitVec w :=
  let e := fun i => if d % 4 = 0 then v i + subkey c.C key t (d / 4) i else v i
  fun i => mixAll c d e (c.perm i)

/-- The state before round `d`. -/
def state {N w : Nat} (c : Cipher N w) (key : Fin N → BitVec w) (t : Nat → BitVec w) (p : Fin N → BitVec w) :
    Nat → Fin N → BitVec w
  | 0 => p
  | d + 1 => round c key t d (state c key t p d)

/-- Encryption with `n` rounds, a multiple of four: the last subkey is added to the state. -/
def encrypt {N w : Nat} (c : Cipher N w) (key : Fin N → BitVec w) (t : Nat → BitVec w) (n : Nat) (p : Fin N → BitVec w) :
    Fin N → BitVec w := fun i => state c key t p n i + subkey c.C key t (n / 4) i

/-- Rotation constants as a table of rows. -/
def rots (l : List (List Nat)) (d j : Nat) : Nat := (l.getD d []).getD j 0

/-- Threefish-256 (Skein 1.3, tables 3 and 4, `C_240`). -/
def threefish256 : Cipher 4 64 where
  R := rots [[14, 16], [52, 57], [23, 40], [5, 37], [25, 33], [46, 12], [58, 22], [32, 32]]
  perm := ![0, 3, 2, 1]
  C := 0x1BD11BDAA9FC1A22

/-- Threefry-4x32, -2x64 and -2x32 (Random123). -/
def threefry4x32 : Cipher 4 32 where
  R := rots [[10, 26], [11, 21], [13, 27], [23, 5], [6, 20], [17, 11], [25, 10], [18, 20]]
  perm := ![0, 3, 2, 1]
  C := 0x1BD11BDA
def threefry2x64 : Cipher 2 64 where
  R := rots [[16], [42], [12], [31], [16], [32], [24], [21]]
  perm := ![0, 1]
  C := 0x1BD11BDAA9FC1A22
def threefry2x32 : Cipher 2 32 where
  R := rots [[13], [15], [26], [6], [17], [29], [16], [24]]
  perm := ![0, 1]
  C := 0x1BD11BDA

/-- No tweak. -/
def noTweak (w : Nat) : Nat → BitVec w := fun _ => 0

end Verif.Threefish

namespace Verif.PhiloxSpec

/-- The Weyl constants: `2^w` times the golden ratio minus one, and `2^w` times the square root of 3 minus one, rounded
down. -/
def golden (w : Nat) : Nat := (Nat.sqrt (5 * 4 ^ w) - 2 ^ w) / 2
def root3 (w : Nat) : Nat := Nat.sqrt (3 * 4 ^ w) - 2 ^ w

/-- High and low word of the product of a word by a constant. -/
def mulHi {w : Nat} (M : Nat) (x : BitVec w) : BitVec w := BitVec.ofNat w (M * x.toNat / 2 ^ w)
def mulLo {w : Nat} (M : Nat) (x : BitVec w) : BitVec w := BitVec.ofNat w (M * x.toNat)

/-- Round `r` of Philox-2xW: a Feistel round whose round key is `k + r * golden`. -/
def round2 {w : Nat} (M : Nat) (k : BitVec w) (r : Nat) (x : Fin 2 → BitVec w) : Fin 2 → BitVec w :=
  ![mulHi M (x 0) ^^^ (k + BitVec.ofNat w (r * golden w)) ^^^ x 1, mulLo M (x 0)]

/-- Round `r` of Philox-4xW: two such rounds on the pairs `(0, 1)` and `(2, 3)`, which then change places. -/
def round4 {w : Nat} (M0 M1 : Nat) (k : Fin 2 → BitVec w) (r : Nat) (x : Fin 4 → BitVec w) : Fin 4 → BitVec w :=
  ![mulHi M1 (x 2) ^^^ (k 0 + BitVec.ofNat w (r * golden w)) ^^^ x 1, mulLo M1 (x 2),
    mulHi M0 (x 0) ^^^ (k 1 + BitVec.ofNat w (r * root3 w)) ^^^ x 3, mulLo M0 (x 0)]

/-- `n` rounds. -/
def iter {α : Type} (f : Nat → α → α) : Nat → α → α
  | 0, x => x
  | n + 1, x => f n (iter f n x)

/-- The multipliers of table 2. -/
def mult2 (w : Nat) : Nat := if w = 64 then 0xD2B74407B1CE6E93 else 0xD256D193
def mult4 (w : Nat) : Nat × Nat :=
  if w = 64 then (0xD2E7470EE14C6C93, 0xCA5A826395121157) else (0xD2511F53, 0xCD9E8D57)

end Verif.PhiloxSpec
