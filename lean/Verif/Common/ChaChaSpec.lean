import Verif.Common.Words
import Mathlib.Logic.Function.Basic

/-! The ChaCha block function as specified by Bernstein ("ChaCha, a variant of Salsa20", 2008) and RFC 8439 section 2.1-2.3,
on a vector of sixteen words: written from these texts and not from the code under `/repo`. -/

namespace Verif.ChaChaSpec

/-- The state: sixteen 32-bit words. -/
abbrev State := Fin 16 → U32

/-- `QUARTERROUND(a, b, c, d)` on the words with these indices (RFC 8439, 2.1 and 2.2). -/
def quarterRound (a b c d : Fin 16) (x : State) : State :=
  let x := Function.update x a (x a + x b)
  let x := Function.update x d ((x d ^^^ x a).rotateLeft 16)
  let x := Function.update x c (x c + x d)
  let x := Function.update x b ((x b ^^^ x c).rotateLeft 12)
  let x := Function.update x a (x a + x b)
  let x := Function.update x d ((x d ^^^ x a).rotateLeft 8)
  let x := Function.update x c (x c + x d)
  Function.update x b ((x b ^^^ x c).rotateLeft 7)

/-- A column round: quarter rounds down the four columns of the 4 by 4 matrix. -/
def columnRound (x : State) : State :=
  quarterRound 3 7 11 15 (quarterRound 2 6 10 14 (quarterRound 1 5 9 13 (quarterRound 0 4 8 12 x)))

/-- A diagonal round: quarter rounds down the four diagonals. -/
def diagonalRound (x : State) : State :=
  quarterRound 3 4 9 14 (quarterRound 2 7 8 13 (quarterRound 1 6 11 12 (quarterRound 0 5 10 15 x)))

/-- Rounds alternate, a column round first. -/
def rounds (x : State) : Nat → State
  | 0 => x
  | n + 1 => if n % 2 = 0 then columnRound (rounds x n) else diagonalRound (rounds x n)

/-- Word `i` of a number, least significant first. -/
def word (v i : Nat) : U32 := BitVec.ofNat 32 (v / 2 ^ (32 * i))

/-- The constant of ChaCha: the sixteen characters `expand 32-byte k`, four to a word, the first least significant. -/
def sigma (i : Nat) : U32 :=
  BitVec.ofNat 32 ((List.range 4).foldl (fun s j => s + ("expand 32-byte k".toList.getD (4 * i + j) 'a').toNat * 256 ^ j) 0)

/-- The input block: constant, 256-bit key, and the 128 bits of block number and nonce, in Bernstein's layout with the
block number in the low words. -/
def input (key block : Nat) : State := fun k =>
  if k.val < 4 then sigma k.val else if k.val < 12 then word key (k.val - 4) else word block (k.val - 12)

/-- ChaCha with `n` rounds: the rounds applied to the input block, plus the input block. -/
def chacha (n : Nat) (key block : Nat) : State := fun k => rounds (input key block) n k + input key block k

end Verif.ChaChaSpec
