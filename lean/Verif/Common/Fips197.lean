import Verif.Common.Basic

/-! FIPS 197 (Advanced Encryption Standard), AES-128, written from the standard and not from the code under
`/repo`: the field GF(2^8), SubBytes as field inversion followed by an affine map, ShiftRows and MixColumns
by their index formulas, and the key schedule as a recurrence on words. -/

namespace Verif.Fips197

/-- A byte. -/
abbrev Byte := BitVec 8

/-- Product of two polynomials over GF(2), coefficient `i` in bit `i`, `b` of degree at most 7 (FIPS 197, section 4.2),
before reduction. -/
def polyMul (a b : Nat) : Nat :=
  (List.range 8).foldl (fun s i => if b.testBit i then s ^^^ (a <<< i) else s) 0

/-- Remainder of a polynomial of degree at most 15 modulo `m(x) = x^8 + x^4 + x^3 + x + 1`, that is `0x11b`: long
division from degree 15 down. -/
def polyMod (p : Nat) : Nat :=
  (List.range 8).foldl (fun p i => if p.testBit (15 - i) then p ^^^ (0x11b <<< (7 - i)) else p) p

/-- Multiplication in GF(2^8) (section 4.2). -/
def mul (a b : Byte) : Byte := BitVec.ofNat 8 (polyMod (polyMul a.toNat b.toNat))

/-- Powers in GF(2^8). -/
def pow (a : Byte) : Nat → Byte
  | 0 => 1
  | n + 1 => mul (pow a n) a

/-- Multiplicative inverse, with 0 sent to 0: `a^254 = a^2 a^4 a^8 ... a^128`. `fips_inv` in Props/AesSpec.lean proves
`a * inv a = 1` for `a ≠ 0`. -/
def inv (a : Byte) : Byte :=
  ((List.range 7).foldl (fun (p : Byte × Byte) _ => (mul p.1 (mul p.2 p.2), mul p.2 p.2)) (1, a)).1

/-- The affine map of section 5.1.1, equation (5.1): bit `i` of the result is
`b_i + b_(i+4) + b_(i+5) + b_(i+6) + b_(i+7) + c_i`, indices modulo 8, `c = 0x63`. -/
def affine (b : Byte) : Byte :=
  BitVec.ofNat 8 <| (List.range 8).foldl (fun s i => s + 2 ^ i *
    (b.getLsbD i ^^ b.getLsbD ((i + 4) % 8) ^^ b.getLsbD ((i + 5) % 8) ^^ b.getLsbD ((i + 6) % 8) ^^
      b.getLsbD ((i + 7) % 8) ^^ (0x63#8).getLsbD i).toNat) 0

/-- The S-box (section 5.1.1). -/
def subByte (b : Byte) : Byte := affine (inv b)

/-- The state: `s r c` is the byte in row `r` and column `c` (section 3.4). -/
abbrev State := Fin 4 → Fin 4 → Byte

/-- Copying the input into the state: `s[r, c] = in[r + 4c]` (section 3.4). -/
def load (inp : Nat → Byte) : State := fun r c => inp (r + 4 * c)

/-- SubBytes (section 5.1.1). -/
def subBytes (s : State) : State := fun r c => subByte (s r c)

/-- ShiftRows (section 5.1.2): `s'[r, c] = s[r, (c + r) mod 4]`. -/
def shiftRows (s : State) : State := fun r c => s r (c + r)

/-- The coefficients of `a(x) = {03}x^3 + {01}x^2 + {01}x + {02}` (section 5.1.3). -/
def mixPoly (k : Fin 4) : Byte := match k with | 0 => 0x02 | 1 => 0x01 | 2 => 0x01 | 3 => 0x03

/-- MixColumns (section 5.1.3): every column, as a polynomial of degree at most 3 over GF(2^8), times `a(x)`
modulo `x^4 + 1`; row `r` collects the products of coefficients `k` of the column and `r - k` of `a`. -/
def mixColumns (s : State) : State := fun r c =>
  mul (mixPoly (r - 0)) (s 0 c) ^^^ mul (mixPoly (r - 1)) (s 1 c) ^^^ mul (mixPoly (r - 2)) (s 2 c) ^^^
    mul (mixPoly (r - 3)) (s 3 c)

/-- A four-byte word `[a0, a1, a2, a3]`. -/
abbrev Word := Fin 4 → Byte

/-- RotWord (section 5.2). -/
def rotWord (w : Word) : Word := fun j => w (j + 1)

/-- SubWord (section 5.2). -/
def subWord (w : Word) : Word := fun j => subByte (w j)

/-- `Rcon[i] = [x^(i-1), 0, 0, 0]` (section 5.2). -/
def rcon (i : Nat) : Word := fun j => if j = 0 then pow 0x02 (i - 1) else 0

/-- KeyExpansion (section 5.2) for `Nk = 4`: word `w[i]`. -/
def keyWord (key : Nat → Byte) (i : Nat) : Word :=
  if i < 4 then fun j => key (4 * i + j)
  else if i % 4 = 0 then fun j =>
    keyWord key (i - 4) j ^^^ (subWord (rotWord (keyWord key (i - 1))) j ^^^ rcon (i / 4) j)
  else fun j => keyWord key (i - 4) j ^^^ keyWord key (i - 1) j
termination_by i

/-- AddRoundKey (section 5.1.4): column `c` of round `round` is xored with word `4 * round + c`. -/
def addRoundKey (w : Nat → Word) (round : Nat) (s : State) : State := fun r c => s r c ^^^ w (4 * round + c) r

/-- The state after the first `n` rounds of Cipher (section 5.1), all of them full rounds. -/
def rounds (w : Nat → Word) (s : State) : Nat → State
  | 0 => addRoundKey w 0 s
  | n + 1 => addRoundKey w (n + 1) (mixColumns (shiftRows (subBytes (rounds w s n))))

/-- AES-128: byte `n` of the 16 bytes of `Cipher(in, KeyExpansion(key))`, `out[r + 4c] = s[r, c]`
(section 5.1). -/
def cipher (key inp : Nat → Byte) (n : Fin 16) : Byte :=
  let w := keyWord key
  let s := addRoundKey w 10 (shiftRows (subBytes (rounds w (load inp) 9)))
  s ⟨n % 4, Nat.mod_lt _ (by decide)⟩ ⟨n / 4, by omega⟩

end Verif.Fips197
