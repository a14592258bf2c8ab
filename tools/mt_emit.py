import json
from gf2big import *
def gen(nm,js,w,N,M,A):
    d=json.load(open(js)); m=int(d["m"],16); D=w*N-31
    mu,_=divmod2(1<<(2*D),m)
    h=w-31;kt=w*(N-1)-31;km=w*M-31
    return f'''/-- The characteristic polynomial of the recursion of {nm}. -/
def {nm}Chi : Nat :=
  {hex(m)}

/-- A state whose images all have bit {kt} clear, except the one after 19936 steps. -/
def {nm}Vec : Nat :=
  {d["v"]}

/-- The quotient of `x^39874` by `{nm}Chi`. -/
def {nm}Mu : Nat :=
  {hex(mu)}

/-- The step of {nm} on tagged states. -/
def {nm}F (n : Nat) : Nat := mtF {h} {hex((1<<h)-1)} {w} {hex((1<<w)-1)} {km} {kt} {hex(A)} n

theorem {nm}Checks : Nat.testBit (iterBits (seenStep {nm}F ({kt} + 64)) 19936 15 (Nat.shiftLeft {nm}Vec 64)) ({kt} + 64) = true ∧
    Nat.shiftRight (hornerBits {nm}F {nm}Chi (Nat.shiftLeft {nm}Vec 64) 19938 15 0) 64 = 0 := by
  constructor
  · decide +kernel
  · decide +kernel
'''
print('''import Verif.Common.Pack
import Verif.Model.MtPoly

/-! The linear maps of MT19937 and MT64 on their arrays packed into one number, their characteristic polynomials, and the
certificates that these annihilate the maps and that the jump tables of MT19937 are powers of `x` modulo the first. The
numbers come from tools/mt_cert.py; the kernel checks them. -/

namespace Verif.Linear
open Verif.GF2

/-- One step on the packed array without its 31 lowest bits, which have no influence; the low 64 bits of `n` are a tag
(`checks_tag`). Words have `w` bits, `h = w - 31`, `km` and `kt` are the places of word `M` and of the new word, `mh` and
`mw` masks of `h` and `w` bits. -/
def mtF (h mh w mw km kt a n : Nat) : Nat :=
  force (Nat.xor (Nat.shiftLeft (Nat.land (Nat.shiftRight n 64) mh) 31) (Nat.land (Nat.shiftRight n (Nat.add 64 h)) 0x7fffffff)) fun y =>
    Nat.xor (Nat.shiftLeft (Nat.xor (Nat.shiftRight n (Nat.add 64 w))
      (Nat.shiftLeft (Nat.xor (Nat.xor (Nat.land (Nat.shiftRight n (Nat.add 64 km)) mw) (Nat.shiftRight y 1)) (Nat.mul a (Nat.land y 1))) kt)) 64)
      (Nat.land (Nat.add (Nat.mul (Nat.land n 0xffffffffffffffff) 6364136223846793005) 1442695040888963407) 0xffffffffffffffff)
''')
print(gen('mt32','mt32.json',32,624,397,0x9908b0df))
print('''theorem mt32Tables : sqCheck mt32Chi mt32Mu 19937 7 2 mtPoly128 = true ∧ sqCheck mt32Chi mt32Mu 19937 2 mtPoly128 mtPoly132 = true ∧
    sqCheck mt32Chi mt32Mu 19937 2 mtPoly132 mtPoly136 = true ∧ sqCheck mt32Chi mt32Mu 19937 2 mtPoly136 mtPoly140 = true ∧
    sqCheck mt32Chi mt32Mu 19937 2 mtPoly140 mtPoly144 = true := by
  refine ⟨?_, ?_, ?_, ?_, ?_⟩ <;> decide +kernel
''')
print(gen('mt64','mt64.json',64,312,156,0xB5026F5AA96619E9))
print('end Verif.Linear')
