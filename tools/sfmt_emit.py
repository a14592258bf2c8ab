import json,sys
from gf2big import *
d=json.load(open('sfmt.json'))
m=int(d["m"],16); D=19968
mu,_=divmod2(1<<(2*D),m)
BM=hex(sum(((0xffffffff>>11)&k)<<(32*i) for i,k in enumerate([0xdfffffef,0xddfecb7f,0xbffaffff,0xbffffff6])))
DM=hex(sum(((0xffffffff<<18)&0xffffffff)<<(32*i) for i in range(4)))
print(f'''import Verif.Common.Pack
import Verif.Model.SimdPoly

/-! The linear map of SFMT on its 156 words packed into one number, its characteristic polynomial, and the certificates
that this polynomial annihilates the map and that the jump tables are powers of `x` modulo it. The numbers come from
tools/gf2big.py; the kernel checks them. -/

namespace Verif.Linear
open Verif.GF2

/-- The characteristic polynomial of the recursion of SFMT. -/
def sfmtChi : Nat :=
  {hex(m)}

/-- A state whose images all have bit `128 * 155` clear, except the one after 19967 steps. -/
def sfmtVec : Nat :=
  {d["v"]}

/-- The quotient of `x^39936` by `sfmtChi`. -/
def sfmtMu : Nat :=
  {hex(mu)}

/-- `2^128 - 1` -/
def m128 : Nat := 0xffffffffffffffffffffffffffffffff

/-- The recursion of SFMT on numbers. -/
def sfmtRecN (a b c d : Nat) : Nat :=
  Nat.xor (Nat.xor (Nat.xor a (Nat.land (Nat.shiftLeft a 8) m128))
    (Nat.xor (Nat.land (Nat.shiftRight b 11) {BM}) (Nat.shiftRight c 8)))
    (Nat.land (Nat.shiftLeft d 18) {DM})

/-- One step on the packed state: the oldest word is dropped, the next one added at the top. -/
def sfmtF (s : Nat) : Nat :=
  force (Nat.land s m128) fun a =>
    Nat.xor (Nat.shiftRight s 128)
      (Nat.shiftLeft (sfmtRecN a (Nat.land (Nat.shiftRight s 15616) m128) (Nat.land (Nat.shiftRight s 19712) m128)
        (Nat.land (Nat.shiftRight s 19840) m128)) 19840)

theorem sfmtChecks : Nat.testBit (iterBits (seenStep sfmtF 19840) 19967 15 sfmtVec) 19840 = true ∧
    hornerBits sfmtF sfmtChi sfmtVec 19969 15 0 = 0 := by
  constructor
  · decide +kernel
  · decide +kernel

theorem sfmtTables : sqCheck sfmtChi sfmtMu 19968 7 2 sfmtPoly128 = true ∧ sqCheck sfmtChi sfmtMu 19968 2 sfmtPoly128 sfmtPoly132 = true ∧
    sqCheck sfmtChi sfmtMu 19968 2 sfmtPoly132 sfmtPoly136 = true ∧ sqCheck sfmtChi sfmtMu 19968 2 sfmtPoly136 sfmtPoly140 = true ∧
    sqCheck sfmtChi sfmtMu 19968 2 sfmtPoly140 sfmtPoly144 = true := by
  refine ⟨?_, ?_, ?_, ?_, ?_⟩ <;> decide +kernel

end Verif.Linear''')
