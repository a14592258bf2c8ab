import json,sys
from gf2big import *
d=json.load(open('dsfmt.json'))
m=int(d["m"],16); big=int(d["big"],16); D=20183
mu,_=divmod2(1<<(2*D),big)
LB=d["LB"]
print(f'''import Verif.Common.Pack
import Verif.Model.SimdPoly

/-! The linear map of dSFMT on the lung and the low 52 bits of its 191 words of two lanes, packed into one number, the
characteristic polynomial, and the certificates that this polynomial annihilates the map and that the jump tables are
powers of `x` modulo its product with `x^191 + 1`. The numbers come from tools/gf2big.py; the kernel checks them. -/

namespace Verif.Linear
open Verif.GF2

/-- The characteristic polynomial of the recursion of dSFMT on the bits that change. -/
def dsfmtChi : Nat :=
  {hex(m)}

/-- A state whose images all have bit {LB} clear, except the one after 19991 steps. -/
def dsfmtVec : Nat :=
  {d["v"]}

/-- The product of `dsfmtChi` and `x^191 + 1`. -/
def dsfmtBig : Nat := Nat.xor dsfmtChi (Nat.shiftLeft dsfmtChi 191)

/-- The quotient of `x^40366` by `dsfmtBig`. -/
def dsfmtMu : Nat :=
  {hex(mu)}

/-- The lung of one lane: lane `x` of the oldest word, lane `y` of the middle word, the other lane `u` of the lung. -/
def dsfmtLungN (x y u : Nat) : Nat :=
  Nat.xor (Nat.mod (Nat.shiftLeft x 19) 0x10000000000000000)
    (Nat.xor (Nat.xor (Nat.shiftRight u 32) (Nat.mod (Nat.shiftLeft u 32) 0x10000000000000000)) y)

/-- The new lane. -/
def dsfmtOutN (m l x : Nat) : Nat := Nat.xor (Nat.xor (Nat.shiftRight l 12) (Nat.land l m)) x

/-- One step on the packed state: the oldest word is dropped, the next one added at the top, the lung replaced. -/
def dsfmtF (s : Nat) : Nat :=
  force (Nat.shiftRight s 128) fun w =>
  force (Nat.mod w 0x10000000000000) fun a0 =>
  force (Nat.mod (Nat.shiftRight w 52) 0x10000000000000) fun a1 =>
  force (dsfmtLungN a0 (Nat.mod (Nat.shiftRight w 12168) 0x10000000000000) (Nat.mod (Nat.shiftRight s 64) 0x10000000000000000)) fun l0 =>
  force (dsfmtLungN a1 (Nat.mod (Nat.shiftRight w 12220) 0x10000000000000) (Nat.mod s 0x10000000000000000)) fun l1 =>
    Nat.xor (Nat.shiftLeft (Nat.xor (Nat.shiftRight w 104)
      (Nat.shiftLeft (Nat.xor (dsfmtOutN 0x000ffafffffffb3f l0 a0) (Nat.shiftLeft (dsfmtOutN 0x000ffdfffc90fffd l1 a1) 52)) 19760)) 128)
      (Nat.xor l0 (Nat.shiftLeft l1 64))

theorem dsfmtChecks : Nat.testBit (iterBits (seenStep dsfmtF {LB}) 19991 15 dsfmtVec) {LB} = true ∧
    hornerBits dsfmtF dsfmtChi dsfmtVec 19993 15 0 = 0 := by
  constructor
  · decide +kernel
  · decide +kernel

theorem dsfmtTables : sqCheck dsfmtBig dsfmtMu 20183 7 2 dsfmtPoly128 = true ∧ sqCheck dsfmtBig dsfmtMu 20183 2 dsfmtPoly128 dsfmtPoly132 = true ∧
    sqCheck dsfmtBig dsfmtMu 20183 2 dsfmtPoly132 dsfmtPoly136 = true ∧ sqCheck dsfmtBig dsfmtMu 20183 2 dsfmtPoly136 dsfmtPoly140 = true ∧
    sqCheck dsfmtBig dsfmtMu 20183 2 dsfmtPoly140 dsfmtPoly144 = true := by
  refine ⟨?_, ?_, ?_, ?_, ?_⟩ <;> decide +kernel

end Verif.Linear''')
