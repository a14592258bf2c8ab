import json
P=json.load(open('mtpoly.json'))
print('''import Verif.Model.Mt
import Verif.Model.Sfmt

/-! The jump tables of MT19937 (randomgen/src/mt19937/mt19937-poly.h): strings of 19937 characters. Character `j` is the
coefficient of `x^(19936-j)` (`mt19937_jump_state`, mt19937-jump.c:147-151), so that the string is a binary numeral; here
the same numeral is written in hexadecimal. -/

namespace Verif
''')
lines={'default':9,'128':281,'132':553,'136':825,'140':1097,'144':1369}
for e in ['128','132','136','140','144']:
    print(f'''/-- `poly_{e}` (mt19937-poly.h:{lines[e]}-{lines[e]+270}) -/
def mtPoly{e} : Nat :=
  {P[e]}
''')
print('''/-- The table used for `2^e` steps (`mt19937_jump_n`, mt19937.c:142-165). -/
def mtPoly (e : Nat) : Nat :=
  if e = 144 then mtPoly144 else if e = 140 then mtPoly140 else if e = 136 then mtPoly136 else if e = 132 then mtPoly132 else mtPoly128

/-- The characters of the string, first to last. -/
def mtPolyStr (e : Nat) : List Bool := (List.range 19937).map fun j => (mtPoly e).testBit (19936 - j)

/-- `mt19937_jump_n` (mt19937.c:134-166); `none` is undefined behaviour. -/
def mtJumps (count : Nat) (s : Mt 32) : Option (Mt 32) :=
  jumpN (fun e (o : Option (Mt 32)) => o.bind (mtJumpState mt32 (mtPolyStr e))) count (some s)

end Verif''')
