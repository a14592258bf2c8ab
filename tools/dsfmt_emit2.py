from gf2big import *
import json
d=json.load(open('dsfmt.json')); m=int(d["m"],16); D=19992
mu,_=divmod2(1<<(2*D),m)
x=2
for e in range(128): x=divmod2(clmul(x,x),m)[1]
s=f'''/-- The quotient of `x^39984` by `dsfmtChi`. -/
def dsfmtMu0 : Nat :=
  {hex(mu)}

/-- `x^(2^128)` modulo `dsfmtChi`. -/
def dsfmtRem : Nat :=
  {hex(x)}

theorem dsfmtRem_check : sqCheck dsfmtChi dsfmtMu0 19992 7 2 dsfmtRem = true := by decide +kernel

end Verif.Linear'''
p='/verif/lean/Verif/Proof/DsfmtCert.lean'
t=open(p).read()
assert 'dsfmtMu0' not in t
open(p,'w').write(t.replace('end Verif.Linear',s))
