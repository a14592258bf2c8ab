import Verif.Model.IncArg
import Verif.Model.Session6

/-! `seed(seed, counter, key)` of Philox and ThreeFry with all its arguments, on an instance together with its seed sequence. -/

namespace Verif

/-- `seed(key=key, counter=counter)`: what it raises and what it leaves. -/
def ctrKeyed (F : CtrFam) (key counter : Ints.ObjIn) (s : Seeded CtrI) : Except PyErr Unit × Seeded CtrI := match ctrSeedKey F key counter s.core with
  | .ok c => (.ok (), { s with core := c })
  | .error e => (.error e, s)

/-- `seed` (philox.pyx:286-290, threefry.pyx:275-279), `_seed_with_seed_sequence` (common.pyx:79-87), `_seed_from_seq` (philox.pyx:233-240,
threefry.pyx:228-231) and `_seed_from_seq_numpy_compat` (philox.pyx:242-245), which does not pass the counter on. `given`: the argument `seed` is
not `None`; `gen` are the words of its seed sequence, or of the one made from entropy; `numpy`: the seeding mode (Philox only). -/
def ctrSeedCall (F : CtrFam) (numpy given : Bool) (gen : Nat → U64) (key counter : Ints.ObjIn) (s : Seeded CtrI) :
    Except PyErr Unit × Seeded CtrI :=
  if given ∧ key ≠ .none then (.error .valueError, s)
  else if key = .none then
    let s := { s with seq := gen }
    let words := Ints.ObjIn.arr64 (F.seedKey s.core.n.toNat s.core.w.toNat gen)
    if numpy then
      if s.core.n ≠ 4 ∨ s.core.w ≠ 64 then (.error .valueError, s) else ctrKeyed F words .none s
    else ctrKeyed F words counter s
  else ctrKeyed F key counter s

end Verif
