import Verif.Model.SeedSeq

/-! `SeedSequence.state` and `SeedSequence.__repr__`, and the constructor called with what they give. -/

namespace Verif.SeedSeq

/-- The entries of `state`, randomgen/_seed_sequence.pyx:329-335. None of the four attributes is ever `None` (`entropy` is drawn in that case,
lines 297-298), so that the test on line 335 leaves all of them in. -/
structure State where
  entropy : Ent
  spawnKey : List Int
  poolSize : Int
  nChildren : Int

/-- `state`, randomgen/_seed_sequence.pyx:329-335. -/
def stateOf (s : SeedSeq) : State := ⟨s.entropy, s.spawnKey, s.poolSize, s.nChildren⟩

/-- `SeedSequence(**state)`. -/
def ofState (d : State) : Except PyErr SeedSeq := mk d.entropy d.spawnKey d.poolSize d.nChildren

/-- The keyword arguments in the text of `repr`; `none`: the line is left out. -/
structure Repr where
  entropy : Ent
  spawnKey : Option (List Int)
  poolSize : Option Int
  nChildren : Option Int

/-- `__repr__`, randomgen/_seed_sequence.pyx:311-327; `DEFAULT_POOL_SIZE` is 4 (line 58). -/
def reprOf (s : SeedSeq) : Repr :=
  ⟨s.entropy, if s.spawnKey = [] then none else some s.spawnKey, if (s.poolSize : Int) ≠ 4 then some s.poolSize else none,
    if s.nChildren ≠ 0 then some s.nChildren else none⟩

/-- The text of `repr` evaluated: the defaults of the constructor are those of randomgen/_seed_sequence.pyx:292-293. The text of the entropy is
taken to evaluate to the entropy, as it does for Python integers and (nested) lists and tuples of them; it does not for arrays and strings. -/
def ofRepr (d : Repr) : Except PyErr SeedSeq := mk d.entropy (d.spawnKey.getD []) (d.poolSize.getD 4) (d.nChildren.getD 0)

/-- Several calls of `spawn` on one sequence: the children of all calls, in order, and the sequence afterwards. -/
def spawnAll (s : SeedSeq) : List Int → Except PyErr (List SeedSeq × SeedSeq)
  | [] => .ok ([], s)
  | n :: ns => match spawn s n with
    | .error e => .error e
    | .ok (cs, s') => match spawnAll s' ns with
      | .error e => .error e
      | .ok (ds, s'') => .ok (cs ++ ds, s'')

end Verif.SeedSeq
