import Verif.Model.ExtGen

/-! The state dictionaries of NumPy's bit generators of the names that randomgen also has (numpy.random, 1.21 and later). An `ExtendedGenerator` of a
NumPy bit generator is pickled with the name in this dictionary (randomgen/generator.pyx:196-199), which randomgen/_pickle.py:63-75 looks up among
randomgen's classes, and the dictionary is assigned to the `state` of that class. NumPy's source is not in the repository: the shapes are part of the
trusted base. -/

namespace Verif

/-- `numpy.random.PCG64().state` and `numpy.random.PCG64DXSM().state`, by name. -/
def npPcg64 (name : String) (state inc : U128) (has uint : U32) : PyVal :=
  mkDict ([("bit_generator", .str name), ("state", mkDict [("state", .int state.toNat), ("inc", .int inc.toNat)])] ++ halfEntries has uint)

/-- `numpy.random.MT19937().state` -/
def npMt19937 (key : Vector U32 624) (pos : U32) : PyVal :=
  mkDict [("bit_generator", .str "MT19937"), ("state", mkDict [("key", pyArr key), ("pos", pyI pos)])]

/-- `numpy.random.Philox().state` -/
def npPhilox (ctr : Vector U64 4) (key : Vector U64 2) (buf : Vector U64 4) (pos has uint : U32) : PyVal :=
  mkDict ([("bit_generator", .str "Philox"), ("state", mkDict [("counter", pyArr ctr), ("key", pyArr key)]), ("buffer", pyArr buf),
    ("buffer_pos", pyI pos)] ++ halfEntries has uint)

/-- `numpy.random.SFC64().state`: one array of the four words. -/
def npSfc64 (words : Vector U64 4) (has uint : U32) : PyVal :=
  mkDict ([("bit_generator", .str "SFC64"), ("state", mkDict [("state", pyArr words)])] ++ halfEntries has uint)

end Verif
