/-! Fixed-width integers of the C code: wrap-around `BitVec`s. -/

namespace Verif

/-- `uint32_t` -/
abbrev U32 := BitVec 32
/-- `uint64_t` -/
abbrev U64 := BitVec 64
/-- `__uint128_t` -/
abbrev U128 := BitVec 128

/-- Python exceptions raised by the modelled code, by class. -/
inductive PyErr where
  | valueError
  | typeError
  | keyError
  | overflowError
  | indexError
  | runtimeError
  deriving DecidableEq, Repr

/-- Decidable equality for results that may be errors (used by concrete examples). -/
instance {ε α : Type} [DecidableEq ε] [DecidableEq α] : DecidableEq (Except ε α) := fun x y =>
  match x, y with
  | .ok a, .ok b => decidable_of_iff (a = b) (by simp)
  | .error a, .error b => decidable_of_iff (a = b) (by simp)
  | .ok _, .error _ => isFalse (by simp)
  | .error _, .ok _ => isFalse (by simp)

end Verif
