import Verif.Common.Recipes

/-! What the table of doc/source/parallel.rst:131-167 says of a generator. Nothing here looks at the code of the generators. -/

namespace Verif

variable {Par Seed St : Type}

/-- What draw `n` returns of the generator that `jumped()` makes of a fresh one. -/
def GCls.afterJump (C : GCls Par Seed St) (p : Par) (sd : Seed) (o : Op) (n : Nat) : Option SRes :=
  (C.program (.new p sd :: .jumped 0 1 :: List.replicate (n + 1) (.draw 1 o)))[n + 2]?

/-- The draws have the exact period `P`, and `jumped()` moves as if `J` numbers had been drawn. -/
def PeriodJump (C : GCls Par Seed St) (p : Par) (sd : Seed) (o : Op) (P J : Nat) : Prop :=
  (∀ d, (∀ n, C.alone p sd o (n + d) = C.alone p sd o n) ↔ P ∣ d) ∧ ∀ n, C.afterJump p sd o n = C.alone p sd o (n + J)

/-- The columns "Period" and "Jump Size" of a row. The table says `2^k` for the periods `2^k - 1` of generators that leave out the zero state. -/
def TableRow (C : GCls Par Seed St) (p : Par) (sd : Seed) (o : Op) (period jump : Nat) : Prop :=
  ∃ P, (P = period ∨ P + 1 = period) ∧ PeriodJump C p sd o P jump

/-- The jump size `φ` of the table, "the integer value of … the golden ratio, times the full period" (parallel.rst:169-171): the integer nearest to
`(√5 - 1) / 2 * P`, that is `(2 J - 1 + P)² < 5 P² < (2 J + 1 + P)²`. -/
def GoldenJump (P J : Nat) : Prop := (2 * J - 1 + P) ^ 2 < 5 * P ^ 2 ∧ 5 * P ^ 2 < (2 * J + 1 + P) ^ 2

end Verif
