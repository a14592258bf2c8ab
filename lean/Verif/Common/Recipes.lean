import Verif.Common.SessionSpec
import Mathlib.Data.Nat.ModEq

/-! The recipes of doc/source/parallel.rst for making several streams, as programs, and what is asked of the streams. Nothing here looks at the
code of the generators. -/

namespace Verif

variable {Par Seed St : Type}

/-- parallel.rst:173-185: a generator, and `m` times the generator `jumped()` makes of the last one. -/
def jumpChain (p : Par) (sd : Seed) (m : Nat) : List (SOp Par Seed) := .new p sd :: (List.range m).map fun i => .jumped i 1

/-- parallel.rst:93-107: a generator, and `m` more with the same seed, number `i` advanced by `i * step`. -/
def advanceFan (p : Par) (sd : Seed) (step : Int) (m : Nat) : List (SOp Par Seed) :=
  .new p sd :: (List.range m).flatMap fun i => [.new p sd, .advance (i + 1) ((i + 1) * step)]

/-- What draw `n` of a generator returns that nobody else uses. -/
def GCls.alone (C : GCls Par Seed St) (p : Par) (sd : Seed) (o : Op) (n : Nat) : Option SRes :=
  (C.program (.new p sd :: List.replicate (n + 1) (.draw 0 o)))[n + 1]?

/-- The program `make` makes `m + 1` generators that share out one cycle of at least `P` words. Generator `i` has a place to start at in the
sequence a lone generator draws: drawing from the generators in whatever order, draw `k` of generator `i` returns word `start i + k` of that
sequence. All periods of the sequence are multiples of `P`, and the first `L` words of all the generators are at different places modulo `P`. -/
def ShareOut (C : GCls Par Seed St) (p : Par) (sd : Seed) (make : List (SOp Par Seed)) (o : Op) (m L P : Nat) : Prop :=
  (∀ d, (∀ n, C.alone p sd o (n + d) = C.alone p sd o n) → P ∣ d) ∧
    ∃ start : Nat → Nat,
      (∀ us : List Nat, (∀ i ∈ us, i ≤ m) → (C.program (make ++ us.map fun i => .draw i o)).map some =
        List.replicate make.length (some .done) ++
          (List.range us.length).map (fun t => C.alone p sd o (start (us[t]?.getD 0) + (us.take t).count (us[t]?.getD 0)))) ∧
      ∀ i j a b, i ≤ m → j ≤ m → a < L → b < L → start i + a ≡ start j + b [MOD P] → i = j ∧ a = b

end Verif
