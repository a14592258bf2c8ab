import Verif.Model.IncArg
import Verif.Props.Session6
import Mathlib.Tactic.Linarith

/-! C102: `seed` uses valid arguments; others are refused with `ValueError`, and then nothing has changed. -/

namespace Verif

/-- What the documentation of `seed(seed, inc)` promises for an increment of `b` bits: integers in `[0, 2^b)` and `None` are used, any other integer
is refused with `ValueError`, and then nothing has changed. -/
def incPromise {σ : Type} (b : Nat) (reseed : Option (BitVec b) → σ → σ) (gen : Nat → U64) (inc : Option Int) (s : Seeded σ) :
    Except PyErr Unit × Seeded σ :=
  if ∀ i ∈ inc, 0 ≤ i ∧ i < 2 ^ b then (.ok (), ⟨gen, reseed (inc.map (BitVec.ofInt b)) s.core⟩) else (.error .valueError, s)

theorem castU64_ok {i : Int} (h : 0 ≤ i ∧ i < 2 ^ 64) : castU64 i = .ok (BitVec.ofInt 64 i) := if_pos h

/-- C102 for PCG32, for every increment but `2^64`. -/
theorem C102_pcg32_partial (gen : Nat → U64) (inc : Option Int) (h : inc ≠ some (2 ^ 64)) (s : Seeded Pcg32I) :
    pcg32SeedCall gen inc s = incPromise 64 (pcg32Reseed gen) gen inc s := by
  cases inc with
  | none => simp [pcg32SeedCall, incCheck, incPromise, pcg32FromSeq]
  | some i =>
    have hi : i ≠ 2 ^ 64 := fun e => h (by rw [e])
    by_cases h2 : 0 ≤ i ∧ i < 2 ^ 64
    · rw [pcg32SeedCall, incPromise, if_pos (by simp [incCheck]; omega), if_pos (by intro j hj; cases hj; exact h2)]
      simp only [pcg32FromSeq, castU64_ok h2, Option.map_some]
    · rw [pcg32SeedCall, incPromise, if_neg (by simp [incCheck]; omega), if_neg (fun hc => h2 (hc i rfl))]

/-- The code violates C102 for PCG32, on every instance: `inc = 2^64` passes the check, raises `OverflowError`, and leaves the old state with the new
seed sequence. -/
theorem not_C102_pcg32 (gen : Nat → U64) (s : Seeded Pcg32I) :
    pcg32SeedCall gen (some (2 ^ 64)) s = (.error .overflowError, ⟨gen, s.core⟩) ∧
      pcg32SeedCall gen (some (2 ^ 64)) s ≠ incPromise 64 (pcg32Reseed gen) gen (some (2 ^ 64)) s := by
  have e : pcg32SeedCall gen (some (2 ^ 64)) s = (.error .overflowError, ⟨gen, s.core⟩) := rfl
  refine ⟨e, fun h => ?_⟩
  rw [e, incPromise, if_neg (fun hc => absurd (hc _ rfl).2 (by decide))] at h
  injection h with h _
  injection h with h
  exact absurd h (by decide)

theorem ofInt_halves {i : Int} (h0 : 0 ≤ i) (h1 : i < 2 ^ 128) : BitVec.ofInt 64 (i / 2 ^ 64) ++ BitVec.ofInt 64 (i % 2 ^ 64) = BitVec.ofInt 128 i := by
  apply BitVec.eq_of_toNat_eq
  rw [BitVec.toNat_append, BitVec.toNat_ofInt, BitVec.toNat_ofInt, BitVec.toNat_ofInt, ← Nat.shiftLeft_add_eq_or_of_lt (by omega), Nat.shiftLeft_eq]
  omega

/-- C102 for PCG64 in the default mode with a seed, for every increment but `2^128`. -/
theorem C102_pcg64_partial (gen : Nat → U64) (inc : Option Int) (h : inc ≠ some (2 ^ 128)) (s : Seeded Pcg64I) :
    pcg64SeedCall false true gen inc s = incPromise 128 (pcg64Reseed gen) gen inc s := by
  cases inc with
  | none => simp [pcg64SeedCall, incCheck, incPromise, pcg64FromSeq]
  | some i =>
    have hi : i ≠ 2 ^ 128 := fun e => h (by rw [e])
    by_cases h2 : 0 ≤ i ∧ i < 2 ^ 128
    · have c1 : castU64 (i / 2 ^ 64) = .ok (BitVec.ofInt 64 (i / 2 ^ 64)) := castU64_ok (by omega)
      have c2 : castU64 (i % 2 ^ 64) = .ok (BitVec.ofInt 64 (i % 2 ^ 64)) := castU64_ok (by omega)
      simp only [pcg64SeedCall, if_true, Bool.false_and, Bool.false_eq_true, if_false]
      rw [incPromise, if_pos (by simp [incCheck]; omega), if_pos (by intro j hj; cases hj; exact h2)]
      simp only [pcg64FromSeq, c1, c2, ofInt_halves h2.1 h2.2, Option.map_some]
    · simp only [pcg64SeedCall, if_true]
      rw [incPromise, if_neg (by simp [incCheck]; omega), if_neg (fun hc => h2 (hc i rfl))]

/-- The code violates C102 for PCG64, on every instance: `inc = 2^128` raises `OverflowError`, and leaves the old state with the new seed sequence. -/
theorem not_C102_pcg64 (gen : Nat → U64) (s : Seeded Pcg64I) :
    pcg64SeedCall false true gen (some (2 ^ 128)) s = (.error .overflowError, ⟨gen, s.core⟩) ∧
      pcg64SeedCall false true gen (some (2 ^ 128)) s ≠ incPromise 128 (pcg64Reseed gen) gen (some (2 ^ 128)) s := by
  have e : pcg64SeedCall false true gen (some (2 ^ 128)) s = (.error .overflowError, ⟨gen, s.core⟩) := rfl
  refine ⟨e, fun h => ?_⟩
  rw [e, incPromise, if_neg (fun hc => absurd (hc _ rfl).2 (by decide))] at h
  injection h with h _
  injection h with h
  exact absurd h (by decide)

/-- The code violates C102 for PCG64 without a seed: `inc` is ignored, whatever it is, even a refused number. -/
theorem not_C102_pcg64_no_seed (gen : Nat → U64) (inc : Option Int) (s : Seeded Pcg64I) :
    pcg64SeedCall false false gen inc s = (.ok (), ⟨gen, pcg64Reseed gen none s.core⟩) ∧
      pcg64SeedCall false false gen (some (-1)) s ≠ incPromise 128 (pcg64Reseed gen) gen (some (-1)) s := by
  refine ⟨rfl, fun h => ?_⟩
  rw [incPromise, if_neg (fun hc => absurd (hc _ rfl).1 (by decide))] at h
  have h1 := congrArg Prod.fst h
  exact absurd h1 (by
    show ¬ (Except.ok () : Except PyErr Unit) = .error .valueError
    simp)

/-- In NumPy's mode `seed` refuses every increment, as documented, but an increment that passes the check leaves the old state with the new seed
sequence. -/
theorem not_C102_pcg64_numpy (gen : Nat → U64) (i : Int) (hi : 0 ≤ i ∧ i ≤ 2 ^ 128) (s : Seeded Pcg64I) (hs : s.seq ≠ gen) :
    (pcg64SeedCall true true gen (some i) s).1 = .error .valueError ∧ (pcg64SeedCall true true gen (some i) s).2.core = s.core ∧
      (pcg64SeedCall true true gen (some i) s).2 ≠ s := by
  have e : pcg64SeedCall true true gen (some i) s = (.error .valueError, ⟨gen, s.core⟩) := by
    simp only [pcg64SeedCall, if_true]
    rw [if_pos (by simp [incCheck]; omega)]
    rfl
  rw [e]
  refine ⟨rfl, rfl, fun h => hs ?_⟩
  rw [← h]

/-- C102 for LCG128Mix: every valid increment is used, with either version of NumPy. Missing: the refusals. -/
theorem C102_lcg128mix_partial (np1 : Bool) (mult : U128) (gen : Nat → U64) (inc : Option Int) (h : ∀ i ∈ inc, 0 ≤ i ∧ i < 2 ^ 128) (s : Seeded LcgMixI) :
    lcgSeedCall np1 mult gen inc s = incPromise 128 (lcgMixReseed mult gen) gen inc s := by
  rw [incPromise, if_pos h]
  cases inc with
  | none => rfl
  | some i =>
    have h2 := h i rfl
    have c1 : storeU64 np1 (i / 2 ^ 64) = .ok (BitVec.ofInt 64 (i / 2 ^ 64)) := if_pos (by omega)
    have c2 : storeU64 np1 (i % 2 ^ 64) = .ok (BitVec.ofInt 64 (i % 2 ^ 64)) := if_pos (by omega)
    simp only [lcgSeedCall, c1, c2, ofInt_halves h2.1 h2.2, Option.map_some]

/-- The code violates C102 for LCG128Mix, on every instance: an increment of `2^128` or more raises `OverflowError` and leaves the old state with the
new seed sequence; with NumPy 1 the increment `-1` is used as `2^128 - 1`. -/
theorem not_C102_lcg128mix (mult : U128) (gen : Nat → U64) (s : Seeded LcgMixI) :
    (∀ np1 i, 2 ^ 128 ≤ i → lcgSeedCall np1 mult gen (some i) s = (.error .overflowError, ⟨gen, s.core⟩)) ∧
      lcgSeedCall false mult gen (some (-1)) s = (.error .overflowError, ⟨gen, s.core⟩) ∧
      lcgSeedCall true mult gen (some (-1)) s = lcgSeedCall true mult gen (some (2 ^ 128 - 1)) s := by
  refine ⟨fun np1 i hi => ?_, rfl, rfl⟩
  have c1 : storeU64 np1 (i / 2 ^ 64) = .error .overflowError := by rw [storeU64, if_neg (by omega), if_neg (by omega)]
  simp only [lcgSeedCall, c1]

/-! ### Squares -/

/-- C102 for Squares: a counter in `[0, 2^64)` and an odd key below `2^64` are used, anything else is refused, and then all but the counter has
not changed; nor has the counter, if it is the counter that is refused. -/
theorem C102_squares_partial (sd : SquaresSeed) (s : SquaresI) :
    ((∀ c ∈ sd.2.1, 0 ≤ c ∧ c < 2 ^ 64) ∧ (∀ k ∈ sd.2.2, 0 ≤ k ∧ k < 2 ^ 64 ∧ k % 2 = 1) → squaresSeedCall sd s =
      (.ok (), { s with counter := (sd.2.1.map (BitVec.ofInt 64)).getD 0, key := (sd.2.2.map (BitVec.ofInt 64)).getD sd.1, has := 0, uint := 0 })) ∧
    (¬ (∀ c ∈ sd.2.1, 0 ≤ c ∧ c < 2 ^ 64) → squaresSeedCall sd s = (.error .valueError, s)) ∧
    ((∀ c ∈ sd.2.1, 0 ≤ c ∧ c < 2 ^ 64) → ¬ (∀ k ∈ sd.2.2, 0 ≤ k ∧ k < 2 ^ 64 ∧ k % 2 = 1) →
      squaresSeedCall sd s = (.error .valueError, { s with counter := (sd.2.1.map (BitVec.ofInt 64)).getD 0 })) := by
  obtain ⟨g, c, k⟩ := sd
  have fail : squaresSeedFail (g, c, k) s = if ∀ c' ∈ c, 0 ≤ c' ∧ c' < 2 ^ 64 then { s with counter := (c.map (BitVec.ofInt 64)).getD 0 } else s := by
    cases c with
    | none => simp [squaresSeedFail]
    | some c =>
      by_cases h : 0 ≤ c ∧ c < 2 ^ 64
      · have h3 : 0 ≤ c ∧ c < 2 ^ 64 ∧ (false = true → c % 2 = 1) := ⟨h.1, h.2, fun h => by cases h⟩
        simp only [squaresSeedFail, sqCheck_eq, if_pos h3]
        rw [if_pos (by intro c' hc; cases hc; exact h)]
        rfl
      · have : ¬ (0 ≤ c ∧ c < 2 ^ 64 ∧ (false = true → c % 2 = 1)) := fun h' => h ⟨h'.1, h'.2.1⟩
        simp only [squaresSeedFail, sqCheck_eq, if_neg this]
        rw [if_neg fun h' => h (h' c rfl)]
  refine ⟨fun h => ?_, fun h => ?_, fun h h' => ?_⟩
  · rw [squaresSeedCall, squaresReseed_eq, if_pos h]
  · rw [squaresSeedCall, squaresReseed_eq, if_neg fun hc => h hc.1, fail, if_neg h]
  · rw [squaresSeedCall, squaresReseed_eq, if_neg fun hc => h' hc.2, fail, if_pos h]

/-- The code violates C102 for Squares: a refused key leaves the new counter, on every instance that is not at it. -/
theorem not_C102_squares (g : U64) (s : SquaresI) (hs : s.counter ≠ 5) :
    (squaresSeedCall (g, some 5, some 2) s).1 = .error .valueError ∧ (squaresSeedCall (g, some 5, some 2) s).2 ≠ s := by
  rw [(C102_squares_partial (g, some 5, some 2) s).2.2 (by intro c hc; cases hc; decide) (fun h => absurd (h 2 rfl).2.2 (by decide))]
  exact ⟨rfl, fun h => hs (by rw [← h]; rfl)⟩

/-- Increments on both sides of the ends. -/
example (gen : Nat → U64) (s : Seeded Pcg32I) : pcg32SeedCall gen (some (2 ^ 64 - 1)) s = (.ok (), ⟨gen, pcg32Reseed gen (some 0xffffffffffffffff) s.core⟩) ∧
    pcg32SeedCall gen (some (-1)) s = (.error .valueError, s) ∧ pcg32SeedCall gen (some (2 ^ 64 + 1)) s = (.error .valueError, s) := by
  rw [C102_pcg32_partial _ _ (by decide), C102_pcg32_partial _ _ (by decide), C102_pcg32_partial _ _ (by decide)]
  simp only [incPromise, Option.mem_def, Option.some.injEq, forall_eq', Option.map_some]
  exact ⟨rfl, rfl, rfl⟩

example (gen : Nat → U64) (s : Seeded Pcg64I) : pcg64SeedCall false true gen (some (2 ^ 128 - 1)) s =
    (.ok (), ⟨gen, pcg64Reseed gen (some 0xffffffffffffffffffffffffffffffff) s.core⟩) ∧
    pcg64SeedCall false true gen (some (2 ^ 128 + 1)) s = (.error .valueError, s) := by
  rw [C102_pcg64_partial _ _ (by decide), C102_pcg64_partial _ _ (by decide)]
  simp only [incPromise, Option.mem_def, Option.some.injEq, forall_eq', Option.map_some]
  exact ⟨rfl, rfl⟩

/-- A refused counter and a refused key. -/
example (g : U64) (s : SquaresI) : squaresSeedCall (g, some (2 ^ 64), some 3) s = (.error .valueError, s) ∧
    squaresSeedCall (g, none, some 4) s = (.error .valueError, { s with counter := 0 }) :=
  ⟨(C102_squares_partial (g, some (2 ^ 64), some 3) s).2.1 fun h => absurd (h _ rfl).2 (by decide),
    (C102_squares_partial (g, none, some 4) s).2.2 (by intro c hc; cases hc) fun h => absurd (h _ rfl).2.2 (by decide)⟩

end Verif
