import Verif.Model.Doubles
import Mathlib.Algebra.Order.Field.Rat
import Mathlib.Algebra.Order.Field.Basic
import Mathlib.Tactic.Positivity
import Mathlib.Tactic.NormNum
import Mathlib.Tactic.Linarith
import Mathlib.Data.Nat.Cast.Order.Ring

/-! Property C10. -/

namespace Verif.Doubles

/-- The real value of a fraction with numerator `m` over `2^k`. -/
def value (k m : Nat) : ℚ := (m : ℚ) / 2 ^ k

theorem value_unit (k m : Nat) (h : m < 2 ^ k) : 0 ≤ value k m ∧ value k m < 1 := by
  unfold value
  have hk : (0 : ℚ) < 2 ^ k := by positivity
  refine ⟨by positivity, ?_⟩
  rw [div_lt_one hk]
  exact_mod_cast h

theorem shr_lt {w : Nat} (x : BitVec w) (k : Nat) (hk : k ≤ w) : (x >>> k).toNat < 2 ^ (w - k) := by
  rw [BitVec.toNat_ushiftRight, Nat.shiftRight_eq_div_pow]
  apply Nat.div_lt_of_lt_mul
  rw [← pow_add, Nat.add_sub_cancel' hk]
  exact x.isLt

/-- C10: a double made from 64 bits lies in `[0, 1)`. -/
theorem C10_dbl64_unit (x : U64) :
    dbl64 x < 2 ^ 53 ∧ 0 ≤ value 53 (dbl64 x) ∧ value 53 (dbl64 x) < 1 :=
  ⟨shr_lt x 11 (by decide), value_unit _ _ (shr_lt x 11 (by decide))⟩

/-- C10: every multiple of `2^-53` in `[0, 1)` is reached. -/
theorem C10_dbl64_surjective (m : Nat) (hm : m < 2 ^ 53) : ∃ x, dbl64 x = m := by
  refine ⟨BitVec.ofNat 64 (m * 2 ^ 11), ?_⟩
  simp only [dbl64, BitVec.toNat_ushiftRight, BitVec.toNat_ofNat, Nat.shiftRight_eq_div_pow]
  omega

/-- C10: two words give the same double exactly when their 53 top bits agree. -/
theorem C10_dbl64_eq_iff (x y : U64) :
    dbl64 x = dbl64 y ↔ ∀ i, 11 ≤ i → x.getLsbD i = y.getLsbD i := by
  simp only [dbl64]
  rw [BitVec.toNat_inj]
  constructor
  · intro h i hi
    have := congrArg (fun z => BitVec.getLsbD z (i - 11)) h
    simp only [BitVec.getLsbD_ushiftRight] at this
    rwa [show 11 + (i - 11) = i by omega] at this
  · intro h
    apply BitVec.eq_of_getLsbD_eq
    intro i _
    simp only [BitVec.getLsbD_ushiftRight]
    exact h _ (by omega)

/-- C10: a double made from two 32-bit draws lies in `[0, 1)`. -/
theorem C10_dbl32_unit (a b : U32) :
    dbl32 a b < 2 ^ 53 ∧ 0 ≤ value 53 (dbl32 a b) ∧ value 53 (dbl32 a b) < 1 := by
  have h : dbl32 a b < 2 ^ 53 := by
    have := shr_lt a 5 (by decide)
    have := shr_lt b 6 (by decide)
    simp only [dbl32]
    omega
  exact ⟨h, value_unit _ _ h⟩

/-- C10: every multiple of `2^-53` in `[0, 1)` is reached. -/
theorem C10_dbl32_surjective (m : Nat) (hm : m < 2 ^ 53) : ∃ a b, dbl32 a b = m := by
  refine ⟨BitVec.ofNat 32 (m / 2 ^ 26 * 2 ^ 5), BitVec.ofNat 32 (m % 2 ^ 26 * 2 ^ 6), ?_⟩
  simp only [dbl32, BitVec.toNat_ushiftRight, BitVec.toNat_ofNat, Nat.shiftRight_eq_div_pow]
  omega

/-- C10: two pairs give the same double exactly when the 27 and 26 used bits agree. -/
theorem C10_dbl32_eq_iff (a b c d : U32) :
    dbl32 a b = dbl32 c d ↔ a >>> 5 = c >>> 5 ∧ b >>> 6 = d >>> 6 := by
  have := shr_lt b 6 (by decide)
  have := shr_lt d 6 (by decide)
  rw [← BitVec.toNat_inj, ← BitVec.toNat_inj]
  simp only [dbl32]
  omega

/-- C10: long doubles lie in `[0, 1)` in all three formats, and all representable multiples are
reached. -/
theorem C10_long_double_unit (x y : U64) :
    (ldblX87 x < 2 ^ 64 ∧ value 64 (ldblX87 x) < 1) ∧
    (ldblIbm x y < 2 ^ 106 ∧ value 106 (ldblIbm x y) < 1) ∧
    (ldblQuad x y < 2 ^ 113 ∧ value 113 (ldblQuad x y) < 1) := by
  have h1 : ldblX87 x < 2 ^ 64 := x.isLt
  have h2 : ldblIbm x y < 2 ^ 106 := by
    have := shr_lt x 11 (by decide)
    have := shr_lt y 11 (by decide)
    simp only [ldblIbm]
    omega
  have h3 : ldblQuad x y < 2 ^ 113 := by
    have := shr_lt x 7 (by decide)
    have := shr_lt y 8 (by decide)
    simp only [ldblQuad]
    omega
  exact ⟨⟨h1, (value_unit _ _ h1).2⟩, ⟨h2, (value_unit _ _ h2).2⟩, ⟨h3, (value_unit _ _ h3).2⟩⟩

/-- C10: the long double formulas reach every numerator. -/
theorem C10_long_double_surjective :
    (∀ m, m < 2 ^ 64 → ∃ x, ldblX87 x = m) ∧
    (∀ m, m < 2 ^ 106 → ∃ x y, ldblIbm x y = m) ∧
    (∀ m, m < 2 ^ 113 → ∃ x y, ldblQuad x y = m) := by
  refine ⟨fun m hm => ⟨BitVec.ofNat 64 m, ?_⟩,
    fun m hm => ⟨BitVec.ofNat 64 (m / 2 ^ 53 * 2 ^ 11), BitVec.ofNat 64 (m % 2 ^ 53 * 2 ^ 11), ?_⟩,
    fun m hm => ⟨BitVec.ofNat 64 (m / 2 ^ 56 * 2 ^ 7), BitVec.ofNat 64 (m % 2 ^ 56 * 2 ^ 8), ?_⟩⟩
  · simp only [ldblX87, BitVec.toNat_ofNat]; omega
  · simp only [ldblIbm, BitVec.toNat_ushiftRight, BitVec.toNat_ofNat, Nat.shiftRight_eq_div_pow]
    omega
  · simp only [ldblQuad, BitVec.toNat_ushiftRight, BitVec.toNat_ofNat, Nat.shiftRight_eq_div_pow]
    omega

example : dbl64 0xFFFFFFFFFFFFFFFF = 2 ^ 53 - 1 := by decide +kernel
example : dbl32 0xFFFFFFFF 0xFFFFFFFF = 2 ^ 53 - 1 := by decide +kernel

end Verif.Doubles
