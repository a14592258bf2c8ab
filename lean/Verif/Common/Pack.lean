import Verif.Common.Cyclic

/-! Windows of a sequence of words, packed into one number. -/

namespace Verif.Linear
open Verif.GF2

/-- The words `x 0, ..., x (N-1)`, lowest first. -/
def pk {w : Nat} : Nat → (Nat → BitVec w) → Nat
  | 0, _ => 0
  | N + 1, x => (x 0).toNat ^^^ pk N (fun i => x (i + 1)) <<< w

theorem testBit_pk {w : Nat} (hw : 0 < w) (N : Nat) (x : Nat → BitVec w) (j : Nat) :
    (pk N x).testBit j = (decide (j / w < N) && (x (j / w)).getLsbD (j % w)) := by
  induction N generalizing x j with
  | zero => simp [pk]
  | succ N ih =>
    rw [pk, Nat.testBit_xor, Nat.testBit_shiftLeft, ih, BitVec.testBit_toNat]
    by_cases h : j < w
    · rw [Nat.div_eq_of_lt h, Nat.mod_eq_of_lt h]
      have : ¬ j ≥ w := by omega
      simp [this]
    · have h' : j ≥ w := by omega
      rw [BitVec.getLsbD_of_ge _ _ h', Nat.div_eq_sub_div hw h', Nat.mod_eq_sub_mod h']
      simp [h']

theorem pk_lt {w : Nat} (hw : 0 < w) (N : Nat) (x : Nat → BitVec w) : pk N x < 2 ^ (w * N) := by
  apply Nat.lt_pow_two_of_testBit
  intro i hi
  have : ¬ i / w < N := by
    rw [Nat.div_lt_iff_lt_mul hw, Nat.mul_comm]; omega
  rw [testBit_pk hw, decide_eq_false this, Bool.false_and]

/-- Word `i` of the window. -/
theorem pk_word {w : Nat} (hw : 0 < w) (N : Nat) (x : Nat → BitVec w) (i : Nat) (hi : i < N) :
    (pk N x >>> (w * i)) % 2 ^ w = (x i).toNat := by
  apply Nat.eq_of_testBit_eq
  intro j
  rw [Nat.testBit_mod_two_pow, Nat.testBit_shiftRight, testBit_pk hw, BitVec.testBit_toNat]
  by_cases hj : j < w
  · rw [Nat.mul_add_div hw, Nat.div_eq_of_lt hj, Nat.mul_add_mod, Nat.mod_eq_of_lt hj]
    simp [hj, hi]
  · rw [BitVec.getLsbD_of_ge (x i) j (by omega)]
    simp [hj]

/-- The next window. -/
theorem pk_next {w : Nat} (hw : 0 < w) (N : Nat) (hN : 0 < N) (x : Nat → BitVec w) :
    pk N (fun i => x (i + 1)) = (pk N x >>> w) ^^^ (x N).toNat <<< (w * (N - 1)) := by
  apply Nat.eq_of_testBit_eq
  intro j
  rw [Nat.testBit_xor, Nat.testBit_shiftRight, Nat.testBit_shiftLeft, testBit_pk hw, testBit_pk hw, BitVec.testBit_toNat,
    Nat.add_div_left _ hw, Nat.add_mod_left]
  by_cases h : j < w * (N - 1)
  · have h2 : j / w < N - 1 := by rw [Nat.div_lt_iff_lt_mul hw, Nat.mul_comm]; exact h
    have h3 : ¬ j ≥ w * (N - 1) := by omega
    have h4 : j / w < N := by omega
    have h5 : j / w + 1 < N := by omega
    simp [h3, h4, h5]
  · obtain ⟨r, rfl⟩ : ∃ r, j = w * (N - 1) + r := ⟨j - w * (N - 1), by omega⟩
    rw [Nat.mul_add_div hw, Nat.mul_add_mod, Nat.add_sub_cancel_left]
    by_cases hr : r < w
    · rw [Nat.div_eq_of_lt hr, Nat.mod_eq_of_lt hr, Nat.add_zero, Nat.sub_add_cancel hN]
      have h4 : N - 1 < N := by omega
      simp [h4]
    · have : 1 ≤ r / w := (Nat.one_le_div_iff hw).2 (by omega)
      rw [BitVec.getLsbD_of_ge _ r (by omega)]
      have h4 : ¬ N - 1 + r / w < N := by omega
      have h5 : ¬ N - 1 + r / w + 1 < N := by omega
      simp [h4, h5]

theorem pk_congr {w : Nat} (N : Nat) (x y : Nat → BitVec w) (h : ∀ i < N, x i = y i) : pk N x = pk N y := by
  induction N generalizing x y with
  | zero => rfl
  | succ N ih => rw [pk, pk, h 0 (by omega), ih _ _ (fun i hi => h (i + 1) (by omega))]

/-- Every number is a window. -/
theorem pk_words {w : Nat} (hw : 0 < w) (N n : Nat) (hn : n < 2 ^ (w * N)) : pk N (fun i => BitVec.ofNat w (n >>> (w * i))) = n := by
  apply Nat.eq_of_testBit_eq
  intro j
  rw [testBit_pk hw]
  have hm := Nat.mod_lt j hw
  have hj := Nat.div_add_mod j w
  rw [BitVec.getLsbD_ofNat, Nat.testBit_shiftRight, hj]
  by_cases h : j / w < N
  · simp [h, hm]
  · rw [decide_eq_false h, Bool.false_and]
    have : w * N ≤ j := by
      rw [Nat.div_lt_iff_lt_mul hw, Nat.mul_comm] at h; omega
    exact (Nat.testBit_lt_two_pow (lt_of_lt_of_le hn (Nat.pow_le_pow_right (by decide) this))).symm

end Verif.Linear
