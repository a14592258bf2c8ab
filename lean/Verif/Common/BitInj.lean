import Verif.Common.Words
import Verif.Proof.Lcg

/-! Invertibility of the elementary word operations used by hashes and generators. -/

namespace Verif

/-- Multiplication by an odd word is injective. -/
theorem mul_odd_inj {w : Nat} (a : BitVec w) (ha : a.toNat % 2 = 1) {x y : BitVec w}
    (h : a * x = a * y) : x = y := by
  obtain ⟨b, hb⟩ := Pcg.isUnit_of_odd a ha
  have : b * (a * x) = b * (a * y) := by rw [h]
  rw [← mul_assoc, ← mul_assoc, hb, one_mul, one_mul] at this
  exact this

theorem mul_odd_inj' {w : Nat} (a : BitVec w) (ha : a.toNat % 2 = 1) {x y : BitVec w}
    (h : x * a = y * a) : x = y :=
  mul_odd_inj a ha (by rw [mul_comm a, mul_comm a]; exact h)

theorem odd_mul {w : Nat} (hw : 1 ≤ w) {a b : BitVec w} (ha : a.toNat % 2 = 1) (hb : b.toNat % 2 = 1) :
    (a * b).toNat % 2 = 1 := by
  rw [BitVec.toNat_mul, Nat.mod_mod_of_dvd _ (dvd_pow_self 2 (by omega)), Nat.mul_mod, ha, hb]

theorem xor_right_inj' {w : Nat} (a : BitVec w) {x y : BitVec w} (h : x ^^^ a = y ^^^ a) : x = y := by
  have : x ^^^ a ^^^ a = y ^^^ a ^^^ a := by rw [h]
  simpa [BitVec.xor_assoc] using this

theorem xor_left_inj' {w : Nat} (a : BitVec w) {x y : BitVec w} (h : a ^^^ x = a ^^^ y) : x = y :=
  xor_right_inj' a (by rw [BitVec.xor_comm x, BitVec.xor_comm y]; exact h)

/-- `x ^ (x >> k)` determines `x`, for every positive shift. -/
theorem xorshr_inj {w k : Nat} (hk : 0 < k) {x y : BitVec w} (h : x ^^^ (x >>> k) = y ^^^ (y >>> k)) :
    x = y := by
  have key : ∀ n i, w ≤ i + n → x.getLsbD i = y.getLsbD i := by
    intro n
    induction n with
    | zero => intro i hi; rw [BitVec.getLsbD_of_ge _ _ (by omega), BitVec.getLsbD_of_ge _ _ (by omega)]
    | succ n ih =>
      intro i hi
      have h1 := ih (i + k) (by omega)
      have h2 := congrArg (fun z => z.getLsbD i) h
      simp only [BitVec.getLsbD_xor, BitVec.getLsbD_ushiftRight] at h2
      rw [Nat.add_comm k i, h1] at h2
      revert h2
      cases x.getLsbD i <;> cases y.getLsbD i <;> cases y.getLsbD (i + k) <;> simp
  apply BitVec.eq_of_getLsbD_eq
  intro i _
  exact key w i (by omega)

/-- `x ^ (x << k)` determines `x`, for every positive shift. -/
theorem xorshl_inj {w k : Nat} (hk : 0 < k) {x y : BitVec w} (h : x ^^^ (x <<< k) = y ^^^ (y <<< k)) :
    x = y := by
  have key : ∀ n i, i < n → x.getLsbD i = y.getLsbD i := by
    intro n
    induction n with
    | zero => intro i hi; omega
    | succ n ih =>
      intro i hi
      by_cases hw : i < w
      · have h2 := congrArg (fun z => z.getLsbD i) h
        simp only [BitVec.getLsbD_xor, BitVec.getLsbD_shiftLeft] at h2
        by_cases hik : i < k
        · simpa [hik] using h2
        · have h1 := ih (i - k) (by omega)
          rw [h1] at h2
          revert h2
          cases x.getLsbD i <;> cases y.getLsbD i <;> cases y.getLsbD (i - k) <;> simp [hw, hik]
      · rw [BitVec.getLsbD_of_ge _ _ (by omega), BitVec.getLsbD_of_ge _ _ (by omega)]
  apply BitVec.eq_of_getLsbD_eq
  intro i _
  exact key (i + 1) i (by omega)

theorem rotateLeft_inj {w k : Nat} (hk : k < w) {x y : BitVec w} (h : x.rotateLeft k = y.rotateLeft k) :
    x = y := by
  have : (x.rotateLeft k).rotateRight k = (y.rotateLeft k).rotateRight k := by rw [h]
  have e : ∀ z : BitVec w, (z.rotateLeft k).rotateRight k = z := by
    intro z
    apply BitVec.eq_of_getLsbD_eq
    intro i hi
    rw [BitVec.getLsbD_rotateRight, BitVec.getLsbD_rotateLeft, BitVec.getLsbD_rotateLeft, Nat.mod_eq_of_lt hk]
    by_cases h1 : i < w - k
    · have h2 : ¬ k + i < k := by omega
      have h3 : k + i < w := by omega
      simp [h1, h2, h3]
    · have h2 : i - (w - k) < k := by omega
      have h3 : w - k + (i - (w - k)) = i := by omega
      simp [h1, h2, h3, hi]
  rw [e, e] at this
  exact this

theorem rotl64_inj {k : Nat} (hk : k < 64) {x y : U64} (h : rotl64 x k = rotl64 y k) : x = y := by
  rw [rotl64_eq _ _ hk, rotl64_eq _ _ hk] at h; exact rotateLeft_inj hk h

theorem rotl32_inj {k : Nat} (hk : k < 32) {x y : U32} (h : rotl32 x k = rotl32 y k) : x = y := by
  rw [rotl32_eq _ _ hk, rotl32_eq _ _ hk] at h; exact rotateLeft_inj hk h

end Verif
