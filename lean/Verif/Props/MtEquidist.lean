import Verif.Common.Orbit
import Verif.Proof.Equidist
import Verif.Props.MtPeriod

/-! C80: MT19937 is equidistributed in 623 dimensions and MT64 in 311. -/

namespace Verif.Linear
open Verif.GF2 Verif Verif.Orbit

section
variable {w : Nat} {P : MtPar w} [MtPk P]

/-- The part of the window that consists of whole words. -/
theorem mtWin_words (x : Nat → BitVec w) (k : Nat) (u : Nat → BitVec w) :
    (mtWin P x k).val >>> (w - 31) = pk (P.N - 1) u ↔ ∀ i < P.N - 1, x (k + 1 + i) = u i := by
  have hw := MtPk.hw (P := P)
  have hM := P.hM
  have e : (mtWin P x k).val >>> (w - 31) = pk (P.N - 1) (fun i => x (k + 1 + i)) := by
    rw [mtWin_shr x k w (by omega), show P.N = P.N - 1 + 1 by omega, Nat.add_sub_cancel, pk]
    apply Nat.eq_of_testBit_eq
    intro j
    rw [Nat.testBit_shiftRight, Nat.testBit_xor, Nat.testBit_shiftLeft, BitVec.testBit_toNat, BitVec.getLsbD_of_ge _ _ (by omega),
      Bool.false_xor, Nat.add_sub_cancel_left, decide_eq_true (show w + j ≥ w by omega), Bool.true_and]
    congr 2
    funext i
    congr 1; omega
  rw [e]
  constructor
  · intro h i hi
    apply BitVec.eq_of_toNat_eq
    have h1 := pk_word (w := w) (by omega) (P.N - 1) (fun i => x (k + 1 + i)) i hi
    rw [h, pk_word (by omega) _ _ _ hi] at h1
    exact h1.symm
  · exact fun h => pk_congr _ _ _ h

/-- The vectors with given upper bits. -/
theorem PV.card_upper {d e : Nat} (m : Nat) (hm : m < 2 ^ d) : Nat.card {v : PV (d + e) // v.val >>> e = m} = 2 ^ e := by
  have he := Nat.two_pow_pos e
  rw [← Nat.card_fin (2 ^ e)]
  refine Nat.card_congr ⟨fun v => ⟨v.val.val % 2 ^ e, Nat.mod_lt _ he⟩, fun r => ⟨⟨2 ^ e * m + r.val, ?_⟩, ?_⟩, ?_, ?_⟩
  · calc 2 ^ e * m + r.val < 2 ^ e * m + 2 ^ e := by have := r.isLt; omega
      _ = 2 ^ e * (m + 1) := by rw [Nat.mul_succ]
      _ ≤ 2 ^ e * 2 ^ d := Nat.mul_le_mul_left _ hm
      _ = 2 ^ (d + e) := by rw [← pow_add, Nat.add_comm]
  · show (2 ^ e * m + r.val) >>> e = m
    rw [Nat.shiftRight_eq_div_pow, Nat.mul_add_div he, Nat.div_eq_of_lt r.isLt, Nat.add_zero]
  · rintro ⟨⟨v, hv⟩, h⟩
    apply Subtype.ext
    apply PV.ext'
    show 2 ^ e * m + v % 2 ^ e = v
    rw [← h, Nat.shiftRight_eq_div_pow]
    exact Nat.div_add_mod v _
  · intro r
    apply Fin.ext
    show (2 ^ e * m + r.val) % 2 ^ e = r.val
    rw [Nat.mul_add_mod, Nat.mod_eq_of_lt r.isLt]

theorem PV.natCard (d : Nat) : Nat.card (PV d) = 2 ^ d := by rw [Nat.card_eq_fintype_card, PV.card]

/-- How often a window of whole words occurs in one period. -/
theorem mt_window_count {T : AddMonoid.End (PV 19937)} (hs : ∀ x, mtPhi P (mtS P x) = T (mtPhi P x)) {d : Nat} (hd : d = 19937)
    (hT : ∀ v, v ≠ 0 → ∀ n, T^[n] v = v ↔ 2 ^ d - 1 ∣ n) (x : MSol P) (hx : mtPhi P x ≠ 0) (u : Nat → BitVec w) (b : Nat) (hb : 1 ≤ b)
    (he : w * (P.N - 1) + (w - 31) = 19937) [Decidable (∀ i < P.N - 1, u i = 0)] :
    Nat.card {k // k < 2 ^ d - 1 ∧ ∀ i < P.N - 1, x.val (b + k + i) = u i} = 2 ^ (w - 31) - if ∀ i < P.N - 1, u i = 0 then 1 else 0 := by
  have hw := MtPk.hw (P := P)
  have hd0 : 0 < d := by omega
  have hv : T^[b - 1] (mtPhi P x) ≠ 0 := iterate_ne_zero hd0 hT hx _
  have h := count_of_period (T := T) (d := d) hd0 (by rw [hd]; exact PV.natCard _) hT hv (fun v => v.val >>> (w - 31) = pk (P.N - 1) u)
  have e1 : ∀ k, ((T^[k] (T^[b - 1] (mtPhi P x))).val >>> (w - 31) = pk (P.N - 1) u) ↔ ∀ i < P.N - 1, x.val (b + k + i) = u i := fun k => by
    rw [← Function.iterate_add_apply, ← mtPhi_pow hs, mtPhi_val, mtWin_words]
    refine forall_congr' fun i => forall_congr' fun _ => ?_
    rw [mtS_pow, show k + (b - 1) + (0 + 1 + i) = b + k + i by omega]
  have e2 : ((0 : PV 19937).val >>> (w - 31) = pk (P.N - 1) u) ↔ ∀ i < P.N - 1, u i = 0 := by
    have h0 : pk (P.N - 1) (fun _ => (0 : BitVec w)) = 0 := by
      apply Nat.eq_of_testBit_eq
      intro j
      rw [testBit_pk (by omega)]; simp
    rw [PV.zero_val, Nat.zero_shiftRight]
    constructor
    · intro h i hi
      apply BitVec.eq_of_toNat_eq
      rw [← pk_word (by omega) (P.N - 1) u i hi, ← h]; simp
    · intro h
      rw [pk_congr _ u (fun _ => 0) h, h0]
  simp only [e1, e2] at h
  rw [h]
  congr 1
  have hc := PV.card_upper (d := w * (P.N - 1)) (e := w - 31) (pk (P.N - 1) u) (pk_lt (by omega) _ _)
  rw [he] at hc
  exact hc

end

end Verif.Linear

namespace Verif
open Verif.Linear Verif.Orbit

set_option exponentiation.threshold 20000

open scoped Classical in
/-- C80: from every state of MT19937 that is not degenerate, at every position but 0: over one period every window of 623 successive outputs
occurs exactly twice, the window of zeros once. -/
theorem C80_mt19937 (s : Mt 32) (h0 : 1 ≤ s.pos) (h1 : s.pos ≤ 624) (hz : Mt32Live s.key) (w : Nat → U32) :
    Nat.card {k // k < 2 ^ 19937 - 1 ∧ ∀ i < 623, nthO mtNext32 (k + i) s = some (w i)} = if ∀ i < 623, w i = 0 then 1 else 2 := by
  obtain ⟨x, hx, _, ho⟩ := mt32_terms s (by omega) h1 hz
  obtain ⟨g, hg⟩ := (Finite.injective_iff_surjective.1 C64_temper32).hasRightInverse
  have e1 : ∀ k i, nthO mtNext32 (k + i) s = some (w i) ↔ x.val (s.pos.toNat + k + i) = g (w i) := fun k i => by
    rw [ho, Option.some_inj, Nat.add_assoc]
    exact ⟨fun h => C64_temper32 (by rw [h, hg]), fun h => by rw [h, hg]⟩
  have e2 : ∀ i, g (w i) = 0 ↔ w i = 0 := fun i =>
    ⟨fun h => by rw [← hg (w i), h]; decide, fun h => C64_temper32 (by rw [h, hg]; decide)⟩
  have h := mt_window_count (P := mt32) mt32Phi_step rfl mt32_period x hx (fun i => g (w i)) s.pos.toNat (by omega) (by decide)
  simp only [e1]
  simp only [e2, show mt32.N - 1 = 623 from rfl] at h
  rw [h]
  split <;> rfl

open scoped Classical in
/-- C80: the same for MT64, in 311 dimensions: from every state that is not degenerate, at every position but 0: over one period every window of 311 successive
outputs occurs exactly `2^33` times, the window of zeros once less. -/
theorem C80_mt64 (s : Mt 64) (h0 : 1 ≤ s.pos) (h1 : s.pos ≤ 312) (hz : Mt64Live s.key) (w : Nat → U64) :
    Nat.card {k // k < 2 ^ 19937 - 1 ∧ ∀ i < 311, nthO mtNext64 (k + i) s = some (w i)} = if ∀ i < 311, w i = 0 then 2 ^ 33 - 1 else 2 ^ 33 := by
  obtain ⟨x, hx, _, ho⟩ := mt64_terms s (by omega) h1 hz
  obtain ⟨g, hg⟩ := (Finite.injective_iff_surjective.1 C64_temper64).hasRightInverse
  have e1 : ∀ k i, nthO mtNext64 (k + i) s = some (w i) ↔ x.val (s.pos.toNat + k + i) = g (w i) := fun k i => by
    rw [ho, Option.some_inj, Nat.add_assoc]
    exact ⟨fun h => C64_temper64 (by rw [h, hg]), fun h => by rw [h, hg]⟩
  have e2 : ∀ i, g (w i) = 0 ↔ w i = 0 := fun i =>
    ⟨fun h => by rw [← hg (w i), h]; decide, fun h => C64_temper64 (by rw [h, hg]; decide)⟩
  have h := mt_window_count (P := mt64) mt64Phi_step rfl mt64_period x hx (fun i => g (w i)) s.pos.toNat (by omega) (by decide)
  simp only [e1]
  simp only [e2, show mt64.N - 1 = 311 from rfl] at h
  rw [h]
  split <;> rfl


open scoped Classical in
/-- C80: MT19937 and MT64 generators after seeding, for every seed. -/
theorem C80_seeded (seed : List U32) (old : Nat → U32) (seed' : List U64) (old' : Nat → U64) (w : Nat → U32) (w' : Nat → U64) :
    (Nat.card {k // k < 2 ^ 19937 - 1 ∧ ∀ i < 623, nthO mtNext32 (k + i) (mtSeed32 seed old) = some (w i)} = if ∀ i < 623, w i = 0 then 1 else 2) ∧
      (Nat.card {k // k < 2 ^ 19937 - 1 ∧ ∀ i < 623, nthO mtNext32 (k + i) (mtSeedNumpy seed old) = some (w i)} = if ∀ i < 623, w i = 0 then 1 else 2) ∧
      Nat.card {k // k < 2 ^ 19937 - 1 ∧ ∀ i < 311, nthO mtNext64 (k + i) (mtSeed64 seed' old') = some (w' i)} =
        if ∀ i < 311, w' i = 0 then 2 ^ 33 - 1 else 2 ^ 33 := by
  obtain ⟨t1, t2, t3, t4⟩ := C37_mt19937_top seed old
  obtain ⟨u1, u2⟩ := C37_mt64_top seed' old'
  exact ⟨C80_mt19937 _ (by rw [t2]; decide) (by rw [t2]) (Or.inl (by rw [t1]; rfl)) w,
    C80_mt19937 _ (by rw [t4]; decide) (by rw [t4]; decide) (Or.inl (by rw [t3]; rfl)) w,
    C80_mt64 _ (by rw [u2]; decide) (by rw [u2]) (Or.inl (by rw [u1]; decide)) w'⟩

/-- C80: every window of at most 623 outputs appears, from every such state. -/
theorem C80_mt19937_appears (s : Mt 32) (h0 : 1 ≤ s.pos) (h1 : s.pos ≤ 624) (hz : Mt32Live s.key) (w : Nat → U32) :
    ∃ k < 2 ^ 19937 - 1, ∀ i < 623, nthO mtNext32 (k + i) s = some (w i) := by
  by_contra h
  have := C80_mt19937 s h0 h1 hz w
  have he : IsEmpty {k // k < 2 ^ 19937 - 1 ∧ ∀ i < 623, nthO mtNext32 (k + i) s = some (w i)} := ⟨fun k => h ⟨k.val, k.prop.1, k.prop.2⟩⟩
  rw [Nat.card_of_isEmpty] at this
  split at this <;> omega

/-- States and windows to which the theorems apply. -/
example : Mt32Live (fun i => if i = 5 then 1 else 0) ∧ Mt64Live (fun i => if i = 5 then 1 else 0) ∧ ¬ ∀ i < 623, (fun i => if i = 1 then 7 else 0 : Nat → U32) i = 0 :=
  ⟨Or.inr ⟨5, by decide, by decide, by decide⟩, Or.inr ⟨5, by decide, by decide, by decide⟩, fun h => absurd (h 1 (by decide)) (by decide)⟩

end Verif
