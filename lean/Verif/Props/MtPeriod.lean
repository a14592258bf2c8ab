import Verif.Proof.MtPeriod
import Verif.Props.MtJump

/-! Property C76: the exact period of MT19937 and MT64. -/

namespace Verif
open Verif.Linear

/-- The bits of the array that the recurrence reads: all but the 31 lowest of word 0. -/
def Mt32Live (key : Nat → U32) : Prop := (key 0).getLsbD 31 = true ∨ ∃ i, 0 < i ∧ i < 624 ∧ key i ≠ 0

/-- The same for MT64. -/
def Mt64Live (key : Nat → U64) : Prop := key 0 &&& 0xFFFFFFFF80000000 ≠ 0 ∨ ∃ i, 0 < i ∧ i < 312 ∧ key i ≠ 0

theorem mt32_phi_ne {key : Nat → U32} (h : Mt32Live key) (x : MSol mt32) (hk : ∀ i < 624, x.val i = key i) : mtPhi mt32 x ≠ 0 := by
  apply mtPhi_ne_zero
  rcases h with h | ⟨i, h0, h1, h2⟩
  · left
    intro hz
    have : ((key 0).toNat >>> 31).testBit 0 = true := by rw [Nat.testBit_shiftRight, BitVec.testBit_toNat]; exact h
    rw [← hk 0 (by decide), hz, Nat.zero_testBit] at this
    exact absurd this (by decide)
  · right
    refine ⟨i - 1, ?_⟩
    rw [show i - 1 + 1 = i by omega, hk i h1]
    exact h2

theorem mt64_phi_ne {key : Nat → U64} (h : Mt64Live key) (x : MSol mt64) (hk : ∀ i < 312, x.val i = key i) : mtPhi mt64 x ≠ 0 := by
  apply mtPhi_ne_zero
  rcases h with h | ⟨i, h0, h1, h2⟩
  · left
    intro hz
    apply h
    apply BitVec.eq_of_getLsbD_eq
    intro i hi
    rw [BitVec.getLsbD_and, show BitVec.getLsbD (18446744071562067968 : U64) i = decide (31 ≤ i) from MtPk.hu (P := mt64) i hi]
    by_cases h31 : 31 ≤ i
    · have : (key 0).getLsbD i = ((key 0).toNat >>> 31).testBit (i - 31) := by
        rw [Nat.testBit_shiftRight, BitVec.testBit_toNat, show 31 + (i - 31) = i by omega]
      rw [this, ← hk 0 (by decide), hz]
      simp
    · simp [h31]
  · right
    refine ⟨i - 1, ?_⟩
    rw [show i - 1 + 1 = i by omega, hk i h1]
    exact h2

theorem mt32_terms (s : Mt 32) (h0 : 0 ≤ s.pos) (h1 : s.pos ≤ 624) (hz : Mt32Live s.key) :
    ∃ x : MSol mt32, mtPhi mt32 x ≠ 0 ∧ (∀ i < 624, x.val i = s.key i) ∧ ∀ n, nthO mtNext32 n s = some (temper32 (x.val (s.pos.toNat + n))) := by
  obtain ⟨x, hx, hk⟩ := mt32_solution s.key
  exact ⟨⟨x, mtStd_rec.1 hx⟩, mt32_phi_ne hz _ hk, hk, C34_mt19937 s h0 h1 x hx hk⟩

/-- C76: from every state of MT19937 that is not degenerate, at every position but 0, the stream of outputs is periodic
from the start, and `n` is a period exactly if `2^19937 - 1` divides it. -/
theorem C76_mt19937 (s : Mt 32) (h0 : 1 ≤ s.pos) (h1 : s.pos ≤ 624) (hz : Mt32Live s.key) (n : Nat) :
    (∀ k, nthO mtNext32 (k + n) s = nthO mtNext32 k s) ↔ 2 ^ 19937 - 1 ∣ n := by
  obtain ⟨x, hx, _, ho⟩ := mt32_terms s (by omega) h1 hz
  rw [← mt_terms_period mt32Phi_step (inj_of_ann PV.add_self mt32T mt32_ann.1 (by decide +kernel)) mt32_period x hx s.pos.toNat (by omega) n]
  refine forall_congr' fun k => ?_
  rw [ho, ho, Option.some_inj]
  exact C64_temper32.eq_iff

/-- C76: at position 0 the same holds from the second output on. -/
theorem C76_mt19937_later (s : Mt 32) (h0 : s.pos = 0) (hz : Mt32Live s.key) (n : Nat) :
    (∀ k, nthO mtNext32 (k + 1 + n) s = nthO mtNext32 (k + 1) s) ↔ 2 ^ 19937 - 1 ∣ n := by
  obtain ⟨x, hx, _, ho⟩ := mt32_terms s (by omega) (by omega) hz
  rw [← mt_terms_period mt32Phi_step (inj_of_ann PV.add_self mt32T mt32_ann.1 (by decide +kernel)) mt32_period x hx 1 (by omega) n]
  refine forall_congr' fun k => ?_
  rw [ho, ho, Option.some_inj, h0, show Int.toNat 0 + (k + 1 + n) = 1 + (k + n) by simp only [Int.toNat_zero]; omega,
    show Int.toNat 0 + (k + 1) = 1 + k by simp only [Int.toNat_zero]; omega]
  exact C64_temper32.eq_iff

/-- C76 for every seed: generators seeded by `mt19937_init_by_array` and in NumPy's way have the full period. -/
theorem C76_mt19937_seeded (seed : List U32) (old : Nat → U32) (n : Nat) :
    ((∀ k, nthO mtNext32 (k + n) (mtSeed32 seed old) = nthO mtNext32 k (mtSeed32 seed old)) ↔ 2 ^ 19937 - 1 ∣ n) ∧
      ((∀ k, nthO mtNext32 (k + n) (mtSeedNumpy seed old) = nthO mtNext32 k (mtSeedNumpy seed old)) ↔ 2 ^ 19937 - 1 ∣ n) := by
  obtain ⟨t1, t2, t3, t4⟩ := C37_mt19937_top seed old
  exact ⟨C76_mt19937 _ (by rw [t2]; decide) (by rw [t2]) (Or.inl (by rw [t1]; rfl)) n,
    C76_mt19937 _ (by rw [t4]; decide) (by rw [t4]; decide) (Or.inl (by rw [t3]; rfl)) n⟩

/-- C76 is sharp at position 0: the lowest bits of word 0 are drawn, but the recurrence never produces them again, so
that of two states that differ there at most one repeats its first output after the period. -/
theorem C76_position_0 (s : Mt 32) (h0 : s.pos = 0) (hz : Mt32Live s.key) (b : U32) (hb : b ≠ s.key 0) (hb31 : b.getLsbD 31 = (s.key 0).getLsbD 31) :
    nthO mtNext32 (2 ^ 19937 - 1) s ≠ nthO mtNext32 0 s ∨
      nthO mtNext32 (2 ^ 19937 - 1) ⟨Function.update s.key 0 b, 0⟩ ≠ nthO mtNext32 0 ⟨Function.update s.key 0 b, 0⟩ := by
  have hz' : Mt32Live (Function.update s.key 0 b) := by
    rcases hz with h | ⟨i, i0, i1, h⟩
    · exact Or.inl (by rw [Function.update_self, hb31]; exact h)
    · exact Or.inr ⟨i, i0, i1, by rw [Function.update_of_ne (by omega)]; exact h⟩
  obtain ⟨x, hx, hk, ho⟩ := mt32_terms s (by omega) (by omega) hz
  obtain ⟨y, hy, hl, hq⟩ := mt32_terms ⟨Function.update s.key 0 b, 0⟩ (le_refl _) (by show (0 : Int) ≤ 624; decide) hz'
  have hp1 : 1 ≤ 2 ^ 19937 - 1 := mersenne_19937.one_lt.le
  generalize 2 ^ 19937 - 1 = p at hp1
  obtain ⟨j, rfl⟩ : ∃ j, p = j + 1 := ⟨p - 1, by omega⟩
  have hu : mtPhi mt32 x = mtPhi mt32 y := by
    apply PV.ext'
    show pk mt32.N (fun i => x.val (0 + i)) >>> 31 = pk mt32.N (fun i => y.val (0 + i)) >>> 31
    apply Nat.eq_of_testBit_eq
    intro m
    rw [Nat.testBit_shiftRight, Nat.testBit_shiftRight, testBit_pk (by decide), testBit_pk (by decide)]
    by_cases hm : (31 + m) / 32 < mt32.N
    · rw [decide_eq_true hm, Bool.true_and, Bool.true_and]
      show (x.val (0 + (31 + m) / 32)).getLsbD _ = (y.val (0 + (31 + m) / 32)).getLsbD _
      rw [Nat.zero_add, hk _ hm, hl _ hm]
      show _ = (Function.update s.key 0 b ((31 + m) / 32)).getLsbD _
      by_cases hm0 : (31 + m) / 32 = 0
      · have : m = 0 := by omega
        subst this
        exact hb31.symm
      · rw [Function.update_of_ne hm0]
    · rw [decide_eq_false hm, Bool.false_and, Bool.false_and]
  have he := (mtPhi_eq hu).1 j
  rw [ho, ho, hq, hq, h0]
  show some (temper32 (x.val (0 + (j + 1)))) ≠ some (temper32 (x.val (0 + 0))) ∨ some (temper32 (y.val (0 + (j + 1)))) ≠ some (temper32 (y.val (0 + 0)))
  rw [Nat.zero_add, Nat.zero_add, he, hk 0 (by decide), hl 0 (by decide)]
  by_contra hc
  simp only [not_or, not_not, Option.some_inj] at hc
  exact hb (by
    have := C64_temper32 (hc.2.symm.trans hc.1)
    rwa [Function.update_self] at this)

/-- The recurrence of MT64 in the form of the code. -/
theorem mt64_terms (s : Mt 64) (h0 : 0 ≤ s.pos) (h1 : s.pos ≤ 312) (hz : Mt64Live s.key) :
    ∃ x : MSol mt64, mtPhi mt64 x ≠ 0 ∧ (∀ i < 312, x.val i = s.key i) ∧ ∀ n, nthO mtNext64 n s = some (temper64 (x.val (s.pos.toNat + n))) := by
  have hb : ∀ u v : U64, ((u &&& 0xFFFFFFFF80000000#64) ||| (v &&& 0x7fffffff#64)).getLsbD 0 = v.getLsbD 0 := fun u v => by
    rw [BitVec.getLsbD_or, BitVec.getLsbD_and, BitVec.getLsbD_and, show (0xFFFFFFFF80000000#64).getLsbD 0 = false from rfl,
      show (0x7fffffff#64).getLsbD 0 = true from rfl]; simp
  have hk : ∀ i < 312, mtSeq mt64 s.key i = s.key i := fun i hi => mtSeq_init mt64 s.key hi
  refine ⟨⟨mtSeq mt64 s.key, mtSeq_rec mt64 s.key⟩, mt64_phi_ne hz _ hk, hk, C34_mt64 s h0 h1 _ (fun k => ?_) hk⟩
  have := mtSeq_rec mt64 s.key k
  rw [mtWord] at this
  simp only [show mt64.upper = 0xFFFFFFFF80000000#64 from rfl, show mt64.lower = 0x7fffffff#64 from rfl, show mt64.a = 0xB5026F5AA96619E9#64 from rfl,
    show mt64.N = 312 from rfl, show mt64.M = 156 from rfl, hb] at this
  exact this

/-- C76 for MT64. -/
theorem C76_mt64 (s : Mt 64) (h0 : 1 ≤ s.pos) (h1 : s.pos ≤ 312) (hz : Mt64Live s.key) (n : Nat) :
    (∀ k, nthO mtNext64 (k + n) s = nthO mtNext64 k s) ↔ 2 ^ 19937 - 1 ∣ n := by
  obtain ⟨x, hx, _, ho⟩ := mt64_terms s (by omega) h1 hz
  rw [← mt_terms_period mt64Phi_step (inj_of_ann PV.add_self mt64T mt64_ann.1 (by decide +kernel)) mt64_period x hx s.pos.toNat (by omega) n]
  refine forall_congr' fun k => ?_
  rw [ho, ho, Option.some_inj]
  exact C64_temper64.eq_iff

/-- C76 for MT64 at position 0. -/
theorem C76_mt64_later (s : Mt 64) (h0 : s.pos = 0) (hz : Mt64Live s.key) (n : Nat) :
    (∀ k, nthO mtNext64 (k + 1 + n) s = nthO mtNext64 (k + 1) s) ↔ 2 ^ 19937 - 1 ∣ n := by
  obtain ⟨x, hx, _, ho⟩ := mt64_terms s (by omega) (by omega) hz
  rw [← mt_terms_period mt64Phi_step (inj_of_ann PV.add_self mt64T mt64_ann.1 (by decide +kernel)) mt64_period x hx 1 (by omega) n]
  refine forall_congr' fun k => ?_
  rw [ho, ho, Option.some_inj, h0, show Int.toNat 0 + (k + 1 + n) = 1 + (k + n) by simp only [Int.toNat_zero]; omega,
    show Int.toNat 0 + (k + 1) = 1 + k by simp only [Int.toNat_zero]; omega]
  exact C64_temper64.eq_iff

/-- C76 for every seed of MT64. -/
theorem C76_mt64_seeded (seed : List U64) (old : Nat → U64) (n : Nat) :
    (∀ k, nthO mtNext64 (k + n) (mtSeed64 seed old) = nthO mtNext64 k (mtSeed64 seed old)) ↔ 2 ^ 19937 - 1 ∣ n := by
  obtain ⟨t1, t2⟩ := C37_mt64_top seed old
  exact C76_mt64 _ (by rw [t2]; decide) (by rw [t2]) (Or.inl (by rw [t1]; decide)) n

/-- States to which the theorems apply; the degenerate states left out are those whose later outputs are all zero. -/
example : Mt32Live (fun i => if i = 5 then 1 else 0) ∧ Mt64Live (fun i => if i = 5 then 1 else 0) :=
  ⟨Or.inr ⟨5, by decide, by decide, by decide⟩, Or.inr ⟨5, by decide, by decide, by decide⟩⟩

/-- C76: the degenerate states are excluded for a reason: they have period 1. -/
theorem C76_degenerate (s : Mt 32) (h0 : 1 ≤ s.pos) (h1 : s.pos ≤ 624) (hz : ¬ Mt32Live s.key) (k : Nat) : nthO mtNext32 k s = some 0 := by
  simp only [Mt32Live, not_or, not_exists, not_and, not_not, Bool.not_eq_true] at hz
  obtain ⟨x, hx, hk⟩ := mt32_solution s.key
  rw [C34_mt19937 s (by omega) h1 x hx hk]
  have hr := mtStd_rec.1 hx
  have hn : (x 0).toNat >>> 31 = 0 := by
    apply Nat.eq_of_testBit_eq
    intro m
    rw [Nat.testBit_shiftRight, BitVec.testBit_toNat, hk 0 (by decide), Nat.zero_testBit]
    rcases Nat.eq_zero_or_pos m with rfl | hm
    · exact hz.1
    · exact BitVec.getLsbD_of_ge _ _ (by omega)
  have hphi : mtPhi mt32 ⟨x, hr⟩ = mtPhi mt32 (0 : MSol mt32) := by
    apply PV.ext'
    show pk mt32.N (fun i => x (0 + i)) >>> 31 = pk mt32.N (fun i => (0 : MSol mt32).val (0 + i)) >>> 31
    apply Nat.eq_of_testBit_eq
    intro m
    rw [Nat.testBit_shiftRight, Nat.testBit_shiftRight, testBit_pk (by decide), testBit_pk (by decide)]
    by_cases hm : (31 + m) / 32 < mt32.N
    · rw [decide_eq_true hm, Bool.true_and, Bool.true_and]
      show (x (0 + (31 + m) / 32)).getLsbD _ = (0 : U32).getLsbD _
      rw [Nat.zero_add, hk _ hm]
      by_cases hm0 : (31 + m) / 32 = 0
      · have : m = 0 := by omega
        subst this
        rw [show (31 + 0) / 32 = 0 by decide]
        exact hz.1
      · rw [hz.2 _ (by omega) hm]
    · rw [decide_eq_false hm, Bool.false_and, Bool.false_and]
  have := (mtPhi_eq hphi).1 (s.pos.toNat + k - 1)
  rw [show s.pos.toNat + k - 1 + 1 = s.pos.toNat + k by omega] at this
  rw [show x (s.pos.toNat + k) = 0 from this]
  rfl

end Verif
