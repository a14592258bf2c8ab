import Verif.Proof.Mt
import Verif.Common.BitInj

/-! Properties C34 (Mersenne Twister recurrence), C37 (seeds of MT19937 and MT64), C64 (tempering) and the Mersenne
Twister part of C13 (positions). -/

namespace Verif

/-! ### C34 -/

/-- C34: whatever the array and the position inside it, output `n` of MT19937 is the tempering of term `pos + n` of any
solution of the recurrence that starts with the array; no draw is undefined. -/
theorem C34_mt19937 (s : Mt 32) (h0 : 0 ≤ s.pos) (h1 : s.pos ≤ 624) (x : Nat → U32)
    (hx : ∀ k, x (k + 624) = x (k + 397) ^^^ (((x k &&& 0x80000000) ||| (x (k + 1) &&& 0x7fffffff)) >>> 1) ^^^
      (if (x (k + 1)).getLsbD 0 then 0x9908b0df else 0))
    (hk : ∀ i < 624, x i = s.key i) (n : Nat) :
    nthO mtNext32 n s = some (temper32 (x (s.pos.toNat + n))) := by
  have hr : MtRec mt32 x := fun k => by
    have hb : ((x k &&& 0x80000000#32) ||| (x (k + 1) &&& 0x7fffffff#32)).getLsbD 0 = (x (k + 1)).getLsbD 0 := by
      rw [BitVec.getLsbD_or, BitVec.getLsbD_and, BitVec.getLsbD_and, show (0x80000000#32).getLsbD 0 = false from rfl,
        show (0x7fffffff#32).getLsbD 0 = true from rfl]; simp
    show x (k + 624) = x (k + 397) ^^^ (((x k &&& 0x80000000#32) ||| (x (k + 1) &&& 0x7fffffff#32)) >>> 1) ^^^
      (if ((x k &&& 0x80000000#32) ||| (x (k + 1) &&& 0x7fffffff#32)).getLsbD 0 then 0x9908b0df#32 else 0)
    rw [hb, hx k]
    rfl
  refine nthO_of_inv mtNext32 (MtAt mt32 x) (fun p => temper32 (x p)) (fun s p hs => ?_) s s.pos.toNat
    ⟨h0, h1, 0, by simp, fun j hj => by rw [Nat.zero_add, hk j hj]⟩ n
  rw [mtNext32]
  split
  · rename_i hp
    exact mtRead_at temper32 (mtGen_at hr hs hp) (by show (0 : Int) < 624; decide)
  · rename_i hp
    exact mtRead_at temper32 hs (lt_of_le_of_ne hs.2.1 hp)

/-- Such solutions exist for every array. -/
theorem mt32_solution (key : Nat → U32) : ∃ x : Nat → U32,
    (∀ k, x (k + 624) = x (k + 397) ^^^ (((x k &&& 0x80000000) ||| (x (k + 1) &&& 0x7fffffff)) >>> 1) ^^^
      (if (x (k + 1)).getLsbD 0 then 0x9908b0df else 0)) ∧ ∀ i < 624, x i = key i := by
  refine ⟨mtSeq mt32 key, fun k => ?_, fun i hi => mtSeq_init mt32 key hi⟩
  have hb : ∀ u v : U32, ((u &&& 0x80000000#32) ||| (v &&& 0x7fffffff#32)).getLsbD 0 = v.getLsbD 0 := fun u v => by
    rw [BitVec.getLsbD_or, BitVec.getLsbD_and, BitVec.getLsbD_and, show (0x80000000#32).getLsbD 0 = false from rfl,
      show (0x7fffffff#32).getLsbD 0 = true from rfl]; simp
  have := mtSeq_rec mt32 key k
  rw [mtWord] at this
  simp only [show mt32.upper = 0x80000000#32 from rfl, show mt32.lower = 0x7fffffff#32 from rfl, show mt32.a = 0x9908b0df#32 from rfl,
    show mt32.N = 624 from rfl, show mt32.M = 397 from rfl, hb] at this
  exact this

/-- C34 for MT64; positions past the end regenerate as well, except `NN + 1`, which first reseeds (next theorem). -/
theorem C34_mt64 (s : Mt 64) (h0 : 0 ≤ s.pos) (h1 : s.pos ≤ 312) (x : Nat → U64)
    (hx : ∀ k, x (k + 312) = x (k + 156) ^^^ (((x k &&& 0xFFFFFFFF80000000) ||| (x (k + 1) &&& 0x7fffffff)) >>> 1) ^^^
      (if (x (k + 1)).getLsbD 0 then 0xB5026F5AA96619E9 else 0))
    (hk : ∀ i < 312, x i = s.key i) (n : Nat) :
    nthO mtNext64 n s = some (temper64 (x (s.pos.toNat + n))) := by
  have hr : MtRec mt64 x := fun k => by
    have hb : ((x k &&& 0xFFFFFFFF80000000#64) ||| (x (k + 1) &&& 0x7fffffff#64)).getLsbD 0 = (x (k + 1)).getLsbD 0 := by
      rw [BitVec.getLsbD_or, BitVec.getLsbD_and, BitVec.getLsbD_and, show (0xFFFFFFFF80000000#64).getLsbD 0 = false from rfl,
        show (0x7fffffff#64).getLsbD 0 = true from rfl]; simp
    show x (k + 312) = x (k + 156) ^^^ (((x k &&& 0xFFFFFFFF80000000#64) ||| (x (k + 1) &&& 0x7fffffff#64)) >>> 1) ^^^
      (if ((x k &&& 0xFFFFFFFF80000000#64) ||| (x (k + 1) &&& 0x7fffffff#64)).getLsbD 0 then 0xB5026F5AA96619E9#64 else 0)
    rw [hb, hx k]
    rfl
  refine nthO_of_inv mtNext64 (MtAt mt64 x) (fun p => temper64 (x p)) (fun s p hs => ?_) s s.pos.toNat
    ⟨h0, h1, 0, by simp, fun j hj => by rw [Nat.zero_add, hk j hj]⟩ n
  rw [mtNext64]
  split
  · rename_i hp
    have hp' : s.pos = mt64.N := le_antisymm hs.2.1 hp
    rw [if_neg (by rw [hp']; show ¬ (312 : Int) = 312 + 1; decide)]
    exact mtRead_at temper64 (mtGen_at hr hs hp') (by show (0 : Int) < 312; decide)
  · rename_i hp
    exact mtRead_at temper64 hs (lt_of_not_ge hp)

/-- C34: in MT64 a position beyond the array acts like the end of the array, except `NN + 1` (313), which is the mark
of an unseeded generator and acts like the generator seeded with 5489. -/
theorem C34_mt64_beyond (s : Mt 64) (h : 312 < s.pos) (n : Nat) :
    nthO mtNext64 n s = nthO mtNext64 n (if s.pos = 313 then mtKnuth mt64 6364136223846793005 62 5489 s.key else ⟨s.key, 312⟩) := by
  have e : mtNext64 s = mtNext64 (if s.pos = 313 then mtKnuth mt64 6364136223846793005 62 5489 s.key else ⟨s.key, 312⟩) := by
    have full : ∀ t : Mt 64, t.pos = 312 → mtNext64 t = mtRead mt64 temper64 ⟨mtGen mt64 t.key, 0⟩ := fun t ht => by
      rw [mtNext64, if_pos (show (mt64.N : Int) ≤ t.pos by rw [ht]; exact le_refl (312 : Int)),
        if_neg (show ¬ t.pos = (mt64.N : Int) + 1 by rw [ht]; show ¬ (312 : Int) = 312 + 1; decide)]
    rw [mtNext64, if_pos (show (mt64.N : Int) ≤ s.pos by show (312 : Int) ≤ _; omega)]
    by_cases h3 : s.pos = 313
    · rw [if_pos (show s.pos = (mt64.N : Int) + 1 from h3), if_pos h3, full _ rfl]
    · rw [if_neg (show ¬ s.pos = (mt64.N : Int) + 1 from h3), if_neg h3, full _ rfl]
  cases n with
  | zero => rw [nthO, nthO, runO, runO, Option.bind_some, Option.bind_some, e]
  | succ n => rw [nthO, nthO, runO, runO, e]

/-- A state to which the theorems apply. -/
example : 0 ≤ (⟨fun i => BitVec.ofNat 32 (i * i), 17⟩ : Mt 32).pos ∧ (⟨fun i => BitVec.ofNat 32 (i * i), 17⟩ : Mt 32).pos ≤ 624 := by decide

/-- The recurrence at work: the first output after the array is exhausted. -/
example : nthO mtNext32 0 ⟨fun i => BitVec.ofNat 32 (i * i), 624⟩ = some 4114079073 := by decide +kernel

/-! ### C13 for the Mersenne Twisters -/

/-- C13 (partial): positions 0 to 624 never lead outside the array. Missing: the setter takes any integer
(`not_C13_mt19937`). -/
theorem C13_mt19937_partial (s : Mt 32) (h0 : 0 ≤ s.pos) (h1 : s.pos ≤ 624) (n : Nat) : (nthO mtNext32 n s).isSome := by
  obtain ⟨x, hx, hk⟩ := mt32_solution s.key
  rw [C34_mt19937 s h0 h1 x hx hk n]; rfl

/-- C13 fails for MT19937: the accepted position 625 is read outside the array, whatever the array. -/
theorem not_C13_mt19937 (key : Nat → U32) : nthO mtNext32 0 ⟨key, 625⟩ = none := by
  have : mtNext32 ⟨key, 625⟩ = none := by
    rw [mtNext32, if_neg (show ¬ (⟨key, 625⟩ : Mt 32).pos = (mt32.N : Int) by show ¬ (625 : Int) = 624; decide), mtRead, if_neg]
    show ¬ ((0 : Int) ≤ 625 ∧ (625 : Int) < 624)
    decide
  rw [nthO, runO, Option.bind_some, this]; rfl

/-- C13 fails for negative positions in both generators. -/
theorem not_C13_mt_negative (s : Mt 32) (t : Mt 64) (hs : s.pos < 0) (ht : t.pos < 0) :
    nthO mtNext32 0 s = none ∧ nthO mtNext64 0 t = none := by
  have h1 : mtNext32 s = none := by
    rw [mtNext32, if_neg (show ¬ s.pos = (mt32.N : Int) by omega), mtRead, if_neg (by omega)]
  have h2 : mtNext64 t = none := by
    rw [mtNext64, if_neg (show ¬ (mt64.N : Int) ≤ t.pos by omega), mtRead, if_neg (by omega)]
  rw [nthO, runO, Option.bind_some, h1, nthO, runO, Option.bind_some, h2]
  exact ⟨rfl, rfl⟩

/-- C13: MT64 is safe for every non-negative position. -/
theorem C13_mt64_partial (s : Mt 64) (h0 : 0 ≤ s.pos) (n : Nat) : (nthO mtNext64 n s).isSome := by
  have small : ∀ s : Mt 64, 0 ≤ s.pos → s.pos ≤ 312 → (nthO mtNext64 n s).isSome := fun s h0 h1 => by
    have hb : ∀ u v : U64, ((u &&& 0xFFFFFFFF80000000#64) ||| (v &&& 0x7fffffff#64)).getLsbD 0 = v.getLsbD 0 := fun u v => by
      rw [BitVec.getLsbD_or, BitVec.getLsbD_and, BitVec.getLsbD_and, show (0xFFFFFFFF80000000#64).getLsbD 0 = false from rfl,
        show (0x7fffffff#64).getLsbD 0 = true from rfl]; simp
    rw [C34_mt64 s h0 h1 (mtSeq mt64 s.key) (fun k => ?_) (fun i hi => mtSeq_init mt64 s.key hi) n]
    · rfl
    · have := mtSeq_rec mt64 s.key k
      rw [mtWord] at this
      simp only [show mt64.upper = 0xFFFFFFFF80000000#64 from rfl, show mt64.lower = 0x7fffffff#64 from rfl, show mt64.a = 0xB5026F5AA96619E9#64 from rfl,
        show mt64.N = 312 from rfl, show mt64.M = 156 from rfl, hb] at this
      exact this
  rcases Int.lt_or_le 312 s.pos with h | h
  · rw [C34_mt64_beyond s h n]
    split
    · exact small _ (by show (0 : Int) ≤ 312; decide) (le_refl (312 : Int))
    · exact small _ (by show (0 : Int) ≤ 312; decide) (le_refl (312 : Int))
  · exact small s h0 h

/-! ### C64: tempering -/

theorem xorshr_and_inj {w k : Nat} (hk : 0 < k) (m : BitVec w) {x y : BitVec w} (h : x ^^^ ((x >>> k) &&& m) = y ^^^ ((y >>> k) &&& m)) :
    x = y := by
  have key : ∀ n i, w ≤ i + n → x.getLsbD i = y.getLsbD i := by
    intro n
    induction n with
    | zero => intro i hi; rw [BitVec.getLsbD_of_ge _ _ (by omega), BitVec.getLsbD_of_ge _ _ (by omega)]
    | succ n ih =>
      intro i hi
      have h1 := ih (i + k) (by omega)
      have h2 := congrArg (fun z => z.getLsbD i) h
      simp only [BitVec.getLsbD_xor, BitVec.getLsbD_and, BitVec.getLsbD_ushiftRight] at h2
      rw [Nat.add_comm k i, h1] at h2
      revert h2
      cases x.getLsbD i <;> cases y.getLsbD i <;> cases y.getLsbD (i + k) <;> cases m.getLsbD i <;> simp
  apply BitVec.eq_of_getLsbD_eq
  intro i _
  exact key w i (by omega)

theorem xorshl_and_inj {w k : Nat} (hk : 0 < k) (m : BitVec w) {x y : BitVec w} (h : x ^^^ ((x <<< k) &&& m) = y ^^^ ((y <<< k) &&& m)) :
    x = y := by
  have key : ∀ n i, i < n → x.getLsbD i = y.getLsbD i := by
    intro n
    induction n with
    | zero => intro i hi; omega
    | succ n ih =>
      intro i hi
      by_cases hw : i < w
      · have h2 := congrArg (fun z => z.getLsbD i) h
        simp only [BitVec.getLsbD_xor, BitVec.getLsbD_and, BitVec.getLsbD_shiftLeft] at h2
        by_cases hik : i < k
        · simpa [hik] using h2
        · have h1 := ih (i - k) (by omega)
          rw [h1] at h2
          revert h2
          cases x.getLsbD i <;> cases y.getLsbD i <;> cases y.getLsbD (i - k) <;> cases m.getLsbD i <;> simp [hw, hik]
      · rw [BitVec.getLsbD_of_ge _ _ (by omega), BitVec.getLsbD_of_ge _ _ (by omega)]
  apply BitVec.eq_of_getLsbD_eq
  intro i _
  exact key (i + 1) i (by omega)

/-- C64: the tempering of MT19937 loses nothing: different words give different outputs. -/
theorem C64_temper32 : Function.Injective temper32 := fun _ _ h =>
  xorshr_inj (k := 11) (by decide) (xorshl_and_inj (k := 7) (by decide) _ (xorshl_and_inj (k := 15) (by decide) _
    (xorshr_inj (k := 18) (by decide) h)))

/-- C64: the same for MT64. -/
theorem C64_temper64 : Function.Injective temper64 := fun _ _ h =>
  xorshr_and_inj (k := 29) (by decide) _ (xorshl_and_inj (k := 17) (by decide) _ (xorshl_and_inj (k := 37) (by decide) _
    (xorshr_inj (k := 43) (by decide) h)))

/-- C64: 624 consecutive outputs of MT19937 determine all later ones. -/
theorem C64_outputs_determine (s t : Mt 32) (hs : 0 ≤ s.pos ∧ s.pos ≤ 624) (ht : 0 ≤ t.pos ∧ t.pos ≤ 624)
    (h : ∀ n < 624, nthO mtNext32 n s = nthO mtNext32 n t) (n : Nat) : nthO mtNext32 n s = nthO mtNext32 n t := by
  obtain ⟨x, hx, hk⟩ := mt32_solution s.key
  obtain ⟨y, hy, hl⟩ := mt32_solution t.key
  have h1 := C34_mt19937 s hs.1 hs.2 x hx hk
  have h2 := C34_mt19937 t ht.1 ht.2 y hy hl
  rw [h1, h2]
  congr 2
  have hw : ∀ i < 624, x (s.pos.toNat + i) = y (t.pos.toNat + i) := fun i hi => by
    have := h i hi
    rw [h1, h2] at this
    exact C64_temper32 (Option.some.inj this)
  induction n using Nat.strong_induction_on with
  | _ n ih =>
    rcases Nat.lt_or_ge n 624 with hn | hn
    · exact hw n hn
    · obtain ⟨k, rfl⟩ : ∃ k, n = k + 624 := ⟨n - 624, by omega⟩
      have e : ∀ p, p + (k + 624) = (p + k) + 624 := fun p => by omega
      have e1 : ∀ p, p + (k + 1) = (p + k) + 1 := fun p => by omega
      have e2 : ∀ p, p + (k + 397) = (p + k) + 397 := fun p => by omega
      have i0 := ih k (by omega)
      have i1 := ih (k + 1) (by omega)
      have i2 := ih (k + 397) (by omega)
      rw [e1, e1] at i1
      rw [e2, e2] at i2
      rw [e, e, hx, hy, i0, i1, i2]

/-! ### C37 -/

/-- The 19937 bits that matter (the upper bits of term `b`, all bits of the next `N - 1` terms) are zero. -/
def MtDead {w : Nat} (P : MtPar w) (x : Nat → BitVec w) (b : Nat) : Prop :=
  x b &&& P.upper = 0 ∧ ∀ i, 0 < i → i < P.N → x (b + i) = 0

/-- The zero state is not reached from any other. -/
theorem mtDead_back {w : Nat} (P : MtPar w) (hw : 0 < w) (hul : P.upper ||| P.lower = BitVec.allOnes w)
    (ha : P.a.getLsbD (w - 1) = true) (hM : 2 ≤ P.M) {x : Nat → BitVec w} (hx : MtRec P x) {b : Nat} (h : MtDead P x (b + 1)) :
    MtDead P x b := by
  obtain ⟨h1, h2⟩ := h
  have hN := P.hM
  have e0 : x (b + P.N) = 0 := by
    have := h2 (P.N - 1) (by omega) (by omega)
    rwa [show b + 1 + (P.N - 1) = b + P.N by omega] at this
  have eM : x (b + P.M) = 0 := by
    have := h2 (P.M - 1) (by omega) (by omega)
    rwa [show b + 1 + (P.M - 1) = b + P.M by omega] at this
  have hr := hx b
  rw [e0, eM, mtWord] at hr
  generalize hy : (x b &&& P.upper) ||| (x (b + 1) &&& P.lower) = y at hr
  have hbit : ∀ i, (y >>> 1).getLsbD i = (if y.getLsbD 0 then P.a else 0).getLsbD i := fun i => by
    have := congrArg (fun z => z.getLsbD i) hr
    simp only [BitVec.getLsbD_xor] at this
    have hz : (0 : BitVec w).getLsbD i = false := by simp
    rw [hz, Bool.false_xor] at this
    revert this
    cases (y >>> 1).getLsbD i <;> cases (if y.getLsbD 0 then P.a else (0 : BitVec w)).getLsbD i <;> simp
  have hlsb : y.getLsbD 0 = false := by
    by_contra hc
    rw [Bool.not_eq_false] at hc
    have := hbit (w - 1)
    rw [if_pos hc, ha, BitVec.getLsbD_ushiftRight, BitVec.getLsbD_of_ge _ _ (by omega)] at this
    cases this
  have hy0 : y = 0 := by
    apply BitVec.eq_of_getLsbD_eq
    intro i hi
    rcases Nat.eq_zero_or_pos i with rfl | hp
    · rw [hlsb]; simp
    · have := hbit (i - 1)
      rw [BitVec.getLsbD_ushiftRight, hlsb, show 1 + (i - 1) = i by omega] at this
      rw [this]; simp
  rw [hy0] at hy
  have hsplit : ∀ i, (x b &&& P.upper).getLsbD i = false ∧ (x (b + 1) &&& P.lower).getLsbD i = false := fun i => by
    have := congrArg (fun z => z.getLsbD i) hy
    simp only [BitVec.getLsbD_or] at this
    have hz : (0 : BitVec w).getLsbD i = false := by simp
    rw [hz] at this
    revert this
    cases (x b &&& P.upper).getLsbD i <;> cases (x (b + 1) &&& P.lower).getLsbD i <;> simp
  refine ⟨?_, fun i hi0 hi => ?_⟩
  · apply BitVec.eq_of_getLsbD_eq
    intro i _
    rw [(hsplit i).1]; simp
  · rcases Nat.lt_or_ge 1 i with h | h
    · have := h2 (i - 1) (by omega) (by omega)
      rwa [show b + 1 + (i - 1) = b + i by omega] at this
    · obtain rfl : i = 1 := by omega
      apply BitVec.eq_of_getLsbD_eq
      intro i hi
      have h3 := congrArg (fun z => z.getLsbD i) h1
      have h4 := (hsplit i).2
      have h5 := congrArg (fun z => z.getLsbD i) hul
      have hz : (0 : BitVec w).getLsbD i = false := by simp
      simp only [BitVec.getLsbD_and, BitVec.getLsbD_or, BitVec.getLsbD_allOnes, hi, decide_true, hz] at h3 h4 h5 ⊢
      revert h3 h4 h5
      cases (x (b + 1)).getLsbD i <;> cases P.upper.getLsbD i <;> cases P.lower.getLsbD i <;> simp

theorem mtDead_zero {w : Nat} (P : MtPar w) (hw : 0 < w) (hul : P.upper ||| P.lower = BitVec.allOnes w)
    (ha : P.a.getLsbD (w - 1) = true) (hM : 2 ≤ P.M) {x : Nat → BitVec w} (hx : MtRec P x) {b : Nat} (h : MtDead P x b) :
    MtDead P x 0 := by
  induction b with
  | zero => exact h
  | succ b ih => exact ih (mtDead_back P hw hul ha hM hx h)

/-- C37: after seeding MT19937 with any words (either mode) the first array word is `0x80000000`. -/
theorem C37_mt19937_top (key : List U32) (old : Nat → U32) :
    (mtSeed32 key old).key 0 = 0x80000000 ∧ (mtSeed32 key old).pos = 624 ∧ (mtSeedNumpy key old).key 0 = 0x80000000 ∧
      (mtSeedNumpy key old).pos = 623 := by
  refine ⟨by simp only [mtSeed32, mtInitArray, Function.update_self], rfl, ?_, rfl⟩
  obtain ⟨n, hn⟩ : ∃ n, n = 623 := ⟨_, rfl⟩
  have h := foldl_range'_inv (fun k i => Function.update k i (key.getD i 0)) (fun _ k => k 0 = 0x80000000#32) 1 n
    (Function.update old 0 0x80000000) (Function.update_self ..)
    (fun m a h1 _ h => (Function.update_of_ne (by omega) _ _).trans h)
  simp only [mtSeedNumpy, ← hn]
  exact h

/-- C37: after seeding MT64 with any words the first array word is `2^63`. -/
theorem C37_mt64_top (key : List U64) (old : Nat → U64) :
    (mtSeed64 key old).key 0 = 0x8000000000000000 ∧ (mtSeed64 key old).pos = 312 :=
  ⟨by simp only [mtSeed64, mtInitArray, Function.update_self]; decide, rfl⟩

theorem live32 (s : Mt 32) (h : s.key 0 = 0x80000000) (h0 : 0 ≤ s.pos) (h1 : s.pos ≤ 624) (m : Nat) :
    ∃ n, m ≤ n ∧ n < m + 624 ∧ nthO mtNext32 n s ≠ some 0 := by
  obtain ⟨x, hx, hk⟩ := mt32_solution s.key
  have hn := C34_mt19937 s h0 h1 x hx hk
  by_contra hc
  push Not at hc
  have hz : ∀ i < 624, x (s.pos.toNat + m + i) = 0 := fun i hi => by
    have := hc (m + i) (by omega) (by omega)
    rw [hn, ← Nat.add_assoc] at this
    exact C64_temper32 (by rw [Option.some.inj this]; decide)
  have hr : MtRec mt32 x := by
    intro k
    have hb : ((x k &&& 0x80000000#32) ||| (x (k + 1) &&& 0x7fffffff#32)).getLsbD 0 = (x (k + 1)).getLsbD 0 := by
      rw [BitVec.getLsbD_or, BitVec.getLsbD_and, BitVec.getLsbD_and, show (0x80000000#32).getLsbD 0 = false from rfl,
        show (0x7fffffff#32).getLsbD 0 = true from rfl]; simp
    show x (k + 624) = x (k + 397) ^^^ (((x k &&& 0x80000000#32) ||| (x (k + 1) &&& 0x7fffffff#32)) >>> 1) ^^^
      (if ((x k &&& 0x80000000#32) ||| (x (k + 1) &&& 0x7fffffff#32)).getLsbD 0 then 0x9908b0df#32 else 0)
    rw [hb, hx k]
    rfl
  have hd : MtDead mt32 x (s.pos.toNat + m) :=
    ⟨by have := hz 0 (by decide); rw [Nat.add_zero] at this; rw [this]; simp, fun i _ hi => hz i hi⟩
  have := (mtDead_zero mt32 (by decide) (by decide) (by decide) (by decide) hr hd).1
  rw [hk 0 (by decide), h] at this
  revert this
  decide

/-- C37: a seeded MT19937 never falls into the zero state: among any 624 consecutive outputs one is nonzero. -/
theorem C37_mt19937_alive (key : List U32) (old : Nat → U32) (m : Nat) :
    (∃ n, m ≤ n ∧ n < m + 624 ∧ nthO mtNext32 n (mtSeed32 key old) ≠ some 0) ∧
      ∃ n, m ≤ n ∧ n < m + 624 ∧ nthO mtNext32 n (mtSeedNumpy key old) ≠ some 0 := by
  obtain ⟨h1, h2, h3, h4⟩ := C37_mt19937_top key old
  exact ⟨live32 _ h1 (by rw [h2]; decide) (by rw [h2]) m, live32 _ h3 (by rw [h4]; decide) (by rw [h4]; decide) m⟩

/-- C37: a seeded MT64 never falls into the zero state: among any 312 consecutive outputs one is nonzero. -/
theorem C37_mt64_alive (key : List U64) (old : Nat → U64) (m : Nat) :
    ∃ n, m ≤ n ∧ n < m + 312 ∧ nthO mtNext64 n (mtSeed64 key old) ≠ some 0 := by
  obtain ⟨h1, h2⟩ := C37_mt64_top key old
  generalize mtSeed64 key old = s at h1 h2
  have hr := mtSeq_rec mt64 s.key
  have hb : ∀ u v : U64, ((u &&& 0xFFFFFFFF80000000#64) ||| (v &&& 0x7fffffff#64)).getLsbD 0 = v.getLsbD 0 := fun u v => by
    rw [BitVec.getLsbD_or, BitVec.getLsbD_and, BitVec.getLsbD_and, show (0xFFFFFFFF80000000#64).getLsbD 0 = false from rfl,
      show (0x7fffffff#64).getLsbD 0 = true from rfl]; simp
  have hn := C34_mt64 s (by rw [h2]; decide) (by rw [h2]) (mtSeq mt64 s.key) (fun k => by
      have := hr k
      rw [mtWord] at this
      simp only [show mt64.upper = 0xFFFFFFFF80000000#64 from rfl, show mt64.lower = 0x7fffffff#64 from rfl, show mt64.a = 0xB5026F5AA96619E9#64 from rfl,
        show mt64.N = 312 from rfl, show mt64.M = 156 from rfl, hb] at this
      exact this) (fun i hi => mtSeq_init mt64 s.key hi)
  by_contra hc
  push Not at hc
  have hz : ∀ i < 312, mtSeq mt64 s.key (s.pos.toNat + m + i) = 0 := fun i hi => by
    have := hc (m + i) (by omega) (by omega)
    rw [hn, ← Nat.add_assoc] at this
    exact C64_temper64 (by rw [Option.some.inj this]; decide)
  have hd : MtDead mt64 (mtSeq mt64 s.key) (s.pos.toNat + m) :=
    ⟨by have := hz 0 (by decide); rw [Nat.add_zero] at this; rw [this]; simp, fun i _ hi => hz i hi⟩
  have := (mtDead_zero mt64 (by decide) (by decide) (by decide) (by decide) hr hd).1
  rw [mtSeq_init mt64 s.key (by decide), h1] at this
  revert this
  decide

end Verif
