import Verif.Model.CtrSeedCall
import Verif.Props.KeySeed
import Verif.Props.Session7

/-! C102 for the keys and counters of Philox and ThreeFry. -/

namespace Verif

open Ints

/-- What a key or a counter of `bits` bits denotes: as `Denotes` for the number of 64-bit words that `bits` bits take, and below `2^bits`
(the key of Philox 2x32 has 32 bits). -/
def DenotesBits (bits : Nat) (o : ObjIn) (v : Nat) : Prop := Denotes ((bits + 63) / 64) o v ∧ v < 2 ^ bits

theorem objRange_weaken {b : Nat} {x v : Int} (h : objRange b x = .ok (some v)) : x = v ∧ 0 ≤ v := by
  rw [objRange] at h
  split at h
  · cases h
  · injection h with h; injection h with h
    subst h; exact ⟨rfl, by omega⟩

/-- `object_to_int` is a conversion that does not depend on the number of bits and a range check. -/
theorem objectToInt_form (o : ObjIn) (h0 : o ≠ .none) : (∃ e, ∀ b, objectToInt o b = .error e) ∨ ∃ x : Int, ∀ b, objectToInt o b = objRange b x := by
  cases o with
  | none => exact absurd rfl h0
  | int v => exact .inr ⟨v, fun b => rfl⟩
  | arr64 l =>
    by_cases hl : l.length = 0
    · exact .inl ⟨.valueError, fun b => by rw [objectToInt, if_neg (by decide), if_pos hl]⟩
    · exact .inr ⟨_, fun b => by rw [objectToInt, if_neg (by decide), if_neg hl]⟩
  | arr32 l => exact .inl ⟨.typeError, fun b => rfl⟩
  | arrOther => exact .inl ⟨.typeError, fun b => rfl⟩
  | seq l =>
    by_cases h1 : ¬ (l.all (fun x => x ≤ 2 ^ 64 - 1) ∧ l.all (fun x => 0 ≤ x))
    · refine .inl ⟨.valueError, fun b => ?_⟩
      rw [objectToInt]
      exact if_pos h1
    · by_cases hl : l.length = 0
      · refine .inl ⟨.valueError, fun b => ?_⟩
        rw [objectToInt]
        exact (if_neg h1).trans (if_pos hl)
      · refine .inr ⟨(wordSum 64 (l.map Int.toNat) : Nat), fun b => ?_⟩
        rw [objectToInt]
        exact (if_neg h1).trans (if_neg hl)

theorem objectToInt_bits {bits : Nat} {o : ObjIn} {v : Nat} (h : DenotesBits bits o v) (hb : 0 < bits) : objectToInt o bits = .ok (some (v : Int)) := by
  have e := objectToInt_denotes h.1 (by omega)
  have h0 : o ≠ .none := fun h' => by have := h.1; subst h'; cases this
  rcases objectToInt_form o h0 with ⟨x, hx⟩ | ⟨x, hx⟩
  · rw [hx] at e; cases e
  · rw [hx] at e
    obtain ⟨rfl, _⟩ := objRange_weaken e
    have : ((v : Nat) : Int) < 2 ^ bits := by exact_mod_cast h.2
    rw [hx, objRange, if_neg (by omega)]

theorem objectToInt_bits_refused {bits : Nat} {o : ObjIn} (h0 : o ≠ .none) (hl : ¬ WrongLength ((bits + 63) / 64) o) (hb : 0 < bits)
    (hd : ¬ ∃ v, DenotesBits bits o v) : ∃ e, objectToInt o bits = .error e := by
  rcases objectToInt_form o h0 with ⟨x, hx⟩ | ⟨x, hx⟩
  · exact ⟨x, hx bits⟩
  · by_cases hd' : ∃ v, Denotes ((bits + 63) / 64) o v
    · obtain ⟨v, hv⟩ := hd'
      have e := objectToInt_denotes hv (by omega)
      rw [hx] at e
      obtain ⟨rfl, _⟩ := objRange_weaken e
      have : ¬ v < 2 ^ bits := fun h => hd ⟨v, hv, h⟩
      have : ((2 ^ bits : Nat) : Int) ≤ v := by exact_mod_cast Nat.le_of_not_lt this
      push_cast at this
      exact ⟨.valueError, by rw [hx, objRange, if_pos (.inr this)]⟩
    · obtain ⟨e, he⟩ := objectToInt_refused h0 hl hd'
      rw [hx, objRange] at he
      split at he
      · rename_i hc
        refine ⟨.valueError, ?_⟩
        rw [hx, objRange, if_pos]
        refine hc.imp id fun h => ?_
        have : (2 : Int) ^ bits ≤ 2 ^ (64 * ((bits + 63) / 64)) := pow_le_pow_right₀ (by decide) (by omega)
        exact le_trans this h
      · cases he

theorem toWords_getElem (w : Nat) : ∀ (n v i : Nat) (hi : i < (toWords w n v).length), (toWords w n v)[i] = BitVec.ofNat w (v / 2 ^ (w * i))
  | 0, _, _, hi => absurd hi (by simp [toWords])
  | n + 1, v, 0, _ => by
    simp only [toWords, List.getElem_cons_zero, Nat.mul_zero, pow_zero, Nat.div_one]
  | n + 1, v, i + 1, hi => by
    simp only [toWords, List.getElem_cons_succ]
    rw [toWords_getElem w n (v / 2 ^ w) i, Nat.div_div_eq_div_mul, ← pow_add, Nat.mul_add, Nat.mul_one, Nat.add_comm w]

/-- The instance with key `k` and counter `c`, nothing drawn yet: the words of both in the slots that the variant uses, buffer used up, no half word
kept. -/
structure Fresh (kN N w k c : Nat) (s s' : CtrI) : Prop where
  key : ∀ i (hi : i < 4), i < kN → s'.key[i].setWidth w = BitVec.ofNat w (k / 2 ^ (w * i))
  ctr : ∀ i (hi : i < 4), i < N → s'.ctr[i].setWidth w = BitVec.ofNat w (c / 2 ^ (w * i))
  pos : s'.pos = 4
  has : s'.has = 0
  uint : s'.uint = 0
  variant : s'.n = s.n ∧ s'.w = s.w ∧ s'.number = s.number ∧ s'.width = s.width ∧ s'.actN = s.actN ∧ s'.actW = s.actW

theorem slots_words {w k n : Nat} (hw : w = 32 ∨ w = 64) (hk : k ≤ 4) (old : Vector U64 4) (i : Nat) (hi : i < 4) (hik : i < k) :
    ((Vector.ofFn fun i : Fin 4 => match (toWords w k n)[i.val]? with
      | some x => slotPut old[i] x
      | none => old[i])[i]).setWidth w = BitVec.ofNat w (n / 2 ^ (w * i)) := by
  have h := ofFn_words hw hk old (toWords w k n) (toWords_length w k n)
  have h1 := congrArg (fun l => l[i]?) h
  simp only [List.getElem?_map] at h1
  rw [List.getElem?_take_of_lt hik, List.getElem?_eq_getElem (by simpa using hi), List.getElem?_eq_getElem (by rw [toWords_length]; exact hik),
    toWords_getElem, Option.map_some, Vector.getElem_toList] at h1
  exact Option.some.inj h1

theorem fresh_put {kN N w : Nat} (hw : w = 32 ∨ w = 64) (hk : kN ≤ 4) (hN : N ≤ 4) (g : CtrGen w) (k c : Nat) (s : CtrI) :
    Fresh kN N w k c s (s.put N (cmSeed N kN g k c)) :=
  ⟨fun i hi h => slots_words hw hk s.key i hi h, fun i hi h => slots_words hw hN s.ctr i hi h, by show BitVec.ofInt 32 4 = 4; decide, rfl, rfl,
    ⟨rfl, rfl, rfl, rfl, rfl, rfl⟩⟩

section
variable {F : CtrFam} {N w : Nat}

theorem ctrKeyed_used (V : Variant N w) (H : FamOk F N w) {s : Seeded CtrI} (hn : s.core.n.toNat = N) (hw : s.core.w.toNat = w) {key counter : ObjIn}
    {k c : Nat} (ek : objectToInt key (F.keys N * w) = .ok (some (k : Int)))
    (dc : counter = .none ∧ c = 0 ∨ DenotesBits (N * w) counter c) :
    ∃ s', ctrKeyed F key counter s = (.ok (), ⟨s.seq, s'⟩) ∧ Fresh (F.keys N) N w k c s.core s' := by
  have hN : N ≤ 4 := by rcases V.hN with h | h <;> omega
  have hpos : 0 < N * w := by rcases V.hN with h | h <;> rcases V.hw with h' | h' <;> subst h <;> subst h' <;> decide
  have ec : ∃ o, objectToInt counter (N * w) = .ok o ∧ (o.getD 0).toNat = c := by
    rcases dc with ⟨rfl, rfl⟩ | d
    · exact ⟨none, rfl, rfl⟩
    · exact ⟨some c, objectToInt_bits d hpos, Int.toNat_natCast c⟩
  obtain ⟨o, eo, e0⟩ := ec
  have key : ∃ s', ctrSeedKey F key counter s.core = .ok s' ∧ Fresh (F.keys N) N w k c s.core s' := by
    unfold ctrSeedKey
    dsimp only
    rw [hn, hw, ek, eo]
    refine ⟨_, rfl, ?_⟩
    dsimp only [Option.getD_some]
    rw [Int.toNat_natCast, e0]
    rcases V.hw with rfl | rfl
    · rw [if_neg (by rintro e; rw [e] at hw; exact absurd hw (by decide))]
      exact fresh_put (.inl rfl) H.four hN _ k c s.core
    · rw [if_pos (BitVec.eq_of_toNat_eq hw)]
      exact fresh_put (.inr rfl) H.four hN _ k c s.core
  obtain ⟨s', e, f⟩ := key
  exact ⟨s', by rw [ctrKeyed, e], f⟩

/-- The number that the key of a call is: the argument, or what the words of the seed sequence give. -/
def KeyBits (bits : Nat) (given : Bool) (gen : Nat → U64) (key : ObjIn) (k : Nat) : Prop :=
  (key = .none ∧ k = seqKey bits gen) ∨ (given = false ∧ DenotesBits bits key k)

theorem ctrSeedCall_used (V : Variant N w) (H : FamOk F N w) (hk0 : 0 < F.keys N) {s : Seeded CtrI} (hn : s.core.n.toNat = N)
    (hw : s.core.w.toNat = w) {given : Bool} {gen : Nat → U64} {key counter : ObjIn} {k c : Nat} (dk : KeyBits (F.keys N * w) given gen key k)
    (dc : counter = .none ∧ c = 0 ∨ DenotesBits (N * w) counter c) :
    ∃ s', ctrSeedCall F false given gen key counter s = (.ok (), ⟨if key = .none then gen else s.seq, s'⟩) ∧ Fresh (F.keys N) N w k c s.core s' := by
  have hpos : 0 < F.keys N * w := Nat.mul_pos hk0 (by rcases V.hw with h | h <;> omega)
  rcases dk with ⟨rfl, rfl⟩ | ⟨rfl, d⟩
  · rw [ctrSeedCall, if_neg (fun h => h.2 rfl), if_pos rfl, if_pos rfl]
    dsimp only
    rw [if_neg (by decide), hn, hw]
    exact ctrKeyed_used V H (s := { s with seq := gen }) hn hw (H.key gen) dc
  · have h0 : key ≠ .none := fun h => by have := d.1; subst h; cases this
    rw [ctrSeedCall, if_neg (fun h => by cases h.1), if_neg h0, if_neg h0]
    exact ctrKeyed_used V H hn hw (objectToInt_bits d hpos) dc

theorem ctrKeyed_err {s : Seeded CtrI} (hn : s.core.n.toNat = N) (hw : s.core.w.toNat = w) {key counter : ObjIn}
    (h : (∃ e, objectToInt key (F.keys N * w) = .error e) ∨ ∃ e, objectToInt counter (N * w) = .error e) :
    ∃ e, ctrKeyed F key counter s = (.error e, s) := by
  have : ∃ e, ctrSeedKey F key counter s.core = .error e := by
    unfold ctrSeedKey
    dsimp only
    rw [hn, hw]
    cases h1 : objectToInt key (F.keys N * w) with
    | error e => exact ⟨e, rfl⟩
    | ok k =>
      rcases h with ⟨e, h⟩ | ⟨e, h⟩
      · rw [h1] at h; cases h
      · rw [h]; exact ⟨e, rfl⟩
  obtain ⟨e, he⟩ := this
  exact ⟨e, by rw [ctrKeyed, he]⟩

/-- What must be refused: a seed together with a key, a key or a counter that denotes nothing. -/
def MustRefuseBits (kb cb : Nat) (given : Bool) (key counter : ObjIn) : Prop :=
  (given = true ∧ key ≠ .none) ∨ (key ≠ .none ∧ ¬ ∃ k, DenotesBits kb key k) ∨ (counter ≠ .none ∧ ¬ ∃ c, DenotesBits cb counter c)

theorem ctrSeedCall_refused (V : Variant N w) (hk0 : 0 < F.keys N) {s : Seeded CtrI} (hn : s.core.n.toNat = N)
    (hw : s.core.w.toNat = w) {given : Bool} {gen : Nat → U64} {key counter : ObjIn} (wk : ¬ WrongLength ((F.keys N * w + 63) / 64) key)
    (wc : ¬ WrongLength ((N * w + 63) / 64) counter) (h : MustRefuseBits (F.keys N * w) (N * w) given key counter) :
    ∃ e, ctrSeedCall F false given gen key counter s = (.error e, ⟨if key = .none then gen else s.seq, s.core⟩) := by
  have hw0 : 0 < w := by rcases V.hw with h | h <;> omega
  have hpos : 0 < F.keys N * w := Nat.mul_pos hk0 hw0
  have hpos' : 0 < N * w := Nat.mul_pos V.N_pos hw0
  by_cases h1 : given = true ∧ key ≠ .none
  · exact ⟨_, by rw [ctrSeedCall, if_pos h1, if_neg h1.2]⟩
  have h := h.resolve_left h1
  rw [ctrSeedCall, if_neg h1]
  by_cases h0 : key = .none
  · rw [if_pos h0, if_pos h0]
    have h := h.resolve_left fun h => h.1 h0
    dsimp only
    rw [if_neg (by decide)]
    exact ctrKeyed_err (s := { s with seq := gen }) hn hw (.inr (objectToInt_bits_refused h.1 wc hpos' h.2))
  · rw [if_neg h0, if_neg h0]
    refine ctrKeyed_err hn hw (h.imp (fun h => ?_) fun h => ?_)
    · exact objectToInt_bits_refused h.1 wk hpos h.2
    · exact objectToInt_bits_refused h.1 wc hpos' h.2

end

/-- **C102 for Philox** (the mode `sequence`): every valid key and counter is used, in each of the documented forms; without a key, the words of
the seed sequence are. -/
theorem C102_philox {N w : Nat} (V : Variant N w) {s : Seeded CtrI} (hn : s.core.n.toNat = N) (hw : s.core.w.toNat = w) {given : Bool}
    {gen : Nat → U64} {key counter : ObjIn} {k c : Nat} (dk : KeyBits (N / 2 * w) given gen key k)
    (dc : counter = .none ∧ c = 0 ∨ DenotesBits (N * w) counter c) :
    ∃ s', ctrSeedCall philoxFam false given gen key counter s = (.ok (), ⟨if key = .none then gen else s.seq, s'⟩) ∧ Fresh (N / 2) N w k c s.core s' :=
  ctrSeedCall_used V (philoxFam_ok V) (by rcases V.hN with rfl | rfl <;> decide) hn hw dk dc

/-- **C102 for ThreeFry**, whose key has as many bits as the counter. -/
theorem C102_threefry {N w : Nat} (V : Variant N w) {s : Seeded CtrI} (hn : s.core.n.toNat = N) (hw : s.core.w.toNat = w) {given : Bool}
    {gen : Nat → U64} {key counter : ObjIn} {k c : Nat} (dk : KeyBits (N * w) given gen key k)
    (dc : counter = .none ∧ c = 0 ∨ DenotesBits (N * w) counter c) :
    ∃ s', ctrSeedCall threefryFam false given gen key counter s = (.ok (), ⟨if key = .none then gen else s.seq, s'⟩) ∧ Fresh N N w k c s.core s' :=
  ctrSeedCall_used V (threefryFam_ok V) V.N_pos hn hw dk dc

/-- C102 for Philox: whatever must be refused is, and nothing has changed, if a key was given; without one the seed sequence has been replaced
(`not_C102_philox_counter`). Missing: arrays with another number of words. -/
theorem C102_philox_partial {N w : Nat} (V : Variant N w) {s : Seeded CtrI} (hn : s.core.n.toNat = N) (hw : s.core.w.toNat = w) {given : Bool}
    {gen : Nat → U64} {key counter : ObjIn} (wk : ¬ WrongLength ((N / 2 * w + 63) / 64) key) (wc : ¬ WrongLength ((N * w + 63) / 64) counter)
    (h : MustRefuseBits (N / 2 * w) (N * w) given key counter) :
    ∃ e, ctrSeedCall philoxFam false given gen key counter s = (.error e, ⟨if key = .none then gen else s.seq, s.core⟩) :=
  ctrSeedCall_refused V (F := philoxFam) (by rcases V.hN with rfl | rfl <;> decide) hn hw wk wc h

/-- The same for ThreeFry. -/
theorem C102_threefry_partial {N w : Nat} (V : Variant N w) {s : Seeded CtrI} (hn : s.core.n.toNat = N) (hw : s.core.w.toNat = w) {given : Bool}
    {gen : Nat → U64} {key counter : ObjIn} (wk : ¬ WrongLength ((N * w + 63) / 64) key) (wc : ¬ WrongLength ((N * w + 63) / 64) counter)
    (h : MustRefuseBits (N * w) (N * w) given key counter) :
    ∃ e, ctrSeedCall threefryFam false given gen key counter s = (.error e, ⟨if key = .none then gen else s.seq, s.core⟩) :=
  ctrSeedCall_refused V (F := threefryFam) V.N_pos hn hw wk wc h

/-- **Violation of C102.** `Philox.seed(seed, counter=c)` in the mode `numpy` ignores the counter, even one that is not a counter at all. -/
theorem not_C102_philox_numpy (given : Bool) (gen : Nat → U64) (counter : ObjIn) (s : Seeded CtrI) :
    ctrSeedCall philoxFam true given gen .none counter s = ctrSeedCall philoxFam true given gen .none .none s := rfl

/-- With a counter of 1, say, it starts at 0. -/
theorem not_C102_philox_numpy_zero (given : Bool) (gen : Nat → U64) {s : Seeded CtrI} (hn : s.core.n = 4) (hw : s.core.w = 64) :
    ∃ s', ctrSeedCall philoxFam true given gen .none (.int 1) s = (.ok (), ⟨gen, s'⟩) ∧ s'.ctr[0] = 0 := by
  have V : Variant 4 64 := ⟨.inr rfl, .inr rfl⟩
  have hn' : s.core.n.toNat = 4 := by rw [hn]; rfl
  have hw' : s.core.w.toNat = 64 := by rw [hw]; rfl
  obtain ⟨s', e, f⟩ := ctrKeyed_used V (philoxFam_ok V) (s := { s with seq := gen }) hn' hw' ((philoxFam_ok V).key gen) (.inl ⟨rfl, rfl⟩)
  refine ⟨s', ?_, ?_⟩
  · rw [ctrSeedCall, if_neg (fun h => h.2 rfl), if_pos rfl]
    dsimp only
    rw [if_pos rfl, if_neg (by rw [hn, hw]; decide), hn', hw']
    exact e
  · have := f.ctr 0 (by decide) (by decide)
    rw [BitVec.setWidth_eq] at this
    rw [this]
    decide

/-- **Violation of C102.** A counter that is refused together with a seed leaves the new seed sequence, for both classes. -/
theorem not_C102_ctr_counter {N w : Nat} (V : Variant N w) {s : Seeded CtrI} (hn : s.core.n.toNat = N) (hw : s.core.w.toNat = w) (given : Bool)
    (gen : Nat → U64) : (∃ e, ctrSeedCall philoxFam false given gen .none (.int (-1)) s = (.error e, ⟨gen, s.core⟩)) ∧
      ∃ e, ctrSeedCall threefryFam false given gen .none (.int (-1)) s = (.error e, ⟨gen, s.core⟩) := by
  have neg : ∀ bits, ¬ ∃ c, DenotesBits bits (.int (-1)) c := by
    rintro bits ⟨c, hc, _⟩
    generalize hz : ObjIn.int (-1) = z at hc
    cases hc with
    | int v h => injection hz with hz; omega
    | arr => cases hz
    | seq => cases hz
  refine ⟨?_, ?_⟩
  · obtain ⟨e, he⟩ := C102_philox_partial V hn hw (given := given) (gen := gen) (key := .none) (counter := .int (-1)) (fun h => h) (fun h => h)
      (.inr (.inr ⟨by simp, neg _⟩))
    exact ⟨e, by rw [he, if_pos rfl]⟩
  · obtain ⟨e, he⟩ := C102_threefry_partial V hn hw (given := given) (gen := gen) (key := .none) (counter := .int (-1)) (fun h => h) (fun h => h)
      (.inr (.inr ⟨by simp, neg _⟩))
    exact ⟨e, by rw [he, if_pos rfl]⟩

/-- A new 4x32 instance, a key as an array of one word, a counter as a list of two, and a key of Philox 2x32 that has too many bits. -/
example : Variant 4 32 ∧ (⟨4, 32, 4, 32, 4, 32, Vector.replicate 4 0, Vector.replicate 4 0, Vector.replicate 4 0, 4, 0, 0⟩ : CtrI).n.toNat = 4 ∧
    DenotesBits 64 (.arr64 [7]) 7 ∧ DenotesBits 128 (.seq [5, 9]) (5 + 9 * 2 ^ 64) ∧ ¬ ∃ k, DenotesBits 32 (.arr64 [4294967296]) k := by
  refine ⟨⟨.inr rfl, .inl rfl⟩, rfl, ⟨.arr [7] 7 rfl (by decide) ?_, by decide⟩, ⟨.seq [5, 9] _ rfl (by decide) ?_, by decide⟩, ?_⟩
  · intro i hi
    have : i = 0 := by simpa using hi
    subst this; rfl
  · intro i hi
    have : i = 0 ∨ i = 1 := by simp at hi; omega
    rcases this with rfl | rfl <;> rfl
  · rintro ⟨k, h1, h2⟩
    cases h1 with
    | arr _ _ hl h hw =>
      have := hw 0 (by decide)
      rw [Nat.mul_zero, pow_zero, Nat.div_one, List.getElem_cons_zero] at this
      have : 4294967296 = k % 2 ^ 64 := this
      omega

end Verif
