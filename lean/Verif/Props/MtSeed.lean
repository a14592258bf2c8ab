import Verif.Props.Reseed
import Verif.Props.MtPeriod
import Mathlib.Data.BitVec
import Mathlib.Tactic.Ring
import Mathlib.Data.List.GetD

/-! Property C97: seeding of MT19937 and MT64 by array reaches every array, and every array equally often. -/

namespace Verif

section
variable {w : Nat}

/-- What a sweep over the array from index `a` on writes: word `a + t` is made of the old one and of the new word before it. -/
def sweep (f : Nat → BitVec w → BitVec w → BitVec w) (k : Nat → BitVec w) (a : Nat) : Nat → BitVec w
  | 0 => f a (k a) (k (a - 1))
  | t + 1 => f (a + (t + 1)) (k (a + (t + 1))) (sweep f k a t)

/-- The array after `t` steps of a sweep. -/
def swept (f : Nat → BitVec w → BitVec w → BitVec w) (k : Nat → BitVec w) (a t : Nat) (n : Nat) : BitVec w :=
  if a ≤ n ∧ n < a + t then sweep f k a (n - a) else k n

theorem swept_succ (f : Nat → BitVec w → BitVec w → BitVec w) (k : Nat → BitVec w) (a t : Nat) (ha : 1 ≤ a) :
    Function.update (swept f k a t) (a + t) (f (a + t) (swept f k a t (a + t)) (swept f k a t (a + t - 1))) = swept f k a (t + 1) := by
  have h1 : swept f k a t (a + t) = k (a + t) := if_neg (by omega)
  have h2 : f (a + t) (k (a + t)) (swept f k a t (a + t - 1)) = sweep f k a t := by
    cases t with
    | zero => rw [swept, if_neg (by omega)]; rfl
    | succ t => rw [swept, if_pos (by omega), show a + (t + 1) - 1 - a = t by omega]; rfl
  funext n
  by_cases e : n = a + t
  · subst e
    rw [Function.update_self, h1, h2, swept, if_pos (by omega), Nat.add_sub_cancel_left]
  · rw [Function.update_of_ne e, swept, swept]
    by_cases h : a ≤ n ∧ n < a + t
    · rw [if_pos h, if_pos (by omega)]
    · rw [if_neg h, if_neg (by omega)]

/-- The bodies of the loops. -/
def mtBody1 (c : BitVec w) (sh : Nat) (q : Nat → BitVec w) (i : Nat) (x y : BitVec w) : BitVec w :=
  (x ^^^ ((y ^^^ (y >>> sh)) * c)) + q (i - 1) + BitVec.ofNat w (i - 1)
def mtBody2 (c : BitVec w) (sh : Nat) (i : Nat) (x y : BitVec w) : BitVec w := (x ^^^ ((y ^^^ (y >>> sh)) * c)) - BitVec.ofNat w i

theorem init1_sweep (P : MtPar w) (c : BitVec w) (sh : Nat) (key : List (BitVec w)) (hl : key.length = P.N) (m : Nat → BitVec w) (t : Nat) (ht : t + 1 < P.N) :
    (mtInit1 P c sh key)^[t] ⟨m, 1, 0⟩ = ⟨swept (mtBody1 c sh (key.getD · 0)) m 1 t, t + 1, t⟩ := by
  induction t with
  | zero =>
    rw [Function.iterate_zero_apply]
    congr 1
    funext n
    rw [swept, if_neg (by omega)]
  | succ t ih =>
    rw [Function.iterate_succ_apply', ih (by omega), mtInit1, mtWrap]
    dsimp only
    rw [if_neg (by omega), if_neg (show ¬ key.length ≤ t + 1 by omega), ← swept_succ _ _ 1 t (le_refl 1), Nat.add_comm 1 t]
    rfl

/-- The first loop: all words, and the first one again. -/
theorem init1_full (P : MtPar w) (c : BitVec w) (sh : Nat) (key : List (BitVec w)) (hl : key.length = P.N) (m : Nat → BitVec w) :
    ∃ k z, (mtInit1 P c sh key)^[P.N] ⟨m, 1, 0⟩ = ⟨k, 2, z⟩ ∧
      k 1 = (sweep (mtBody1 c sh (key.getD · 0)) m 1 0 ^^^ ((sweep (mtBody1 c sh (key.getD · 0)) m 1 (P.N - 2) ^^^
        (sweep (mtBody1 c sh (key.getD · 0)) m 1 (P.N - 2) >>> sh)) * c)) + key.getD (P.N - 1) 0 + BitVec.ofNat w (P.N - 1) ∧
      ∀ i, 2 ≤ i → i < P.N → k i = sweep (mtBody1 c sh (key.getD · 0)) m 1 (i - 1) := by
  have hM := P.hM
  obtain ⟨n, hn⟩ : ∃ n, P.N = n + 1 + 1 := ⟨P.N - 2, by omega⟩
  have h0 := init1_sweep P c sh key hl m n (by omega)
  have h1 : (mtInit1 P c sh key)^[n + 1] ⟨m, 1, 0⟩ = ⟨Function.update (swept (mtBody1 c sh (key.getD · 0)) m 1 (n + 1)) 0 (sweep (mtBody1 c sh (key.getD · 0)) m 1 n),
      1, n + 1⟩ := by
    rw [Function.iterate_succ_apply', h0, mtInit1, mtWrap]
    dsimp only
    rw [if_pos (by omega)]
    have e := swept_succ (mtBody1 c sh (key.getD · 0)) m 1 n (le_refl 1)
    rw [Nat.add_comm 1 n, Nat.add_sub_cancel] at e
    have e2 : swept (mtBody1 c sh (key.getD · 0)) m 1 (n + 1) (P.N - 1) = sweep (mtBody1 c sh (key.getD · 0)) m 1 n := by
      rw [swept, if_pos (by omega), show P.N - 1 - 1 = n by omega]
    rw [show (swept (mtBody1 c sh (key.getD · 0)) m 1 n (n + 1) ^^^ (swept (mtBody1 c sh (key.getD · 0)) m 1 n (n + 1 - 1) ^^^
      swept (mtBody1 c sh (key.getD · 0)) m 1 n (n + 1 - 1) >>> sh) * c) + key.getD n 0 + BitVec.ofNat w n = mtBody1 c sh (key.getD · 0) (n + 1)
        (swept (mtBody1 c sh (key.getD · 0)) m 1 n (n + 1)) (swept (mtBody1 c sh (key.getD · 0)) m 1 n n) from rfl, e, e2]
    rw [if_neg (show ¬ key.length ≤ n + 1 by omega)]
  rw [hn, Function.iterate_succ_apply', h1, mtInit1, mtWrap]
  dsimp only
  rw [if_neg (by omega)]
  refine ⟨_, _, rfl, ?_, fun i hi hi2 => ?_⟩
  · have e : swept (mtBody1 c sh (key.getD · 0)) m 1 (n + 1) 1 = sweep (mtBody1 c sh (key.getD · 0)) m 1 0 := if_pos (by omega)
    rw [Function.update_self]
    show (swept (mtBody1 c sh (key.getD · 0)) m 1 (n + 1) 1 ^^^ _) + _ + _ = _
    rw [e]
    rfl
  · dsimp only
    rw [Function.update_of_ne (show i ≠ 1 by omega), Function.update_of_ne (show i ≠ 0 by omega)]
    exact if_pos (by omega)

theorem init2_sweep (P : MtPar w) (c : BitVec w) (sh : Nat) (m : Nat → BitVec w) (z t : Nat) (ht : t + 2 < P.N) :
    (mtInit2 P c sh)^[t] ⟨m, 2, z⟩ = ⟨swept (mtBody2 c sh) m 2 t, 2 + t, z⟩ := by
  induction t with
  | zero =>
    rw [Function.iterate_zero_apply]
    congr 1
    funext n
    rw [swept, if_neg (by omega)]
  | succ t ih =>
    rw [Function.iterate_succ_apply', ih (by omega), mtInit2, mtWrap]
    dsimp only
    rw [if_neg (by omega), ← swept_succ _ _ 2 t (by decide)]
    rfl

/-- The second loop: the words from the second on, then the first. -/
theorem init2_full (P : MtPar w) (c : BitVec w) (sh : Nat) (m : Nat → BitVec w) (z : Nat) :
    ((mtInit2 P c sh)^[P.N - 1] ⟨m, 2, z⟩).k 1 = mtBody2 c sh 1 (m 1) (sweep (mtBody2 c sh) m 2 (P.N - 3)) ∧
      ∀ i, 2 ≤ i → i < P.N → ((mtInit2 P c sh)^[P.N - 1] ⟨m, 2, z⟩).k i = sweep (mtBody2 c sh) m 2 (i - 2) := by
  have hM := P.hM
  obtain ⟨n, hn⟩ : ∃ n, P.N = n + 1 + 1 + 1 := ⟨P.N - 3, by omega⟩
  have h0 := init2_sweep P c sh m z n (by omega)
  have h1 : (mtInit2 P c sh)^[n + 1] ⟨m, 2, z⟩ = ⟨Function.update (swept (mtBody2 c sh) m 2 (n + 1)) 0 (sweep (mtBody2 c sh) m 2 n), 1, z⟩ := by
    rw [Function.iterate_succ_apply', h0, mtInit2, mtWrap]
    dsimp only
    rw [if_pos (by omega)]
    have e := swept_succ (mtBody2 c sh) m 2 n (by decide)
    have e2 : swept (mtBody2 c sh) m 2 (n + 1) (P.N - 1) = sweep (mtBody2 c sh) m 2 n := by
      rw [swept, if_pos (by omega), show P.N - 1 - 2 = n by omega]
    rw [show (swept (mtBody2 c sh) m 2 n (2 + n) ^^^ (swept (mtBody2 c sh) m 2 n (2 + n - 1) ^^^ swept (mtBody2 c sh) m 2 n (2 + n - 1) >>> sh) * c) -
      BitVec.ofNat w (2 + n) = mtBody2 c sh (2 + n) (swept (mtBody2 c sh) m 2 n (2 + n)) (swept (mtBody2 c sh) m 2 n (2 + n - 1)) from rfl, e, e2]
  rw [hn, Nat.add_sub_cancel, Function.iterate_succ_apply', h1, mtInit2, mtWrap]
  dsimp only
  rw [if_neg (by omega)]
  refine ⟨?_, fun i hi hi2 => ?_⟩
  · dsimp only
    rw [Function.update_self]
    rw [Function.update_of_ne (by decide), swept, if_neg (by omega)]
    rfl
  · dsimp only
    rw [Function.update_of_ne (show i ≠ 1 by omega), Function.update_of_ne (show i ≠ 0 by omega)]
    exact if_pos (by omega)

/-! ### Undoing the loops -/

theorem undo1 (x q n z : BitVec w) : x + q + n = z ↔ q = z - n - x := by
  constructor
  · rintro rfl; ring
  · rintro rfl; ring

theorem undo2 (x y i z : BitVec w) : (x ^^^ y) - i = z ↔ x = (z + i) ^^^ y := by
  constructor
  · rintro rfl
    rw [sub_add_cancel, BitVec.xor_assoc, BitVec.xor_self, BitVec.xor_zero]
  · rintro rfl
    rw [BitVec.xor_assoc, BitVec.xor_self, BitVec.xor_zero, add_sub_cancel_right]

/-- Word 1 after the first loop, from the words wanted after the second. -/
def mtWantB (g2 : BitVec w → BitVec w) (n : Nat) (F : Nat → BitVec w) : BitVec w := (F 1 + BitVec.ofNat w 1) ^^^ g2 (F (n + 2))

/-- Word `t + 1` after the first pass of the first loop. -/
def mtWant (g1 g2 : BitVec w → BitVec w) (n : Nat) (m F : Nat → BitVec w) (a : BitVec w) : Nat → BitVec w
  | 0 => (m 1 ^^^ g1 (m 0)) + a
  | 1 => (F 2 + BitVec.ofNat w 2) ^^^ g2 (mtWantB g2 n F)
  | t + 2 => (F (t + 3) + BitVec.ofNat w (t + 3)) ^^^ g2 (F (t + 2))

/-- The key. -/
def mtWantKey (g1 g2 : BitVec w → BitVec w) (n : Nat) (m F : Nat → BitVec w) (a : BitVec w) (j : Nat) : BitVec w :=
  if j = 0 then a
  else if j = n + 2 then mtWantB g2 n F - BitVec.ofNat w (n + 2) - (mtWant g1 g2 n m F a 0 ^^^ g1 (mtWant g1 g2 n m F a (n + 1)))
  else mtWant g1 g2 n m F a j - BitVec.ofNat w j - (m (j + 1) ^^^ g1 (mtWant g1 g2 n m F a (j - 1)))

theorem mt_solve (n : Nat) (m q A C F : Nat → BitVec w) (B a : BitVec w) (g1 g2 : BitVec w → BitVec w)
    (hA0 : A 0 = (m 1 ^^^ g1 (m 0)) + q 0 + BitVec.ofNat w 0)
    (hA : ∀ t, A (t + 1) = (m (t + 2) ^^^ g1 (A t)) + q (t + 1) + BitVec.ofNat w (t + 1))
    (hB : B = (A 0 ^^^ g1 (A (n + 1))) + q (n + 2) + BitVec.ofNat w (n + 2))
    (hC0 : C 0 = (A 1 ^^^ g2 B) - BitVec.ofNat w 2)
    (hC : ∀ t < n, C (t + 1) = (A (t + 2) ^^^ g2 (C t)) - BitVec.ofNat w (t + 3)) :
    (((B ^^^ g2 (C n)) - BitVec.ofNat w 1 = F 1 ∧ ∀ t ≤ n, C t = F (t + 2)) ∧ q 0 = a) ↔ ∀ j < n + 3, q j = mtWantKey g1 g2 n m F a j := by
  have z : BitVec.ofNat w 0 = 0 := rfl
  rw [z, add_zero] at hA0
  have hq : ∀ t, q (t + 1) = A (t + 1) - BitVec.ofNat w (t + 1) - (m (t + 2) ^^^ g1 (A t)) := fun t => (undo1 ..).1 (hA t).symm
  have hqB : q (n + 2) = B - BitVec.ofNat w (n + 2) - (A 0 ^^^ g1 (A (n + 1))) := (undo1 ..).1 hB.symm
  constructor
  · rintro ⟨⟨h1, h2⟩, h3⟩
    have eB : B = mtWantB g2 n F := by
      rw [undo2, h2 n (le_refl n)] at h1
      exact h1
    have eA : ∀ t ≤ n + 1, A t = mtWant g1 g2 n m F a t := by
      intro t ht
      rcases t with _ | _ | t
      · rw [hA0, h3]; rfl
      · have := (undo2 ..).1 hC0.symm
        rw [h2 0 (Nat.zero_le _), eB] at this
        exact this
      · have := (undo2 ..).1 (hC t (by omega)).symm
        rw [h2 (t + 1) (by omega), h2 t (by omega)] at this
        exact this
    intro j hj
    rw [mtWantKey]
    rcases j with _ | j
    · rw [if_pos rfl, h3]
    · rw [if_neg (by omega)]
      by_cases e : j = n + 1
      · subst e
        rw [if_pos rfl, hqB, eB, eA 0 (by omega), eA (n + 1) (le_refl _)]
      · rw [if_neg (by omega), hq, eA (j + 1) (by omega), eA j (by omega), Nat.add_sub_cancel]
  · intro h
    have h0 : q 0 = a := by rw [h 0 (by omega), mtWantKey, if_pos rfl]
    have eA : ∀ t ≤ n + 1, A t = mtWant g1 g2 n m F a t := by
      intro t
      induction t with
      | zero => intro _; rw [hA0, h0]; rfl
      | succ t ih =>
        intro ht
        have := h (t + 1) (by omega)
        rw [mtWantKey, if_neg (by omega), if_neg (by omega), Nat.add_sub_cancel, ← ih (by omega)] at this
        rw [hA, undo1]
        exact this
    have eB : B = mtWantB g2 n F := by
      have := h (n + 2) (by omega)
      rw [mtWantKey, if_neg (by omega), if_pos rfl, ← eA 0 (by omega), ← eA (n + 1) (le_refl _), ← undo1] at this
      rw [hB, this]
    have eC : ∀ t ≤ n, C t = F (t + 2) := by
      intro t
      induction t with
      | zero => intro _; rw [hC0, undo2, eA 1 (by omega), eB]; rfl
      | succ t ih => intro ht; rw [hC t (by omega), undo2, eA (t + 2) (by omega), ih (by omega)]; rfl
    refine ⟨⟨?_, eC⟩, h0⟩
    rw [undo2, eC n (le_refl n), eB]
    rfl

/-- For a key as long as the array, the words of the array are `F` and the first word of the key is `a` exactly when the key is one list. -/
theorem mtInitArray_iff (P : MtPar w) (knuth c1 c2 : BitVec w) (sh : Nat) (msb : BitVec w) (old F : Nat → BitVec w) (a : BitVec w) :
    ∃ K : Nat → BitVec w, ∀ key : List (BitVec w), key.length = P.N →
      (((∀ i, 1 ≤ i → i < P.N → (mtInitArray P knuth c1 c2 sh msb key old).key i = F i) ∧ key.getD 0 0 = a) ↔ ∀ j < P.N, key.getD j 0 = K j) := by
  have hM := P.hM
  obtain ⟨n, hn⟩ : ∃ n, P.N = n + 3 := ⟨P.N - 3, by omega⟩
  refine ⟨mtWantKey (fun y => (y ^^^ (y >>> sh)) * c1) (fun y => (y ^^^ (y >>> sh)) * c2) n (mtKnuth P knuth sh 19650218 old).key F a, fun key hl => ?_⟩
  obtain ⟨k, z, e, e1, e2⟩ := init1_full P c1 sh key hl (mtKnuth P knuth sh 19650218 old).key
  obtain ⟨f1, f2⟩ := init2_full P c2 sh k z
  have w1 : ∀ i, 1 ≤ i → (mtInitArray P knuth c1 c2 sh msb key old).key i = ((mtInit2 P c2 sh)^[P.N - 1] ⟨k, 2, z⟩).k i := by
    intro i hi
    rw [mtInitArray, hl, max_self, e]
    exact Function.update_of_ne (by omega) _ _
  rw [hn] at e1 e2 f1 f2 ⊢
  have key1 := mt_solve n (mtKnuth P knuth sh 19650218 old).key (key.getD · 0) (sweep (mtBody1 c1 sh (key.getD · 0)) (mtKnuth P knuth sh 19650218 old).key 1)
    (sweep (mtBody2 c2 sh) k 2) F (k 1) a (fun y => (y ^^^ (y >>> sh)) * c1) (fun y => (y ^^^ (y >>> sh)) * c2) rfl
    (fun t => by rw [sweep, show 1 + (t + 1) = t + 2 by omega]; rfl)
    (by rw [e1]; rfl)
    (by rw [sweep, e2 2 (le_refl 2) (by omega)]; rfl)
    (fun t ht => by rw [sweep, show 2 + (t + 1) = t + 3 by omega, e2 (t + 3) (by omega) (by omega)]; rfl)
  rw [← key1]
  refine and_congr_left fun _ => ⟨fun h => ⟨?_, fun t ht => ?_⟩, fun ⟨h1, h2⟩ i hi hi2 => ?_⟩
  · rw [← h 1 (le_refl 1) (by omega), w1 1 (le_refl 1), hn, f1]
    rfl
  · rw [← h (t + 2) (by omega) (by omega), w1 _ (by omega), hn, f2 (t + 2) (by omega) (by omega), Nat.add_sub_cancel]
  · rw [w1 i hi, hn]
    rcases Nat.eq_or_lt_of_le hi with rfl | hi3
    · rw [f1, ← h1]; rfl
    · rw [f2 i hi3 hi2, h2 (i - 2) (by omega), Nat.sub_add_cancel hi3]

theorem mtInitArray_unique (P : MtPar w) (knuth c1 c2 : BitVec w) (sh : Nat) (msb : BitVec w) (old F : Nat → BitVec w) (a : BitVec w) :
    ∃! key : List (BitVec w), key.length = P.N ∧ key.head? = some a ∧
      ∀ i, 1 ≤ i → i < P.N → (mtInitArray P knuth c1 c2 sh msb key old).key i = F i := by
  have hM := P.hM
  obtain ⟨K, hK⟩ := mtInitArray_iff P knuth c1 c2 sh msb old F a
  have hd : ∀ key : List (BitVec w), key.length = P.N → (key.head? = some a ↔ key.getD 0 0 = a) := by
    intro key hl
    rcases key with _ | ⟨x, key⟩
    · simp only [List.length_nil] at hl; omega
    · simp
  have hl : ((List.range P.N).map K).length = P.N := by rw [List.length_map, List.length_range]
  have hg : ∀ j < P.N, ((List.range P.N).map K).getD j 0 = K j := by
    intro j hj
    rw [List.getD_eq_getElem _ _ (by rw [hl]; exact hj), List.getElem_map, List.getElem_range]
  refine ⟨(List.range P.N).map K, ⟨hl, ?_⟩, ?_⟩
  · have := (hK _ hl).2 hg
    exact ⟨(hd _ hl).2 this.2, this.1⟩
  · rintro key ⟨h1, h2, h3⟩
    have := (hK key h1).1 ⟨h3, (hd key h1).1 h2⟩
    refine List.ext_getElem (by rw [h1, hl]) fun j hj hj2 => ?_
    have e1 := this j (by omega)
    rw [List.getD_eq_getElem _ _ hj] at e1
    rw [e1, List.getElem_map, List.getElem_range]

end

/-- **C97.** Seeding by array (`mt19937_init_by_array`, `mt64_init_by_array`) with a key as long as the array, which is what the classes
take from the `SeedSequence`: the first word of the array is the constant with the top bit alone, and for every choice of the other words and
every first word of the key there is exactly one key that leads there, whatever was in memory before. So no setting of the array is
missed, none is likelier than another, and each comes from as many keys as there are words. -/
theorem C97_mt_seed :
    (∀ (old F : Nat → U32) (a : U32), ∃! key : List U32, key.length = 624 ∧ key.head? = some a ∧ ∀ i, 1 ≤ i → i < 624 → (mtSeed32 key old).key i = F i) ∧
      ∀ (old F : Nat → U64) (a : U64), ∃! key : List U64, key.length = 312 ∧ key.head? = some a ∧ ∀ i, 1 ≤ i → i < 312 → (mtSeed64 key old).key i = F i :=
  ⟨fun old F a => mtInitArray_unique mt32 _ _ _ _ _ old F a, fun old F a => mtInitArray_unique mt64 _ _ _ _ _ old F a⟩

/-! ### Streams -/

open Verif.Linear

theorem card_of_unique {w N : Nat} (hN : 0 < N) (p : List (BitVec w) → Prop) (h : ∀ a, ∃! key : List (BitVec w), key.length = N ∧ key.head? = some a ∧ p key) :
    Nat.card {key : List (BitVec w) // key.length = N ∧ p key} = 2 ^ w := by
  have hb : Function.Bijective (fun k : {key : List (BitVec w) // key.length = N ∧ p key} => k.1.headD 0) := by
    have hd : ∀ key : List (BitVec w), key.length = N → key.head? = some (key.headD 0) := by
      intro key hl
      rcases key with _ | ⟨x, key⟩
      · simp only [List.length_nil] at hl; omega
      · rfl
    constructor
    · rintro ⟨k, hk1, hk2⟩ ⟨l, hl1, hl2⟩ e
      obtain ⟨_, _, u⟩ := h (k.headD 0)
      have e1 := u k ⟨hk1, hd k hk1, hk2⟩
      have e2 := u l ⟨hl1, by rw [hd l hl1]; exact congrArg some e.symm, hl2⟩
      exact Subtype.ext (e1.trans e2.symm)
    · intro a
      obtain ⟨k, ⟨h1, h2, h3⟩, _⟩ := h a
      refine ⟨⟨k, h1, h3⟩, ?_⟩
      have := (hd k h1).symm.trans h2
      exact Option.some.inj this
  rw [Nat.card_congr (Equiv.ofBijective _ hb), Nat.card_congr (BitVec.equivFin (m := w)).toEquiv, Nat.card_eq_fintype_card, Fintype.card_fin]

/-- A sequence that is periodic from 1 on is known from any later terms. -/
theorem back_to_one {α : Type} {x y : Nat → α} {L N : Nat} (hL : N ≤ L) (hx : ∀ k, x (1 + (k + L)) = x (1 + k)) (hy : ∀ k, y (1 + (k + L)) = y (1 + k))
    (h : ∀ n, x (N + n) = y (N + n)) (i : Nat) (hi : 1 ≤ i) : x i = y i := by
  have e1 := hx (i - 1)
  have e2 := hy (i - 1)
  rw [show 1 + (i - 1) = i by omega] at e1 e2
  rw [← e1, ← e2, show 1 + (i - 1 + L) = N + (i + L - N) by omega, h]

/-- **C97.** Two seeds give MT19937 the same stream exactly when they give the same words from the second on. -/
theorem C97_mt19937_streams (k l : List U32) (ok ol : Nat → U32) :
    (∀ n, nthO mtNext32 n (mtSeed32 k ok) = nthO mtNext32 n (mtSeed32 l ol)) ↔ ∀ i, 1 ≤ i → i < 624 → (mtSeed32 k ok).key i = (mtSeed32 l ol).key i := by
  obtain ⟨k1, k2, _⟩ := C37_mt19937_top k ok
  obtain ⟨l1, l2, _⟩ := C37_mt19937_top l ol
  constructor
  · intro h i hi hi2
    obtain ⟨x, hx, xk, xo⟩ := mt32_terms (mtSeed32 k ok) (by rw [k2]; decide) (by rw [k2]) (Or.inl (by rw [k1]; rfl))
    obtain ⟨y, hy, yk, yo⟩ := mt32_terms (mtSeed32 l ol) (by rw [l2]; decide) (by rw [l2]) (Or.inl (by rw [l1]; rfl))
    rw [← xk i hi2, ← yk i hi2]
    refine back_to_one (L := 2 ^ 19937 - 1) (N := 624) (by decide +kernel)
      ((mt_terms_period mt32Phi_step (inj_of_ann PV.add_self mt32T mt32_ann.1 (by decide +kernel)) mt32_period x hx 1 (le_refl 1) _).2 dvd_rfl)
      ((mt_terms_period mt32Phi_step (inj_of_ann PV.add_self mt32T mt32_ann.1 (by decide +kernel)) mt32_period y hy 1 (le_refl 1) _).2 dvd_rfl) (fun n => ?_) i hi
    have := h n
    rw [xo, yo, k2, l2] at this
    exact C64_temper32 (Option.some.inj this)
  · intro h n
    refine mt32_draws _ _ (k2.trans l2.symm) (by rw [k2]; decide) (by rw [k2]) (fun i hi => ?_) n
    rcases Nat.eq_zero_or_pos i with rfl | h0
    · rw [k1, l1]
    · exact h i h0 hi

/-- **C97.** The same for MT64. -/
theorem C97_mt64_streams (k l : List U64) (ok ol : Nat → U64) :
    (∀ n, nthO mtNext64 n (mtSeed64 k ok) = nthO mtNext64 n (mtSeed64 l ol)) ↔ ∀ i, 1 ≤ i → i < 312 → (mtSeed64 k ok).key i = (mtSeed64 l ol).key i := by
  obtain ⟨k1, k2⟩ := C37_mt64_top k ok
  obtain ⟨l1, l2⟩ := C37_mt64_top l ol
  constructor
  · intro h i hi hi2
    obtain ⟨x, hx, xk, xo⟩ := mt64_terms (mtSeed64 k ok) (by rw [k2]; decide) (by rw [k2]) (Or.inl (by rw [k1]; decide))
    obtain ⟨y, hy, yk, yo⟩ := mt64_terms (mtSeed64 l ol) (by rw [l2]; decide) (by rw [l2]) (Or.inl (by rw [l1]; decide))
    rw [← xk i hi2, ← yk i hi2]
    refine back_to_one (L := 2 ^ 19937 - 1) (N := 312) (by decide +kernel)
      ((mt_terms_period mt64Phi_step (inj_of_ann PV.add_self mt64T mt64_ann.1 (by decide +kernel)) mt64_period x hx 1 (le_refl 1) _).2 dvd_rfl)
      ((mt_terms_period mt64Phi_step (inj_of_ann PV.add_self mt64T mt64_ann.1 (by decide +kernel)) mt64_period y hy 1 (le_refl 1) _).2 dvd_rfl) (fun n => ?_) i hi
    have := h n
    rw [xo, yo, k2, l2] at this
    exact C64_temper64 (Option.some.inj this)
  · intro h n
    refine mt64_draws _ _ (k2.trans l2.symm) (by rw [k2]; decide) (by rw [k2]) (fun i hi => ?_) n
    rcases Nat.eq_zero_or_pos i with rfl | h0
    · rw [k1, l1]
    · exact h i h0 hi

/-- **C97.** Of the keys that the classes take from the `SeedSequence`, exactly `2^32` (`2^64` for MT64) give the stream of a given seed, of
whatever length that seed is: the `2^19968` keys lead to `2^19936` (`2^19904`) streams, all equally likely. -/
theorem C97_mt_keys :
    (∀ (l : List U32) (old ol : Nat → U32),
      Nat.card {key : List U32 // key.length = 624 ∧ ∀ n, nthO mtNext32 n (mtSeed32 key old) = nthO mtNext32 n (mtSeed32 l ol)} = 2 ^ 32) ∧
      ∀ (l : List U64) (old ol : Nat → U64),
        Nat.card {key : List U64 // key.length = 312 ∧ ∀ n, nthO mtNext64 n (mtSeed64 key old) = nthO mtNext64 n (mtSeed64 l ol)} = 2 ^ 64 := by
  constructor
  · intro l old ol
    refine card_of_unique (by decide) _ fun a => ?_
    simp only [C97_mt19937_streams]
    exact C97_mt_seed.1 old (mtSeed32 l ol).key a
  · intro l old ol
    refine card_of_unique (by decide) _ fun a => ?_
    simp only [C97_mt64_streams]
    exact C97_mt_seed.2 old (mtSeed64 l ol).key a

/-- A key that seeds every word but the first with zero. -/
example : ∃ key : List U32, key.length = 624 ∧ ∀ i, 1 ≤ i → i < 624 → (mtSeed32 key fun _ => 0).key i = 0 :=
  have ⟨key, ⟨h1, _, h3⟩, _⟩ := C97_mt_seed.1 (fun _ => 0) (fun _ => 0) 0
  ⟨key, h1, h3⟩

end Verif
