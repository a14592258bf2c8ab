import Verif.Props.Session2
import Verif.Proof.Session3

/-! C95 for SPECK128 and AESCounter. Their streams are the encryptions of successive counters; C95 holds except that moving by a multiple of
the period keeps the unused half of a word. -/

namespace Verif

/-- Moving by `d` words in a stream of period `2^129`. The documentation says that pre-computed numbers are dropped (`keep = false`); the code
does nothing at all if `d` is a multiple of the period (`keep = true`). -/
def skip129 (keep : Bool) (d : Int) (a : Nat × Option U32) : Nat × Option U32 :=
  if keep && d % 2 ^ 129 = 0 then a else skipAt (d % 2 ^ 129).toNat a

/-- Half `n mod 2` of the encryption of counter `c + n / 2`. -/
def cipherWord (enc : Ctr → Ctr) (c : Nat) (n : Nat) : U64 := half (enc (Ctr.ofVal (BitVec.ofNat 128 (c + n / 2)))) n

theorem wordAt_cipherWord (enc : Ctr → Ctr) (c n : Nat) : wordAt enc (dbl (BitVec.ofNat 128 c) + BitVec.ofNat 129 n) = cipherWord enc c n := by
  rw [wordAt, posCtr_dbl, half_dbl, cipherWord, BitVec.ofNat_add]

/-- A generator with a `SpeckAt`/`AesAt` invariant, moved. -/
theorem BufInv.move {κ : Type} {A : κ → BitVec 129 → Prop} {p : BitVec 129} {a : Nat × Option U32} {b b' : Buf κ} (d : Int)
    (h : BufInv (fun c n => A c (p + BitVec.ofNat 129 n)) a b)
    (hc : A b'.core (p + BitVec.ofNat 129 a.1 + BitVec.ofNat 129 (d % 2 ^ 129).toNat)) (hd : d % 2 ^ 129 ≠ 0 → b'.has = false)
    (hz : d % 2 ^ 129 = 0 → b'.has = b.has ∧ b'.uinteger = b.uinteger) :
    BufInv (fun c n => A c (p + BitVec.ofNat 129 n)) (skip129 true d a) b' := by
  rw [skip129]
  by_cases h0 : d % 2 ^ 129 = 0
  · simp only [h0, decide_true, Bool.and_self, if_true]
    rw [h0] at hc
    refine ⟨by simpa using hc, (hz h0).1.trans h.2.1, fun v hv => (hz h0).2.trans (h.2.2 v hv)⟩
  · simp only [h0, decide_false, Bool.and_false, Bool.false_eq_true, if_false]
    refine BufInv.start ?_ (hd h0)
    rw [BitVec.ofNat_add, ← add_assoc]
    exact hc

/-! ### SPECK128 -/

/-- The round keys of a key, and the encryption with `r` rounds. -/
def speckOrgKeys (gen : Nat → U64) (i : Nat) : U64 := (speckExpandKey (gen 0) (gen 1) (gen 2) (gen 3)).getD i 0

/-- The words of SPECK128. -/
def speckWord (o : Int × (Nat → U64) × Option Int) : Nat → U64 :=
  cipherWord (speckEnc (speckOrgKeys o.2.1) o.1.toNat) (o.2.2.getD 0).toNat

/-- The promise for SPECK128: between 1 and 34 rounds, a counter in `[0, 2^128)`; anything else is refused. `seed` keeps the number of rounds,
a restored state brings its own. -/
def speckSpec (keep : Bool) : SSpec Int ((Nat → U64) × Option Int) (Int × (Nat → U64) × Option Int) where
  start r sd := if (1 ≤ r ∧ r ≤ 34) ∧ ∀ i ∈ sd.2, 0 ≤ i ∧ i < 2 ^ 128 then .ok (r, sd) else .err .valueError
  restart _ o _ sd := if ∀ i ∈ sd.2, 0 ≤ i ∧ i < 2 ^ 128 then .ok (o.1, sd) else .err .valueError
  draw o := draw64At (speckWord o)
  jump := some fun n => some (skip129 keep (n * 2 ^ 64))
  jumped := some fun n => some (skip129 keep (n * 2 ^ 64))
  advance := some (skip129 keep)

/-- The instance is at place `a`. -/
def SpeckR (o : Int × (Nat → U64) × Option Int) (a : Nat × Option U32) (s : SpeckI) : Prop :=
  (1 ≤ o.1 ∧ o.1 ≤ 34) ∧
    BufInv (fun c n => SpeckAt (speckOrgKeys o.2.1) o.1 c (dbl (BitVec.ofNat 128 (o.2.2.getD 0).toNat) + BitVec.ofNat 129 n)) a (speckBuf s)

theorem speckExpandKey_length (a b c d : U64) : (speckExpandKey a b c d).length = 34 := by
  simp [speckExpandKey, speckKeyLoop]

theorem speckOrgKeys_zero (gen : Nat → U64) (i : Nat) (h : 34 ≤ i) : speckOrgKeys gen i = 0 := by
  rw [speckOrgKeys, List.getD_eq_getElem?_getD, List.getElem?_eq_none (by rw [speckExpandKey_length]; exact h)]
  rfl

theorem speck_putR {o : Int × (Nat → U64) × Option Int} {a : Nat × Option U32} (ho : 1 ≤ o.1 ∧ o.1 ≤ 34) (c : Speck)
    (h : BufInv (fun c n => SpeckAt (speckOrgKeys o.2.1) o.1 c (dbl (BitVec.ofNat 128 (o.2.2.getD 0).toNat) + BitVec.ofNat 129 n)) a ⟨c, c.has, c.uinteger⟩) :
    SpeckR o a (speckPut c) := by
  refine ⟨ho, speck_put_at h.1 ⟨by omega, ho.2⟩ (speckOrgKeys_zero _), ?_, h.2.2⟩
  show (halfI c.has != 0) = _
  rw [← h.2.1]
  exact halfI_ne _

theorem speck_seeded (r : Int) (hr : 1 ≤ r ∧ r ≤ 34) (sd : (Nat → U64) × Option Int) (s : Speck) (hs : s.rounds = r) :
    MadeRel (fun o s => SpeckR o (0, none) s) (if ∀ i ∈ sd.2, 0 ≤ i ∧ i < 2 ^ 128 then Made.ok (r, sd) else .err .valueError) (speckReseed sd s) := by
  rw [speckReseed, counter128_eq]
  by_cases h : ∀ i ∈ sd.2, 0 ≤ i ∧ i < 2 ^ 128
  · rw [if_pos h, if_pos h]
    refine speck_putR hr _ (BufInv.start ?_ rfl)
    have h2 := speckSeed_at s (sd.1 0) (sd.1 1) (sd.1 2) (sd.1 3)
      ⟨BitVec.ofNat 64 ((sd.2.getD 0).toNat % 2 ^ 64), BitVec.ofNat 64 ((sd.2.getD 0).toNat / 2 ^ 64)⟩
    rw [hs] at h2
    have e : Ctr.val ⟨BitVec.ofNat 64 ((sd.2.getD 0).toNat % 2 ^ 64), BitVec.ofNat 64 ((sd.2.getD 0).toNat / 2 ^ 64)⟩ =
        BitVec.ofNat 128 (sd.2.getD 0).toNat := by
      generalize (sd.2.getD 0).toNat = c
      apply BitVec.eq_of_toNat_eq
      simp only [Ctr.val, BitVec.toNat_ofNat, BitVec.toNat_append]
      rw [Nat.shiftLeft_eq, Nat.mod_mod, Nat.mul_comm, ← Nat.two_pow_add_eq_or_of_lt (Nat.mod_lt _ (by decide))]
      omega
    rw [e] at h2
    show SpeckAt _ _ _ (_ + BitVec.ofNat 129 0)
    rw [BitVec.add_zero]
    exact h2
  · rw [if_neg h, if_neg h]
    rfl

theorem speck_moved {o : Int × (Nat → U64) × Option Int} {a : Nat × Option U32} {s : SpeckI} (h : SpeckR o a s) (d : Int) :
    ∃ s', speckLift (speckPyAdvance (speckView s) d) = .ok s' ∧ SpeckR o (skip129 true d a) s' := by
  obtain ⟨c', h1, h2, h3⟩ := speckPyAdvance_at _ _ (speckView s) _ h.2.1 d
  refine ⟨speckPut c', by rw [h1]; rfl, speck_putR h.1 _ ?_⟩
  refine BufInv.move (A := SpeckAt (speckOrgKeys o.2.1) o.1) (b := speckBuf s) d h.2 h2 h3 fun hz => ?_
  have : c' = speckView s := by
    rw [speckPyAdvance, wrap129, if_pos hz] at h1
    cases h1; rfl
  rw [this]
  exact ⟨rfl, rfl⟩

theorem speck_refines : Refines speckCls (speckSpec true) (fun _ => True) (fun _ o a s => SpeckR o a s) where
  start r sd _ := by
    show MadeRel _ (if _ then _ else _) (speckNew r sd)
    rw [speckNew]
    by_cases hr : 1 ≤ r ∧ r ≤ 34
    · rw [if_neg (show ¬ (r ≤ 0 ∨ r > 34) by omega)]
      have := speck_seeded r hr sd ⟨fun _ => 0, fun _ => ⟨0, 0⟩, fun _ => 0, r, 0, false, 0⟩ rfl
      simpa only [hr, true_and, and_self] using this
    · rw [if_pos (show r ≤ 0 ∨ r > 34 by omega), if_neg (fun h : (1 ≤ r ∧ r ≤ 34) ∧ _ => hr h.1)]
      rfl
  restart _ o a s sd h := speck_seeded o.1 h.1 sd (speckView s) h.2.1.2.1
  draw _ o a s k h := by
    obtain ⟨b', h1, h2⟩ := h.2.draw (nx := speckNext) (w := speckWord o) (fun c n hc => by
      obtain ⟨c', e1, e2⟩ := speckNext_at _ _ _ _ hc
      refine ⟨c', by rw [e1, wordAt_cipherWord]; rfl, ?_⟩
      rw [BitVec.ofNat_add, ← add_assoc]
      exact e2) k
    refine ⟨speckPutBuf s b', ?_, speck_putR h.1 _ h2⟩
    show bufOpO speckNext speckBuf speckPutBuf k s = _
    rw [bufOpO, h1]
    rfl
  load _ o a s _ _ _ t h _ := by
    refine ⟨s, ?_, h⟩
    rw [show speckCls.set = speckSet from rfl, show speckCls.get = speckGet from rfl]
    exact C11_speck128 s t
  inplace f hf := by
    cases hf
    refine ⟨fun n => skip129 true (n * 2 ^ 64), fun _ o a s n h => ?_, rfl, rfl⟩
    exact speck_moved h (n * 2 ^ 64)
  noInplace h := by cases h
  clone c f hc _ o a s sd _ _ := by
    cases hc
    have := speck_seeded 34 (by decide) (sd.1, none) ⟨fun _ => 0, fun _ => ⟨0, 0⟩, fun _ => 0, 34, 0, false, 0⟩ rfl
    rw [if_pos (fun i hi => by cases hi)] at this
    refine ⟨_, rfl, _, _, this⟩
  advance := by
    refine Or.inl ⟨_, _, rfl, rfl, fun _ o a s d h => ?_⟩
    exact speck_moved h d

/-- C95 for SPECK128 as the code has it. What is missing: the promise that `advance` and `jump` always drop the unused half of a word
(`not_C95_speck128`). -/
theorem C95_speck128_partial (os : List (SOp Int ((Nat → U64) × Option Int))) : speckCls.program os = (speckSpec true).program os :=
  speck_refines.program_all os

/-- C95 fails for SPECK128: `advance(0)` and `jump(0)` do not reset pre-computed numbers, although the documentation says so. -/
theorem not_C95_speck128 : ¬ ∀ os, speckCls.program os = (speckSpec false).program os := by
  intro h
  have h1 := h [.new 1 (fun i => BitVec.ofNat 64 i, some 5), .draw 0 .u32, .advance 0 0, .draw 0 .u32]
  rw [C95_speck128_partial] at h1
  exact absurd h1 (by decide +kernel)

/-! ### AESCounter -/

/-- The words of AESCounter. -/
def aesWord (o : (Nat → U64) × Option Int) : Nat → U64 := cipherWord (aesEnc (aesExpandKey (o.1 0) (o.1 1))) (o.2.getD 0).toNat

/-- The promise for AESCounter. -/
def aesSpec (keep : Bool) : SSpec Unit ((Nat → U64) × Option Int) ((Nat → U64) × Option Int) where
  start _ sd := if ∀ i ∈ sd.2, 0 ≤ i ∧ i < 2 ^ 128 then .ok sd else .err .valueError
  restart _ _ _ sd := if ∀ i ∈ sd.2, 0 ≤ i ∧ i < 2 ^ 128 then .ok sd else .err .valueError
  draw o := draw64At (aesWord o)
  jump := some fun n => some (skip129 keep (n * 2 ^ 64))
  jumped := some fun n => some (skip129 keep (n * 2 ^ 64))
  advance := some (skip129 keep)

/-- The instance is at place `a`. -/
def AesR (o : (Nat → U64) × Option Int) (a : Nat × Option U32) (s : AesI) : Prop :=
  BufInv (fun c n => AesAt (aesExpandKey (o.1 0) (o.1 1)) c (dbl (BitVec.ofNat 128 (o.2.getD 0).toNat) + BitVec.ofNat 129 n)) a (aesBuf s)

theorem aesKeyWord_length (l : List Nat) (ws : List (List U8)) : (l.foldl aesKeyWord ws).length = ws.length + l.length := by
  induction l generalizing ws with
  | nil => rfl
  | cons i l ih => rw [List.foldl_cons, ih, aesKeyWord, List.length_append, List.length_cons, List.length_cons, List.length_nil]; omega

theorem aesExpandKey_zero (k0 k1 : U64) (i : Nat) (h : 176 ≤ i) : aesExpandKey k0 k1 i = 0 := by
  simp only [aesExpandKey]
  rw [List.getD_eq_getElem?_getD (i := i / 4), List.getElem?_eq_none (by
    rw [aesKeyWord_length]; simp only [List.length_map, List.length_range, List.length_cons, List.length_nil]; omega)]
  rfl

theorem aes_putR {o : (Nat → U64) × Option Int} {a : Nat × Option U32} (c : Aes)
    (h : BufInv (fun c n => AesAt (aesExpandKey (o.1 0) (o.1 1)) c (dbl (BitVec.ofNat 128 (o.2.getD 0).toNat) + BitVec.ofNat 129 n)) a ⟨c, c.has, c.uinteger⟩) :
    AesR o a (aesPut c) := by
  refine ⟨aes_put_at h.1 (aesExpandKey_zero _ _), ?_, h.2.2⟩
  show (halfI c.has != 0) = _
  rw [← h.2.1]
  exact halfI_ne _

theorem aes_seeded (sd : (Nat → U64) × Option Int) (s : Aes) :
    MadeRel (fun o s => AesR o (0, none) s) (if ∀ i ∈ sd.2, 0 ≤ i ∧ i < 2 ^ 128 then Made.ok sd else .err .valueError) (aesReseed sd s) := by
  rw [aesReseed, counter128_eq]
  by_cases h : ∀ i ∈ sd.2, 0 ≤ i ∧ i < 2 ^ 128
  · rw [if_pos h, if_pos h]
    refine aes_putR _ (BufInv.start ?_ rfl)
    have h2 := aesSeed_at s (sd.1 0) (sd.1 1) (sd.2.getD 0).toNat
    generalize aesSeed s (sd.1 0) (sd.1 1) (sd.2.getD 0).toNat = c at h2 ⊢
    simpa using h2
  · rw [if_neg h, if_neg h]
    rfl

theorem aes_moved {o : (Nat → U64) × Option Int} {a : Nat × Option U32} {s : AesI} (h : AesR o a s) (d : Int) :
    ∃ s', aesLift (aesPyAdvance (aesView s) d) = .ok s' ∧ AesR o (skip129 true d a) s' := by
  obtain ⟨c', h1, h2, h3⟩ := aesPyAdvance_at _ (aesView s) _ h.1 d
  refine ⟨aesPut c', by rw [h1]; rfl, aes_putR _ ?_⟩
  refine BufInv.move (A := AesAt (aesExpandKey (o.1 0) (o.1 1))) (b := aesBuf s) d h h2 h3 fun hz => ?_
  have : c' = aesView s := by
    rw [aesPyAdvance, wrap129, if_pos hz] at h1
    cases h1; rfl
  rw [this]
  exact ⟨rfl, rfl⟩

theorem aes_refines : Refines aesCls (aesSpec true) (fun _ => True) (fun _ o a s => AesR o a s) where
  start _ sd _ := aes_seeded sd _
  restart _ o a s sd h := aes_seeded sd (aesView s)
  draw _ o a s k h := by
    obtain ⟨b', h1, h2⟩ := BufInv.draw (nx := aesNext) (w := aesWord o) (fun c n hc => by
      obtain ⟨c', e1, e2⟩ := aesNext_at _ _ _ hc
      refine ⟨c', by rw [e1, wordAt_cipherWord]; rfl, ?_⟩
      rw [BitVec.ofNat_add, ← add_assoc]
      exact e2) h k
    refine ⟨aesPutBuf s b', ?_, aes_putR _ h2⟩
    show bufOpO aesNext aesBuf aesPutBuf k s = _
    rw [bufOpO, h1]
    rfl
  load _ o a s _ _ _ t h _ := by
    refine ⟨s, ?_, h⟩
    rw [show aesCls.set = aesSet from rfl, show aesCls.get = aesGet from rfl]
    exact C11_aesctr s t
  inplace f hf := by
    cases hf
    refine ⟨fun n => skip129 true (n * 2 ^ 64), fun _ o a s n h => ?_, rfl, rfl⟩
    exact aes_moved h (n * 2 ^ 64)
  noInplace h := by cases h
  clone c f hc _ o a s sd _ _ := by
    cases hc
    have := aes_seeded (sd.1, none) ⟨fun _ => ⟨0, 0⟩, fun _ => 0, fun _ => 0, 0, false, 0⟩
    rw [if_pos (fun i hi => by cases hi)] at this
    show ∃ t, aesNew (sd.1, none) = .ok t ∧ _
    rw [aesNew]
    generalize aesReseed (sd.1, none) _ = r at this ⊢
    cases r with
    | ok t => exact ⟨t, rfl, _, _, this⟩
    | err e => exact this.elim
    | hang => exact this.elim
    | ub => exact this.elim
  advance := by
    refine Or.inl ⟨_, _, rfl, rfl, fun _ o a s d h => ?_⟩
    exact aes_moved h d

/-- C95 for AESCounter as the code has it. What is missing: the promise that `advance` and `jump` always drop the unused half of a word
(`not_C95_aesctr`). -/
theorem C95_aesctr_partial (os : List (SOp Unit ((Nat → U64) × Option Int))) : aesCls.program os = (aesSpec true).program os :=
  aes_refines.program_all os

/-- C95 fails for AESCounter: `advance(0)` and `jump(0)` do not reset pre-computed numbers, although the documentation says so. -/
theorem not_C95_aesctr : ¬ ∀ os, aesCls.program os = (aesSpec false).program os := by
  intro h
  have h1 := h [.new () (fun i => BitVec.ofNat 64 i, some 5), .draw 0 .u32, .jump 0 0, .draw 0 .u32]
  rw [C95_aesctr_partial] at h1
  exact absurd h1 (by decide +kernel)

/-- Moving by something else does drop the half: both promises agree on programs that never move by a multiple of the period. -/
example (d : Int) (h : d % 2 ^ 129 ≠ 0) (a : Nat × Option U32) : skip129 true d a = skip129 false d a := by
  simp only [skip129, h, decide_false, Bool.and_false]

/-- A program: a refused counter, two generators at different places of the same stream. -/
example : speckCls.program [.new 35 (fun _ => 0, none), .new 34 (fun i => BitVec.ofNat 64 i, some (2 ^ 128 - 1)), .seed 0 (fun _ => 0, some (2 ^ 128)),
    .jumped 0 (-1), .advance 1 (2 ^ 64), .draw 0 .u64, .draw 1 .u64, .advance 0 (2 ^ 129), .draw 0 .u32, .draw 1 .u32] =
    [.err .valueError, .done, .err .valueError, .done, .done, .val (.o64 0xcec83a7395052f12), .val (.o64 0xcec83a7395052f12), .done, .val (.o32 0x81cb4d27),
    .val (.o32 0x81cb4d27)] := by
  rw [C95_speck128_partial]
  decide +kernel

end Verif
