import Verif.Props.SeedStreams
import Verif.Props.RecipesAdvance

/-! C99 for the generators that encrypt a counter: with one key, different counters give different streams, and the first block already shows it. -/

namespace Verif

/-- Two words of a block determine the counter, as the encryption is a bijection. -/
theorem cipherWord_inj {enc : Ctr → Ctr} (he : Function.Injective enc) {c d : Nat} (hc : c < 2 ^ 128) (hd : d < 2 ^ 128) :
    (∀ n < 2, cipherWord enc c n = cipherWord enc d n) ↔ c = d := by
  constructor
  · intro h
    have h0 := h 0 (by decide)
    have h1 := h 1 (by decide)
    have e : enc (Ctr.ofVal (BitVec.ofNat 128 c)) = enc (Ctr.ofVal (BitVec.ofNat 128 d)) := by
      have e0 : (enc (Ctr.ofVal (BitVec.ofNat 128 c))).lo = (enc (Ctr.ofVal (BitVec.ofNat 128 d))).lo := h0
      have e1 : (enc (Ctr.ofVal (BitVec.ofNat 128 c))).hi = (enc (Ctr.ofVal (BitVec.ofNat 128 d))).hi := h1
      cases h2 : enc (Ctr.ofVal (BitVec.ofNat 128 c))
      cases h3 : enc (Ctr.ofVal (BitVec.ofNat 128 d))
      rw [h2, h3] at e0 e1
      exact congrArg₂ Ctr.mk e0 e1
    have e2 := congrArg BitVec.toNat (congrArg Ctr.val (he e))
    rw [Ctr.val_ofVal, Ctr.val_ofVal, BitVec.toNat_ofNat, BitVec.toNat_ofNat, Nat.mod_eq_of_lt hc, Nat.mod_eq_of_lt hd] at e2
    exact e2
  · rintro rfl _ _
    rfl

theorem toNat_iff {i j : Int} (hi : 0 ≤ i) (hj : 0 ≤ j) : i.toNat = j.toNat ↔ i = j := by omega

/-- C99 for the counters of SPECK128, for any number of rounds: two draws determine the counter. -/
theorem C99_speck128_counter (r : Int) (hr : 1 ≤ r ∧ r ≤ 34) (g : Nat → U64) (i j : Int) (hi : 0 ≤ i ∧ i < 2 ^ 128) (hj : 0 ≤ j ∧ j < 2 ^ 128) :
    (∀ n < 2, speckCls.alone r (g, some i) .u64 n = speckCls.alone r (g, some j) .u64 n) ↔ i = j := by
  have hs : ∀ i : Int, 0 ≤ i ∧ i < 2 ^ 128 → (speckSpec true).start r (g, some i) = .ok (r, g, some i) := fun i hi =>
    if_pos ⟨hr, fun k hk => by cases hk; exact hi⟩
  have key := fun n => alone_iff (C := speckCls) (S := speckSpec true) (p := r) (sd := (g, some i)) (sd' := (g, some j)) (op := .u64) o64_inj
    (fun _ _ => C95_speck128_partial _) (hs i hi) (hs j hj) (fun _ => rfl) (fun _ => rfl) n
  simp only [key]
  exact (cipherWord_inj (speckEnc_injective _ _) (by show i.toNat < _; omega) (by show j.toNat < _; omega)).trans (toNat_iff hi.1 hj.1)

/-- C99 for the counters of AESCounter: two draws determine the counter. -/
theorem C99_aesctr_counter (g : Nat → U64) (i j : Int) (hi : 0 ≤ i ∧ i < 2 ^ 128) (hj : 0 ≤ j ∧ j < 2 ^ 128) :
    (∀ n < 2, aesCls.alone () (g, some i) .u64 n = aesCls.alone () (g, some j) .u64 n) ↔ i = j := by
  have hs : ∀ i : Int, 0 ≤ i ∧ i < 2 ^ 128 → (aesSpec true).start () (g, some i) = .ok (g, some i) := fun i hi =>
    if_pos fun k hk => by cases hk; exact hi
  have key := fun n => alone_iff (C := aesCls) (S := aesSpec true) (p := ()) (sd := (g, some i)) (sd' := (g, some j)) (op := .u64) o64_inj
    (fun _ _ => C95_aesctr_partial _) (hs i hi) (hs j hj) (fun _ => rfl) (fun _ => rfl) n
  simp only [key]
  exact (cipherWord_inj (aesEnc_injective _) (by show i.toNat < _; omega) (by show j.toNat < _; omega)).trans (toNat_iff hi.1 hj.1)

/-! ### Philox and ThreeFry -/

/-- The words of a block determine the counter, as the block function is a bijection. -/
theorem ctrStream_inj {N kN w : Nat} {blk : List (BitVec w) → List (BitVec w) → List (BitVec w)} (k : Nat)
    (hb : PermN N fun c => blk c (toWords w kN k)) {c d : Nat} (hc : c < 2 ^ (N * w)) (hd : d < 2 ^ (N * w)) :
    (∀ n < N, ctrStream N kN blk (k, c) n = ctrStream N kN blk (k, d) n) ↔ c = d := by
  constructor
  · intro h
    have e : blk (toWords w N (c + 1)) (toWords w kN k) = blk (toWords w N (d + 1)) (toWords w kN k) := by
      have lc := hb.1 _ (toWords_length w N (c + 1))
      have ld := hb.1 _ (toWords_length w N (d + 1))
      refine List.ext_getElem (lc.trans ld.symm) fun n h1 h2 => ?_
      have hn : n < N := by rw [lc] at h1; exact h1
      have := h n hn
      simp only [ctrStream, Nat.div_eq_of_lt hn, Nat.mod_eq_of_lt hn, Nat.add_zero] at this
      rw [List.getD_eq_getElem?_getD, List.getD_eq_getElem?_getD, List.getElem?_eq_getElem h1, List.getElem?_eq_getElem h2] at this
      exact this
    have e2 := congrArg wval (hb.2 _ _ (toWords_length w N (c + 1)) (toWords_length w N (d + 1)) e)
    rw [wval_toWords, wval_toWords, Nat.mul_comm w N] at e2
    have e3 : c ≡ d [MOD 2 ^ (N * w)] := Nat.ModEq.add_right_cancel' 1 e2
    exact e3.eq_of_lt_of_lt hc hd
  · rintro rfl _ _
    rfl

theorem ctr_started (F : CtrFam) (hiFirst : Bool) {N w : Nat} (hN : N = 2 ∨ N = 4) (hw : w = 32 ∨ w = 64) (sd : CtrSeed) (hsd : CtrSeedOk N w (F.keys N) sd) :
    (ctrSpec F hiFirst true N w).start ⟨N, w, false⟩ sd =
      .ok ((sd.key.map Int.toNat).getD (seqKey (F.keys N * w) sd.words), (sd.counter.map Int.toNat).getD 0) := by
  rw [ctr_start F hiFirst true N w _ sd ⟨show (N : Int) = 2 ∨ (N : Int) = 4 by omega, show (w : Int) = 32 ∨ (w : Int) = 64 by omega⟩, ctrOrg]
  exact if_pos hsd

/-- C99 for the counters of Philox with words of 64 bits: with one key, given or from the seed, the first `N` words determine the counter. -/
theorem C99_philox64_counter (N : Nat) (hN : N = 2 ∨ N = 4) (hiFirst : Bool) (g : Nat → U64) (k : Option Int) (i j : Int)
    (hi : CtrSeedOk N 64 (N / 2) ⟨g, some i, k⟩) (hj : CtrSeedOk N 64 (N / 2) ⟨g, some j, k⟩) :
    (∀ n < N, (ctrCls philoxFam hiFirst true).alone ⟨N, 64, false⟩ ⟨g, some i, k⟩ .u64 n =
      (ctrCls philoxFam hiFirst true).alone ⟨N, 64, false⟩ ⟨g, some j, k⟩ .u64 n) ↔ i = j := by
  have hw : 64 = 32 ∨ 64 = 64 := .inr rfl
  have ha : ArgsOk N 64 ⟨N, 64, false⟩ := ⟨rfl, .inl ⟨rfl, rfl⟩⟩
  have key := fun n => alone_iff o64_inj (fun sd r => C95_philox_counter_partial hN hw hiFirst _ fun q sd' h => by rw [(mem_alone h).1]; exact ha)
    (ctr_started philoxFam hiFirst hN hw ⟨g, some i, k⟩ hi) (ctr_started philoxFam hiFirst hN hw ⟨g, some j, k⟩ hj) (op := .u64) (fun _ => rfl) (fun _ => rfl) n
  have bi := hi.2 i rfl
  have bj := hj.2 j rfl
  refine (forall₂_congr fun n _ => key n).trans ?_
  exact (ctrStream_inj _ (philox_perm ⟨hN, hw⟩ _ (toWords_length _ _ _)) ((Int.toNat_lt bi.1).2 (by exact_mod_cast bi.2))
    ((Int.toNat_lt bj.1).2 (by exact_mod_cast bj.2))).trans (toNat_iff bi.1 bj.1)

/-- C99 for the counters of Philox with words of 32 bits. -/
theorem C99_philox32_counter (N : Nat) (hN : N = 2 ∨ N = 4) (hiFirst : Bool) (g : Nat → U64) (k : Option Int) (i j : Int)
    (hi : CtrSeedOk N 32 (N / 2) ⟨g, some i, k⟩) (hj : CtrSeedOk N 32 (N / 2) ⟨g, some j, k⟩) :
    (∀ n < N, (ctrCls philoxFam hiFirst true).alone ⟨N, 32, false⟩ ⟨g, some i, k⟩ .u32 n =
      (ctrCls philoxFam hiFirst true).alone ⟨N, 32, false⟩ ⟨g, some j, k⟩ .u32 n) ↔ i = j := by
  have hw : 32 = 32 ∨ 32 = 64 := .inl rfl
  have ha : ArgsOk N 32 ⟨N, 32, false⟩ := ⟨rfl, .inl ⟨rfl, rfl⟩⟩
  have key := fun n => alone_iff o32_inj (fun sd r => C95_philox_counter_partial hN hw hiFirst _ fun q sd' h => by rw [(mem_alone h).1]; exact ha)
    (ctr_started philoxFam hiFirst hN hw ⟨g, some i, k⟩ hi) (ctr_started philoxFam hiFirst hN hw ⟨g, some j, k⟩ hj) (op := .u32) (fun _ => rfl) (fun _ => rfl) n
  have bi := hi.2 i rfl
  have bj := hj.2 j rfl
  refine (forall₂_congr fun n _ => key n).trans ?_
  exact (ctrStream_inj _ (philox_perm ⟨hN, hw⟩ _ (toWords_length _ _ _)) ((Int.toNat_lt bi.1).2 (by exact_mod_cast bi.2))
    ((Int.toNat_lt bj.1).2 (by exact_mod_cast bj.2))).trans (toNat_iff bi.1 bj.1)

/-- C99 for the counters of ThreeFry with words of 64 bits. -/
theorem C99_threefry64_counter (N : Nat) (hN : N = 2 ∨ N = 4) (hiFirst : Bool) (g : Nat → U64) (k : Option Int) (i j : Int)
    (hi : CtrSeedOk N 64 N ⟨g, some i, k⟩) (hj : CtrSeedOk N 64 N ⟨g, some j, k⟩) :
    (∀ n < N, (ctrCls threefryFam hiFirst true).alone ⟨N, 64, false⟩ ⟨g, some i, k⟩ .u64 n =
      (ctrCls threefryFam hiFirst true).alone ⟨N, 64, false⟩ ⟨g, some j, k⟩ .u64 n) ↔ i = j := by
  have hw : 64 = 32 ∨ 64 = 64 := .inr rfl
  have ha : ArgsOk N 64 ⟨N, 64, false⟩ := ⟨rfl, .inl ⟨rfl, rfl⟩⟩
  have key := fun n => alone_iff o64_inj (fun sd r => C95_threefry_counter_partial hN hw hiFirst _ fun q sd' h => by rw [(mem_alone h).1]; exact ha)
    (ctr_started threefryFam hiFirst hN hw ⟨g, some i, k⟩ hi) (ctr_started threefryFam hiFirst hN hw ⟨g, some j, k⟩ hj) (op := .u64) (fun _ => rfl) (fun _ => rfl) n
  have bi := hi.2 i rfl
  have bj := hj.2 j rfl
  refine (forall₂_congr fun n _ => key n).trans ?_
  exact (ctrStream_inj _ (threefry_perm ⟨hN, hw⟩ _) ((Int.toNat_lt bi.1).2 (by exact_mod_cast bi.2))
    ((Int.toNat_lt bj.1).2 (by exact_mod_cast bj.2))).trans (toNat_iff bi.1 bj.1)

/-- C99 for the counters of ThreeFry with words of 32 bits. -/
theorem C99_threefry32_counter (N : Nat) (hN : N = 2 ∨ N = 4) (hiFirst : Bool) (g : Nat → U64) (k : Option Int) (i j : Int)
    (hi : CtrSeedOk N 32 N ⟨g, some i, k⟩) (hj : CtrSeedOk N 32 N ⟨g, some j, k⟩) :
    (∀ n < N, (ctrCls threefryFam hiFirst true).alone ⟨N, 32, false⟩ ⟨g, some i, k⟩ .u32 n =
      (ctrCls threefryFam hiFirst true).alone ⟨N, 32, false⟩ ⟨g, some j, k⟩ .u32 n) ↔ i = j := by
  have hw : 32 = 32 ∨ 32 = 64 := .inl rfl
  have ha : ArgsOk N 32 ⟨N, 32, false⟩ := ⟨rfl, .inl ⟨rfl, rfl⟩⟩
  have key := fun n => alone_iff o32_inj (fun sd r => C95_threefry_counter_partial hN hw hiFirst _ fun q sd' h => by rw [(mem_alone h).1]; exact ha)
    (ctr_started threefryFam hiFirst hN hw ⟨g, some i, k⟩ hi) (ctr_started threefryFam hiFirst hN hw ⟨g, some j, k⟩ hj) (op := .u32) (fun _ => rfl) (fun _ => rfl) n
  have bi := hi.2 i rfl
  have bj := hj.2 j rfl
  refine (forall₂_congr fun n _ => key n).trans ?_
  exact (ctrStream_inj _ (threefry_perm ⟨hN, hw⟩ _) ((Int.toNat_lt bi.1).2 (by exact_mod_cast bi.2))
    ((Int.toNat_lt bj.1).2 (by exact_mod_cast bj.2))).trans (toNat_iff bi.1 bj.1)

/-- Counters 5 and 6 of SPECK128 with 34 rounds. -/
example : ∃ n < 2, speckCls.alone 34 (fun i => BitVec.ofNat 64 i, some 5) .u64 n ≠ speckCls.alone 34 (fun i => BitVec.ofNat 64 i, some 6) .u64 n := by
  by_contra h
  push Not at h
  exact absurd ((C99_speck128_counter 34 (by decide) _ 5 6 (by decide) (by decide)).1 h) (by decide)

/-- Counters 0 and `2^128 - 1` of AESCounter. -/
example : ∃ n < 2, aesCls.alone () (fun i => BitVec.ofNat 64 i, some 0) .u64 n ≠ aesCls.alone () (fun i => BitVec.ofNat 64 i, some (2 ^ 128 - 1)) .u64 n := by
  by_contra h
  push Not at h
  exact absurd ((C99_aesctr_counter _ 0 (2 ^ 128 - 1) (by decide) (by decide)).1 h) (by decide)

/-- A key and two counters that Philox and ThreeFry accept, in every variant. -/
example : CtrSeedOk 2 32 1 ⟨fun i => BitVec.ofNat 64 i, some 5, some 7⟩ ∧ CtrSeedOk 4 64 4 ⟨fun i => BitVec.ofNat 64 i, some (2 ^ 256 - 1), some 7⟩ := by
  constructor <;> constructor <;> intro k hk <;> cases hk <;> decide

end Verif
