import Verif.Props.Session
import Verif.Props.Reseed
import Verif.Proof.Session2

/-! C95 for further classes: programs of calls agree with places in streams. -/

namespace Verif

/-! ### EFIIX64 -/

/-- The promise for EFIIX64. -/
def efiixSpec : SSpec Unit (Nat → U64) (Nat → U64) where
  start _ gen := .ok gen
  restart _ _ _ gen := .ok gen
  draw gen := draw64At fun n => nthDraw efiixNext n (efiixSeed ⟨fun _ => 0, fun _ => 0, 0, 0, 0, 0⟩ (gen 0) (gen 1) (gen 2) (gen 3))
  jump := none
  jumped := none
  advance := none

theorem efiix_view_put (s : EfiixI) (b : Buf Efiix) : efiixView (efiixPut s b) = b := by
  obtain ⟨⟨i1, i2, i, a, bb, c⟩, h, u⟩ := b
  simp [efiixView, efiixPut, halfI_ne]

theorem efiix_seeded (gen : Nat → U64) (s : EfiixI) : efiixView (efiixReseed gen s) =
    ⟨efiixSeed ⟨fun _ => 0, fun _ => 0, 0, 0, 0, 0⟩ (gen 0) (gen 1) (gen 2) (gen 3), false, 0⟩ := by
  rw [efiixReseed, efiixSeed_indep _ ⟨fun _ => 0, fun _ => 0, 0, 0, 0, 0⟩]
  generalize efiixSeed _ _ _ _ _ = r
  obtain ⟨i1, i2, i, a, bb, c⟩ := r
  simp [efiixView]

theorem efiix_refines : Refines efiixCls efiixSpec (fun _ => True)
    (fun _ o a s => BufAt efiixNext (efiixSeed ⟨fun _ => 0, fun _ => 0, 0, 0, 0, 0⟩ (o 0) (o 1) (o 2) (o 3)) a (efiixView s)) where
  start _ gen _ := by
    refine BufAt.start _ _ _ ?_ ?_ <;> rw [efiix_seeded]
  restart _ o a s gen _ := by
    refine BufAt.start _ _ _ ?_ ?_ <;> rw [efiix_seeded]
  draw _ o a s k h := by
    refine ⟨_, congrArg some (Prod.ext (h.draw k).1 rfl), ?_⟩
    rw [efiix_view_put]
    exact (h.draw k).2
  load _ o a s _ _ _ t h _ := by
    refine ⟨s, ?_, h⟩
    rw [show efiixCls.set = efiixSet from rfl, show efiixCls.get = efiixGet from rfl]
    exact C11_efiix64 s t
  inplace f hf := by simp [efiixCls] at hf
  noInplace _ := ⟨rfl, rfl⟩
  clone c f hc := by simp [efiixCls] at hc
  advance := Or.inr ⟨rfl, rfl⟩

/-- C95 for EFIIX64. -/
theorem C95_efiix64 (os : List (SOp Unit (Nat → U64))) : efiixCls.program os = efiixSpec.program os :=
  efiix_refines.program_all os

/-! ### 32-bit generators -/

/-- A state of a 32-bit generator is at place `a` of the stream that starts in `k`; there is no cached half. -/
def At32 {κ : Type} (nx : κ → U32 × κ) (k : κ) (a : Nat × Option U32) (c : κ) : Prop := c = (stepOf nx)^[a.1] k ∧ a.2 = none

theorem At32.draw {κ : Type} {nx : κ → U32 × κ} {k : κ} {a : Nat × Option U32} {c : κ} (h : At32 nx k a c) (b : Bool) :
    (Out.o32 (nx c).1 = (draw32At b (fun n => nthDraw nx n k) .u32 a).1 ∧ At32 nx k (draw32At b (fun n => nthDraw nx n k) .u32 a).2 (nx c).2) ∧
    (Out.o64 (twoCalls nx b c).1 = (draw32At b (fun n => nthDraw nx n k) .u64 a).1 ∧
      At32 nx k (draw32At b (fun n => nthDraw nx n k) .u64 a).2 (twoCalls nx b c).2) ∧
    (Out.odbl (Doubles.dblCalls nx c).1 = (draw32At b (fun n => nthDraw nx n k) .dbl a).1 ∧
      At32 nx k (draw32At b (fun n => nthDraw nx n k) .dbl a).2 (Doubles.dblCalls nx c).2) := by
  obtain ⟨n, half⟩ := a
  obtain ⟨h, rfl⟩ : _ ∧ half = none := h
  dsimp only at h
  have h1 : (nx c).2 = (stepOf nx)^[n + 1] k := by rw [h, Function.iterate_succ_apply']; rfl
  have h2 : (nx (nx c).2).2 = (stepOf nx)^[n + 2] k := by rw [h1, Function.iterate_succ_apply' _ (n + 1)]; rfl
  have v0 : (nx c).1 = nthDraw nx n k := by rw [h]; rfl
  have v1 : (nx (nx c).2).1 = nthDraw nx (n + 1) k := by rw [h1]; rfl
  refine ⟨⟨congrArg Out.o32 v0, h1, rfl⟩, ⟨?_, ?_, rfl⟩, ?_, h2, rfl⟩
  · simp only [twoCalls, draw32At, v0, v1]
    cases b <;> simp only [Bool.false_eq_true, if_false, if_true, join_toNat]
  · cases b <;> exact h2
  · simp only [Doubles.dblCalls, Doubles.dbl32, draw32At, v0, v1, BitVec.toNat_ushiftRight, Nat.shiftRight_eq_div_pow]

/-! ### Tyche -/

/-- The word function of a variant. -/
def tycheNx (original : Bool) : Tyche → U32 × Tyche := if original then tycheNext else tycheOpenNext

/-- The seeded state: the first two words are the seed, the number of the stream is the third word or given. -/
def tycheOrg (o : Bool × (Nat → U32) × Option Int) : Tyche :=
  tycheSeed o.1 (BitVec.ofNat 64 ((o.2.1 1).toNat * 2 ^ 32 + (o.2.1 0).toNat)) (match o.2.2 with | none => o.2.1 2 | some i => BitVec.ofInt 32 i)

/-- The promise for Tyche: a stream number outside `[0, 2^32)` is refused and the generator stays where it is; the variant comes with the
stream. -/
def tycheSpec (hiFirst : Bool) : SSpec Bool ((Nat → U32) × Option Int) (Bool × (Nat → U32) × Option Int) where
  start p sd := if ∀ i ∈ sd.2, 0 ≤ i ∧ i < 2 ^ 32 then .ok (p, sd) else .err .valueError
  restart _ o _ sd := if ∀ i ∈ sd.2, 0 ≤ i ∧ i < 2 ^ 32 then .ok (o.1, sd) else .err .valueError
  draw o := draw32At hiFirst fun n => nthDraw (tycheNx o.1) n (tycheOrg o)
  jump := none
  jumped := none
  advance := none

/-- The instance is consistent and at place `a`. -/
def TycheAt (o : Bool × (Nat → U32) × Option Int) (a : Nat × Option U32) (s : TycheI) : Prop :=
  s.original = o.1 ∧ s.actOriginal = o.1 ∧ At32 (tycheNx o.1) (tycheOrg o) a (tycheView s)

theorem tyche_seeded (p : Bool) (sd : (Nat → U32) × Option Int) (s : TycheI) (h1 : s.original = p) (h2 : s.actOriginal = p) :
    MadeRel (fun o s => TycheAt o (0, none) s) (if ∀ i ∈ sd.2, 0 ≤ i ∧ i < 2 ^ 32 then Made.ok (p, sd) else .err .valueError)
      (madeOfExcept (tycheReseed sd.1 sd.2 s)) := by
  obtain ⟨gen, idx⟩ := sd
  have hj : join32 (gen 1) (gen 0) = BitVec.ofNat 64 ((gen 1).toNat * 2 ^ 32 + (gen 0).toNat) := by
    rw [← join_toNat]; rfl
  cases idx with
  | none =>
    rw [if_pos (fun i hi => by cases hi)]
    refine ⟨h1, h2, ?_, rfl⟩
    simp only [tycheView, h1, hj, tycheOrg, Function.iterate_zero, id]
  | some i =>
    by_cases hi : 0 ≤ i ∧ i < 2 ^ 32
    · rw [if_pos (fun j hj => by obtain rfl := Option.some.inj hj; exact hi), tycheReseed]
      simp only [show (0 ≤ i ∧ i ≤ 2 ^ 32 - 1) from ⟨hi.1, by omega⟩, and_self, if_true, madeOfExcept]
      refine ⟨h1, h2, ?_, rfl⟩
      simp only [tycheView, h1, hj, tycheOrg, Function.iterate_zero, id]
    · rw [if_neg (fun h => hi (h i rfl)), tycheReseed]
      simp only [show ¬ (0 ≤ i ∧ i ≤ 2 ^ 32 - 1) from fun h => hi ⟨h.1, by omega⟩, if_false, madeOfExcept, MadeRel]

theorem tyche_refines (b : Bool) : Refines (tycheCls b) (tycheSpec b) (fun _ => True) (fun _ o a s => TycheAt o a s) where
  start p sd _ := tyche_seeded p sd ⟨0, 0, 0, 0, p, p⟩ rfl rfl
  restart _ o a s sd h := tyche_seeded o.1 sd s h.1 h.2.1
  draw _ o a s k h := by
    obtain ⟨h1, h2, h3⟩ := h
    obtain ⟨d32, d64, dd⟩ := h3.draw b
    have e : (if s.actOriginal then tycheNext else tycheOpenNext) = tycheNx o.1 := by rw [h2, tycheNx]
    show ∃ s', tycheOp b k s = _ ∧ _
    cases k with
    | u32 =>
      simp only [tycheOp, e]
      exact ⟨_, congrArg some (Prod.ext d32.1 rfl), h1, h2, d32.2⟩
    | u64 =>
      simp only [tycheOp, e]
      exact ⟨_, congrArg some (Prod.ext d64.1 rfl), h1, h2, d64.2⟩
    | dbl =>
      rw [tycheOp, e]
      have d1 := dd.1
      have d2 := dd.2
      generalize Doubles.dblCalls (tycheNx o.1) (tycheView s) = r at d1 d2 ⊢
      exact ⟨_, congrArg some (Prod.ext d1 rfl), h1, h2, d2⟩
  load _ o a s _ _ _ t h _ := by
    refine ⟨s, ?_, h⟩
    rw [show (tycheCls b).set = tycheSet from rfl, show (tycheCls b).get = tycheGet from rfl]
    have hk : TycheOk s := h.2.1.trans h.1.symm
    rw [C11_tyche s t hk]
  inplace f hf := by simp [tycheCls] at hf
  noInplace _ := ⟨rfl, rfl⟩
  clone c f hc := by simp [tycheCls] at hc
  advance := Or.inr ⟨rfl, rfl⟩

/-- C95 for Tyche. -/
theorem C95_tyche (hiFirst : Bool) (os : List (SOp Bool ((Nat → U32) × Option Int))) :
    (tycheCls hiFirst).program os = (tycheSpec hiFirst).program os :=
  (tyche_refines hiFirst).program_all os

/-! ### MT64 -/

/-- The words of MT64 seeded with 312 words (they are all defined: `mt64_words`). -/
def mt64Word (gen : Nat → U64) (n : Nat) : U64 := (nthO mtNext64 n (mtSeed64 ((List.range 312).map gen) fun _ => 0)).getD 0

/-- The promise for MT64. -/
def mt64Spec : SSpec Unit (Nat → U64) (Nat → U64) where
  start _ gen := .ok gen
  restart _ _ _ gen := .ok gen
  draw gen := draw64At (mt64Word gen)
  jump := none
  jumped := none
  advance := none

theorem mt64_seed_pos (key : List U64) (old : Nat → U64) : (mtSeed64 key old).pos = 312 :=
  (mtInitArray_agree mt64 6364136223846793005 3935559000370003845 2862933555777941757 62 ((1 : U64) <<< 63) key old old).2.2

theorem mt64_words (gen : Nat → U64) : StreamO mtNext64 (mt64Word gen) 0 (mtSeed64 ((List.range 312).map gen) fun _ => 0) := fun i => by
  have h := C13_mt64_partial (mtSeed64 ((List.range 312).map gen) fun _ => 0) (by rw [mt64_seed_pos]; decide) i
  rw [Nat.zero_add, mt64Word]
  obtain ⟨v, hv⟩ := Option.isSome_iff_exists.mp h
  rw [hv]; rfl

/-- The instance is at place `a` and its position is inside the array. -/
def Mt64At (o : Nat → U64) (a : Nat × Option U32) (s : Mt64I) : Prop :=
  BufAtO mtNext64 (mt64Word o) a (mt64View s) ∧ 0 ≤ s.mti.toInt ∧ s.mti.toInt ≤ 312

theorem ofInt_pos (p : Int) (h0 : 0 ≤ p) (h1 : p ≤ 312) : (BitVec.ofInt 32 p).toInt = p := by
  rw [BitVec.toInt_ofInt, Int.bmod_def]
  omega

theorem mt64Put_at {o : Nat → U64} {a : Nat × Option U32} (s : Mt64I) (b : Buf (Mt 64)) (h : BufAtO mtNext64 (mt64Word o) a b)
    (h0 : 0 ≤ b.core.pos) (h1 : b.core.pos ≤ 312) : Mt64At o a (mt64Put s b) := by
  have e : ((mt64Put s b).mti).toInt = b.core.pos := ofInt_pos _ h0 h1
  refine ⟨⟨h.1.of_eq (mt64_draws _ _ e (e.trans_ge h0) (e.trans_le h1) fun i hi => ?_), ?_, h.2.2⟩, e.trans_ge h0, e.trans_le h1⟩
  · simp [mt64View, mt64Put, hi]
  · show (halfI b.has != 0) = _
    rw [← h.2.1]
    cases b.has <;> decide

theorem mt64_next_pos {c c' : Mt 64} {v : U64} (h : mtNext64 c = some (v, c')) : 0 ≤ c'.pos ∧ c'.pos ≤ 312 := by
  rw [mtNext64] at h
  generalize (if (mt64.N : Int) ≤ c.pos then _ else c : Mt 64) = d at h
  rw [mtRead] at h
  by_cases hp : 0 ≤ d.pos ∧ d.pos < mt64.N
  · rw [if_pos hp] at h
    rw [← (Prod.mk.inj (Option.some.inj h)).2]
    change 0 ≤ d.pos + 1 ∧ d.pos + 1 ≤ (312 : Int)
    have : (mt64.N : Int) = 312 := rfl
    omega
  · rw [if_neg hp] at h; cases h

theorem mt64_seeded (gen : Nat → U64) (s : Mt64I) : Mt64At gen (0, none) (mt64Reseed gen s) := by
  refine mt64Put_at s _ (BufAtO.start ?_ rfl) ?_ ?_
  · exact (mt64_words gen).of_eq (C14_mt64 _ _ _).1
  · exact (mt64_seed_pos _ _).symm ▸ (by decide : (0 : Int) ≤ 312)
  · exact le_of_eq (mt64_seed_pos _ _)

theorem mt64_refines : Refines mt64Cls mt64Spec (fun _ => True) (fun _ o a s => Mt64At o a s) where
  start _ gen _ := mt64_seeded gen _
  restart _ _ _ _ gen _ := mt64_seeded gen _
  draw _ o a s k h := by
    obtain ⟨b', h1, h2, h3⟩ := h.1.draw k
    refine ⟨mt64Put s b', ?_, ?_⟩
    · show bufOpO mtNext64 mt64View mt64Put k s = _
      rw [bufOpO, h1]
      rfl
    · have : 0 ≤ b'.core.pos ∧ b'.core.pos ≤ 312 := by
        rcases h3 with h3 | ⟨v, h3⟩
        · rw [h3]; exact h.2
        · exact mt64_next_pos h3
      exact mt64Put_at s b' h2 this.1 this.2
  load _ o a s _ _ _ t h _ := by
    refine ⟨s, ?_, h⟩
    rw [show mt64Cls.set = mt64Set from rfl, show mt64Cls.get = mt64Get from rfl]
    exact C11_mt64 s t
  inplace f hf := by simp [mt64Cls] at hf
  noInplace _ := ⟨rfl, rfl⟩
  clone c f hc := by simp [mt64Cls] at hc
  advance := Or.inr ⟨rfl, rfl⟩

/-- C95 for MT64. -/
theorem C95_mt64 (os : List (SOp Unit (Nat → U64))) : mt64Cls.program os = mt64Spec.program os :=
  mt64_refines.program_all os

/-! ### Programs -/

/-- A refused stream number leaves the generator where it was; a restored state brings its variant. -/
example : (tycheCls true).program [.new true (fun i => BitVec.ofNat 32 i, none), .seed 0 (fun _ => 1, some (2 ^ 32)), .save 0,
    .new false (fun _ => 2, some 7), .load 1 0, .draw 0 .u32, .draw 1 .u32, .new true (fun _ => 3, some (-1)), .advance 0 1] =
    [.done, .err .valueError, .done, .done, .done, .val (.o32 0x03c5162c), .val (.o32 0x03c5162c), .err .valueError, .noMethod] := by
  decide +kernel

end Verif
