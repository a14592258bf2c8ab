import Verif.Props.Session8
import Verif.Props.DsfmtPower

/-! C95 for DSFMT: programs of calls agree with places in streams, and where a jump leads. -/

namespace Verif

/-- The doubles of DSFMT seeded with 764 words, as bits (they are all defined: `dsfmt_words`). -/
def dsfmtStream (gen : Nat → U32) (n : Nat) : U64 :=
  (nthO dsfmtNext n (dsfmtSeed ⟨fun _ => ⟨0, 0⟩, ⟨0, 0⟩, fun _ => 0, 382⟩ ((List.range 764).map gen))).getD 0

/-- A draw from a stream of doubles `1 + m / 2^52`: `next_double` returns `m / 2^52`; 32-bit draws are the bits 16 to 47 of a double; 64-bit
draws take two doubles, the first is the upper half. -/
def drawDoubleAt (w : Nat → U64) (o : Op) (a : Nat × Option U32) : Out × (Nat × Option U32) := match o with
  | .u32 => (.o32 (BitVec.ofNat 32 ((w a.1).toNat / 2 ^ 16 % 2 ^ 32)), a.1 + 1, a.2)
  | .u64 => (.o64 (BitVec.ofNat 64 ((w a.1).toNat / 2 ^ 16 % 2 ^ 32 * 2 ^ 32 + (w (a.1 + 1)).toNat / 2 ^ 16 % 2 ^ 32)), a.1 + 2, a.2)
  | .dbl => (.odbl ((w a.1).toNat % 2 ^ 52 * 2), a.1 + 1, a.2)

/-- The promise for DSFMT with what a jump does: it drops what is left of a block of 382 doubles, and then `2^129` doubles. -/
def dsfmtPlaces : SSpec Unit (Nat → U32) (Nat → U32) where
  start _ gen := .ok gen
  restart _ _ _ gen := .ok gen
  draw gen := drawJumpAt (2 ^ 129) (dsfmtStream gen) drawDoubleAt
  jump := some (simdJumps (blockJumpAt 382))
  jumped := some (simdJumps (blockJumpAt 382))
  advance := none
  jumpErr := simdJumpErr

/-- The promise for DSFMT with jumps of `d` doubles (dsfmt.pyx:194, 219: `2^128` numbers). -/
def dsfmtDoc (d : Nat) : SSpec Unit (Nat → U32) (Nat → U32) where
  start _ gen := .ok gen
  restart _ _ _ gen := .ok gen
  draw gen := drawDoubleAt (dsfmtStream gen)
  jump := some (simdJumps fun n => skipAt (d * n))
  jumped := some (simdJumps fun n => skipAt (d * n))
  advance := none
  jumpErr := simdJumpErr

theorem dsfmt_same (s t : Dsfmt) (h0 : 0 ≤ s.loc) (h1 : s.loc ≤ 382) (hl : t.loc = s.loc) (hb : ∀ i < 382, t.buf i = s.buf i)
    (hs : ∀ i < 191, t.st i = s.st i) (hg : t.lung = s.lung) (n : Nat) : nthO dsfmtNext n t = nthO dsfmtNext n s := by
  obtain ⟨hr, hx0⟩ := simdSeq_rec dsfmtStep (N := 191) (P := 117) (by omega) s.st s.lung
  rw [C65_dsfmt s h0 h1 _ _ hr (fun i hi => (hx0 i hi).symm) rfl n,
    C65_dsfmt t (hl ▸ h0) (hl ▸ h1) _ _ hr (fun i hi => (hs i hi).trans (hx0 i hi).symm) (hg.trans rfl) n, hl]
  by_cases h : s.loc.toNat + n < 382
  · rw [if_pos h, if_pos h, hb _ h]
  · rw [if_neg h, if_neg h]

theorem dsfmt_seed_words (gen : Nat → U32) : StreamO dsfmtNext (dsfmtStream gen) 0
    (dsfmtSeed ⟨fun _ => ⟨0, 0⟩, ⟨0, 0⟩, fun _ => 0, 382⟩ ((List.range 764).map gen)) := fun i => by
  have h := C13_dsfmt_partial (dsfmtSeed ⟨fun _ => ⟨0, 0⟩, ⟨0, 0⟩, fun _ => 0, 382⟩ ((List.range 764).map gen)) (show (0 : Int) ≤ 382 by decide)
    (show (382 : Int) ≤ 382 by decide) i
  rw [Nat.zero_add, dsfmtStream]
  obtain ⟨v, hv⟩ := Option.isSome_iff_exists.mp h
  rw [hv]; rfl

/-- All numbers of a stream are in `[1, 2)`. -/
theorem dsfmt_stream_top {w : Nat → U64} {m : Nat} {c : Dsfmt} (hc : DInv c) (h : StreamO dsfmtNext w m c) (i : Nat) : w (m + i) >>> 52 = 0x3ff := by
  induction i generalizing m c with
  | zero =>
    obtain ⟨c', hn, _⟩ := h.next
    obtain ⟨r, s', h1, h2, _⟩ := dsfmtNext_inv c hc
    rw [hn] at h1
    rw [Nat.add_zero, (Prod.mk.inj (Option.some.inj h1)).1, h2]
  | succ i ih =>
    obtain ⟨c', hn, hs⟩ := h.next
    obtain ⟨r, s', h1, _, h3⟩ := dsfmtNext_inv c hc
    rw [hn] at h1
    rw [← (Prod.mk.inj (Option.some.inj h1)).2] at h3
    rw [← ih h3 hs, show m + 1 + i = m + (i + 1) by omega]

theorem dsfmtStream_top (gen : Nat → U32) (i : Nat) : dsfmtStream gen i >>> 52 = 0x3ff := by
  have := dsfmt_stream_top (DReach.seed _ _).inv (dsfmt_seed_words gen) i
  rwa [Nat.zero_add] at this

theorem dblVal_top (r : U64) (h : r >>> 52 = 0x3ff) : dblVal r = some (((2 ^ 52 + r.toNat % 2 ^ 52) * 2 ^ 1022 : Nat) : Int) := by
  have hs : r.getLsbD 63 = false := by
    have := congrArg (fun b : U64 => b.getLsbD 11) h
    simpa [BitVec.getLsbD_ushiftRight] using this
  have hm : (r &&& 0xfffffffffffff).toNat = r.toNat % 2 ^ 52 := by
    rw [BitVec.toNat_and]
    exact Nat.and_two_pow_sub_one_eq_mod r.toNat 52
  rw [dblVal, h, show ((0x3ff : U64) &&& 0x7ff).toNat = 1023 by decide]
  simp only [hs]
  rw [if_neg (by omega), hm, Nat.add_comm]
  rfl

/-- `next_double` subtracts one. -/
theorem dbl_frac (m e a b : Nat) (ha : a = e + 1) (hb : b = e + 53) (hm : m < 2 ^ 52) : (2 ^ b : Int) ≤ ((2 ^ 52 + m) * 2 ^ a : Nat) ∧
    (((2 ^ 52 + m) * 2 ^ a : Nat) : Int) < 2 * 2 ^ b ∧ (((((2 ^ 52 + m) * 2 ^ a : Nat) : Int) - 2 ^ b) / 2 ^ e).toNat = m * 2 := by
  have h1 : (2 ^ b : Int) = ((2 ^ 53 * 2 ^ e : Nat) : Int) := by rw [hb]; push_cast; ring
  have h2 : (2 ^ 52 + m) * 2 ^ a = (2 ^ 53 + m * 2) * 2 ^ e := by rw [ha]; ring
  have h3 : (2 ^ e : Int) = ((2 ^ e : Nat) : Int) := by push_cast; rfl
  have h4 : 0 < 2 ^ e := Nat.pos_of_ne_zero (by simp)
  rw [h1, h2, h3]
  clear h1 h2 h3
  generalize 2 ^ e = x at *
  refine ⟨?_, ?_, ?_⟩
  · rw [Nat.add_mul]; omega
  · have : (2 ^ 53 + m * 2) * x < 2 * (2 ^ 53 * x) := by
      rw [← Nat.mul_assoc]; exact Nat.mul_lt_mul_of_pos_right (by omega) h4
    exact_mod_cast this
  · rw [Nat.add_mul, show (((2 ^ 53 * x + m * 2 * x : Nat) : Int) - ((2 ^ 53 * x : Nat) : Int)) = ((m * 2 * x : Nat) : Int) by push_cast; ring,
      ← Int.natCast_ediv, Int.toNat_natCast, Nat.mul_div_cancel _ h4]

/-- A structure at a place inside a block. -/
def DAt (w : Nat → U64) (m : Nat) (c : Dsfmt) : Prop := StreamO dsfmtNext w m c ∧ 1 ≤ c.loc ∧ c.loc ≤ 382 ∧ ((m : Int) + 382 - c.loc) % 382 = 0

theorem DAt.next {w : Nat → U64} {m : Nat} {c : Dsfmt} (h : DAt w m c) : ∃ c', dsfmtNext c = some (w m, c') ∧ DAt w (m + 1) c' := by
  obtain ⟨h, h0, h1, h2⟩ := h
  obtain ⟨c', hn, hs⟩ := h.next
  refine ⟨c', hn, hs, ?_⟩
  have hl : c'.loc = if c.loc < 382 then c.loc + 1 else 1 := by
    rw [dsfmtNext] at hn
    by_cases hl : c.loc < 382
    · rw [if_pos hl, if_pos (by omega)] at hn
      rw [if_pos hl, ← (Prod.mk.inj (Option.some.inj hn)).2]
    · rw [if_neg hl] at hn
      rw [if_neg hl, ← (Prod.mk.inj (Option.some.inj hn)).2]
  rw [hl]
  split <;> omega

theorem bits_32 (r : U64) : ((r >>> 16) &&& 0xffffffff).truncate 32 = BitVec.ofNat 32 (r.toNat / 2 ^ 16 % 2 ^ 32) := by
  apply BitVec.eq_of_toNat_eq
  rw [BitVec.truncate_eq_setWidth, BitVec.toNat_setWidth, BitVec.toNat_and, BitVec.toNat_ofNat, BitVec.toNat_ushiftRight, Nat.shiftRight_eq_div_pow,
    show (0xffffffff : U64).toNat = 2 ^ 32 - 1 from rfl, Nat.and_two_pow_sub_one_eq_mod]

theorem bits_64 (r q : U64) : ((r >>> 16) <<< 32 ||| ((q >>> 16) &&& 0xffffffff)) =
    BitVec.ofNat 64 (r.toNat / 2 ^ 16 % 2 ^ 32 * 2 ^ 32 + q.toNat / 2 ^ 16 % 2 ^ 32) := by
  apply BitVec.eq_of_toNat_eq
  rw [BitVec.toNat_or, BitVec.toNat_and, BitVec.toNat_ofNat, BitVec.toNat_shiftLeft, BitVec.toNat_ushiftRight, BitVec.toNat_ushiftRight, Nat.shiftRight_eq_div_pow,
    Nat.shiftRight_eq_div_pow, show (0xffffffff : U64).toNat = 2 ^ 32 - 1 from rfl, Nat.and_two_pow_sub_one_eq_mod, Nat.shiftLeft_eq]
  have e : r.toNat / 2 ^ 16 * 2 ^ 32 % 2 ^ 64 = 2 ^ 32 * (r.toNat / 2 ^ 16 % 2 ^ 32) := by omega
  have hq : q.toNat / 2 ^ 16 % 2 ^ 32 < 2 ^ 32 := Nat.mod_lt _ (by decide)
  rw [e, ← Nat.two_pow_add_eq_or_of_lt hq]
  omega

theorem DAt.draw {w : Nat → U64} {m : Nat} {c : Dsfmt} (h : DAt w m c) (hw : ∀ i, w i >>> 52 = 0x3ff) (k : Op) :
    ∃ c', dsfmtOp k c = some ((drawDoubleAt w k (m, none)).1, c') ∧ DAt w (drawDoubleAt w k (m, none)).2.1 c' ∧ (drawDoubleAt w k (m, none)).2.2 = none := by
  obtain ⟨c1, h1, h2⟩ := h.next
  cases k with
  | u32 =>
    refine ⟨c1, ?_, h2, rfl⟩
    simp only [dsfmtOp, dsfmtNext32, h1, Option.bind_eq_bind, Option.bind_some, Option.map_some, drawDoubleAt, bits_32]
  | u64 =>
    obtain ⟨c2, h3, h4⟩ := h2.next
    refine ⟨c2, ?_, h4, rfl⟩
    simp only [dsfmtOp, dsfmtNext64, h1, h3, Option.bind_eq_bind, Option.bind_some, Option.map_some, drawDoubleAt, bits_64]
  | dbl =>
    refine ⟨c1, ?_, h2, rfl⟩
    obtain ⟨e1, e2, e3⟩ := dbl_frac ((w m).toNat % 2 ^ 52) 1021 1022 1074 rfl rfl (Nat.mod_lt _ (by decide))
    rw [dsfmtOp, h1, Option.bind_some, dblVal_top _ (hw m), Option.bind_some, if_pos ⟨e1, e2⟩, e3, drawDoubleAt]

/-- The instance is at the place, and inside a block as the number of doubles taken says. -/
def DsfmtAt (o : Nat → U32) (a : Nat × Option U32) (s : DsfmtI) : Prop :=
  DAt (fun n => dsfmtStream o (a.1.unpair.1 * 2 ^ 129 + n)) a.1.unpair.2 (dsfmtView s) ∧ a.2 = none

theorem dsfmtPut_at {o : Nat → U32} {a : Nat × Option U32} (s : DsfmtI) (b : Dsfmt)
    (h : DAt (fun n => dsfmtStream o (a.1.unpair.1 * 2 ^ 129 + n)) a.1.unpair.2 b) (ha : a.2 = none) : DsfmtAt o a (dsfmtPut s b) := by
  obtain ⟨h, h0, h1, h2⟩ := h
  have e : ((dsfmtPut s b).loc).toInt = b.loc := ofInt_small _ (by omega) (by omega)
  have e' : (dsfmtView (dsfmtPut s b)).loc = b.loc := e
  refine ⟨⟨h.of_eq (dsfmt_same b _ (by omega) h1 e (fun i hi => ?_) (fun i hi => ?_) ?_), e' ▸ h0, e' ▸ h1, e' ▸ h2⟩, ha⟩
  · simp [dsfmtView, dsfmtPut, hi]
  · simp [dsfmtView, dsfmtPut, hi, wordsD, show 2 * i < 382 by omega, show 2 * i + 1 < 382 by omega, show (2 * i + 1) / 2 = i by omega]
  · simp [dsfmtView, dsfmtPut]

theorem dsfmt_seeded (gen : Nat → U32) (s : DsfmtI) : DsfmtAt gen (0, none) (dsfmtReseed gen s) := by
  have h : DsfmtAt gen (0, none) (dsfmtPut s (dsfmtSeed (dsfmtView s) ((List.range 764).map gen))) := by
    refine dsfmtPut_at s _ ⟨?_, show (1 : Int) ≤ 382 by decide, show (382 : Int) ≤ 382 by decide, ?_⟩ rfl
    · simp only [unpair_zero_fst, unpair_zero_snd, Nat.zero_mul, Nat.zero_add]
      exact (dsfmt_seed_words gen).of_eq (C14_dsfmt _ _ _)
    · simp only [unpair_zero_snd]; show ((0 : Int) + 382 - 382) % 382 = 0; decide
  exact h

theorem DsfmtAt.draw {o : Nat → U32} {a : Nat × Option U32} {s : DsfmtI} (h : DsfmtAt o a s) (k : Op) :
    ∃ s', dsfmtCls.op k s = some ((dsfmtPlaces.draw o k a).1, s') ∧ DsfmtAt o (dsfmtPlaces.draw o k a).2 s' := by
  obtain ⟨h, ha⟩ := h
  obtain ⟨c', e1, e2, e3⟩ := h.draw (fun i => dsfmtStream_top o _) k
  refine ⟨dsfmtPut s c', ?_, dsfmtPut_at s c' ?_ ?_⟩
  · show (dsfmtOp k (dsfmtView s)).map _ = _
    rw [e1, ← ha]; rfl
  · rw [show (dsfmtPlaces.draw o k a).2.1 = Nat.pair a.1.unpair.1
      (drawDoubleAt (fun n => dsfmtStream o (a.1.unpair.1 * 2 ^ 129 + n)) k (a.1.unpair.2, a.2)).2.1 from rfl, Nat.unpair_pair, ha]
    exact e2
  · rw [show (dsfmtPlaces.draw o k a).2.2 = (drawDoubleAt (fun n => dsfmtStream o (a.1.unpair.1 * 2 ^ 129 + n)) k (a.1.unpair.2, a.2)).2.2 from rfl, ha]
    exact e3

/-- The jump is the one of `C68_dsfmt_partial`. -/
theorem DsfmtAt.jump {o : Nat → U32} {a : Nat × Option U32} {s : DsfmtI} (h : DsfmtAt o a s) (n : Nat) :
    DsfmtAt o (blockJumpAt 382 n a) (dsfmtPut s (dsfmtJumps n (dsfmtView s))) := by
  obtain ⟨⟨hs, h0, h1, h2⟩, -⟩ := h
  have hw : ∀ i, nthO dsfmtNext i (dsfmtJumps n (dsfmtView s)) = some (dsfmtStream o
      (((a.1.unpair.1 + n) * 2 ^ 129) + (382 * ((a.1.unpair.2 + 381) / 382) + i))) := by
    intro i
    rw [C68_dsfmt_partial _ (by omega) (by omega), hs]
    dsimp only
    rw [place_jump (2 ^ 129) 382 (l := (dsfmtView s).loc.toNat) (by omega) (by omega) ⟨(a.1.unpair.2 + 381) / 382, by omega⟩]
  refine dsfmtPut_at s _ ⟨fun i => ?_, show (1 : Int) ≤ 382 by decide, show (382 : Int) ≤ 382 by decide, ?_⟩ rfl
  · simp only [blockJumpAt, Nat.unpair_pair]
    exact hw i
  · simp only [blockJumpAt, Nat.unpair_pair]
    show ((382 * ((a.1.unpair.2 + 381) / 382) : Nat) + 382 - (382 : Int)) % 382 = 0
    omega

/-- `jump_inplace` on an instance. -/
theorem dsfmt_inplace : ∃ f, dsfmtCls.inplace = some f ∧ ∀ n s, f n s =
    if 0 ≤ n ∧ n < 2 ^ 31 then .ok (dsfmtPut s (dsfmtJumps n.toNat (dsfmtView s))) else
      if n < 0 then .err .valueError else .err .overflowError := by
  refine ⟨_, rfl, fun n s => ?_⟩
  by_cases h0 : n < 0
  · rw [if_neg (by omega), if_pos h0]
    simp only [jumpInplace, if_pos h0]
  · by_cases h1 : n < 2 ^ 31
    · rw [if_pos ⟨by omega, h1⟩]
      simp only [jumpInplace, if_neg h0, if_neg (show ¬ n ≥ 2 ^ 31 by omega)]
      rfl
    · rw [if_neg (by omega), if_neg h0]
      simp only [jumpInplace, if_neg h0, if_pos (show n ≥ 2 ^ 31 by omega)]

theorem dsfmt_jumps (n : Int) : ∃ f, dsfmtCls.inplace = some f ∧
    (((true && !isIntp n) = true ∧ simdJumps (blockJumpAt 382) n = none ∧ simdJumpErr n = .overflowError) ∨ ((true && !isIntp n) = false ∧
      ((∃ k, simdJumps (blockJumpAt 382) n = some k ∧ ∀ o a s, DsfmtAt o a s → ∃ s', f n s = .ok s' ∧ DsfmtAt o (k a) s') ∨
        (simdJumps (blockJumpAt 382) n = none ∧ ∀ o a s, DsfmtAt o a s → f n s = .err (simdJumpErr n))))) := by
  obtain ⟨f, hf, e⟩ := dsfmt_inplace
  have hk : ∀ (n : Nat) (o : Nat → U32) (a : Nat × Option U32) (s : DsfmtI), DsfmtAt o a s →
      DsfmtAt o (blockJumpAt 382 n a) (dsfmtPut s (dsfmtJumps n (dsfmtView s))) := fun n _ _ _ h => h.jump n
  exact ⟨f, hf, simd_jumps (k := fun n s => dsfmtPut s (dsfmtJumps n (dsfmtView s))) (R := DsfmtAt) (g := blockJumpAt 382) e hk n⟩

theorem dsfmt_refines : RefinesOn dsfmtCls dsfmtPlaces (fun _ => True) (fun _ o a s => DsfmtAt o a s) where
  start _ gen _ := dsfmt_seeded gen _
  restart _ gen _ _ _ _ _ _ := ⟨dsfmt_seeded gen _, fun e he => by cases he⟩
  draw _ k _ _ o a s h := h.draw k
  load _ _ _ _ o a s _ _ _ t h _ := by
    refine ⟨s, ?_, h⟩
    rw [show dsfmtCls.set = dsfmtSet from rfl, show dsfmtCls.get = dsfmtGet from rfl]
    exact C11_dsfmt s t
  jump _ n _ := by
    obtain ⟨f, hf, h⟩ := dsfmt_jumps n
    refine .inr ⟨true, f, _, rfl, hf, rfl, h.imp id fun ⟨h1, h2⟩ => ⟨h1, h2.imp (fun ⟨k, h3, h4⟩ => ⟨k, h3, fun _ => h4⟩) fun ⟨h3, h4⟩ => ⟨h3, fun _ => h4⟩⟩⟩
  jumped _ n _ := by
    obtain ⟨f, hf, h⟩ := dsfmt_jumps n
    refine .inr ⟨true, _, f, _, rfl, hf, rfl, h.imp id fun ⟨h1, h2⟩ => ⟨h1, fun _ o a s sd hs _ => ⟨_, s, rfl, ?_, ?_⟩⟩⟩
    · rw [show dsfmtCls.set = dsfmtSet from rfl, show dsfmtCls.get = dsfmtGet from rfl]
      exact C11_dsfmt s _
    · rcases h2 with ⟨k, h3, h4⟩ | ⟨h3, h4⟩
      · obtain ⟨s', h5, h6⟩ := h4 o a s hs
        exact .inl ⟨k, s', h3, h5, h6⟩
      · exact .inr ⟨h3, h4 o a s hs⟩
  advance _ _ _ := .inr ⟨rfl, rfl⟩

/-- C95 for DSFMT with what a jump does. Missing: the documented distance, and that only it is skipped (`not_C95_dsfmt`). -/
theorem C95_dsfmt_partial (os : List (SOp Unit (Nat → U32))) : dsfmtCls.program os = dsfmtPlaces.program os :=
  dsfmt_refines.program os fun _ _ => trivial

theorem drawJump_dbl (d : Nat) (w : Nat → U64) (j m : Nat) : drawJumpAt d w drawDoubleAt .dbl (Nat.pair j m, none) =
    (.odbl ((w (j * d + m)).toNat % 2 ^ 52 * 2), Nat.pair j (m + 1), none) := by
  simp only [drawJumpAt, Nat.unpair_pair, drawDoubleAt]

/-- Two programs of draws that agree; all doubles are in `[1, 2)`, so those that give the same fraction are the same. -/
theorem doubles_agree {u v : Nat → U64} (hu : ∀ i, u i >>> 52 = 0x3ff) (hv : ∀ i, v i >>> 52 = 0x3ff)
    (h : ∀ n, (List.range' 0 n).map (fun i => SRes.val (.odbl ((u i).toNat % 2 ^ 52 * 2))) = (List.range' 0 n).map fun i => .val (.odbl ((v i).toNat % 2 ^ 52 * 2)))
    (i : Nat) : u i = v i := by
  have := congrArg (fun l : List SRes => l[i]?) (h (i + 1))
  simp at this
  have e1 := congrArg BitVec.toNat (hu i)
  have e2 := congrArg BitVec.toNat (hv i)
  rw [BitVec.toNat_ushiftRight, Nat.shiftRight_eq_div_pow] at e1 e2
  apply BitVec.eq_of_toNat_eq
  have : (u i).toNat / 2 ^ 52 = (v i).toNat / 2 ^ 52 := e1.trans e2.symm
  omega

/-- C95 fails for DSFMT with jumps of any fixed distance: after one double `jump(0)` drops 381 doubles, from every seed. -/
theorem not_C95_dsfmt (d : Nat) (gen : Nat → U32) : ∃ os, dsfmtCls.program os ≠ (dsfmtDoc d).program os := by
  by_contra hc
  push Not at hc
  have hw := dsfmt_seed_words gen
  have hp : ∀ n, dsfmtPlaces.program (.new () gen :: .draw 0 .dbl :: .jump 0 ((0 : Nat) : Int) :: List.replicate n (.draw 0 .dbl)) =
      .done :: .val (.odbl ((dsfmtStream gen 0).toNat % 2 ^ 52 * 2)) :: .done :: (List.range' 0 n).map fun i =>
        .val (.odbl ((dsfmtStream gen (382 + i)).toNat % 2 ^ 52 * 2)) := fun n => by
    have := spec_draws dsfmtPlaces .dbl () gen gen [] (fun i => .odbl ((dsfmtStream gen (0 * 2 ^ 129 + (382 + i))).toNat % 2 ^ 52 * 2))
      (fun i => (Nat.pair 0 (382 + i), none)) (fun i => drawJump_dbl _ _ _ _) n 0
    simp only [Nat.zero_mul, Nat.zero_add] at this
    rw [← this]
    have e0 : (0 : Nat) = Nat.pair 0 0 := by decide
    have e1 : dsfmtPlaces.draw gen .dbl (0, none) = (.odbl ((dsfmtStream gen 0).toNat % 2 ^ 52 * 2), Nat.pair 0 1, none) :=
      (congrArg (fun m => dsfmtPlaces.draw gen .dbl (m, none)) e0).trans ((drawJump_dbl _ _ _ _).trans (by rw [Nat.zero_mul]))
    have e2 : blockJumpAt 382 0 (Nat.pair 0 1, none) = (Nat.pair 0 (382 + 0), none) := by simp [blockJumpAt]
    simp only [SSpec.program, SSpec.run, SSpec.step, show dsfmtPlaces.start () gen = .ok gen from rfl, List.nil_append, List.getElem?_cons_zero, e1, List.set_cons_zero,
      show dsfmtPlaces.jump = some (simdJumps (blockJumpAt 382)) from rfl, simdJumps_some _ 0 (by decide), e2]
  have hq : ∀ n, (dsfmtDoc d).program (.new () gen :: .draw 0 .dbl :: .jump 0 ((0 : Nat) : Int) :: List.replicate n (.draw 0 .dbl)) =
      .done :: .val (.odbl ((dsfmtStream gen 0).toNat % 2 ^ 52 * 2)) :: .done :: (List.range' 0 n).map fun i =>
        .val (.odbl ((dsfmtStream gen (1 + i)).toNat % 2 ^ 52 * 2)) := fun n => by
    rw [← spec_draws (dsfmtDoc d) .dbl () gen gen [] (fun i => .odbl ((dsfmtStream gen (1 + i)).toNat % 2 ^ 52 * 2)) (fun i => (1 + i, none)) (fun i => rfl) n 0]
    simp only [SSpec.program, SSpec.run, SSpec.step, show (dsfmtDoc d).start () gen = .ok gen from rfl, List.nil_append, List.getElem?_cons_zero,
      show (dsfmtDoc d).draw gen .dbl (0, none) = (.odbl ((dsfmtStream gen 0).toNat % 2 ^ 52 * 2), 1, none) from rfl, List.set_cons_zero,
      show (dsfmtDoc d).jump = some (simdJumps fun n => skipAt (d * n)) from rfl, simdJumps_some _ 0 (by decide), skipAt, Nat.mul_zero]
  have he := doubles_agree (u := fun i => dsfmtStream gen (382 + i)) (v := fun i => dsfmtStream gen (1 + i)) (fun i => dsfmtStream_top gen _)
    (fun i => dsfmtStream_top gen _) fun n => by
    have := hc (.new () gen :: .draw 0 .dbl :: .jump 0 ((0 : Nat) : Int) :: List.replicate n (.draw 0 .dbl))
    rw [C95_dsfmt_partial, hp, hq] at this
    exact (List.cons.inj (List.cons.inj (List.cons.inj this).2).2).2
  exact not_dvd_small (by decide) (by decide) ((C77_dsfmt_seeded _ _).2 1 381 (period_of_shift hw 1 381 fun i => he i))

/-- C95 fails for DSFMT with the documented jumps of `2^128` numbers also between blocks: from every seed a jump passes twice as many doubles. -/
theorem not_C95_dsfmt_distance (gen : Nat → U32) : ∃ n, dsfmtCls.program (.new () gen :: .jump 0 1 :: List.replicate n (.draw 0 .dbl)) ≠
    (dsfmtDoc (2 ^ 128)).program (.new () gen :: .jump 0 1 :: List.replicate n (.draw 0 .dbl)) := by
  by_contra hc
  push Not at hc
  have hw := dsfmt_seed_words gen
  have hp : ∀ n, dsfmtPlaces.program (.new () gen :: .jump 0 ((1 : Nat) : Int) :: List.replicate n (.draw 0 .dbl)) =
      .done :: .done :: (List.range' 0 n).map fun i => .val (.odbl ((dsfmtStream gen (1 * 2 ^ 129 + i)).toNat % 2 ^ 52 * 2)) := fun n => by
    rw [← spec_draws dsfmtPlaces .dbl () gen gen [] (fun i => .odbl ((dsfmtStream gen (1 * 2 ^ 129 + i)).toNat % 2 ^ 52 * 2)) (fun i => (Nat.pair 1 i, none))
      (fun i => drawJump_dbl _ _ _ _) n 0]
    have e2 : blockJumpAt 382 1 (0, none) = (Nat.pair 1 0, none) := by decide
    simp only [SSpec.program, SSpec.run, SSpec.step, show dsfmtPlaces.start () gen = .ok gen from rfl, List.nil_append, List.getElem?_cons_zero, List.set_cons_zero,
      show dsfmtPlaces.jump = some (simdJumps (blockJumpAt 382)) from rfl, simdJumps_some _ 1 (by decide), e2]
  have hq : ∀ n, (dsfmtDoc (2 ^ 128)).program (.new () gen :: .jump 0 ((1 : Nat) : Int) :: List.replicate n (.draw 0 .dbl)) =
      .done :: .done :: (List.range' 0 n).map fun i => .val (.odbl ((dsfmtStream gen (2 ^ 128 * 1 + i)).toNat % 2 ^ 52 * 2)) := fun n => by
    rw [← spec_draws (dsfmtDoc (2 ^ 128)) .dbl () gen gen [] (fun i => .odbl ((dsfmtStream gen (2 ^ 128 * 1 + i)).toNat % 2 ^ 52 * 2))
      (fun i => (2 ^ 128 * 1 + i, none)) (fun i => rfl) n 0]
    simp only [SSpec.program, SSpec.run, SSpec.step, show (dsfmtDoc (2 ^ 128)).start () gen = .ok gen from rfl, List.nil_append, List.getElem?_cons_zero,
      List.set_cons_zero, show (dsfmtDoc (2 ^ 128)).jump = some (simdJumps fun n => skipAt (2 ^ 128 * n)) from rfl, simdJumps_some _ 1 (by decide), skipAt, Nat.zero_add,
      Nat.add_zero]
  have he := doubles_agree (u := fun i => dsfmtStream gen (1 * 2 ^ 129 + i)) (v := fun i => dsfmtStream gen (2 ^ 128 * 1 + i)) (fun i => dsfmtStream_top gen _)
    (fun i => dsfmtStream_top gen _) fun n => by
    have := hc n
    rw [C95_dsfmt_partial] at this
    exact (List.cons.inj (List.cons.inj ((hp n).symm.trans (this.trans (hq n)))).2).2
  refine not_dvd_small (n := 2 ^ 128) (by decide) (by decide) ((C77_dsfmt_seeded _ _).2 (2 ^ 128) (2 ^ 128) (period_of_shift hw _ _ fun i => ?_))
  have := he i
  rwa [show 1 * 2 ^ 129 = 2 ^ 128 + 2 ^ 128 by decide, Nat.mul_one] at this

/-- Numbers of jumps that are refused leave everything as it was. -/
example (gen : Nat → U32) : dsfmtCls.program [.new () gen, .jump 0 (-1), .jumped 0 (2 ^ 31), .jump 0 (-2 ^ 70), .save 0, .jumped 0 3, .load 1 0, .advance 0 1,
    .draw 0 .dbl, .draw 1 .dbl] = [.done, .err .valueError, .err .overflowError, .err .overflowError, .done, .done, .done, .noMethod,
      .val (.odbl ((dsfmtStream gen 0).toNat % 2 ^ 52 * 2)), .val (.odbl ((dsfmtStream gen 0).toNat % 2 ^ 52 * 2))] := by
  rw [C95_dsfmt_partial, dsfmtPlaces]
  simp [SSpec.program, SSpec.run, SSpec.step, simdJumps, simdJumpErr, blockJumpAt, drawJumpAt, drawDoubleAt]

end Verif
