import Verif.Props.Session2
import Verif.Props.MtSeed
import Verif.Model.Session7

/-! C95 for MT19937. -/

namespace Verif

/-- The words of MT19937 seeded with 624 words, in the default and in NumPy's mode (they are all defined: `mt32_words`). -/
def mt32Start (o : Bool × (Nat → U32)) : Mt 32 :=
  if o.1 then mtSeedNumpy ((List.range 624).map o.2) fun _ => 0 else mtSeed32 ((List.range 624).map o.2) fun _ => 0
def mt32Word (o : Bool × (Nat → U32)) (n : Nat) : U32 := (nthO mtNext32 n (mt32Start o)).getD 0

/-- The promise for MT19937: `jump(n)` is `n` times `2^128` words; the argument is a C `int` and must not be negative. -/
def mt32Spec (hiFirst : Bool) : SSpec Bool (Nat → U32) (Bool × (Nat → U32)) where
  start numpy gen := .ok (numpy, gen)
  restart numpy _ _ gen := .ok (numpy, gen)
  draw o := draw32At hiFirst (mt32Word o)
  jump := some fun n => if 0 ≤ n ∧ n < 2 ^ 31 then some (skipAt (2 ^ 128 * n.toNat)) else none
  jumped := some fun n => if 0 ≤ n ∧ n < 2 ^ 31 then some (skipAt (2 ^ 128 * n.toNat)) else none
  advance := none
  jumpErr n := if -2 ^ 31 ≤ n ∧ n < 2 ^ 31 then .valueError else .overflowError

/-- The instance is at word `a.1` of the stream `w` and its position is inside the array. -/
def Mt32At (w : Nat → U32) (a : Nat × Option U32) (x : Mt32I) : Prop :=
  StreamO mtNext32 w a.1 (mt32View x) ∧ a.2 = none ∧ 0 ≤ x.pos.toInt ∧ x.pos.toInt ≤ 624

theorem ofInt_pos624 (p : Int) (h0 : 0 ≤ p) (h1 : p ≤ 624) : (BitVec.ofInt 32 p).toInt = p := by
  rw [BitVec.toInt_ofInt, Int.bmod_def]
  omega

theorem mt32Put_at {w : Nat → U32} {n : Nat} (s : Mt 32) (h : StreamO mtNext32 w n s) (h0 : 0 ≤ s.pos) (h1 : s.pos ≤ 624) :
    Mt32At w (n, none) (mt32Put s) := by
  have e : ((mt32Put s).pos).toInt = s.pos := ofInt_pos624 _ h0 h1
  refine ⟨h.of_eq (mt32_draws _ _ e (e.trans_ge h0) (e.trans_le h1) fun i hi => ?_), rfl, e.trans_ge h0, e.trans_le h1⟩
  simp [mt32View, mt32Put, hi]

theorem mt32_next_pos {c c' : Mt 32} {v : U32} (h : mtNext32 c = some (v, c')) : 0 ≤ c'.pos ∧ c'.pos ≤ 624 := by
  rw [mtNext32] at h
  generalize (if c.pos = (mt32.N : Int) then _ else c : Mt 32) = d at h
  rw [mtRead] at h
  by_cases hp : 0 ≤ d.pos ∧ d.pos < mt32.N
  · rw [if_pos hp] at h
    rw [← (Prod.mk.inj (Option.some.inj h)).2]
    change 0 ≤ d.pos + 1 ∧ d.pos + 1 ≤ (624 : Int)
    have : (mt32.N : Int) = 624 := rfl
    omega
  · rw [if_neg hp] at h; cases h

theorem mt32_start_pos (o : Bool × (Nat → U32)) : 0 ≤ (mt32Start o).pos ∧ (mt32Start o).pos ≤ 624 := by
  obtain ⟨b, gen⟩ := o
  obtain ⟨_, h2, _, h4⟩ := C37_mt19937_top ((List.range 624).map gen) fun _ => 0
  cases b
  · show 0 ≤ (mtSeed32 _ _).pos ∧ (mtSeed32 _ _).pos ≤ 624
    rw [h2]; decide
  · show 0 ≤ (mtSeedNumpy _ _).pos ∧ (mtSeedNumpy _ _).pos ≤ 624
    rw [h4]; decide

/-- All words of a state with a position inside the array are defined. -/
theorem mt32_all (s : Mt 32) (h0 : 0 ≤ s.pos) (h1 : s.pos ≤ 624) : StreamO mtNext32 (fun n => (nthO mtNext32 n s).getD 0) 0 s := fun i => by
  obtain ⟨v, hv⟩ := Option.isSome_iff_exists.mp (C13_mt19937_partial s h0 h1 i)
  show _ = some ((nthO mtNext32 (0 + i) s).getD 0)
  rw [Nat.zero_add, hv]; rfl

theorem mt32_words (o : Bool × (Nat → U32)) : StreamO mtNext32 (mt32Word o) 0 (mt32Start o) :=
  mt32_all _ (mt32_start_pos o).1 (mt32_start_pos o).2

theorem mt32_seeded (b : Bool) (gen : Nat → U32) (s : Mt32I) : Mt32At (mt32Word (b, gen)) (0, none) (mt32Reseed b gen s) := by
  have hw := mt32_words (b, gen)
  have hp := C37_mt19937_top ((List.range 624).map gen) (mt32View s).key
  cases b
  · refine mt32Put_at _ (hw.of_eq (C14_mt19937 _ _ _).1) ?_ ?_
    · show 0 ≤ (mtSeed32 _ _).pos
      rw [hp.2.1]; decide
    · show (mtSeed32 _ _).pos ≤ 624
      rw [hp.2.1]
  · refine mt32Put_at _ (hw.of_eq (C14_mt19937_numpy _ _ _).1) ?_ ?_
    · show 0 ≤ (mtSeedNumpy _ _).pos
      rw [hp.2.2.2]; decide
    · show (mtSeedNumpy _ _).pos ≤ 624
      rw [hp.2.2.2]; decide

theorem Mt32At.draw {w : Nat → U32} {a : Nat × Option U32} {x : Mt32I} (h : Mt32At w a x) (b : Bool) (k : Op) :
    ∃ t, mt32Op b k (mt32View x) = some ((draw32At b w k a).1, t) ∧ Mt32At w (draw32At b w k a).2 (mt32Put t) := by
  obtain ⟨n, half⟩ := a
  obtain ⟨h1, h2, h3, h4⟩ := h
  dsimp only at h1 h2
  subst h2
  obtain ⟨c1, e1, s1⟩ := h1.next
  obtain ⟨c2, e2, s2⟩ := s1.next
  have p1 := mt32_next_pos e1
  have p2 := mt32_next_pos e2
  cases k with
  | u32 => exact ⟨c1, by rw [mt32Op, e1]; rfl, mt32Put_at c1 s1 p1.1 p1.2⟩
  | u64 =>
    refine ⟨c2, ?_, mt32Put_at c2 s2 p2.1 p2.2⟩
    have : twoCallsO mtNext32 b (mt32View x) = some (if b then (w n).setWidth 64 <<< 32 ||| (w (n + 1)).setWidth 64
        else (w (n + 1)).setWidth 64 <<< 32 ||| (w n).setWidth 64, c2) := by
      rw [twoCallsO, e1]
      simp only [Option.bind_eq_bind, Option.bind_some, e2]
      cases b <;> rfl
    rw [mt32Op, this]
    cases b
    · simp only [Option.map_some, draw32At, join_toNat, Bool.false_eq_true, if_false]
    · simp only [Option.map_some, draw32At, join_toNat, if_true]
  | dbl =>
    refine ⟨c2, ?_, mt32Put_at c2 s2 p2.1 p2.2⟩
    rw [mt32Op, e1]
    simp only [Option.bind_eq_bind, Option.bind_some, e2, draw32At, Doubles.dbl32, BitVec.toNat_ushiftRight, Nat.shiftRight_eq_div_pow]
    rfl

/-- Jumps that are refused or by zero. -/
def SOp.NoMtJump {Par Seed : Type} : SOp Par Seed → Prop
  | .jump _ n => ¬ (0 < n ∧ n < 2 ^ 31)
  | .jumped _ n => ¬ (0 < n ∧ n < 2 ^ 31)
  | _ => True

/-- `jump_inplace` with such a number. -/
theorem mt32_inplace (b : Bool) : ∃ f, (mt32Cls b).inplace = some f ∧ ∀ (n : Int) (s : Bool × Mt32I) (w : Nat → U32) (a : Nat × Option U32),
    ¬ (0 < n ∧ n < 2 ^ 31) → Mt32At w a s.2 →
      (0 ≤ n ∧ n < 2 ^ 31 ∧ ∃ s', f n s = .ok s' ∧ s'.1 = s.1 ∧ Mt32At w (skipAt (2 ^ 128 * n.toNat) a) s'.2) ∨
        (¬ (0 ≤ n ∧ n < 2 ^ 31) ∧ f n s = .err ((mt32Spec b).jumpErr n)) := by
  refine ⟨_, rfl, fun n s w a hn h => ?_⟩
  by_cases h0 : 0 ≤ n ∧ n < 2 ^ 31
  · obtain rfl : n = 0 := by omega
    refine Or.inl ⟨h0.1, h0.2, (s.1, mt32Put (mt32View s.2)), ?_, rfl, ?_⟩
    · rw [if_neg (by decide), if_neg (by decide), show mtJumps (Int.toNat 0) (mt32View s.2) = some (mt32View s.2) by
        rw [Int.toNat_zero, mtJumps, jumpN, jumpPlan, if_pos rfl, List.foldl_nil]]
    · obtain ⟨n, half⟩ := a
      exact mt32Put_at _ h.1 h.2.2.1 h.2.2.2
  · refine Or.inr ⟨h0, ?_⟩
    show _ = Made.err (if -2 ^ 31 ≤ n ∧ n < 2 ^ 31 then PyErr.valueError else PyErr.overflowError)
    by_cases h1 : -2 ^ 31 ≤ n ∧ n < 2 ^ 31
    · rw [if_pos h1, if_neg (by omega), if_pos (by omega)]
    · rw [if_neg h1, if_pos (by omega)]

theorem mt32_refines (b : Bool) : RefinesOn (mt32Cls b) (mt32Spec b) SOp.NoMtJump (fun p o a s => s.1 = p ∧ Mt32At (mt32Word o) a s.2) where
  start p gen _ := ⟨rfl, mt32_seeded p gen _⟩
  restart _ gen _ p o a s h := by
    refine ⟨?_, fun e he => by cases he⟩
    refine ⟨h.1, ?_⟩
    rw [← h.1]
    exact mt32_seeded s.1 gen _
  draw _ k _ p o a s h := by
    obtain ⟨t, h1, h2⟩ := h.2.draw b k
    refine ⟨(s.1, mt32Put t), ?_, h.1, h2⟩
    show (mt32Op b k (mt32View s.2)).map _ = _
    rw [h1]
    rfl
  load _ _ _ p o a s p' o' a' t h h' := by
    refine ⟨(t.1, s.2), ?_, h'.1, h.2⟩
    show ((mt32Set (mt32Get s.2) t.2).1, t.1, (mt32Set (mt32Get s.2) t.2).2) = _
    rw [C11_mt19937]
  jump i n hn := by
    obtain ⟨f, hf, H⟩ := mt32_inplace b
    refine Or.inr ⟨false, f, _, rfl, hf, rfl, Or.inr ⟨rfl, ?_⟩⟩
    by_cases h0 : 0 ≤ n ∧ n < 2 ^ 31
    · refine Or.inl ⟨_, if_pos h0, fun p o a s h => ?_⟩
      rcases H n s _ a hn h.2 with ⟨_, _, s', e1, e2, e3⟩ | ⟨e, _⟩
      · exact ⟨s', e1, e2.trans h.1, e3⟩
      · exact absurd h0 e
    · refine Or.inr ⟨if_neg h0, fun p o a s h => ?_⟩
      rcases H n s _ a hn h.2 with ⟨e1, e2, _⟩ | ⟨_, e⟩
      · exact absurd ⟨e1, e2⟩ h0
      · exact e
  jumped i n hn := by
    obtain ⟨f, hf, H⟩ := mt32_inplace b
    refine Or.inr ⟨false, _, f, _, rfl, hf, rfl, Or.inr ⟨rfl, fun p o a s sd h _ => ?_⟩⟩
    refine ⟨_, (s.1, s.2), rfl, ?_, ?_⟩
    · show ((mt32Set (mt32Get s.2) _).1, _, (mt32Set (mt32Get s.2) _).2) = _
      rw [C11_mt19937]
    · rcases H n (s.1, s.2) _ a hn h.2 with ⟨e1, e2, s', e3, e4, e5⟩ | ⟨e1, e2⟩
      · exact Or.inl ⟨_, s', if_pos ⟨e1, e2⟩, e3, e4.trans h.1, e5⟩
      · exact Or.inr ⟨if_neg e1, e2⟩
  advance _ _ _ := Or.inr ⟨rfl, rfl⟩

/-- **C95** for MT19937, in both modes: every program whose jumps are refused or by zero. What is missing: the other jumps, which do not
lead where they should (`not_C95_mt19937`, C35). -/
theorem C95_mt19937_partial (hiFirst : Bool) (os : List (SOp Bool (Nat → U32))) (hos : ∀ o ∈ os, o.NoMtJump) :
    (mt32Cls hiFirst).program os = (mt32Spec hiFirst).program os :=
  (mt32_refines hiFirst).program os hos

/-- A program to which the theorem applies: refused jumps, a copy, a state given to an instance in the other mode. -/
example (gen gen' : Nat → U32) : (mt32Cls true).program [.new false gen, .jump 0 (-1), .jumped 0 (2 ^ 31), .draw 0 .u32, .jumped 0 0, .new true gen', .save 1,
    .load 2 0, .draw 1 .u32, .draw 2 .u32] =
    [.done, .err .valueError, .err .overflowError, .val (.o32 (mt32Word (false, gen) 0)), .done, .done, .done, .done, .val (.o32 (mt32Word (false, gen) 1)),
      .val (.o32 (mt32Word (false, gen) 1))] := by
  rw [C95_mt19937_partial]
  · simp [SSpec.program, SSpec.run, SSpec.step, mt32Spec, skipAt, draw32At]
  · intro o ho
    simp only [List.mem_cons, List.not_mem_nil, or_false] at ho
    rcases ho with rfl | rfl | rfl | rfl | rfl | rfl | rfl | rfl | rfl | rfl <;> first | trivial | (show ¬ (_ ∧ _); decide)

/-! ### Jumps -/

open Verif.Linear

/-- The first two draws after a jump from a new generator, if the jump is defined and leaves the position inside the array. -/
theorem mt32_jump_draws (b p : Bool) (gen : Nat → U32) (s' : Mt 32) (h : mtJumps 1 (mt32View (mt32Reseed p gen ⟨Vector.replicate 624 0, 0⟩)) = some s')
    (h0 : 0 ≤ s'.pos) (h1 : s'.pos ≤ 624) (k : Nat) :
    (mt32Cls b).program (.new p gen :: .jump 0 1 :: List.replicate k (.draw 0 .u32)) =
      .done :: .done :: (List.range k).map fun i => .val (.o32 ((nthO mtNext32 i s').getD 0)) := by
  have key : ∀ (k n : Nat) (x : Mt32I) (ds : List PyVal), Mt32At (fun n => (nthO mtNext32 n s').getD 0) (n, none) x →
      (mt32Cls b).run ⟨[(gen, p, x)], ds⟩ (List.replicate k (.draw 0 .u32)) = (List.range' n k).map fun i => SRes.val (.o32 ((nthO mtNext32 i s').getD 0)) := by
    intro k
    induction k with
    | zero => intros; rfl
    | succ k ih =>
      intro n x ds hx
      obtain ⟨t, e1, e2⟩ := hx.draw b .u32
      have e : (mt32Cls b).step ⟨[(gen, p, x)], ds⟩ (.draw 0 .u32) = (.val (.o32 ((nthO mtNext32 n s').getD 0)), ⟨[(gen, p, mt32Put t)], ds⟩) := by
        have : (mt32Cls b).op .u32 (p, x) = some (.o32 ((nthO mtNext32 n s').getD 0), p, mt32Put t) := by
          show (mt32Op b .u32 (mt32View x)).map _ = _
          rw [e1]; rfl
        simp only [GCls.step, List.getElem?_cons_zero, this, List.set_cons_zero]
      rw [List.replicate_succ, GCls.run, e]
      dsimp only
      rw [ih (n + 1) _ ds e2, List.range'_succ, List.map_cons]
  have e1 : (mt32Cls b).step ⟨[], []⟩ (.new p gen) = (.done, ⟨[(gen, p, mt32Reseed p gen ⟨Vector.replicate 624 0, 0⟩)], []⟩) := rfl
  generalize mt32Reseed p gen ⟨Vector.replicate 624 0, 0⟩ = x at h e1
  have e2 : (mt32Cls b).step ⟨[(gen, p, x)], []⟩ (.jump 0 1) = (.done, ⟨[(gen, p, mt32Put s')], []⟩) := by
    have : ∃ f, (mt32Cls b).inplace = some f ∧ f 1 (p, x) = .ok (p, mt32Put s') := by
      refine ⟨_, rfl, ?_⟩
      rw [if_neg (by decide), if_neg (by decide)]
      show (match mtJumps 1 (mt32View x) with | some t => Made.ok (p, mt32Put t) | none => .ub) = _
      rw [h]
    obtain ⟨f, hf, hf1⟩ := this
    simp only [GCls.step, List.getElem?_cons_zero, hf, show (mt32Cls b).jump = some false from rfl, Bool.false_and, Bool.false_eq_true, if_false, hf1, List.set_cons_zero]
  rw [GCls.program, GCls.run, e1]
  dsimp only
  rw [GCls.run, e2]
  dsimp only
  rw [key k 0 _ [] (mt32Put_at s' (mt32_all s' h0 h1) h0 h1), List.range_eq_range']

/-- The promise for the same program. -/
theorem mt32_jump_promise (b p : Bool) (gen : Nat → U32) (k : Nat) :
    (mt32Spec b).program (.new p gen :: .jump 0 1 :: List.replicate k (.draw 0 .u32)) =
      .done :: .done :: (List.range k).map fun i => .val (.o32 (mt32Word (p, gen) (2 ^ 128 + i))) := by
  have key : ∀ (k n : Nat), (mt32Spec b).run ⟨[⟨p, gen, (p, gen), n, none⟩], []⟩ (List.replicate k (.draw 0 .u32)) =
      (List.range' n k).map fun i => SRes.val (.o32 (mt32Word (p, gen) i)) := by
    intro k
    induction k with
    | zero => intros; rfl
    | succ k ih =>
      intro n
      rw [List.replicate_succ, SSpec.run]
      have e : (mt32Spec b).step ⟨[⟨p, gen, (p, gen), n, none⟩], []⟩ (.draw 0 .u32) = (.val (.o32 (mt32Word (p, gen) n)), ⟨[⟨p, gen, (p, gen), n + 1, none⟩], []⟩) := rfl
      rw [e]
      dsimp only
      rw [ih (n + 1), List.range'_succ, List.map_cons]
  have e1 : (mt32Spec b).step ⟨[], []⟩ (.new p gen) = (.done, ⟨[⟨p, gen, (p, gen), 0, none⟩], []⟩) := rfl
  have e2 : (mt32Spec b).step ⟨[⟨p, gen, (p, gen), 0, none⟩], []⟩ (.jump 0 1) = (.done, ⟨[⟨p, gen, (p, gen), 2 ^ 128, none⟩], []⟩) := by
    have : ∃ f, (mt32Spec b).jump = some f ∧ f 1 = some (skipAt (2 ^ 128)) := ⟨_, rfl, if_pos (by decide)⟩
    obtain ⟨f, hf, hf1⟩ := this
    simp only [SSpec.step, List.getElem?_cons_zero, hf, hf1, List.set_cons_zero, skipAt, Nat.zero_add]
  rw [SSpec.program, SSpec.run, e1]
  dsimp only
  rw [SSpec.run, e2]
  dsimp only
  generalize 2 ^ 128 = J
  rw [key k J, List.range'_eq_map_range, List.map_map]
  rfl

theorem xor_and_mask {w : Nat} (a b c : BitVec w) : (a ^^^ b) &&& c = (a &&& c) ^^^ (b &&& c) := by
  apply BitVec.eq_of_getLsbD_eq
  intro i _
  simp only [BitVec.getLsbD_and, BitVec.getLsbD_xor]
  cases a.getLsbD i <;> cases b.getLsbD i <;> cases c.getLsbD i <;> rfl

/-- A solution of the recurrence whose array seeding by array can give, and whose words `2^128 + 1` and `2^128 + 625` differ. -/
theorem mt_far : ∃ x : Nat → U32, MtStd x ∧ x 0 = 0x80000000 ∧ x (2 ^ 128 + 1) ≠ x (2 ^ 128 + 625) := by
  have hJ : ∃ J, J = 2 ^ 128 ∧ 0 < J := ⟨_, rfl, by decide⟩
  obtain ⟨J, hJ, hJ0⟩ := hJ
  rw [← hJ]
  -- only the top bit of word 0 matters
  suffices h : ∃ x : MSol mt32, x.val 0 &&& 0x80000000 = 0x80000000 ∧ x.val (J + 1) ≠ x.val (J + 625) by
    obtain ⟨x, h1, h2⟩ := h
    have hx := mtStd_rec.2 x.sol
    refine ⟨Function.update x.val 0 0x80000000, fun k => ?_, Function.update_self .., by
      rwa [Function.update_of_ne (by omega), Function.update_of_ne (by omega)]⟩
    rw [Function.update_of_ne (show k + 624 ≠ 0 by omega), Function.update_of_ne (show k + 397 ≠ 0 by omega), Function.update_of_ne (show k + 1 ≠ 0 by omega), hx k]
    rcases Nat.eq_zero_or_pos k with rfl | hk
    · rw [Function.update_self, h1]
      rfl
    · rw [Function.update_of_ne (by omega)]
  let Y : MSol mt32 := ⟨mtSeq mt32 (mtUnit 398), mtSeq_rec mt32 _⟩
  have hY : ∀ i < 624, Y.val i = mtUnit 398 i := fun i hi => mtSeq_init mt32 _ hi
  obtain ⟨x, hx, _⟩ := mt_reach J Y
  have x1 : x.val (J + 1) = 0 := by rw [hx 0, hY 1 (by decide)]; rfl
  have x2 : x.val (J + 625) = 1 := by
    have := mtStd_rec.2 Y.sol 1
    rw [hY 1 (by decide), hY 398 (by decide), hY 2 (by decide)] at this
    rw [hx 624, this]; decide
  by_cases t : x.val 0 &&& 0x80000000 = 0x80000000
  · exact ⟨x, t, by rw [x1, x2]; decide⟩
  · have t0 : x.val 0 &&& 0x80000000 = 0 := by
      generalize x.val 0 = v at t ⊢
      revert v
      intro v hv
      apply BitVec.eq_of_getLsbD_eq
      intro i hi
      rw [BitVec.getLsbD_and, show BitVec.getLsbD (0x80000000 : U32) i = decide (i = 31) from by revert i; decide]
      by_cases h31 : i = 31
      · subst h31
        by_contra hc
        apply hv
        apply BitVec.eq_of_getLsbD_eq
        intro i hi
        rw [BitVec.getLsbD_and, show BitVec.getLsbD (0x80000000 : U32) i = decide (i = 31) from by revert i; decide]
        by_cases h31 : i = 31
        · subst h31
          simpa using hc
        · simp [h31]
      · simp [h31]
    let z : MSol mt32 := ⟨mtSeq mt32 fun _ => 0x80000000, mtSeq_rec mt32 _⟩
    have z0 : z.val 0 = 0x80000000 := mtSeq_init mt32 (fun _ => 0x80000000) (n := 0) (by decide)
    by_cases hz : z.val (J + 1) = z.val (J + 625)
    · refine ⟨z + x, ?_, ?_⟩
      · rw [MSol.add_val, z0, xor_and_mask, t0]; rfl
      · rw [MSol.add_val, MSol.add_val, hz, x1, x2]
        intro h
        have := congrArg (fun v => z.val (J + 625) ^^^ v) h
        simp only [← BitVec.xor_assoc, BitVec.xor_self, BitVec.zero_xor] at this
        exact absurd this (by decide)
    · exact ⟨z, by rw [z0]; rfl, hz⟩

/-- The code violates C95 for MT19937: there is a seed with which a new generator, after `jump()`, returns other words than those `2^128` further
on. (A new generator jumps 624 words short.) -/
theorem not_C95_mt19937 (hiFirst : Bool) : ∃ gen : Nat → U32,
    (mt32Cls hiFirst).program [.new false gen, .jump 0 1, .draw 0 .u32, .draw 0 .u32] ≠ (mt32Spec hiFirst).program [.new false gen, .jump 0 1, .draw 0 .u32, .draw 0 .u32] := by
  obtain ⟨x, hx, hx0, hne⟩ := mt_far
  obtain ⟨l, ⟨hl, _, hw⟩, _⟩ := C97_mt_seed.1 (fun _ => 0) x 0
  have hlm : (List.range 624).map (fun i => l.getD i 0) = l := by
    apply List.ext_getElem
    · rw [List.length_map, List.length_range, hl]
    · intro i h1 h2
      rw [List.getElem_map, List.getElem_range, List.getD_eq_getElem _ _ h2]
  obtain ⟨t1, t2, _⟩ := C37_mt19937_top l fun _ => 0
  have hk : ∀ i < 624, x i = (mtSeed32 l fun _ => 0).key i := by
    intro i hi
    rcases Nat.eq_zero_or_pos i with rfl | h0
    · rw [t1, hx0]
    · rw [hw i h0 hi]
  have hW : ∀ n, mt32Word (false, fun i => l.getD i 0) n = temper32 (x (624 + n)) := by
    intro n
    have hS : mt32Start (false, fun i => l.getD i 0) = mtSeed32 l fun _ => 0 := by
      show mtSeed32 ((List.range 624).map fun i => l.getD i 0) _ = _
      rw [hlm]
    rw [mt32Word, hS, C34_mt19937 _ (by rw [t2]; decide) (by rw [t2]) x hx hk n, t2]
    rfl
  -- the seeded array inside the instance
  let v := mt32View (mt32Reseed false (fun i => l.getD i 0) ⟨Vector.replicate 624 0, 0⟩)
  have vp : v.pos = 624 := by
    show (BitVec.ofInt 32 (mtSeed32 _ _).pos).toInt = 624
    rw [(C37_mt19937_top _ _).2.1]
    exact ofInt_pos624 624 (by decide) (by decide)
  have vk : ∀ i < 624, x i = v.key i := by
    intro i hi
    have e : v.key i = (mtSeed32 ((List.range 624).map fun i => l.getD i 0) (mt32View ⟨Vector.replicate 624 0, 0⟩).key).key i := by
      show (if h : i < 624 then (mt32Put (mtSeed32 _ _)).key[i] else 0) = _
      rw [dif_pos hi]
      simp only [mt32Put, Vector.getElem_ofFn]
    rw [e, hlm, hk i hi]
    exact (mtInitArray_agree mt32 1812433253 1664525 1566083941 30 0x80000000 l _ _).1 i hi
  obtain ⟨s', y, a1, a2, a3, a4, _, _⟩ := mt_jump_rot 1 ⟨v.key, 0⟩ (le_refl _) (show (0 : Int) < 624 by decide) x hx (fun i hi => by
    show x i = v.key ((0 + i) % 624)
    rw [Nat.zero_add, Nat.mod_eq_of_lt hi, vk i hi])
  have hp : s'.pos = 589 := by
    rw [a3, mtDeg_one]
    show ((((0 : Nat) + 19933) % 624 : Nat) : Int) = 589
    norm_num
  have hj : mtJumps 1 v = some s' := by
    rw [← a1, show v = ⟨v.key, 624⟩ from by rw [← vp]]
    exact mtJumps_full 1 (by decide) _ _ (le_refl _)
  refine ⟨fun i => l.getD i 0, fun h => hne ?_⟩
  have h1 := mt32_jump_draws hiFirst false (fun i => l.getD i 0) s' hj (by omega) (by omega) 2
  have h2 := mt32_jump_promise hiFirst false (fun i => l.getD i 0) 2
  have h3 := h1.symm.trans (Eq.trans h h2)
  have h4 := congrArg (fun l => l[3]?) h3
  rw [Nat.one_mul] at a4
  generalize 2 ^ 128 = J at *
  have h5 : (nthO mtNext32 1 s').getD 0 = mt32Word (false, fun i => l.getD i 0) (J + 1) := Out.o32.inj (SRes.val.inj (Option.some.inj h4))
  rw [mt_draws s' y a2 1 (by rw [hp]; decide), hW] at h5
  have h6 := temper32_inj' h5
  rw [show y.val 1 = x (J + 1) from a4 0] at h6
  rw [h6, show 624 + (J + 1) = J + 625 by omega]

/-! ### NumPy's mode -/

/-- Words three apart and a block apart can be given any differences. -/
theorem mt_far_surj (J : Nat) (y : MSol mt32) : ∃ u : MSol mt32, ∀ k, u.val (J + (k + 1)) ^^^ u.val (J + 624 + (k + 1)) = y.val (k + 1) := by
  have inj : Function.Injective (fun v : PV 19937 => (mt32T ^ J) v + (mt32T ^ (J + 624)) v) := by
    intro a b h
    have add : ∀ c d : PV 19937, ((mt32T ^ J) (c + d) + (mt32T ^ (J + 624)) (c + d)) = ((mt32T ^ J) c + (mt32T ^ (J + 624)) c) + ((mt32T ^ J) d + (mt32T ^ (J + 624)) d) := by
      intro c d
      rw [map_add, map_add]
      abel
    have h0 := add a b
    dsimp only at h
    rw [h, PV.add_self] at h0
    generalize hc : a + b = c at h0
    have hp : (mt32T ^ (J + 624)) c = (mt32T ^ J) c := by
      have := congrArg (fun z => (mt32T ^ J) c + z) h0
      rw [← add_assoc, PV.add_self, zero_add, add_zero] at this
      exact this
    have hi : Function.Injective (mt32T ^ J) := by
      rw [AddMonoid.End.coe_pow]
      exact (inj_of_ann PV.add_self mt32T mt32_ann.1 (by decide +kernel)).iterate J
    have hq : (mt32T ^ 624) c = c := by
      apply hi
      rw [← mul_apply, ← pow_add]
      exact hp
    rw [AddMonoid.End.coe_pow] at hq
    have hz : c = 0 := by
      by_contra hz
      exact absurd ((mt32_period c hz 624).1 hq) (fun hd => absurd (Nat.le_of_dvd (by decide) hd) (by decide +kernel))
    rw [← add_zero b, ← hz, ← hc, ← add_assoc, add_comm b a, add_assoc, PV.add_self, add_zero]
  have surj := Finite.injective_iff_surjective.1 inj
  obtain ⟨v, hv⟩ := surj (mtPhi mt32 y)
  obtain ⟨u, rfl⟩ := mtPhi_surj mt32 v
  refine ⟨u, fun k => ?_⟩
  have : mtPhi mt32 ((mtS mt32 ^ J) u + (mtS mt32 ^ (J + 624)) u) = mtPhi mt32 y := by
    rw [map_add, mt32Phi_pow, mt32Phi_pow]
    exact hv
  rw [← (mtPhi_eq this).1 k, MSol.add_val, mtS_pow, mtS_pow]

/-- A solution with zeros where the jump in NumPy's mode looks in the wrong place, and with a difference a block apart. -/
theorem mt_far_numpy (J : Nat) : ∃ u : MSol mt32, u.val 0 = 0 ∧ u.val 396 = 0 ∧ u.val 623 = 0 ∧ ∃ k, k < 3 ∧ u.val (J + (k + 1)) ≠ u.val (J + 624 + (k + 1)) := by
  let Y (c : Fin (2 ^ 96)) : MSol mt32 := ⟨mtSeq mt32 fun i => BitVec.ofNat 32 (c.val / 2 ^ (32 * (i - 1))), mtSeq_rec mt32 _⟩
  have hY : ∀ c i, i < 624 → (Y c).val i = BitVec.ofNat 32 (c.val / 2 ^ (32 * (i - 1))) := fun c i hi => mtSeq_init mt32 _ hi
  choose u hu using fun c => mt_far_surj J (Y c)
  obtain ⟨c, d, hcd, he⟩ := Fintype.exists_ne_map_eq_of_card_lt
    (fun c : Fin (2 ^ 96) => ((⟨((u c).val 0).toNat >>> 31, by have := ((u c).val 0).isLt; omega⟩ : Fin 2), ((u c).val 396).toFin, ((u c).val 623).toFin)) (by
      rw [Fintype.card_prod, Fintype.card_prod, Fintype.card_fin, Fintype.card_fin, Fintype.card_fin]
      decide)
  obtain ⟨e0, e1, e2⟩ : ((u c).val 0).toNat >>> 31 = ((u d).val 0).toNat >>> 31 ∧ (u c).val 396 = (u d).val 396 ∧ (u c).val 623 = (u d).val 623 := by
    simpa only [Prod.mk.injEq, Fin.mk.injEq, BitVec.toFin_inj] using he
  have hw := mtStd_rec.2 (u c + u d).sol
  -- word 0 is replaced by zero: its top bit is zero
  have t0 : (u c + u d).val 0 &&& 0x80000000 = 0 := by
    rw [MSol.add_val]
    apply BitVec.eq_of_getLsbD_eq
    intro i hi
    rw [BitVec.getLsbD_and, show BitVec.getLsbD (0x80000000 : U32) i = decide (i = 31) from by revert i; decide]
    by_cases h31 : i = 31
    · subst h31
      have b0 := congrArg (fun n => n.testBit 0) e0
      simp only [Nat.testBit_shiftRight, BitVec.testBit_toNat] at b0
      rw [BitVec.getLsbD_xor, show (31 : Nat) = 31 + 0 from rfl, b0]
      simp
    · simp [h31]
  have hrec : MtStd (Function.update (u c + u d).val 0 0) := fun k => by
    rw [Function.update_of_ne (show k + 624 ≠ 0 by omega), Function.update_of_ne (show k + 397 ≠ 0 by omega), Function.update_of_ne (show k + 1 ≠ 0 by omega), hw k]
    rcases Nat.eq_zero_or_pos k with rfl | hk
    · rw [Function.update_self, t0]
      rfl
    · rw [Function.update_of_ne (by omega)]
  refine ⟨⟨Function.update (u c + u d).val 0 0, mtStd_rec.1 hrec⟩, ?_, ?_, ?_, ?_⟩
  · show Function.update (u c + u d).val 0 0 0 = 0
    rw [Function.update_self]
  · show Function.update (u c + u d).val 0 0 396 = 0
    rw [Function.update_of_ne (by decide), MSol.add_val, e1, BitVec.xor_self]; rfl
  · show Function.update (u c + u d).val 0 0 623 = 0
    rw [Function.update_of_ne (by decide), MSol.add_val, e2, BitVec.xor_self]; rfl
  · by_contra hn
    push Not at hn
    apply hcd
    have hk : ∀ k < 3, (Y c).val (k + 1) = (Y d).val (k + 1) := by
      intro k hk
      have h1 : Function.update (u c + u d).val 0 0 (J + (k + 1)) = Function.update (u c + u d).val 0 0 (J + 624 + (k + 1)) := hn k hk
      rw [Function.update_of_ne (by omega), Function.update_of_ne (by omega), MSol.add_val, MSol.add_val] at h1
      rw [← hu c k, ← hu d k]
      generalize (u c).val (J + (k + 1)) = A at h1 ⊢
      generalize (u d).val (J + (k + 1)) = B at h1 ⊢
      generalize (u c).val (J + 624 + (k + 1)) = C at h1 ⊢
      generalize (u d).val (J + 624 + (k + 1)) = D at h1 ⊢
      have := congrArg (fun z => z ^^^ B ^^^ C) h1
      rw [BitVec.xor_assoc A B B, BitVec.xor_self, BitVec.xor_zero] at this
      rw [this, BitVec.xor_comm C D, BitVec.xor_assoc, BitVec.xor_assoc, BitVec.xor_comm C, BitVec.xor_assoc, BitVec.xor_self, BitVec.xor_zero, BitVec.xor_comm]
    apply Fin.ext
    have w0 := hk 0 (by decide)
    have w1 := hk 1 (by decide)
    have w2 := hk 2 (by decide)
    rw [hY _ _ (by decide), hY _ _ (by decide)] at w0 w1 w2
    have v0 := congrArg BitVec.toNat w0
    have v1 := congrArg BitVec.toNat w1
    have v2 := congrArg BitVec.toNat w2
    rw [BitVec.toNat_ofNat, BitVec.toNat_ofNat] at v0 v1 v2
    have hc := c.isLt
    have hd := d.isLt
    norm_num at v0 v1 v2 hc hd
    omega

/-- The code violates C95 for MT19937 in NumPy's mode as well: the seeded position is 623, and `jump` reads the array from there on as if its first words
came after the last. -/
theorem not_C95_mt19937_numpy (hiFirst : Bool) : ∃ gen : Nat → U32,
    (mt32Cls hiFirst).program (.new true gen :: .jump 0 1 :: List.replicate 5 (.draw 0 .u32)) ≠
      (mt32Spec hiFirst).program (.new true gen :: .jump 0 1 :: List.replicate 5 (.draw 0 .u32)) := by
  by_contra hall
  push Not at hall
  have hJ : ∃ J, J = 2 ^ 128 ∧ 0 < J := ⟨_, rfl, by decide⟩
  obtain ⟨J, hJ, hJ0⟩ := hJ
  -- what a seed of the right form gives
  have key : ∀ u : Nat → U32, MtStd u → u 0 = 0x80000000 → u 396 = 0 → u 623 = 0 → ∀ k < 3, u (J + (k + 1)) = u (J + 624 + (k + 1)) := by
    intro u hu u0 u396 u623 k hk
    have h1 := hall u
    let v := mt32View (mt32Reseed true u ⟨Vector.replicate 624 0, 0⟩)
    have numKey : ∀ o i, i < 624 → (mtSeedNumpy ((List.range 624).map u) o).key i = u i := by
      intro o i hi
      rw [(mtSeedNumpy_key _ o).1 i hi]
      rcases Nat.eq_zero_or_pos i with rfl | h0
      · rw [if_pos rfl, u0]
      · rw [if_neg (by omega), List.getD_eq_getElem _ _ (by rw [List.length_map, List.length_range]; exact hi), List.getElem_map, List.getElem_range]
    have vp : v.pos = 623 := by
      show (BitVec.ofInt 32 (mtSeedNumpy _ _).pos).toInt = 623
      rw [(C37_mt19937_top _ _).2.2.2]
      exact ofInt_pos624 623 (by decide) (by decide)
    have vk : ∀ i < 624, v.key i = u i := by
      intro i hi
      show (if h : i < 624 then (mt32Put (mtSeedNumpy _ _)).key[i] else 0) = _
      rw [dif_pos hi]
      simp only [mt32Put, Vector.getElem_ofFn]
      exact numKey _ i hi
    have hW : ∀ n, mt32Word (true, u) n = temper32 (u (623 + n)) := by
      intro n
      show (nthO mtNext32 n (mtSeedNumpy ((List.range 624).map u) fun _ => 0)).getD 0 = _
      have hp := (C37_mt19937_top ((List.range 624).map u) fun _ => 0).2.2.2
      rw [C34_mt19937 _ (by rw [hp]; decide) (by rw [hp]; decide) u hu (fun i hi => (numKey _ i hi).symm) n, hp]
      rfl
    -- the ring that the jump sees
    let x : Nat → U32 := fun i => if i = 0 then 0 else u (i - 1)
    have hx : MtStd x := fun i => by
      rcases Nat.eq_zero_or_pos i with rfl | hi
      · show u 623 = u 396 ^^^ (((0 &&& 0x80000000) ||| (u 0 &&& 0x7fffffff)) >>> 1) ^^^ (if (u 0).getLsbD 0 then 0x9908b0df else 0)
        rw [u623, u396, u0]
        decide
      · have := hu (i - 1)
        show (if i + 624 = 0 then 0 else u (i + 624 - 1)) = (if i + 397 = 0 then 0 else u (i + 397 - 1)) ^^^ ((((if i = 0 then 0 else u (i - 1)) &&& 0x80000000) |||
          ((if i + 1 = 0 then 0 else u (i + 1 - 1)) &&& 0x7fffffff)) >>> 1) ^^^ (if (if i + 1 = 0 then 0 else u (i + 1 - 1)).getLsbD 0 then 0x9908b0df else 0)
        rw [if_neg (by omega), if_neg (by omega), if_neg (by omega), if_neg (by omega), show i + 624 - 1 = i - 1 + 624 by omega, show i + 397 - 1 = i - 1 + 397 by omega,
          show i + 1 - 1 = i - 1 + 1 by omega]
        exact this
    obtain ⟨s', y, a1, a2, a3, a4, _, _⟩ := mt_jump_rot 1 v (by omega) (by omega) x hx (fun i hi => by
      rw [vp, show (623 : Int).toNat = 623 from rfl]
      rcases Nat.eq_zero_or_pos i with rfl | h0
      · show 0 = v.key (623 % 624)
        rw [vk _ (by decide), u623]
      · show (if i = 0 then 0 else u (i - 1)) = _
        rw [if_neg (by omega), show (623 + i) % 624 = i - 1 by omega, vk _ (by omega)])
    have hp : s'.pos = 588 := by
      rw [a3, mtDeg_one, vp]
      show ((((623 : Nat) + 19933) % 624 : Nat) : Int) = 588
      norm_num
    have g1 := mt32_jump_draws hiFirst true u s' a1 (by omega) (by omega) 5
    have g2 := mt32_jump_promise hiFirst true u 5
    have g3 := g1.symm.trans (h1.trans g2)
    rw [Nat.one_mul] at a4
    rw [← hJ] at a4 g3
    have g4 : ∀ i < 5, (nthO mtNext32 i s').getD 0 = mt32Word (true, u) (J + i) := by
      intro i hi
      have := congrArg (fun l => l[i + 2]?) g3
      simp only [List.getElem?_cons_succ, List.getElem?_map, List.getElem?_range hi, Option.map_some, Option.some.injEq, SRes.val.injEq, Out.o32.injEq] at this
      exact this
    have g5 := g4 (k + 2) (by omega)
    rw [mt_draws s' y a2 (k + 2) (by rw [hp]; show k + 2 < 624 - 588; omega), hW] at g5
    have g6 := temper32_inj' g5
    rw [show y.val (k + 2) = x (J + (k + 1 + 1)) from a4 (k + 1), show x (J + (k + 1 + 1)) = u (J + (k + 1)) from by
      show (if _ = 0 then 0 else u _) = _
      rw [if_neg (by omega)]; rfl] at g6
    rw [g6, show 623 + (J + (k + 2)) = J + 624 + (k + 1) by omega]
  obtain ⟨U, U0, U396, U623, k, hk, hne⟩ := mt_far_numpy J
  let z : MSol mt32 := ⟨mtSeq mt32 fun i => if i = 0 then 0x80000000 else 0, mtSeq_rec mt32 _⟩
  have hz : ∀ i < 624, z.val i = if i = 0 then 0x80000000 else 0 := fun i hi => mtSeq_init mt32 _ hi
  have k1 := key z.val (mtStd_rec.2 z.sol) (hz 0 (by decide)) (hz 396 (by decide)) (hz 623 (by decide)) k hk
  have k2 := key (z + U).val (mtStd_rec.2 (z + U).sol) (by rw [MSol.add_val, U0, hz 0 (by decide)]; rfl) (by rw [MSol.add_val, U396, hz 396 (by decide)]; rfl)
    (by rw [MSol.add_val, U623, hz 623 (by decide)]; rfl) k hk
  rw [MSol.add_val, MSol.add_val, k1] at k2
  apply hne
  have := congrArg (fun v => z.val (J + 624 + (k + 1)) ^^^ v) k2
  simpa only [← BitVec.xor_assoc, BitVec.xor_self, BitVec.zero_xor] using this

end Verif
