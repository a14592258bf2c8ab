import Verif.Props.Session2
import Verif.Props.SimdPower
import Verif.Props.SimdPeriod
import Verif.Model.Session7
import Mathlib.Data.Nat.Pairing

/-! C95 for SFMT: programs of calls agree with places in streams, and where a jump leads. -/

namespace Verif

/-- Many draws from one generator of a world of places. -/
theorem spec_draws {Par Seed Org : Type} (S : SSpec Par Seed Org) (k : Op) (p : Par) (sd : Seed) (o : Org) (sv : List (Org × (Nat × Option U32)))
    (f : Nat → Out) (pos : Nat → Nat × Option U32) (hd : ∀ i, S.draw o k (pos i) = (f i, pos (i + 1))) (n i : Nat) :
    S.run ⟨[⟨p, sd, o, pos i⟩], sv⟩ (List.replicate n (.draw 0 k)) = (List.range' i n).map fun i => .val (f i) := by
  induction n generalizing i with
  | zero => rfl
  | succ n ih =>
    rw [List.replicate_succ, SSpec.run]
    have : S.step ⟨[⟨p, sd, o, pos i⟩], sv⟩ (.draw 0 k) = (.val (f i), ⟨[⟨p, sd, o, pos (i + 1)⟩], sv⟩) := by
      simp only [SSpec.step, List.getElem?_cons_zero, hd, List.set_cons_zero]
    rw [this]
    dsimp only
    rw [ih, List.range'_succ, List.map_cons]

/-! ### SFMT -/

/-- The words of SFMT seeded with 624 words (they are all defined: `sfmt_words`). -/
def sfmtStream (gen : Nat → U32) (n : Nat) : U64 :=
  (nthO sfmtNext64 n (sfmtSeed ⟨fun _ => ⟨0, 0, 0, 0⟩, fun _ => 0, 312⟩ ((List.range 624).map gen))).getD 0

/-- A draw at a place given by the number of jumps made, each of which is worth `d` words, and the number of words taken besides. -/
def drawJumpAt {α : Type} (d : Nat) (w : Nat → α) (draw : (Nat → α) → Op → Nat × Option U32 → Out × (Nat × Option U32)) (o : Op) (a : Nat × Option U32) :
    Out × (Nat × Option U32) :=
  let r := draw (fun n => w (a.1.unpair.1 * d + n)) o (a.1.unpair.2, a.2)
  (r.1, Nat.pair a.1.unpair.1 r.2.1, r.2.2)

/-- A jump drops what is left of a block of `b` words. -/
def blockJumpAt (b : Nat) (n : Nat) (a : Nat × Option U32) : Nat × Option U32 :=
  (Nat.pair (a.1.unpair.1 + n) (b * ((a.1.unpair.2 + (b - 1)) / b)), none)

/-- What the number of a jump has to be for a jump to be made, and what is raised if it is not. -/
def simdJumps (k : Nat → Nat × Option U32 → Nat × Option U32) (n : Int) : Option (Nat × Option U32 → Nat × Option U32) :=
  if 0 ≤ n ∧ n < 2 ^ 31 then some (k n.toNat) else none
def simdJumpErr (n : Int) : PyErr := if -2 ^ 63 ≤ n ∧ n < 0 then .valueError else .overflowError

/-- The promise for SFMT with what a jump does: it drops what is left of a block of 312 words, and then `2^129` words. -/
def sfmtPlaces : SSpec Unit (Nat → U32) (Nat → U32) where
  start _ gen := .ok gen
  restart _ _ _ gen := .ok gen
  draw gen := drawJumpAt (2 ^ 129) (sfmtStream gen) draw64At
  jump := some (simdJumps (blockJumpAt 312))
  jumped := some (simdJumps (blockJumpAt 312))
  advance := none
  jumpErr := simdJumpErr

/-- The promise for SFMT with jumps of `d` words (sfmt.pyx:194, 219: `2^128`). -/
def sfmtDoc (d : Nat) : SSpec Unit (Nat → U32) (Nat → U32) where
  start _ gen := .ok gen
  restart _ _ _ gen := .ok gen
  draw gen := draw64At (sfmtStream gen)
  jump := some (simdJumps fun n => skipAt (d * n))
  jumped := some (simdJumps fun n => skipAt (d * n))
  advance := none
  jumpErr := simdJumpErr

theorem sfmt_same (s t : Sfmt) (h0 : 0 ≤ s.loc) (h1 : s.loc ≤ 312) (hl : t.loc = s.loc) (hb : ∀ i < 312, t.buf i = s.buf i)
    (hs : ∀ i < 156, t.st i = s.st i) (n : Nat) : nthO sfmtNext64 n t = nthO sfmtNext64 n s := by
  obtain ⟨x, hx, hk⟩ := sfmt_solution (fun i => (s.st i).pack)
  rw [C65_sfmt s h0 h1 x hx hk, C65_sfmt t (hl ▸ h0) (hl ▸ h1) x hx (fun i hi => by rw [hs i hi]; exact hk i hi), hl]
  split
  · rename_i h; rw [hb _ h]
  · rfl

theorem join_lo (a b : U32) : (join32 a b >>> 0).truncate 32 = b := by
  apply BitVec.eq_of_getLsbD_eq
  intro i hi
  simp [join32, hi]

theorem join_hi (a b : U32) : (join32 a b >>> 32).truncate 32 = a := by
  apply BitVec.eq_of_getLsbD_eq
  intro i hi
  simp [join32, BitVec.getLsbD_or, BitVec.getLsbD_shiftLeft, BitVec.getLsbD_setWidth, BitVec.getLsbD_ushiftRight, hi]
  rw [decide_eq_true (by omega), decide_eq_true (by omega), Bool.true_and, Bool.true_and]

/-- The array stored as 64-bit words and read as lanes of 32 bits. -/
theorem sfmt_lanes (st : Nat → W128) (i : Nat) (hi : i < 156) :
    words128 (fun j => if h : j < 624 then (view32 (Vector.ofFn fun i : Fin 312 => words64 st i.val))[j] else 0) i = st i := by
  have e : ∀ k < 4, (if h : 4 * i + k < 624 then (view32 (Vector.ofFn fun i : Fin 312 => words64 st i.val))[4 * i + k] else 0) =
      (words64 st ((4 * i + k) / 2) >>> (32 * ((4 * i + k) % 2))).truncate 32 := fun k hk => by
    rw [dif_pos (by omega)]
    simp only [view32, Vector.getElem_ofFn]
  have e0 := e 0 (by omega)
  have e1 := e 1 (by omega)
  have e2 := e 2 (by omega)
  have e3 := e 3 (by omega)
  rw [Nat.add_zero] at e0
  rw [words128, e0, e1, e2, e3]
  rw [show 4 * i / 2 = 2 * i by omega, show (4 * i + 1) / 2 = 2 * i by omega, show (4 * i + 2) / 2 = 2 * i + 1 by omega,
    show (4 * i + 3) / 2 = 2 * i + 1 by omega, show 4 * i % 2 = 0 by omega, show (4 * i + 1) % 2 = 1 by omega, show (4 * i + 2) % 2 = 0 by omega,
    show (4 * i + 3) % 2 = 1 by omega]
  simp only [words64, show 2 * i % 2 = 0 by omega, show (2 * i + 1) % 2 = 1 by omega, if_true, if_neg (show ¬ (1 = 0) by decide),
    show 2 * i / 2 = i by omega, show (2 * i + 1) / 2 = i by omega, Nat.mul_zero, Nat.mul_one]
  rw [join_lo, join_hi, join_lo, join_hi]

theorem ofInt_small (p : Int) (h0 : 0 ≤ p) (h1 : p < 2 ^ 31) : (BitVec.ofInt 32 p).toInt = p := by
  rw [BitVec.toInt_ofInt, Int.bmod_def]
  omega

/-- The instance is at the place: it returns the words from there on, and it is inside a block as the number of words taken says. -/
def SfmtAt (o : Nat → U32) (a : Nat × Option U32) (s : SfmtI) : Prop :=
  BufAtO sfmtNext64 (fun n => sfmtStream o (a.1.unpair.1 * 2 ^ 129 + n)) (a.1.unpair.2, a.2) (sfmtView s) ∧ 1 ≤ s.loc.toInt ∧ s.loc.toInt ≤ 312 ∧
    ((a.1.unpair.2 : Int) + 312 - s.loc.toInt) % 312 = 0

theorem sfmtPut_at {o : Nat → U32} {a : Nat × Option U32} (s : SfmtI) (b : Buf Sfmt)
    (h : BufAtO sfmtNext64 (fun n => sfmtStream o (a.1.unpair.1 * 2 ^ 129 + n)) (a.1.unpair.2, a.2) b)
    (h0 : 1 ≤ b.core.loc) (h1 : b.core.loc ≤ 312) (h2 : ((a.1.unpair.2 : Int) + 312 - b.core.loc) % 312 = 0) : SfmtAt o a (sfmtPut s b) := by
  have e : ((sfmtPut s b).loc).toInt = b.core.loc := ofInt_small _ (by omega) (by omega)
  refine ⟨⟨h.1.of_eq (sfmt_same b.core _ (by omega) h1 e (fun i hi => ?_) fun i hi => sfmt_lanes _ i hi), ?_, h.2.2⟩, e ▸ h0, e ▸ h1, e ▸ h2⟩
  · simp [sfmtView, sfmtPut, hi]
  · exact (halfI_ne _).trans h.2.1

theorem sfmt_words (gen : Nat → U32) : StreamO sfmtNext64 (sfmtStream gen) 0
    (sfmtSeed ⟨fun _ => ⟨0, 0, 0, 0⟩, fun _ => 0, 312⟩ ((List.range 624).map gen)) := fun i => by
  have h := C13_sfmt_partial (sfmtSeed ⟨fun _ => ⟨0, 0, 0, 0⟩, fun _ => 0, 312⟩ ((List.range 624).map gen)) (show (0 : Int) ≤ 312 by decide)
    (show (312 : Int) ≤ 312 by decide) i
  rw [Nat.zero_add, sfmtStream]
  obtain ⟨v, hv⟩ := Option.isSome_iff_exists.mp h
  rw [hv]; rfl

theorem unpair_zero_fst : (Nat.unpair 0).1 = 0 := by decide
theorem unpair_zero_snd : (Nat.unpair 0).2 = 0 := by decide

theorem sfmt_seeded (gen : Nat → U32) (s : SfmtI) : SfmtAt gen (0, none) (sfmtReseed gen s) := by
  have h : SfmtAt gen (0, none) (sfmtPut s ⟨sfmtSeed (sfmtView s).core ((List.range 624).map gen), false, 0⟩) := by
    refine sfmtPut_at s _ ?_ (show (1 : Int) ≤ 312 by decide) (show (312 : Int) ≤ 312 by decide) ?_
    · simp only [unpair_zero_fst, unpair_zero_snd, Nat.zero_mul, Nat.zero_add]
      exact BufAtO.start ((sfmt_words gen).of_eq (C14_sfmt _ _ _)) rfl
    · simp only [unpair_zero_snd]; show ((0 : Int) + 312 - 312) % 312 = 0; decide
  exact h

theorem sfmt_next_loc {c c' : Sfmt} {v : U64} (h : sfmtNext64 c = some (v, c')) (h0 : 1 ≤ c.loc) (h1 : c.loc ≤ 312) :
    c'.loc = if c.loc < 312 then c.loc + 1 else 1 := by
  rw [sfmtNext64] at h
  by_cases hl : c.loc < 312
  · rw [if_pos hl, if_pos (by omega)] at h
    rw [if_pos hl, ← (Prod.mk.inj (Option.some.inj h)).2]
  · rw [if_neg hl] at h
    rw [if_neg hl, ← (Prod.mk.inj (Option.some.inj h)).2]

theorem SfmtAt.draw {o : Nat → U32} {a : Nat × Option U32} {s : SfmtI} (h : SfmtAt o a s) (k : Op) :
    ∃ s', sfmtCls.op k s = some ((sfmtPlaces.draw o k a).1, s') ∧ SfmtAt o (sfmtPlaces.draw o k a).2 s' := by
  obtain ⟨h, h0, h1, h2⟩ := h
  obtain ⟨b', e1, e2, e3⟩ := BufAtO.drawWords h k
  refine ⟨sfmtPut s b', ?_, ?_⟩
  · show bufOpO sfmtNext64 sfmtView sfmtPut k s = _
    rw [bufOpO, e1]; rfl
  · have hl : (sfmtView s).core.loc = s.loc.toInt := rfl
    rw [show (sfmtPlaces.draw o k a).2 = (Nat.pair a.1.unpair.1
      (draw64At (fun n => sfmtStream o (a.1.unpair.1 * 2 ^ 129 + n)) k (a.1.unpair.2, a.2)).2.1,
      (draw64At (fun n => sfmtStream o (a.1.unpair.1 * 2 ^ 129 + n)) k (a.1.unpair.2, a.2)).2.2) from rfl]
    generalize draw64At (fun n => sfmtStream o (a.1.unpair.1 * 2 ^ 129 + n)) k (a.1.unpair.2, a.2) = r at e2 e3 ⊢
    have : 1 ≤ b'.core.loc ∧ b'.core.loc ≤ 312 ∧ ((r.2.1 : Int) + 312 - b'.core.loc) % 312 = 0 := by
      rcases e3 with ⟨e3, e4⟩ | ⟨v, e3, e4⟩
      · rw [e3, e4]; exact ⟨h0, h1, h2⟩
      · rw [sfmt_next_loc e3 h0 h1, e4, hl]
        dsimp only
        split <;> omega
    refine sfmtPut_at s b' ?_ this.1 this.2.1 ?_
    · simpa only [Nat.unpair_pair] using e2
    · simpa only [Nat.unpair_pair] using this.2.2

/-- Where a jump leads, in words. -/
theorem place_jump {J M n i l : Nat} (d b : Nat) (h0 : 1 ≤ l) (h1 : l ≤ b) (h2 : ∃ c, M + b = b * c + l) :
    J * d + (M + (i + n * d + (b - l))) = (J + n) * d + (b * ((M + (b - 1)) / b) + i) := by
  obtain ⟨c, h2⟩ := h2
  have e : (M + (b - 1)) / b = c := by
    refine Nat.div_eq_of_lt_le ?_ ?_ <;> rw [Nat.mul_comm] <;> [skip; rw [Nat.mul_add]] <;> omega
  rw [e, Nat.add_mul]
  generalize J * d = x
  generalize n * d = y
  omega

/-- The jump is the one of `C68_sfmt_partial`. -/
theorem SfmtAt.jump {o : Nat → U32} {a : Nat × Option U32} {s : SfmtI} (h : SfmtAt o a s) (n : Nat) :
    SfmtAt o (blockJumpAt 312 n a) (sfmtPut s ⟨sfmtJumps n (sfmtView s).core, false, 0⟩) := by
  obtain ⟨⟨h, -, -⟩, h0, h1, h2⟩ := h
  have hl : (sfmtView s).core.loc = s.loc.toInt := rfl
  have hs := h
  have hw : ∀ i, nthO sfmtNext64 i (sfmtJumps n (sfmtView s).core) = some (sfmtStream o
      (((a.1.unpair.1 + n) * 2 ^ 129) + (312 * ((a.1.unpair.2 + 311) / 312) + i))) := by
    intro i
    rw [C68_sfmt_partial _ (by omega) (by omega), hs]
    dsimp only
    rw [place_jump (2 ^ 129) 312 (l := (sfmtView s).core.loc.toNat) (by omega) (by omega) ⟨(a.1.unpair.2 + 311) / 312, by omega⟩]
  refine sfmtPut_at s _ ⟨fun i => ?_, rfl, fun v hv => by simp [blockJumpAt] at hv⟩ (show (1 : Int) ≤ 312 by decide) (show (312 : Int) ≤ 312 by decide) ?_
  · simp only [blockJumpAt, Nat.unpair_pair]
    exact hw i
  · simp only [blockJumpAt, Nat.unpair_pair]
    show ((312 * ((a.1.unpair.2 + 311) / 312) : Nat) + 312 - (312 : Int)) % 312 = 0
    omega

/-- `jump_inplace` on an instance. -/
theorem sfmt_inplace : ∃ f, sfmtCls.inplace = some f ∧ ∀ n s, f n s =
    if 0 ≤ n ∧ n < 2 ^ 31 then .ok (sfmtPut s ⟨sfmtJumps n.toNat (sfmtView s).core, false, 0⟩) else
      if n < 0 then .err .valueError else .err .overflowError := by
  refine ⟨_, rfl, fun n s => ?_⟩
  by_cases h0 : n < 0
  · rw [if_neg (by omega), if_pos h0]
    simp only [jumpInplace, if_pos h0]
  · by_cases h1 : n < 2 ^ 31
    · rw [if_pos ⟨by omega, h1⟩]
      simp only [jumpInplace, if_neg h0, if_neg (show ¬ n ≥ 2 ^ 31 by omega)]
      rfl
    · rw [if_neg (by omega), if_neg h0]
      simp only [jumpInplace, if_neg h0, if_pos (show n ≥ 2 ^ 31 by omega)]

theorem isIntp_iff (n : Int) : isIntp n = true ↔ -2 ^ 63 ≤ n ∧ n < 2 ^ 63 := by
  simp [isIntp]

/-- What `RefinesOn` asks of the jumps of SFMT and DSFMT. -/
theorem simd_jumps {σ Org : Type} {f : Int → σ → Made σ} {k : Nat → σ → σ} (hf : ∀ n s, f n s =
    if 0 ≤ n ∧ n < 2 ^ 31 then .ok (k n.toNat s) else if n < 0 then .err .valueError else .err .overflowError)
    {R : Org → Nat × Option U32 → σ → Prop} {g : Nat → Nat × Option U32 → Nat × Option U32} (hk : ∀ n o a s, R o a s → R o (g n a) (k n s)) (n : Int) :
    ((true && !isIntp n) = true ∧ simdJumps g n = none ∧ simdJumpErr n = .overflowError) ∨ ((true && !isIntp n) = false ∧
      ((∃ k, simdJumps g n = some k ∧ ∀ o a s, R o a s → ∃ s', f n s = .ok s' ∧ R o (k a) s') ∨
        (simdJumps g n = none ∧ ∀ o a s, R o a s → f n s = .err (simdJumpErr n)))) := by
  have hi := isIntp_iff n
  by_cases h : isIntp n = true
  · have h2 := hi.mp h
    rw [h]
    refine .inr ⟨rfl, ?_⟩
    by_cases h3 : 0 ≤ n ∧ n < 2 ^ 31
    · refine .inl ⟨g n.toNat, if_pos h3, fun o a s hr => ⟨_, (hf n s).trans (if_pos h3), hk _ _ _ _ hr⟩⟩
    · refine .inr ⟨if_neg h3, fun o a s hr => ?_⟩
      rw [hf, if_neg h3, simdJumpErr]
      by_cases h4 : n < 0
      · rw [if_pos h4, if_pos ⟨h2.1, h4⟩]
      · rw [if_neg h4, if_neg fun h => h4 h.2]
  · have h2 : ¬ (-2 ^ 63 ≤ n ∧ n < 2 ^ 63) := fun h' => h (hi.mpr h')
    rw [Bool.not_eq_true] at h
    rw [h]
    refine .inl ⟨rfl, if_neg fun h3 => h2 ⟨by omega, by omega⟩, if_neg fun h3 => h2 ⟨h3.1, by omega⟩⟩

theorem sfmt_jumps (n : Int) : ∃ f, sfmtCls.inplace = some f ∧
    (((true && !isIntp n) = true ∧ simdJumps (blockJumpAt 312) n = none ∧ simdJumpErr n = .overflowError) ∨ ((true && !isIntp n) = false ∧
      ((∃ k, simdJumps (blockJumpAt 312) n = some k ∧ ∀ o a s, SfmtAt o a s → ∃ s', f n s = .ok s' ∧ SfmtAt o (k a) s') ∨
        (simdJumps (blockJumpAt 312) n = none ∧ ∀ o a s, SfmtAt o a s → f n s = .err (simdJumpErr n))))) := by
  obtain ⟨f, hf, e⟩ := sfmt_inplace
  have hk : ∀ (n : Nat) (o : Nat → U32) (a : Nat × Option U32) (s : SfmtI), SfmtAt o a s →
      SfmtAt o (blockJumpAt 312 n a) (sfmtPut s ⟨sfmtJumps n (sfmtView s).core, false, 0⟩) := fun n _ _ _ h => h.jump n
  exact ⟨f, hf, simd_jumps (k := fun n s => sfmtPut s ⟨sfmtJumps n (sfmtView s).core, false, 0⟩) (R := SfmtAt) (g := blockJumpAt 312) e hk n⟩

theorem sfmt_refines : RefinesOn sfmtCls sfmtPlaces (fun _ => True) (fun _ o a s => SfmtAt o a s) where
  start _ gen _ := sfmt_seeded gen _
  restart _ gen _ _ _ _ _ _ := ⟨sfmt_seeded gen _, fun e he => by cases he⟩
  draw _ k _ _ o a s h := h.draw k
  load _ _ _ _ o a s _ _ _ t h _ := by
    refine ⟨s, ?_, h⟩
    rw [show sfmtCls.set = sfmtSet from rfl, show sfmtCls.get = sfmtGet from rfl]
    exact C11_sfmt s t
  jump _ n _ := by
    obtain ⟨f, hf, h⟩ := sfmt_jumps n
    refine .inr ⟨true, f, _, rfl, hf, rfl, h.imp id fun ⟨h1, h2⟩ => ⟨h1, h2.imp (fun ⟨k, h3, h4⟩ => ⟨k, h3, fun _ => h4⟩) fun ⟨h3, h4⟩ => ⟨h3, fun _ => h4⟩⟩⟩
  jumped _ n _ := by
    obtain ⟨f, hf, h⟩ := sfmt_jumps n
    refine .inr ⟨true, _, f, _, rfl, hf, rfl, h.imp id fun ⟨h1, h2⟩ => ⟨h1, fun _ o a s sd hs _ => ⟨_, s, rfl, ?_, ?_⟩⟩⟩
    · rw [show sfmtCls.set = sfmtSet from rfl, show sfmtCls.get = sfmtGet from rfl]
      exact C11_sfmt s _
    · rcases h2 with ⟨k, h3, h4⟩ | ⟨h3, h4⟩
      · obtain ⟨s', h5, h6⟩ := h4 o a s hs
        exact .inl ⟨k, s', h3, h5, h6⟩
      · exact .inr ⟨h3, h4 o a s hs⟩
  advance _ _ _ := .inr ⟨rfl, rfl⟩

/-- C95 for SFMT with what a jump does. Missing: the documented distance, and that only it is skipped (`not_C95_sfmt`). -/
theorem C95_sfmt_partial (os : List (SOp Unit (Nat → U32))) : sfmtCls.program os = sfmtPlaces.program os :=
  sfmt_refines.program os fun _ _ => trivial

theorem period_of_shift {κ α : Type} {nx : κ → Option (α × κ)} {w : Nat → α} {c : κ} (h : StreamO nx w 0 c) (K n : Nat)
    (he : ∀ i, w (K + n + i) = w (K + i)) : PeriodFrom nx c K n := fun k hk => by
  have := he (k - K)
  rw [h, h, Nat.zero_add, Nat.zero_add, show k + n = K + n + (k - K) by omega, this, show K + (k - K) = k by omega]

theorem not_dvd_small {n : Nat} (h0 : n ≠ 0) (h1 : n < 2 ^ 200) : ¬ 2 ^ 19937 - 1 ∣ n := fun h => by
  have h2 := Nat.le_of_dvd (by omega) h
  have h3 : 2 ^ 201 ≤ 2 ^ 19937 := Nat.pow_le_pow_right (by decide) (by decide)
  generalize 2 ^ 19937 = x at h2 h3
  omega

/-- Two programs of draws that agree. -/
theorem draws_agree {u v : Nat → U64} (h : ∀ n, (List.range' 0 n).map (fun i => SRes.val (.o64 (u i))) = (List.range' 0 n).map fun i => .val (.o64 (v i))) (i : Nat) :
    u i = v i := by
  have := congrArg (fun l : List SRes => l[i]?) (h (i + 1))
  simpa using this

theorem simdJumps_some (g : Nat → Nat × Option U32 → Nat × Option U32) (n : Nat) (h : n < 2 ^ 31) : simdJumps g n = some (g n) := by
  rw [simdJumps, if_pos ⟨by omega, by omega⟩, Int.toNat_natCast]

theorem drawJump_u64 (d : Nat) (w : Nat → U64) (j m : Nat) : drawJumpAt d w draw64At .u64 (Nat.pair j m, none) =
    (.o64 (w (j * d + m)), Nat.pair j (m + 1), none) := by
  simp only [drawJumpAt, Nat.unpair_pair, draw64At]

/-- C95 fails for SFMT with jumps of any fixed distance: after one draw `jump(0)` drops 311 words, from every seed. -/
theorem not_C95_sfmt (d : Nat) (gen : Nat → U32) : ∃ os, sfmtCls.program os ≠ (sfmtDoc d).program os := by
  by_contra hc
  push Not at hc
  have hw := sfmt_words gen
  have hp : ∀ n, sfmtPlaces.program (.new () gen :: .draw 0 .u64 :: .jump 0 ((0 : Nat) : Int) :: List.replicate n (.draw 0 .u64)) =
      .done :: .val (.o64 (sfmtStream gen 0)) :: .done :: (List.range' 0 n).map fun i => .val (.o64 (sfmtStream gen (312 + i))) := fun n => by
    have := spec_draws sfmtPlaces .u64 () gen gen [] (fun i => .o64 (sfmtStream gen (0 * 2 ^ 129 + (312 + i)))) (fun i => (Nat.pair 0 (312 + i), none))
      (fun i => drawJump_u64 _ _ _ _) n 0
    simp only [Nat.zero_mul, Nat.zero_add] at this
    rw [← this]
    have e0 : (0 : Nat) = Nat.pair 0 0 := by decide
    have e1 : sfmtPlaces.draw gen .u64 (0, none) = (.o64 (sfmtStream gen 0), Nat.pair 0 1, none) :=
      (congrArg (fun m => sfmtPlaces.draw gen .u64 (m, none)) e0).trans ((drawJump_u64 _ _ _ _).trans (by rw [Nat.zero_mul]))
    have e2 : blockJumpAt 312 0 (Nat.pair 0 1, none) = (Nat.pair 0 (312 + 0), none) := by simp [blockJumpAt]
    simp only [SSpec.program, SSpec.run, SSpec.step, show sfmtPlaces.start () gen = .ok gen from rfl, List.nil_append, List.getElem?_cons_zero, e1, List.set_cons_zero,
      show sfmtPlaces.jump = some (simdJumps (blockJumpAt 312)) from rfl, simdJumps_some _ 0 (by decide), e2]
  have hq : ∀ n, (sfmtDoc d).program (.new () gen :: .draw 0 .u64 :: .jump 0 ((0 : Nat) : Int) :: List.replicate n (.draw 0 .u64)) =
      .done :: .val (.o64 (sfmtStream gen 0)) :: .done :: (List.range' 0 n).map fun i => .val (.o64 (sfmtStream gen (1 + i))) := fun n => by
    rw [← spec_draws (sfmtDoc d) .u64 () gen gen [] (fun i => .o64 (sfmtStream gen (1 + i))) (fun i => (1 + i, none)) (fun i => rfl) n 0]
    simp only [SSpec.program, SSpec.run, SSpec.step, show (sfmtDoc d).start () gen = .ok gen from rfl, List.nil_append, List.getElem?_cons_zero,
      show (sfmtDoc d).draw gen .u64 (0, none) = (.o64 (sfmtStream gen 0), 1, none) from rfl, List.set_cons_zero,
      show (sfmtDoc d).jump = some (simdJumps fun n => skipAt (d * n)) from rfl, simdJumps_some _ 0 (by decide), skipAt, Nat.mul_zero]
  have he := draws_agree (u := fun i => sfmtStream gen (312 + i)) (v := fun i => sfmtStream gen (1 + i)) fun n => by
    have := hc (.new () gen :: .draw 0 .u64 :: .jump 0 ((0 : Nat) : Int) :: List.replicate n (.draw 0 .u64))
    rw [C95_sfmt_partial, hp, hq] at this
    exact (List.cons.inj (List.cons.inj (List.cons.inj this).2).2).2
  exact not_dvd_small (by decide) (by decide) ((C77_sfmt_seeded _ _).2 1 311 (period_of_shift hw 1 311 fun i => he i))

/-- C95 fails for SFMT with the documented jumps of `2^128` numbers also between blocks: from every seed a jump makes twice as many steps. -/
theorem not_C95_sfmt_distance (gen : Nat → U32) : ∃ n, sfmtCls.program (.new () gen :: .jump 0 1 :: List.replicate n (.draw 0 .u64)) ≠
    (sfmtDoc (2 ^ 128)).program (.new () gen :: .jump 0 1 :: List.replicate n (.draw 0 .u64)) := by
  by_contra hc
  push Not at hc
  have hw := sfmt_words gen
  have hp : ∀ n, sfmtPlaces.program (.new () gen :: .jump 0 ((1 : Nat) : Int) :: List.replicate n (.draw 0 .u64)) =
      .done :: .done :: (List.range' 0 n).map fun i => .val (.o64 (sfmtStream gen (1 * 2 ^ 129 + i))) := fun n => by
    rw [← spec_draws sfmtPlaces .u64 () gen gen [] (fun i => .o64 (sfmtStream gen (1 * 2 ^ 129 + i))) (fun i => (Nat.pair 1 i, none))
      (fun i => drawJump_u64 _ _ _ _) n 0]
    have e2 : blockJumpAt 312 1 (0, none) = (Nat.pair 1 0, none) := by decide
    simp only [SSpec.program, SSpec.run, SSpec.step, show sfmtPlaces.start () gen = .ok gen from rfl, List.nil_append, List.getElem?_cons_zero, List.set_cons_zero,
      show sfmtPlaces.jump = some (simdJumps (blockJumpAt 312)) from rfl, simdJumps_some _ 1 (by decide), e2]
  have hq : ∀ n, (sfmtDoc (2 ^ 128)).program (.new () gen :: .jump 0 ((1 : Nat) : Int) :: List.replicate n (.draw 0 .u64)) =
      .done :: .done :: (List.range' 0 n).map fun i => .val (.o64 (sfmtStream gen (2 ^ 128 * 1 + i))) := fun n => by
    rw [← spec_draws (sfmtDoc (2 ^ 128)) .u64 () gen gen [] (fun i => .o64 (sfmtStream gen (2 ^ 128 * 1 + i))) (fun i => (2 ^ 128 * 1 + i, none)) (fun i => rfl) n 0]
    simp only [SSpec.program, SSpec.run, SSpec.step, show (sfmtDoc (2 ^ 128)).start () gen = .ok gen from rfl, List.nil_append, List.getElem?_cons_zero,
      List.set_cons_zero, show (sfmtDoc (2 ^ 128)).jump = some (simdJumps fun n => skipAt (2 ^ 128 * n)) from rfl, simdJumps_some _ 1 (by decide), skipAt, Nat.zero_add,
      Nat.add_zero]
  have he := draws_agree (u := fun i => sfmtStream gen (1 * 2 ^ 129 + i)) (v := fun i => sfmtStream gen (2 ^ 128 * 1 + i)) fun n => by
    have := hc n
    rw [C95_sfmt_partial] at this
    exact (List.cons.inj (List.cons.inj ((hp n).symm.trans (this.trans (hq n)))).2).2
  refine not_dvd_small (n := 2 ^ 128) (by decide) (by decide) ((C77_sfmt_seeded _ _).2 (2 ^ 128) (2 ^ 128) (period_of_shift hw _ _ fun i => ?_))
  have := he i
  rwa [show 1 * 2 ^ 129 = 2 ^ 128 + 2 ^ 128 by decide, Nat.mul_one] at this

/-- Numbers of jumps that are refused leave everything as it was; a half of a word is kept over `save` and `load`. -/
example (gen : Nat → U32) : sfmtCls.program [.new () gen, .jump 0 (-1), .jumped 0 (2 ^ 31), .jump 0 (-2 ^ 70), .draw 0 .u32, .save 0, .jumped 0 3, .load 1 0,
    .advance 0 1, .draw 0 .u32, .draw 1 .u32] = [.done, .err .valueError, .err .overflowError, .err .overflowError,
      .val (.o32 (BitVec.ofNat 32 ((sfmtStream gen 0).toNat % 2 ^ 32))), .done, .done, .done, .noMethod,
      .val (.o32 (BitVec.ofNat 32 ((sfmtStream gen 0).toNat / 2 ^ 32))), .val (.o32 (BitVec.ofNat 32 ((sfmtStream gen 0).toNat / 2 ^ 32)))] := by
  rw [C95_sfmt_partial, sfmtPlaces]
  simp [SSpec.program, SSpec.run, SSpec.step, simdJumps, simdJumpErr, blockJumpAt, drawJumpAt, draw64At]

end Verif
