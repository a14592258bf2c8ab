import Verif.Model.Session5
import Verif.Props.Session
import Verif.Props.PcgOutput
import Verif.Props.Squares

/-! C95 for LCG128Mix and Squares. -/

namespace Verif

/-! ### LCG128Mix -/

/-- The multiplier, the multiplier of the output function `dxsm`, whether the state is stepped before the output, the output function and the
seed. -/
structure LcgOrg where
  mult : U128
  dxsm : U64
  post : Bool
  out : String
  seed : (Nat → U64) × Option U128

/-- The output function with a name. -/
def lcgOut (dxsm : U64) (name : String) (x : U128) : U64 :=
  let hi := x.extractLsb' 64 64
  let lo := x.extractLsb' 0 64
  if name = "xsl-rr" then Pcg.outXslRr hi lo
  else if name = "dxsm" then Pcg.outDxsm hi lo dxsm
  else if name = "murmur3" then Pcg.outMurmur3 hi lo
  else if name = "upper" then hi
  else lo

/-- The increment: twice the stream number, plus one. -/
def lcgInc (o : LcgOrg) : U128 := 2 * o.seed.2.getD (o.seed.1 2 ++ o.seed.1 3) + 1

/-- Word `n`: the output function at state `n` (or `n + 1`) of the linear congruential generator. -/
def lcgWord (o : LcgOrg) (n : Nat) : U64 :=
  lcgOut o.dxsm o.out ((fun x => x * o.mult + lcgInc o)^[if o.post then n + 1 else n] ((lcgInc o + (o.seed.1 0 ++ o.seed.1 1)) * o.mult + lcgInc o))

/-- The promise for LCG128Mix: five output functions, odd multipliers; `seed` keeps everything but the seed; `jumped` goes a fixed multiple of
`iter` ahead, modulo the period `2^128`. There is no `jump`. -/
def lcgSpec : SSpec LcgArgs ((Nat → U64) × Option U128) LcgOrg where
  start p sd :=
    if p.out ∈ ["xsl-rr", "dxsm", "murmur3", "upper", "lower"] ∧ (0 < p.mult ∧ p.mult < 2 ^ 128 ∧ p.mult % 2 = 1) ∧
      (0 < p.dxsm ∧ p.dxsm < 2 ^ 64 ∧ p.dxsm % 2 = 1) then .ok ⟨BitVec.ofInt 128 p.mult, BitVec.ofInt 64 p.dxsm, p.post, p.out, sd⟩
    else .err .valueError
  restart _ o _ sd := .ok { o with seed := sd }
  draw o := draw64At (lcgWord o)
  jump := none
  jumped := some fun n => some (skipAt (210306068529402873165736369884012333108 * n % 2 ^ 128).toNat)
  advance := some fun d => skipAt (d % 2 ^ 128).toNat

/-- The output function of a name, as the model has it. -/
def lcgOutput (name : String) : Lcg128.Output :=
  if name = "xsl-rr" then .xslRr else if name = "dxsm" then .dxsm else if name = "murmur3" then .murmur3 else if name = "upper" then .upper else .lower

/-- The seeded core. -/
def lcgCore (o : LcgOrg) : Lcg128.Core :=
  let r := Pcg.initPcg o.mult (o.seed.1 0 ++ o.seed.1 1) (o.seed.2.getD (o.seed.1 2 ++ o.seed.1 3))
  ⟨r.1, r.2, o.mult, o.dxsm, o.post, lcgOutput o.out⟩

theorem two_mul_add_one (x : U128) : (x <<< 1) ||| 1#128 = 2 * x + 1 := by
  apply BitVec.eq_of_toNat_eq
  rw [BitVec.toNat_or, BitVec.toNat_shiftLeft, Nat.shiftLeft_eq]
  have h : (x.toNat * 2 ^ 1 % 2 ^ 128) = 2 * (x.toNat % 2 ^ 127) := by omega
  rw [h, show (1#128).toNat = 1 from rfl, show 2 * (x.toNat % 2 ^ 127) = (x.toNat % 2 ^ 127) <<< 1 by rw [Nat.shiftLeft_eq]; omega,
    ← Nat.shiftLeft_add_eq_or_of_lt (by decide : (1 : Nat) < 2 ^ 1), Nat.shiftLeft_eq]
  simp only [BitVec.toNat_add, BitVec.toNat_mul, show (2 : U128).toNat = 2 from rfl, show (1 : U128).toNat = 1 from rfl]
  omega

theorem lcgWord_eq (o : LcgOrg) (n : Nat) : nthDraw Lcg128.next n (lcgCore o) = lcgWord o n := by
  rw [Lcg128.lcg128_nth, lcgWord]
  have hi : (lcgCore o).inc = lcgInc o := two_mul_add_one _
  have hs : (lcgCore o).state = (lcgInc o + (o.seed.1 0 ++ o.seed.1 1)) * o.mult + lcgInc o := by
    show Pcg.lcgStep o.mult _ (Pcg.lcgStep o.mult _ 0#128 + _) = _
    rw [two_mul_add_one]
    simp [Pcg.lcgStep, lcgInc]
  have hst : Pcg.lcgStep o.mult (lcgInc o) = fun x => x * o.mult + lcgInc o := rfl
  rw [hi, show (lcgCore o).multiplier = o.mult from rfl, hst]
  have hf : (fun x => x * o.mult + lcgInc o)^[n] (Lcg128.firstOf (lcgCore o)) =
      (fun x => x * o.mult + lcgInc o)^[if o.post then n + 1 else n] ((lcgInc o + (o.seed.1 0 ++ o.seed.1 1)) * o.mult + lcgInc o) := by
    rw [Lcg128.firstOf, hs, hi, show (lcgCore o).post = o.post from rfl, show (lcgCore o).multiplier = o.mult from rfl, hst]
    cases o.post
    · rfl
    · rw [if_pos rfl, if_pos rfl, Function.iterate_succ_apply]
  rw [hf]
  generalize (fun x => x * o.mult + lcgInc o)^[if o.post then n + 1 else n] _ = X
  have h1 : Pcg.hi X = X.extractLsb' 64 64 := by
    apply BitVec.eq_of_toNat_eq; simp [Pcg.hi, Nat.shiftRight_eq_div_pow]
  have h2 : Pcg.lo X = X.extractLsb' 0 64 := by
    apply BitVec.eq_of_toNat_eq; simp [Pcg.lo]
  rw [lcgOut, Lcg128.outFn, ← h1, ← h2, show (lcgCore o).output = lcgOutput o.out from rfl, lcgOutput]
  repeat' split
  all_goals first | rfl | simp_all

/-- An instance of LCG128Mix at a place. -/
def LcgAt (ext : Nat → U64 → U64 → U64) (o : LcgOrg) (a : Nat × Option U32) (s : LcgMixI) : Prop :=
  (s.cfunc = none ∧ outputName s.outputIdx = some o.out ∧ s.post = halfI o.post ∧ s.mult.toNat % 2 = 1) ∧
    BufAt Lcg128.next (lcgCore o) a (s.toBuf ext)

theorem lookup_output (n : String) (i : U32) (h : outputLookup.lookup n = some i) : n ∈ ["xsl-rr", "dxsm", "murmur3", "upper", "lower"] ∧
    outputName i = some n ∧ ∀ ext (s : LcgMixI), s.outputIdx = i → s.output ext = lcgOutput n := by
  simp only [outputLookup, List.lookup_cons, List.lookup_nil] at h
  repeat' split at h
  all_goals simp_all
  all_goals subst h
  all_goals refine ⟨by decide, fun ext s hs => ?_⟩
  all_goals rw [LcgMixI.output, hs]; rfl

theorem lookup_none (n : String) (h : outputLookup.lookup n = none) : n ∉ ["xsl-rr", "dxsm", "murmur3", "upper", "lower"] := by
  intro hn
  simp only [List.mem_cons, List.not_mem_nil, or_false] at hn
  rcases hn with rfl | rfl | rfl | rfl | rfl <;> revert h <;> decide

theorem outputName_output {s : LcgMixI} {n : String} (h : outputName s.outputIdx = some n) (ext : Nat → U64 → U64 → U64) :
    s.output ext = lcgOutput n :=
  (lookup_output n s.outputIdx (outputName_lookup _ _ h)).2.2 ext s rfl

theorem lcg_seed_at (ext : Nat → U64 → U64 → U64) (s : LcgMixI) (m : U128) (sd : (Nat → U64) × Option U128) (d : U64) (post : Bool) (n : String)
    (h1 : s.cfunc = none) (h2 : outputName s.outputIdx = some n) (h3 : s.post = halfI post) (h4 : m.toNat % 2 = 1) (h5 : s.dxsm = d) :
    LcgAt ext ⟨m, d, post, n, sd⟩ (0, none) (lcgMixReseed m sd.1 sd.2 s) := by
  refine ⟨⟨h1, h2, h3, h4⟩, BufAt.start _ _ _ ?_ rfl⟩
  have ho : (lcgMixReseed m sd.1 sd.2 s).output ext = lcgOutput n := outputName_output (s := lcgMixReseed m sd.1 sd.2 s) h2 ext
  show (⟨_, _, _, _, _, _⟩ : Lcg128.Core) = _
  rw [ho]
  simp only [lcgMixReseed, lcgCore, const128_append, h3, h5]
  cases post <;> rfl

theorem lcg_op_fixed (k : Op) (b : Buf Lcg128.Core) : (Buf.op Lcg128.next k b).2.core = { b.core with state := (Buf.op Lcg128.next k b).2.core.state } := by
  have hn : ∀ c, (Lcg128.next c).2 = { c with state := (Lcg128.next c).2.state } := fun c => rfl
  cases k with
  | u64 => exact hn _
  | dbl => exact hn _
  | u32 =>
    simp only [Buf.op, Buf.next32]
    split
    · rfl
    · exact hn _

theorem lcg_toBuf_put (ext : Nat → U64 → U64 → U64) (s : LcgMixI) (b : Buf Lcg128.Core) (x : U128)
    (h : b.core = { (s.toBuf ext).core with state := x }) : (lcgPut s b).toBuf ext = b := by
  obtain ⟨c, ha, u⟩ := b
  dsimp only at h
  subst h
  show (⟨_, _, _⟩ : Buf Lcg128.Core) = _
  rw [show ((lcgPut s ⟨{ (s.toBuf ext).core with state := x }, ha, u⟩).has != 0) = ha from halfI_ne _]
  rfl

theorem LcgAt.draw {ext : Nat → U64 → U64 → U64} {o : LcgOrg} {a : Nat × Option U32} {s : LcgMixI} (h : LcgAt ext o a s) (k : Op) :
    (Buf.op Lcg128.next k (s.toBuf ext)).1 = (draw64At (lcgWord o) k a).1 ∧
      LcgAt ext o (draw64At (lcgWord o) k a).2 (lcgPut s (Buf.op Lcg128.next k (s.toBuf ext)).2) := by
  obtain ⟨h1, h2⟩ := h
  have := h2.draw k
  simp only [lcgWord_eq] at this
  refine ⟨this.1, h1, ?_⟩
  rw [lcg_toBuf_put ext s _ _ (lcg_op_fixed k _)]
  exact this.2

theorem LcgAt.advance {ext : Nat → U64 → U64 → U64} {o : LcgOrg} {a : Nat × Option U32} {s : LcgMixI} (h : LcgAt ext o a s) (d : Int) (n : Nat)
    (hn : (n : Int) ≡ d [ZMOD 2 ^ 128]) : LcgAt ext o (a.1 + n, none) (lcgAdvI ext d s) := by
  obtain ⟨h1, h2⟩ := h
  refine ⟨h1, ?_⟩
  rw [lcgAdvI, lcg_toBuf_put ext s (Lcg128.advance (s.toBuf ext) d) (Lcg128.advance (s.toBuf ext) d).core.state rfl]
  exact h2.skip n (Lcg128.C03_lcg128_advance _ h1.2.2.2 d n hn) rfl

theorem LcgAt.jump {ext : Nat → U64 → U64 → U64} {o : LcgOrg} {a : Nat × Option U32} {s : LcgMixI} (h : LcgAt ext o a s) (i : Int) :
    LcgAt ext o (a.1 + (210306068529402873165736369884012333108 * i % 2 ^ 128).toNat, none) (lcgJumpI ext i s) := by
  refine h.advance _ _ ?_
  refine (emod_modEq _ _ (by norm_num)).trans ?_
  have e : Pcg.phi128 = 210306068529402873165736369884012333108 := by decide +kernel
  rw [e]
  exact Int.modEq_iff_dvd.mpr ⟨-Int.fdiv (210306068529402873165736369884012333108 * i) (2 ^ 128), by ring⟩

theorem LcgAt.mult {ext : Nat → U64 → U64 → U64} {o : LcgOrg} {a : Nat × Option U32} {s : LcgMixI} (h : LcgAt ext o a s) :
    s.mult = o.mult ∧ s.dxsm = o.dxsm := by
  have := h.2.1
  rw [Lcg128.step_iterate] at this
  exact ⟨congrArg Lcg128.Core.multiplier this, congrArg Lcg128.Core.dxsmMult this⟩

theorem lcg_load {ext : Nat → U64 → U64 → U64} {o o' : LcgOrg} {a a' : Nat × Option U32} {s t : LcgMixI} (h : LcgAt ext o a s)
    (ht : LcgAt ext o' a' t) : ∃ v s', lcgMixGet s = .ok v ∧ lcgMixSet v t = (.ok (), s') ∧ LcgAt ext o a s' := by
  obtain ⟨⟨h1, h2, h3, h4⟩, h5⟩ := h
  have hp : s.post = 0 ∨ s.post = 1 := by
    rw [h3]; cases o.post
    · exact Or.inl rfl
    · exact Or.inr rfl
  obtain ⟨v, e1, e2⟩ := lcg_copy_named s t hp h1 _ h2
  refine ⟨v, _, e1, e2, ⟨ht.1.1, h2, h3, h4⟩, ?_⟩
  have ho : ({ s with outputFunc := t.outputFunc, cfunc := t.cfunc } : LcgMixI).output ext = s.output ext :=
    (outputName_output (s := { s with outputFunc := t.outputFunc, cfunc := t.cfunc }) h2 ext).trans (outputName_output h2 ext).symm
  have : ({ s with outputFunc := t.outputFunc, cfunc := t.cfunc } : LcgMixI).toBuf ext = s.toBuf ext := by
    show (⟨⟨_, _, _, _, _, _⟩, _, _⟩ : Buf Lcg128.Core) = _
    rw [ho]
    rfl
  rw [this]
  exact h5

theorem odd_ofInt {w : Nat} (hw : 0 < w) (m : Int) (h : m % 2 = 1) : (BitVec.ofInt w m).toNat % 2 = 1 := by
  rw [BitVec.toNat_ofInt]
  have e : (2 ^ w : Nat) = 2 * 2 ^ (w - 1) := by rw [← pow_succ', Nat.sub_add_cancel hw]
  have h1 : m % ((2 ^ w : Nat) : Int) % 2 = m % 2 := by
    rw [e, Nat.cast_mul]; exact Int.emod_emod_of_dvd _ ⟨_, rfl⟩
  have h2 : 0 ≤ m % ((2 ^ w : Nat) : Int) := Int.emod_nonneg _ (by positivity)
  omega

theorem lcgNew_rel (ext : Nat → U64 → U64 → U64) (p : LcgArgs) (sd : (Nat → U64) × Option U128) :
    MadeRel (fun o s => s.1 = BitVec.ofInt 128 p.mult ∧ o.mult = s.1 ∧ LcgAt ext o (0, none) s.2) (lcgSpec.start p sd) (lcgNew p sd) := by
  show MadeRel _ (if _ then _ else _) _
  rw [lcgNew]
  cases hl : outputLookup.lookup p.out with
  | none => rw [if_neg fun h => lookup_none _ hl h.1]; rfl
  | some i =>
    obtain ⟨h1, h2, -⟩ := lookup_output _ _ hl
    dsimp only
    by_cases hm : 0 < p.mult ∧ p.mult < 2 ^ 128 ∧ p.mult % 2 = 1
    · by_cases hd : 0 < p.dxsm ∧ p.dxsm < 2 ^ 64 ∧ p.dxsm % 2 = 1
      · rw [if_pos ⟨h1, hm, hd⟩, if_neg (by omega), if_neg (by omega)]
        exact ⟨rfl, rfl, lcg_seed_at ext _ _ sd _ _ _ rfl h2 rfl (odd_ofInt (by decide) _ hm.2.2) rfl⟩
      · rw [if_neg fun h => hd h.2.2, if_neg (by omega), if_pos (by omega)]; rfl
    · rw [if_neg fun h => hm h.2.1, if_pos (by omega)]; rfl

/-- The calls for which C95 holds: all instances are made with the multiplier `m`, and there is no `jumped` unless it is the default. -/
def LcgCalls (m : Int) : SOp LcgArgs ((Nat → U64) × Option U128) → Prop
  | .new p _ => p.mult = m
  | .jumped _ _ => m = lcgDefault.mult
  | _ => True

theorem lcg_refines (ext : Nat → U64 → U64 → U64) (m : Int) : RefinesOn (lcgCls ext) lcgSpec (LcgCalls m)
    (fun _ o a s => s.1 = BitVec.ofInt 128 m ∧ o.mult = s.1 ∧ LcgAt ext o a s.2) where
  start p sd hp := by
    obtain rfl : p.mult = m := hp
    exact lcgNew_rel ext p sd
  restart i sd _ p o a s h := by
    obtain ⟨h1, h2, h3⟩ := h
    refine ⟨⟨h1, h2, ?_⟩, fun e he => by cases he⟩
    have := lcg_seed_at ext s.2 s.1 sd o.dxsm o.post o.out h3.1.1 h3.1.2.1 h3.1.2.2.1 (by rw [← h2, ← h3.mult.1]; exact h3.1.2.2.2) h3.mult.2
    rw [← h2] at this
    rw [← h2]
    exact this
  draw i k _ p o a s h := ⟨_, congrArg some (Prod.ext (h.2.2.draw k).1 rfl), h.1, h.2.1, (h.2.2.draw k).2⟩
  load i j _ p o a s p' o' a' t h ht := by
    obtain ⟨v, s', e1, e2, e3⟩ := lcg_load h.2.2 ht.2.2
    refine ⟨(t.1, s'), ?_, ht.1, h.2.1.trans (h.1.trans ht.1.symm), e3⟩
    show ((lcgMixSet (match lcgMixGet s.2 with | .ok v => v | _ => .none) t.2).1, t.1,
      (lcgMixSet (match lcgMixGet s.2 with | .ok v => v | _ => .none) t.2).2) = _
    rw [e1]
    dsimp only
    rw [e2]
  jump i n _ := Or.inl ⟨Or.inl rfl, rfl⟩
  jumped i n hA := by
    obtain rfl : m = lcgDefault.mult := hA
    refine Or.inr ⟨_, _, _, _, rfl, rfl, rfl, Or.inr ⟨rfl, fun p o a s sd h _ => ?_⟩⟩
    have hn := lcgNew_rel ext lcgDefault (sd.1, none)
    have e0 : lcgSpec.start lcgDefault (sd.1, none) = .ok ⟨BitVec.ofInt 128 lcgDefault.mult, BitVec.ofInt 64 lcgDefault.dxsm, true, "xsl-rr", sd.1, none⟩ :=
      if_pos (e := .err .valueError) (show lcgDefault.out ∈ ["xsl-rr", "dxsm", "murmur3", "upper", "lower"] ∧ (0 < lcgDefault.mult ∧ lcgDefault.mult < 2 ^ 128 ∧
        lcgDefault.mult % 2 = 1) ∧ (0 < lcgDefault.dxsm ∧ lcgDefault.dxsm < 2 ^ 64 ∧ lcgDefault.dxsm % 2 = 1) by decide +kernel)
    rw [e0] at hn
    cases hc : lcgNew lcgDefault (sd.1, none) with
    | ok t =>
      rw [hc] at hn
      obtain ⟨h1, h2, h3⟩ := hn
      obtain ⟨v, s', e1, e2, e3⟩ := lcg_load h.2.2 h3
      refine ⟨t, (t.1, s'), rfl, ?_, Or.inl ⟨_, _, rfl, rfl, h1, h.2.1.trans (h.1.trans h1.symm), e3.jump n⟩⟩
      show ((lcgMixSet (match lcgMixGet s.2 with | .ok v => v | _ => .none) t.2).1, t.1,
        (lcgMixSet (match lcgMixGet s.2 with | .ok v => v | _ => .none) t.2).2) = _
      rw [e1]
      dsimp only
      rw [e2]
    | err e => rw [hc] at hn; exact hn.elim
    | hang => rw [hc] at hn; exact hn.elim
    | ub => rw [hc] at hn; exact hn.elim
  advance i d _ := by
    refine Or.inl ⟨_, _, rfl, rfl, Or.inr ⟨rfl, fun p o a s h => ⟨_, rfl, h.1, h.2.1, ?_⟩⟩⟩
    exact h.2.2.advance d _ (emod_modEq _ _ (by norm_num))

/-- C95 for LCG128Mix with the output functions of the package, in programs all of whose instances are made with the same multiplier, and that
call `jumped` only if it is the default one. Otherwise it is false: `not_C95_lcg128mix`, `not_C95_lcg128mix_jumped`. -/
theorem C95_lcg128mix_partial (ext : Nat → U64 → U64 → U64) (m : Int) (os : List (SOp LcgArgs ((Nat → U64) × Option U128)))
    (hm : ∀ p sd, .new p sd ∈ os → p.mult = m) (hj : m = 47026247687942121848144207491837523525 ∨ ∀ i n, .jumped i n ∉ os) :
    (lcgCls ext).program os = lcgSpec.program os := by
  refine (lcg_refines ext m).program os fun o ho => ?_
  cases o with
  | new p sd => exact hm p sd ho
  | jumped i n => exact hj.elim id fun h => absurd ho (h i n)
  | _ => exact trivial

/-- The hypotheses are met by a program that draws, saves, seeds, restores, jumps and advances. -/
example (ext : Nat → U64 → U64 → U64) :
    let os : List (SOp LcgArgs ((Nat → U64) × Option U128)) := [.new lcgDefault (fun _ => 1, none), .new { lcgDefault with out := "upper" } (fun _ => 2, some 3),
      .draw 0 .u32, .save 0, .load 1 0, .draw 1 .u32, .seed 1 (fun _ => 4, none), .jumped 1 (-2), .advance 2 7, .draw 2 .dbl]
    (lcgCls ext).program os = lcgSpec.program os :=
  C95_lcg128mix_partial ext _ _ (by
    intro p sd h
    simp only [List.mem_cons, SOp.new.injEq, reduceCtorEq, List.not_mem_nil, or_false] at h
    rcases h with h | h <;> rw [h.1] <;> rfl) (Or.inl rfl)

/-- An instance that is given the state of one with another multiplier draws from that stream, but `seed` makes it use its own multiplier with
the other one's output function. -/
theorem not_C95_lcg128mix :
    ¬∀ (ext : Nat → U64 → U64 → U64) (os : List (SOp LcgArgs ((Nat → U64) × Option U128))), (lcgCls ext).program os = lcgSpec.program os := by
  intro h
  have := h (fun _ _ _ => 0) [.new lcgDefault (fun _ => 1, none), .new ⟨5, 1, true, "lower"⟩ (fun _ => 2, none), .save 1, .load 0 0, .seed 0 (fun _ => 3, none),
    .draw 0 .u64]
  revert this
  decide +kernel

/-- A generator made by `jumped` from one with another multiplier than the default draws from the stream of that one, but `seed` makes it use
the default multiplier. -/
theorem not_C95_lcg128mix_jumped :
    ¬∀ (ext : Nat → U64 → U64 → U64) (os : List (SOp LcgArgs ((Nat → U64) × Option U128))), (∀ p sd, .new p sd ∈ os → p.mult = 5) →
      (lcgCls ext).program os = lcgSpec.program os := by
  intro h
  have := h (fun _ _ _ => 0) [.new ⟨5, 1, true, "lower"⟩ (fun _ => 2, none), .jumped 0 1, .seed 1 (fun _ => 3, none), .draw 1 .u64] (by simp)
  revert this
  decide +kernel

/-! ### Squares -/

/-- The promise for Squares: the words belong to the counters from the starting counter on. `hiFirst`: the first of the two words of a 64-bit
draw of the 32-bit variant is the high half. An instance is of the 64-bit variant or the 32-bit variant. `jumped` refuses numbers that are not
positive, `advance` those outside `[0, 2^64)`. A refused `seed` changes nothing. There is no `jump`. -/
def squaresSpec (hiFirst : Bool) : SSpec Int SquaresSeed (Bool × U64 × U64) where
  start v sd :=
    if (v = 64 ∨ v = 32) ∧ (∀ c ∈ sd.2.1, 0 ≤ c ∧ c < 2 ^ 64) ∧ (∀ k ∈ sd.2.2, 0 ≤ k ∧ k < 2 ^ 64 ∧ k % 2 = 1) then
      .ok (decide (v = 64), (sd.2.2.map (BitVec.ofInt 64)).getD sd.1, (sd.2.1.map (BitVec.ofInt 64)).getD 0)
    else .err .valueError
  restart _ o _ sd :=
    if (∀ c ∈ sd.2.1, 0 ≤ c ∧ c < 2 ^ 64) ∧ (∀ k ∈ sd.2.2, 0 ≤ k ∧ k < 2 ^ 64 ∧ k % 2 = 1) then
      .ok (o.1, (sd.2.2.map (BitVec.ofInt 64)).getD sd.1, (sd.2.1.map (BitVec.ofInt 64)).getD 0)
    else .err .valueError
  draw o := if o.1 then draw64At fun n => sqMix64 ((o.2.2 + BitVec.ofNat 64 n) * o.2.1) o.2.1
    else draw32At hiFirst fun n => sqMix32 ((o.2.2 + BitVec.ofNat 64 n) * o.2.1) o.2.1
  jump := none
  jumped := some fun n => if 0 < n ∧ n < 2 ^ 63 then some (skipAt (11400714819323198485 * n).toNat) else none
  advance := some fun d => skipAt d.toNat
  jumpErr n := if -2 ^ 63 ≤ n ∧ n < 2 ^ 63 then .valueError else .overflowError
  advErr d := if 0 ≤ d ∧ d < 2 ^ 64 then none else some .overflowError

/-- An instance of Squares at a place. -/
def SqAt (o : Bool × U64 × U64) (a : Nat × Option U32) (s : SquaresI) : Prop :=
  SquaresOk s ∧ s.act64 = o.1 ∧ s.key = o.2.1 ∧ s.counter = o.2.2 + BitVec.ofNat 64 a.1 ∧ (s.has != 0) = a.2.isSome ∧
    (∀ v, a.2 = some v → s.uint = v) ∧ (o.1 = false → a.2 = none)

theorem sqCheck_eq (v : Int) (odd : Bool) : squaresCheck v odd =
    if 0 ≤ v ∧ v < 2 ^ 64 ∧ (odd = true → v % 2 = 1) then .ok (BitVec.ofInt 64 v) else .error .valueError := by
  rw [squaresCheck]
  cases odd
  · by_cases h : 0 ≤ v ∧ v < 2 ^ 64
    · rw [if_pos (by omega), if_neg (by simp), if_pos ⟨h.1, h.2, fun h => by cases h⟩]
    · rw [if_neg (by omega), if_neg fun h' => h ⟨h'.1, h'.2.1⟩]
  · by_cases h : 0 ≤ v ∧ v < 2 ^ 64
    · rw [if_pos (by omega)]
      by_cases h2 : v % 2 = 0
      · rw [if_pos ⟨rfl, h2⟩, if_neg fun h' => by have := h'.2.2 rfl; omega]
      · rw [if_neg fun h' => h2 h'.2, if_pos ⟨h.1, h.2, fun _ => by omega⟩]
    · rw [if_neg (by omega), if_neg fun h' => h ⟨h'.1, h'.2.1⟩]

theorem squaresReseed_eq (sd : SquaresSeed) (s : SquaresI) : squaresReseed sd.1 sd.2.1 sd.2.2 s =
    if (∀ c ∈ sd.2.1, 0 ≤ c ∧ c < 2 ^ 64) ∧ (∀ k ∈ sd.2.2, 0 ≤ k ∧ k < 2 ^ 64 ∧ k % 2 = 1) then
      .ok { s with counter := (sd.2.1.map (BitVec.ofInt 64)).getD 0, key := (sd.2.2.map (BitVec.ofInt 64)).getD sd.1, has := 0, uint := 0 }
    else .error .valueError := by
  obtain ⟨g, c, k⟩ := sd
  have hk : k.elim (Except.ok g) (fun k => squaresCheck k true) =
      if ∀ k' ∈ k, 0 ≤ k' ∧ k' < 2 ^ 64 ∧ k' % 2 = 1 then .ok ((k.map (BitVec.ofInt 64)).getD g) else .error .valueError := by
    cases k with
    | none => simp
    | some k => simp [sqCheck_eq]
  have hc : c.elim (Except.ok 0) (fun c => squaresCheck c false) =
      if ∀ c' ∈ c, 0 ≤ c' ∧ c' < 2 ^ 64 then .ok ((c.map (BitVec.ofInt 64)).getD 0) else .error .valueError := by
    cases c with
    | none => simp
    | some c => simp [sqCheck_eq]
  have e : squaresReseed g c k s = (c.elim (Except.ok 0) (fun c => squaresCheck c false)).bind fun c =>
      (k.elim (Except.ok g) (fun k => squaresCheck k true)).bind fun k => .ok { s with counter := c, key := k, has := 0, uint := 0 } := by
    cases c <;> cases k <;> rfl
  dsimp only
  rw [e, hc, hk]
  by_cases h1 : ∀ c' ∈ c, 0 ≤ c' ∧ c' < 2 ^ 64
  · by_cases h2 : ∀ k' ∈ k, 0 ≤ k' ∧ k' < 2 ^ 64 ∧ k' % 2 = 1
    · rw [if_pos h1, if_pos h2, if_pos ⟨h1, h2⟩]; rfl
    · rw [if_pos h1, if_neg h2, if_neg fun h => h2 h.2]; rfl
  · rw [if_neg h1, if_neg (c := _ ∧ _) fun h => h1 h.1]; rfl

theorem SqAt.draw (b : Bool) {o : Bool × U64 × U64} {a : Nat × Option U32} {s : SquaresI} (h : SqAt o a s) (k : Op) :
    ∃ s', squaresOp b k s = some (((squaresSpec b).draw o k a).1, s') ∧ SqAt o ((squaresSpec b).draw o k a).2 s' := by
  obtain ⟨⟨h0, h0', h0''⟩, h1, h2, h3, h4, h5, h6⟩ := h
  obtain ⟨o1, key, c0⟩ := o
  obtain ⟨n, half⟩ := a
  dsimp only at h1 h2 h3 h4 h5 h6
  have e1 : ∀ m : Nat, c0 + BitVec.ofNat 64 m + 1 = c0 + BitVec.ofNat 64 (m + 1) := by
    intro m; rw [BitVec.ofNat_add, BitVec.add_assoc]; rfl
  cases o1 with
  | true =>
    have hat : BufAt sqNext64 ⟨key, c0⟩ (n, half) s.toBuf := by
      refine ⟨?_, h4, h5⟩
      rw [sq_iter sqNext64 (fun _ => rfl)]
      simp only [SquaresI.toBuf, h2, h3]
    have hw : (fun n => nthDraw sqNext64 n (⟨key, c0⟩ : Squares)) = fun n => sqMix64 ((c0 + BitVec.ofNat 64 n) * key) key := by
      funext n
      rw [nthDraw, sq_iter sqNext64 (fun _ => rfl)]
      rfl
    have hd := hat.draw k
    rw [hw] at hd
    rw [show (squaresSpec b).draw (true, key, c0) = draw64At fun n => sqMix64 ((c0 + BitVec.ofNat 64 n) * key) key from rfl]
    refine ⟨squaresPut s (Buf.op sqNext64 k s.toBuf).2, ?_, ?_⟩
    · rw [squaresOp, if_pos h1, bufOp, hd.1]
    · obtain ⟨hc, hh, hu⟩ := hd.2
      rw [sq_iter sqNext64 (fun _ => rfl)] at hc
      refine ⟨⟨h0, h0', h0''⟩, h1, ?_, ?_, (halfI_ne _).trans hh, hu, fun h => by cases h⟩
      · exact congrArg Squares.key hc
      · exact congrArg Squares.counter hc
  | false =>
    have hn := h6 rfl
    subst hn
    rw [show (squaresSpec b).draw (false, key, c0) = draw32At b fun n => sqMix32 ((c0 + BitVec.ofNat 64 n) * key) key from rfl]
    have hh : s.act64 = false := h1
    have hc : s.toBuf.core = ⟨key, c0 + BitVec.ofNat 64 n⟩ := by simp only [SquaresI.toBuf, h2, h3]
    have n1 : sqNext32 ⟨key, c0 + BitVec.ofNat 64 n⟩ = (sqMix32 ((c0 + BitVec.ofNat 64 n) * key) key, ⟨key, c0 + BitVec.ofNat 64 (n + 1)⟩) := by
      rw [sqNext32]; simp only [e1]
    have n2 : sqNext32 ⟨key, c0 + BitVec.ofNat 64 (n + 1)⟩ =
        (sqMix32 ((c0 + BitVec.ofNat 64 (n + 1)) * key) key, ⟨key, c0 + BitVec.ofNat 64 (n + 2)⟩) := by
      rw [sqNext32]; simp only [e1]
    cases k with
    | u32 =>
      refine ⟨{ s with key := key, counter := c0 + BitVec.ofNat 64 (n + 1) }, ?_, ⟨h0, h0', h0''⟩, h1, rfl, rfl, h4, h5, h6⟩
      simp only [squaresOp, hh, Bool.false_eq_true, if_false, hc, n1, draw32At]
    | u64 =>
      refine ⟨{ s with key := key, counter := c0 + BitVec.ofNat 64 (n + 2) }, ?_, ⟨h0, h0', h0''⟩, h1, rfl, rfl, h4, h5, h6⟩
      simp only [squaresOp, hh, Bool.false_eq_true, if_false, hc, twoCalls, n1, n2, draw32At]
      cases b
      · simp only [Bool.false_eq_true, if_false, join_toNat]
      · simp only [if_true, join_toNat]
    | dbl =>
      refine ⟨{ s with key := key, counter := c0 + BitVec.ofNat 64 (n + 2) }, ?_, ⟨h0, h0', h0''⟩, h1, rfl, rfl, h4, h5, h6⟩
      simp only [squaresOp, hh, Bool.false_eq_true, if_false, hc, Doubles.dblCalls, Doubles.dbl32, n1, n2, draw32At, BitVec.toNat_ushiftRight,
        Nat.shiftRight_eq_div_pow]

theorem SqAt.seed {v : Bool} {s : SquaresI} (h : SquaresOk s) (h1 : s.act64 = v) (key c : U64) :
    SqAt (v, key, c) (0, none) { s with counter := c, key := key, has := 0, uint := 0 } :=
  ⟨h, h1, rfl, by simp, rfl, fun v hv => by simp at hv, fun _ => rfl⟩

theorem squaresNew_rel (b : Bool) (v : Int) (sd : SquaresSeed) : MadeRel (fun o s => SqAt o (0, none) s ∧ o.1 = decide (v = 64))
    ((squaresSpec b).start v sd) (squaresNew v sd) := by
  show MadeRel _ (if _ then _ else _) _
  by_cases hv : v = 64 ∨ v = 32
  · have hok : SquaresOk ⟨0, 0, 0, 0, BitVec.ofInt 32 v, v == 64, v == 64⟩ := by
      rcases hv with rfl | rfl
      · exact ⟨Or.inl rfl, rfl, rfl⟩
      · exact ⟨Or.inr rfl, rfl, rfl⟩
    rw [show squaresNew v sd = _ from if_neg (by omega), squaresReseed_eq]
    by_cases h : (∀ c ∈ sd.2.1, 0 ≤ c ∧ c < 2 ^ 64) ∧ (∀ k ∈ sd.2.2, 0 ≤ k ∧ k < 2 ^ 64 ∧ k % 2 = 1)
    · rw [if_pos ⟨hv, h⟩, if_pos h]
      refine ⟨SqAt.seed hok ?_ _ _, rfl⟩
      rcases hv with rfl | rfl <;> rfl
    · rw [if_neg (c := _ ∧ _) fun h' => h h'.2, if_neg h]; rfl
  · rw [show squaresNew v sd = _ from if_pos (by omega), if_neg (c := _ ∧ _) fun h => hv h.1]; rfl

theorem SqAt.skip {o : Bool × U64 × U64} {a : Nat × Option U32} {s : SquaresI} (h : SqAt o a s) (n : Nat) (c : Squares)
    (hc : c = ⟨s.key, s.counter + BitVec.ofNat 64 n⟩) : SqAt o (a.1 + n, none) (squaresPut s ⟨c, false, 0⟩) := by
  subst hc
  obtain ⟨h0, h1, h2, h3, -, -, -⟩ := h
  refine ⟨h0, h1, h2, ?_, rfl, fun v hv => by simp at hv, fun _ => rfl⟩
  show s.counter + BitVec.ofNat 64 n = _
  rw [h3, BitVec.ofNat_add, BitVec.add_assoc]

theorem SqAt.load {o o' : Bool × U64 × U64} {a a' : Nat × Option U32} {s t : SquaresI} (h : SqAt o a s) (ht : SqAt o' a' t) (ha : a.2 = none)
    (ha' : a'.2 = none) : ∃ s', squaresSet (squaresGet s) t = (.ok (), s') ∧ SqAt o a s' := by
  refine ⟨_, C11_squares_partial s t h.1, h.1, h.2.1, h.2.2.1, h.2.2.2.1, ?_, ?_, h.2.2.2.2.2.2⟩
  · rw [ha, ← ha']; exact ht.2.2.2.2.1
  · intro v hv; rw [ha] at hv; cases hv

/-- The seed arguments for which `seed` either succeeds or leaves the instance alone: not an invalid key with a valid counter. -/
def SeedWhole (sd : SquaresSeed) : Prop :=
  (∀ c ∈ sd.2.1, 0 ≤ c ∧ c < 2 ^ 64) → ∀ k ∈ sd.2.2, 0 ≤ k ∧ k < 2 ^ 64 ∧ k % 2 = 1

/-- The refinement, for a condition `P` on the variant and the cached half that all calls in `A` keep and that makes loads harmless. -/
theorem squares_refines (b : Bool) (A : SOp Int SquaresSeed → Prop) (P : Bool → Option U32 → Prop)
    (hnew : ∀ v sd, A (.new v sd) → P (decide (v = 64)) none) (hnone : ∀ v h, P v h → P v none)
    (hdraw : ∀ i, A (.draw i .u32) → ∀ h h', P true h → P true h')
    (hload : ∀ i j, A (.load i j) → ∀ v h v' h', P v h → P v' h' → h = none)
    (hseed : ∀ i sd, A (.seed i sd) → SeedWhole sd) :
    RefinesOn (squaresCls b) (squaresSpec b) A (fun _ o a s => SqAt o a s ∧ P o.1 a.2) where
  start v sd hA := by
    have h := squaresNew_rel b v sd
    have hP := hnew v sd hA
    show MadeRel _ ((squaresSpec b).start v sd) (squaresNew v sd)
    cases h1 : (squaresSpec b).start v sd <;> cases h2 : squaresNew v sd <;> rw [h1, h2] at h <;> try exact h
    exact ⟨h.1, by rw [h.2]; exact hP⟩
  restart i sd hA p o a s h := by
    obtain ⟨h1, h2⟩ := h
    have hs := hseed i sd hA
    have e : (squaresCls b).seed sd s = match squaresReseed sd.1 sd.2.1 sd.2.2 s with | .ok s => .ok s | .error e => .err e := rfl
    rw [squaresReseed_eq] at e
    rw [e]
    by_cases h : (∀ c ∈ sd.2.1, 0 ≤ c ∧ c < 2 ^ 64) ∧ (∀ k ∈ sd.2.2, 0 ≤ k ∧ k < 2 ^ 64 ∧ k % 2 = 1)
    · rw [if_pos h]
      refine ⟨?_, fun e he => by cases he⟩
      show MadeRel _ (if _ then _ else _) _
      rw [if_pos h]
      exact ⟨SqAt.seed h1.1 h1.2.1 _ _, hnone _ _ h2⟩
    · rw [if_neg h]
      refine ⟨?_, fun e he => ?_⟩
      · show MadeRel _ (if _ then _ else _) _
        rw [if_neg h]; rfl
      · have hc : ¬∀ c ∈ sd.2.1, 0 ≤ c ∧ c < 2 ^ 64 := fun h' => h ⟨h', hs h'⟩
        have : squaresSeedFail sd s = s := by
          rw [squaresSeedFail]
          cases hx : sd.2.1 with
          | none => exact absurd (by rw [hx]; simp) hc
          | some c =>
            rw [hx] at hc
            dsimp only
            rw [sqCheck_eq, if_neg fun h => hc (by intro c' hc'; obtain rfl : c = c' := Option.some.inj hc'; exact ⟨h.1, h.2.1⟩)]
        show SqAt o a (squaresSeedFail sd s) ∧ _
        rw [this]
        exact ⟨h1, h2⟩
  draw i k hA p o a s h := by
    obtain ⟨s', e1, e2⟩ := h.1.draw b k
    refine ⟨s', e1, e2, ?_⟩
    obtain ⟨o1, o2⟩ := o
    have h6 := e2.2.2.2.2.2.2
    have hP := h.2
    have h7 := h.1.2.2.2.2.2.2
    cases o1 with
    | false =>
      rw [h6 rfl]
      exact hnone _ _ hP
    | true =>
      cases k with
      | u32 => exact hdraw i hA _ _ hP
      | u64 => exact hP
      | dbl => exact hP
  load i j hA p o a s p' o' a' t h ht := by
    obtain ⟨s', e1, e2⟩ := h.1.load ht.1 (hload i j hA _ _ _ _ h.2 ht.2) (hload i j hA _ _ _ _ ht.2 h.2)
    refine ⟨s', ?_, e2, h.2⟩
    rw [show (squaresCls b).set = squaresSet from rfl, show (squaresCls b).get = squaresGet from rfl]
    exact e1
  jump i n _ := Or.inl ⟨Or.inl rfl, rfl⟩
  jumped i n _ := by
    refine Or.inr ⟨_, _, _, _, rfl, rfl, rfl, ?_⟩
    by_cases hi : -2 ^ 63 ≤ n ∧ n < 2 ^ 63
    · refine Or.inr ⟨by simp only [isIntp, hi.1, hi.2, decide_true, Bool.and_self, Bool.not_true, Bool.and_false], fun p o a s sd h _ => ?_⟩
      obtain ⟨h1, h2⟩ := h
      have hv : s.variant.toInt = 64 ∨ s.variant.toInt = 32 := by
        rcases h1.1.1 with e | e <;> rw [e]
        · exact Or.inl rfl
        · exact Or.inr rfl
      obtain ⟨t, ht⟩ : ∃ t, squaresNew s.variant.toInt (sd.1, none, none) = .ok t := by
        rcases hv with e | e <;> rw [e] <;> exact ⟨_, rfl⟩
      refine ⟨t, { s with has := t.has, uint := t.uint }, ht, ?_, ?_⟩
      · rw [show (squaresCls b).set = squaresSet from rfl, show (squaresCls b).get = squaresGet from rfl]
        exact C11_squares_partial s t h1.1
      by_cases hn : 0 < n
      · refine Or.inl ⟨_, squaresPut { s with has := t.has, uint := t.uint } ⟨⟨s.key, s.counter + BitVec.ofNat 64 (11400714819323198485 * n).toNat⟩, false, 0⟩,
          if_pos ⟨hn, hi.2⟩, ?_, ?_, hnone _ _ h2⟩
        · rw [(C24_jumped _ n).2 hn, sq_iter _ (fun _ => rfl)]
          show Made.ok (squaresPut _ _) = _
          have : BitVec.ofNat 64 (n.toNat * 11400714819323198485 % 2 ^ 64) = BitVec.ofNat 64 (11400714819323198485 * n).toNat := by
            apply BitVec.eq_of_toNat_eq
            rw [BitVec.toNat_ofNat, BitVec.toNat_ofNat, Nat.mod_mod]
            congr 1
            omega
          rw [this]
          rfl
        · exact h1.skip _ _ rfl
      · refine Or.inr ⟨if_neg (by omega), ?_⟩
        rw [(C24_jumped _ n).1.mpr (by omega)]
        show Made.err PyErr.valueError = .err (if _ then _ else _)
        rw [if_pos hi]
    · refine Or.inl ⟨?_, if_neg (by omega), if_neg hi⟩
      simp only [isIntp, Bool.true_and, Bool.not_eq_true', Bool.and_eq_false_iff, decide_eq_false_iff_not]
      omega
  advance i d _ := by
    refine Or.inl ⟨_, _, rfl, rfl, ?_⟩
    by_cases hd : 0 ≤ d ∧ d < 2 ^ 64
    · refine Or.inr ⟨if_pos hd, fun p o a s h => ⟨_, if_pos hd, h.1.skip d.toNat _ ?_, hnone _ _ h.2⟩⟩
      have : BitVec.ofInt 64 d = BitVec.ofNat 64 d.toNat := by
        conv_lhs => rw [← Int.toNat_of_nonneg hd.1]
        rfl
      rw [this]
      rfl
    · exact Or.inl ⟨_, if_neg hd, fun p o a s h => if_neg hd⟩

/-- C95 for Squares, in programs without a `seed` that is given an invalid key and a valid counter, and in which no instance is given a state
while 32-bit draws of the 64-bit variant are used. Otherwise it is false: `not_C95_squares`, `not_C95_squares_seed`. -/
theorem C95_squares_partial (hiFirst : Bool) (os : List (SOp Int SquaresSeed)) (hs : ∀ i sd, .seed i sd ∈ os → SeedWhole sd)
    (h : (∀ i j, .load i j ∉ os) ∨ (∀ i, .draw i .u32 ∉ os) ∨ ∀ v sd, .new v sd ∈ os → v ≠ 64) :
    (squaresCls hiFirst).program os = (squaresSpec hiFirst).program os := by
  rcases h with h | h | h
  · exact (squares_refines hiFirst (· ∈ os) (fun _ _ => True) (fun _ _ _ => trivial) (fun _ _ _ => trivial) (fun _ _ _ _ _ => trivial)
      (fun i j hA => absurd hA (h i j)) hs).program os fun _ ho => ho
  · exact (squares_refines hiFirst (· ∈ os) (fun _ x => x = none) (fun _ _ _ => rfl) (fun _ _ _ => rfl) (fun i hA => absurd hA (h i))
      (fun _ _ _ _ _ _ _ hx _ => hx) hs).program os fun _ ho => ho
  · exact (squares_refines hiFirst (· ∈ os) (fun v x => v = false ∧ x = none) (fun v sd hA => ⟨decide_eq_false (h v sd hA), rfl⟩)
      (fun _ _ hP => ⟨hP.1, rfl⟩) (fun i _ _ _ hP => absurd hP.1 (by simp)) (fun _ _ _ _ _ _ _ hx _ => hx.2) hs).program os fun _ ho => ho

/-- The hypotheses are met by a program of each kind. -/
example (hiFirst : Bool) :
    let p : List (SOp Int SquaresSeed) := [.new 64 (3, none, none), .new 32 (5, some 7, some 11), .draw 0 .u32, .draw 1 .u32, .seed 0 (9, some (-1), none),
      .jumped 0 3, .jumped 0 0, .advance 2 (2 ^ 64 - 1), .advance 1 (-1), .draw 2 .u32]
    let q : List (SOp Int SquaresSeed) := [.new 64 (3, none, none), .new 32 (5, some 7, some 11), .draw 0 .u64, .save 0, .load 1 0, .draw 1 .dbl]
    (squaresCls hiFirst).program p = (squaresSpec hiFirst).program p ∧ (squaresCls hiFirst).program q = (squaresSpec hiFirst).program q := by
  refine ⟨C95_squares_partial _ _ ?_ (Or.inl (by simp)), C95_squares_partial _ _ (by simp) (Or.inr (Or.inl (by simp)))⟩
  intro i sd h
  simp only [List.mem_cons, SOp.seed.injEq, reduceCtorEq, List.not_mem_nil, or_false, false_or] at h
  rw [h.2]
  intro hc
  exact absurd (hc (-1) rfl).1 (by decide)

/-- An instance with half a word left over is given the state of a new one: its next 32-bit draw is the half of the old word. -/
theorem not_C95_squares (hiFirst : Bool) : ¬∀ os : List (SOp Int SquaresSeed), (squaresCls hiFirst).program os = (squaresSpec hiFirst).program os := by
  intro h
  have := h [.new 64 (3, none, none), .new 64 (5, none, some 7), .draw 1 .u64, .draw 1 .u32, .save 0, .load 1 0, .draw 1 .u32]
  revert this
  cases hiFirst <;> decide +kernel

/-- `seed(counter=5, key=2)` raises, since the key is even; the next draws are from counter 5 of the old key. -/
theorem not_C95_squares_seed (hiFirst : Bool) : ¬∀ os : List (SOp Int SquaresSeed), (∀ i j, .load i j ∉ os) →
    (squaresCls hiFirst).program os = (squaresSpec hiFirst).program os := by
  intro h
  have := h [.new 64 (3, none, some 7), .draw 0 .u64, .seed 0 (3, some 5, some 2), .draw 0 .u64] (by simp)
  revert this
  cases hiFirst <;> decide +kernel

end Verif
