import Verif.Proof.Session
import Verif.Props.StateRoundTrip
import Verif.Props.XorLinear
import Verif.Props.Lcg

/-! C95: whatever a program does with the generators of a class, it sees the words of the streams of its seeds, at the places its calls add
up to. -/

namespace Verif

open XorLinear

theorem halfI_ne (b : Bool) : (halfI b != 0#32) = b := by cases b <;> rfl

/-! ### The xor generators -/

/-- `jump` and `jumped` of the xor generators: `iter` strides, none for a negative `iter`; `iter` must fit a C integer. -/
def strides (J : Nat) (n : Int) : Option (Nat × Option U32 → Nat × Option U32) :=
  if -2 ^ 63 ≤ n ∧ n < 2 ^ 63 then some (skipAt (n.toNat * J)) else none

theorem strides_eq (J : Nat) : strides J = fun n => if true && !isIntp n then none else some (skipAt (n.toNat * J)) := by
  funext n
  unfold strides isIntp
  by_cases h1 : -2 ^ 63 ≤ n <;> by_cases h2 : n < 2 ^ 63 <;> simp only [h1, h2, and_self, and_true, and_false, if_true, if_false, decide_true,
    decide_false, Bool.and_true, Bool.and_false, Bool.not_true, Bool.not_false, Bool.false_eq_true]

/-- The promise for Xoshiro256: the stream of the 4 seed words, jumps of `2 ^ 128` words. -/
def xo256Spec : SSpec Unit (Nat → U64) (Nat → U64) where
  start _ g := .ok g
  restart _ _ _ g := .ok g
  draw g := draw64At fun n => nthDraw xosh256Next n ⟨g 0, g 1, g 2, g 3⟩
  jump := some (strides (2 ^ 128))
  jumped := some (strides (2 ^ 128))
  advance := none

theorem xo256_view_put (s : XoshI 4) (b : Buf S4) : xo256View (xo256Put s b) = b := by
  obtain ⟨⟨c0, c1, c2, c3⟩, h, u⟩ := b
  simp [xo256View, xo256Put, halfI_ne]

theorem xo256_refines : Refines xo256Cls xo256Spec (fun _ => True)
    (fun _ g a s => BufAt xosh256Next ⟨g 0, g 1, g 2, g 3⟩ a (xo256View s)) where
  start _ g _ := BufAt.start _ _ _ (by simp [xo256View, xoshReseed]) rfl
  restart _ _ _ s g _ := BufAt.start _ _ _ (by simp [xo256View, xoshReseed]) rfl
  draw _ g a s k h := by
    refine ⟨_, congrArg some (Prod.ext (h.draw k).1 rfl), ?_⟩
    rw [xo256_view_put]
    exact (h.draw k).2
  load _ g a s _ _ _ t h _ := ⟨s, C11_xoshiro256 s t, h⟩
  inplace f hf := by
    obtain rfl : _ = f := Option.some.inj hf
    refine ⟨fun n => skipAt (n.toNat * 2 ^ 128), ?_, congrArg some (strides_eq _), congrArg some (strides_eq _)⟩
    intro _ g a s n h
    refine ⟨_, rfl, ?_⟩
    dsimp only
    rw [xo256_view_put]
    exact h.skip _ (C27_jumped (xo256View s) n.toNat).1 rfl
  noInplace h := by simp [xo256Cls] at h
  clone c f hc _ g a s sd h _ := by
    obtain ⟨rfl, rfl⟩ := Prod.mk.inj (Option.some.inj hc)
    exact ⟨_, rfl, sd, (0, none), BufAt.start _ _ _ (by simp [xo256View, xoshReseed]) rfl⟩
  advance := Or.inr ⟨rfl, rfl⟩

/-- C95 for Xoshiro256. -/
theorem C95_xoshiro256 (os : List (SOp Unit (Nat → U64))) : xo256Cls.program os = xo256Spec.program os :=
  xo256_refines.program_all os

/-- The promise for Xoshiro512: the stream of the 8 seed words, jumps of `2 ^ 256` words. -/
def xo512Spec : SSpec Unit (Nat → U64) (Nat → U64) where
  start _ g := .ok g
  restart _ _ _ g := .ok g
  draw g := draw64At fun n => nthDraw xosh512Next n ⟨g 0, g 1, g 2, g 3, g 4, g 5, g 6, g 7⟩
  jump := some (strides (2 ^ 256))
  jumped := some (strides (2 ^ 256))
  advance := none

theorem xo512_view_put (s : XoshI 8) (b : Buf S8) : xo512View (xo512Put s b) = b := by
  obtain ⟨⟨c0, c1, c2, c3, c4, c5, c6, c7⟩, h, u⟩ := b
  simp [xo512View, xo512Put, halfI_ne]

theorem xo512_refines : Refines xo512Cls xo512Spec (fun _ => True)
    (fun _ g a s => BufAt xosh512Next ⟨g 0, g 1, g 2, g 3, g 4, g 5, g 6, g 7⟩ a (xo512View s)) where
  start _ g _ := BufAt.start _ _ _ (by simp [xo512View, xoshReseed]) rfl
  restart _ _ _ s g _ := BufAt.start _ _ _ (by simp [xo512View, xoshReseed]) rfl
  draw _ g a s k h := by
    refine ⟨_, congrArg some (Prod.ext (h.draw k).1 rfl), ?_⟩
    rw [xo512_view_put]
    exact (h.draw k).2
  load _ g a s _ _ _ t h _ := ⟨s, C11_xoshiro512 s t, h⟩
  inplace f hf := by
    obtain rfl : _ = f := Option.some.inj hf
    refine ⟨fun n => skipAt (n.toNat * 2 ^ 256), ?_, congrArg some (strides_eq _), congrArg some (strides_eq _)⟩
    intro _ g a s n h
    refine ⟨_, rfl, ?_⟩
    dsimp only
    rw [xo512_view_put]
    exact h.skip _ (C28_jumped (xo512View s) n.toNat).1 rfl
  noInplace h := by simp [xo512Cls] at h
  clone c f hc _ g a s sd h _ := by
    obtain ⟨rfl, rfl⟩ := Prod.mk.inj (Option.some.inj hc)
    exact ⟨_, rfl, sd, (0, none), BufAt.start _ _ _ (by simp [xo512View, xoshReseed]) rfl⟩
  advance := Or.inr ⟨rfl, rfl⟩

/-- C95 for Xoshiro512. -/
theorem C95_xoshiro512 (os : List (SOp Unit (Nat → U64))) : xo512Cls.program os = xo512Spec.program os :=
  xo512_refines.program_all os

/-- The promise for Xoroshiro128: the stream of the two seed words under the function chosen by `plusplus`, which a restored state brings
along, jumps of `2^64` words. -/
def xoroSpec : SSpec Bool (Nat → U64) (Bool × (Nat → U64)) where
  start pp g := .ok (pp, g)
  restart _ o _ g := .ok (o.1, g)
  draw o := draw64At fun n => nthDraw (xoroNext o.1) n ⟨o.2 0, o.2 1⟩
  jump := some (strides (2 ^ 64))
  jumped := some (strides (2 ^ 64))
  advance := none

theorem xoro_view_put (s : XoroI) (b : Buf S2) : xoroView (xoroPut s b) = b := by
  obtain ⟨⟨c0, c1⟩, h, u⟩ := b
  simp [xoroView, xoroPut, halfI_ne]

theorem xoro_refines : Refines xoroCls xoroSpec (fun _ => True)
    (fun _ o a s => s.plusplus = o.1 ∧ s.actPlusplus = o.1 ∧ BufAt (xoroNext o.1) ⟨o.2 0, o.2 1⟩ a (xoroView s)) where
  start pp g _ := ⟨rfl, rfl, BufAt.start _ _ _ (by simp [xoroView, xoroReseed]) rfl⟩
  restart _ _ _ s g h := ⟨h.1, h.2.1, BufAt.start _ _ _ (by simp [xoroView, xoroReseed]) rfl⟩
  draw _ o a s k h := by
    obtain ⟨h1, h2, h3⟩ := h
    refine ⟨_, congrArg some (Prod.ext ?_ rfl), h1, h2, ?_⟩
    · rw [h2]; exact (h3.draw k).1
    · rw [xoro_view_put, h2]
      exact (h3.draw k).2
  load _ o a s _ _ _ t h _ := by
    have hs : XoroOk s := h.2.1.trans h.1.symm
    refine ⟨s, ?_, h⟩
    rw [show xoroCls.set = xoroSet from rfl, show xoroCls.get = xoroGet from rfl]
    exact C11_xoroshiro128 s t hs
  inplace f hf := by
    obtain rfl : _ = f := Option.some.inj hf
    refine ⟨fun n => skipAt (n.toNat * 2 ^ 64), ?_, congrArg some (strides_eq _), congrArg some (strides_eq _)⟩
    intro _ o a s n h
    refine ⟨_, rfl, ?_⟩
    obtain ⟨h1, h2, h3⟩ := h
    refine ⟨h1, h2, ?_⟩
    rw [xoro_view_put]
    refine h3.skip _ ?_ rfl
    have := (C26_jumped ⟨xoroView s, s.plusplus⟩ n.toNat).1
    rw [h1] at this
    rw [h1]
    exact this
  noInplace h := by simp [xoroCls] at h
  clone c f hc _ o a s sd h _ := by
    obtain ⟨rfl, rfl⟩ := Prod.mk.inj (Option.some.inj hc)
    exact ⟨_, rfl, (false, sd), (0, none), rfl, rfl, BufAt.start _ _ _ (by simp [xoroView, xoroReseed]) rfl⟩
  advance := Or.inr ⟨rfl, rfl⟩

/-- C95 for Xoroshiro128. -/
theorem C95_xoroshiro128 (os : List (SOp Bool (Nat → U64))) : xoroCls.program os = xoroSpec.program os :=
  xoro_refines.program_all os

/-! ### LXM -/

/-- The promise for LXM: the stream of the five seed words with the constant `b`, which a restored state brings along, jumps of `2^128`
words. Seeding with four zero words does not end. -/
def lxmSpec : SSpec U64 (Nat → U64) (U64 × (Nat → U64)) where
  start b g := if g 0 = 0 ∧ g 1 = 0 ∧ g 2 = 0 ∧ g 3 = 0 then .hang else .ok (b ||| 1, g)
  restart _ o _ g := if g 0 = 0 ∧ g 1 = 0 ∧ g 2 = 0 ∧ g 3 = 0 then .hang else .ok (o.1, g)
  draw o := draw64At fun n => nthDraw lxmNext n ⟨⟨o.2 0, o.2 1, o.2 2, o.2 3⟩, o.2 4, o.1⟩
  jump := some (strides (2 ^ 128))
  jumped := some (strides (2 ^ 128))
  advance := none

theorem lxm_view_put (s : LxmI) (b : Buf Lxm) : lxmView (lxmPut s b) = b := by
  obtain ⟨⟨⟨c0, c1, c2, c3⟩, l, c⟩, h, u⟩ := b
  simp [lxmView, lxmPut, halfI_ne]

theorem or4_eq_zero (a b c d : U64) : a ||| b ||| c ||| d = 0 ↔ a = 0 ∧ b = 0 ∧ c = 0 ∧ d = 0 := by
  constructor
  · intro h
    have h1 := BitVec.or_eq_zero_iff.mp h
    have h2 := BitVec.or_eq_zero_iff.mp h1.1
    have h3 := BitVec.or_eq_zero_iff.mp h2.1
    exact ⟨h3.1, h3.2, h2.2, h1.2⟩
  · rintro ⟨rfl, rfl, rfl, rfl⟩; decide

theorem lxmReseed_zero {gen : Nat → U64} (h : gen 0 = 0 ∧ gen 1 = 0 ∧ gen 2 = 0 ∧ gen 3 = 0) (s : LxmI) : lxmReseed gen s = none := by
  rw [lxmReseed, if_pos ((or4_eq_zero _ _ _ _).mpr h)]

theorem lxmReseed_ne {gen : Nat → U64} (h : ¬(gen 0 = 0 ∧ gen 1 = 0 ∧ gen 2 = 0 ∧ gen 3 = 0)) (s : LxmI) :
    lxmReseed gen s = some { s with x := Vector.ofFn fun i => gen i, lcg := gen 4, has := 0, uint := 0 } := by
  rw [lxmReseed, if_neg fun e => h ((or4_eq_zero _ _ _ _).mp e)]

theorem lxm_took {sd : Nat → U64} (h : Took lxmSpec sd) : ¬(sd 0 = 0 ∧ sd 1 = 0 ∧ sd 2 = 0 ∧ sd 3 = 0) := by
  intro hz
  rcases h with ⟨p, o, h⟩ | ⟨p, o, n, o', h⟩ <;> simp only [lxmSpec, hz, and_self, if_true, reduceCtorEq] at h

theorem lxm_refines : Refines lxmCls lxmSpec (fun _ => True)
    (fun _ o a s => BufAt lxmNext ⟨⟨o.2 0, o.2 1, o.2 2, o.2 3⟩, o.2 4, o.1⟩ a (lxmView s)) where
  start b g _ := by
    by_cases hz : g 0 = 0 ∧ g 1 = 0 ∧ g 2 = 0 ∧ g 3 = 0
    · simp only [lxmSpec, if_pos hz, lxmCls, lxmReseed_zero hz, Option.map_none, madeOf, MadeRel]
    · simp only [lxmSpec, if_neg hz, lxmCls, lxmReseed_ne hz, Option.map_some, madeOf, MadeRel]
      exact BufAt.start _ _ _ (by simp [lxmView]) rfl
  restart b o a s g h := by
    by_cases hz : g 0 = 0 ∧ g 1 = 0 ∧ g 2 = 0 ∧ g 3 = 0
    · simp only [lxmSpec, if_pos hz, lxmCls, lxmReseed_zero hz, madeOf, MadeRel]
    · simp only [lxmSpec, if_neg hz, lxmCls, lxmReseed_ne hz, madeOf, MadeRel]
      refine BufAt.start _ _ _ ?_ rfl
      have hb : s.b = o.1 := by
        have := congrArg Lxm.b h.1
        rw [lxm_iterate] at this
        exact this
      simp [lxmView, hb]
  draw _ g a s k h := by
    refine ⟨_, congrArg some (Prod.ext (h.draw k).1 rfl), ?_⟩
    rw [lxm_view_put]
    exact (h.draw k).2
  load _ g a s _ _ _ t h _ := by
    refine ⟨s, ?_, h⟩
    rw [show lxmCls.set = lxmSet from rfl, show lxmCls.get = lxmGet from rfl]
    exact C11_lxm s t
  inplace f hf := by
    obtain rfl : _ = f := Option.some.inj hf
    refine ⟨fun n => skipAt (n.toNat * 2 ^ 128), ?_, congrArg some (strides_eq _), congrArg some (strides_eq _)⟩
    intro _ g a s n h
    refine ⟨_, rfl, ?_⟩
    dsimp only
    rw [lxm_view_put]
    exact h.skip _ (C30_jumped (lxmView s) n.toNat).1 rfl
  noInplace h := by simp [lxmCls] at h
  clone c f hc _ g a s sd h ht := by
    obtain ⟨rfl, rfl⟩ := Prod.mk.inj (Option.some.inj hc)
    dsimp only
    rw [lxmReseed_ne (lxm_took ht)]
    exact ⟨_, rfl, (3037000493 ||| 1, sd), (0, none), BufAt.start _ _ _ (by simp [lxmView]) rfl⟩
  advance := Or.inr ⟨rfl, rfl⟩

/-- C95 for LXM. -/
theorem C95_lxm (os : List (SOp U64 (Nat → U64))) : lxmCls.program os = lxmSpec.program os :=
  lxm_refines.program_all os

/-! ### Xorshift1024 -/

/-- What Xorshift1024 does: the stream of the sixteen seed words from position `p`. `seed` leaves the position where it was, so that the
stream after `seed` depends on the number of words taken before. Jumps of `2^512` words. -/
def xs1024Spec : SSpec Unit (Nat → U64) (Fin 16 × (Nat → U64)) where
  start _ g := .ok (0, g)
  restart _ o n g := .ok (⟨(o.1.val + n) % 16, Nat.mod_lt _ (by decide)⟩, g)
  draw o := draw64At fun n => nthDraw xors1024Next n ⟨fun i => o.2 i, o.1⟩
  jump := some (strides (2 ^ 512))
  jumped := some (strides (2 ^ 512))
  advance := none

/-- The promise: `seed` gives the stream of a new generator. -/
def xs1024Promise : SSpec Unit (Nat → U64) (Fin 16 × (Nat → U64)) := { xs1024Spec with restart := fun _ _ _ g => .ok (0, g) }

theorem xs1024_view_put (s : Xs1024I) (b : Buf X16) : xs1024View (xs1024Put s b) = b := by
  obtain ⟨⟨w, p⟩, h, u⟩ := b
  have hp : (BitVec.ofNat 32 p.val).toNat % 16 = p.val := by
    have := p.isLt
    rw [BitVec.toNat_ofNat]; omega
  have hh : (halfI h != 0) = h := halfI_ne h
  simp only [xs1024View, xs1024Put, hh, hp]
  congr 2
  funext i
  simp

theorem xs1024_put_p (s : Xs1024I) (b : Buf X16) : (xs1024Put s b).p.toNat < 16 := by
  have := b.core.p.isLt
  simp only [xs1024Put, BitVec.toNat_ofNat]; omega

theorem xs1024_refines : Refines xs1024Cls xs1024Spec (fun _ => True)
    (fun _ o a s => s.p.toNat < 16 ∧ BufAt xors1024Next ⟨fun i => o.2 i, o.1⟩ a (xs1024View s)) where
  start _ g _ := ⟨(by decide : (0#32).toNat < 16), BufAt.start _ _ _ (by simp [xs1024View, xs1024Reseed]) rfl⟩
  restart _ o a s g h := by
    refine ⟨h.1, BufAt.start _ _ _ ?_ rfl⟩
    have hp : (xs1024View s).core.p.val = _ := congrArg (fun x : X16 => x.p.val) h.2.1
    rw [p_iterate] at hp
    simp only [xs1024View, xs1024Reseed, X16.mk.injEq]
    refine ⟨by funext i; simp, Fin.ext hp⟩
  draw _ o a s k h := by
    obtain ⟨hp, h⟩ := h
    have hi : 0 ≤ s.p.toInt ∧ s.p.toInt < 16 := by
      rw [BitVec.toInt_eq_toNat_cond]; split <;> omega
    refine ⟨xs1024Put s _, (if_pos hi).trans (congrArg some (Prod.ext (h.draw k).1 rfl)), xs1024_put_p _ _, ?_⟩
    rw [xs1024_view_put]
    exact (h.draw k).2
  load _ g a s _ _ _ t h _ := by
    refine ⟨s, ?_, h⟩
    rw [show xs1024Cls.set = xs1024Set from rfl, show xs1024Cls.get = xs1024Get from rfl]
    exact C11_xorshift1024 s t
  inplace f hf := by
    obtain rfl : _ = f := Option.some.inj hf
    refine ⟨fun n => skipAt (n.toNat * 2 ^ 512), ?_, congrArg some (strides_eq _), congrArg some (strides_eq _)⟩
    intro _ g a s n h
    refine ⟨_, rfl, ?_⟩
    refine ⟨xs1024_put_p _ _, ?_⟩
    rw [xs1024_view_put]
    exact h.2.skip _ (C29_jumped (xs1024View s) n.toNat).1 rfl
  noInplace h := by simp [xs1024Cls] at h
  clone c f hc _ g a s sd h _ := by
    obtain ⟨rfl, rfl⟩ := Prod.mk.inj (Option.some.inj hc)
    exact ⟨_, rfl, (0, sd), (0, none), (by decide : (0#32).toNat < 16), BufAt.start _ _ _ (by simp [xs1024View, xs1024Reseed]) rfl⟩
  advance := Or.inr ⟨rfl, rfl⟩

/-- C95 for Xorshift1024, with the position left over by `seed`. Not the promise: `not_C95_xorshift1024`. -/
theorem C95_xorshift1024_partial (os : List (SOp Unit (Nat → U64))) : xs1024Cls.program os = xs1024Spec.program os :=
  xs1024_refines.program_all os

/-- A re-seeded Xorshift1024 is not a new one. -/
theorem not_C95_xorshift1024 : ¬∀ os : List (SOp Unit (Nat → U64)), xs1024Cls.program os = xs1024Promise.program os := by
  intro h
  have := h [.new () fun i => BitVec.ofNat 64 i, .draw 0 .u64, .seed 0 fun i => BitVec.ofNat 64 i, .draw 0 .u64]
  rw [C95_xorshift1024_partial] at this
  revert this
  decide +kernel

/-! ### SFC64, Romu -/

/-- The promise for SFC64: the arguments `w` and `k` given to the constructor hold for every seeding. -/
def sfcSpec : SSpec (Option U64 × Option U64) (Nat → U64) ((Option U64 × Option U64) × (Nat → U64)) where
  start p g := .ok (p, g)
  restart p _ _ g := .ok (p, g)
  draw o := draw64At fun n => nthDraw sfcNext n (sfcFromSeq o.2 o.1.1 o.1.2)
  jump := none
  jumped := none
  advance := none

theorem sfc_view_put (s : SfcI) (b : Buf Sfc) : sfcView (sfcPut s b) = b := by
  obtain ⟨⟨a, c, d, w, k⟩, h, u⟩ := b
  simp [sfcView, sfcPut, halfI_ne]

theorem sfc_view_reseed (w k : Option U64) (g : Nat → U64) (s : SfcI) : (sfcView (sfcReseed w k g s)).core = sfcFromSeq g w k ∧
    (sfcView (sfcReseed w k g s)).has = false := by
  rw [sfcReseed]
  generalize sfcFromSeq g w k = r
  exact ⟨rfl, rfl⟩

theorem sfc_refines : Refines sfcCls sfcSpec (fun _ => True)
    (fun p o a s => s.1 = p ∧ BufAt sfcNext (sfcFromSeq o.2 o.1.1 o.1.2) a (sfcView s.2)) where
  start p g _ :=
    ⟨rfl, BufAt.start _ _ _ (sfc_view_reseed _ _ _ ⟨0, 0, 0, 0, 0, 0, 0⟩).1 (sfc_view_reseed _ _ _ ⟨0, 0, 0, 0, 0, 0, 0⟩).2⟩
  restart p o a s g h := by
    obtain ⟨rfl, h⟩ := h
    exact ⟨rfl, BufAt.start _ _ _ (sfc_view_reseed _ _ _ s.2).1 (sfc_view_reseed _ _ _ s.2).2⟩
  draw p o a s k h := by
    refine ⟨_, congrArg some (Prod.ext (h.2.draw k).1 rfl), h.1, ?_⟩
    rw [sfc_view_put]
    exact (h.2.draw k).2
  load p o a s p' o' a' t h ht := by
    refine ⟨(t.1, s.2), ?_, ht.1, h.2⟩
    have e := C11_sfc64 s.2 t.2
    rw [show sfcCls.set = fun v s => ((sfcSet v s.2).1, s.1, (sfcSet v s.2).2) from rfl, show sfcCls.get = fun s => sfcGet s.2 from rfl]
    dsimp only
    rw [e]
  inplace f hf := by simp [sfcCls] at hf
  noInplace _ := ⟨rfl, rfl⟩
  clone c f hc := by simp [sfcCls] at hc
  advance := Or.inr ⟨rfl, rfl⟩

/-- C95 for SFC64. -/
theorem C95_sfc64 (os : List (SOp (Option U64 × Option U64) (Nat → U64))) : sfcCls.program os = sfcSpec.program os :=
  sfc_refines.program_all os

/-- The promise for Romu: the variant comes with the stream. -/
def romuSpec : SSpec Bool (Nat → U64) (Bool × (Nat → U64)) where
  start q g := .ok (q, g)
  restart _ o _ g := .ok (o.1, g)
  draw o := draw64At fun n => nthDraw (if o.1 then romuQuadNext else romuTrioNext) n (romuFromSeq o.1 (o.2 0) (o.2 1) (o.2 2) (o.2 3))
  jump := none
  jumped := none
  advance := none

theorem romu_view_put (s : RomuI) (b : Buf Romu) : romuView (romuPut s b) = b := by
  obtain ⟨⟨w, x, y, z⟩, h, u⟩ := b
  simp [romuView, romuPut, halfI_ne]

theorem romuName_quad (q : Bool) : (romuName q == "quad") = q := by cases q <;> decide

theorem romu_refines : Refines romuCls romuSpec (fun _ => True)
    (fun _ o a s => s.variant = romuName o.1 ∧ s.actQuad = o.1 ∧
      BufAt (if o.1 then romuQuadNext else romuTrioNext) (romuFromSeq o.1 (o.2 0) (o.2 1) (o.2 2) (o.2 3)) a (romuView s)) where
  start q g _ := by
    refine ⟨rfl, romuName_quad q, BufAt.start _ _ _ ?_ rfl⟩
    simp only [romuView, romuReseed, romuName_quad]
  restart _ o a s g h := by
    obtain ⟨h1, h2, h3⟩ := h
    refine ⟨h1, ?_, BufAt.start _ _ _ ?_ rfl⟩
    · simp only [romuReseed, h1, romuName_quad]
    · simp only [romuView, romuReseed, h1, romuName_quad]
  draw _ o a s k h := by
    obtain ⟨h1, h2, h3⟩ := h
    refine ⟨_, congrArg some (Prod.ext ?_ rfl), h1, h2, ?_⟩
    · rw [h2]; exact (h3.draw k).1
    · rw [romu_view_put, h2]
      exact (h3.draw k).2
  load _ o a s _ _ _ t h _ := by
    have hs : RomuOk s := by
      refine ⟨?_, ?_⟩
      · rw [h.1]; cases o.1 <;> simp [romuName]
      · rw [h.1, romuName_quad, h.2.1]
    refine ⟨s, ?_, h⟩
    rw [show romuCls.set = romuSet from rfl, show romuCls.get = romuGet from rfl]
    exact C11_romu s t hs
  inplace f hf := by simp [romuCls] at hf
  noInplace _ := ⟨rfl, rfl⟩
  clone c f hc := by simp [romuCls] at hc
  advance := Or.inr ⟨rfl, rfl⟩

/-- C95 for Romu. -/
theorem C95_romu (os : List (SOp Bool (Nat → U64))) : romuCls.program os = romuSpec.program os :=
  romu_refines.program_all os

/-! ### PCG64 -/

/-- The seeded state of a variant: a 128-bit state and a 128-bit stream number, the latter given or from the seed. -/
def pcg64Org (o : Pcg.Variant × (Nat → U64) × Option U128) : Pcg.Core :=
  Pcg.seedCore o.1 (o.2.1 0 ++ o.2.1 1) (o.2.2.getD (o.2.1 2 ++ o.2.1 3))

/-- The promise for PCG64: the stream of the variant, the state and the stream number; jumps of the multiple `iter` of a fixed number and
`advance` modulo the period `2^128`. In the mode compatible with NumPy only `xsl-rr` and no stream number is accepted. -/
def pcg64Spec : SSpec (Bool × Pcg.Variant) ((Nat → U64) × Option U128) (Pcg.Variant × (Nat → U64) × Option U128) where
  start p sd := if p.1 = true ∧ (p.2 ≠ .xslRr ∨ sd.2.isSome) then .err .valueError else .ok (p.2, sd)
  restart p o _ sd := if p.1 = true ∧ sd.2.isSome then .err .valueError else .ok (o.1, sd)
  draw o := draw64At fun n => nthDraw Pcg.next n (pcg64Org o)
  jump := some fun n => if -2 ^ 63 ≤ n ∧ n < 2 ^ 63 then some (skipAt (210306068529402873165736369884012333108 * n % 2 ^ 128).toNat) else none
  jumped := some fun n => some (skipAt (210306068529402873165736369884012333108 * n % 2 ^ 128).toNat)
  advance := some fun d => skipAt (d % 2 ^ 128).toNat

theorem pcg64_view_put (v : Pcg.Variant) (s : Pcg64I) (b : Buf Pcg.Core) (hb : b.core.variant = v) : pcg64View v (pcg64Put s b) = b := by
  obtain ⟨⟨st, inc, v'⟩, h, u⟩ := b
  subst hb
  simp [pcg64View, pcg64Put, halfI_ne]

theorem pcg64_op_variant (o : Op) (b : Buf Pcg.Core) : (Buf.op Pcg.next o b).2.core.variant = b.core.variant := by
  have hn : ∀ c, (Pcg.next c).2.variant = c.variant := by
    intro c; obtain ⟨s, i, v⟩ := c; cases v <;> rfl
  cases o with
  | u64 => exact hn _
  | dbl => exact hn _
  | u32 =>
    simp only [Buf.op, Buf.next32]
    split
    · rfl
    · exact hn _

theorem const128_append (a b : U64) : Pcg.const128 a b = a ++ b := by
  apply BitVec.eq_of_toNat_eq
  rw [Pcg.const128, BitVec.toNat_append, BitVec.toNat_add, BitVec.toNat_shiftLeft, Nat.shiftLeft_eq]
  have ha := a.isLt
  have hb := b.isLt
  rw [← Nat.shiftLeft_add_eq_or_of_lt hb, Nat.shiftLeft_eq]
  simp only [BitVec.truncate_eq_setWidth, BitVec.toNat_setWidth]
  omega

theorem emod_modEq (x : Int) (m : Int) (hm : 0 < m) : ((x % m).toNat : Int) ≡ x [ZMOD m] := by
  rw [Int.toNat_of_nonneg (Int.emod_nonneg _ hm.ne')]
  exact Int.mod_modEq _ _

/-- A consistent PCG64 instance at a place. -/
def PcgAt (o : Pcg.Variant × (Nat → U64) × Option U128) (a : Nat × Option U32) (s : Pcg64I) : Prop :=
  Pcg64Ok s ∧ pcg64Variant s = o.1 ∧ BufAt Pcg.next (pcg64Org o) a (pcg64View o.1 s)

theorem pcg64Ok_adv {s : Pcg64I} (h : Pcg64Ok s) : pcg64AdvVariant s = pcg64Variant s ∧ (if s.useDxsm then (1 : U32) else 0) = s.cDxsm ∧
    s.variant = variantArg (pcg64Variant s) ∧ s.cheap = (pcg64Variant s == .cmDxsm) ∧ variantOf s.variant = pcg64Variant s := by
  obtain ⟨st, inc, cd, has, uint, var, ud, ch, ac⟩ := s
  rcases h with h | h | h <;> obtain ⟨rfl, rfl, rfl, rfl, rfl⟩ := h <;> refine ⟨?_, ?_, ?_, ?_, ?_⟩ <;> rfl

theorem PcgAt.draw {o : Pcg.Variant × (Nat → U64) × Option U128} {a : Nat × Option U32} {s : Pcg64I} (h : PcgAt o a s) (k : Op) :
    (Buf.op Pcg.next k (pcg64View (pcg64Variant s) s)).1 = (draw64At (fun n => nthDraw Pcg.next n (pcg64Org o)) k a).1 ∧
      PcgAt o (draw64At (fun n => nthDraw Pcg.next n (pcg64Org o)) k a).2
        (pcg64Put s (Buf.op Pcg.next k (pcg64View (pcg64Variant s) s)).2) := by
  obtain ⟨h1, h2, h3⟩ := h
  rw [h2]
  refine ⟨(h3.draw k).1, h1, h2, ?_⟩
  rw [pcg64_view_put o.1 s _ (pcg64_op_variant k (pcg64View o.1 s))]
  exact (h3.draw k).2

theorem PcgAt.advance {o : Pcg.Variant × (Nat → U64) × Option U128} {a : Nat × Option U32} {s : Pcg64I} (h : PcgAt o a s) (d : Int) (n : Nat)
    (hn : (n : Int) ≡ d [ZMOD 2 ^ 128]) : PcgAt o (a.1 + n, none) (pcg64AdvI d s) := by
  obtain ⟨h1, h2, h3⟩ := h
  obtain ⟨e1, e2, -⟩ := pcg64Ok_adv h1
  have e : pcg64AdvI d s = pcg64Put s (Pcg.advance (pcg64View o.1 s) d) := by
    rw [pcg64AdvI, e1, h2]
    simp only [e2]
    rfl
  rw [e]
  refine ⟨h1, h2, ?_⟩
  rw [pcg64_view_put o.1 s _ rfl]
  exact h3.skip n (Pcg.C03_pcg64_advance _ d n hn).1 rfl

theorem PcgAt.jump {o : Pcg.Variant × (Nat → U64) × Option U128} {a : Nat × Option U32} {s : Pcg64I} (h : PcgAt o a s) (i : Int) :
    PcgAt o (a.1 + (210306068529402873165736369884012333108 * i % 2 ^ 128).toNat, none) (pcg64JumpI i s) := by
  refine h.advance _ _ ?_
  refine (emod_modEq _ _ (by norm_num)).trans ?_
  have e : Pcg.phi128 = 210306068529402873165736369884012333108 := by decide +kernel
  rw [e]
  exact Int.modEq_iff_dvd.mpr ⟨-Int.fdiv (210306068529402873165736369884012333108 * i) (2 ^ 128), by ring⟩

theorem PcgAt.seed {s : Pcg64I} (h : Pcg64Ok s) (sd : (Nat → U64) × Option U128) :
    PcgAt (pcg64Variant s, sd) (0, none) (pcg64Reseed sd.1 sd.2 s) := by
  obtain ⟨e1, e2, e3, e4, e5⟩ := pcg64Ok_adv h
  have ok : Pcg64Ok (pcg64Reseed sd.1 sd.2 s) := by
    simp only [pcg64Reseed, e2]
    exact h
  refine ⟨ok, ?_, BufAt.start _ _ _ ?_ rfl⟩
  · simp only [pcg64Reseed, pcg64Variant, e2]
  · have hm : (if s.cheap then Pcg.cheapMult else Pcg.defaultMult) = Pcg.multOf (pcg64Variant s) := by
      rw [e4]; cases pcg64Variant s <;> rfl
    simp only [pcg64View, pcg64Reseed, pcg64Org, Pcg.seedCore, const128_append, hm]

theorem pcg64Fresh_ok (v : Pcg.Variant) (sd : (Nat → U64) × Option U128) : PcgAt (v, sd) (0, none) (pcg64Reseed sd.1 sd.2 (pcg64Fresh v)) := by
  cases v with
  | cmDxsm =>
    have := PcgAt.seed (s := { pcg64Fresh .cmDxsm with cDxsm := 1 }) (Or.inl ⟨rfl, rfl, rfl, rfl, rfl⟩) sd
    exact this
  | dxsm128 =>
    have := PcgAt.seed (s := { pcg64Fresh .dxsm128 with cDxsm := 1 }) (Or.inr (Or.inl ⟨rfl, rfl, rfl, rfl, rfl⟩)) sd
    exact this
  | xslRr =>
    have := PcgAt.seed (s := { pcg64Fresh .xslRr with cDxsm := 0 }) (Or.inr (Or.inr ⟨rfl, rfl, rfl, rfl, rfl⟩)) sd
    exact this

theorem pcg64_isIntp {β : Type} (f : Int → β) : (fun n : Int => if -2 ^ 63 ≤ n ∧ n < 2 ^ 63 then some (f n) else none) =
    fun n => if true && !isIntp n then none else some (f n) := by
  funext n
  unfold isIntp
  by_cases h1 : -2 ^ 63 ≤ n <;> by_cases h2 : n < 2 ^ 63 <;> simp only [h1, h2, and_self, and_true, and_false, if_true, if_false, decide_true,
    decide_false, Bool.and_true, Bool.and_false, Bool.not_true, Bool.not_false, Bool.false_eq_true]

theorem pcg64New_eq (m : Bool) (v : Pcg.Variant) (sd : (Nat → U64) × Option U128) : pcg64New m (variantArg v) v sd.1 sd.2 =
    if m = true ∧ (v ≠ .xslRr ∨ sd.2.isSome) then .err .valueError else .ok (m, pcg64Reseed sd.1 sd.2 (pcg64Fresh v)) := by
  obtain ⟨g, inc⟩ := sd
  rw [pcg64New]
  cases m <;> cases v <;> cases inc <;> rfl

theorem pcg64_refines (m : Bool) : Refines pcg64Cls pcg64Spec (fun p => p.1 = m)
    (fun p o a s => p.1 = m ∧ s.1 = m ∧ (m = true → o.1 = .xslRr) ∧ PcgAt o a s.2) where
  start p sd hp := by
    obtain ⟨m', v⟩ := p
    obtain rfl : m' = m := hp
    rw [show pcg64Cls.new (m', v) sd = pcg64New m' (variantArg v) v sd.1 sd.2 from rfl, pcg64New_eq]
    show MadeRel _ (if _ then _ else _) _
    by_cases h : m' = true ∧ (v ≠ .xslRr ∨ sd.2.isSome)
    · rw [if_pos h, if_pos h]; rfl
    · rw [if_neg h, if_neg h]
      refine ⟨rfl, rfl, fun hm => ?_, pcg64Fresh_ok v sd⟩
      by_contra hv
      exact h ⟨hm, Or.inl hv⟩
  restart p o a s sd h := by
    obtain ⟨h1, h2, h3, h4⟩ := h
    show MadeRel _ (if p.1 = true ∧ sd.2.isSome then _ else _) (if s.1 && sd.2.isSome then _ else _)
    by_cases h : m = true ∧ sd.2.isSome
    · rw [if_pos (by rw [h1]; exact h), if_pos (by rw [h2, h.1, h.2]; rfl)]; rfl
    · rw [if_neg (by rw [h1]; exact h), if_neg (by rw [h2, Bool.and_eq_true]; exact h)]
      refine ⟨h1, h2, h3, ?_⟩
      have := PcgAt.seed h4.1 sd
      rw [h4.2.1] at this
      exact this
  draw p o a s k h := by
    obtain ⟨h1, h2, h3, h4⟩ := h
    exact ⟨_, congrArg some (Prod.ext (h4.draw k).1 rfl), h1, h2, h3, (h4.draw k).2⟩
  load p o a s p' o' a' t h ht := by
    refine ⟨(t.1, s.2), ?_, ht.1, ht.2.1, h.2.2⟩
    have e := C11_pcg64 s.2 t.2 h.2.2.2.1
    rw [show pcg64Cls.set = fun v s => ((pcg64Set v s.2).1, s.1, (pcg64Set v s.2).2) from rfl,
      show pcg64Cls.get = fun s => pcg64Get s.2 from rfl]
    dsimp only
    rw [e]
  inplace f hf := by
    obtain rfl : _ = f := Option.some.inj hf
    refine ⟨fun n => skipAt (210306068529402873165736369884012333108 * n % 2 ^ 128).toNat, ?_, congrArg some (pcg64_isIntp _), ?_⟩
    · intro p o a s n h
      exact ⟨_, rfl, h.1, h.2.1, h.2.2.1, h.2.2.2.jump n⟩
    · rfl
  noInplace h := by simp [pcg64Cls] at h
  clone c f hc p o a s sd h _ := by
    obtain ⟨rfl, rfl⟩ := Prod.mk.inj (Option.some.inj hc)
    obtain ⟨h1, h2, h3, h4⟩ := h
    obtain ⟨-, -, e3, -, e5⟩ := pcg64Ok_adv h4.1
    rw [h4.2.1] at e3 e5
    dsimp only
    rw [e5, e3, show pcg64New s.1 (variantArg o.1) o.1 sd.1 none = _ from pcg64New_eq s.1 o.1 (sd.1, none), h2, if_neg]
    · exact ⟨_, rfl, (o.1, sd.1, none), (0, none), h1, rfl, h3, pcg64Fresh_ok o.1 (sd.1, none)⟩
    · rintro ⟨hm, h | h⟩
      · exact h (h3 hm)
      · simp at h
  advance := by
    refine Or.inl ⟨_, _, rfl, rfl, fun p o a s d h => ⟨_, rfl, h.1, h.2.1, h.2.2.1, ?_⟩⟩
    exact h.2.2.2.advance d _ (emod_modEq _ _ (by norm_num))

/-- C95 for PCG64, in programs all of whose instances have the same seeding mode. With instances of both modes it is false:
`not_C95_pcg64`. -/
theorem C95_pcg64_partial (m : Bool) (os : List (SOp (Bool × Pcg.Variant) ((Nat → U64) × Option U128)))
    (hm : ∀ p sd, .new p sd ∈ os → p.1 = m) : pcg64Cls.program os = pcg64Spec.program os := by
  refine (pcg64_refines m).program os fun o ho => ?_
  cases o with
  | new p sd => exact hm p sd ho
  | _ => exact trivial

/-- An instance in NumPy's mode that has been given the state of a `dxsm` instance draws from it, but can not be jumped. -/
theorem not_C95_pcg64 : ¬∀ os : List (SOp (Bool × Pcg.Variant) ((Nat → U64) × Option U128)), pcg64Cls.program os = pcg64Spec.program os := by
  intro h
  have := h [.new (true, .xslRr) (fun _ => 1, none), .new (false, .cmDxsm) (fun _ => 2, none), .save 1, .load 0 0, .jumped 0 1]
  revert this
  decide +kernel

/-- The promise for PCG64DXSM. -/
def pcg64DxsmSpec : SSpec Unit ((Nat → U64) × Option U128) ((Nat → U64) × Option U128) where
  start _ sd := .ok sd
  restart _ _ _ sd := .ok sd
  draw o := draw64At fun n => nthDraw Pcg.next n (pcg64Org (.cmDxsm, o))
  jump := none
  jumped := some fun n => some (skipAt (210306068529402873165736369884012333108 * n % 2 ^ 128).toNat)
  advance := some fun d => skipAt (d % 2 ^ 128).toNat

theorem pcg64Dxsm_refines : Refines pcg64DxsmCls pcg64DxsmSpec (fun _ => True) (fun _ o a s => PcgAt (.cmDxsm, o) a s) where
  start _ sd _ := pcg64Fresh_ok .cmDxsm sd
  restart _ o a s sd h := by
    have := PcgAt.seed h.1 sd
    rw [h.2.1] at this
    exact this
  draw _ o a s k h := ⟨_, congrArg some (Prod.ext (h.draw k).1 rfl), (h.draw k).2⟩
  load _ o a s _ _ _ t h _ := by
    refine ⟨s, ?_, h⟩
    rw [show pcg64DxsmCls.set = pcg64DxsmSet from rfl, show pcg64DxsmCls.get = pcg64DxsmGet from rfl]
    refine C11_pcg64dxsm s t h.1 ?_
    rw [(pcg64Ok_adv h.1).2.2.1, h.2.1]
    rfl
  inplace f hf := by
    obtain rfl : _ = f := Option.some.inj hf
    refine ⟨fun n : Int => skipAt (210306068529402873165736369884012333108 * n % 2 ^ 128).toNat, fun _ o a s n h => ?_, rfl, rfl⟩
    exact ⟨_, rfl, h.jump n⟩
  noInplace h := by simp [pcg64DxsmCls] at h
  clone c f hc _ o a s sd h _ := by
    obtain ⟨rfl, rfl⟩ := Prod.mk.inj (Option.some.inj hc)
    exact ⟨_, rfl, (sd.1, none), (0, none), pcg64Fresh_ok .cmDxsm (sd.1, none)⟩
  advance := Or.inl ⟨_, _, rfl, rfl, fun _ o a s d h => ⟨_, rfl, h.advance d _ (emod_modEq _ _ (by norm_num))⟩⟩

/-- C95 for PCG64DXSM. -/
theorem C95_pcg64dxsm (os : List (SOp Unit ((Nat → U64) × Option U128))) : pcg64DxsmCls.program os = pcg64DxsmSpec.program os :=
  pcg64Dxsm_refines.program_all os

/-! ### PCG32 -/

/-- The promise for PCG32, for both orders in which a compiler may evaluate the two calls of a 64-bit draw. -/
def pcg32Spec (hiFirst : Bool) : SSpec Unit ((Nat → U64) × Option U64) ((Nat → U64) × Option U64) where
  start _ sd := .ok sd
  restart _ _ _ sd := .ok sd
  draw o := draw32At hiFirst fun n => nthDraw Pcg32.next n (Pcg32.seed (o.1 0) (o.2.getD (o.1 1)))
  jump := some fun n => some (skipAt (11400714819323198486 * n % 2 ^ 64).toNat)
  jumped := some fun n => some (skipAt (11400714819323198486 * n % 2 ^ 64).toNat)
  advance := some fun d => skipAt (d % 2 ^ 64).toNat

/-- The instance is at place `a`; there is no cached half. -/
def Pcg32At (o : (Nat → U64) × Option U64) (a : Nat × Option U32) (s : Pcg32I) : Prop :=
  pcg32View s = (stepOf Pcg32.next)^[a.1] (Pcg32.seed (o.1 0) (o.2.getD (o.1 1))) ∧ a.2 = none

theorem join_toNat (h l : U32) : h.setWidth 64 <<< 32 ||| l.setWidth 64 = BitVec.ofNat 64 (h.toNat * 2 ^ 32 + l.toNat) := by
  apply BitVec.eq_of_toNat_eq
  have hh := h.isLt
  have hl := l.isLt
  rw [BitVec.toNat_or, BitVec.toNat_shiftLeft, BitVec.toNat_setWidth, BitVec.toNat_setWidth, BitVec.toNat_ofNat, Nat.mod_eq_of_lt (a := h.toNat) (by omega),
    Nat.mod_eq_of_lt (a := l.toNat) (by omega), Nat.mod_eq_of_lt (a := h.toNat <<< 32) (by rw [Nat.shiftLeft_eq]; omega),
    ← Nat.shiftLeft_add_eq_or_of_lt hl, Nat.shiftLeft_eq, Nat.mod_eq_of_lt (by omega)]

theorem Pcg32At.draw {o : (Nat → U64) × Option U64} {a : Nat × Option U32} {s : Pcg32I} (h : Pcg32At o a s) (b : Bool) (k : Op) :
    ∃ s', pcg32Op b k s = some (((pcg32Spec b).draw o k a).1, s') ∧ Pcg32At o ((pcg32Spec b).draw o k a).2 s' := by
  obtain ⟨n, half⟩ := a
  obtain ⟨h, rfl⟩ : _ ∧ half = none := h
  have h1 : (Pcg32.next (pcg32View s)).2 = (stepOf Pcg32.next)^[n + 1] (Pcg32.seed (o.1 0) (o.2.getD (o.1 1))) := by
    rw [h, Function.iterate_succ_apply']; rfl
  have h2 : (Pcg32.next (Pcg32.next (pcg32View s)).2).2 = (stepOf Pcg32.next)^[n + 2] (Pcg32.seed (o.1 0) (o.2.getD (o.1 1))) := by
    rw [h1, Function.iterate_succ_apply' _ (n + 1)]; rfl
  have v0 : (Pcg32.next (pcg32View s)).1 = nthDraw Pcg32.next n (Pcg32.seed (o.1 0) (o.2.getD (o.1 1))) := by rw [h]; rfl
  have v1 : (Pcg32.next (Pcg32.next (pcg32View s)).2).1 = nthDraw Pcg32.next (n + 1) (Pcg32.seed (o.1 0) (o.2.getD (o.1 1))) := by
    rw [h1]; rfl
  cases k with
  | u32 => exact ⟨_, congrArg some (Prod.ext (congrArg Out.o32 v0) rfl), h1, rfl⟩
  | u64 =>
    refine ⟨pcg32Put (Pcg32.next (Pcg32.next (pcg32View s)).2).2, ?_, h2, rfl⟩
    simp only [pcg32Op, twoCalls, pcg32Spec, draw32At, v0, v1]
    cases b <;> simp only [Bool.false_eq_true, if_false, if_true, join_toNat]
  | dbl =>
    refine ⟨pcg32Put (Pcg32.next (Pcg32.next (pcg32View s)).2).2, ?_, h2, rfl⟩
    simp only [pcg32Op, Doubles.dblCalls, Doubles.dbl32, pcg32Spec, draw32At, v0, v1, BitVec.toNat_ushiftRight, Nat.shiftRight_eq_div_pow]

theorem Pcg32At.advance {o : (Nat → U64) × Option U64} {a : Nat × Option U32} {s : Pcg32I} (h : Pcg32At o a s) (d : Int) (n : Nat)
    (hn : (n : Int) ≡ d [ZMOD 2 ^ 64]) : Pcg32At o (a.1 + n, none) (pcg32Put (Pcg32.advance (pcg32View s) d)) := by
  refine ⟨?_, rfl⟩
  show Pcg32.advance (pcg32View s) d = _
  rw [Pcg32.C04_pcg32_advance _ d n hn, h.1, ← Function.iterate_add_apply, Nat.add_comm]

theorem pcg32_refines (b : Bool) : Refines (pcg32Cls b) (pcg32Spec b) (fun _ => True) (fun _ o a s => Pcg32At o a s) where
  start _ sd _ := ⟨rfl, rfl⟩
  restart _ _ _ _ sd _ := ⟨rfl, rfl⟩
  draw _ o a s k h := h.draw b k
  load _ o a s _ _ _ t h _ := by
    refine ⟨s, ?_, h⟩
    rw [show (pcg32Cls b).set = pcg32Set from rfl, show (pcg32Cls b).get = pcg32Get from rfl]
    exact C11_pcg32 s t
  inplace f hf := by
    obtain rfl : _ = f := Option.some.inj hf
    refine ⟨fun n => skipAt (11400714819323198486 * n % 2 ^ 64).toNat, fun _ o a s n h => ⟨_, rfl, h.advance _ _ ?_⟩, rfl, rfl⟩
    have := emod_modEq (11400714819323198486 * n) (2 ^ 64) (by norm_num)
    rw [Int.mul_comm n]
    exact this
  noInplace h := by simp [pcg32Cls] at h
  clone c f hc _ o a s sd h _ := by
    obtain ⟨rfl, rfl⟩ := Prod.mk.inj (Option.some.inj hc)
    exact ⟨_, rfl, (sd.1, none), (0, none), rfl, rfl⟩
  advance := Or.inl ⟨_, _, rfl, rfl, fun _ o a s d h => ⟨_, rfl, h.advance d _ (emod_modEq _ _ (by norm_num))⟩⟩

/-- C95 for PCG32. -/
theorem C95_pcg32 (hiFirst : Bool) (os : List (SOp Unit ((Nat → U64) × Option U64))) :
    (pcg32Cls hiFirst).program os = (pcg32Spec hiFirst).program os :=
  (pcg32_refines hiFirst).program_all os

/-! ### Programs -/

/-- Saved after three draws, restored into another instance after a jump: the second instance continues where the first was saved, with the
half of its word. -/
example : xo256Cls.program [.new () fun i => BitVec.ofNat 64 ((i + 1) * 2 ^ 40), .draw 0 .u32, .save 0, .new () fun _ => 7, .jump 1 3,
    .load 1 0, .draw 0 .u32, .draw 1 .u32, .jumped 1 1, .draw 5 .u64] =
    [.done, .val (.o32 0), .done, .done, .done, .done, .val (.o32 0x2d0000), .val (.o32 0x2d0000), .done, .noObject] := by decide +kernel

/-- A jump that does not fit a C integer, an unknown method, seeding with zeros. -/
example : lxmCls.program [.new 1 fun i => BitVec.ofNat 64 i, .jump 0 (2 ^ 63), .advance 0 1, .seed 0 fun _ => 0, .draw 0 .u64] =
    [.done, .err .overflowError, .noMethod, .hang] := by decide +kernel

/-- In one mode all goes well; the variant comes with the state. -/
example : pcg64Cls.program [.new (false, .xslRr) (fun _ => 1, none), .new (false, .cmDxsm) (fun _ => 2, some 5), .save 1, .load 0 0,
    .jumped 0 1, .advance 2 (-5), .new (true, .dxsm128) (fun _ => 1, none)] =
    [.done, .done, .done, .done, .done, .done, .err .valueError] := by decide +kernel

end Verif
