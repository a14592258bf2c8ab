import Verif.Model.ExtGen
import Verif.Props.StateRoundTrip

/-! C105: an `ExtendedGenerator` draws what its bit generator would draw, whatever is done with the bit generator in between, and a pickled and
reloaded (or copied) one draws what the original draws. The code meets this for the variant that was there when the `ExtendedGenerator` was made and,
for copies, for the default variant; the default `ExtendedGenerator` is not of the default variant. -/

namespace Verif
namespace ExtGen

/-! ### Programs -/

/-- The states a program assigns. -/
def Assigned {Seed : Type} (os : List (EgOp Seed)) (v : PyVal) : Prop := .setState v ∈ os

section
variable {Par Seed σ φ : Type} {C : GCls Par Seed σ} {W : Fns φ σ}

/-- The instances of a class that are in order, as far as the draw functions go: `Ok` holds of them and is kept, with the installed functions, by
every method but the assignment of a state. -/
structure Steady (C : GCls Par Seed σ) (W : Fns φ σ) (Ok : σ → Prop) : Prop where
  self : ∀ s, W.put (W.fns s) s = s
  op : ∀ o s x s', Ok s → C.op o s = some (x, s') → Ok s' ∧ W.fns s' = W.fns s
  seed : ∀ sd s s', Ok s → C.seed sd s = .ok s' → Ok s' ∧ W.fns s' = W.fns s
  fail : ∀ sd s, Ok s → Ok (C.seedFail sd s) ∧ W.fns (C.seedFail sd s) = W.fns s
  jump : ∀ f n s s', C.inplace = some f → Ok s → f n s = .ok s' → Ok s' ∧ W.fns s' = W.fns s
  advance : ∀ f n s s', C.advance = some f → Ok s → f n s = .ok s' → Ok s' ∧ W.fns s' = W.fns s
  set : ∀ s t, Ok s → Ok t → (C.set (C.get t) s).1 = .ok () ∧ Ok (C.set (C.get t) s).2 ∧ W.fns (C.set (C.get t) s).2 = W.fns t

theorem egDraw_own (h : ∀ s, W.put (W.fns s) s = s) (e : Eg φ σ) (o : Op) (he : e.f = W.fns e.bg)
    (hk : ∀ x s', C.op o e.bg = some (x, s') → W.fns s' = W.fns e.bg) : egDraw C W e o = C.op o e.bg := by
  unfold egDraw
  rw [he, h]
  cases hc : C.op o e.bg with
  | none => rfl
  | some r => simp only [Option.map_some]; rw [← hk r.1 r.2 hc, h]

theorem madeRes_keep {P : σ → Prop} (old : σ) (m : Made σ) (h : P old) (hm : ∀ s, m = .ok s → P s) : P (madeRes old m).2 := by
  cases m with
  | ok s => exact hm s rfl
  | err e => exact h
  | hang => exact h
  | ub => exact h

theorem setRes_snd (r : Res Unit × σ) : (setRes r).2 = r.2 := by
  obtain ⟨r, s⟩ := r
  cases r <;> rfl

/-- One call, on an `ExtendedGenerator` whose copy is up to date. -/
theorem call_eq {Ok : σ → Prop} (S : Steady C W Ok) (e : Eg φ σ) (o : EgOp Seed) (he : e.f = W.fns e.bg) (hk : Ok e.bg)
    (hv : ∀ v, o = .setState v → ∃ t, Ok t ∧ W.fns t = e.f ∧ v = C.get t) :
    (egCall C W e o).1 = (bgCall C e.bg o).1 ∧ (egCall C W e o).2 = ⟨e.f, (bgCall C e.bg o).2⟩ ∧ Ok (bgCall C e.bg o).2 ∧
      W.fns (bgCall C e.bg o).2 = e.f := by
  have key : Ok (bgCall C e.bg o).2 ∧ W.fns (bgCall C e.bg o).2 = W.fns e.bg := by
    have hd : ∀ p, Ok (drawRes e.bg (C.op p e.bg)).2 ∧ W.fns (drawRes e.bg (C.op p e.bg)).2 = W.fns e.bg := by
      intro p
      cases hc : C.op p e.bg with
      | none => exact ⟨hk, rfl⟩
      | some r => exact S.op p e.bg r.1 r.2 hk hc
    cases o with
    | draw o => exact hd o
    | raw o => exact hd o
    | setState v =>
      obtain ⟨t, ht, hf, rfl⟩ := hv v rfl
      have := S.set e.bg t hk ht
      simp only [bgCall, setRes_snd]
      exact ⟨this.2.1, this.2.2.trans (hf.trans he)⟩
    | seed sd =>
      exact madeRes_keep (P := fun s => Ok s ∧ W.fns s = W.fns e.bg) _ _ (S.fail sd e.bg hk) fun s hs => S.seed sd e.bg s hk hs
    | jump n =>
      simp only [bgCall]
      split
      next c f h1 h2 =>
        split
        · exact ⟨hk, rfl⟩
        · exact madeRes_keep (P := fun s => Ok s ∧ W.fns s = W.fns e.bg) _ _ ⟨hk, rfl⟩ fun s hs => S.jump f n e.bg s h2 hk hs
      · exact ⟨hk, rfl⟩
    | advance d =>
      simp only [bgCall]
      split
      next f h1 => exact madeRes_keep (P := fun s => Ok s ∧ W.fns s = W.fns e.bg) _ _ ⟨hk, rfl⟩ fun s hs => S.advance f d e.bg s h1 hk hs
      · exact ⟨hk, rfl⟩
  refine ⟨?_, ?_, key.1, key.2.trans he.symm⟩
  · cases o with
    | draw o => simp only [egCall, bgCall, egDraw_own S.self e o he fun x s' h => (S.op o e.bg x s' hk h).2]
    | _ => rfl
  · cases o with
    | draw o => simp only [egCall, bgCall, egDraw_own S.self e o he fun x s' h => (S.op o e.bg x s' hk h).2]
    | _ => rfl

theorem run_eq {Ok : σ → Prop} (S : Steady C W Ok) (os : List (EgOp Seed)) : ∀ (e : Eg φ σ), e.f = W.fns e.bg → Ok e.bg →
    (∀ v, Assigned os v → ∃ t, Ok t ∧ W.fns t = e.f ∧ v = C.get t) → egRun C W e os = bgRun C e.bg os := by
  induction os with
  | nil => intros; rfl
  | cons o os ih =>
    intro e he hk hv
    obtain ⟨h1, h2, h3, h4⟩ := call_eq S e o he hk fun v h => hv v (by rw [h]; exact List.mem_cons_self)
    have h5 : egCall C W e o = ((bgCall C e.bg o).1, ⟨e.f, (bgCall C e.bg o).2⟩) := Prod.ext h1 h2
    have h6 := ih ⟨e.f, (bgCall C e.bg o).2⟩ h4.symm h3 fun v h => hv v (List.mem_cons_of_mem _ h)
    unfold egRun bgRun
    rw [h5]
    rcases hb : bgCall C e.bg o with ⟨r, s'⟩
    rw [hb] at h6
    cases r <;> simp only [h6]

end

/-! ### The classes -/

theorem steady_xoro : Steady xoroCls xoroFns XoroOk where
  self _ := rfl
  op o s x s' h e := by
    simp only [xoroCls, bufOp, Option.some.injEq, Prod.mk.injEq] at e
    obtain ⟨-, rfl⟩ := e
    exact ⟨h, rfl⟩
  seed sd s s' h e := by cases e; exact ⟨h, rfl⟩
  fail _ s h := ⟨h, rfl⟩
  jump f n s s' hf h e := by cases hf; cases e; exact ⟨h, rfl⟩
  advance f n s s' hf := by cases hf
  set s t _ ht := by
    have := C11_xoroshiro128 t s ht
    simp only [xoroCls, this]
    exact ⟨trivial, ht, trivial⟩

theorem steady_romu : Steady romuCls romuFns RomuOk where
  self _ := rfl
  op o s x s' h e := by
    simp only [romuCls, bufOp, Option.some.injEq, Prod.mk.injEq] at e
    obtain ⟨-, rfl⟩ := e
    exact ⟨h, rfl⟩
  seed sd s s' h e := by cases e; exact ⟨⟨h.1, rfl⟩, h.2.symm⟩
  fail _ s h := ⟨h, rfl⟩
  jump f n s s' hf := by cases hf
  advance f n s s' hf := by cases hf
  set s t _ ht := by
    have := C11_romu t s ht
    simp only [romuCls, this]
    exact ⟨trivial, ht, trivial⟩

theorem steady_tyche (hiFirst : Bool) : Steady (tycheCls hiFirst) tycheFns TycheOk where
  self _ := rfl
  op o s x s' h e := by
    simp only [tycheCls, tycheOp] at e
    cases o <;> simp only [Option.some.injEq, Prod.mk.injEq] at e <;> obtain ⟨-, rfl⟩ := e <;> exact ⟨h, rfl⟩
  seed sd s s' h e := by
    simp only [tycheCls, tycheReseed] at e
    split at e
    · cases e; exact ⟨h, rfl⟩
    · split at e
      · cases e; exact ⟨h, rfl⟩
      · cases e
  fail _ s h := ⟨h, rfl⟩
  jump f n s s' hf := by cases hf
  advance f n s s' hf := by cases hf
  set s t _ ht := by
    have := C11_tyche t s ht
    simp only [tycheCls, this]
    exact ⟨trivial, ht, trivial⟩

theorem steady_jsf (hiFirst : Bool) : Steady (jsfCls hiFirst) jsfFns JsfOk where
  self _ := rfl
  op o s x s' h e := by
    simp only [jsfCls, jsfOp] at e
    split at e
    · unfold bufOpO at e
      simp only [Option.map_eq_some_iff] at e
      obtain ⟨r, -, e⟩ := e
      cases e
      exact ⟨h, rfl⟩
    · simp only [Option.map_eq_some_iff] at e
      obtain ⟨r, -, e⟩ := e
      cases e
      exact ⟨h, rfl⟩
  seed sd s s' h e := by
    have : ∀ t, jsfReseed sd.1 sd.2 s = some t → JsfOk t ∧ t.act64 = s.act64 := by
      intro t ht
      unfold jsfReseed at ht
      split at ht <;> simp only [Option.map_eq_some_iff] at ht <;> obtain ⟨r, -, rfl⟩ := ht <;> exact ⟨h, rfl⟩
    simp only [jsfCls] at e
    cases hc : jsfReseed sd.1 sd.2 s with
    | none => rw [hc] at e; cases e
    | some t => rw [hc] at e; cases e; exact this _ hc
  fail _ s h := ⟨h, rfl⟩
  jump f n s s' hf := by cases hf
  advance f n s s' hf := by cases hf
  set s t _ ht := by
    obtain ⟨t', h1, h2⟩ := C11_jsf t s ht
    have h3 : t'.size = t.size := by
      have := congrArg JsfI.size h2
      unfold jsfView at this
      split at this <;> split at this <;> exact this
    have h4 : t'.act64 = t.act64 := by
      have := congrArg JsfI.act64 h2
      unfold jsfView at this
      split at this <;> split at this <;> exact this
    simp only [jsfCls, h1]
    refine ⟨trivial, ?_, h4⟩
    unfold JsfOk
    rw [h4, h3]
    exact ht

theorem steady_squares (hiFirst : Bool) : Steady (squaresCls hiFirst) squaresFns SquaresOk where
  self _ := rfl
  op o s x s' h e := by
    simp only [squaresCls, squaresOp] at e
    split at e
    · simp only [bufOp, Option.some.injEq, Prod.mk.injEq] at e
      obtain ⟨-, rfl⟩ := e
      exact ⟨h, rfl⟩
    · cases o <;> simp only [Option.some.injEq, Prod.mk.injEq] at e <;> obtain ⟨-, rfl⟩ := e <;> exact ⟨h, rfl⟩
  seed sd s s' h e := by
    simp only [squaresCls] at e
    cases hc : squaresReseed sd.1 sd.2.1 sd.2.2 s with
    | error x => rw [hc] at e; cases e
    | ok t =>
      rw [hc] at e
      cases e
      unfold squaresReseed at hc
      simp only [bind, Except.bind, pure, Except.pure] at hc
      repeat' split at hc
      all_goals first | (cases hc; exact ⟨h, rfl⟩) | cases hc
  fail sd s h := by
    simp only [squaresCls, squaresSeedFail]
    split
    · exact ⟨h, rfl⟩
    · split <;> exact ⟨h, rfl⟩
  jump f n s s' hf h e := by
    cases hf
    simp only at e
    split at e
    · cases e; exact ⟨h, rfl⟩
    · cases e
  advance f n s s' hf h e := by
    cases hf
    simp only at e
    split at e
    · cases e; exact ⟨h, rfl⟩
    · cases e
  set s t _ ht := by
    have := C11_squares_partial t s ht
    simp only [squaresCls, this]
    exact ⟨trivial, ht, rfl⟩

theorem steady_pcg64 : Steady pcg64Cls pcg64Fns fun s => Pcg64Ok s.2 where
  self _ := rfl
  op o s x s' h e := by
    simp only [pcg64Cls, bufOp, Option.map_some, Option.some.injEq, Prod.mk.injEq] at e
    obtain ⟨-, rfl⟩ := e
    exact ⟨h, rfl⟩
  seed sd s s' h e := by
    simp only [pcg64Cls] at e
    split at e
    · cases e
    · cases e
      refine ⟨?_, rfl⟩
      rcases h with ⟨a, b, c, d, f⟩ | ⟨a, b, c, d, f⟩ | ⟨a, b, c, d, f⟩
      · exact .inl ⟨a, b, c, d, by simp [pcg64Reseed, b]⟩
      · exact .inr (.inl ⟨a, b, c, d, by simp [pcg64Reseed, b]⟩)
      · exact .inr (.inr ⟨a, b, c, d, by simp [pcg64Reseed, b]⟩)
  fail _ s h := ⟨h, rfl⟩
  jump f n s s' hf h e := by
    cases hf; cases e
    refine ⟨?_, rfl⟩
    rcases h with ⟨a, b, c, d, f⟩ | ⟨a, b, c, d, f⟩ | ⟨a, b, c, d, f⟩
    · exact .inl ⟨a, b, c, d, by simp [pcg64JumpI, pcg64AdvI, b]⟩
    · exact .inr (.inl ⟨a, b, c, d, by simp [pcg64JumpI, pcg64AdvI, b]⟩)
    · exact .inr (.inr ⟨a, b, c, d, by simp [pcg64JumpI, pcg64AdvI, b]⟩)
  advance f n s s' hf h e := by
    cases hf; cases e
    refine ⟨?_, rfl⟩
    rcases h with ⟨a, b, c, d, f⟩ | ⟨a, b, c, d, f⟩ | ⟨a, b, c, d, f⟩
    · exact .inl ⟨a, b, c, d, by simp [pcg64AdvI, b]⟩
    · exact .inr (.inl ⟨a, b, c, d, by simp [pcg64AdvI, b]⟩)
    · exact .inr (.inr ⟨a, b, c, d, by simp [pcg64AdvI, b]⟩)
  set s t _ ht := by
    have := C11_pcg64 t.2 s.2 ht
    simp only [pcg64Cls, this]
    exact ⟨trivial, ht, rfl⟩

theorem ctrPut_ok {w : Nat} (N : Nat) (s : CtrI) (g : CtrGen w) (h : CtrOk s) :
    CtrOk (s.put N g) ∧ (s.put N g).actN = s.actN ∧ (s.put N g).actW = s.actW := ⟨h, rfl, rfl⟩

theorem ctrMove_ok (F : CtrFam) (d : Int) (c : Bool) (s t : CtrI) (h : CtrOk s) (e : ctrMove F d c s = .ok t) :
    CtrOk t ∧ t.actN = s.actN ∧ t.actW = s.actW := by
  unfold ctrMove at e
  simp only at e
  split at e <;> split at e
  all_goals first | (cases e; exact ctrPut_ok _ _ _ h) | cases e

theorem ctrSeedKey_ok (F : CtrFam) (k c : Ints.ObjIn) (s t : CtrI) (h : CtrOk s) (e : ctrSeedKey F k c s = .ok t) :
    CtrOk t ∧ t.actN = s.actN ∧ t.actW = s.actW := by
  unfold ctrSeedKey at e
  simp only [bind, Except.bind, pure, Except.pure] at e
  split at e
  · cases e
  · split at e
    · cases e
    · split at e <;> cases e <;> exact ctrPut_ok _ _ _ h

theorem ctrReseed_ok (F : CtrFam) (m : Bool) (sd : CtrSeed) (s t : CtrI) (h : CtrOk s) (e : ctrReseed F m sd s = .ok t) :
    CtrOk t ∧ t.actN = s.actN ∧ t.actW = s.actW := by
  unfold ctrReseed at e
  split at e
  · exact ctrSeedKey_ok F _ _ s t h e
  · split at e
    · split at e
      · cases e
      · exact ctrSeedKey_ok F _ _ s t h e
    · exact ctrSeedKey_ok F _ _ s t h e

theorem steady_ctr (F : CtrFam) (hiFirst counter : Bool) (hF : ∀ s : CtrI, CtrOk s → F.keys s.n.toNat ≤ F.room ∧ F.keys s.n.toNat ≤ 4) :
    Steady (ctrCls F hiFirst counter) ctrFns fun s => CtrOk s.2 where
  self _ := rfl
  op o s x s' h e := by
    simp only [ctrCls, ctrOp, Option.map_eq_some_iff] at e
    obtain ⟨r, hr, e⟩ := e
    cases e
    split at hr <;> simp only [Option.map_eq_some_iff] at hr <;> obtain ⟨q, -, rfl⟩ := hr <;> exact ⟨h, rfl⟩
  seed sd s s' h e := by
    simp only [ctrCls] at e
    cases hc : ctrReseed F s.1 sd s.2 with
    | error x => rw [hc] at e; cases e
    | ok t =>
      rw [hc] at e; cases e
      have := ctrReseed_ok F s.1 sd s.2 t h hc
      exact ⟨this.1, Prod.ext this.2.1 this.2.2⟩
  fail _ s h := ⟨h, rfl⟩
  jump f n s s' hf h e := by
    cases hf
    simp only at e
    split at e <;> cases e
    next t hc =>
      have := ctrMove_ok F _ _ s.2 t h hc
      exact ⟨this.1, Prod.ext this.2.1 this.2.2⟩
  advance f n s s' hf h e := by
    cases hf
    simp only at e
    split at e <;> cases e
    next t hc =>
      have := ctrMove_ok F _ _ s.2 t h hc
      exact ⟨this.1, Prod.ext this.2.1 this.2.2⟩
  set s t _ ht := by
    obtain ⟨t', h1, h2⟩ := ctr_round_trip F.short F.full F.keys F.room t.2 s.2 ht (hF t.2 ht).1 (hF t.2 ht).2
    have hn : t'.n = t.2.n := (congrArg CtrI.n h2 : _)
    have hw : t'.w = t.2.w := (congrArg CtrI.w h2 : _)
    have h3 : t'.number = t.2.number := (congrArg CtrI.number h2 : _)
    have h4 : t'.width = t.2.width := (congrArg CtrI.width h2 : _)
    have h5 : t'.actN = t.2.actN := (congrArg CtrI.actN h2 : _)
    have h6 : t'.actW = t.2.actW := (congrArg CtrI.actW h2 : _)
    simp only [ctrCls, h1]
    refine ⟨trivial, ?_, Prod.ext h5 h6⟩
    unfold CtrOk
    rw [hn, hw, h3, h4, h5, h6]
    exact ht

/-! ### The claims -/

/-- Missing for the full claim: programs that assign the state of an instance of the other variant (false, `not_C105_xoroshiro128`). -/
theorem C105_xoroshiro128_partial (s : XoroI) (h : XoroOk s) (os : List (EgOp (Nat → U64)))
    (hv : ∀ v, Assigned os v → ∃ t, XoroOk t ∧ t.plusplus = s.plusplus ∧ v = xoroGet t) :
    egRun xoroCls xoroFns (egNew xoroFns s) os = bgRun xoroCls s os :=
  run_eq steady_xoro os _ rfl h fun v a => let ⟨t, h1, h2, h3⟩ := hv v a; ⟨t, h1, h1.trans (h2.trans h.symm), h3⟩

/-- Missing for the full claim: programs that assign the state of an instance of the other variant (false, `not_C105_romu`). -/
theorem C105_romu_partial (s : RomuI) (h : RomuOk s) (os : List (EgOp (Nat → U64)))
    (hv : ∀ v, Assigned os v → ∃ t, RomuOk t ∧ t.variant = s.variant ∧ v = romuGet t) :
    egRun romuCls romuFns (egNew romuFns s) os = bgRun romuCls s os :=
  run_eq steady_romu os _ rfl h fun v a => let ⟨t, h1, h2, h3⟩ := hv v a; ⟨t, h1, by
    show t.actQuad = s.actQuad
    rw [h1.2, h.2, h2], h3⟩

/-- Missing for the full claim: programs that assign the state of an instance of the other variant (false, `not_C105_tyche`). -/
theorem C105_tyche_partial (hiFirst : Bool) (s : TycheI) (h : TycheOk s) (os : List (EgOp ((Nat → U32) × Option Int)))
    (hv : ∀ v, Assigned os v → ∃ t, TycheOk t ∧ t.original = s.original ∧ v = tycheGet t) :
    egRun (tycheCls hiFirst) tycheFns (egNew tycheFns s) os = bgRun (tycheCls hiFirst) s os :=
  run_eq (steady_tyche hiFirst) os _ rfl h fun v a => let ⟨t, h1, h2, h3⟩ := hv v a; ⟨t, h1, h1.trans (h2.trans h.symm), h3⟩

/-- Missing for the full claim: programs that assign the state of an instance of the other size (false, `not_C105_jsf`). -/
theorem C105_jsf_partial (hiFirst : Bool) (s : JsfI) (h : JsfOk s) (os : List (EgOp ((Nat → U64) × (Nat → U32))))
    (hv : ∀ v, Assigned os v → ∃ t, JsfOk t ∧ t.size = s.size ∧ v = jsfGet t) :
    egRun (jsfCls hiFirst) jsfFns (egNew jsfFns s) os = bgRun (jsfCls hiFirst) s os :=
  run_eq (steady_jsf hiFirst) os _ rfl h fun v a => let ⟨t, h1, h2, h3⟩ := hv v a; ⟨t, h1, by
    show t.act64 = s.act64
    rw [show t.act64 = _ from h1, show s.act64 = _ from h, h2], h3⟩

/-- Missing for the full claim: programs that assign the state of an instance of the other variant (false, `not_C105_squares`). -/
theorem C105_squares_partial (hiFirst : Bool) (s : SquaresI) (h : SquaresOk s) (os : List (EgOp SquaresSeed))
    (hv : ∀ v, Assigned os v → ∃ t, SquaresOk t ∧ t.variant = s.variant ∧ v = squaresGet t) :
    egRun (squaresCls hiFirst) squaresFns (egNew squaresFns s) os = bgRun (squaresCls hiFirst) s os :=
  run_eq (steady_squares hiFirst) os _ rfl h fun v a => let ⟨t, h1, h2, h3⟩ := hv v a; ⟨t, h1, by
    show t.act64 = s.act64
    rw [h1.2.2, h.2.2, h1.2.1, h.2.1, h2], h3⟩

/-- `variant="dxsm"` is the one variant with functions of its own; the other two share theirs, which look at a flag of the state. Missing for the
full claim: programs that go from the one to the others (false, `not_C105_pcg64`). -/
theorem C105_pcg64_partial (s : Bool × Pcg64I) (h : Pcg64Ok s.2) (os : List (EgOp ((Nat → U64) × Option U128)))
    (hv : ∀ v, Assigned os v → ∃ t, Pcg64Ok t ∧ (t.variant = "dxsm" ↔ s.2.variant = "dxsm") ∧ v = pcg64Get t) :
    egRun pcg64Cls pcg64Fns (egNew pcg64Fns s) os = bgRun pcg64Cls s os :=
  run_eq steady_pcg64 os _ rfl h fun v a => let ⟨t, h1, h2, h3⟩ := hv v a; ⟨(false, t), h1, by
    show t.actCheap = s.2.actCheap
    rcases h1 with ⟨a, -, -, d, -⟩ | ⟨a, -, -, d, -⟩ | ⟨a, -, -, d, -⟩ <;>
    rcases h with ⟨a', -, -, d', -⟩ | ⟨a', -, -, d', -⟩ | ⟨a', -, -, d', -⟩ <;> rw [a, a'] at h2 <;> rw [d, d'] <;> revert h2 <;> decide, h3⟩

/-- Missing for the full claim: programs that assign the state of an instance of another variant (false, `not_C105_philox`). -/
theorem C105_philox_partial (hiFirst counter : Bool) (s : Bool × CtrI) (h : CtrOk s.2) (os : List (EgOp CtrSeed))
    (hv : ∀ v, Assigned os v → ∃ t, CtrOk t ∧ t.n = s.2.n ∧ t.w = s.2.w ∧ v = philoxGet t) :
    egRun (ctrCls philoxFam hiFirst counter) ctrFns (egNew ctrFns s) os = bgRun (ctrCls philoxFam hiFirst counter) s os :=
  run_eq (steady_ctr philoxFam hiFirst counter (fun s h => by
    rcases h.1 with h | h <;> rw [h] <;> decide)) os _ rfl h fun v a =>
      let ⟨t, h1, h2, h3, h4⟩ := hv v a; ⟨(false, t), h1, Prod.ext (h1.2.2.2.2.1.trans (h2.trans h.2.2.2.2.1.symm))
        (h1.2.2.2.2.2.trans (h3.trans h.2.2.2.2.2.symm)), h4⟩

/-- Missing for the full claim: programs that assign the state of an instance of another variant (false, `not_C105_threefry`). -/
theorem C105_threefry_partial (hiFirst counter : Bool) (s : Bool × CtrI) (h : CtrOk s.2) (os : List (EgOp CtrSeed))
    (hv : ∀ v, Assigned os v → ∃ t, CtrOk t ∧ t.n = s.2.n ∧ t.w = s.2.w ∧ v = threefryGet t) :
    egRun (ctrCls threefryFam hiFirst counter) ctrFns (egNew ctrFns s) os = bgRun (ctrCls threefryFam hiFirst counter) s os :=
  run_eq (steady_ctr threefryFam hiFirst counter (fun s h => by
    rcases h.1 with h | h <;> rw [h] <;> decide)) os _ rfl h fun v a =>
      let ⟨t, h1, h2, h3, h4⟩ := hv v a; ⟨(false, t), h1, Prod.ext (h1.2.2.2.2.1.trans (h2.trans h.2.2.2.2.1.symm))
        (h1.2.2.2.2.2.trans (h3.trans h.2.2.2.2.2.symm)), h4⟩

/-! ### Copies -/

theorem copy_eq {Par Seed σ φ : Type} {C : GCls Par Seed σ} {W : Fns φ σ} (b : σ) (e : Eg φ σ) (h : C.set (C.get e.bg) b = (.ok (), e.bg))
    (hf : W.fns b = e.f) : egCopy C W b e = (.done, e) := by
  unfold egCopy egNew
  simp only [h, hf]
  rfl

/-- A pickled and reloaded `ExtendedGenerator` goes on as the original does, if the bit generator is of the variant that the class makes without
arguments: here one made by `Xoroshiro128()`. Missing for the full claim: the other variant (false, `not_C105_xoroshiro128_copy`). -/
theorem C105_xoroshiro128_copy_partial (gen : Nat → U64) (s b : XoroI) (h : XoroOk s) (hb : xoroCls.new false gen = .ok b) (hd : s.plusplus = false)
    (os : List (EgOp (Nat → U64))) : (egCopy xoroCls xoroFns b (egNew xoroFns s)).1 = .done ∧
      egRun xoroCls xoroFns (egCopy xoroCls xoroFns b (egNew xoroFns s)).2 os = egRun xoroCls xoroFns (egNew xoroFns s) os := by
  have e : xoroFns.fns b = (egNew xoroFns s).f := by
    cases hb
    exact ((show s.actPlusplus = s.plusplus from h).trans hd).symm
  have k : xoroCls.set (xoroCls.get (egNew xoroFns s).bg) b = (.ok (), (egNew xoroFns s).bg) := by
    simp only [xoroCls, egNew]
    exact C11_xoroshiro128 s b h
  rw [copy_eq b (egNew xoroFns s) k e]
  exact ⟨rfl, rfl⟩

/-- The same for `Romu()`. Missing for the full claim: `variant="trio"` (false, `not_C105_romu_copy`). -/
theorem C105_romu_copy_partial (gen : Nat → U64) (s b : RomuI) (h : RomuOk s) (hb : romuCls.new true gen = .ok b) (hd : s.variant = "quad")
    (os : List (EgOp (Nat → U64))) : (egCopy romuCls romuFns b (egNew romuFns s)).1 = .done ∧
      egRun romuCls romuFns (egCopy romuCls romuFns b (egNew romuFns s)).2 os = egRun romuCls romuFns (egNew romuFns s) os := by
  have e : romuFns.fns b = (egNew romuFns s).f := by
    cases hb
    show _ = s.actQuad
    rw [h.2, hd]
    rfl
  have k : romuCls.set (romuCls.get (egNew romuFns s).bg) b = (.ok (), (egNew romuFns s).bg) := by
    simp only [romuCls, egNew]
    exact C11_romu s b h
  rw [copy_eq b (egNew romuFns s) k e]
  exact ⟨rfl, rfl⟩

/-- The same for `Tyche()`. Missing for the full claim: `original=False` (false, `not_C105_tyche_copy`). -/
theorem C105_tyche_copy_partial (hiFirst : Bool) (gen : Nat → U32) (s b : TycheI) (h : TycheOk s)
    (hb : (tycheCls hiFirst).new true (gen, none) = .ok b) (hd : s.original = true) (os : List (EgOp ((Nat → U32) × Option Int))) :
    (egCopy (tycheCls hiFirst) tycheFns b (egNew tycheFns s)).1 = .done ∧
      egRun (tycheCls hiFirst) tycheFns (egCopy (tycheCls hiFirst) tycheFns b (egNew tycheFns s)).2 os =
        egRun (tycheCls hiFirst) tycheFns (egNew tycheFns s) os := by
  have e : tycheFns.fns b = (egNew tycheFns s).f := by
    cases hb
    exact ((show s.actOriginal = s.original from h).trans hd).symm
  have k : (tycheCls hiFirst).set ((tycheCls hiFirst).get (egNew tycheFns s).bg) b = (.ok (), (egNew tycheFns s).bg) := by
    simp only [tycheCls, egNew]
    exact C11_tyche s b h
  rw [copy_eq b (egNew tycheFns s) k e]
  exact ⟨rfl, rfl⟩

/-- The same for `PCG64()`, and for `PCG64(variant="dxsm-128")`, which shares its functions. Missing for the full claim: `variant="dxsm"`, the
variant of the default `ExtendedGenerator` (false, `not_C105_default_copy`), and instances in NumPy's mode, of which `seed` is another one. -/
theorem C105_pcg64_copy_partial (gen : Nat → U64) (s : Pcg64I) (h : Pcg64Ok s) (hd : s.variant ≠ "dxsm")
    (os : List (EgOp ((Nat → U64) × Option U128))) :
    (egCopy pcg64Cls pcg64Fns (pcg64Default gen) (egNew pcg64Fns (false, s))).1 = .done ∧
      egRun pcg64Cls pcg64Fns (egCopy pcg64Cls pcg64Fns (pcg64Default gen) (egNew pcg64Fns (false, s))).2 os =
        egRun pcg64Cls pcg64Fns (egNew pcg64Fns (false, s)) os := by
  have e : pcg64Fns.fns (pcg64Default gen) = (egNew pcg64Fns (false, s)).f := by
    show false = s.actCheap
    rcases h with ⟨a, -⟩ | ⟨-, -, -, d, -⟩ | ⟨-, -, -, d, -⟩
    · exact absurd a hd
    · exact d.symm
    · exact d.symm
  have k : pcg64Cls.set (pcg64Cls.get (egNew pcg64Fns (false, s)).bg) (pcg64Default gen) = (.ok (), (egNew pcg64Fns (false, s)).bg) := by
    show ((pcg64Set (pcg64Get s) (pcg64Default gen).2).1, false, (pcg64Set (pcg64Get s) (pcg64Default gen).2).2) = _
    rw [C11_pcg64 s _ h]
    rfl
  rw [copy_eq _ (egNew pcg64Fns (false, s)) k e]
  exact ⟨rfl, rfl⟩

/-- What a copy of the default `ExtendedGenerator` (or any with `PCG64(variant="dxsm")`) is: it holds the functions of `PCG64()`. -/
theorem copy_dxsm (gen : Nat → U64) (s : Pcg64I) (h : Pcg64Ok s) :
    egCopy pcg64Cls pcg64Fns (pcg64Default gen) (egNew pcg64Fns (false, s)) = (.done, ⟨false, (false, s)⟩) := by
  have k : pcg64Cls.set (pcg64Get s) (pcg64Default gen) = (.ok (), (false, s)) := by
    show ((pcg64Set (pcg64Get s) (pcg64Default gen).2).1, false, (pcg64Set (pcg64Get s) (pcg64Default gen).2).2) = _
    rw [C11_pcg64 s _ h]
  show ((setRes (pcg64Cls.set (pcg64Get s) (pcg64Default gen))).1, (⟨false, (setRes (pcg64Cls.set (pcg64Get s) (pcg64Default gen))).2⟩ : Eg _ _)) = _
  rw [k]
  rfl

theorem pcg64_dxsm_ok (gen : Nat → U64) : Pcg64Ok (pcg64Reseed gen none (pcg64Fresh .cmDxsm)) := .inl ⟨rfl, rfl, rfl, rfl, rfl⟩

/-- The default `ExtendedGenerator`, pickled and reloaded, does not go on as the original does: there is a seed from which the next word is another one. -/
theorem not_C105_default_copy : ∃ gen : Nat → U64, ∀ gen', (egCopy pcg64Cls pcg64Fns (pcg64Default gen') (egDefault gen)).1 = .done ∧
    egRun pcg64Cls pcg64Fns (egCopy pcg64Cls pcg64Fns (pcg64Default gen') (egDefault gen)).2 [.draw .u64, .draw .u64] ≠
      egRun pcg64Cls pcg64Fns (egDefault gen) [.draw .u64, .draw .u64] := by
  refine ⟨fun i => BitVec.ofNat 64 i, fun gen' => ?_⟩
  unfold egDefault
  rw [copy_dxsm gen' _ (pcg64_dxsm_ok _)]
  exact ⟨rfl, by decide +kernel⟩

/-- More precisely: from every seed, the copy draws what `PCG64(variant="dxsm-128")` in the same state would draw. -/
theorem not_C105_default_copy_stream (gen gen' : Nat → U64) (os : List Op) :
    egRun pcg64Cls pcg64Fns (egCopy pcg64Cls pcg64Fns (pcg64Default gen') (egDefault gen)).2 (os.map .draw) =
      bgRun pcg64Cls (false, { (egDefault gen).bg.2 with variant := "dxsm-128", useDxsm := true, cheap := false, actCheap := false }) (os.map .draw) := by
  unfold egDefault
  rw [copy_dxsm gen' _ (pcg64_dxsm_ok _)]
  simp only [egNew]
  generalize hs : pcg64Reseed gen none (pcg64Fresh .cmDxsm) = s
  have hc : s.cDxsm = 1 := by rw [← hs]; rfl
  clear hs
  induction os generalizing s with
  | nil => rfl
  | cons o os ih =>
    have h := ih (pcg64Put s (Buf.op Pcg.next o (pcg64View .dxsm128 s)).2) hc
    have h1 : pcg64Variant { s with actCheap := false } = .dxsm128 := by simp [pcg64Variant, hc]
    have h2 : pcg64Variant { s with variant := "dxsm-128", useDxsm := true, cheap := false, actCheap := false } = .dxsm128 := by
      simp [pcg64Variant, hc]
    have a : egCall pcg64Cls pcg64Fns ⟨false, (false, s)⟩ (.draw o) =
        (.out (Buf.op Pcg.next o (pcg64View .dxsm128 s)).1, ⟨false, (false, pcg64Put s (Buf.op Pcg.next o (pcg64View .dxsm128 s)).2)⟩) := by
      simp only [egCall, egDraw, pcg64Cls, pcg64Fns, bufOp, h1, Option.map_some, drawRes]
      rfl
    have b : bgCall pcg64Cls (false, { s with variant := "dxsm-128", useDxsm := true, cheap := false, actCheap := false }) (.draw o) =
        (.out (Buf.op Pcg.next o (pcg64View .dxsm128 s)).1, (false, { pcg64Put s (Buf.op Pcg.next o (pcg64View .dxsm128 s)).2 with
          variant := "dxsm-128", useDxsm := true, cheap := false, actCheap := false })) := by
      simp only [bgCall, pcg64Cls, bufOp, h2, Option.map_some, drawRes]
      rfl
    simp only [List.map_cons, egRun, bgRun, a, b, h]

/-! ### States of other variants -/

/-- The state of `Xoroshiro128(plusplus=True)` assigned to an `ExtendedGenerator` made with `Xoroshiro128()`: the word drawn is not that of its bit
generator. -/
theorem not_C105_xoroshiro128 : ∃ s t : XoroI, XoroOk s ∧ XoroOk t ∧
    egRun xoroCls xoroFns (egNew xoroFns s) [.setState (xoroGet t), .draw .u64] ≠ bgRun xoroCls s [.setState (xoroGet t), .draw .u64] :=
  ⟨⟨#v[1, 2], 0, 0, false, false⟩, ⟨#v[1, 2], 0, 0, true, true⟩, rfl, rfl, by decide +kernel⟩

theorem not_C105_romu : ∃ s t : RomuI, RomuOk s ∧ RomuOk t ∧
    egRun romuCls romuFns (egNew romuFns s) [.setState (romuGet t), .draw .u64, .draw .u64] ≠
      bgRun romuCls s [.setState (romuGet t), .draw .u64, .draw .u64] :=
  ⟨⟨1, 2, 3, 4, 0, 0, "quad", true⟩, ⟨1, 2, 3, 4, 0, 0, "trio", false⟩, ⟨.inl rfl, rfl⟩, ⟨.inr rfl, rfl⟩, by decide +kernel⟩

theorem not_C105_tyche (hiFirst : Bool) : ∃ s t : TycheI, TycheOk s ∧ TycheOk t ∧
    egRun (tycheCls hiFirst) tycheFns (egNew tycheFns s) [.setState (tycheGet t), .draw .u32] ≠
      bgRun (tycheCls hiFirst) s [.setState (tycheGet t), .draw .u32] :=
  ⟨⟨1, 2, 3, 4, true, true⟩, ⟨1, 2, 3, 4, false, false⟩, rfl, rfl, by revert hiFirst; decide +kernel⟩

theorem not_C105_jsf (hiFirst : Bool) : ∃ s t : JsfI, JsfOk s ∧ JsfOk t ∧
    egRun (jsfCls hiFirst) jsfFns (egNew jsfFns s) [.setState (jsfGet t), .draw .u64] ≠
      bgRun (jsfCls hiFirst) s [.setState (jsfGet t), .draw .u64] :=
  ⟨⟨1, 2, 3, 4, 7, 13, 37, 0, 0, 64, 3, true⟩, ⟨1, 2, 3, 4, 27, 17, 0, 0, 0, 32, 3, false⟩, rfl, rfl, by revert hiFirst; decide +kernel⟩

theorem not_C105_squares (hiFirst : Bool) : ∃ s t : SquaresI, SquaresOk s ∧ SquaresOk t ∧
    egRun (squaresCls hiFirst) squaresFns (egNew squaresFns s) [.setState (squaresGet t), .draw .u64] ≠
      bgRun (squaresCls hiFirst) s [.setState (squaresGet t), .draw .u64] :=
  ⟨⟨0x123456789abcdef1, 0, 0, 0, 64, true, true⟩, ⟨0x123456789abcdef1, 5, 0, 0, 32, false, false⟩, ⟨.inl rfl, rfl, rfl⟩, ⟨.inr rfl, rfl, rfl⟩,
    by revert hiFirst; decide +kernel⟩

theorem not_C105_pcg64 : ∃ s t : Pcg64I, Pcg64Ok s ∧ Pcg64Ok t ∧
    egRun pcg64Cls pcg64Fns (egNew pcg64Fns (false, s)) [.setState (pcg64Get t), .draw .u64] ≠
      bgRun pcg64Cls (false, s) [.setState (pcg64Get t), .draw .u64] :=
  ⟨⟨1, 3, 1, 0, 0, "dxsm", true, true, true⟩, ⟨5, 3, 0, 0, 0, "xsl-rr", false, false, false⟩, .inl ⟨rfl, rfl, rfl, rfl, rfl⟩,
    .inr (.inr ⟨rfl, rfl, rfl, rfl, rfl⟩), by decide +kernel⟩

/-- The state of `Philox(number=2)` assigned to an `ExtendedGenerator` made with `Philox()`. (The buffer of two words is used up, and the copied
functions, which know of four, take the third; they do not get to the counter and the key, of which the places in the union are not modelled.) -/
theorem not_C105_philox (hiFirst counter : Bool) : ∃ s t : CtrI, CtrOk s ∧ CtrOk t ∧
    egRun (ctrCls philoxFam hiFirst counter) ctrFns (egNew ctrFns (false, s)) [.setState (philoxGet t), .draw .u64] ≠
      bgRun (ctrCls philoxFam hiFirst counter) (false, s) [.setState (philoxGet t), .draw .u64] :=
  ⟨⟨4, 64, 4, 64, 4, 64, #v[1, 2, 3, 4], #v[5, 6, 0, 0], #v[0, 0, 0, 0], 4, 0, 0⟩,
    ⟨2, 64, 2, 64, 2, 64, #v[1, 2, 0, 0], #v[5, 0, 0, 0], #v[0, 0, 0, 0], 2, 0, 0⟩, by unfold CtrOk; decide, by unfold CtrOk; decide,
    by revert hiFirst counter; decide +kernel⟩

/-- The same for `ThreeFry`. -/
theorem not_C105_threefry (hiFirst counter : Bool) : ∃ s t : CtrI, CtrOk s ∧ CtrOk t ∧
    egRun (ctrCls threefryFam hiFirst counter) ctrFns (egNew ctrFns (false, s)) [.setState (threefryGet t), .draw .u64] ≠
      bgRun (ctrCls threefryFam hiFirst counter) (false, s) [.setState (threefryGet t), .draw .u64] :=
  ⟨⟨4, 64, 4, 64, 4, 64, #v[1, 2, 3, 4], #v[5, 6, 0, 0], #v[0, 0, 0, 0], 4, 0, 0⟩,
    ⟨2, 64, 2, 64, 2, 64, #v[1, 2, 0, 0], #v[5, 0, 0, 0], #v[0, 0, 0, 0], 2, 0, 0⟩, by unfold CtrOk; decide, by unfold CtrOk; decide,
    by revert hiFirst counter; decide +kernel⟩

/-! ### Copies of other variants: `b` is made by the class without arguments. -/

theorem not_C105_xoroshiro128_copy : ∃ s : XoroI, ∃ gen b, XoroOk s ∧ xoroCls.new false gen = .ok b ∧
    egRun xoroCls xoroFns (egCopy xoroCls xoroFns b (egNew xoroFns s)).2 [.draw .u64] ≠ egRun xoroCls xoroFns (egNew xoroFns s) [.draw .u64] :=
  ⟨⟨#v[1, 2], 0, 0, true, true⟩, fun _ => 1, _, rfl, rfl, by decide +kernel⟩

theorem not_C105_romu_copy : ∃ s : RomuI, ∃ gen b, RomuOk s ∧ romuCls.new true gen = .ok b ∧
    egRun romuCls romuFns (egCopy romuCls romuFns b (egNew romuFns s)).2 [.draw .u64, .draw .u64] ≠
      egRun romuCls romuFns (egNew romuFns s) [.draw .u64, .draw .u64] :=
  ⟨⟨1, 2, 3, 4, 0, 0, "trio", false⟩, fun _ => 1, _, ⟨.inr rfl, rfl⟩, rfl, by decide +kernel⟩

theorem not_C105_tyche_copy (hiFirst : Bool) : ∃ s : TycheI, ∃ sd b, TycheOk s ∧ (tycheCls hiFirst).new true sd = .ok b ∧
    egRun (tycheCls hiFirst) tycheFns (egCopy (tycheCls hiFirst) tycheFns b (egNew tycheFns s)).2 [.draw .u32] ≠
      egRun (tycheCls hiFirst) tycheFns (egNew tycheFns s) [.draw .u32] :=
  ⟨⟨1, 2, 3, 4, false, false⟩, (fun _ => 1, none), _, rfl, rfl, by revert hiFirst; decide +kernel⟩

/-! ### Instances that meet the hypotheses -/

example : XoroOk ⟨#v[1, 2], 1, 7, true, true⟩ ∧ ∀ v, Assigned (Seed := Nat → U64) [.draw .u32, .setState (xoroGet ⟨#v[3, 4], 0, 0, true, true⟩), .draw .u64] v →
    ∃ t, XoroOk t ∧ t.plusplus = true ∧ v = xoroGet t :=
  ⟨rfl, fun v h => ⟨⟨#v[3, 4], 0, 0, true, true⟩, rfl, rfl, by simpa [Assigned] using h⟩⟩
example : Pcg64Ok (pcg64Reseed (fun i => BitVec.ofNat 64 i) none (pcg64Fresh .cmDxsm)) := pcg64_dxsm_ok _
example : ∃ b, xoroCls.new false (fun i => BitVec.ofNat 64 (i + 1)) = .ok b := ⟨_, rfl⟩
example : CtrOk ⟨2, 64, 2, 64, 2, 64, #v[1, 2, 0, 0], #v[5, 0, 0, 0], #v[0, 0, 0, 0], 2, 0, 0⟩ := by unfold CtrOk; decide
example : SquaresOk ⟨0x123456789abcdef1, 5, 1, 9, 64, true, true⟩ ∧ JsfOk ⟨1, 2, 3, 4, 27, 17, 0, 0, 0, 32, 3, false⟩ ∧
    TycheOk ⟨1, 2, 3, 4, true, true⟩ ∧ RomuOk ⟨1, 2, 3, 4, 0, 0, "trio", false⟩ := ⟨⟨.inl rfl, rfl, rfl⟩, rfl, rfl, .inr rfl, rfl⟩

end ExtGen
end Verif
