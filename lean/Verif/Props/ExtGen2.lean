import Verif.Props.ExtGen
import Verif.Props.Session7

/-! C105 for copies of an `ExtendedGenerator` with Philox, ThreeFry, JSF or Squares. -/

namespace Verif
namespace ExtGen

/-- An instance made by the constructor with the arguments `p` and any seed, and drawn from in any way. -/
inductive Drawn {Par Seed σ : Type} (C : GCls Par Seed σ) (p : Par) : σ → Prop
  | new (sd : Seed) (s : σ) : C.new p sd = .ok s → Drawn C p s
  | draw (o : Op) (s : σ) (x : Out) (s' : σ) : Drawn C p s → C.op o s = some (x, s') → Drawn C p s'

theorem ctr_new (F : CtrFam) (b c : Bool) (p : CtrArgs) (sd : CtrSeed) : (ctrCls F b c).new p sd = ctrNew F p sd := rfl

section
variable {F : CtrFam} (V : Variant 4 64) (H : FamOk F 4 64) (b c : Bool)
include V H

theorem drawn_at {s : Bool × CtrI} (h : Drawn (ctrCls F b c) {} s) : ∃ o a, s.1 = false ∧ CAt F 4 64 1 o a s.2 := by
  induction h with
  | new sd s e =>
    change ctrNew F {} sd = .ok s at e
    rw [ctrNew_eq _ rfl ⟨Or.inr rfl, Or.inr rfl⟩] at e
    rcases CAt.reseed V H (lo := 1) (le_refl _) (s := ⟨4, 64, 4, 64, 4, 64, Vector.replicate 4 0, Vector.replicate 4 0, Vector.replicate 4 0, 0, 0, 0⟩)
      ⟨Or.inr rfl, Or.inr rfl, rfl, rfl, rfl, rfl⟩ rfl rfl sd with ⟨o, s', f1, f2, f3⟩ | ⟨f1, f2⟩
    · rw [show BitVec.ofInt 32 ({} : CtrArgs).number = 4 from rfl, show BitVec.ofInt 32 ({} : CtrArgs).width = 64 from rfl, f2] at e
      cases e
      exact ⟨o, _, rfl, f3⟩
    · rw [show BitVec.ofInt 32 ({} : CtrArgs).number = 4 from rfl, show BitVec.ofInt 32 ({} : CtrArgs).width = 64 from rfl, f2] at e
      cases e
  | draw k s x s' _ e ih =>
    obtain ⟨o, a, h1, h2⟩ := ih
    obtain ⟨t, e1, e2⟩ := CAt.draw V (le_refl _) H.four b c h2 k
    change (ctrOp F b k s.2).map (fun r => (r.1, s.1, r.2)) = some (x, s') at e
    rw [e1] at e
    cases e
    exact ⟨o, _, h1, e2⟩

theorem run_place (os : List Op) : ∀ (o : Nat × Nat) (a : Nat × Option U32) (s t : Bool × CtrI), CAt F 4 64 1 o a s.2 → CAt F 4 64 1 o a t.2 →
    bgRun (ctrCls F b c) s (os.map .draw) = bgRun (ctrCls F b c) t (os.map .draw) := by
  induction os with
  | nil => intros; rfl
  | cons k os ih =>
    intro o a s t hs ht
    obtain ⟨s', e1, e2⟩ := CAt.draw V (le_refl _) H.four b c hs k
    obtain ⟨t', f1, f2⟩ := CAt.draw V (le_refl _) H.four b c ht k
    have a1 : bgCall (ctrCls F b c) s (.draw k) = (.out ((ctrSpec F b c 4 64).draw o k a).1, (s.1, s')) := by
      show drawRes s ((ctrOp F b k s.2).map _) = _
      rw [e1]; rfl
    have a2 : bgCall (ctrCls F b c) t (.draw k) = (.out ((ctrSpec F b c 4 64).draw o k a).1, (t.1, t')) := by
      show drawRes t ((ctrOp F b k t.2).map _) = _
      rw [f1]; rfl
    simp only [List.map_cons, bgRun, a1, a2]
    rw [ih _ _ (s.1, s') (t.1, t') e2 f2]

theorem ctr_copy (gen : CtrSeed) (n s : Bool × CtrI) (hn : (ctrCls F b c).new {} gen = .ok n) (hs : Drawn (ctrCls F b c) {} s) (os : List Op) :
    (egCopy (ctrCls F b c) ctrFns n (egNew ctrFns s)).1 = .done ∧
      egRun (ctrCls F b c) ctrFns (egCopy (ctrCls F b c) ctrFns n (egNew ctrFns s)).2 (os.map .draw) =
        egRun (ctrCls F b c) ctrFns (egNew ctrFns s) (os.map .draw) := by
  have hF : ∀ s : CtrI, CtrOk s → s.n.toNat = 4 → s.actN = 4 := fun s h e => h.2.2.2.2.1.trans (BitVec.eq_of_toNat_eq e)
  have hW : ∀ s : CtrI, CtrOk s → s.w.toNat = 64 → s.actW = 64 := fun s h e => h.2.2.2.2.2.trans (BitVec.eq_of_toNat_eq e)
  have fn : ∀ {o a} {s : Bool × CtrI}, CAt F 4 64 1 o a s.2 → ctrFns.fns s = (4, 64) := fun h => Prod.ext (hF _ h.1 h.2.1) (hW _ h.1 h.2.2.1)
  have own : ∀ (os : List Op) o a (e : Eg (U32 × U32) (Bool × CtrI)), e.f = (4, 64) → CAt F 4 64 1 o a e.bg.2 →
      egRun (ctrCls F b c) ctrFns e (os.map .draw) = bgRun (ctrCls F b c) e.bg (os.map .draw) := by
    intro os
    induction os with
    | nil => intros; rfl
    | cons k os ih =>
      intro o a e he h
      obtain ⟨s', e1, e2⟩ := CAt.draw V (le_refl _) H.four b c h k
      have op : (ctrCls F b c).op k e.bg = some (((ctrSpec F b c 4 64).draw o k a).1, (e.bg.1, s')) := by
        show (ctrOp F b k e.bg.2).map _ = _
        rw [e1]; rfl
      have eg : egDraw (ctrCls F b c) ctrFns e k = (ctrCls F b c).op k e.bg :=
        egDraw_own (fun _ => rfl) e k (he.trans (fn h).symm) fun x t ht => by
          rw [op] at ht
          cases ht
          rw [fn h]
          exact fn (s := (e.bg.1, s')) e2
      have i := ih o _ ⟨e.f, (e.bg.1, s')⟩ he e2
      simp only [List.map_cons, egRun, bgRun, egCall, bgCall, eg, op, drawRes, i]
  obtain ⟨o, a, -, h⟩ := drawn_at V H b c hs
  obtain ⟨o', a', -, h'⟩ := drawn_at V H b c (Drawn.new gen n hn)
  obtain ⟨t, t1, t2⟩ := CAt.load V H h n.2
  have k : egCopy (ctrCls F b c) ctrFns n (egNew ctrFns s) = (.done, ⟨ctrFns.fns n, (n.1, t)⟩) := by
    show ((setRes ((ctrCls F b c).set ((ctrCls F b c).get s) n)).1, (⟨ctrFns.fns n, (setRes ((ctrCls F b c).set ((ctrCls F b c).get s) n)).2⟩ : Eg _ _)) = _
    rw [show (ctrCls F b c).set ((ctrCls F b c).get s) n = (.ok (), (n.1, t)) by
      show ((ctrSet F.short F.full F.keys F.room (ctrGet F.full F.keys s.2) n.2).1, n.1, (ctrSet F.short F.full F.keys F.room (ctrGet F.full F.keys s.2) n.2).2) = _
      rw [t1]]
    rfl
  rw [k]
  refine ⟨rfl, ?_⟩
  rw [own os o a _ (fn h') t2, own os o a (egNew ctrFns s) (fn h) h]
  exact run_place V H b c os o a _ _ t2 h

end

/-- Missing for the full claim: `number` and `width` other than the default (false, `not_C105_philox_copy`), NumPy's mode, and copies made after
`advance` or an assignment. -/
theorem C105_philox_copy_partial (hiFirst counter : Bool) (gen : CtrSeed) (b s : Bool × CtrI)
    (hb : (ctrCls philoxFam hiFirst counter).new {} gen = .ok b) (hs : Drawn (ctrCls philoxFam hiFirst counter) {} s) (os : List Op) :
    (egCopy (ctrCls philoxFam hiFirst counter) ctrFns b (egNew ctrFns s)).1 = .done ∧
      egRun (ctrCls philoxFam hiFirst counter) ctrFns (egCopy (ctrCls philoxFam hiFirst counter) ctrFns b (egNew ctrFns s)).2 (os.map .draw) =
        egRun (ctrCls philoxFam hiFirst counter) ctrFns (egNew ctrFns s) (os.map .draw) :=
  ctr_copy ⟨.inr rfl, .inr rfl⟩ (philoxFam_ok ⟨.inr rfl, .inr rfl⟩) hiFirst counter gen b s hb hs os

/-- The same for `ThreeFry`. -/
theorem C105_threefry_copy_partial (hiFirst counter : Bool) (gen : CtrSeed) (b s : Bool × CtrI)
    (hb : (ctrCls threefryFam hiFirst counter).new {} gen = .ok b) (hs : Drawn (ctrCls threefryFam hiFirst counter) {} s) (os : List Op) :
    (egCopy (ctrCls threefryFam hiFirst counter) ctrFns b (egNew ctrFns s)).1 = .done ∧
      egRun (ctrCls threefryFam hiFirst counter) ctrFns (egCopy (ctrCls threefryFam hiFirst counter) ctrFns b (egNew ctrFns s)).2 (os.map .draw) =
        egRun (ctrCls threefryFam hiFirst counter) ctrFns (egNew ctrFns s) (os.map .draw) :=
  ctr_copy ⟨.inr rfl, .inr rfl⟩ (threefryFam_ok ⟨.inr rfl, .inr rfl⟩) hiFirst counter gen b s hb hs os

/-- `JSF()` is the 64-bit generator. Missing for the full claim: `size=32` (false, `not_C105_jsf_copy`). -/
theorem C105_jsf_copy_partial (hiFirst : Bool) (s b : JsfI) (h : JsfOk s) (hd : s.size = 64) (hb : b.act64 = true)
    (os : List (EgOp ((Nat → U64) × (Nat → U32)))) : (egCopy (jsfCls hiFirst) jsfFns b (egNew jsfFns s)).1 = .done ∧
      egRun (jsfCls hiFirst) jsfFns (egCopy (jsfCls hiFirst) jsfFns b (egNew jsfFns s)).2 os =
        egRun (jsfCls hiFirst) jsfFns (egNew jsfFns s) os := by
  obtain ⟨t, h1, h2⟩ := C11_jsf s b h
  have h3 : t = s := by
    have hs : t.size = s.size := by
      have := congrArg JsfI.size h2
      unfold jsfView at this
      rw [if_pos hd] at this
      split at this <;> exact this
    unfold jsfView at h2
    rw [if_pos hd, if_pos (hs.trans hd)] at h2
    exact h2
  have e : jsfFns.fns b = (egNew jsfFns s).f := by
    show b.act64 = s.act64
    rw [hb, show s.act64 = _ from h, hd]
    rfl
  have k : (jsfCls hiFirst).set ((jsfCls hiFirst).get (egNew jsfFns s).bg) b = (.ok (), (egNew jsfFns s).bg) := by
    simp only [jsfCls, egNew]
    rw [h1, h3]
  rw [copy_eq b (egNew jsfFns s) k e]
  exact ⟨rfl, rfl⟩

/-- `Philox(number=2)`: the copy takes words of the buffer that are not there. -/
theorem not_C105_philox_copy (hiFirst counter : Bool) : ∃ s b : CtrI, CtrOk s ∧ CtrOk b ∧ b.n = 4 ∧ b.w = 64 ∧
    egRun (ctrCls philoxFam hiFirst counter) ctrFns (egCopy (ctrCls philoxFam hiFirst counter) ctrFns (false, b) (egNew ctrFns (false, s))).2 [.draw .u64] ≠
      egRun (ctrCls philoxFam hiFirst counter) ctrFns (egNew ctrFns (false, s)) [.draw .u64] :=
  ⟨⟨2, 64, 2, 64, 2, 64, #v[1, 2, 0, 0], #v[5, 0, 0, 0], #v[0, 0, 0, 0], 2, 0, 0⟩,
    ⟨4, 64, 4, 64, 4, 64, #v[1, 2, 3, 4], #v[5, 6, 0, 0], #v[0, 0, 0, 0], 4, 0, 0⟩, by unfold CtrOk; decide, by unfold CtrOk; decide, rfl, rfl,
    by revert hiFirst counter; decide +kernel⟩

/-- The state of `Philox(width=32)` assigned to an `ExtendedGenerator` made with `Philox()`: a word of 64 bits is one slot of the buffer, which holds
32 bits. -/
theorem not_C105_philox_width (hiFirst counter : Bool) : ∃ s t : CtrI, CtrOk s ∧ CtrOk t ∧ t.n = s.n ∧
    egRun (ctrCls philoxFam hiFirst counter) ctrFns (egNew ctrFns (false, s)) [.setState (philoxGet t), .draw .u64] ≠
      bgRun (ctrCls philoxFam hiFirst counter) (false, s) [.setState (philoxGet t), .draw .u64] :=
  ⟨⟨4, 64, 4, 64, 4, 64, #v[1, 2, 3, 4], #v[5, 6, 0, 0], #v[0, 0, 0, 0], 4, 0, 0⟩,
    ⟨4, 32, 4, 32, 4, 32, #v[1, 2, 3, 4], #v[5, 6, 0, 0], #v[1, 2, 3, 4], 1, 0, 0⟩, by unfold CtrOk; decide, by unfold CtrOk; decide, rfl,
    by revert hiFirst counter; decide +kernel⟩

/-- `JSF(size=32)`: the copy draws with the 64-bit functions. -/
theorem not_C105_jsf_copy (hiFirst : Bool) : ∃ s b : JsfI, JsfOk s ∧ JsfOk b ∧ b.size = 64 ∧
    egRun (jsfCls hiFirst) jsfFns (egCopy (jsfCls hiFirst) jsfFns b (egNew jsfFns s)).2 [.draw .u64] ≠
      egRun (jsfCls hiFirst) jsfFns (egNew jsfFns s) [.draw .u64] :=
  ⟨⟨1, 2, 3, 4, 27, 17, 0, 0, 0, 32, 3, false⟩, ⟨1, 2, 3, 4, 7, 13, 37, 0, 0, 64, 3, true⟩, rfl, rfl, rfl, by revert hiFirst; decide +kernel⟩

/-- `Squares()`, the default variant: a half word that is pending is lost in the copy, as the setter does not read it (`not_C11_squares`). -/
theorem not_C105_squares_copy (hiFirst : Bool) : ∃ s b : SquaresI, SquaresOk s ∧ SquaresOk b ∧ s.variant = 64 ∧ b.variant = 64 ∧ b.has = 0 ∧
    egRun (squaresCls hiFirst) squaresFns (egCopy (squaresCls hiFirst) squaresFns b (egNew squaresFns s)).2 [.draw .u32] ≠
      egRun (squaresCls hiFirst) squaresFns (egNew squaresFns s) [.draw .u32] :=
  ⟨⟨0x123456789abcdef1, 5, 1, 9, 64, true, true⟩, ⟨0x123456789abcdef1, 0, 0, 0, 64, true, true⟩, ⟨.inl rfl, rfl, rfl⟩, ⟨.inl rfl, rfl, rfl⟩, rfl, rfl, rfl,
    by revert hiFirst; decide +kernel⟩

/-! ### Instances that meet the hypotheses -/

example (ws : Nat → U64) : ∃ b, (ctrCls philoxFam true false).new {} ⟨ws, none, none⟩ = .ok b ∧ Drawn (ctrCls philoxFam true false) {} b :=
  let ⟨b, h⟩ := ctrNew_default (F := philoxFam) ⟨.inr rfl, .inr rfl⟩ (philoxFam_ok ⟨.inr rfl, .inr rfl⟩) ws
  ⟨b, (ctr_new philoxFam true false {} _).trans h, .new _ b ((ctr_new philoxFam true false {} _).trans h)⟩
example : JsfOk ⟨1, 2, 3, 4, 7, 13, 37, 1, 5, 64, 3, true⟩ := rfl

end ExtGen
end Verif
