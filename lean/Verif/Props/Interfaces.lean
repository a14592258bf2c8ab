import Verif.Model.Interfaces
import Verif.Props.ExtGen

/-! C106: the functions of `bit_generator.ctypes` and `bit_generator.cffi` draw what the bit generator draws. -/

namespace Verif
namespace ExtGen

/-- What a call should do: a draw by an interface is a draw of the bit generator. -/
def plain {Seed : Type} : FaceOp Seed → EgOp Seed
  | .bg o => o
  | .ctypes o => .raw o
  | .cffi o => .raw o

/-- The states a program assigns. -/
def FaceAssigned {Seed : Type} (os : List (FaceOp Seed)) (v : PyVal) : Prop := .bg (.setState v) ∈ os

section
variable {Par Seed σ φ : Type} {C : GCls Par Seed σ} {W : Fns φ σ}

theorem face_call {Ok : σ → Prop} (S : Steady C W Ok) (i : Faced φ σ) (o : FaceOp Seed) (f : φ) (hf : W.fns i.bg = f) (hk : Ok i.bg)
    (h1 : ∀ g ∈ i.ctypes, g = f) (h2 : ∀ g ∈ i.cffi, g = f) (hv : ∀ v, o = .bg (.setState v) → ∃ t, Ok t ∧ W.fns t = f ∧ v = C.get t) :
    (faceCall C W i o).1 = (bgCall C i.bg (plain o)).1 ∧ (faceCall C W i o).2.bg = (bgCall C i.bg (plain o)).2 ∧
      (∀ g ∈ (faceCall C W i o).2.ctypes, g = f) ∧ (∀ g ∈ (faceCall C W i o).2.cffi, g = f) ∧
      W.fns (faceCall C W i o).2.bg = f ∧ Ok (faceCall C W i o).2.bg := by
  have key := call_eq S ⟨f, i.bg⟩ (plain o) hf.symm hk fun v h => by
    cases o with
    | bg o => exact hv v (congrArg _ h)
    | ctypes o => cases h
    | cffi o => cases h
  have own : ∀ k, egDraw C W ⟨f, i.bg⟩ k = C.op k i.bg := fun k =>
    egDraw_own S.self ⟨f, i.bg⟩ k hf.symm fun x s' h => (S.op k i.bg x s' hk h).2
  have g1 : i.ctypes.getD (W.fns i.bg) = f := by
    cases hc : i.ctypes with
    | none => exact hf
    | some g => exact h1 g hc
  have g2 : i.cffi.getD (W.fns i.bg) = f := by
    cases hc : i.cffi with
    | none => exact hf
    | some g => exact h2 g hc
  cases o with
  | bg o => exact ⟨rfl, rfl, h1, h2, key.2.2.2, key.2.2.1⟩
  | ctypes o =>
    simp only [faceCall, g1, own]
    exact ⟨rfl, rfl, fun g h => (Option.some.inj h).symm, h2, key.2.2.2, key.2.2.1⟩
  | cffi o =>
    simp only [faceCall, g2, own]
    exact ⟨rfl, rfl, h1, fun g h => (Option.some.inj h).symm, key.2.2.2, key.2.2.1⟩

theorem face_run {Ok : σ → Prop} (S : Steady C W Ok) (f : φ) (os : List (FaceOp Seed)) : ∀ (i : Faced φ σ), W.fns i.bg = f → Ok i.bg →
    (∀ g ∈ i.ctypes, g = f) → (∀ g ∈ i.cffi, g = f) → (∀ v, FaceAssigned os v → ∃ t, Ok t ∧ W.fns t = f ∧ v = C.get t) →
    faceRun C W i os = bgRun C i.bg (os.map plain) := by
  induction os with
  | nil => intros; rfl
  | cons o os ih =>
    intro i hf hk h1 h2 hv
    obtain ⟨a, b, c, d, e, g⟩ := face_call S i o f hf hk h1 h2 fun v h => hv v (by rw [h]; exact List.mem_cons_self)
    have h6 := ih (faceCall C W i o).2 e g c d fun v h => hv v (List.mem_cons_of_mem _ h)
    rw [b] at h6
    rw [List.map_cons]
    unfold faceRun bgRun
    rcases hc : faceCall C W i o with ⟨r, i'⟩
    rcases hb : bgCall C i.bg (plain o) with ⟨r', s'⟩
    rw [hc, hb] at h6
    rw [hc, hb] at a
    simp only at a h6
    subst a
    cases r <;> simp only [h6]

end

/-- Missing for the full claim: programs that assign the state of an instance of the other variant after the first use of the interface (false,
`not_C106_xoroshiro128`). The same below. -/
theorem C106_xoroshiro128_partial (s : XoroI) (h : XoroOk s) (os : List (FaceOp (Nat → U64)))
    (hv : ∀ v, FaceAssigned os v → ∃ t, XoroOk t ∧ t.plusplus = s.plusplus ∧ v = xoroGet t) :
    faceRun xoroCls xoroFns (unfaced Bool s) os = bgRun xoroCls s (os.map plain) :=
  face_run steady_xoro s.actPlusplus os (unfaced Bool s) rfl h nofun nofun fun v a =>
    let ⟨t, h1, h2, h3⟩ := hv v a; ⟨t, h1, h1.trans (h2.trans h.symm), h3⟩

theorem C106_romu_partial (s : RomuI) (h : RomuOk s) (os : List (FaceOp (Nat → U64)))
    (hv : ∀ v, FaceAssigned os v → ∃ t, RomuOk t ∧ t.variant = s.variant ∧ v = romuGet t) :
    faceRun romuCls romuFns (unfaced Bool s) os = bgRun romuCls s (os.map plain) :=
  face_run steady_romu s.actQuad os (unfaced Bool s) rfl h nofun nofun fun v a => let ⟨t, h1, h2, h3⟩ := hv v a; ⟨t, h1, by
    show t.actQuad = s.actQuad
    rw [h1.2, h.2, h2], h3⟩

theorem C106_tyche_partial (hiFirst : Bool) (s : TycheI) (h : TycheOk s) (os : List (FaceOp ((Nat → U32) × Option Int)))
    (hv : ∀ v, FaceAssigned os v → ∃ t, TycheOk t ∧ t.original = s.original ∧ v = tycheGet t) :
    faceRun (tycheCls hiFirst) tycheFns (unfaced Bool s) os = bgRun (tycheCls hiFirst) s (os.map plain) :=
  face_run (steady_tyche hiFirst) s.actOriginal os (unfaced Bool s) rfl h nofun nofun fun v a =>
    let ⟨t, h1, h2, h3⟩ := hv v a; ⟨t, h1, h1.trans (h2.trans h.symm), h3⟩

theorem C106_jsf_partial (hiFirst : Bool) (s : JsfI) (h : JsfOk s) (os : List (FaceOp ((Nat → U64) × (Nat → U32))))
    (hv : ∀ v, FaceAssigned os v → ∃ t, JsfOk t ∧ t.size = s.size ∧ v = jsfGet t) :
    faceRun (jsfCls hiFirst) jsfFns (unfaced Bool s) os = bgRun (jsfCls hiFirst) s (os.map plain) :=
  face_run (steady_jsf hiFirst) s.act64 os (unfaced Bool s) rfl h nofun nofun fun v a => let ⟨t, h1, h2, h3⟩ := hv v a; ⟨t, h1, by
    show t.act64 = s.act64
    rw [show t.act64 = _ from h1, show s.act64 = _ from h, h2], h3⟩

theorem C106_squares_partial (hiFirst : Bool) (s : SquaresI) (h : SquaresOk s) (os : List (FaceOp SquaresSeed))
    (hv : ∀ v, FaceAssigned os v → ∃ t, SquaresOk t ∧ t.variant = s.variant ∧ v = squaresGet t) :
    faceRun (squaresCls hiFirst) squaresFns (unfaced Bool s) os = bgRun (squaresCls hiFirst) s (os.map plain) :=
  face_run (steady_squares hiFirst) s.act64 os (unfaced Bool s) rfl h nofun nofun fun v a => let ⟨t, h1, h2, h3⟩ := hv v a; ⟨t, h1, by
    show t.act64 = s.act64
    rw [h1.2.2, h.2.2, h1.2.1, h.2.1, h2], h3⟩

theorem C106_pcg64_partial (s : Bool × Pcg64I) (h : Pcg64Ok s.2) (os : List (FaceOp ((Nat → U64) × Option U128)))
    (hv : ∀ v, FaceAssigned os v → ∃ t, Pcg64Ok t ∧ (t.variant = "dxsm" ↔ s.2.variant = "dxsm") ∧ v = pcg64Get t) :
    faceRun pcg64Cls pcg64Fns (unfaced Bool s) os = bgRun pcg64Cls s (os.map plain) :=
  face_run steady_pcg64 s.2.actCheap os (unfaced Bool s) rfl h nofun nofun fun v a => let ⟨t, h1, h2, h3⟩ := hv v a; ⟨(false, t), h1, by
    show t.actCheap = s.2.actCheap
    rcases h1 with ⟨a, -, -, d, -⟩ | ⟨a, -, -, d, -⟩ | ⟨a, -, -, d, -⟩ <;>
    rcases h with ⟨a', -, -, d', -⟩ | ⟨a', -, -, d', -⟩ | ⟨a', -, -, d', -⟩ <;> rw [a, a'] at h2 <;> rw [d, d'] <;> revert h2 <;> decide, h3⟩

theorem C106_philox_partial (hiFirst counter : Bool) (s : Bool × CtrI) (h : CtrOk s.2) (os : List (FaceOp CtrSeed))
    (hv : ∀ v, FaceAssigned os v → ∃ t, CtrOk t ∧ t.n = s.2.n ∧ t.w = s.2.w ∧ v = philoxGet t) :
    faceRun (ctrCls philoxFam hiFirst counter) ctrFns (unfaced _ s) os = bgRun (ctrCls philoxFam hiFirst counter) s (os.map plain) :=
  face_run (steady_ctr philoxFam hiFirst counter (fun s h => by
    rcases h.1 with h | h <;> rw [h] <;> decide)) (s.2.actN, s.2.actW) os (unfaced _ s) rfl h nofun nofun fun v a =>
      let ⟨t, h1, h2, h3, h4⟩ := hv v a; ⟨(false, t), h1, Prod.ext (h1.2.2.2.2.1.trans (h2.trans h.2.2.2.2.1.symm))
        (h1.2.2.2.2.2.trans (h3.trans h.2.2.2.2.2.symm)), h4⟩

theorem C106_threefry_partial (hiFirst counter : Bool) (s : Bool × CtrI) (h : CtrOk s.2) (os : List (FaceOp CtrSeed))
    (hv : ∀ v, FaceAssigned os v → ∃ t, CtrOk t ∧ t.n = s.2.n ∧ t.w = s.2.w ∧ v = threefryGet t) :
    faceRun (ctrCls threefryFam hiFirst counter) ctrFns (unfaced _ s) os = bgRun (ctrCls threefryFam hiFirst counter) s (os.map plain) :=
  face_run (steady_ctr threefryFam hiFirst counter (fun s h => by
    rcases h.1 with h | h <;> rw [h] <;> decide)) (s.2.actN, s.2.actW) os (unfaced _ s) rfl h nofun nofun fun v a =>
      let ⟨t, h1, h2, h3, h4⟩ := hv v a; ⟨(false, t), h1, Prod.ext (h1.2.2.2.2.1.trans (h2.trans h.2.2.2.2.1.symm))
        (h1.2.2.2.2.2.trans (h3.trans h.2.2.2.2.2.symm)), h4⟩

/-! ### Where it fails -/

/-- A draw by `ctypes`, then the state of an instance with `plusplus=True`: the next draw by `ctypes` is not that of the bit generator. -/
theorem not_C106_xoroshiro128 : ∃ s t : XoroI, XoroOk s ∧ XoroOk t ∧
    faceRun xoroCls xoroFns (unfaced Bool s) [.ctypes .u64, .bg (.setState (xoroGet t)), .ctypes .u64] ≠
      bgRun xoroCls s ([.ctypes .u64, .bg (.setState (xoroGet t)), .ctypes .u64].map plain) :=
  ⟨⟨#v[1, 2], 0, 0, false, false⟩, ⟨#v[1, 2], 0, 0, true, true⟩, rfl, rfl, by decide +kernel⟩

/-- The interfaces keep functions of their own: here `ctypes` has been asked for before the state was set and `cffi` after it, and from the same
state they draw different words. -/
theorem not_C106_two_faces : ∃ s t : XoroI, XoroOk s ∧ XoroOk t ∧
    faceRun xoroCls xoroFns (unfaced Bool s) [.ctypes .u64, .bg (.setState (xoroGet t)), .ctypes .u64] ≠
      faceRun xoroCls xoroFns (unfaced Bool s) [.ctypes .u64, .bg (.setState (xoroGet t)), .cffi .u64] :=
  ⟨⟨#v[1, 2], 0, 0, false, false⟩, ⟨#v[1, 2], 0, 0, true, true⟩, rfl, rfl, by decide +kernel⟩

/-- `PCG64()` given the state of `PCG64(variant="dxsm")`. -/
theorem not_C106_pcg64 : ∃ s t : Pcg64I, Pcg64Ok s ∧ Pcg64Ok t ∧
    faceRun pcg64Cls pcg64Fns (unfaced Bool (false, s)) [.cffi .u64, .bg (.setState (pcg64Get t)), .cffi .u64, .cffi .u64] ≠
      bgRun pcg64Cls (false, s) ([.cffi .u64, .bg (.setState (pcg64Get t)), .cffi .u64, .cffi .u64].map plain) :=
  ⟨⟨5, 3, 0, 0, 0, "xsl-rr", false, false, false⟩, ⟨1, 3, 1, 0, 0, "dxsm", true, true, true⟩, .inr (.inr ⟨rfl, rfl, rfl, rfl, rfl⟩),
    .inl ⟨rfl, rfl, rfl, rfl, rfl⟩, by decide +kernel⟩

/-- `Romu()` given the state of `Romu(variant="trio")`. -/
theorem not_C106_romu : ∃ s t : RomuI, RomuOk s ∧ RomuOk t ∧
    faceRun romuCls romuFns (unfaced Bool s) [.ctypes .u64, .bg (.setState (romuGet t)), .ctypes .u64, .ctypes .u64] ≠
      bgRun romuCls s ([.ctypes .u64, .bg (.setState (romuGet t)), .ctypes .u64, .ctypes .u64].map plain) :=
  ⟨⟨1, 2, 3, 4, 0, 0, "quad", true⟩, ⟨1, 2, 3, 4, 0, 0, "trio", false⟩, ⟨.inl rfl, rfl⟩, ⟨.inr rfl, rfl⟩, by decide +kernel⟩

/-! ### An instance that meets the hypotheses -/

example : XoroOk ⟨#v[1, 2], 1, 7, true, true⟩ ∧
    ∀ v, FaceAssigned (Seed := Nat → U64) [.ctypes .u32, .bg (.setState (xoroGet ⟨#v[3, 4], 0, 0, true, true⟩)), .cffi .u64] v →
      ∃ t, XoroOk t ∧ t.plusplus = true ∧ v = xoroGet t :=
  ⟨rfl, fun v h => ⟨⟨#v[3, 4], 0, 0, true, true⟩, rfl, rfl, by simpa [FaceAssigned] using h⟩⟩

end ExtGen
end Verif
