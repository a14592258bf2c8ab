import Verif.Model.ExtGen

/-! The attributes `ctypes` and `cffi` of a bit generator (randomgen/common.pyx:128-173): tuples with the addresses of the state and of the draw functions
(`prepare_ctypes` :291-326, `prepare_cffi` :256-289), made when first asked for and kept. -/

namespace Verif

/-- A bit generator with the draw functions in the tuples it keeps, `none` before the first access. -/
structure Faced (φ σ : Type) where
  ctypes : Option φ
  cffi : Option φ
  bg : σ

/-- A call of a method of the bit generator, or a draw by a function of `bg.ctypes` or `bg.cffi` on the state given there. -/
inductive FaceOp (Seed : Type) where
  | bg (o : EgOp Seed)
  | ctypes (o : Op)
  | cffi (o : Op)

section
variable {Par Seed σ φ : Type} (C : GCls Par Seed σ) (W : Fns φ σ)

/-- One call: the property `ctypes` common.pyx:148-151, `cffi` common.pyx:170-173. -/
def faceCall (i : Faced φ σ) : FaceOp Seed → EgRes × Faced φ σ
  | .bg o => ((bgCall C i.bg o).1, { i with bg := (bgCall C i.bg o).2 })
  | .ctypes o =>
    let f := i.ctypes.getD (W.fns i.bg)
    let r := drawRes i.bg (egDraw C W ⟨f, i.bg⟩ o)
    (r.1, { i with ctypes := some f, bg := r.2 })
  | .cffi o =>
    let f := i.cffi.getD (W.fns i.bg)
    let r := drawRes i.bg (egDraw C W ⟨f, i.bg⟩ o)
    (r.1, { i with cffi := some f, bg := r.2 })

/-- The results of a program; it ends where a call does not return or is undefined. -/
def faceRun (i : Faced φ σ) : List (FaceOp Seed) → List EgRes
  | [] => []
  | o :: os => match faceCall C W i o with
    | (.hang, _) => [.hang]
    | (.ub, _) => [.ub]
    | (r, i') => r :: faceRun i' os

end

/-- A bit generator as the constructor leaves it. -/
def unfaced {σ : Type} (φ : Type) (s : σ) : Faced φ σ := ⟨none, none, s⟩

end Verif
