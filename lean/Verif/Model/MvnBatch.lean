import Verif.Model.MultiIter

/-! `ExtendedGenerator.multivariate_normal` with batches of means and covariances (generator.pyx:499-551): which mean,
which factor and which normals every sample of the result is made from. Shapes and indices are listed from the last axis
to the first; the axes of length `N` of a mean, a covariance and a sample are left out. -/

namespace Verif

/-- The index into an array of shape `dims` that index `idx` of a broadcast stands for (NumPy's rule). -/
def clipIdx : List Nat → List Nat → List Nat
  | d :: ds, i :: is => (if d = 1 then 0 else i) :: clipIdx ds is
  | _, _ => []

/-- The loop over `zip(size[-len(out_shape):], out_shape)` and the axes before it, when `size` is long enough
(generator.pyx:527-543). `none` is `ValueError`. -/
def mvnZip : List Nat → List Nat → Option (List Nat)
  | ss, [] => some ss
  | [], _ :: _ => none
  | s :: ss, o :: os => if s = 1 ∨ o = 1 ∨ s = o then (mvnZip ss os).map (max s o :: ·) else none

/-- `out_shape` after `size` is taken into account. When `size` is too short the error is raised in the body of the loop,
which runs at least once unless `size` is empty. -/
def mvnOut (size : Option (List Nat)) (os : List Nat) : Option (List Nat) :=
  match size with
  | none => some os
  | some s => if s.length < os.length then (if s = [] then some [] else none) else mvnZip s os

/-- What a sample is made from: index of the mean, index of the normals in the array `out`, index of the factor. -/
structure MvnSrc where
  mean : List Nat
  normal : List Nat
  factor : List Nat
  deriving DecidableEq, Repr

/-- `multivariate_normal` for means of leading shape `ml` and covariances of leading shape `cl`
(generator.pyx:513-551): the leading shape of the result, and the source of the sample at an index of the array `final`
before the reshape that drops its first axis (which moves no element). `none` is `ValueError`. -/
def mvnBatch (size : Option (List Nat)) (ml cl : List Nat) : Option (List Nat × (List Nat → MvnSrc)) := do
  let drop := ml = [] ∧ cl = []
  let m := if ml = [] then [1] else ml
  let c := if cl = [] then [1] else cl
  let os ← bcDims [m, c]
  let out ← mvnOut size os
  let prod ← bcDims [out, c]
  let fin ← bcDims [m, prod]
  let shape := if drop ∧ fin.getLast? = some 1 then fin.dropLast else fin
  return (shape, fun idx => ⟨clipIdx m idx, clipIdx out (clipIdx prod idx), clipIdx c (clipIdx prod idx)⟩)

end Verif
