import Verif.Common.Basic

/-! NumPy's broadcasting iterator and the loop of `ExtendedGenerator.complex_normal` over array parameters
(generator.pyx:693-722); the loops of `cont_broadcast_1/2/3` and `discrete_broadcast_*` (broadcasting.pyx) have the same
form. Shapes, strides and indices are listed from the last axis to the first. -/

namespace Verif

/-- A NumPy array: for each axis, from the last to the first, its length and its stride, the position of the element with
index 0, and the memory it points into (`none` where nothing of the array may be read). Strides may be negative or 0. -/
structure NdArr (α : Type) where
  axes : List (Nat × Int)
  base : Int
  mem : Int → Option α

def NdArr.dims {α : Type} (a : NdArr α) : List Nat := a.axes.map Prod.fst

/-- One axis of `PyArray_Broadcast`: `cur` is the length so far, `d` the length in the next operand. -/
def bcStep (cur d : Nat) : Option Nat :=
  if d = 1 then some cur else if cur = 1 then some d else if cur = d then some cur else none

/-- `PyArray_Broadcast` on one axis over all the operands that have it. -/
def bcAxis (ds : List Nat) : Option Nat := ds.foldlM bcStep 1

/-- `PyArray_Broadcast` (the shape of a `np.broadcast` of arrays of the given shapes); `none` is `ValueError: shape
mismatch`. NumPy's limit on the number of axes is not modelled. -/
def bcDims (shapes : List (List Nat)) : Option (List Nat) :=
  (List.range (shapes.foldl (fun m x => max m x.length) 0)).mapM fun k => bcAxis (shapes.filterMap fun x => x[k]?)

/-- One axis of an iterator: `coordinates`, `dims_m1`, `strides`, `backstrides`. -/
structure IterAx where
  coord : Int
  dimM1 : Int
  stride : Int
  back : Int

/-- The iterator over an operand with the given axes after `PyArray_Broadcast` with shape `bs`: where the operand lacks the
axis or its length differs the stride is 0. -/
def iterAxes : List (Nat × Int) → List Nat → List IterAx
  | _, [] => []
  | [], b :: bs => ⟨0, (b : Int) - 1, 0, 0⟩ :: iterAxes [] bs
  | (d, s) :: ax, b :: bs =>
    let st := if d ≠ b then 0 else s
    ⟨0, (b : Int) - 1, st, st * ((b : Int) - 1)⟩ :: iterAxes ax bs

/-- `PyArray_ITER_NEXT` for a non-contiguous iterator: the axes and the data pointer. -/
def iterNext : List IterAx → Int → List IterAx × Int
  | [], p => ([], p)
  | a :: as, p =>
    if a.coord < a.dimM1 then ({ a with coord := a.coord + 1 } :: as, p + a.stride)
    else
      let r := iterNext as (p - a.back)
      ({ a with coord := 0 } :: r.1, r.2)

/-- The iterator after `i` calls of `PyArray_MultiIter_NEXT`. -/
def iterAfter (ax : List IterAx) (p : Int) : Nat → List IterAx × Int
  | 0 => (ax, p)
  | i + 1 =>
    let r := iterAfter ax p i
    iterNext r.1 r.2

/-- What `PyArray_MultiIter_DATA` of this operand points to in iteration `i` (`none`: outside the array). -/
def iterRead {α : Type} (bs : List Nat) (a : NdArr α) (i : Nat) : Option α :=
  a.mem (iterAfter (iterAxes a.axes bs) a.base i).2

/-- The shape of the result (generator.pyx:693-697). -/
def cnShape (size : Option (List Nat)) (shapes : List (List Nat)) : Option (List Nat) :=
  match size with
  | some s => some s
  | none => bcDims shapes

/-- The part of `complex_normal` after the validation of array parameters (generator.pyx:693-722): the outer `none` is an
invalid read, the inner one `ValueError` from NumPy. `normal` is the sequence of standard normals, `f` the computation of
one sample from two of them and the parameters (`compute_complex`). -/
def cnLoop {α β γ : Type} (size : Option (List Nat)) (ops : List (NdArr α)) (normal : Nat → β) (f : β → β → List α → γ) :
    Option (Option (List Nat × List γ)) :=
  match cnShape size (ops.map NdArr.dims) with
  | none => some none
  | some shape =>
    match bcDims (shape :: ops.map NdArr.dims) with
    | none => some none
    | some bs =>
      match (List.range shape.prod).mapM fun i => (ops.mapM fun a => iterRead bs a i).map (f (normal (2 * i)) (normal (2 * i + 1))) with
      | none => none
      | some l => some (some (shape, l))

end Verif
