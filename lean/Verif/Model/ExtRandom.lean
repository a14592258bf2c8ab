import Verif.Model.Api

/-! `ExtendedGenerator.random` (generator.pyx:294-375) with the fill functions and `check_output` of broadcasting.pyx,
and the shape computations of `multivariate_normal` and `multivariate_complex_normal`. -/

namespace Verif

/-! ### random -/

/-- The three supported dtypes. -/
inductive FDtype where
  | f64 | f32 | ld
  deriving DecidableEq, Repr

/-- What `check_output` looks at: the array's dtype and shape, and `PyArray_ISCARRAY`, `PyArray_ISFARRAY` (contiguous in
that order, aligned, writable, native byte order). `ndarray = false` is any other object. -/
structure OutArr where
  ndarray : Bool
  dtype : FDtype
  shape : List Nat
  carray : Bool
  farray : Bool
  deriving DecidableEq, Repr

/-- Outcomes other than a result. `ub`: undefined behaviour. -/
inductive RErr where
  | value | type | ub
  deriving DecidableEq, Repr

/-- `check_output(out, dtype, size, False)` (broadcasting.pyx:79-114). `<np.ndarray> out` is an unchecked cast: with
another object the flags are read from memory that holds something else. -/
def checkOutput (o : OutArr) (dt : FDtype) (size : Size) : Except RErr Unit :=
  if o.ndarray = false then .error .ub
  else if ¬ (o.carray = true ∨ o.farray = true) then .error .value
  else if o.dtype ≠ dt then .error .type
  else if size ≠ .none ∧ size.dims ≠ o.shape.map Int.ofNat then .error .value
  else .ok ()

/-- Result of `random`: a scalar, or the array's shape, whether it lies in memory in Fortran order only, and its
elements in memory order. -/
inductive FOut (α : Type) where
  | scalar (v : α)
  | array (shape : List Int) (fOrder : Bool) (data : List α)
  deriving DecidableEq, Repr

/-- The filling loops: `random_double_fill` (rg-distributions.c:14-19) and `float_fill` (broadcasting.pyx:164-166) count with
`npy_intp`; `random_long_double_fill` (rg-distributions.c:54-58) counts with `int`, and `i++` overflows when `i` is
`INT_MAX`, which is reached when there are more elements than that. -/
def fillDt {σ α : Type} (nx : σ → α × σ) (dt : FDtype) (n : Nat) (s : σ) : Except RErr (List α × σ) :=
  if dt = .ld ∧ n > 2147483647 then .error .ub else .ok (fillLoop nx n s)

/-- `random(size, dtype, out)`; `nx` is the draw of one element of the dtype. The returned state belongs to the
outcomes other than `ub`. -/
def erandom {σ α : Type} (nx : σ → α × σ) (dt : FDtype) (size : Size) (out : Option OutArr) (s : σ) : Except RErr (FOut α) × σ :=
  match out with
  | none =>
    if size = .none then let r := nx s; (.ok (.scalar r.1), r.2)
    else match npEmptySize size.dims with
      | .error _ => (.error .value, s)
      | .ok n => match fillDt nx dt n s with
        | .error e => (.error e, s)
        | .ok (l, s') => (.ok (.array size.dims false l), s')
  | some o =>
    match checkOutput o dt size with
    | .error e => (.error e, s)
    | .ok () => match fillDt nx dt o.shape.prod s with
      | .error e => (.error e, s)
      | .ok (l, s') => (.ok (.array (o.shape.map Int.ofNat) (!o.carray) l), s')

/-- Position in memory of the element with a multi-index, in C order. -/
def posC : List Nat → List Nat → Nat
  | _ :: ds, i :: is => i * ds.prod + posC ds is
  | _, _ => 0

/-- The same in Fortran order. -/
def posF : List Nat → List Nat → Nat
  | d :: ds, i :: is => i + d * posF ds is
  | _, _ => 0

/-! ### Shapes -/

/-- `multivariate_normal` for a mean of shape `(n,)` and a covariance of shape `(n, n)` (generator.pyx:499-552): the shape of
the result. The broadcast shape of mean and covariance is then `(1,)`. -/
def mvnShape (n : Nat) (size : Option (List Nat)) : List Nat :=
  -- `out_shape`; `size[:-1]`, `size[-1:]` and the loop over `zip(size[-1:], (1,))`, which cannot raise
  let outShape := match size with
    | none => [1]
    | some sz => sz.dropLast ++ (sz.drop (sz.length - 1)).map fun s => max s 1
  -- `matmul` with factors of shape `(1, n, n)`, `squeeze`, addition of a mean of shape `(1, n)`
  let final := (if outShape = [] then [1] else outShape) ++ [n]
  -- `drop_dims and final.shape[0] == 1`
  if final.head? = some 1 then final.tail else final

/-- `garr[i]` in `multivariate_complex_normal` (generator.pyx:1199-1210, 1218-1219) for an array with leading dimensions `lead`:
the leading dimensions of the result, or an `IndexError`. Without leading dimensions the code has put one in front. -/
def mcnPick (lead : List Nat) (i : Nat) : Option (List Nat) :=
  match lead with
  | [] => if i < 1 then some [] else none
  | h :: t => if i < h then some t else none

/-- One pass of the loop (generator.pyx:1217-1225): `temp[:dim, :dim] = gpr.real` accepts a value with further leading
dimensions only when they are all one. -/
def mcnIter (gl rl : List Nat) (ij : Nat × Nat) : Option Unit := do
  let g ← mcnPick gl ij.1
  let r ← mcnPick rl ij.2
  if g.all (· == 1) ∧ r.all (· == 1) then some () else none

/-- The loop over `np.broadcast(gidx, ridx)`, whose pairs of flat indices are `pairs`. -/
def mcnLoop (gl rl : List Nat) (pairs : List (Nat × Nat)) : Option Unit := pairs.foldlM (fun _ ij => mcnIter gl rl ij) ()

end Verif
