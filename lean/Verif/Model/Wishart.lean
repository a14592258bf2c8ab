import Mathlib.Analysis.SpecialFunctions.Pow.NNReal
import Mathlib.Data.Matrix.Basic
import Mathlib.LinearAlgebra.Matrix.Notation

/-! The Wishart samplers of `ExtendedGenerator` (rg-distributions.c:60-86, generator.pyx:66-118, 722-990) and
`multivariate_normal` (generator.pyx:480-552) over the real numbers: rounding is not modelled. The distribution functions
of NumPy are not modelled either: `chi t ν` and `nor t` are the values of `random_chisquare(bitgen, ν)` and
`random_standard_normal(bitgen)` when they are the `t`-th call made. -/

namespace Verif
noncomputable section

/-- The buffers `w` and `n` as the C code sees them, and the number of distribution calls made so far. -/
structure Wi where
  w : Nat → ℝ
  n : Nat → ℝ
  t : Nat

variable (chi : Nat → ℝ → ℝ) (nor : Nat → ℝ)

/-- Body of the loop over `j` (rg-distributions.c:73-82). -/
def wiCell (dim k i : Nat) (vi : ℝ) (s : Wi) (j : Nat) : Wi :=
  let s := if i = j then { s with w := Function.update s.w (k * (dim * dim) + i * dim + j) vi }
    else
      let n := Function.update s.n (dim * i + j) (nor s.t)
      { w := Function.update s.w (k * (dim * dim) + i * dim + j) (n (dim * i + j) * √vi), n := n, t := s.t + 1 }
  let s := (List.range i).foldl (fun s r => { s with
    w := Function.update s.w (k * (dim * dim) + i * dim + j) (s.w (k * (dim * dim) + i * dim + j) + s.n (dim * r + i) * s.n (dim * r + j)) }) s
  { s with w := Function.update s.w (k * (dim * dim) + j * dim + i) (s.w (k * (dim * dim) + i * dim + j)) }

/-- Body of the loop over `i` (rg-distributions.c:71-83). -/
def wiRow (df : Int) (dim k : Nat) (s : Wi) (i : Nat) : Wi :=
  let vi := chi s.t ((df - i : Int) : ℝ)
  (List.range' i (dim - i)).foldl (wiCell nor dim k i vi) { s with t := s.t + 1 }

/-- `random_wishart_large_df` (rg-distributions.c:60-86). -/
def wishartLarge (df : Int) (dim num : Nat) (s : Wi) : Wi :=
  (List.range num).foldl (fun s k => (List.range dim).foldl (wiRow chi nor df dim k) s) s

/-- `random_wishart_small_df` (generator.pyx:722-726): `n`, of shape `(num, df, dim)`, is filled in C order with standard
normals; entry `(k, i, j)` of the product of its transpose with it. The first call is number `t`. -/
def wishartSmall (df dim t k i j : Nat) : ℝ :=
  ∑ q ∈ Finset.range df, nor (t + k * (df * dim) + q * dim + i) * nor (t + k * (df * dim) + q * dim + j)

/-- `standard_wishart` (generator.pyx:784-808): entry `(k, i, j)` of the result, sample `k` of `num`; the buffers are
uninitialised memory `s`. `df` is positive in every call that draws something. -/
def standardWishart (df dim num : Nat) (rescale : Bool) (s : Wi) (k i j : Nat) : ℝ :=
  let out := if df < dim then wishartSmall nor df dim s.t k i j else (wishartLarge chi nor df dim num s).w (k * (dim * dim) + i * dim + j)
  if rescale then out / df else out

/-- The factor of `method="svd"` (generator.pyx:67-75), full rank, from the result `u`, `s` of `numpy.linalg.svd`. -/
def svdFactor {d : Nat} (u : Matrix (Fin d) (Fin d) ℝ) (s : Fin d → ℝ) : Matrix (Fin d) (Fin d) ℝ :=
  (Matrix.of fun i j => u i j * √(s j)).transpose

/-- The factor of `method="eigh"` (generator.pyx:78-88), full rank, from the result `s`, `u` of `numpy.linalg.eigh`. -/
def eighFactor {d : Nat} (u : Matrix (Fin d) (Fin d) ℝ) (s : Fin d → ℝ) : Matrix (Fin d) (Fin d) ℝ :=
  (Matrix.of fun i j => u i j * √|s j|).transpose

/-- The factor of `method="cholesky"` (generator.pyx:89-94), full rank, from the result of `numpy.linalg.cholesky`. -/
def choleskyFactor {d : Nat} (l : Matrix (Fin d) (Fin d) ℝ) : Matrix (Fin d) (Fin d) ℝ := l.transpose

/-- What `wishart` makes of one standard Wishart matrix (generator.pyx:910-912, 983-985). -/
def wishartScale {d : Nat} (factor out : Matrix (Fin d) (Fin d) ℝ) : Matrix (Fin d) (Fin d) ℝ := factor * out * factor.transpose

/-- What `multivariate_normal` makes of one row of standard normals (generator.pyx:545-547). -/
def mvnDraw {d : Nat} (mean : Fin d → ℝ) (factor : Matrix (Fin d) (Fin d) ℝ) (z : Fin d → ℝ) : Fin d → ℝ :=
  fun i => mean i + Matrix.vecMul z factor i

end
end Verif
