import Mathlib.Analysis.SpecialFunctions.Pow.NNReal
import Mathlib.Data.Complex.Basic

/-! `ExtendedGenerator.complex_normal` (generator.pyx:553-722) over the real numbers: rounding is not modelled. -/

namespace Verif
noncomputable section
open Classical

/-- `compute_complex` (common.pxd:49-63): two standard normals `r`, `i` become the real and the imaginary part. The
imaginary part is computed first, from the old `r`. -/
def computeComplex (r i locR locI varR varI rho : ℝ) : ℝ × ℝ :=
  let scaleC := √(1 - rho * rho)
  let scaleR := √varR
  let scaleI := √varI
  let im := locI + scaleI * (rho * r + scaleC * i)
  let re := locR + scaleR * r
  (re, im)

/-- The four refusals (all `ValueError`). -/
inductive CnErr
  | imGamma | reMinus | rePlus | imRelation

/-- Validation of scalar parameters (generator.pyx:626-648); the result is `(fvar_r, fvar_i, f_rho)`. -/
def cnScalar (gamma relation : ℂ) : Except CnErr (ℝ × ℝ × ℝ) :=
  let relI := 0.5 * relation.im
  let varR := 0.5 * (gamma.re + relation.re)
  let varI := 0.5 * (gamma.re - relation.re)
  if gamma.im ≠ 0 then .error .imGamma
  else if varI < 0 then .error .reMinus
  else if varR < 0 then .error .rePlus
  else
    let rho := if varI > 0 ∧ varR > 0 then relI / √(varI * varR) else 0
    if rho > 1 ∨ rho < -1 then .error .imRelation
    else .ok (varR, varI, rho)

/-- Validation of one element of array parameters (generator.pyx:676-691). The code tests each condition on the whole
array before the next; an array is accepted exactly when every element is. -/
def cnElement (gamma relation : ℂ) : Except CnErr (ℝ × ℝ × ℝ) :=
  let varR := 0.5 * (gamma + relation).re
  let varI := 0.5 * (gamma - relation).re
  if varR < 0 then .error .rePlus
  else if varI < 0 then .error .reMinus
  else if gamma.im ≠ 0 then .error .imGamma
  else
    let cov := 0.5 * relation.im
    let idx := varR > 0 ∧ varI > 0
    let rho := if idx then cov / √(varR * varI) else 0
    if (¬ idx ∧ cov ≠ 0) ∨ |rho| > 1 then .error .imRelation
    else .ok (varR, varI, rho)

/-- The lengths in `rho.flat[idx] = …` and `cov.flat[~idx]` (generator.pyx:686-691): `rho` and `cov` have as many
elements as `relation`, the mask has one per element of the broadcast of `gamma` and `relation`. NumPy refuses to index a
flat iterator with a longer mask. `none` is that exception. -/
def cnMask (relationSize broadcastSize : Nat) : Option Unit :=
  if broadcastSize > relationSize then none else some ()

end
end Verif
