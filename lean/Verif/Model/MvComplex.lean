import Verif.Model.Wishart
import Mathlib.Data.Complex.Basic

/-! `multivariate_complex_normal` (generator.pyx:1194-1241): the covariance of the interleaved real and imaginary parts. -/

namespace Verif
noncomputable section

/-- `temp` (generator.pyx:1220-1225). -/
def mcnTemp (d : Nat) (g r : Nat → Nat → ℂ) (a b : Nat) : ℝ :=
  let gpr := fun k l => 0.5 * (g k l + r k l)
  let gmr := fun k l => 0.5 * (g k l - r k l)
  if a < d then
    if b < d then (gpr a b).re else -(gmr a (b - d)).im
  else
    if b < d then (gpr (a - d) b).im else (gmr (a - d) (b - d)).re

/-- `p` (generator.pyx:1195-1196): the entries of `np.arange(2 * dim).reshape((2, -1)).T.ravel()`. -/
def mcnPerm (d a : Nat) : Nat := (a % 2) * d + a / 2

/-- `temp[ix]` (generator.pyx:1197, 1234). -/
def mcnCov (d : Nat) (g r : Nat → Nat → ℂ) : Matrix (Fin (2 * d)) (Fin (2 * d)) ℝ :=
  Matrix.of fun a b => mcnTemp d g r (mcnPerm d a) (mcnPerm d b)

/-- `larr.view(np.float64)` (generator.pyx:1239): real and imaginary parts in turn. -/
def mcnLoc {d : Nat} (loc : Nat → ℂ) (a : Fin (2 * d)) : ℝ := if a.val % 2 = 0 then (loc (a.val / 2)).re else (loc (a.val / 2)).im

/-- `out.view(complex)` (generator.pyx:1241): component `k` of one draw. -/
def mcnDraw {d : Nat} (loc : Nat → ℂ) (factor : Matrix (Fin (2 * d)) (Fin (2 * d)) ℝ) (z : Fin (2 * d) → ℝ) (k : Fin d) : ℂ :=
  ⟨mvnDraw (mcnLoc loc) factor z ⟨2 * k.val, by omega⟩, mvnDraw (mcnLoc loc) factor z ⟨2 * k.val + 1, by omega⟩⟩

end
end Verif
