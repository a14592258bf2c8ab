import Verif.Model.MvComplex
import Verif.Props.Wishart

/-! Property C74: moments of `multivariate_complex_normal`. -/

namespace Verif
open MeasureTheory ProbabilityTheory
noncomputable section
variable {d : Nat}

theorem mcnCov_entries (g r : Nat → Nat → ℂ) (k l : Fin d) :
    mcnCov d g r ⟨2 * k.val, by omega⟩ ⟨2 * l.val, by omega⟩ = (g k l + r k l).re / 2 ∧
    mcnCov d g r ⟨2 * k.val, by omega⟩ ⟨2 * l.val + 1, by omega⟩ = (r k l - g k l).im / 2 ∧
    mcnCov d g r ⟨2 * k.val + 1, by omega⟩ ⟨2 * l.val, by omega⟩ = (g k l + r k l).im / 2 ∧
    mcnCov d g r ⟨2 * k.val + 1, by omega⟩ ⟨2 * l.val + 1, by omega⟩ = (g k l - r k l).re / 2 := by
  have p0 : ∀ x : Nat, mcnPerm d (2 * x) = x := fun x => by rw [mcnPerm]; simp
  have p1 : ∀ x : Nat, mcnPerm d (2 * x + 1) = d + x := fun x => by
    rw [mcnPerm, show (2 * x + 1) % 2 = 1 by omega, show (2 * x + 1) / 2 = x by omega, Nat.one_mul]
  have hk := k.isLt
  have hl := l.isLt
  refine ⟨?_, ?_, ?_, ?_⟩ <;> show mcnTemp d g r _ _ = _
  · simp only [p0, mcnTemp, if_pos hk, if_pos hl]
    norm_num; ring
  · simp only [p0, p1, mcnTemp, if_pos hk, if_neg (show ¬ d + l.val < d by omega), Nat.add_sub_cancel_left]
    norm_num; ring
  · simp only [p0, p1, mcnTemp, if_pos hl, if_neg (show ¬ d + k.val < d by omega), Nat.add_sub_cancel_left]
    norm_num; ring
  · simp only [p1, mcnTemp, if_neg (show ¬ d + l.val < d by omega), if_neg (show ¬ d + k.val < d by omega), Nat.add_sub_cancel_left]
    norm_num; ring

/-- C74: with any factor of the assembled matrix the draw has mean `loc`, and
`E[(Z_k - loc_k) conj(Z_l - loc_l)] = gamma[k, l]`, `E[(Z_k - loc_k) (Z_l - loc_l)] = relation[k, l]`, written out in real
and imaginary parts. -/
theorem C74_moments {Ω : Type} [MeasurableSpace Ω] {μ : Measure Ω} [IsProbabilityMeasure μ] (z : Ω → Fin (2 * d) → ℝ) (hz : ∀ a, MemLp (fun ω => z ω a) 2 μ)
    (hm : ∀ a, ∫ ω, z ω a ∂μ = 0) (hc : ∀ a b, cov[fun ω => z ω a, fun ω => z ω b; μ] = if a = b then 1 else 0)
    (loc : Nat → ℂ) (g r : Nat → Nat → ℂ) (F : Matrix (Fin (2 * d)) (Fin (2 * d)) ℝ) (hF : F.transpose * F = mcnCov d g r) (k l : Fin d) :
    let X := fun (k : Fin d) ω => (mcnDraw loc F (z ω) k).re
    let Y := fun (k : Fin d) ω => (mcnDraw loc F (z ω) k).im
    ∫ ω, X k ω ∂μ = (loc k).re ∧ ∫ ω, Y k ω ∂μ = (loc k).im ∧
    cov[X k, X l; μ] + cov[Y k, Y l; μ] = (g k l).re ∧ cov[Y k, X l; μ] - cov[X k, Y l; μ] = (g k l).im ∧
    cov[X k, X l; μ] - cov[Y k, Y l; μ] = (r k l).re ∧ cov[Y k, X l; μ] + cov[X k, Y l; μ] = (r k l).im := by
  intro X Y
  obtain ⟨e1, e2, e3, e4⟩ := mcnCov_entries g r k l
  have C := fun a b => (C72_moments z hz hm hc (mcnLoc loc) F a b)
  have c1 : cov[X k, X l; μ] = (g k l + r k l).re / 2 := by rw [← e1, ← hF]; exact (C _ _).2
  have c2 : cov[X k, Y l; μ] = (r k l - g k l).im / 2 := by rw [← e2, ← hF]; exact (C _ _).2
  have c3 : cov[Y k, X l; μ] = (g k l + r k l).im / 2 := by rw [← e3, ← hF]; exact (C _ _).2
  have c4 : cov[Y k, Y l; μ] = (g k l - r k l).re / 2 := by rw [← e4, ← hF]; exact (C _ _).2
  have m0 : mcnLoc (d := d) loc ⟨2 * k.val, by omega⟩ = (loc k).re := by
    rw [mcnLoc, if_pos (show 2 * k.val % 2 = 0 by omega)]; simp
  have m1 : mcnLoc (d := d) loc ⟨2 * k.val + 1, by omega⟩ = (loc k).im := by
    rw [mcnLoc, if_neg (show ¬ (2 * k.val + 1) % 2 = 0 by omega)]
    simp only [show (2 * k.val + 1) / 2 = k.val by omega]
  rw [c1, c2, c3, c4, ← m0, ← m1]
  simp only [Complex.add_re, Complex.sub_re, Complex.add_im, Complex.sub_im]
  exact ⟨(C _ ⟨0, by have := k.isLt; omega⟩).1, (C _ ⟨0, by have := k.isLt; omega⟩).1, by ring, by ring, by ring, by ring⟩

/-- C74: the assembled matrix is symmetric, as a covariance must be, exactly when `gamma` is Hermitian and `relation`
symmetric. -/
theorem C74_symmetric_iff (g r : Nat → Nat → ℂ) : (mcnCov d g r).transpose = mcnCov d g r ↔
    ∀ k l : Fin d, g l k = starRingEnd ℂ (g k l) ∧ r l k = r k l := by
  constructor
  · intro h k l
    have h := fun a b => congrFun (congrFun h a) b
    obtain ⟨e1, e2, e3, e4⟩ := mcnCov_entries g r k l
    obtain ⟨f1, f2, f3, f4⟩ := mcnCov_entries g r l k
    have h1 := h ⟨2 * k.val, by omega⟩ ⟨2 * l.val, by omega⟩
    have h2 := h ⟨2 * k.val, by omega⟩ ⟨2 * l.val + 1, by omega⟩
    have h3 := h ⟨2 * k.val + 1, by omega⟩ ⟨2 * l.val, by omega⟩
    have h4 := h ⟨2 * k.val + 1, by omega⟩ ⟨2 * l.val + 1, by omega⟩
    rw [Matrix.transpose_apply] at h1 h2 h3 h4
    rw [e1, f1, Complex.add_re, Complex.add_re] at h1
    rw [e2, f3, Complex.add_im, Complex.sub_im] at h2
    rw [e3, f2, Complex.add_im, Complex.sub_im] at h3
    rw [e4, f4, Complex.sub_re, Complex.sub_re] at h4
    refine ⟨Complex.ext ?_ ?_, Complex.ext ?_ ?_⟩
    · rw [Complex.conj_re]; linarith
    · rw [Complex.conj_im]; linarith
    · linarith
    · linarith
  · intro h
    ext a b
    rw [Matrix.transpose_apply]
    have key : ∀ a : Fin (2 * d), ∃ k : Fin d, a = ⟨2 * k.val, by omega⟩ ∨ a = ⟨2 * k.val + 1, by omega⟩ := fun a =>
      ⟨⟨a.val / 2, by omega⟩, by simp only [Fin.ext_iff]; omega⟩
    obtain ⟨k, hk⟩ := key a
    obtain ⟨l, hl⟩ := key b
    obtain ⟨e1, e2, e3, e4⟩ := mcnCov_entries g r k l
    obtain ⟨f1, f2, f3, f4⟩ := mcnCov_entries g r l k
    obtain ⟨hg, hr⟩ := h k l
    rcases hk with rfl | rfl <;> rcases hl with rfl | rfl
    · rw [e1, f1, hg, hr]; simp
    · rw [e2, f3, hg, hr]; simp; ring
    · rw [e3, f2, hg, hr]; simp; ring
    · rw [e4, f4, hg, hr]; simp

/-- Parameters with a factor: the standard complex normal of any dimension. -/
example : (Matrix.of fun (a b : Fin (2 * d)) => if a = b then √(1 / 2 : ℝ) else 0).transpose * (Matrix.of fun (a b : Fin (2 * d)) => if a = b then √(1 / 2 : ℝ) else 0) =
    mcnCov d (fun k l => if k = l then 1 else 0) 0 := by
  ext a b
  rw [Matrix.mul_apply]
  simp only [Matrix.transpose_apply, Matrix.of_apply, ite_mul, zero_mul, Finset.sum_ite_eq', Finset.mem_univ, if_true]
  have key : ∀ a : Fin (2 * d), ∃ k : Fin d, a = ⟨2 * k.val, by omega⟩ ∨ a = ⟨2 * k.val + 1, by omega⟩ := fun a =>
    ⟨⟨a.val / 2, by omega⟩, by simp only [Fin.ext_iff]; omega⟩
  obtain ⟨k, hk⟩ := key a
  obtain ⟨l, hl⟩ := key b
  obtain ⟨e1, e2, e3, e4⟩ := mcnCov_entries (fun k l => if k = l then 1 else 0) 0 k l
  have hs : √(1 / 2 : ℝ) * √(1 / 2) = 1 / 2 := Real.mul_self_sqrt (by norm_num)
  have h2 : ∀ p : Prop, [Decidable p] → (if p then (1 : ℂ) else 0).im = 0 := fun p _ => by split <;> simp
  have h3 : ∀ p : Prop, [Decidable p] → (if p then (1 : ℂ) else 0).re = if p then 1 else 0 := fun p _ => by split <;> simp
  rcases hk with rfl | rfl <;> rcases hl with rfl | rfl
  · rw [e1]
    simp only [Fin.mk.injEq, Pi.zero_apply, add_zero, h3]
    by_cases h : k.val = l.val
    · simp only [h, if_true, hs]
    · rw [if_neg (by omega), if_neg h]; simp
  · rw [e2]
    simp only [Fin.mk.injEq, Pi.zero_apply, zero_sub, Complex.neg_im, h2]
    rw [if_neg (by omega)]; simp
  · rw [e3]
    simp only [Fin.mk.injEq, Pi.zero_apply, add_zero, h2]
    rw [if_neg (by omega)]; simp
  · rw [e4]
    simp only [Fin.mk.injEq, Pi.zero_apply, sub_zero, h3]
    by_cases h : k.val = l.val
    · simp only [h, if_true, hs]
    · rw [if_neg (by omega), if_neg h]; simp

end
end Verif
