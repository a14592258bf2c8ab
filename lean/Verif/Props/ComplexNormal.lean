import Verif.Model.ComplexNormal
import Verif.Props.Broadcast
import Mathlib.Probability.Moments.Covariance
import Mathlib.Probability.Distributions.Gaussian.Real
import Mathlib.Algebra.BigOperators.Intervals
import Mathlib.Algebra.Order.BigOperators.Ring.Finset
import Mathlib.Tactic.Linarith
import Mathlib.Tactic.LinearCombination
import Mathlib.Tactic.NormNum

/-! Property C69: `complex_normal` has the documented moments, and validates scalars and arrays alike. -/

namespace Verif
open MeasureTheory ProbabilityTheory

/-- The documented covariance of real and imaginary part is a covariance matrix: its quadratic form is nowhere negative. -/
def CnPsd (gamma relation : ℂ) : Prop :=
  ∀ a b : ℝ, 0 ≤ a ^ 2 * ((gamma + relation).re / 2) + 2 * a * b * (relation.im / 2) + b ^ 2 * ((gamma - relation).re / 2)

/-- A symmetric two by two matrix is positive semidefinite iff its diagonal and its determinant are not negative. -/
theorem psd2 (p q c : ℝ) : (∀ a b : ℝ, 0 ≤ a ^ 2 * p + 2 * a * b * c + b ^ 2 * q) ↔ 0 ≤ p ∧ 0 ≤ q ∧ c ^ 2 ≤ p * q := by
  constructor
  · intro h
    have hp : 0 ≤ p := by have := h 1 0; linarith
    have hq : 0 ≤ q := by have := h 0 1; linarith
    refine ⟨hp, hq, ?_⟩
    by_contra hc
    have hc : p * q < c ^ 2 := not_lt.1 (fun h => hc (le_of_lt h)) |>.lt_of_ne (fun e => hc (le_of_eq e.symm)) 
    rcases hp.lt_or_eq with hp' | hp'
    · have h1 := h c (-p)
      have : c ^ 2 * p + 2 * c * -p * c + (-p) ^ 2 * q = p * (p * q - c ^ 2) := by ring
      rw [this] at h1
      have := mul_neg_of_pos_of_neg hp' (sub_neg.2 hc)
      linarith
    · rw [← hp'] at hc
      have h1 := h (-(q + 1)) c
      rw [← hp'] at h1
      have : (-(q + 1)) ^ 2 * 0 + 2 * -(q + 1) * c * c + c ^ 2 * q = -(c ^ 2 * (q + 2)) := by ring
      rw [this] at h1
      have : 0 < c ^ 2 * (q + 2) := mul_pos (by linarith) (by linarith)
      linarith
  · rintro ⟨hp, hq, hc⟩ a b
    rcases hp.lt_or_eq with hp' | hp'
    · have : 0 ≤ p * (a ^ 2 * p + 2 * a * b * c + b ^ 2 * q) := by
        have e : p * (a ^ 2 * p + 2 * a * b * c + b ^ 2 * q) = (a * p + b * c) ^ 2 + b ^ 2 * (p * q - c ^ 2) := by ring
        rw [e]
        exact add_nonneg (sq_nonneg _) (mul_nonneg (sq_nonneg _) (by linarith))
      exact nonneg_of_mul_nonneg_right this hp'
    · rw [← hp'] at hc ⊢
      have : c = 0 := by
        have : c ^ 2 ≤ 0 := by linarith
        exact pow_eq_zero_iff (two_ne_zero) |>.1 (le_antisymm this (sq_nonneg c))
      rw [this]
      have := mul_nonneg (sq_nonneg b) hq
      linarith

theorem rho_le_one {c v : ℝ} (hv : 0 < v) : |c / √v| ≤ 1 ↔ c ^ 2 ≤ v := by
  have hs : 0 < √v := Real.sqrt_pos.2 hv
  rw [abs_div, abs_of_pos hs, div_le_one hs, Real.le_sqrt (abs_nonneg _) hv.le, sq_abs]

theorem ite_ok {ε α : Type} {c : Prop} [Decidable c] {e : ε} {x : Except ε α} {y : α} :
    (if c then .error e else x) = Except.ok y ↔ ¬ c ∧ x = .ok y := by
  split
  · exact ⟨fun h => (nomatch h), fun h => absurd (by assumption) h.1⟩
  · exact ⟨fun h => ⟨by assumption, h⟩, fun h => h.2⟩

/-- `cnElement` as a list of conditions. -/
theorem cnElement_ok {gamma relation : ℂ} {varR varI rho : ℝ} : cnElement gamma relation = .ok (varR, varI, rho) ↔
    varR = (gamma + relation).re / 2 ∧ varI = (gamma - relation).re / 2 ∧ gamma.im = 0 ∧ 0 ≤ varR ∧ 0 ≤ varI ∧
      (relation.im / 2) ^ 2 ≤ varR * varI ∧ rho = if varR > 0 ∧ varI > 0 then relation.im / 2 / √(varR * varI) else 0 := by
  rw [cnElement]
  have e1 : (0.5 : ℝ) * (gamma + relation).re = (gamma + relation).re / 2 := by norm_num; ring
  have e2 : (0.5 : ℝ) * (gamma - relation).re = (gamma - relation).re / 2 := by norm_num; ring
  have e3 : (0.5 : ℝ) * relation.im = relation.im / 2 := by norm_num; ring
  simp only [ite_ok, Except.ok.injEq, Prod.mk.injEq, e1, e2, e3]
  generalize (gamma + relation).re / 2 = p
  generalize (gamma - relation).re / 2 = q
  generalize relation.im / 2 = c
  have key : 0 ≤ p → 0 ≤ q → (¬ ((¬ (p > 0 ∧ q > 0) ∧ c ≠ 0) ∨ |if p > 0 ∧ q > 0 then c / √(p * q) else 0| > 1) ↔ c ^ 2 ≤ p * q) := by
    intro hp hq
    by_cases hpq : p > 0 ∧ q > 0
    · rw [if_pos hpq, ← rho_le_one (mul_pos hpq.1 hpq.2)]
      simp [hpq]
    · have : p * q = 0 := by
        rcases not_and_or.1 hpq with h | h
        · rw [le_antisymm (not_lt.1 h) hp, zero_mul]
        · rw [le_antisymm (not_lt.1 h) hq, mul_zero]
      rw [if_neg hpq, this]
      constructor
      · intro h
        have hc : c = 0 := by
          by_contra hc
          exact h (.inl ⟨hpq, hc⟩)
        rw [hc]; norm_num
      · intro h hn
        have hc : c = 0 := pow_eq_zero_iff (two_ne_zero) |>.1 (le_antisymm h (sq_nonneg c))
        rcases hn with hn | hn
        · exact hn.2 hc
        · rw [abs_zero] at hn; linarith
  constructor
  · rintro ⟨h1, h2, h3, h4, rfl, rfl, rfl⟩
    exact ⟨rfl, rfl, not_not.1 h3, not_lt.1 h1, not_lt.1 h2, (key (not_lt.1 h1) (not_lt.1 h2)).1 h4, rfl⟩
  · rintro ⟨rfl, rfl, h1, h2, h3, h4, rfl⟩
    exact ⟨not_lt.2 h2, not_lt.2 h3, not_not.2 h1, (key h2 h3).2 h4, rfl, rfl, rfl⟩

/-- C69: element `(gamma, relation)` of array parameters is accepted exactly when the variance is real and the documented
covariance matrix is one. -/
theorem C69_element_iff (gamma relation : ℂ) : (∃ v, cnElement gamma relation = .ok v) ↔ gamma.im = 0 ∧ CnPsd gamma relation := by
  rw [CnPsd, psd2]
  constructor
  · rintro ⟨⟨a, b, c⟩, h⟩
    obtain ⟨rfl, rfl, h1, h2, h3, h4, -⟩ := cnElement_ok.1 h
    exact ⟨h1, h2, h3, h4⟩
  · rintro ⟨h1, h2, h3, h4⟩
    exact ⟨_, cnElement_ok.2 ⟨rfl, rfl, h1, h2, h3, h4, rfl⟩⟩

/-- `cnScalar` as a list of conditions. -/
theorem cnScalar_ok {gamma relation : ℂ} {varR varI rho : ℝ} : cnScalar gamma relation = .ok (varR, varI, rho) ↔
    varR = (gamma + relation).re / 2 ∧ varI = (gamma - relation).re / 2 ∧ gamma.im = 0 ∧ 0 ≤ varR ∧ 0 ≤ varI ∧
      ((relation.im / 2) ^ 2 ≤ varR * varI ∨ varR * varI = 0) ∧ rho = if varR > 0 ∧ varI > 0 then relation.im / 2 / √(varR * varI) else 0 := by
  rw [cnScalar]
  have e1 : (0.5 : ℝ) * (gamma.re + relation.re) = (gamma + relation).re / 2 := by rw [Complex.add_re]; norm_num; ring
  have e2 : (0.5 : ℝ) * (gamma.re - relation.re) = (gamma - relation).re / 2 := by rw [Complex.sub_re]; norm_num; ring
  have e3 : (0.5 : ℝ) * relation.im = relation.im / 2 := by norm_num; ring
  simp only [ite_ok, Except.ok.injEq, Prod.mk.injEq, e1, e2, e3]
  generalize (gamma + relation).re / 2 = p
  generalize (gamma - relation).re / 2 = q
  generalize relation.im / 2 = c
  rw [mul_comm q p]
  simp only [and_comm (a := q > 0)]
  have habs : ∀ x : ℝ, ¬ (x > 1 ∨ x < -1) ↔ |x| ≤ 1 := fun x => by
    rw [abs_le, not_or, not_lt, not_lt]; exact and_comm
  simp only [habs]
  have key : 0 ≤ p → 0 ≤ q → (|if p > 0 ∧ q > 0 then c / √(p * q) else 0| ≤ 1 ↔ c ^ 2 ≤ p * q ∨ p * q = 0) := by
    intro hp hq
    by_cases hpq : p > 0 ∧ q > 0
    · rw [if_pos hpq, rho_le_one (mul_pos hpq.1 hpq.2)]
      exact ⟨.inl, fun h => h.elim id fun h => absurd h (mul_pos hpq.1 hpq.2).ne'⟩
    · have : p * q = 0 := by
        rcases not_and_or.1 hpq with h | h
        · rw [le_antisymm (not_lt.1 h) hp, zero_mul]
        · rw [le_antisymm (not_lt.1 h) hq, mul_zero]
      rw [if_neg hpq]
      exact ⟨fun _ => .inr this, fun _ => by rw [abs_zero]; norm_num⟩
  constructor
  · rintro ⟨h1, h2, h3, h4, rfl, rfl, rfl⟩
    exact ⟨rfl, rfl, not_not.1 h1, not_lt.1 h3, not_lt.1 h2, (key (not_lt.1 h3) (not_lt.1 h2)).1 h4, rfl⟩
  · rintro ⟨rfl, rfl, h1, h2, h3, h4, rfl⟩
    exact ⟨not_not.2 h1, not_lt.2 h3, not_lt.2 h2, (key h2 h3).2 h4, rfl, rfl, rfl⟩

/-- C69: scalar parameters are accepted exactly under the same conditions, except that the determinant is only looked at
when both variances are positive. -/
theorem C69_scalar_iff (gamma relation : ℂ) : (∃ v, cnScalar gamma relation = .ok v) ↔
    gamma.im = 0 ∧ (CnPsd gamma relation ∨ (0 ≤ (gamma + relation).re ∧ 0 ≤ (gamma - relation).re ∧ (gamma + relation).re * (gamma - relation).re = 0)) := by
  rw [CnPsd, psd2]
  constructor
  · rintro ⟨⟨a, b, c⟩, h⟩
    obtain ⟨rfl, rfl, h1, h2, h3, h4, -⟩ := cnScalar_ok.1 h
    refine ⟨h1, h4.imp (fun h => ⟨h2, h3, h⟩) fun h => ⟨by linarith, by linarith, by linear_combination 4 * h⟩⟩
  · rintro ⟨h1, ⟨h2, h3, h4⟩ | ⟨h2, h3, h4⟩⟩
    · exact ⟨_, cnScalar_ok.2 ⟨rfl, rfl, h1, h2, h3, .inl h4, rfl⟩⟩
    · exact ⟨_, cnScalar_ok.2 ⟨rfl, rfl, h1, by linarith, by linarith, .inr (by linear_combination h4 / 4), rfl⟩⟩

/-- What `compute_complex` does to two uncorrelated standardised variables. -/
theorem computeComplex_cov {Ω : Type} [MeasurableSpace Ω] (μ : Measure Ω) [IsProbabilityMeasure μ] (X Y : Ω → ℝ) (hX : MemLp X 2 μ) (hY : MemLp Y 2 μ)
    (mX : ∫ ω, X ω ∂μ = 0) (mY : ∫ ω, Y ω ∂μ = 0) (vX : cov[X, X; μ] = 1) (vY : cov[Y, Y; μ] = 1) (cXY : cov[X, Y; μ] = 0)
    (locR locI varR varI rho : ℝ) (hr : 0 ≤ varR) (hi : 0 ≤ varI) (hrho : rho * rho ≤ 1) :
    let re := fun ω => (computeComplex (X ω) (Y ω) locR locI varR varI rho).1
    let im := fun ω => (computeComplex (X ω) (Y ω) locR locI varR varI rho).2
    ∫ ω, re ω ∂μ = locR ∧ ∫ ω, im ω ∂μ = locI ∧ cov[re, re; μ] = varR ∧ cov[im, im; μ] = varI ∧ cov[re, im; μ] = rho * (√varR * √varI) := by
  intro re im
  have h12 : (1 : ENNReal) ≤ 2 := by norm_num
  have iX : Integrable X μ := hX.integrable h12
  have iY : Integrable Y μ := hY.integrable h12
  have cYX : cov[Y, X; μ] = 0 := by rw [covariance_comm, cXY]
  -- `im` as a combination of the two variables
  let U : Ω → ℝ := fun ω => √varR * X ω
  let V : Ω → ℝ := (fun ω => √varI * rho * X ω) + fun ω => √varI * √(1 - rho * rho) * Y ω
  have hA : ∀ c : ℝ, MemLp (fun ω => c * X ω) 2 μ := fun c => hX.const_mul c
  have hB : ∀ c : ℝ, MemLp (fun ω => c * Y ω) 2 μ := fun c => hY.const_mul c
  have hU : MemLp U 2 μ := hA _
  have hV : MemLp V 2 μ := (hA _).add (hB _)
  have eRe : re = fun ω => locR + U ω := rfl
  have eIm : im = fun ω => locI + V ω := by
    funext ω
    show locI + √varI * (rho * X ω + √(1 - rho * rho) * Y ω) = locI + (√varI * rho * X ω + √varI * √(1 - rho * rho) * Y ω)
    ring
  have iU := hU.integrable h12
  have iV := hV.integrable h12
  have sR := Real.mul_self_sqrt hr
  have sI := Real.mul_self_sqrt hi
  have sC := Real.mul_self_sqrt (sub_nonneg.2 hrho)
  refine ⟨?_, ?_, ?_, ?_, ?_⟩
  · rw [eRe, integral_add (integrable_const _) iU, integral_const_mul, mX]
    simp
  · have hVm : ∫ ω, V ω ∂μ = 0 := by
      show ∫ ω, (√varI * rho * X ω + √varI * √(1 - rho * rho) * Y ω) ∂μ = 0
      rw [integral_add ((hA _).integrable h12) ((hB _).integrable h12), integral_const_mul, integral_const_mul, mX, mY]
      ring
    rw [eIm, integral_add (integrable_const _) iV, hVm]
    simp
  · rw [eRe, covariance_const_add_left iU, covariance_const_add_right iU, covariance_const_mul_left, covariance_const_mul_right, vX]
    linear_combination sR
  · rw [eIm, covariance_const_add_left iV, covariance_const_add_right iV, covariance_add_left (hA _) (hB _) hV, covariance_add_right (hA _) (hA _) (hB _),
      covariance_add_right (hB _) (hA _) (hB _)]
    simp only [covariance_const_mul_left, covariance_const_mul_right, vX, vY, cXY, cYX]
    linear_combination (rho * rho) * sI + √varI * √varI * sC + (1 - rho * rho) * sI
  · rw [eRe, eIm, covariance_const_add_left iU, covariance_const_add_right iV, covariance_add_right hU (hA _) (hB _)]
    simp only [U, covariance_const_mul_left, covariance_const_mul_right, vX, cXY]
    ring

/-- C69: drawn from two uncorrelated standard normals, an accepted array element has mean `loc`, variances
`Re(gamma ± relation) / 2` and covariance `Im(relation) / 2`, as documented. -/
theorem C69_covariance {Ω : Type} [MeasurableSpace Ω] (μ : Measure Ω) [IsProbabilityMeasure μ] (X Y : Ω → ℝ) (hX : MemLp X 2 μ) (hY : MemLp Y 2 μ)
    (mX : ∫ ω, X ω ∂μ = 0) (mY : ∫ ω, Y ω ∂μ = 0) (vX : cov[X, X; μ] = 1) (vY : cov[Y, Y; μ] = 1) (cXY : cov[X, Y; μ] = 0)
    (loc gamma relation : ℂ) (varR varI rho : ℝ) (h : cnElement gamma relation = .ok (varR, varI, rho)) :
    let re := fun ω => (computeComplex (X ω) (Y ω) loc.re loc.im varR varI rho).1
    let im := fun ω => (computeComplex (X ω) (Y ω) loc.re loc.im varR varI rho).2
    ∫ ω, re ω ∂μ = loc.re ∧ ∫ ω, im ω ∂μ = loc.im ∧ cov[re, re; μ] = (gamma + relation).re / 2 ∧ cov[im, im; μ] = (gamma - relation).re / 2 ∧
      cov[re, im; μ] = relation.im / 2 := by
  obtain ⟨rfl, rfl, -, hp, hq, hc, rfl⟩ := cnElement_ok.1 h
  generalize (gamma + relation).re / 2 = p at *
  generalize (gamma - relation).re / 2 = q at *
  generalize relation.im / 2 = c at *
  have hz : ¬ (p > 0 ∧ q > 0) → p * q = 0 := fun hpq => by
    rcases not_and_or.1 hpq with h | h
    · rw [le_antisymm (not_lt.1 h) hp, zero_mul]
    · rw [le_antisymm (not_lt.1 h) hq, mul_zero]
  have := computeComplex_cov μ X Y hX hY mX mY vX vY cXY loc.re loc.im p q (if p > 0 ∧ q > 0 then c / √(p * q) else 0) hp hq (by
    by_cases hpq : p > 0 ∧ q > 0
    · have := mul_self_le_mul_self (abs_nonneg _) ((rho_le_one (mul_pos hpq.1 hpq.2)).2 hc)
      rw [if_pos hpq]
      rwa [abs_mul_abs_self, one_mul] at this
    · rw [if_neg hpq]; norm_num)
  refine ⟨this.1, this.2.1, this.2.2.1, this.2.2.2.1, this.2.2.2.2.trans ?_⟩
  by_cases hpq : p > 0 ∧ q > 0
  · rw [if_pos hpq, ← Real.sqrt_mul hp, div_mul_cancel₀]
    exact (Real.sqrt_pos.2 (mul_pos hpq.1 hpq.2)).ne'
  · rw [if_neg hpq, zero_mul]
    rw [hz hpq] at hc
    exact (pow_eq_zero_iff two_ne_zero |>.1 (le_antisymm hc (sq_nonneg c))).symm

/-- C69 for scalar parameters: as documented when neither variance is zero. Missing: a zero variance, where the code does
not look at the relation (`not_C69_scalar_degenerate`). -/
theorem C69_scalar_partial {gamma relation : ℂ} (h1 : (gamma + relation).re ≠ 0) (h2 : (gamma - relation).re ≠ 0) (v : ℝ × ℝ × ℝ) :
    cnScalar gamma relation = .ok v ↔ cnElement gamma relation = .ok v := by
  obtain ⟨a, b, c⟩ := v
  rw [cnScalar_ok, cnElement_ok]
  constructor
  · rintro ⟨rfl, rfl, h3, h4, h5, h6 | h6, h7⟩
    · exact ⟨rfl, rfl, h3, h4, h5, h6, h7⟩
    · exact absurd h6 (mul_ne_zero (div_ne_zero h1 two_ne_zero) (div_ne_zero h2 two_ne_zero))
  · rintro ⟨rfl, rfl, h3, h4, h5, h6, h7⟩
    exact ⟨rfl, rfl, h3, h4, h5, .inl h6, h7⟩

/-- The same parameters in an array are refused, and no complex variable has these moments. -/
theorem not_C69_scalar_degenerate : (∃ v, cnScalar 1 (1 + Complex.I) = .ok v) ∧ (∀ v, cnElement 1 (1 + Complex.I) ≠ .ok v) ∧ ¬ CnPsd 1 (1 + Complex.I) := by
  have hn : ¬ CnPsd 1 (1 + Complex.I) := by
    rw [CnPsd, psd2]
    rintro ⟨-, -, h⟩
    norm_num at h
  refine ⟨(C69_scalar_iff _ _).2 ⟨by simp, .inr ⟨by norm_num, by norm_num, by norm_num⟩⟩, fun v h => ?_, hn⟩
  exact hn ((C69_element_iff _ _).1 ⟨v, h⟩).2

/-- What the scalar path then draws has covariance zero, not the documented one half. -/
theorem not_C69_scalar_covariance {Ω : Type} [MeasurableSpace Ω] (μ : Measure Ω) [IsProbabilityMeasure μ] (X Y : Ω → ℝ) (hX : MemLp X 2 μ) (hY : MemLp Y 2 μ)
    (mX : ∫ ω, X ω ∂μ = 0) (mY : ∫ ω, Y ω ∂μ = 0) (vX : cov[X, X; μ] = 1) (vY : cov[Y, Y; μ] = 1) (cXY : cov[X, Y; μ] = 0) (varR varI rho : ℝ)
    (h : cnScalar 1 (1 + Complex.I) = .ok (varR, varI, rho)) :
    cov[fun ω => (computeComplex (X ω) (Y ω) 0 0 varR varI rho).1, fun ω => (computeComplex (X ω) (Y ω) 0 0 varR varI rho).2; μ] = 0 ∧
      (1 + Complex.I).im / 2 = 1 / 2 := by
  obtain ⟨rfl, rfl, -, h1, h2, -, rfl⟩ := cnScalar_ok.1 h
  refine ⟨(computeComplex_cov μ X Y hX hY mX mY vX vY cXY 0 0 _ _ _ h1 h2 ?_).2.2.2.2.trans ?_, by norm_num⟩
  · rw [if_neg (by norm_num)]; norm_num
  · rw [if_neg (by norm_num), zero_mul]

theorem prod_dimR (x : List Nat) {n : Nat} (h : x.length ≤ n) : x.prod = ∏ i ∈ Finset.range n, dimR x i := by
  rw [← List.prod_reverse]
  simp only [dimR]
  rw [← List.length_reverse] at h
  generalize x.reverse = y at h
  induction y generalizing n with
  | nil => simp
  | cons a y ih =>
    obtain ⟨m, rfl⟩ : ∃ m, n = m + 1 := ⟨n - 1, by rw [List.length_cons] at h; omega⟩
    rw [Finset.prod_range_succ', List.prod_cons, ih (by simpa using h)]
    simp [mul_comm]

/-- C69: with non-empty arrays, the mask fits exactly when `gamma` does not extend the shape of `relation`; every other
pair of shapes that NumPy can broadcast ends in an exception, whatever the values. -/
theorem C69_mask_iff (gs rs bs : List Nat) (h : NpBroadcast gs rs bs) (h0 : ∀ i, 0 < dimR gs i ∧ 0 < dimR rs i) :
    cnMask rs.prod bs.prod = some () ↔ ∀ i, dimR gs i = 1 ∨ dimR gs i = dimR rs i := by
  have h1 : cnMask rs.prod bs.prod = some () ↔ bs.prod ≤ rs.prod := by
    rw [cnMask]
    split <;> simp <;> omega
  rw [h1, prod_dimR bs (n := bs.length) le_rfl, prod_dimR rs (n := bs.length) (by rw [h.1]; exact le_max_right _ _)]
  have hle : ∀ i, dimR rs i ≤ dimR bs i := fun i => by
    rw [(h.2 i).2]
    have := (h.2 i).1
    have := h0 i
    split <;> omega
  constructor
  · intro hp i
    rcases lt_or_ge i bs.length with hi | hi
    · by_contra hne
      have hlt : dimR rs i < dimR bs i := by
        rw [(h.2 i).2]
        have := (h.2 i).1
        have := h0 i
        split <;> omega
      exact absurd hp (not_le.2 (Finset.prod_lt_prod (fun j _ => (h0 j).2) (fun j _ => hle j) ⟨i, Finset.mem_range.2 hi, hlt⟩))
    · left
      have : gs.length ≤ i := le_trans (le_trans (le_max_left _ _) (le_of_eq h.1.symm)) hi
      rw [dimR, List.getD_eq_default]
      simpa using this
  · intro hd
    apply le_of_eq
    refine Finset.prod_congr rfl fun i _ => ?_
    rw [(h.2 i).2]
    have := hd i
    split <;> omega

/-- `complex_normal(gamma=[1, 2])` with the default scalar relation, a documented call, is refused. -/
theorem not_C69_gamma_array : NpBroadcast [2] [] [2] ∧ cnMask ([] : List Nat).prod [2].prod = none :=
  ⟨(C50_numpy_rule _ _ _ (by decide) (by decide)).1 (by decide), by decide⟩

example : ∀ i, 0 < dimR [2, 1] i ∧ 0 < dimR [2, 3] i := fun i => by
  match i with
  | 0 => decide
  | 1 => decide
  | _ + 2 => simp [dimR]

example : ∃ v, cnElement 2 (1 + Complex.I) = .ok v := (C69_element_iff _ _).2 ⟨by simp, (psd2 _ _ _).2 ⟨by norm_num, by norm_num, by norm_num⟩⟩

example : ∃ v, cnScalar 2 (1 + Complex.I) = .ok v := (C69_scalar_iff _ _).2 ⟨by simp, .inl ((psd2 _ _ _).2 ⟨by norm_num, by norm_num, by norm_num⟩)⟩

/-- Variables as in `C69_covariance`: two independent standard normals. -/
example : let μ := (gaussianReal 0 1).prod (gaussianReal 0 1)
    IsProbabilityMeasure μ ∧ MemLp Prod.fst 2 μ ∧ MemLp Prod.snd 2 μ ∧ ∫ ω, ω.1 ∂μ = 0 ∧ ∫ ω, ω.2 ∂μ = 0 ∧
    cov[Prod.fst, Prod.fst; μ] = 1 ∧ cov[Prod.snd, Prod.snd; μ] = 1 ∧ cov[Prod.fst, Prod.snd; μ] = 0 := by
  intro μ
  have hL : MemLp (fun x : ℝ => x) 2 (gaussianReal 0 1) := memLp_id_gaussianReal' 2 (by simp)
  have h1 : MemLp (fun ω : ℝ × ℝ => ω.1) 2 μ := hL.comp_fst (gaussianReal 0 1)
  have h2 : MemLp (fun ω : ℝ × ℝ => ω.2) 2 μ := hL.comp_snd (gaussianReal 0 1)
  have m1 : ∫ ω, ω.1 ∂μ = 0 := by
    rw [integral_fun_fst (fun x : ℝ => x), integral_id_gaussianReal]; simp
  have m2 : ∫ ω, ω.2 ∂μ = 0 := by
    rw [integral_fun_snd (fun x : ℝ => x), integral_id_gaussianReal]; simp
  have v : ∫ x, x ^ 2 ∂(gaussianReal 0 1) = 1 := by
    have := variance_fun_id_gaussianReal (μ := 0) (v := 1)
    rwa [variance_of_integral_eq_zero (by fun_prop) integral_id_gaussianReal] at this
  refine ⟨inferInstance, h1, h2, m1, m2, ?_, ?_, ?_⟩
  · rw [covariance_self (by fun_prop), variance_of_integral_eq_zero (by fun_prop) m1, integral_fun_fst (fun x : ℝ => x ^ 2), v]; simp
  · rw [covariance_self (by fun_prop), variance_of_integral_eq_zero (by fun_prop) m2, integral_fun_snd (fun x : ℝ => x ^ 2), v]; simp
  · exact covariance_fst_snd_prod hL hL

end Verif
