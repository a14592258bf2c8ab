import Verif.Proof.Wishart
import Mathlib.Probability.Moments.Covariance
import Mathlib.Probability.Distributions.Gaussian.Real
import Mathlib.Probability.Independence.InfinitePi
import Mathlib.Tactic.FinCases

/-! Properties C70 (standard Wishart), C71 (Wishart with a scale matrix) and C72 (multivariate normal). -/

namespace Verif
open MeasureTheory ProbabilityTheory
noncomputable section

/-! ### C70 -/

theorem wiRowT_two (dim r : Nat) (h : r ≤ dim) : 2 * wiRowT dim r = r * (2 * dim + 1 - r) := by
  induction r with
  | zero => simp [wiRowT]
  | succ r ih =>
    rw [wiRowT, Finset.sum_range_succ, ← wiRowT, Nat.mul_add, ih (by omega)]
    obtain ⟨e, rfl⟩ : ∃ e, dim = r + 1 + e := ⟨dim - (r + 1), by omega⟩
    rw [show 2 * (r + 1 + e) + 1 - r = r + 2 * e + 3 by omega, show 2 * (r + 1 + e) + 1 - (r + 1) = r + 2 * e + 2 by omega, show r + 1 + e - r = e + 1 by omega]
    ring

theorem wiRowT_full (dim : Nat) : wiRowT dim dim = dim * (dim + 1) / 2 := by
  have := wiRowT_two dim dim le_rfl
  rw [show 2 * dim + 1 - dim = dim + 1 by omega] at this
  omega

/-- The upper triangular matrix of Odell and Feiveson: row `r` has the root of a chi-square with `df - r` degrees of
freedom on the diagonal and standard normals to its right. Each row takes `dim - r` consecutive calls, the first of
them the chi-square; the rows start at call `t`. -/
def bartlett (chi : Nat → ℝ → ℝ) (nor : Nat → ℝ) (df : Int) (dim t r c : Nat) : ℝ :=
  if r = c then √(chi (t + ∑ q ∈ Finset.range r, (dim - q)) ((df - r : Int) : ℝ))
  else if r < c then nor (t + ∑ q ∈ Finset.range r, (dim - q) + (c - r)) else 0

theorem wiVal_bartlett (chi : Nat → ℝ → ℝ) (nor : Nat → ℝ) (df : Int) (dim t i j : Nat) (hij : i ≤ j) (hj : j < dim) (hc : ∀ t ν, 0 ≤ chi t ν) :
    wiVal chi nor df dim t i j = ∑ r ∈ Finset.range dim, bartlett chi nor df dim t r i * bartlett chi nor df dim t r j := by
  have h1 : ∑ r ∈ Finset.range dim, bartlett chi nor df dim t r i * bartlett chi nor df dim t r j =
      ∑ r ∈ Finset.range (i + 1), bartlett chi nor df dim t r i * bartlett chi nor df dim t r j := by
    symm
    apply Finset.sum_subset
    · intro x hx; rw [Finset.mem_range] at *; omega
    · intro x _ hx
      rw [Finset.mem_range] at hx
      rw [bartlett, if_neg (by omega), if_neg (by omega), zero_mul]
  rw [h1, Finset.sum_range_succ, add_comm, wiVal]
  congr 1
  · split
    · next h =>
      subst h
      rw [bartlett, if_pos rfl, Real.mul_self_sqrt (hc _ _)]; rfl
    · rw [mul_comm, bartlett, if_pos rfl, bartlett, if_neg (by omega), if_pos (by omega)]; rfl
  · refine Finset.sum_congr rfl fun r hr => ?_
    have hr := Finset.mem_range.1 hr
    rw [bartlett, if_neg (by omega), if_pos hr, bartlett, if_neg (by omega), if_pos (by omega)]; rfl

/-- C70: from any contents of the two buffers, sample `k` written by `random_wishart_large_df` is `Aᵀ A` for the triangular
matrix `A` built from its own `dim (dim + 1) / 2` calls; no cell outside the buffers is written. -/
theorem C70_large (chi : Nat → ℝ → ℝ) (nor : Nat → ℝ) (hc : ∀ t ν, 0 ≤ chi t ν) (df : Int) (dim num : Nat) (s : Wi) :
    let s' := wishartLarge chi nor df dim num s
    (∀ k < num, ∀ i < dim, ∀ j < dim, s'.w (k * (dim * dim) + i * dim + j) = ∑ r ∈ Finset.range dim,
      bartlett chi nor df dim (s.t + k * (dim * (dim + 1) / 2)) r i * bartlett chi nor df dim (s.t + k * (dim * (dim + 1) / 2)) r j) ∧
    (∀ p, num * (dim * dim) ≤ p → s'.w p = s.w p) ∧ (∀ p, dim * dim ≤ p → s'.n p = s.n p) ∧ s'.t = s.t + num * (dim * (dim + 1) / 2) := by
  intro s'
  obtain ⟨h1, h2, h3, h4⟩ := wishartLarge_spec chi nor (df := df) (dim := dim) (num := num) s
  rw [wiRowT_full] at h3
  refine ⟨fun k hk i hi j hj => ?_, h1, h2, h3⟩
  rcases Nat.le_total i j with h | h
  · rw [(h4 k hk i j h hj).1, wiRowT_full, wiVal_bartlett _ _ _ _ _ _ _ h hj hc]
  · rw [(h4 k hk j i h hi).2, wiRowT_full, wiVal_bartlett _ _ _ _ _ _ _ h hi hc]
    exact Finset.sum_congr rfl fun r _ => mul_comm _ _

/-- C70: the result is symmetric and its quadratic form is nowhere negative. -/
theorem C70_psd (chi : Nat → ℝ → ℝ) (nor : Nat → ℝ) (hc : ∀ t ν, 0 ≤ chi t ν) (df dim num : Nat) (rescale : Bool) (s : Wi) {k : Nat} (hk : k < num) :
    (∀ i < dim, ∀ j < dim, standardWishart chi nor df dim num rescale s k i j = standardWishart chi nor df dim num rescale s k j i) ∧
    ∀ a : Nat → ℝ, 0 ≤ ∑ i ∈ Finset.range dim, ∑ j ∈ Finset.range dim, a i * a j * standardWishart chi nor df dim num rescale s k i j := by
  obtain ⟨c, R, A, hc0, hA⟩ : ∃ (c : ℝ) (R : Nat) (A : Nat → Nat → ℝ), 0 ≤ c ∧ ∀ i < dim, ∀ j < dim,
      standardWishart chi nor df dim num rescale s k i j = c * ∑ r ∈ Finset.range R, A r i * A r j := by
    refine ⟨if rescale then 1 / (df : ℝ) else 1, if df < dim then df else dim, if df < dim then fun r i => nor (s.t + k * (df * dim) + r * dim + i) else
      bartlett chi nor df dim (s.t + k * (dim * (dim + 1) / 2)), ?_, ?_⟩
    · split
      · positivity
      · exact zero_le_one
    · intro i hi j hj
      by_cases hd : df < dim
      · simp only [standardWishart, if_pos hd, wishartSmall]
        cases rescale <;> simp [div_eq_inv_mul]
      · have := (C70_large chi nor hc df dim num s).1 k hk i hi j hj
        simp only [standardWishart, if_neg hd, this]
        cases rescale <;> simp [div_eq_inv_mul]
  refine ⟨fun i hi j hj => ?_, fun a => ?_⟩
  · rw [hA i hi j hj, hA j hj i hi]
    simp only [mul_comm]
  · have : ∑ i ∈ Finset.range dim, ∑ j ∈ Finset.range dim, a i * a j * standardWishart chi nor df dim num rescale s k i j =
        c * ∑ r ∈ Finset.range R, (∑ i ∈ Finset.range dim, a i * A r i) * (∑ j ∈ Finset.range dim, a j * A r j) := by
      have e : ∀ i ∈ Finset.range dim, ∀ j ∈ Finset.range dim, a i * a j * standardWishart chi nor df dim num rescale s k i j =
          c * ∑ r ∈ Finset.range R, (a i * A r i) * (a j * A r j) := by
        intro i hi j hj
        rw [hA i (Finset.mem_range.1 hi) j (Finset.mem_range.1 hj), Finset.mul_sum, Finset.mul_sum, Finset.mul_sum]
        exact Finset.sum_congr rfl fun r _ => by ring
      rw [Finset.sum_congr rfl fun i hi => Finset.sum_congr rfl fun j hj => e i hi j hj]
      simp only [← Finset.mul_sum]
      congr 1
      rw [Finset.sum_congr rfl fun i _ => Finset.sum_comm, Finset.sum_comm]
      exact Finset.sum_congr rfl fun r _ => by rw [Finset.sum_mul_sum]
    rw [this]
    exact mul_nonneg hc0 (Finset.sum_nonneg fun r _ => mul_self_nonneg _)

/-- Chi-squares with the right mean and standardised normals, uncorrelated with each other and with the roots of the
chi-squares of other calls. -/
structure WiSource {Ω : Type} [MeasurableSpace Ω] (μ : Measure Ω) (chi : Ω → Nat → ℝ → ℝ) (nor : Ω → Nat → ℝ) : Prop where
  chi_int : ∀ t ν, 0 < ν → Integrable (fun ω => chi ω t ν) μ
  chi_mean : ∀ t ν, 0 < ν → ∫ ω, chi ω t ν ∂μ = ν
  nor_int : ∀ t t', Integrable (fun ω => nor ω t * nor ω t') μ
  nor_cov : ∀ t t', ∫ ω, nor ω t * nor ω t' ∂μ = if t = t' then 1 else 0
  mix_int : ∀ t t' ν, 0 < ν → t ≠ t' → Integrable (fun ω => nor ω t * √(chi ω t' ν)) μ
  mix_cov : ∀ t t' ν, 0 < ν → t ≠ t' → ∫ ω, nor ω t * √(chi ω t' ν) ∂μ = 0

theorem wiVal_mean {Ω : Type} [MeasurableSpace Ω] {μ : Measure Ω} {chi : Ω → Nat → ℝ → ℝ} {nor : Ω → Nat → ℝ} (h : WiSource μ chi nor) (df dim t i j : Nat)
    (hij : i ≤ j) (hj : j < dim) (hd : dim ≤ df) :
    Integrable (fun ω => wiVal (chi ω) (nor ω) df dim t i j) μ ∧ ∫ ω, wiVal (chi ω) (nor ω) df dim t i j ∂μ = if i = j then (df : ℝ) else 0 := by
  have hν : (0 : ℝ) < (((df : Int) - (i : Int) : Int) : ℝ) := by
    have : (0 : Int) < (df : Int) - i := by omega
    exact_mod_cast this
  have i1 : Integrable (fun ω => if i = j then wiV (chi ω) df dim t i else wiN (nor ω) dim t i j * √(wiV (chi ω) df dim t i)) μ := by
    split
    · exact h.chi_int _ _ hν
    · exact h.mix_int _ _ _ hν (by omega)
  have i2 : ∀ r ∈ Finset.range i, Integrable (fun ω => wiN (nor ω) dim t r i * wiN (nor ω) dim t r j) μ := fun r _ => h.nor_int _ _
  have i3 := integrable_finsetSum _ i2
  refine ⟨i1.add i3, ?_⟩
  simp only [wiVal]
  rw [integral_add i1 i3, integral_finsetSum _ i2]
  simp only [wiN, h.nor_cov]
  by_cases hij' : i = j
  · subst hij'
    simp only [if_true]
    rw [show ∫ ω, wiV (chi ω) df dim t i ∂μ = (((df : Int) - (i : Int) : Int) : ℝ) from h.chi_mean _ _ hν]
    simp
  · simp only [if_neg hij']
    have e : ∀ r ∈ Finset.range i, (if t + wiRowT dim r + (i - r) = t + wiRowT dim r + (j - r) then (1 : ℝ) else 0) = 0 := by
      intro r hr
      have := Finset.mem_range.1 hr
      rw [if_neg (by omega)]
    rw [Finset.sum_congr rfl e, Finset.sum_const_zero, add_zero]
    exact h.mix_cov _ _ _ hν (by omega)

/-- C70: the expected value of every sample is `df` times the identity, and the identity with `rescale`. -/
theorem C70_mean {Ω : Type} [MeasurableSpace Ω] {μ : Measure Ω} {chi : Ω → Nat → ℝ → ℝ} {nor : Ω → Nat → ℝ} (h : WiSource μ chi nor)
    (df dim num : Nat) (hdf : 0 < df) (rescale : Bool) (s : Wi) {k : Nat} (hk : k < num) {i j : Nat} (hi : i < dim) (hj : j < dim) :
    Integrable (fun ω => standardWishart (chi ω) (nor ω) df dim num rescale s k i j) μ ∧
    ∫ ω, standardWishart (chi ω) (nor ω) df dim num rescale s k i j ∂μ = if i = j then (if rescale then 1 else (df : ℝ)) else 0 := by
  have key : Integrable (fun ω => standardWishart (chi ω) (nor ω) df dim num false s k i j) μ ∧
      ∫ ω, standardWishart (chi ω) (nor ω) df dim num false s k i j ∂μ = if i = j then (df : ℝ) else 0 := by
    simp only [standardWishart]
    by_cases hd : df < dim
    · simp only [if_pos hd, wishartSmall, Bool.false_eq_true, if_false]
      refine ⟨integrable_finsetSum _ fun q _ => h.nor_int _ _, ?_⟩
      rw [integral_finsetSum _ fun q _ => h.nor_int _ _]
      simp only [h.nor_cov, Nat.add_left_cancel_iff]
      split <;> simp
    · simp only [if_neg hd, Bool.false_eq_true, if_false]
      have e : ∀ ω, (wishartLarge (chi ω) (nor ω) df dim num s).w (k * (dim * dim) + i * dim + j) =
          wiVal (chi ω) (nor ω) df dim (s.t + k * wiRowT dim dim) (min i j) (max i j) := fun ω => by
        have := (wishartLarge_spec (chi ω) (nor ω) (df := df) (dim := dim) (num := num) s).2.2.2 k hk
        rcases Nat.le_total i j with h | h
        · rw [(this i j h hj).1, min_eq_left h, max_eq_right h]
        · rw [(this j i h hi).2, min_eq_right h, max_eq_left h]
      simp only [e]
      have := wiVal_mean h df dim (s.t + k * wiRowT dim dim) (min i j) (max i j) (by omega) (by omega) (by omega)
      refine ⟨this.1, this.2.trans ?_⟩
      by_cases hij : i = j
      · rw [if_pos hij, if_pos (by omega)]
      · rw [if_neg hij, if_neg (by omega)]
  cases rescale with
  | false => simpa using key
  | true =>
    have e : ∀ ω, standardWishart (chi ω) (nor ω) df dim num true s k i j = standardWishart (chi ω) (nor ω) df dim num false s k i j / df := fun ω => by
      simp [standardWishart]
    simp only [e]
    refine ⟨key.1.div_const _, ?_⟩
    rw [integral_div, key.2]
    have : (df : ℝ) ≠ 0 := by exact_mod_cast hdf.ne'
    split <;> simp [this]

/-! ### C71 -/

variable {d : Nat}

/-- The expected value of what `wishart` returns is `df` times the factor times its transpose. -/
theorem C71_mean {Ω : Type} [MeasurableSpace Ω] {μ : Measure Ω} (W : Ω → Matrix (Fin d) (Fin d) ℝ) (df : ℝ) (hi : ∀ i j, Integrable (fun ω => W ω i j) μ)
    (hm : ∀ i j, ∫ ω, W ω i j ∂μ = if i = j then df else 0) (F : Matrix (Fin d) (Fin d) ℝ) (i j : Fin d) :
    ∫ ω, wishartScale F (W ω) i j ∂μ = (df • (F * F.transpose)) i j := by
  have e : ∀ ω, wishartScale F (W ω) i j = ∑ a, ∑ b, F i b * W ω b a * F j a := fun ω => by
    rw [wishartScale, Matrix.mul_apply]
    refine Finset.sum_congr rfl fun a _ => ?_
    rw [Matrix.mul_apply, Finset.sum_mul]
    rfl
  simp only [e]
  have i1 : ∀ a b, Integrable (fun ω => F i b * W ω b a * F j a) μ := fun a b => ((hi b a).const_mul _).mul_const _
  rw [integral_finsetSum _ fun a _ => integrable_finsetSum _ fun b _ => i1 a b]
  rw [Matrix.smul_apply, Matrix.mul_apply, smul_eq_mul, Finset.mul_sum]
  refine Finset.sum_congr rfl fun a _ => ?_
  rw [integral_finsetSum _ fun b _ => i1 a b, Finset.sum_eq_single a]
  · rw [integral_mul_const, integral_const_mul, hm, if_pos rfl, Matrix.transpose_apply]; ring
  · intro b _ hb
    rw [integral_mul_const, integral_const_mul, hm, if_neg hb]; ring
  · intro h; exact absurd (Finset.mem_univ _) h

/-- The factors of `_factorize` satisfy `Fᵀ F = cov`. -/
theorem svdFactor_gram (u : Matrix (Fin d) (Fin d) ℝ) (s : Fin d → ℝ) (hs : ∀ i, 0 ≤ s i) :
    (svdFactor u s).transpose * svdFactor u s = u * Matrix.diagonal s * u.transpose := by
  ext i j
  rw [Matrix.mul_apply, Matrix.mul_apply]
  refine Finset.sum_congr rfl fun k _ => ?_
  rw [Matrix.mul_diagonal]
  show u i k * √(s k) * (u j k * √(s k)) = u i k * s k * u j k
  linear_combination (u i k * u j k) * Real.mul_self_sqrt (hs k)

/-- … and for orthogonal `u` the other product is the diagonal matrix of singular values. -/
theorem svdFactor_outer (u : Matrix (Fin d) (Fin d) ℝ) (s : Fin d → ℝ) (hs : ∀ i, 0 ≤ s i) (hu : u.transpose * u = 1) :
    svdFactor u s * (svdFactor u s).transpose = Matrix.diagonal s := by
  ext i j
  have h := congrFun (congrFun hu i) j
  rw [Matrix.mul_apply] at h ⊢
  have e : ∀ k, svdFactor u s i k * (svdFactor u s).transpose k j = √(s i) * √(s j) * (u.transpose i k * u k j) := fun k => by
    show u k i * √(s i) * (u k j * √(s j)) = √(s i) * √(s j) * (u k i * u k j)
    ring
  rw [Finset.sum_congr rfl fun k _ => e k, ← Finset.mul_sum, h]
  by_cases hij : i = j
  · subst hij; simp [Real.mul_self_sqrt (hs i)]
  · simp [Matrix.one_apply_ne hij, Matrix.diagonal_apply_ne _ hij]

theorem eighFactor_eq (u : Matrix (Fin d) (Fin d) ℝ) (s : Fin d → ℝ) (hs : ∀ i, 0 ≤ s i) : eighFactor u s = svdFactor u s := by
  ext i j
  show u j i * √|s i| = u j i * √(s i)
  rw [abs_of_nonneg (hs i)]

/-- C71 for `svd` and `eigh`: whatever decomposition `cov = u diag(s) uᵀ` is found, the mean is `df` times `diag(s)`; it is
the documented one exactly when the scale is that diagonal matrix. -/
theorem C71_svd_iff (u cov : Matrix (Fin d) (Fin d) ℝ) (s : Fin d → ℝ) (hs : ∀ i, 0 ≤ s i) (hu : u.transpose * u = 1) {df : ℝ} (hdf : df ≠ 0) :
    df • (svdFactor u s * (svdFactor u s).transpose) = df • cov ↔ cov = Matrix.diagonal s := by
  rw [svdFactor_outer u s hs hu, (smul_right_injective _ hdf).eq_iff, eq_comm]

theorem C71_eigh_iff (u cov : Matrix (Fin d) (Fin d) ℝ) (s : Fin d → ℝ) (hs : ∀ i, 0 ≤ s i) (hu : u.transpose * u = 1) {df : ℝ} (hdf : df ≠ 0) :
    df • (eighFactor u s * (eighFactor u s).transpose) = df • cov ↔ cov = Matrix.diagonal s := by
  rw [eighFactor_eq u s hs, C71_svd_iff u cov s hs hu hdf]

/-- No non-diagonal scale gets the documented mean with the default method. -/
theorem not_C71_svd {cov : Matrix (Fin d) (Fin d) ℝ} {i j : Fin d} (hij : i ≠ j) (hc : cov i j ≠ 0) (u : Matrix (Fin d) (Fin d) ℝ) (s : Fin d → ℝ)
    (hs : ∀ i, 0 ≤ s i) (hu : u.transpose * u = 1) (_h : u * Matrix.diagonal s * u.transpose = cov) {df : ℝ} (hdf : df ≠ 0) :
    df • (svdFactor u s * (svdFactor u s).transpose) ≠ df • cov := by
  rw [Ne, C71_svd_iff u cov s hs hu hdf]
  rintro rfl
  exact hc (Matrix.diagonal_apply_ne _ hij)

/-- Singular values are returned in descending order, so that a diagonal scale with ascending entries fails as well. -/
theorem not_C71_svd_diagonal (u : Matrix (Fin 2) (Fin 2) ℝ) (s : Fin 2 → ℝ) (hs : ∀ i, 0 ≤ s i) (hu : u.transpose * u = 1) (hord : s 1 ≤ s 0)
    (_h : u * Matrix.diagonal s * u.transpose = Matrix.diagonal ![1, 4]) {df : ℝ} (hdf : df ≠ 0) :
    df • (svdFactor u s * (svdFactor u s).transpose) ≠ df • Matrix.diagonal ![1, 4] := by
  rw [Ne, C71_svd_iff u _ s hs hu hdf]
  intro h
  have h := Matrix.diagonal_injective h
  rw [← h] at hord
  norm_num at hord

/-- A lower triangular matrix that commutes with its transpose is diagonal. -/
theorem lower_normal {l : Matrix (Fin d) (Fin d) ℝ} (hl : ∀ i j, i < j → l i j = 0) (h : l.transpose * l = l * l.transpose) (i j : Fin d) (hij : i ≠ j) : l i j = 0 := by
  have key : ∀ c : Nat, ∀ j : Fin d, j.val = c → ∀ i, i ≠ j → l i j = 0 := by
    intro c
    induction c using Nat.strong_induction_on with
    | _ c ih =>
      intro j hj
      have h1 := congrFun (congrFun h j) j
      rw [Matrix.mul_apply, Matrix.mul_apply] at h1
      have h2 : ∑ k, l j k * l.transpose k j = l j j * l j j := by
        apply Finset.sum_eq_single
        · intro k _ hk
          show l j k * l j k = 0
          rcases lt_or_gt_of_ne hk with hlt | hgt
          · rw [ih k.val (by rw [← hj]; exact hlt) k rfl j hk.symm, mul_zero]
          · rw [hl j k hgt, mul_zero]
        · intro h; exact absurd (Finset.mem_univ _) h
      rw [h2, ← Finset.add_sum_erase _ _ (Finset.mem_univ j)] at h1
      have h3 : ∑ k ∈ Finset.univ.erase j, l.transpose j k * l k j = 0 := by
        have : l.transpose j j * l j j = l j j * l j j := rfl
        linarith
      have h4 := (Finset.sum_eq_zero_iff_of_nonneg (fun k _ => mul_self_nonneg (l k j))).1 h3
      intro i hi
      exact mul_self_eq_zero.1 (h4 i (Finset.mem_erase.2 ⟨hi, Finset.mem_univ _⟩))
  exact key j.val j rfl i hij

/-- C71 for `cholesky`: right exactly when the Cholesky factor, and so the scale, is diagonal. -/
theorem C71_cholesky_iff (l : Matrix (Fin d) (Fin d) ℝ) (hl : ∀ i j, i < j → l i j = 0) {df : ℝ} (hdf : df ≠ 0) :
    df • (choleskyFactor l * (choleskyFactor l).transpose) = df • (l * l.transpose) ↔ ∀ i j, i ≠ j → l i j = 0 := by
  rw [(smul_right_injective _ hdf).eq_iff, choleskyFactor, Matrix.transpose_transpose]
  constructor
  · exact lower_normal hl
  · intro h
    have : l = Matrix.diagonal fun i => l i i := by
      ext i j
      by_cases hij : i = j
      · subst hij; simp
      · rw [h i j hij, Matrix.diagonal_apply_ne _ hij]
    rw [this, Matrix.diagonal_transpose]

/-- `wishart(df, [[1, 1], [1, 2]], method="cholesky")` has mean `df * [[2, 1], [1, 1]]`. -/
theorem not_C71_cholesky : let l : Matrix (Fin 2) (Fin 2) ℝ := !![1, 0; 1, 1]
    l * l.transpose = !![1, 1; 1, 2] ∧ choleskyFactor l * (choleskyFactor l).transpose = !![2, 1; 1, 1] := by
  constructor
  · ext i j; fin_cases i <;> fin_cases j <;> (simp [Matrix.mul_apply, Fin.sum_univ_two]; try norm_num)
  · ext i j; fin_cases i <;> fin_cases j <;> simp [choleskyFactor, Matrix.mul_apply, Fin.sum_univ_two] <;> norm_num

/-- C71 holds for `method="factor"`, where the caller's `A` with `A Aᵀ = scale` is used as it is. Missing: the other three
methods (`not_C71_svd`, `not_C71_svd_diagonal`, `not_C71_cholesky`). -/
theorem C71_factor_partial {Ω : Type} [MeasurableSpace Ω] {μ : Measure Ω} {chi : Ω → Nat → ℝ → ℝ} {nor : Ω → Nat → ℝ} (h : WiSource μ chi nor)
    (df dim num : Nat) (hdf : 0 < df) (s : Wi) {k : Nat} (hk : k < num) (A : Matrix (Fin dim) (Fin dim) ℝ) (i j : Fin dim) :
    ∫ ω, wishartScale A (Matrix.of fun a b => standardWishart (chi ω) (nor ω) df dim num false s k a b) i j ∂μ = ((df : ℝ) • (A * A.transpose)) i j := by
  refine C71_mean _ df (fun i j => (C70_mean h df dim num hdf false s hk i.isLt j.isLt).1) (fun i j => ?_) A i j
  have := (C70_mean h df dim num hdf false s hk i.isLt j.isLt).2
  simp only [Bool.false_eq_true, if_false] at this
  simpa [Fin.ext_iff] using this

/-! ### C72 -/

/-- Mean and covariance of a row of standardised uncorrelated variables times a factor. -/
theorem C72_moments {Ω : Type} [MeasurableSpace Ω] {μ : Measure Ω} [IsProbabilityMeasure μ] (z : Ω → Fin d → ℝ) (hz : ∀ a, MemLp (fun ω => z ω a) 2 μ)
    (hm : ∀ a, ∫ ω, z ω a ∂μ = 0) (hc : ∀ a b, cov[fun ω => z ω a, fun ω => z ω b; μ] = if a = b then 1 else 0)
    (mean : Fin d → ℝ) (F : Matrix (Fin d) (Fin d) ℝ) (i j : Fin d) :
    ∫ ω, mvnDraw mean F (z ω) i ∂μ = mean i ∧
    cov[fun ω => mvnDraw mean F (z ω) i, fun ω => mvnDraw mean F (z ω) j; μ] = (F.transpose * F) i j := by
  have h12 : (1 : ENNReal) ≤ 2 := by norm_num
  have hL : ∀ i a, MemLp (fun ω => z ω a * F a i) 2 μ := fun i a => (hz a).mul_const _
  have e : ∀ i ω, mvnDraw mean F (z ω) i = mean i + ∑ a, z ω a * F a i := fun i ω => rfl
  have hS : ∀ i, MemLp (fun ω => ∑ a, z ω a * F a i) 2 μ := fun i => memLp_finsetSum _ fun a _ => hL i a
  have iS : ∀ i, Integrable (fun ω => ∑ a, z ω a * F a i) μ := fun i => (hS i).integrable h12
  constructor
  · simp only [e]
    rw [integral_add (integrable_const _) (iS i), integral_finsetSum _ fun a _ => (hL i a).integrable h12]
    simp [integral_mul_const, hm]
  · simp only [e]
    rw [covariance_const_add_left (iS i), covariance_const_add_right (iS j), covariance_fun_sum_fun_sum (hL i) (hL j), Matrix.mul_apply]
    refine Finset.sum_congr rfl fun a _ => ?_
    simp only [covariance_mul_const_left, covariance_mul_const_right, hc]
    rw [Finset.sum_eq_single a]
    · simp [mul_comm]
    · intro b _ hb; simp [Ne.symm hb]
    · intro h; exact absurd (Finset.mem_univ _) h

/-- C72: with `svd` or `eigh` and any decomposition `cov = u diag(s) uᵀ`, and with `cholesky`, the covariance is `cov`. -/
theorem C72_svd {Ω : Type} [MeasurableSpace Ω] {μ : Measure Ω} [IsProbabilityMeasure μ] (z : Ω → Fin d → ℝ) (hz : ∀ a, MemLp (fun ω => z ω a) 2 μ)
    (hm : ∀ a, ∫ ω, z ω a ∂μ = 0) (hc : ∀ a b, cov[fun ω => z ω a, fun ω => z ω b; μ] = if a = b then 1 else 0) (mean : Fin d → ℝ)
    (u cov : Matrix (Fin d) (Fin d) ℝ) (s : Fin d → ℝ) (hs : ∀ i, 0 ≤ s i) (h : u * Matrix.diagonal s * u.transpose = cov) (i j : Fin d) :
    cov[fun ω => mvnDraw mean (svdFactor u s) (z ω) i, fun ω => mvnDraw mean (svdFactor u s) (z ω) j; μ] = cov i j ∧
    cov[fun ω => mvnDraw mean (eighFactor u s) (z ω) i, fun ω => mvnDraw mean (eighFactor u s) (z ω) j; μ] = cov i j := by
  rw [eighFactor_eq u s hs, (C72_moments z hz hm hc mean _ i j).2, svdFactor_gram u s hs, h]
  exact ⟨rfl, rfl⟩

theorem C72_cholesky {Ω : Type} [MeasurableSpace Ω] {μ : Measure Ω} [IsProbabilityMeasure μ] (z : Ω → Fin d → ℝ) (hz : ∀ a, MemLp (fun ω => z ω a) 2 μ)
    (hm : ∀ a, ∫ ω, z ω a ∂μ = 0) (hc : ∀ a b, cov[fun ω => z ω a, fun ω => z ω b; μ] = if a = b then 1 else 0) (mean : Fin d → ℝ)
    (l cov : Matrix (Fin d) (Fin d) ℝ) (h : l * l.transpose = cov) (i j : Fin d) :
    cov[fun ω => mvnDraw mean (choleskyFactor l) (z ω) i, fun ω => mvnDraw mean (choleskyFactor l) (z ω) j; μ] = cov i j := by
  rw [(C72_moments z hz hm hc mean _ i j).2, choleskyFactor, Matrix.transpose_transpose, h]

/-- C72 with `method="factor"` and a factor `A Aᵀ = cov` as documented: right exactly when `A` commutes with its transpose. -/
theorem C72_factor_iff {Ω : Type} [MeasurableSpace Ω] {μ : Measure Ω} [IsProbabilityMeasure μ] (z : Ω → Fin d → ℝ) (hz : ∀ a, MemLp (fun ω => z ω a) 2 μ)
    (hm : ∀ a, ∫ ω, z ω a ∂μ = 0) (hc : ∀ a b, cov[fun ω => z ω a, fun ω => z ω b; μ] = if a = b then 1 else 0) (mean : Fin d → ℝ)
    (A cov : Matrix (Fin d) (Fin d) ℝ) (h : A * A.transpose = cov) :
    (∀ i j, cov[fun ω => mvnDraw mean A (z ω) i, fun ω => mvnDraw mean A (z ω) j; μ] = cov i j) ↔ A.transpose * A = A * A.transpose := by
  simp only [(C72_moments z hz hm hc mean A _ _).2]
  rw [h]
  exact ⟨fun h => Matrix.ext h, fun h i j => by rw [h]⟩

/-- `multivariate_normal(0, [[1, 0], [1, 1]], method="factor")` has covariance `[[2, 1], [1, 1]]`, not `[[1, 1], [1, 2]]`. -/
theorem not_C72_factor : let A : Matrix (Fin 2) (Fin 2) ℝ := !![1, 0; 1, 1]
    A * A.transpose = !![1, 1; 1, 2] ∧ A.transpose * A = !![2, 1; 1, 1] := not_C71_cholesky

/-! ### The hypotheses can be met -/

/-- A sequence of independent standard normals. -/
def gaussSeq : Measure (Nat → ℝ) := Measure.infinitePi fun _ => gaussianReal 0 1

instance : IsProbabilityMeasure gaussSeq := by rw [gaussSeq]; infer_instance

theorem gaussSeq_lp (a : Nat) : MemLp (fun z : Nat → ℝ => z a) 2 gaussSeq :=
  (memLp_id_gaussianReal' 2 (by simp)).comp_measurePreserving (measurePreserving_eval_infinitePi _ a)

theorem gaussSeq_mean (a : Nat) : ∫ z, z a ∂gaussSeq = 0 := by
  have h := measurePreserving_eval_infinitePi (fun _ : Nat => gaussianReal 0 1) a
  have := h.map_eq ▸ integral_map (f := fun x : ℝ => x) h.measurable.aemeasurable (by fun_prop)
  exact this.symm.trans integral_id_gaussianReal

theorem gaussSeq_sq (a : Nat) : ∫ z, z a * z a ∂gaussSeq = 1 := by
  have h := measurePreserving_eval_infinitePi (fun _ : Nat => gaussianReal 0 1) a
  have := h.map_eq ▸ integral_map (f := fun x : ℝ => x * x) h.measurable.aemeasurable (by fun_prop)
  refine this.symm.trans ?_
  have v := variance_fun_id_gaussianReal (μ := 0) (v := 1)
  rw [variance_of_integral_eq_zero (by fun_prop) integral_id_gaussianReal] at v
  simpa [sq] using v

theorem gaussSeq_mul (a b : Nat) : ∫ z, z a * z b ∂gaussSeq = if a = b then 1 else 0 := by
  split
  · next h => subst h; exact gaussSeq_sq a
  · next h =>
    have hi : iIndepFun (fun a (z : Nat → ℝ) => z a) gaussSeq := iIndepFun_infinitePi (X := fun _ x => x) (by fun_prop)
    rw [(hi.indepFun h).integral_fun_mul_eq_mul_integral (gaussSeq_lp a).aestronglyMeasurable (gaussSeq_lp b).aestronglyMeasurable, gaussSeq_mean, zero_mul]

theorem gaussSeq_cov (a b : Nat) : cov[fun z => z a, fun z => z b; gaussSeq] = if a = b then 1 else 0 := by
  rw [covariance_eq_sub (gaussSeq_lp a) (gaussSeq_lp b), gaussSeq_mean, zero_mul, sub_zero]
  exact gaussSeq_mul a b

/-- Normals as in the theorems, with chi-squares replaced by their means. -/
example : WiSource gaussSeq (fun _ _ ν => ν) (fun z t => z t) where
  chi_int _ _ _ := integrable_const _
  chi_mean _ _ _ := by simp
  nor_int a b := (gaussSeq_lp a).integrable_mul (gaussSeq_lp b)
  nor_cov := gaussSeq_mul
  mix_int a _ _ _ _ := ((gaussSeq_lp a).integrable (by norm_num)).mul_const _
  mix_cov a _ _ _ _ := by rw [integral_mul_const, gaussSeq_mean, zero_mul]

example (i j : Fin 3) : cov[fun z : Nat → ℝ => z i, fun z => z j; gaussSeq] = if i = j then 1 else 0 := by
  rw [gaussSeq_cov]; simp [Fin.ext_iff]

/-- A scale with off-diagonal entries and its decomposition. -/
example : let u : Matrix (Fin 2) (Fin 2) ℝ := !![3 / 5, 4 / 5; 4 / 5, -3 / 5]
    u.transpose * u = 1 ∧ (u * Matrix.diagonal ![2, 1] * u.transpose : Matrix (Fin 2) (Fin 2) ℝ) 0 1 ≠ 0 := by
  refine ⟨?_, ?_⟩
  · ext i j; fin_cases i <;> fin_cases j <;> simp [Matrix.mul_apply, Fin.sum_univ_two] <;> norm_num
  · rw [Matrix.mul_apply, Fin.sum_univ_two, Matrix.mul_diagonal, Matrix.mul_diagonal]
    simp [Matrix.transpose_apply]; norm_num

end
end Verif
