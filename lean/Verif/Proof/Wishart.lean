import Verif.Model.Wishart
import Verif.Proof.Mt
import Mathlib.Algebra.BigOperators.Intervals
import Mathlib.Tactic.Linarith
import Mathlib.Tactic.Ring
import Mathlib.Tactic.SplitIfs

/-! What `random_wishart_large_df` leaves in its buffers. -/

namespace Verif
noncomputable section
variable (chi : Nat → ℝ → ℝ) (nor : Nat → ℝ)

/-- Number of calls made before row `i` of a matrix. -/
def wiRowT (dim i : Nat) : Nat := ∑ q ∈ Finset.range i, (dim - q)

/-- The normal in row `r`, column `c`, of a matrix whose first call is number `t`. -/
def wiN (dim t r c : Nat) : ℝ := nor (t + wiRowT dim r + (c - r))

/-- The chi-square of row `i`. -/
def wiV (df : Int) (dim t i : Nat) : ℝ := chi (t + wiRowT dim i) ((df - i : Int) : ℝ)

/-- The entry that the code computes for `i ≤ j`. -/
def wiVal (df : Int) (dim t i j : Nat) : ℝ :=
  (if i = j then wiV chi df dim t i else wiN nor dim t i j * √(wiV chi df dim t i)) + ∑ r ∈ Finset.range i, wiN nor dim t r i * wiN nor dim t r j

theorem wi_idx {d a b a' b' : Nat} (hb : b < d) (hb' : b' < d) (h : a * d + b = a' * d + b') : a = a' ∧ b = b' := by
  have h1 : (a * d + b) / d = a := by rw [Nat.mul_comm, Nat.mul_add_div (by omega), Nat.div_eq_of_lt hb, Nat.add_zero]
  have h2 : (a' * d + b') / d = a' := by rw [Nat.mul_comm, Nat.mul_add_div (by omega), Nat.div_eq_of_lt hb', Nat.add_zero]
  have : a = a' := by rw [← h1, ← h2, h]
  subst this
  exact ⟨rfl, by omega⟩

theorem wi_idx_lt {d a b : Nat} (ha : a < d) (hb : b < d) : a * d + b < d * d := by
  calc a * d + b < a * d + d := by omega
    _ = (a + 1) * d := by ring
    _ ≤ d * d := Nat.mul_le_mul_right d ha

/-- Cells outside matrix `k` are untouched. -/
def WiFrame (dim k : Nat) (s0 s : Wi) : Prop := ∀ p, p < k * (dim * dim) ∨ (k + 1) * (dim * dim) ≤ p → s.w p = s0.w p

/-- Before row `i`, column `m`. -/
structure WiInv (df : Int) (dim k t i m : Nat) (s0 s : Wi) : Prop where
  fr : WiFrame dim k s0 s
  nfr : ∀ p, dim * dim ≤ p → s.n p = s0.n p
  n : ∀ r c, r < c → c < dim → (r < i ∨ r = i ∧ c < m) → s.n (dim * r + c) = wiN nor dim t r c
  w : ∀ a b, a ≤ b → b < dim → (a < i ∨ a = i ∧ b < m) →
    s.w (k * (dim * dim) + a * dim + b) = wiVal chi nor df dim t a b ∧ s.w (k * (dim * dim) + b * dim + a) = wiVal chi nor df dim t a b

theorem wiAcc (c dim i j : Nat) (m : Nat) (s : Wi) :
    (List.range m).foldl (fun s r => { s with w := Function.update s.w c (s.w c + s.n (dim * r + i) * s.n (dim * r + j)) }) s =
      { s with w := Function.update s.w c (s.w c + ∑ r ∈ Finset.range m, s.n (dim * r + i) * s.n (dim * r + j)) } := by
  induction m with
  | zero => simp
  | succ m ih =>
    rw [List.range_succ, List.foldl_append, ih, List.foldl_cons, List.foldl_nil, Finset.sum_range_succ]
    simp only [Function.update_self, Function.update_idem, add_assoc]

theorem wiCell_eq (dim k i : Nat) (vi : ℝ) (s : Wi) (j : Nat) (hij : i ≤ j) (hj : j < dim) :
    let n := if i = j then s.n else Function.update s.n (dim * i + j) (nor s.t)
    let v := (if i = j then vi else nor s.t * √vi) + ∑ r ∈ Finset.range i, n (dim * r + i) * n (dim * r + j)
    wiCell nor dim k i vi s j = { w := Function.update (Function.update s.w (k * (dim * dim) + i * dim + j) v) (k * (dim * dim) + j * dim + i) v
                                  n := n
                                  t := if i = j then s.t else s.t + 1 } := by
  intro n v
  rw [wiCell]
  simp only [wiAcc]
  by_cases h : i = j
  · subst h
    simp [n, v]
  · simp only [if_neg h, n, v, Function.update_self, Function.update_idem]

theorem WiInv.cell {df : Int} {dim k t i m : Nat} {s0 s : Wi} (h : WiInv chi nor df dim k t i m s0 s) (him : i ≤ m) (hm : m < dim)
    (ht : i < m → s.t = t + wiRowT dim i + (m - i)) : WiInv chi nor df dim k t i (m + 1) s0 (wiCell nor dim k i (wiV chi df dim t i) s m) := by
  have hE := wiCell_eq nor dim k i (wiV chi df dim t i) s m him hm
  simp only at hE
  rw [hE]
  have hi : i < dim := by omega
  have i1 := wi_idx_lt hi hm
  have i2 := wi_idx_lt hm hi
  -- the new row buffer
  have hn : ∀ r c, r < c → c < dim → (r < i ∨ r = i ∧ c < m + 1) →
      (if i = m then s.n else Function.update s.n (dim * i + m) (nor s.t)) (dim * r + c) = wiN nor dim t r c := by
    intro r c hrc hc hr
    split
    · exact h.n r c hrc hc (by omega)
    · by_cases he : r = i ∧ c = m
      · obtain ⟨rfl, rfl⟩ := he
        rw [Function.update_self, ht (by omega)]; rfl
      · rw [Function.update_of_ne, h.n r c hrc hc (by omega)]
        intro e
        rw [Nat.mul_comm dim r, Nat.mul_comm dim i] at e
        exact he (wi_idx hc hm e)
  refine ⟨?_, ?_, hn, ?_⟩
  · intro p hp
    show Function.update (Function.update s.w _ _) _ _ p = _
    have : (k + 1) * (dim * dim) = k * (dim * dim) + dim * dim := by ring
    rw [Function.update_of_ne (by omega), Function.update_of_ne (by omega), h.fr p hp]
  · intro p hp
    show (if i = m then s.n else Function.update s.n (dim * i + m) (nor s.t)) p = _
    split
    · exact h.nfr p hp
    · rw [Function.update_of_ne (by rw [Nat.mul_comm dim i]; omega), h.nfr p hp]
  · intro a b hab hb hr
    have hv : (if i = m then wiV chi df dim t i else nor s.t * √(wiV chi df dim t i)) + ∑ r ∈ Finset.range i,
        (if i = m then s.n else Function.update s.n (dim * i + m) (nor s.t)) (dim * r + i) *
          (if i = m then s.n else Function.update s.n (dim * i + m) (nor s.t)) (dim * r + m) = wiVal chi nor df dim t i m := by
      rw [wiVal]
      congr 1
      · split
        · rfl
        · rw [ht (by omega)]; rfl
      · refine Finset.sum_congr rfl fun r hr => ?_
        have hr := Finset.mem_range.1 hr
        rw [hn r i hr hi (.inl hr), hn r m (by omega) hm (.inl hr)]
    rw [hv]
    show Function.update (Function.update s.w _ _) _ _ _ = _ ∧ Function.update (Function.update s.w _ _) _ _ _ = _
    by_cases he : a = i ∧ b = m
    · obtain ⟨rfl, rfl⟩ := he
      refine ⟨?_, Function.update_self ..⟩
      by_cases hab' : a = b
      · subst hab'; exact Function.update_self ..
      · rw [Function.update_of_ne, Function.update_self]
        intro e
        have := wi_idx hb hi (show a * dim + b = b * dim + a by omega)
        omega
    · have ha : a < dim := by omega
      obtain ⟨w1, w2⟩ := h.w a b hab hb (by omega)
      have nn : ∀ x y x' y', y < dim → y' < dim → ¬ (x = x' ∧ y = y') → k * (dim * dim) + x * dim + y ≠ k * (dim * dim) + x' * dim + y' := by
        intro x y x' y' hy hy' hne e
        exact hne (wi_idx hy hy' (by omega))
      rw [Function.update_of_ne (nn _ _ _ _ hb hi (by omega)), Function.update_of_ne (nn _ _ _ _ hb hm (by omega)),
        Function.update_of_ne (nn _ _ _ _ ha hi (by omega)), Function.update_of_ne (nn _ _ _ _ ha hm (by omega))]
      exact ⟨w1, w2⟩

theorem wiCell_t (dim k i : Nat) (vi : ℝ) (s : Wi) (j : Nat) (hij : i ≤ j) (hj : j < dim) : (wiCell nor dim k i vi s j).t = if i = j then s.t else s.t + 1 := by
  have hE := wiCell_eq nor dim k i vi s j hij hj
  simp only at hE
  rw [hE]

theorem WiInv.row {df : Int} {dim k t i : Nat} {s0 s : Wi} (h : WiInv chi nor df dim k t i i s0 s) (hi : i < dim) (ht : s.t = t + wiRowT dim i) :
    WiInv chi nor df dim k t (i + 1) (i + 1) s0 (wiRow chi nor df dim k s i) ∧ (wiRow chi nor df dim k s i).t = t + wiRowT dim (i + 1) := by
  rw [wiRow]
  have hv : chi s.t ((df - i : Int) : ℝ) = wiV chi df dim t i := by rw [ht]; rfl
  rw [hv]
  have := foldl_range'_inv (wiCell nor dim k i (wiV chi df dim t i))
    (fun m s => WiInv chi nor df dim k t i m s0 s ∧ s.t = t + wiRowT dim i + (if m = i then 1 else m - i)) i (dim - i) { s with t := s.t + 1 }
    ⟨⟨h.fr, h.nfr, h.n, h.w⟩, by rw [if_pos rfl]; show s.t + 1 = _; omega⟩
    (fun m a h1 h2 ⟨h3, h4⟩ => ⟨h3.cell chi nor h1 (by omega) (fun hlt => by rw [h4, if_neg (show ¬ m = i by omega)]), by
      rw [wiCell_t _ _ _ _ _ _ _ h1 (by omega), h4]
      split_ifs <;> omega⟩)
  rw [show i + (dim - i) = dim by omega, if_neg (by omega)] at this
  obtain ⟨h1, h2⟩ := this
  refine ⟨⟨h1.fr, h1.nfr, fun r c hrc hc hr => h1.n r c hrc hc (by omega), fun a b hab hb hr => h1.w a b hab hb (by omega)⟩, ?_⟩
  rw [h2, wiRowT, wiRowT, Finset.sum_range_succ]
  omega

/-- One matrix: all entries, and nothing else. -/
theorem wiMatrix {df : Int} {dim k : Nat} (s : Wi) :
    let s' := (List.range dim).foldl (wiRow chi nor df dim k) s
    WiFrame dim k s s' ∧ (∀ p, dim * dim ≤ p → s'.n p = s.n p) ∧ s'.t = s.t + wiRowT dim dim ∧
      ∀ a b, a ≤ b → b < dim → s'.w (k * (dim * dim) + a * dim + b) = wiVal chi nor df dim s.t a b ∧
        s'.w (k * (dim * dim) + b * dim + a) = wiVal chi nor df dim s.t a b := by
  intro s'
  have := foldl_range_inv (wiRow chi nor df dim k) (fun i x => WiInv chi nor df dim k s.t i i s x ∧ x.t = s.t + wiRowT dim i) dim s
    ⟨⟨fun _ _ => rfl, fun _ _ => rfl, fun r c _ _ h => by omega, fun a b _ _ h => by omega⟩, rfl⟩ (fun i a hi h => h.1.row chi nor hi h.2)
  exact ⟨this.1.fr, this.1.nfr, this.2, fun a b hab hb => this.1.w a b hab hb (by omega)⟩

theorem wishartLarge_spec {df : Int} {dim num : Nat} (s : Wi) :
    let s' := wishartLarge chi nor df dim num s
    (∀ p, num * (dim * dim) ≤ p → s'.w p = s.w p) ∧ (∀ p, dim * dim ≤ p → s'.n p = s.n p) ∧ s'.t = s.t + num * wiRowT dim dim ∧
      ∀ k < num, ∀ a b, a ≤ b → b < dim → s'.w (k * (dim * dim) + a * dim + b) = wiVal chi nor df dim (s.t + k * wiRowT dim dim) a b ∧
        s'.w (k * (dim * dim) + b * dim + a) = wiVal chi nor df dim (s.t + k * wiRowT dim dim) a b := by
  exact foldl_range_inv (fun s k => (List.range dim).foldl (wiRow chi nor df dim k) s) (fun m x =>
      (∀ p, m * (dim * dim) ≤ p → x.w p = s.w p) ∧ (∀ p, dim * dim ≤ p → x.n p = s.n p) ∧ x.t = s.t + m * wiRowT dim dim ∧
      ∀ k < m, ∀ a b, a ≤ b → b < dim → x.w (k * (dim * dim) + a * dim + b) = wiVal chi nor df dim (s.t + k * wiRowT dim dim) a b ∧
        x.w (k * (dim * dim) + b * dim + a) = wiVal chi nor df dim (s.t + k * wiRowT dim dim) a b) num s
    ⟨fun _ _ => rfl, fun _ _ => rfl, by simp, fun k hk => by omega⟩ (by
      rintro m x hm ⟨h1, h2, h3, h4⟩
      obtain ⟨g1, g2, g3, g4⟩ := wiMatrix chi nor (df := df) (dim := dim) (k := m) x
      refine ⟨fun p hp => ?_, fun p hp => ?_, ?_, fun k hk a b hab hb => ?_⟩
      · have : (m + 1) * (dim * dim) = m * (dim * dim) + dim * dim := by ring
        rw [g1 p (.inr hp), h1 p (by omega)]
      · rw [g2 p hp, h2 p hp]
      · rw [g3, h3]; ring
      · rcases Nat.lt_succ_iff_lt_or_eq.1 hk with hk | rfl
        · have i1 := wi_idx_lt (show a < dim by omega) hb
          have i2 := wi_idx_lt hb (show a < dim by omega)
          have i3 : k * (dim * dim) + dim * dim ≤ m * (dim * dim) := by
            calc k * (dim * dim) + dim * dim = (k + 1) * (dim * dim) := by ring
              _ ≤ _ := Nat.mul_le_mul_right _ hk
          rw [g1 _ (.inl (by omega)), g1 _ (.inl (by omega))]
          exact h4 k hk a b hab hb
        · rw [← h3]; exact g4 a b hab hb)

end
end Verif
