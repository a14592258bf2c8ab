import Verif.Model.Api
import Mathlib.Order.Lattice
import Mathlib.Data.List.GetD
import Mathlib.Order.Nat

/-! C50: shape broadcasting follows NumPy's rule. -/

namespace Verif

/-! ### C50 -/

/-- Dimension `i` of a shape counted from the right; NumPy supplies 1 for missing leading dimensions. -/
def dimR (x : List Nat) (i : Nat) : Nat := x.reverse.getD i 1

/-- NumPy's broadcasting rule: `r` is the broadcast shape of `x` and `y`. -/
def NpBroadcast (x y r : List Nat) : Prop :=
  r.length = max x.length y.length ∧
  ∀ i, (dimR x i = dimR y i ∨ dimR x i = 1 ∨ dimR y i = 1) ∧
    dimR r i = if dimR x i = 1 then dimR y i else dimR x i

theorem bcastLoop_eq (strict : Bool) (ps : List (Nat × Nat)) (sh r : List Nat) :
    bcastLoop strict ps sh = (true, r) ↔
      (∀ p ∈ ps, p.1 = p.2 ∨ (strict = false ∧ min p.1 p.2 = 1)) ∧ r = sh ++ ps.map fun p => max p.1 p.2 := by
  induction ps generalizing sh with
  | nil => simp [bcastLoop, eq_comm]
  | cons p ps ih =>
    obtain ⟨a, b⟩ := p
    have hstep : bcastLoop strict ((a, b) :: ps) sh =
        if a = b ∨ (strict = false ∧ min a b = 1) then bcastLoop strict ps (sh ++ [max a b]) else (false, sh) := by
      cases strict <;> simp [bcastLoop]
    rw [hstep]
    split
    · rename_i hc
      rw [ih, List.forall_mem_cons, List.map_cons, List.append_assoc]
      exact ⟨fun h => ⟨⟨hc, h.1⟩, h.2⟩, fun h => ⟨h.1.2, h.2⟩⟩
    · rename_i hc
      simp only [Prod.mk.injEq, Bool.false_eq_true, false_and, false_iff, not_and]
      intro h
      exact absurd (h (a, b) (by simp)) hc

theorem bcastLoop_swap (strict : Bool) (x y : List Nat) (sh : List Nat) :
    bcastLoop strict (x.zip y) sh = bcastLoop strict (y.zip x) sh := by
  induction x generalizing y sh with
  | nil => cases y <;> rfl
  | cons a x ih =>
    cases y with
    | nil => rfl
    | cons b y =>
      have e : (a == b) = (b == a) := by
        by_cases h : a = b
        · subst h; rfl
        · simp [h, Ne.symm h]
      simp only [List.zip_cons_cons, bcastLoop, ih, max_comm a b, min_comm a b, e]

/-- C50, symmetry: for all shapes, positive or not, the order of the arguments does not matter. -/
theorem C50_symmetric (x y : List Nat) (strict : Bool) : broadcastShape x y strict = broadcastShape y x strict := by
  unfold broadcastShape
  by_cases h : x = [] ∨ y = []
  · rw [if_pos h, if_pos h.symm]
    rcases h with rfl | rfl
    · cases y <;> simp
    · cases x <;> simp
  · have h2 : ¬ (y = [] ∨ x = []) := fun h' => h h'.symm
    rw [if_neg h, if_neg h2]
    rcases lt_trichotomy x.length y.length with hl | hl | hl
    · simp only [gt_iff_lt, hl, if_true, if_neg (Nat.lt_asymm hl)]
      exact bcastLoop_swap _ _ _ _
    · simp only [gt_iff_lt, hl, lt_irrefl, if_false, Nat.sub_self, List.drop_zero, List.take_zero]
      exact bcastLoop_swap _ _ _ _
    · simp only [gt_iff_lt, hl, if_true, if_neg (Nat.lt_asymm hl)]
      exact bcastLoop_swap _ _ _ _

theorem dimR_append_lt (p x : List Nat) {i : Nat} (h : i < x.length) : dimR (p ++ x) i = x[x.length - 1 - i]'(by omega) := by
  rw [dimR, List.reverse_append, List.getD_eq_getElem _ _ (by simp; omega),
    List.getElem_append_left (by simpa using h), List.getElem_reverse]

theorem dimR_append_ge (p x : List Nat) {i : Nat} (h : x.length ≤ i) : dimR (p ++ x) i = dimR p (i - x.length) := by
  rw [dimR, dimR, List.reverse_append, List.getD_append_right _ _ _ _ (by simpa using h), List.length_reverse]

theorem dimR_ge (x : List Nat) {i : Nat} (h : x.length ≤ i) : dimR x i = 1 := by
  rw [dimR, List.getD_eq_default _ _ (by simpa using h)]

theorem dimR_ext {x y : List Nat} (hl : x.length = y.length) (h : ∀ i, dimR x i = dimR y i) : x = y := by
  apply List.ext_getElem hl
  intro i h1 h2
  have := h (x.length - 1 - i)
  have e1 := dimR_append_lt [] x (i := x.length - 1 - i) (by omega)
  have e2 := dimR_append_lt [] y (i := x.length - 1 - i) (by omega)
  simp only [List.nil_append] at e1 e2
  rw [e1, e2] at this
  simp only [← hl] at this
  have hi : x.length - 1 - (x.length - 1 - i) = i := by omega
  simpa only [hi] using this

theorem NpBroadcast.unique {x y r r' : List Nat} (h : NpBroadcast x y r) (h' : NpBroadcast x y r') : r = r' :=
  dimR_ext (h.1.trans h'.1.symm) fun i => ((h.2 i).2).trans ((h'.2 i).2).symm

theorem dimR_pos {x : List Nat} (hx : ∀ d ∈ x, 0 < d) (i : Nat) : 0 < dimR x i := by
  by_cases h : i < x.reverse.length
  · rw [dimR, List.getD_eq_getElem _ _ h]
    exact hx _ (List.mem_reverse.1 (List.getElem_mem h))
  · rw [dimR, List.getD_eq_default _ _ (by omega)]; exact Nat.one_pos

theorem bcast_num {a b : Nat} (ha : 0 < a) (hb : 0 < b) (h : a = b ∨ (false = false ∧ min a b = 1)) :
    (a = b ∨ a = 1 ∨ b = 1) ∧ max a b = if a = 1 then b else a := by
  constructor
  · omega
  · split <;> omega

theorem bcast_num' {a b : Nat} (ha : 0 < a) (hb : 0 < b) (h : a = b ∨ a = 1 ∨ b = 1) :
    a = b ∨ (True ∧ min a b = 1) := by
  rcases h with h | h | h
  · exact Or.inl h
  · exact Or.inr ⟨trivial, by omega⟩
  · exact Or.inr ⟨trivial, by omega⟩

/-- The aligned case: the longer shape is `p ++ x`. -/
theorem bcast_aligned (p x y r : List Nat) (hl : x.length = y.length) (hx : ∀ d ∈ x, 0 < d) (hy : ∀ d ∈ y, 0 < d) :
    bcastLoop false (x.zip y) p = (true, r) ↔ NpBroadcast (p ++ x) y r := by
  rw [bcastLoop_eq]
  have key : (∀ q ∈ x.zip y, q.1 = q.2 ∨ (false = false ∧ min q.1 q.2 = 1)) →
      NpBroadcast (p ++ x) y (p ++ (x.zip y).map fun q => max q.1 q.2) := by
    intro hc
    refine ⟨by simp [hl], fun i => ?_⟩
    by_cases hi : i < x.length
    · have e1 := dimR_append_lt p x hi
      have e2 := dimR_append_lt [] y (i := i) (by omega)
      have e3 := dimR_append_lt p ((x.zip y).map fun q => max q.1 q.2) (i := i) (by simp; omega)
      simp only [List.nil_append] at e2
      have hk : ((x.zip y).map fun q => max q.1 q.2).length - 1 - i = x.length - 1 - i := by simp [hl]
      simp only [hk, List.getElem_map, List.getElem_zip] at e3
      simp only [← hl] at e2
      have hm : (x[x.length - 1 - i]'(by omega), y[x.length - 1 - i]'(by omega)) ∈ x.zip y := by
        have : (x.zip y)[x.length - 1 - i]'(by simp; omega) ∈ x.zip y := List.getElem_mem _
        simpa only [List.getElem_zip] using this
      have hq := hc _ hm
      have px := hx _ (List.getElem_mem (l := x) (n := x.length - 1 - i) (by omega))
      have py := hy _ (List.getElem_mem (l := y) (n := x.length - 1 - i) (by omega))
      rw [e1, e2, e3]
      exact bcast_num px py hq
    · have hi' : x.length ≤ i := by omega
      rw [dimR_ge y (i := i) (by omega), dimR_append_ge _ _ hi',
        dimR_append_ge _ _ (i := i) (by simp; omega)]
      have e : ((x.zip y).map fun q => max q.1 q.2).length = x.length := by simp [hl]
      rw [e]
      refine ⟨Or.inr (Or.inr rfl), ?_⟩
      split
      · assumption
      · rfl
  constructor
  · rintro ⟨hc, rfl⟩
    exact key hc
  · intro h
    have hc : ∀ q ∈ x.zip y, q.1 = q.2 ∨ (false = false ∧ min q.1 q.2 = 1) := by
      intro q hq
      obtain ⟨j, hj, rfl⟩ := List.getElem_of_mem hq
      simp only [List.length_zip] at hj
      simp only [List.getElem_zip]
      have := (h.2 (x.length - 1 - j)).1
      have e1 := dimR_append_lt p x (i := x.length - 1 - j) (by omega)
      have e2 := dimR_append_lt [] y (i := x.length - 1 - j) (by omega)
      simp only [List.nil_append, ← hl] at e2
      have hk : x.length - 1 - (x.length - 1 - j) = j := by omega
      simp only [hk] at e1 e2
      rw [e1, e2] at this
      have px := hx _ (List.getElem_mem (l := x) (n := j) (by omega))
      have py := hy _ (List.getElem_mem (l := y) (n := j) (by omega))
      exact bcast_num' px py this
    exact ⟨hc, h.unique (key hc)⟩

theorem NpBroadcast.symm {x y r : List Nat} (h : NpBroadcast x y r) : NpBroadcast y x r := by
  refine ⟨by rw [h.1, max_comm], fun i => ?_⟩
  obtain ⟨h1, h2⟩ := h.2 i
  refine ⟨by omega, ?_⟩
  rw [h2]; split <;> split <;> omega

/-- C50: for shapes with positive dimensions of any length, the function answers `True, r` exactly when `r` is the
shape given by NumPy's rule. -/
theorem C50_numpy_rule (x y r : List Nat) (hx : ∀ d ∈ x, 0 < d) (hy : ∀ d ∈ y, 0 < d) :
    broadcastShape x y false = (true, r) ↔ NpBroadcast x y r := by
  have main : ∀ x y : List Nat, (∀ d ∈ x, 0 < d) → (∀ d ∈ y, 0 < d) → y.length ≤ x.length → y ≠ [] →
      (broadcastShape x y false = (true, r) ↔ NpBroadcast x y r) := by
    intro x y hx hy hl hne
    have hxne : x ≠ [] := by
      rintro rfl
      apply hne
      simpa using hl
    unfold broadcastShape
    rw [if_neg (by simp [hne, hxne])]
    have e : x.take (x.length - y.length) ++ x.drop (x.length - y.length) = x := List.take_append_drop _ _
    by_cases hlt : x.length > y.length
    · simp only [if_pos hlt]
      rw [bcast_aligned _ _ _ _ (by simp; omega) (fun d hd => hx d (List.mem_of_mem_drop hd)) hy, e]
    · have hll : x.length = y.length := by omega
      simp only [hll, Nat.lt_irrefl, gt_iff_lt, if_false, Nat.sub_self, List.drop_zero, List.take_zero]
      rw [bcast_aligned [] x y r hll hx hy, List.nil_append]
  have nil : ∀ x : List Nat, broadcastShape x [] false = (true, r) ↔ NpBroadcast x [] r := by
    intro x
    have e : broadcastShape x [] false = (true, x) := by
      cases x <;> simp [broadcastShape]
    rw [e]
    have hb : NpBroadcast x [] x := by
      refine ⟨by simp, fun i => ?_⟩
      rw [dimR_ge [] (i := i) (by simp)]
      refine ⟨Or.inr (Or.inr rfl), ?_⟩
      split
      · assumption
      · rfl
    constructor
    · intro h
      simp only [Prod.mk.injEq, true_and] at h
      exact h ▸ hb
    · intro h
      rw [hb.unique h]
  by_cases hyn : y = []
  · subst hyn; exact nil x
  by_cases hxn : x = []
  · subst hxn
    rw [C50_symmetric, nil y]
    exact ⟨NpBroadcast.symm, NpBroadcast.symm⟩
  rcases Nat.le_total y.length x.length with hl | hl
  · exact main x y hx hy hl hyn
  · rw [C50_symmetric, main y x hy hx hl hxn]
    exact ⟨NpBroadcast.symm, NpBroadcast.symm⟩

/-- C50, refusals: for positive dimensions the answer is `False` exactly when NumPy's rule gives no shape. -/
theorem C50_refused (x y : List Nat) (hx : ∀ d ∈ x, 0 < d) (hy : ∀ d ∈ y, 0 < d) :
    (broadcastShape x y false).1 = false ↔ ¬ ∃ r, NpBroadcast x y r := by
  constructor
  · rintro h ⟨r, hr⟩
    rw [(C50_numpy_rule x y r hx hy).2 hr] at h
    exact absurd h (by simp)
  · intro h
    cases hb : (broadcastShape x y false).1 with
    | false => rfl
    | true => exact absurd ⟨_, (C50_numpy_rule x y _ hx hy).1 (Prod.ext hb rfl)⟩ h

example : broadcastShape [5, 1, 7] [3, 1] false = (true, [5, 3, 7]) ∧ (broadcastShape [2, 3] [4] false).1 = false := by
  decide

/-- C50, `strict=True`: accepted exactly when one shape is a suffix of the other, and the result is the longer. In
particular a `size` shorter than the common shape is accepted. -/
theorem C50_strict (x y r : List Nat) :
    broadcastShape x y true = (true, r) ↔ (x <:+ y ∧ r = y) ∨ (y <:+ x ∧ r = x) := by
  have al : ∀ p x y : List Nat, x.length = y.length →
      (bcastLoop true (x.zip y) p = (true, r) ↔ x = y ∧ r = p ++ x) := by
    intro p x y hl
    rw [bcastLoop_eq]
    constructor
    · rintro ⟨h, rfl⟩
      have : x = y := by
        apply List.ext_getElem hl
        intro i h1 h2
        have hm : (x.zip y)[i]'(by simp; omega) ∈ x.zip y := List.getElem_mem _
        have := h _ hm
        simpa using this
      subst this
      refine ⟨rfl, ?_⟩
      congr 1
      apply List.ext_getElem
      · simp
      · intro i h1 h2; simp
    · rintro ⟨rfl, rfl⟩
      refine ⟨fun q hq => ?_, ?_⟩
      · obtain ⟨j, hj, rfl⟩ := List.getElem_of_mem hq
        left; simp
      · congr 1
        apply List.ext_getElem
        · simp
        · intro i h1 h2; simp
  have main : ∀ x y : List Nat, y.length ≤ x.length →
      (broadcastShape x y true = (true, r) ↔ y <:+ x ∧ r = x) := by
    intro x y hl
    have hsuf : y <:+ x ↔ x.drop (x.length - y.length) = y := by
      rw [List.suffix_iff_eq_drop, eq_comm]
    by_cases hyn : y = []
    · subst hyn
      have e : broadcastShape x [] true = (true, x) := by cases x <;> simp [broadcastShape]
      rw [e]; simp [eq_comm]
    have hxn : x ≠ [] := by
      rintro rfl
      exact hyn (by simpa using hl)
    unfold broadcastShape
    rw [if_neg (by simp [hyn, hxn])]
    by_cases hlt : x.length > y.length
    · simp only [if_pos hlt]
      rw [al _ _ _ (by simp; omega), List.take_append_drop, hsuf]
    · have hll : x.length = y.length := by omega
      rw [hsuf]
      simp only [hll, Nat.lt_irrefl, gt_iff_lt, if_false, Nat.sub_self, List.drop_zero, List.take_zero]
      rw [al [] x y hll, List.nil_append]
  have key : ∀ x y : List Nat, y.length ≤ x.length → (x <:+ y ∧ r = y) → (y <:+ x ∧ r = x) := by
    rintro x y hl ⟨h, rfl⟩
    have := h.eq_of_length (le_antisymm h.length_le hl)
    subst this
    exact ⟨List.suffix_rfl, rfl⟩
  rcases Nat.le_total y.length x.length with hl | hl
  · rw [main x y hl]
    exact ⟨Or.inr, fun h => h.elim (key x y hl) id⟩
  · rw [C50_symmetric, main y x hl]
    exact ⟨Or.inl, fun h => h.elim id (key y x hl)⟩

/-- The restriction to positive dimensions is needed: NumPy broadcasts `(0,)` with `(1,)` to `(0,)`, the function
refuses. -/
theorem C50_zero_dimension : NpBroadcast [0] [1] [0] ∧ (broadcastShape [0] [1] false).1 = false := by
  refine ⟨⟨rfl, fun i => ?_⟩, by decide⟩
  match i with
  | 0 => decide
  | i + 1 =>
    rw [dimR_ge [0] (i := i + 1) (by simp), dimR_ge [1] (i := i + 1) (by simp)]
    simp

end Verif
