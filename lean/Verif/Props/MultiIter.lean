import Verif.Model.MultiIter
import Mathlib.Tactic.Linarith
import Mathlib.Tactic.Ring
import Mathlib.Data.List.Forall2
import Mathlib.Algebra.BigOperators.Group.List.Basic
import Mathlib.Algebra.BigOperators.Ring.List
import Mathlib.Algebra.Order.BigOperators.Group.List

/-! C92: array parameters of `complex_normal` are paired with the samples by NumPy's broadcasting rule. -/

namespace Verif

/-- A multi-index into an array of shape `bs`. -/
def IsIdx (idx bs : List Nat) : Prop := List.Forall₂ (· < ·) idx bs

/-- Position of a multi-index in row-major order (last axis first in the lists). -/
def rank : List Nat → List Nat → Nat
  | i :: is, b :: bs => i + b * rank is bs
  | _, _ => 0

/-- Displacement of the element of an array that a multi-index of the broadcast shape refers to: axes the array lacks are
ignored and axes of length 1 are used with index 0. -/
def offAt : List (Nat × Int) → List Nat → Int
  | (d, s) :: ax, i :: is => (if d = 1 then 0 else (i : Int)) * s + offAt ax is
  | _, _ => 0

/-- The element of an array that a multi-index of the broadcast shape refers to. -/
def NdArr.at {α : Type} (a : NdArr α) (idx : List Nat) : Option α := a.mem (a.base + offAt a.axes idx)

/-- Length of axis `k` (from the last); NumPy supplies 1 for axes that are not there. -/
def dimL (x : List Nat) (k : Nat) : Nat := x.getD k 1

/-- NumPy's rule for the common shape of several arrays. -/
structure BcOf (shapes : List (List Nat)) (bs : List Nat) : Prop where
  length : (∀ x ∈ shapes, x.length ≤ bs.length) ∧ (bs = [] ∨ ∃ x ∈ shapes, x.length = bs.length)
  dims : ∀ k, (∀ x ∈ shapes, dimL x k = 1 ∨ dimL x k = dimL bs k) ∧ (dimL bs k = 1 ∨ ∃ x ∈ shapes, dimL x k = dimL bs k)

/-- One operand broadcasts to `bs`. -/
def FitsDims (x bs : List Nat) : Prop := x.length ≤ bs.length ∧ ∀ k, dimL x k = 1 ∨ dimL x k = dimL bs k

/-! ### the shape -/

theorem bcAxis_spec (ds : List Nat) (b : Nat) :
    bcAxis ds = some b ↔ (∀ d ∈ ds, d = 1 ∨ d = b) ∧ (b = 1 ∨ b ∈ ds) := by
  have gen : ∀ (ds : List Nat) (c : Nat), ds.foldlM bcStep c = some b ↔
      (c = 1 ∨ c = b) ∧ (∀ d ∈ ds, d = 1 ∨ d = b) ∧ (b = 1 ∨ b = c ∨ b ∈ ds) := by
    intro ds
    induction ds with
    | nil =>
      intro c
      simp only [List.foldlM_nil, Option.pure_def, Option.some.injEq, List.not_mem_nil, false_implies, implies_true,
        true_and, or_false]
      constructor
      · rintro rfl; exact ⟨Or.inr rfl, Or.inr rfl⟩
      · rintro ⟨h1 | h1, h2 | h2⟩ <;> omega
    | cons d ds ih =>
      intro c
      rw [List.foldlM_cons, show bcStep c d = if d = 1 then some c else if c = 1 then some d else
        if c = d then some c else none from rfl]
      by_cases h1 : d = 1
      · subst h1
        simp only [if_true, Option.bind_eq_bind, Option.bind_some]
        rw [ih]
        simp only [List.mem_cons, forall_eq_or_imp, true_or, true_and]
        constructor
        · rintro ⟨a, b, c⟩; exact ⟨a, b, by tauto⟩
        · rintro ⟨a, b, c⟩; exact ⟨a, b, by tauto⟩
      · rw [if_neg h1]
        by_cases h2 : c = 1
        · subst h2
          simp only [if_true, Option.bind_eq_bind, Option.bind_some]
          rw [ih]
          simp only [List.mem_cons, forall_eq_or_imp, h1, false_or, true_or, true_and]
          constructor
          · rintro ⟨a, b, c⟩; exact ⟨⟨a, b⟩, by tauto⟩
          · rintro ⟨⟨a, b⟩, c⟩; exact ⟨a, b, by tauto⟩
        · rw [if_neg h2]
          by_cases h3 : c = d
          · subst h3
            simp only [if_true, Option.bind_eq_bind, Option.bind_some]
            rw [ih]
            simp only [List.mem_cons, forall_eq_or_imp, h1, false_or]
            constructor
            · rintro ⟨a, b, c⟩; exact ⟨a, ⟨a, b⟩, by tauto⟩
            · rintro ⟨a, ⟨_, b⟩, c⟩; exact ⟨a, b, by tauto⟩
          · rw [if_neg h3]
            simp only [Option.bind_eq_bind, Option.bind_none, List.mem_cons, forall_eq_or_imp]
            constructor
            · intro h; cases h
            · rintro ⟨a, ⟨b, -⟩, -⟩
              omega
  unfold bcAxis
  rw [gen ds 1]
  constructor
  · rintro ⟨-, h, h'⟩; exact ⟨h, by tauto⟩
  · rintro ⟨h, h'⟩; exact ⟨Or.inl rfl, h, by tauto⟩

theorem foldl_max_spec (shapes : List (List Nat)) (m : Nat) :
    let r := shapes.foldl (fun m x => max m x.length) m
    m ≤ r ∧ (∀ x ∈ shapes, x.length ≤ r) ∧ (r = m ∨ ∃ x ∈ shapes, x.length = r) := by
  induction shapes generalizing m with
  | nil => simp
  | cons x xs ih =>
    simp only [List.foldl_cons]
    obtain ⟨h1, h2, h3⟩ := ih (max m x.length)
    refine ⟨by omega, ?_, ?_⟩
    · intro y hy
      rcases List.mem_cons.1 hy with rfl | hy
      · omega
      · exact h2 y hy
    · rcases h3 with h3 | ⟨y, hy, e⟩
      · rcases Nat.le_total x.length m with hl | hl
        · left; rw [h3]; omega
        · right; exact ⟨x, by simp, by rw [h3]; omega⟩
      · right; exact ⟨y, by simp [hy], e⟩

theorem mapM_some_iff {α β : Type} (f : α → Option β) (l : List α) (r : List β) :
    l.mapM f = some r ↔ List.Forall₂ (fun a b => f a = some b) l r := by
  induction l generalizing r with
  | nil => simp [eq_comm]
  | cons a l ih =>
    rw [List.mapM_cons]
    cases ha : f a with
    | none =>
      simp only [Option.bind_eq_bind, Option.bind_none]
      constructor
      · intro h; cases h
      · intro h; cases h with | cons h _ => rw [ha] at h; cases h
    | some b =>
      simp only [Option.bind_eq_bind, Option.bind_some]
      cases hl : l.mapM f with
      | none =>
        simp only [Option.bind_none]
        constructor
        · intro h; cases h
        · intro h
          cases h with
          | cons _ h => rw [(ih _).2 h] at hl; cases hl
      | some bs =>
        simp only [Option.bind_some, Option.pure_def, Option.some.injEq]
        constructor
        · rintro rfl; exact .cons ha ((ih _).1 hl)
        · intro h
          cases h with
          | cons h1 h2 =>
            rw [ha] at h1
            rw [(ih _).2 h2] at hl
            cases h1; cases hl; rfl

/-- C92, shape: `np.broadcast` of the operands has exactly the shape NumPy's rule gives and refuses when there is none. -/
theorem C92_shape (shapes : List (List Nat)) (bs : List Nat) : bcDims shapes = some bs ↔ BcOf shapes bs := by
  obtain ⟨-, m2, m3⟩ := foldl_max_spec shapes 0
  unfold bcDims
  generalize shapes.foldl (fun m x => max m x.length) 0 = m at m2 m3
  rw [mapM_some_iff]
  have key : ∀ k b, bcAxis (shapes.filterMap fun x => x[k]?) = some b ↔
      (∀ x ∈ shapes, dimL x k = 1 ∨ dimL x k = b) ∧ (b = 1 ∨ ∃ x ∈ shapes, dimL x k = b) := by
    intro k b
    rw [bcAxis_spec]
    have hd : ∀ x : List Nat, ∀ c, dimL x k = c ↔ x[k]? = some c ∨ (x[k]? = none ∧ c = 1) := by
      intro x c
      unfold dimL
      rw [List.getD_eq_getElem?_getD]
      cases x[k]? <;> simp [eq_comm]
    constructor
    · rintro ⟨h1, h2⟩
      refine ⟨fun x hx => ?_, ?_⟩
      · cases hxk : x[k]? with
        | none => left; rw [hd]; right; exact ⟨hxk, rfl⟩
        | some d =>
          rcases h1 d (List.mem_filterMap.2 ⟨x, hx, hxk⟩) with e | e
          · left; rw [hd]; left; rw [hxk, e]
          · right; rw [hd]; left; rw [hxk, e]
      · rcases h2 with h2 | h2
        · exact Or.inl h2
        · obtain ⟨x, hx, e⟩ := List.mem_filterMap.1 h2
          exact Or.inr ⟨x, hx, (hd x b).2 (Or.inl e)⟩
    · rintro ⟨h1, h2⟩
      refine ⟨fun d hdm => ?_, ?_⟩
      · obtain ⟨x, hx, e⟩ := List.mem_filterMap.1 hdm
        have : dimL x k = d := (hd x d).2 (Or.inl e)
        rw [← this]
        exact h1 x hx
      · rcases h2 with h2 | ⟨x, hx, e⟩
        · exact Or.inl h2
        · rcases (hd x b).1 e with e | e
          · exact Or.inr (List.mem_filterMap.2 ⟨x, hx, e⟩)
          · exact Or.inl e.2
  rw [List.forall₂_iff_get]
  simp only [List.length_range, List.get_eq_getElem, List.getElem_range]
  constructor
  · rintro ⟨hl, h⟩
    refine ⟨⟨fun x hx => hl ▸ m2 x hx, ?_⟩, fun k => ?_⟩
    · rcases m3 with e | ⟨x, hx, e⟩
      · left; exact List.length_eq_zero_iff.1 (by omega)
      · right; exact ⟨x, hx, by omega⟩
    · by_cases hk : k < bs.length
      · have := (key k _).1 (h k (by omega) hk)
        have e : dimL bs k = bs[k] := by
          unfold dimL; rw [List.getD_eq_getElem?_getD, List.getElem?_eq_getElem hk]; rfl
        rw [e]
        exact this
      · have e : dimL bs k = 1 := by
          unfold dimL; rw [List.getD_eq_getElem?_getD, List.getElem?_eq_none (by omega)]; rfl
        refine ⟨fun x hx => Or.inl ?_, Or.inl e⟩
        unfold dimL
        rw [List.getD_eq_getElem?_getD, List.getElem?_eq_none (by have := m2 x hx; omega)]; rfl
  · rintro ⟨⟨h1, h2⟩, h3⟩
    have hl : m = bs.length := by
      rcases h2 with rfl | ⟨x, hx, e⟩
      · rcases m3 with e | ⟨x, hx, e⟩
        · exact e
        · have := h1 x hx; simp at this; rw [← e, this]
      · have := m2 x hx
        rcases m3 with e' | ⟨y, hy, e'⟩
        · omega
        · have := h1 y hy; omega
    refine ⟨hl, fun k _ hk => ?_⟩
    rw [key]
    have e : dimL bs k = bs[k] := by
      unfold dimL; rw [List.getD_eq_getElem?_getD, List.getElem?_eq_getElem hk]; rfl
    rw [← e]
    exact h3 k

example : BcOf [[3, 1], [1, 2], [], [3]] [3, 2] := (C92_shape _ _).1 (by decide)

/-! ### the iterator -/

/-- An iterator at multi-index `c`. -/
def AtIdx : List IterAx → List Nat → List Nat → List Int → Prop
  | a :: as, c :: cs, b :: bs, s :: ss =>
    (a.coord = c ∧ a.dimM1 = (b : Int) - 1 ∧ a.stride = s ∧ a.back = s * ((b : Int) - 1) ∧ c < b) ∧ AtIdx as cs bs ss
  | [], [], [], [] => True
  | _, _, _, _ => False

/-- Scalar product of a multi-index and strides. -/
def dotIdx : List Nat → List Int → Int
  | c :: cs, s :: ss => c * s + dotIdx cs ss
  | _, _ => 0

theorem rank_lt {idx bs : List Nat} (h : IsIdx idx bs) : rank idx bs < bs.prod := by
  induction h with
  | nil => simp [rank]
  | @cons i b is bs hi _ ih =>
    simp only [rank, List.prod_cons]
    calc i + b * rank is bs < b + b * rank is bs := by omega
      _ = b * (rank is bs + 1) := by ring
      _ ≤ b * bs.prod := Nat.mul_le_mul_left _ ih

theorem rank_inj {idx idx' bs : List Nat} (h : IsIdx idx bs) (h' : IsIdx idx' bs) (e : rank idx bs = rank idx' bs) :
    idx = idx' := by
  induction h generalizing idx' with
  | nil => cases h'; rfl
  | @cons i b is bs hi _ ih =>
    cases h' with
    | @cons i' _ is' _ hi' h' =>
      simp only [rank] at e
      have e1 : i = i' := by
        have := congrArg (· % b) e
        simpa [Nat.add_mul_mod_self_left, Nat.mod_eq_of_lt hi, Nat.mod_eq_of_lt hi'] using this
      subst e1
      have : rank is bs = rank is' bs := Nat.eq_of_mul_eq_mul_left (by omega : 0 < b) (by omega)
      rw [ih h' this]

theorem iterNext_step {as : List IterAx} {cs bs : List Nat} {ss : List Int} (h : AtIdx as cs bs ss) (p : Int) :
    ∃ cs', AtIdx (iterNext as p).1 cs' bs ss ∧ (iterNext as p).2 = p - dotIdx cs ss + dotIdx cs' ss ∧
      (rank cs bs + 1 < bs.prod → rank cs' bs = rank cs bs + 1) ∧
      (rank cs bs + 1 = bs.prod → rank cs' bs = 0) := by
  induction as generalizing cs bs ss p with
  | nil =>
    cases cs <;> cases bs <;> cases ss <;> simp only [AtIdx] at h
    refine ⟨[], ?_, ?_, ?_, ?_⟩ <;> simp [iterNext, AtIdx, dotIdx, rank]
  | cons a as ih =>
    cases cs with
    | nil => cases bs <;> cases ss <;> simp only [AtIdx] at h
    | cons c cs =>
      cases bs with
      | nil => cases ss <;> simp only [AtIdx] at h
      | cons b bs =>
        cases ss with
        | nil => simp only [AtIdx] at h
        | cons s ss =>
          simp only [AtIdx] at h
          obtain ⟨⟨h1, h2, h3, h4, h5⟩, h6⟩ := h
          unfold iterNext
          by_cases hc : a.coord < a.dimM1
          · rw [if_pos hc]
            refine ⟨(c + 1) :: cs, ?_, ?_, ?_, ?_⟩
            · simp only [AtIdx]
              exact ⟨⟨by rw [h1]; push_cast; ring, h2, h3, h4, by omega⟩, h6⟩
            · simp only [dotIdx]
              rw [h3]; push_cast; ring
            · intro _; simp only [rank]; omega
            · intro hr
              exfalso
              simp only [rank, List.prod_cons] at hr
              have : (c + 1 + b * rank cs bs) % b = (b * bs.prod) % b := by rw [← hr]; congr 1; omega
              rw [Nat.add_mul_mod_self_left, Nat.mul_mod_right, Nat.mod_eq_of_lt (by omega)] at this
              omega
          · rw [if_neg hc]
            obtain ⟨cs', i1, i2, i3, i4⟩ := ih h6 (p - a.back)
            have hcb : c + 1 = b := by omega
            have hcb' : (b : Int) - 1 = c := by omega
            refine ⟨0 :: cs', ?_, ?_, ?_, ?_⟩
            · simp only [AtIdx]
              exact ⟨⟨rfl, h2, h3, h4, by omega⟩, i1⟩
            · simp only [dotIdx]
              rw [i2, h4, hcb']; push_cast; ring
            · intro hr
              simp only [rank, List.prod_cons] at hr ⊢
              have e : c + b * rank cs bs + 1 = b * (rank cs bs + 1) := by rw [Nat.mul_add]; omega
              rw [e] at hr ⊢
              rw [i3 (Nat.lt_of_mul_lt_mul_left hr)]; omega
            · intro hr
              simp only [rank, List.prod_cons] at hr ⊢
              have e : c + b * rank cs bs + 1 = b * (rank cs bs + 1) := by rw [Nat.mul_add]; omega
              rw [e] at hr
              rw [i4 (Nat.eq_of_mul_eq_mul_left (by omega : 0 < b) hr)]; omega

/-- The strides the iterator uses. -/
def iterStrides : List (Nat × Int) → List Nat → List Int
  | _, [] => []
  | [], _ :: bs => 0 :: iterStrides [] bs
  | (d, s) :: ax, b :: bs => (if d ≠ b then 0 else s) :: iterStrides ax bs

theorem iterAxes_start (ax : List (Nat × Int)) (bs : List Nat) (h0 : ∀ b ∈ bs, 0 < b) :
    AtIdx (iterAxes ax bs) (List.replicate bs.length 0) bs (iterStrides ax bs) := by
  induction bs generalizing ax with
  | nil => cases ax <;> simp [iterAxes, iterStrides, AtIdx]
  | cons b bs ih =>
    have hb : 0 < b := h0 b (by simp)
    have ih := fun ax => ih ax (fun b h => h0 b (by simp [h]))
    cases ax with
    | nil =>
      simp only [iterAxes, iterStrides, List.length_cons, List.replicate_succ, AtIdx]
      exact ⟨⟨by simp, by simp, by simp, by simp, hb⟩, ih []⟩
    | cons q ax =>
      obtain ⟨d, s⟩ := q
      simp only [iterAxes, iterStrides, List.length_cons, List.replicate_succ, AtIdx]
      exact ⟨⟨by simp, by simp, by simp, by simp, hb⟩, ih ax⟩

theorem rank_zero (bs : List Nat) : rank (List.replicate bs.length 0) bs = 0 := by
  induction bs with
  | nil => rfl
  | cons b bs ih => simp only [List.length_cons, List.replicate_succ, rank, ih]; omega

theorem dotIdx_zero (n : Nat) (ss : List Int) : dotIdx (List.replicate n 0) ss = 0 := by
  induction n generalizing ss with
  | zero => rfl
  | succ n ih => cases ss <;> simp [List.replicate_succ, dotIdx, ih]

theorem AtIdx.isIdx {as : List IterAx} {cs bs : List Nat} {ss : List Int} (h : AtIdx as cs bs ss) : IsIdx cs bs := by
  induction as generalizing cs bs ss with
  | nil => cases cs <;> cases bs <;> cases ss <;> simp only [AtIdx] at h; exact .nil
  | cons a as ih =>
    cases cs with
    | nil => cases bs <;> cases ss <;> simp only [AtIdx] at h
    | cons c cs =>
      cases bs with
      | nil => cases ss <;> simp only [AtIdx] at h
      | cons b bs =>
        cases ss with
        | nil => simp only [AtIdx] at h
        | cons s ss =>
          simp only [AtIdx] at h
          exact .cons h.1.2.2.2.2 (ih h.2)

theorem iterAfter_spec (ax : List (Nat × Int)) (bs : List Nat) (h0 : ∀ b ∈ bs, 0 < b) (p : Int) (i : Nat) (hi : i < bs.prod) :
    ∃ cs, AtIdx (iterAfter (iterAxes ax bs) p i).1 cs bs (iterStrides ax bs) ∧ rank cs bs = i ∧
      (iterAfter (iterAxes ax bs) p i).2 = p + dotIdx cs (iterStrides ax bs) := by
  induction i with
  | zero => exact ⟨_, iterAxes_start ax bs h0, rank_zero bs, by simp [iterAfter, dotIdx_zero]⟩
  | succ i ih =>
    obtain ⟨cs, h1, h2, h3⟩ := ih (by omega)
    obtain ⟨cs', g1, g2, g3, -⟩ := iterNext_step h1 (iterAfter (iterAxes ax bs) p i).2
    refine ⟨cs', g1, by rw [g3 (by omega), h2], ?_⟩
    simp only [iterAfter]
    rw [g2, h3]; ring

theorem offAt_eq (ax : List (Nat × Int)) (bs idx : List Nat) (hf : FitsDims (ax.map Prod.fst) bs) (hi : IsIdx idx bs) :
    offAt ax idx = dotIdx idx (iterStrides ax bs) := by
  induction hi generalizing ax with
  | nil =>
    cases ax with
    | nil => rfl
    | cons q ax => have := hf.1; simp at this
  | @cons i b is bs hib _ ih =>
    cases ax with
    | nil =>
      have := ih [] ⟨by simp, fun k => Or.inl (by simp [dimL])⟩
      simp only [offAt] at this
      simp only [offAt, iterStrides, dotIdx, ← this]; simp
    | cons q ax =>
      obtain ⟨d, s⟩ := q
      have h0 := hf.2 0
      simp only [dimL, List.map_cons, List.getD_cons_zero] at h0
      have := ih ax ⟨by have := hf.1; simpa using this, fun k => by
        have := hf.2 (k + 1)
        simpa [dimL] using this⟩
      simp only [offAt, iterStrides, dotIdx, ← this]
      by_cases hdb : d = b
      · subst hdb
        by_cases h1 : d = 1
        · subst h1
          have : i = 0 := by omega
          subst this; simp
        · simp [h1]
      · have h1 : d = 1 := by rcases h0 with h | h
                              · exact h
                              · exact absurd h hdb
        subst h1
        simp [hdb]

/-- C92, iterator: in the iteration with the row-major number of a multi-index, the data pointer of every operand stands on
the element the broadcasting rule assigns to that index, whatever its strides. -/
theorem C92_iter {α : Type} (a : NdArr α) (bs idx : List Nat) (hf : FitsDims a.dims bs) (hi : IsIdx idx bs) :
    iterRead bs a (rank idx bs) = a.at idx := by
  have h0 : ∀ b ∈ bs, 0 < b := by
    clear hf
    induction hi with
    | nil => simp
    | cons hi _ ih => intro b hb; rcases List.mem_cons.1 hb with rfl | hb
                      · omega
                      · exact ih b hb
  obtain ⟨cs, h1, h2, h3⟩ := iterAfter_spec a.axes bs h0 a.base _ (rank_lt hi)
  have : cs = idx := rank_inj h1.isIdx hi h2
  subst this
  unfold iterRead NdArr.at
  rw [h3, offAt_eq a.axes bs cs hf hi]

example : FitsDims [3, 1] [3, 2] ∧ IsIdx [2, 1] [3, 2] :=
  ⟨⟨by decide, fun k => by
    match k with
    | 0 => right; rfl
    | 1 => left; rfl
    | k + 2 => left; rfl⟩, .cons (by decide) (.cons (by decide) .nil)⟩

/-! ### complex_normal -/

/-- An array as NumPy makes it: every multi-index refers to a readable element. -/
def NdArr.Valid {α : Type} (a : NdArr α) : Prop := ∀ idx, IsIdx idx a.dims → (a.at idx).isSome

theorem offAt_clip (ax : List (Nat × Int)) (bs idx : List Nat) (hf : FitsDims (ax.map Prod.fst) bs) (hi : IsIdx idx bs) :
    ∃ idx', IsIdx idx' (ax.map Prod.fst) ∧ offAt ax idx = offAt ax idx' := by
  induction hi generalizing ax with
  | nil =>
    cases ax with
    | nil => exact ⟨[], .nil, rfl⟩
    | cons q ax => have := hf.1; simp at this
  | @cons i b is bs hib _ ih =>
    cases ax with
    | nil => exact ⟨[], .nil, rfl⟩
    | cons q ax =>
      obtain ⟨d, s⟩ := q
      have h0 := hf.2 0
      simp only [dimL, List.map_cons, List.getD_cons_zero] at h0
      obtain ⟨idx', h1, h2⟩ := ih ax ⟨by have := hf.1; simpa using this, fun k => by
        have := hf.2 (k + 1)
        simpa [dimL] using this⟩
      by_cases hd : d = 1
      · subst hd
        exact ⟨0 :: idx', .cons (show 0 < 1 by decide) h1, by simp [offAt, h2]⟩
      · have hdb : d = b := h0.resolve_left hd
        exact ⟨i :: idx', .cons (by rw [hdb]; exact hib) h1, by simp [offAt, h2]⟩

theorem NdArr.Valid.at {α : Type} {a : NdArr α} (h : a.Valid) {bs idx : List Nat} (hf : FitsDims a.dims bs)
    (hi : IsIdx idx bs) : (a.at idx).isSome := by
  obtain ⟨idx', h1, h2⟩ := offAt_clip a.axes bs idx hf hi
  have := h idx' h1
  unfold NdArr.at at this ⊢
  rw [h2]
  exact this

theorem exists_idx (bs : List Nat) (i : Nat) (hi : i < bs.prod) : ∃ idx, IsIdx idx bs ∧ rank idx bs = i := by
  induction bs generalizing i with
  | nil => exact ⟨[], .nil, by simp at hi; simp [rank, hi]⟩
  | cons b bs ih =>
    rw [List.prod_cons] at hi
    have hb : 0 < b := Nat.pos_of_ne_zero fun h => by subst h; simp at hi
    obtain ⟨idx, h1, h2⟩ := ih (i / b) (Nat.div_lt_of_lt_mul hi)
    exact ⟨i % b :: idx, .cons (Nat.mod_lt _ hb) h1, by simp only [rank, h2]; exact Nat.mod_add_div i b⟩

theorem prod_le_of_fits {x bs : List Nat} (hf : FitsDims x bs) (h0 : ∀ b ∈ bs, 0 < b) : x.prod ≤ bs.prod := by
  induction bs generalizing x with
  | nil =>
    have := hf.1
    simp at this
    subst this
    exact Nat.le_refl _
  | cons b bs ih =>
    have hb : 0 < b := h0 b (by simp)
    cases x with
    | nil =>
      rw [List.prod_nil]
      exact Nat.one_le_iff_ne_zero.2 (by
        intro h
        rw [List.prod_eq_zero_iff] at h
        exact absurd (h0 0 h) (by decide))
    | cons d x =>
      have h0' := hf.2 0
      simp only [dimL, List.getD_cons_zero] at h0'
      have := ih (x := x) ⟨by have := hf.1; simpa using this, fun k => by
        have := hf.2 (k + 1)
        simpa [dimL] using this⟩ (fun b h => h0 b (by simp [h]))
      rw [List.prod_cons, List.prod_cons]
      exact Nat.mul_le_mul (by omega) this

theorem BcOf.fits {shapes : List (List Nat)} {bs : List Nat} (h : BcOf shapes bs) {x : List Nat} (hx : x ∈ shapes) :
    FitsDims x bs := ⟨h.length.1 x hx, fun k => (h.dims k).1 x hx⟩

/-- The values an iteration uses, when the iteration number belongs to a multi-index. -/
theorem reads_ok {α : Type} (ops : List (NdArr α)) (bs idx : List Nat) (hf : ∀ a ∈ ops, FitsDims a.dims bs)
    (hv : ∀ a ∈ ops, a.Valid) (hi : IsIdx idx bs) :
    ∃ vs, (ops.mapM fun a => iterRead bs a (rank idx bs)) = some vs ∧ ops.map (fun a => a.at idx) = vs.map some := by
  induction ops with
  | nil => exact ⟨[], rfl, rfl⟩
  | cons a ops ih =>
    obtain ⟨vs, h1, h2⟩ := ih (fun a h => hf a (by simp [h])) (fun a h => hv a (by simp [h]))
    obtain ⟨v, h3⟩ := Option.isSome_iff_exists.1 ((hv a (by simp)).at (hf a (by simp)) hi)
    refine ⟨v :: vs, ?_, by simp [h3, h2]⟩
    rw [List.mapM_cons, h1, C92_iter a bs idx (hf a (by simp)) hi, h3]
    rfl

/-- C92, every accepted call: if `size` (or, without it, the common shape of the parameters) and the parameters have the
common shape `bs` and none of its lengths is 0, no read is invalid, the result has the requested shape, and sample number
`i` is made from the normals `2i` and `2i + 1` and from every parameter at the index that has number `i` in `bs`. -/
theorem C92_accepted {α β γ : Type} (size : Option (List Nat)) (shape bs : List Nat) (ops : List (NdArr α))
    (hsz : size = some shape ∨ (size = none ∧ BcOf (ops.map NdArr.dims) shape))
    (hb : BcOf (shape :: ops.map NdArr.dims) bs) (h0 : ∀ b ∈ bs, 0 < b) (hv : ∀ a ∈ ops, a.Valid)
    (normal : Nat → β) (f : β → β → List α → γ) :
    ∃ l, cnLoop size ops normal f = some (some (shape, l)) ∧ l.length = shape.prod ∧
      ∀ i, i < shape.prod → ∃ idx vs, IsIdx idx bs ∧ rank idx bs = i ∧ ops.map (fun a => a.at idx) = vs.map some ∧
        l[i]? = some (f (normal (2 * i)) (normal (2 * i + 1)) vs) := by
  have hshape : cnShape size (ops.map NdArr.dims) = some shape := by
    rcases hsz with rfl | ⟨rfl, h⟩
    · rfl
    · exact (C92_shape _ _).2 h
  have hle : shape.prod ≤ bs.prod := prod_le_of_fits (hb.fits (by simp)) h0
  have hf : ∀ a ∈ ops, FitsDims a.dims bs := fun a ha => hb.fits (List.mem_cons_of_mem _ (List.mem_map.2 ⟨a, ha, rfl⟩))
  have step : ∀ i, i < shape.prod → ∃ idx vs, IsIdx idx bs ∧ rank idx bs = i ∧ ops.map (fun a => a.at idx) = vs.map some ∧
      (ops.mapM fun a => iterRead bs a i) = some vs := by
    intro i hi
    obtain ⟨idx, h1, h2⟩ := exists_idx bs i (by omega)
    obtain ⟨vs, h3, h4⟩ := reads_ok ops bs idx hf hv h1
    rw [h2] at h3
    exact ⟨idx, vs, h1, h2, h4, h3⟩
  have hall : ∃ l, ((List.range shape.prod).mapM fun i =>
      (ops.mapM fun a => iterRead bs a i).map (f (normal (2 * i)) (normal (2 * i + 1)))) = some l := by
    rw [← Option.isSome_iff_exists]
    have gen : ∀ is : List Nat, (∀ i ∈ is, i < shape.prod) → (is.mapM fun i =>
        (ops.mapM fun a => iterRead bs a i).map (f (normal (2 * i)) (normal (2 * i + 1)))).isSome := by
      intro is
      induction is with
      | nil => intro _; rfl
      | cons i is ih =>
        intro h
        obtain ⟨l, hl⟩ := Option.isSome_iff_exists.1 (ih fun j hj => h j (by simp [hj]))
        obtain ⟨_, vs, -, -, -, e⟩ := step i (h i (by simp))
        rw [List.mapM_cons, hl, e]
        rfl
    exact gen _ fun i hi => List.mem_range.1 hi
  obtain ⟨l, hl⟩ := hall
  refine ⟨l, ?_, ?_, ?_⟩
  · unfold cnLoop
    rw [hshape]
    simp only
    rw [(C92_shape _ _).2 hb]
    simp only
    rw [hl]
  · rw [mapM_some_iff] at hl
    rw [← hl.length_eq, List.length_range]
  · intro i hi
    obtain ⟨idx, vs, h1, h2, h3, h4⟩ := step i hi
    refine ⟨idx, vs, h1, h2, h3, ?_⟩
    rw [mapM_some_iff, List.forall₂_iff_get] at hl
    obtain ⟨hlen, hl⟩ := hl
    have hi' : i < l.length := by rw [← hlen, List.length_range]; exact hi
    have := hl i (by simpa using hi) hi'
    simp only [List.get_eq_getElem, List.getElem_range, h4, Option.map_some] at this
    rw [List.getElem?_eq_getElem hi']
    exact this.symm

/-- C92 with `size` omitted or equal to the common shape of the parameters: the sample at every multi-index is made from
two normals of its own and from each parameter at that index, broadcast by NumPy's rule. Missing: other values of `size`
are not refused (`not_C92_size`, `not_C92_rows`, `not_C92_empty`). -/
theorem C92_broadcast_partial {α β γ : Type} (size : Option (List Nat)) (bs : List Nat) (ops : List (NdArr α))
    (hsz : size = none ∨ size = some bs) (hb : BcOf (ops.map NdArr.dims) bs) (h0 : ∀ b ∈ bs, 0 < b)
    (hv : ∀ a ∈ ops, a.Valid) (normal : Nat → β) (f : β → β → List α → γ) :
    ∃ l, cnLoop size ops normal f = some (some (bs, l)) ∧ l.length = bs.prod ∧
      ∀ idx, IsIdx idx bs → ∃ vs, ops.map (fun a => a.at idx) = vs.map some ∧
        l[rank idx bs]? = some (f (normal (2 * rank idx bs)) (normal (2 * rank idx bs + 1)) vs) := by
  have hb' : BcOf (bs :: ops.map NdArr.dims) bs := by
    refine ⟨⟨?_, Or.inr ⟨bs, by simp, rfl⟩⟩, fun k => ⟨?_, Or.inr ⟨bs, by simp, rfl⟩⟩⟩
    · intro x hx
      rcases List.mem_cons.1 hx with rfl | hx
      · exact Nat.le_refl _
      · exact hb.length.1 x hx
    · intro x hx
      rcases List.mem_cons.1 hx with rfl | hx
      · exact Or.inr rfl
      · exact (hb.dims k).1 x hx
  obtain ⟨l, h1, h2, h3⟩ := C92_accepted size bs bs ops (hsz.symm.imp id fun h => ⟨h, hb⟩) hb' h0 hv normal f
  refine ⟨l, h1, h2, fun idx hi => ?_⟩
  obtain ⟨idx', vs, g1, g2, g3, g4⟩ := h3 _ (rank_lt hi)
  have : idx' = idx := rank_inj g1 hi g2
  subst this
  exact ⟨vs, g3, g4⟩

/-- An array with the given elements, in C order, at successive addresses. -/
def cArr (axes : List (Nat × Int)) (l : List Int) : NdArr Int :=
  ⟨axes, 0, fun p => if 0 ≤ p then l[p.toNat]? else none⟩

/-- `loc` of shape (2, 1) and `var` of shape (3,), no `size`: shape (2, 3). -/
example : cnLoop none [cArr [(1, 1), (2, 1)] [10, 20], cArr [(3, 1)] [1, 2, 3]] (fun n => n) (fun a b vs => (a, b, vs)) =
    some (some ([3, 2], [(0, 1, [10, 1]), (2, 3, [10, 2]), (4, 5, [10, 3]), (6, 7, [20, 1]), (8, 9, [20, 2]),
      (10, 11, [20, 3])])) := rfl

/-- C92, refusal: a `size` that has no common shape with the parameters is refused. -/
theorem C92_refused {α β γ : Type} (shape : List Nat) (ops : List (NdArr α))
    (h : ¬ ∃ bs, BcOf (shape :: ops.map NdArr.dims) bs) (normal : Nat → β) (f : β → β → List α → γ) :
    cnLoop (some shape) ops normal f = some none := by
  have : bcDims (shape :: ops.map NdArr.dims) = none := by
    rw [Option.eq_none_iff_forall_ne_some]
    intro bs hb
    exact h ⟨bs, (C92_shape _ _).1 hb⟩
  unfold cnLoop cnShape
  simp only
  rw [this]

example : ¬ ∃ bs, BcOf [[2], [3]] bs := by
  rintro ⟨bs, h⟩
  have := (C92_shape _ _).2 h
  revert this
  rw [show bcDims [[2], [3]] = none by decide]
  simp

/-- C92 fails for a `size` the parameters cannot be broadcast to: `complex_normal(loc=[1, 2, 3], size=1)` is accepted and
uses the first location only; the others are dropped silently. -/
theorem not_C92_size : ¬ FitsDims [3] [1] ∧
    cnLoop (some [1]) [cArr [(3, 1)] [1, 2, 3]] (fun n => n) (fun a b vs => (a, b, vs)) =
      some (some ([1], [(0, 1, [1])])) := by
  refine ⟨fun h => ?_, rfl⟩
  have := h.2 0
  revert this
  decide

/-- C92 fails: with `size=(2, 1)` and three locations the two samples, one per row, use the locations 0 and 1, as if the
second row began in the middle of the parameters. -/
theorem not_C92_rows : ¬ FitsDims [3] [1, 2] ∧
    cnLoop (some [1, 2]) [cArr [(3, 1)] [1, 2, 3]] (fun n => n) (fun a b vs => (a, b, vs)) =
      some (some ([1, 2], [(0, 1, [1]), (2, 3, [2])])) := by
  refine ⟨fun h => ?_, rfl⟩
  have := h.2 0
  revert this
  decide

/-- C92 fails: with an empty parameter array and `size=1` the loop reads from an array that has no elements. -/
theorem not_C92_empty : (cArr [(0, 1)] []).Valid ∧
    cnLoop (some [1]) [cArr [(0, 1)] []] (fun n => n) (fun a b vs => (a, b, vs)) = none := by
  refine ⟨fun idx h => ?_, by decide⟩
  cases h with
  | cons h _ => exact absurd h (Nat.not_lt_zero _)

/-- C92, memory: an accepted call whose common shape contains a length 0 reads outside its parameters exactly if the
requested shape has elements; otherwise nothing is read. -/
theorem C92_empty_exact {α β γ : Type} (shape bs : List Nat) (ops : List (NdArr α)) (hb : BcOf (shape :: ops.map NdArr.dims) bs)
    (h0 : 0 ∈ bs) (hm : ∀ a ∈ ops, 0 ∈ a.dims → ∀ p, a.mem p = none) (normal : Nat → β) (f : β → β → List α → γ) :
    (cnLoop (some shape) ops normal f = none ↔ 0 ∉ shape) ∧
    (0 ∈ shape → cnLoop (some shape) ops normal f = some (some (shape, []))) := by
  have hun : cnLoop (some shape) ops normal f =
      match (List.range shape.prod).mapM fun i =>
        (ops.mapM fun a => iterRead bs a i).map (f (normal (2 * i)) (normal (2 * i + 1))) with
      | none => none
      | some l => some (some (shape, l)) := by
    unfold cnLoop cnShape
    simp only
    rw [(C92_shape _ _).2 hb]
    rfl
  have hempty : 0 ∈ shape → cnLoop (some shape) ops normal f = some (some (shape, [])) := by
    intro h
    rw [hun, show shape.prod = 0 from List.prod_eq_zero h]
    rfl
  refine ⟨⟨fun h hz => ?_, fun hz => ?_⟩, hempty⟩
  · rw [hempty hz] at h; cases h
  · have hpos : 0 < shape.prod := Nat.pos_of_ne_zero fun h => hz (List.prod_eq_zero_iff.1 h)
    have hop : ∃ a ∈ ops, 0 ∈ a.dims := by
      obtain ⟨k, hk, e⟩ := List.mem_iff_getElem.1 h0
      have hd : dimL bs k = 0 := by
        unfold dimL; rw [List.getD_eq_getElem?_getD, List.getElem?_eq_getElem hk, e]; rfl
      rcases (hb.dims k).2 with h | ⟨x, hx, h⟩
      · omega
      · rw [hd] at h
        have hmem : 0 ∈ x := by
          unfold dimL at h
          rw [List.getD_eq_getElem?_getD] at h
          cases hxk : x[k]? with
          | none => rw [hxk] at h; simp at h
          | some d =>
            rw [hxk] at h
            simp only [Option.getD_some] at h
            subst h
            exact List.mem_of_getElem? hxk
        rcases List.mem_cons.1 hx with rfl | hx
        · exact absurd hmem hz
        · obtain ⟨a, ha, rfl⟩ := List.mem_map.1 hx
          exact ⟨a, ha, hmem⟩
    obtain ⟨a, ha, ha0⟩ := hop
    have hnone : (ops.mapM fun a => iterRead bs a 0) = none := by
      rw [Option.eq_none_iff_forall_ne_some]
      intro vs hvs
      rw [mapM_some_iff] at hvs
      obtain ⟨hl, hg⟩ := List.forall₂_iff_get.1 hvs
      obtain ⟨k, hk, ek⟩ := List.mem_iff_getElem.1 ha
      have e := hg k hk (by omega)
      simp only [List.get_eq_getElem, ek] at e
      unfold iterRead at e
      rw [hm a ha ha0] at e
      cases e
    rw [hun]
    obtain ⟨n, hn⟩ : ∃ n, shape.prod = n + 1 := ⟨shape.prod - 1, by omega⟩
    rw [hn, List.range_succ_eq_map, List.mapM_cons, hnone]
    rfl

example : BcOf [[1], [0]] [0] := (C92_shape _ _).1 (by decide)

end Verif
