import Verif.Model.MvnBatch
import Verif.Props.MultiIter

/-! C93: `multivariate_normal` with batches of means and covariances. -/

namespace Verif

/-- Leading shape after the reshape of a single mean or covariance (generator.pyx:514-517). -/
def lead1 (l : List Nat) : List Nat := if l = [] then [1] else l

theorem mvnBatch_eq (size : Option (List Nat)) (ml cl : List Nat) : mvnBatch size ml cl =
    (bcDims [lead1 ml, lead1 cl]).bind fun os => (mvnOut size os).bind fun out => (bcDims [out, lead1 cl]).bind fun prod =>
      (bcDims [lead1 ml, prod]).bind fun fin =>
        some (if (ml = [] ∧ cl = []) ∧ fin.getLast? = some 1 then fin.dropLast else fin,
          fun idx => ⟨clipIdx (lead1 ml) idx, clipIdx out (clipIdx prod idx), clipIdx (lead1 cl) (clipIdx prod idx)⟩) :=
  rfl

theorem dimL_ext {x y : List Nat} (hl : x.length = y.length) (h : ∀ k, dimL x k = dimL y k) : x = y := by
  apply List.ext_getElem hl
  intro k h1 h2
  have := h k
  unfold dimL at this
  rw [List.getD_eq_getElem?_getD, List.getD_eq_getElem?_getD, List.getElem?_eq_getElem h1, List.getElem?_eq_getElem h2] at this
  exact this

theorem dimL_pos {bs : List Nat} (h0 : ∀ b ∈ bs, 0 < b) (k : Nat) : 0 < dimL bs k := by
  unfold dimL
  rw [List.getD_eq_getElem?_getD]
  cases h : bs[k]? with
  | none => simp
  | some b => exact h0 b (List.mem_of_getElem? h)

theorem dimL_ge {x : List Nat} {k : Nat} (h : x.length ≤ k) : dimL x k = 1 := by
  unfold dimL
  rw [List.getD_eq_getElem?_getD, List.getElem?_eq_none h]
  rfl

theorem mvnZip_some (s os r : List Nat) : mvnZip s os = some r ↔ os.length ≤ s.length ∧ r.length = s.length ∧
    ∀ k, (dimL s k = 1 ∨ dimL os k = 1 ∨ dimL s k = dimL os k) ∧
      dimL r k = if k < os.length then max (dimL s k) (dimL os k) else dimL s k := by
  induction os generalizing s r with
  | nil =>
    have : mvnZip s [] = some s := by cases s <;> rfl
    rw [this]
    constructor
    · intro h
      cases h
      exact ⟨Nat.zero_le _, rfl, fun k => ⟨Or.inr (Or.inl rfl), by simp⟩⟩
    · rintro ⟨-, h, h'⟩
      rw [dimL_ext h fun k => by simpa using (h' k).2]
  | cons o os ih =>
    cases s with
    | nil => simp [mvnZip]
    | cons a s =>
      simp only [mvnZip]
      constructor
      · intro h
        split at h
        · rename_i hc
          rw [Option.map_eq_some_iff] at h
          obtain ⟨r', hr, rfl⟩ := h
          obtain ⟨h1, h2, h3⟩ := (ih s r').1 hr
          refine ⟨by simpa using h1, by simpa using h2, fun k => ?_⟩
          cases k with
          | zero => simpa [dimL] using hc
          | succ k =>
            have := h3 k
            simpa [dimL] using this
        · cases h
      · rintro ⟨h1, h2, h3⟩
        cases r with
        | nil => simp at h2
        | cons b r =>
          have h0 := h3 0
          simp only [dimL, List.getD_cons_zero, List.length_cons, Nat.zero_lt_succ, if_true] at h0
          rw [if_pos h0.1, (ih s r).2 ⟨by simpa using h1, by simpa using h2, fun k => by
            have := h3 (k + 1)
            simpa [dimL] using this⟩, h0.2]
          rfl

theorem clipIdx_self {bs idx : List Nat} (h : IsIdx idx bs) : clipIdx bs idx = idx := by
  induction h with
  | nil => rfl
  | @cons i b is bs hi _ ih =>
    simp only [clipIdx, ih]
    by_cases hb : b = 1
    · rw [if_pos hb]; congr 1; omega
    · rw [if_neg hb]

/-- A batch with its own shape `x` as an operand of a broadcast that already has the final shape. -/
theorem BcOf.absorb {x bs : List Nat} (h : FitsDims x bs) : BcOf [bs, x] bs ∧ BcOf [x, bs] bs := by
  constructor
  · refine ⟨⟨?_, Or.inr ⟨bs, by simp, rfl⟩⟩, fun k => ⟨?_, Or.inr ⟨bs, by simp, rfl⟩⟩⟩
    · simpa using h.1
    · simpa using h.2 k
  · refine ⟨⟨?_, Or.inr ⟨bs, by simp, rfl⟩⟩, fun k => ⟨?_, Or.inr ⟨bs, by simp, rfl⟩⟩⟩
    · simpa using h.1
    · simpa using h.2 k

theorem mvnOut_pos {size : Option (List Nat)} {m c os bs : List Nat} (hos : BcOf [m, c] os) (h0 : ∀ b ∈ bs, 0 < b)
    (h : (size = none ∧ bs = os) ∨ ∃ s, size = some s ∧ os.length ≤ s.length ∧ BcOf [s, m, c] bs) :
    mvnOut size os = some bs := by
  rcases h with ⟨rfl, rfl⟩ | ⟨s, rfl, hl, hb⟩
  · rfl
  · simp only [mvnOut]
    rw [if_neg (by omega), mvnZip_some]
    obtain ⟨⟨l1, l2⟩, l3⟩ := hos
    obtain ⟨⟨b1, b2⟩, b3⟩ := hb
    simp only [List.mem_cons, List.not_mem_nil, or_false, forall_eq_or_imp, forall_eq, exists_eq_or_imp,
      exists_eq_left] at l1 l2 l3 b1 b2 b3
    have hlen : bs.length = s.length := by
      rcases b2 with rfl | b2 | b2 | b2
      · have := b1.1; simp at this; simp [this]
      · exact b2.symm
      · omega
      · omega
    refine ⟨hl, hlen, fun k => ?_⟩
    have hp := dimL_pos h0 k
    obtain ⟨c1, c2⟩ := b3 k
    obtain ⟨d1, d2⟩ := l3 k
    have hk : ¬ k < os.length → dimL os k = 1 ∧ dimL m k = 1 ∧ dimL c k = 1 :=
      fun h => ⟨dimL_ge (by omega), dimL_ge (by omega), dimL_ge (by omega)⟩
    by_cases hlt : k < os.length
    · rw [if_pos hlt]
      constructor <;> omega
    · rw [if_neg hlt]
      have := hk hlt
      constructor <;> omega

/-- C93: if `size` is omitted, or has at least as many axes as the common leading shape of means and covariances, and no
length of the common shape `bs` is 0, the result has leading shape `bs` (without the first axis if it is 1 and there is one
mean and one covariance), and the sample at every index is made from the mean and the factor at that index, broadcast by
NumPy's rule, and from the normals at that index, which no other sample uses. Missing: `size=()` and lengths 0
(`not_C93_empty_size`, `not_C93_zero`). -/
theorem C93_batched_partial (size : Option (List Nat)) (ml cl os bs : List Nat) (hos : BcOf [lead1 ml, lead1 cl] os)
    (h : (size = none ∧ bs = os) ∨ ∃ s, size = some s ∧ os.length ≤ s.length ∧ BcOf [s, lead1 ml, lead1 cl] bs)
    (h0 : ∀ b ∈ bs, 0 < b) :
    ∃ src, mvnBatch size ml cl =
        some (if (ml = [] ∧ cl = []) ∧ bs.getLast? = some 1 then bs.dropLast else bs, src) ∧
      ∀ idx, IsIdx idx bs → src idx = ⟨clipIdx (lead1 ml) idx, idx, clipIdx (lead1 cl) idx⟩ := by
  have hout := mvnOut_pos hos h0 h
  have hfit : FitsDims (lead1 ml) bs ∧ FitsDims (lead1 cl) bs := by
    rcases h with ⟨-, rfl⟩ | ⟨s, -, -, hb⟩
    · exact ⟨hos.fits (by simp), hos.fits (by simp)⟩
    · exact ⟨hb.fits (by simp), hb.fits (by simp)⟩
  have e1 := (C92_shape _ _).2 (BcOf.absorb hfit.2).1
  have e2 := (C92_shape _ _).2 (BcOf.absorb hfit.1).2
  have e0 := (C92_shape _ _).2 hos
  refine ⟨fun idx => ⟨clipIdx (lead1 ml) idx, clipIdx bs (clipIdx bs idx), clipIdx (lead1 cl) (clipIdx bs idx)⟩, ?_, ?_⟩
  · rw [mvnBatch_eq, e0]
    simp only [Option.bind_some]
    rw [hout]
    simp only [Option.bind_some]
    rw [e1]
    simp only [Option.bind_some]
    rw [e2]
    rfl
  · intro idx hi
    simp only [clipIdx_self hi]

/-- Means of shape (2, 1, N), covariances of shape (3, N, N), size (4, 2, 3): leading shape (4, 2, 3). -/
example : BcOf [lead1 [1, 2], lead1 [3]] [3, 2] ∧ BcOf [[3, 2, 4], lead1 [1, 2], lead1 [3]] [3, 2, 4] ∧
    (mvnBatch (some [3, 2, 4]) [1, 2] [3]).map (fun p => (p.1, p.2 [2, 1, 3])) =
      some ([3, 2, 4], ⟨[0, 1], [2, 1, 3], [2]⟩) :=
  ⟨(C92_shape _ _).1 (by decide), (C92_shape _ _).1 (by decide), by decide⟩

/-- C93, refusal: means and covariances without a common shape are refused, and so is a non-empty `size` with fewer axes
than their common shape or with no common shape with it. -/
theorem C93_refused (size : Option (List Nat)) (ml cl : List Nat) :
    ((¬ ∃ os, BcOf [lead1 ml, lead1 cl] os) → mvnBatch size ml cl = none) ∧
    (∀ s os, size = some s → s ≠ [] → BcOf [lead1 ml, lead1 cl] os → (s.length < os.length ∨ ¬ ∃ bs, BcOf [s, os] bs) →
      mvnBatch size ml cl = none) := by
  constructor
  · intro h
    have e0 : bcDims [lead1 ml, lead1 cl] = none := by
      rw [Option.eq_none_iff_forall_ne_some]
      exact fun os ho => h ⟨os, (C92_shape _ _).1 ho⟩
    rw [mvnBatch_eq, e0]
    rfl
  · rintro s os rfl hs hos h
    have hout : mvnOut (some s) os = none := by
      simp only [mvnOut]
      by_cases hl : s.length < os.length
      · rw [if_pos hl, if_neg hs]
      · rw [if_neg hl, Option.eq_none_iff_forall_ne_some]
        intro r hr
        rcases h with h | h
        · exact hl h
        · obtain ⟨z1, z2, z3⟩ := (mvnZip_some s os r).1 hr
          apply h
          refine ⟨(List.range s.length).map fun k => if dimL s k = 1 then dimL os k else dimL s k, ⟨?_, ?_⟩, ?_⟩
          · simpa using z1
          · right; exact ⟨s, by simp, by simp⟩
          · intro k
            have hd : dimL ((List.range s.length).map fun k => if dimL s k = 1 then dimL os k else dimL s k) k =
                if dimL s k = 1 then dimL os k else dimL s k := by
              by_cases hk : k < s.length
              · conv_lhs => unfold dimL
                rw [List.getD_eq_getElem?_getD, List.getElem?_map, List.getElem?_range hk]
                rfl
              · rw [dimL_ge (by simpa using hk), dimL_ge (by omega), if_pos rfl, dimL_ge (by omega)]
            rw [hd]
            simp only [List.mem_cons, List.not_mem_nil, or_false, forall_eq_or_imp, forall_eq, exists_eq_or_imp,
              exists_eq_left]
            have := (z3 k).1
            split <;> omega
    have e0 := (C92_shape _ _).2 hos
    rw [mvnBatch_eq, e0]
    simp only [Option.bind_some]
    rw [hout]
    rfl

example : ¬ ∃ bs, BcOf [[2], [3]] bs := by
  rintro ⟨bs, h⟩
  have := (C92_shape _ _).2 h
  rw [show bcDims [[2], [3]] = none by decide] at this
  cases this

/-- C93 fails for `size=()`: nothing is refused, and with two covariances both samples are made from the same normals, so
they are not independent. -/
theorem not_C93_empty_size : ∃ src, mvnBatch (some []) [] [2] = some ([2], src) ∧
    (src [0]).factor ≠ (src [1]).factor ∧ (src [0]).normal = (src [1]).normal :=
  ⟨_, rfl, by decide, rfl⟩

/-- C93, `size=()`, exact: the call is accepted whenever it is without `size`, and all the samples of the result share one
vector of normals. -/
theorem C93_empty_size (ml cl os : List Nat) (hos : BcOf [lead1 ml, lead1 cl] os) :
    ∃ shape src, mvnBatch (some []) ml cl = some (shape, src) ∧ ∀ idx, (src idx).normal = [] := by
  have e0 := (C92_shape _ _).2 hos
  have hl : 0 < os.length := by
    have := hos.length.1 (lead1 ml) (by simp)
    have h1 : 0 < (lead1 ml).length := by
      unfold lead1
      split
      · decide
      · rename_i h; exact List.length_pos_iff.2 h
    omega
  have hout : mvnOut (some []) os = some [] := by simp [mvnOut, hl]
  have e1 : bcDims [[], lead1 cl] = some (lead1 cl) := by
    rw [C92_shape]
    exact ⟨⟨by simp, Or.inr ⟨_, by simp, rfl⟩⟩, fun k => ⟨by simp [dimL], Or.inr ⟨_, by simp, rfl⟩⟩⟩
  rw [mvnBatch_eq, e0]
  simp only [Option.bind_some]
  rw [hout]
  simp only [Option.bind_some]
  rw [e1]
  simp only [Option.bind_some]
  rw [e0]
  exact ⟨_, _, rfl, fun idx => by simp only [clipIdx]⟩

/-- C93 fails for a length 0: `size=0` with one mean of shape (1, N) gives one sample instead of none. -/
theorem not_C93_zero : BcOf [[0], lead1 [1], lead1 []] [0] ∧ (mvnBatch (some [0]) [1] []).map Prod.fst = some [1] :=
  ⟨(C92_shape _ _).1 (by decide), by decide⟩

end Verif
