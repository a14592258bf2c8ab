import Verif.Model.Mt
import Verif.Proof.CtrStream

/-! The Mersenne Twister recurrence and the arrays that hold its terms. -/

namespace Verif
variable {w : Nat}

/-- One step of the recurrence on words: `x_{k+N}` from `x_k`, `x_{k+1}` and `x_{k+M}`. -/
def mtWord (P : MtPar w) (x0 x1 xm : BitVec w) : BitVec w :=
  let y := (x0 &&& P.upper) ||| (x1 &&& P.lower)
  xm ^^^ (y >>> 1) ^^^ (if y.getLsbD 0 then P.a else 0)

/-- `x` satisfies the recurrence. -/
def MtRec (P : MtPar w) (x : Nat → BitVec w) : Prop := ∀ k, x (k + P.N) = mtWord P (x k) (x (k + 1)) (x (k + P.M))

/-- The sequence started by an array. -/
def mtSeq (P : MtPar w) (key : Nat → BitVec w) (n : Nat) : BitVec w :=
  if h : n < P.N then key n
  else mtWord P (mtSeq P key (n - P.N)) (mtSeq P key (n - P.N + 1)) (mtSeq P key (n - P.N + P.M))
termination_by n
decreasing_by all_goals (have := P.hM; omega)

theorem mtSeq_init (P : MtPar w) (key : Nat → BitVec w) {n : Nat} (h : n < P.N) : mtSeq P key n = key n := by
  rw [mtSeq, dif_pos h]

theorem mtSeq_rec (P : MtPar w) (key : Nat → BitVec w) : MtRec P (mtSeq P key) := by
  intro k
  rw [mtSeq, dif_neg (by omega), Nat.add_sub_cancel]

/-- A solution is determined by its first `N` terms. -/
theorem MtRec.unique {P : MtPar w} {x y : Nat → BitVec w} (hx : MtRec P x) (hy : MtRec P y) (h : ∀ i < P.N, x i = y i) (n : Nat) :
    x n = y n := by
  induction n using Nat.strong_induction_on with
  | _ n ih =>
    rcases Nat.lt_or_ge n P.N with hn | hn
    · exact h n hn
    · obtain ⟨k, rfl⟩ : ∃ k, n = k + P.N := ⟨n - P.N, by omega⟩
      have := P.hM
      rw [hx k, hy k, ih k (by omega), ih (k + 1) (by omega), ih (k + P.M) (by omega)]

theorem MtRec.shift {P : MtPar w} {x : Nat → BitVec w} (hx : MtRec P x) (b : Nat) : MtRec P (fun n => x (b + n)) := by
  intro k
  show x (b + (k + P.N)) = mtWord P (x (b + k)) (x (b + (k + 1))) (x (b + (k + P.M)))
  rw [← Nat.add_assoc, hx (b + k), Nat.add_assoc, Nat.add_assoc]

theorem neg_and_one (y a : BitVec w) : -(y &&& 1) &&& a = if y.getLsbD 0 then a else 0 := by
  rcases Nat.eq_zero_or_pos w with rfl | hw
  · exact Subsingleton.elim _ _
  have h1 : (y &&& 1) = if y.getLsbD 0 then 1 else 0 := by
    apply BitVec.eq_of_getLsbD_eq
    intro i hi
    rw [BitVec.getLsbD_and]
    have h1 : (1 : BitVec w).getLsbD i = decide (i = 0) := by
      rw [show (1 : BitVec w) = 1#w from rfl, BitVec.getLsbD_one]
      simp [hw]
    rw [h1]
    by_cases hi0 : i = 0
    · subst hi0
      by_cases hy : y.getLsbD 0 = true
      · rw [if_pos hy, h1, hy]; rfl
      · rw [if_neg hy]; simp [hy]
    · rw [decide_eq_false hi0, Bool.and_false]
      split
      · rw [h1, decide_eq_false hi0]
      · simp
  rw [h1]
  split
  · have : -(1 : BitVec w) = BitVec.allOnes w := by
      rw [show (1 : BitVec w) = 1#w from rfl, BitVec.neg_one_eq_allOnes]
    rw [this, BitVec.allOnes_and]
  · rw [show -(0 : BitVec w) = 0 by simp]; simp

theorem mtSet_eq (P : MtPar w) (k : Nat → BitVec w) (i nxt src : Nat) :
    mtSet P k i nxt src = Function.update k i (mtWord P (k i) (k nxt) (k src)) := by
  rw [mtSet, mtWord]
  simp only [neg_and_one]

theorem mtSet_self (P : MtPar w) (k : Nat → BitVec w) (i nxt src : Nat) :
    mtSet P k i nxt src i = mtWord P (k i) (k nxt) (k src) := by
  rw [mtSet_eq, Function.update_self]

theorem mtSet_ne (P : MtPar w) (k : Nat → BitVec w) {i nxt src j : Nat} (h : j ≠ i) :
    mtSet P k i nxt src j = k j := by
  rw [mtSet_eq, Function.update_of_ne h]

/-- Array cells below `m` hold terms `b + N + j`, the others terms `b + j`. -/
def Half (P : MtPar w) (x : Nat → BitVec w) (b m : Nat) (k : Nat → BitVec w) : Prop :=
  ∀ j < P.N, k j = if j < m then x (b + P.N + j) else x (b + j)

theorem Half.step {P : MtPar w} {x : Nat → BitVec w} (hx : MtRec P x) {b m : Nat} (hm : m < P.N) {k : Nat → BitVec w}
    (h : Half P x b m k) {nxt src : Nat} (hn : nxt = if m + 1 < P.N then m + 1 else 0)
    (hs : src = if m + P.M < P.N then m + P.M else m + P.M - P.N) : Half P x b (m + 1) (mtSet P k m nxt src) := by
  have hM := P.hM
  intro j hj
  by_cases hjm : j = m
  · subst hjm
    rw [mtSet_self, if_pos (by omega), Nat.add_right_comm, hx (b + j)]
    congr 1
    · rw [h j hj, if_neg (by omega)]
    · rw [hn]
      split
      · rw [h (j + 1) (by omega), if_neg (by omega)]; rfl
      · rw [h 0 (by omega), if_pos (by omega)]
        congr 1; omega
    · rw [hs]
      split
      · rw [h _ (by assumption), if_neg (by omega)]; congr 1; omega
      · rw [h _ (by omega), if_pos (by omega)]
        congr 1; omega
  · rw [mtSet_ne P k hjm, h j hj]
    by_cases hlt : j < m
    · rw [if_pos hlt, if_pos (by omega)]
    · rw [if_neg hlt, if_neg (by omega)]

theorem foldl_range'_inv {α : Type} (f : α → Nat → α) (I : Nat → α → Prop) (s n : Nat) (a : α) (h0 : I s a)
    (h : ∀ m a, s ≤ m → m < s + n → I m a → I (m + 1) (f a m)) : I (s + n) ((List.range' s n).foldl f a) := by
  induction n with
  | zero => exact h0
  | succ n ih =>
    rw [List.range'_concat, List.foldl_append, List.foldl_cons, List.foldl_nil, ← Nat.add_assoc]
    have := ih (fun m a h1 h2 h3 => h m a h1 (by omega) h3)
    simpa using h (s + n) _ (by omega) (by omega) this

theorem foldl_range_inv {α : Type} (f : α → Nat → α) (I : Nat → α → Prop) (n : Nat) (a : α) (h0 : I 0 a)
    (h : ∀ m a, m < n → I m a → I (m + 1) (f a m)) : I n ((List.range n).foldl f a) := by
  have := foldl_range'_inv f I 0 n a h0 (fun m a _ h2 h3 => h m a (by omega) h3)
  rwa [Nat.zero_add, ← List.range_eq_range'] at this

/-- Regenerating the array moves it on by `N` terms. -/
theorem mtGen_spec {P : MtPar w} {x : Nat → BitVec w} (hx : MtRec P x) (b : Nat) {k : Nat → BitVec w} (h : ∀ j < P.N, k j = x (b + j)) :
    ∀ j < P.N, mtGen P k j = x (b + P.N + j) := by
  have hM := P.hM
  have h0 : Half P x b 0 k := fun j hj => by rw [if_neg (by omega), h j hj]
  have h1 := foldl_range_inv (fun k i => mtSet P k i (i + 1) (i + P.M)) (Half P x b) (P.N - P.M) k h0
    (fun m a hm ha => ha.step hx (by omega) (by rw [if_pos (by omega)]) (by rw [if_pos (by omega)]))
  have h2 := foldl_range'_inv (fun k i => mtSet P k i (i + 1) (i + P.M - P.N)) (Half P x b) (P.N - P.M) (P.M - 1) _ h1
    (fun m a hm1 hm2 ha => ha.step hx (by omega) (by rw [if_pos (by omega)]) (by rw [if_neg (by omega)]))
  rw [show P.N - P.M + (P.M - 1) = P.N - 1 by omega] at h2
  have h3 := h2.step hx (by omega) (nxt := 0) (src := P.M - 1) (by rw [if_neg (by omega)]) (by rw [if_neg (by omega)]; omega)
  intro j hj
  have := h3 j hj
  rw [if_pos (by omega)] at this
  exact this

/-- The array holds terms `b .. b + N - 1` and the next word to be read is term `p`. -/
def MtAt (P : MtPar w) (x : Nat → BitVec w) (s : Mt w) (p : Nat) : Prop :=
  0 ≤ s.pos ∧ s.pos ≤ P.N ∧ ∃ b, p = b + s.pos.toNat ∧ ∀ j < P.N, s.key j = x (b + j)

theorem mtRead_at {P : MtPar w} {x : Nat → BitVec w} (t : BitVec w → BitVec w) {s : Mt w} {p : Nat} (h : MtAt P x s p) (hp : s.pos < P.N) :
    ∃ s', mtRead P t s = some (t (x p), s') ∧ MtAt P x s' (p + 1) := by
  obtain ⟨h1, h2, b, h3, h4⟩ := h
  refine ⟨{ s with pos := s.pos + 1 }, ?_, ⟨show 0 ≤ s.pos + 1 by omega, show s.pos + 1 ≤ P.N by omega, b, ?_, h4⟩⟩
  · rw [mtRead, if_pos ⟨h1, hp⟩, h4 _ (by omega), ← h3]
  · show p + 1 = b + (s.pos + 1).toNat
    omega

theorem mtGen_at {P : MtPar w} {x : Nat → BitVec w} (hx : MtRec P x) {s : Mt w} {p : Nat} (h : MtAt P x s p) (hp : s.pos = P.N) :
    MtAt P x ⟨mtGen P s.key, 0⟩ p := by
  obtain ⟨h1, h2, b, h3, h4⟩ := h
  refine ⟨le_refl _, by simp, b + P.N, ?_, mtGen_spec hx b h4⟩
  rw [h3, hp]; rfl

end Verif
