import Verif.Model.Sfmt
import Verif.Proof.Mt

/-! The array loops of SFMT and dSFMT compute consecutive terms of their recurrence. -/

namespace Verif
variable {W R : Type}

/-- Words `x` and registers `ρ` follow the recursion. -/
def SimdRec (step : R → W → W → W × R) (N P : Nat) (x : Nat → W) (ρ : Nat → R) : Prop :=
  ∀ k, step (ρ k) (x k) (x (k + P)) = (x (k + N), ρ (k + 1))

/-- Progress of the filling loops: `i` words written, the generator's own array untouched. -/
def FillAt (x : Nat → W) (ρ : Nat → R) (N b i : Nat) (f : Fill W R) : Prop :=
  (∀ j < i, f.arr j = x (b + N + j)) ∧ f.reg = ρ (b + i)

theorem FillAt.put {step : R → W → W → W × R} {N P : Nat} {x : Nat → W} {ρ : Nat → R} (hx : SimdRec step N P x ρ) {b i : Nat}
    {f : Fill W R} (h : FillAt x ρ N b i f) {a c : W} (ha : a = x (b + i)) (hc : c = x (b + i + P)) :
    FillAt x ρ N b (i + 1) (f.put step i a c) ∧ (f.put step i a c).st = f.st := by
  have e : step f.reg a c = (x (b + i + N), ρ (b + i + 1)) := by rw [h.2, ha, hc, hx]
  refine ⟨⟨fun j hj => ?_, ?_⟩, rfl⟩
  · show Function.update f.arr i (step f.reg a c).1 j = _
    rw [e]
    by_cases hji : j = i
    · subst hji; rw [Function.update_self]; show x (b + j + N) = _; congr 1; omega
    · rw [Function.update_of_ne hji, h.1 j (by omega)]
  · show (step f.reg a c).2 = _
    rw [e]; rfl

/-- The whole of `gen_rand_array`, for every array size from `N` on. -/
theorem genArray_spec {step : R → W → W → W × R} {N P : Nat} (hP : P < N) {x : Nat → W} {ρ : Nat → R} (hx : SimdRec step N P x ρ) (b size : Nat)
    (hs : N ≤ size) (arr : Nat → W) (reg : R) (st : Nat → W) (h1 : ∀ j < N, st j = x (b + j)) (h2 : reg = ρ b) :
    let f := genArray step N P size arr reg st
    (∀ i < size, f.arr i = x (b + N + i)) ∧ (∀ j < N, f.st j = x (b + size + j)) ∧ f.reg = ρ (b + size) := by
  intro f
  have i0 : FillAt x ρ N b 0 (⟨arr, reg, st⟩ : Fill W R) ∧ (⟨arr, reg, st⟩ : Fill W R).st = st := ⟨⟨fun j hj => by omega, h2⟩, rfl⟩
  have i1 := foldl_range_inv (fun (f : Fill W R) i => f.put step i (f.st i) (f.st (i + P)))
    (fun i f => FillAt x ρ N b i f ∧ f.st = st) (N - P) _ i0 (fun m a hm ha => by
      obtain ⟨h, hst⟩ := ha
      have := h.put hx (a := a.st m) (c := a.st (m + P)) (by rw [hst, h1 m (by omega)]) (by rw [hst, h1 _ (by omega)]; congr 1; omega)
      exact ⟨this.1, this.2.trans hst⟩)
  have i2 := foldl_range'_inv (fun (f : Fill W R) i => f.put step i (f.st i) (f.arr (i + P - N)))
    (fun i f => FillAt x ρ N b i f ∧ f.st = st) (N - P) P _ i1 (fun m a hm1 hm2 ha => by
      obtain ⟨h, hst⟩ := ha
      have := h.put hx (a := a.st m) (c := a.arr (m + P - N)) (by rw [hst, h1 m (by omega)]) (by rw [h.1 _ (by omega)]; congr 1; omega)
      exact ⟨this.1, this.2.trans hst⟩)
  rw [show N - P + P = N by omega] at i2
  have i3 := foldl_range'_inv (fun (f : Fill W R) i => f.put step i (f.arr (i - N)) (f.arr (i + P - N)))
    (fun i f => FillAt x ρ N b i f ∧ f.st = st) N (size - N - N) _ i2 (fun m a hm1 hm2 ha => by
      obtain ⟨h, hst⟩ := ha
      have := h.put hx (a := a.arr (m - N)) (c := a.arr (m + P - N)) (by rw [h.1 _ (by omega)]; congr 1; omega)
        (by rw [h.1 _ (by omega)]; congr 1; omega)
      exact ⟨this.1, this.2.trans hst⟩)
  obtain ⟨m0, hm0⟩ : ∃ m, m = N + (size - N - N) := ⟨_, rfl⟩
  rw [← hm0] at i3
  have i4 := foldl_range_inv (fun (f : Fill W R) j => { f with st := Function.update f.st j (f.arr (j + size - N)) })
    (fun j f => FillAt x ρ N b m0 f ∧ ∀ k < j, f.st k = x (b + size + k)) (2 * N - size) _ ⟨i3.1, fun k hk => by omega⟩
    (fun m a hm ha => by
      obtain ⟨h, hst⟩ := ha
      refine ⟨h, fun k hk => ?_⟩
      show Function.update a.st m (a.arr (m + size - N)) k = _
      by_cases hkm : k = m
      · subst hkm
        rw [Function.update_self, h.1 _ (by omega)]; congr 1; omega
      · rw [Function.update_of_ne hkm, hst k (by omega)])
  have i5 := foldl_range'_inv (fun (f : Fill W R) i =>
      let f := f.put step i (f.arr (i - N)) (f.arr (i + P - N))
      { f with st := Function.update f.st (2 * N - size + (i - (N + (size - N - N)))) (f.arr i) })
    (fun i f => FillAt x ρ N b i f ∧ ∀ k < 2 * N - size + (i - m0), f.st k = x (b + size + k)) m0 (size - m0) _
    ⟨i4.1, fun k hk => i4.2 k (by omega)⟩ (fun m a hm1 hm2 ha => by
      obtain ⟨h, hst⟩ := ha
      have := h.put hx (a := a.arr (m - N)) (c := a.arr (m + P - N)) (by rw [h.1 _ (by omega)]; congr 1; omega)
        (by rw [h.1 _ (by omega)]; congr 1; omega)
      refine ⟨this.1, fun k hk => ?_⟩
      show Function.update (a.put step m (a.arr (m - N)) (a.arr (m + P - N))).st (2 * N - size + (m - (N + (size - N - N))))
        ((a.put step m (a.arr (m - N)) (a.arr (m + P - N))).arr m) k = _
      by_cases hkm : k = 2 * N - size + (m - (N + (size - N - N)))
      · rw [hkm, Function.update_self, this.1.1 m (by omega)]
        congr 1; omega
      · rw [Function.update_of_ne hkm, this.2, hst k (by omega)])
  rw [show m0 + (size - m0) = size by omega] at i5
  subst hm0
  exact ⟨i5.1.1, fun j hj => i5.2 j (by omega), i5.1.2⟩

/-- Every start has a continuation. -/
def simdSeq (step : R → W → W → W × R) (N P : Nat) (st : Nat → W) (reg : R) (n : Nat) : (Nat → W) × R :=
  match n with
  | 0 => (st, reg)
  | n + 1 =>
    let s := simdSeq step N P st reg n
    let z := step s.2 (s.1 0) (s.1 P)
    (fun i => if i + 1 < N then s.1 (i + 1) else z.1, z.2)

theorem simdSeq_window (step : R → W → W → W × R) {N P : Nat} (st : Nat → W) (reg : R) (n i : Nat) (hi : i < N) :
    (simdSeq step N P st reg n).1 i = (simdSeq step N P st reg (n + i)).1 0 := by
  induction i generalizing n with
  | zero => rfl
  | succ i ih =>
    have := ih (n + 1) (by omega)
    rw [show n + (i + 1) = n + 1 + i by omega, ← this, simdSeq]
    simp only [if_pos hi]

theorem simdSeq_rec (step : R → W → W → W × R) {N P : Nat} (hP : P < N) (st : Nat → W) (reg : R) :
    SimdRec step N P (fun n => (simdSeq step N P st reg n).1 0) (fun n => (simdSeq step N P st reg n).2) ∧
    ∀ i < N, (simdSeq step N P st reg i).1 0 = st i := by
  refine ⟨fun k => ?_, fun i hi => ?_⟩
  · show step (simdSeq step N P st reg k).2 ((simdSeq step N P st reg k).1 0) ((simdSeq step N P st reg (k + P)).1 0) = _
    rw [← simdSeq_window step st reg k P hP]
    have h1 : (simdSeq step N P st reg (k + N)).1 0 = (simdSeq step N P st reg (k + 1)).1 (N - 1) := by
      rw [simdSeq_window step st reg (k + 1) (N - 1) (by omega), show k + 1 + (N - 1) = k + N by omega]
    show _ = ((simdSeq step N P st reg (k + N)).1 0, (simdSeq step N P st reg (k + 1)).2)
    rw [h1, simdSeq]
    simp only [if_neg (show ¬ N - 1 + 1 < N by omega)]
  · have := simdSeq_window (N := N) (P := P) step st reg 0 i hi
    rw [Nat.zero_add] at this
    rw [← this]; rfl

end Verif
