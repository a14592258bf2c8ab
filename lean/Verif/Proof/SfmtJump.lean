import Verif.Proof.Sfmt
import Verif.Common.Linear

/-! The jump loops of SFMT and dSFMT add up terms of the recurrence. -/

namespace Verif
variable {W R L : Type}

/-- The ring buffer after `k` steps holds the `N` words from `x k` on, the oldest at index `k mod N`. -/
def RingAt (x : Nat → W) (N k : Nat) (s : Ring W R) : Prop :=
  s.pos = N + k ∧ ∀ i < N, s.st ((k + i) % N) = x (k + i)

theorem mod_inj_window {N k i j : Nat} (hi : i < N) (hj : j < N) (h : (k + i) % N = (k + j) % N) : i = j := by
  have hN : 0 < N := by omega
  have h1 := Nat.div_add_mod (k + i) N
  have h2 := Nat.div_add_mod (k + j) N
  rw [h] at h1
  by_contra hne
  rcases Nat.lt_or_ge ((k + i) / N) ((k + j) / N) with hd | hd
  · have := Nat.mul_le_mul_left N (show (k + i) / N + 1 ≤ (k + j) / N from hd)
    rw [Nat.mul_add] at this; omega
  · rcases Nat.lt_or_ge ((k + j) / N) ((k + i) / N) with hd' | hd'
    · have := Nat.mul_le_mul_left N (show (k + j) / N + 1 ≤ (k + i) / N from hd')
      rw [Nat.mul_add] at this; omega
    · have : (k + i) / N = (k + j) / N := by omega
      rw [this] at h1; omega

theorem ringNext_at {step : L → W → W → W × L} {load : (Nat → W) → R → Nat → L} {keep : L → R → R} {N P : Nat} (hP : P < N)
    {x : Nat → W} {ρ : Nat → L} (hx : SimdRec step N P x ρ) (Rel : Nat → R → Prop)
    (hload : ∀ (s : Ring W R) k, RingAt x N k s → Rel k s.reg → load s.st s.reg (k % N) = ρ k)
    (hkeep : ∀ k r, Rel k r → Rel (k + 1) (keep (ρ (k + 1)) r)) (k : Nat) (s : Ring W R) (h : RingAt x N k s) (hr : Rel k s.reg) :
    RingAt x N (k + 1) (ringNext step load keep N P s) ∧ Rel (k + 1) (ringNext step load keep N P s).reg := by
  obtain ⟨hp, hst⟩ := h
  have e1 : s.pos % N = k % N := by rw [hp, Nat.add_mod_left]
  have e2 : s.st (k % N) = x k := hst 0 (by omega)
  have e3 : s.st ((k % N + P) % N) = x (k + P) := by rw [Nat.mod_add_mod]; exact hst P hP
  have z : step (load s.st s.reg (s.pos % N)) (s.st (s.pos % N)) (s.st ((s.pos % N + P) % N)) = (x (k + N), ρ (k + 1)) := by
    rw [e1, e2, e3, hload s k ⟨hp, hst⟩ hr, hx]
  refine ⟨⟨by show s.pos + 1 = _; omega, fun i hi => ?_⟩, ?_⟩
  · show Function.update s.st (s.pos % N) (step (load s.st s.reg (s.pos % N)) (s.st (s.pos % N)) (s.st ((s.pos % N + P) % N))).1 _ = _
    rw [z, e1]
    by_cases hl : i + 1 < N
    · rw [Function.update_of_ne, show k + 1 + i = k + (i + 1) by omega, hst (i + 1) hl]
      intro hc
      rw [show k + 1 + i = k + (i + 1) by omega] at hc
      have := mod_inj_window (k := k) (j := 0) hl (by omega) hc
      omega
    · rw [show k + 1 + i = k + N by omega, Nat.add_mod_right, Function.update_self]
  · show Rel (k + 1) (keep (step (load s.st s.reg (s.pos % N)) (s.st (s.pos % N)) (s.st ((s.pos % N + P) % N))).2 s.reg)
    rw [z]; exact hkeep k _ hr

/-- `add` adds, word by word, the window of the source to the destination. -/
theorem ringAdd_at {addW : W → W → W} {addR : R → R → R} {N : Nat} (hN : 0 < N) {x : Nat → W} (k : Nat) (d s : Ring W R) (h : RingAt x N k s)
    (hd : d.pos = 0) : (∀ i < N, (ringAdd addW addR N d s).st i = addW (d.st i) (x (k + i))) ∧ (ringAdd addW addR N d s).pos = 0 := by
  refine ⟨?_, hd⟩
  have hdiff : (s.pos - d.pos + N) % N = k % N := by rw [hd, h.1]; simp
  obtain ⟨q, hq⟩ : ∃ q, q = k % N := ⟨_, rfl⟩
  have hqN : q < N := hq ▸ Nat.mod_lt _ hN
  have hsrc : ∀ i < N, s.st ((q + i) % N) = x (k + i) := fun i hi => by rw [hq, Nat.mod_add_mod]; exact h.2 i hi
  have i1 := foldl_range_inv (fun (f : Nat → W) i => Function.update f i (addW (f i) (s.st (i + q))))
    (fun m f => (∀ i < m, f i = addW (d.st i) (x (k + i))) ∧ ∀ i ≥ m, f i = d.st i) (N - q) d.st ⟨fun i hi => by omega, fun i _ => rfl⟩
    (fun m f hm hf => by
      refine ⟨fun i hi => ?_, fun i hi => ?_⟩
      · by_cases him : i = m
        · subst him
          rw [Function.update_self, hf.2 i le_rfl, ← hsrc i (by omega), Nat.mod_eq_of_lt (by omega), Nat.add_comm]
        · rw [Function.update_of_ne him, hf.1 i (by omega)]
      · rw [Function.update_of_ne (by omega), hf.2 i (by omega)])
  have i2 := foldl_range'_inv (fun (f : Nat → W) i => Function.update f i (addW (f i) (s.st (i + q - N))))
    (fun m f => (∀ i < m, f i = addW (d.st i) (x (k + i))) ∧ ∀ i ≥ m, f i = d.st i) (N - q) q _ i1
    (fun m f hm1 hm hf => by
      refine ⟨fun i hi => ?_, fun i hi => ?_⟩
      · by_cases him : i = m
        · subst him
          rw [Function.update_self, hf.2 i le_rfl, ← hsrc i (by omega), show (q + i) % N = i + q - N by
            rw [show q + i = i + q - N + N by omega, Nat.add_mod_right, Nat.mod_eq_of_lt (by omega)]]
        · rw [Function.update_of_ne him, hf.1 i (by omega)]
      · rw [Function.update_of_ne (by omega), hf.2 i (by omega)])
  rw [show N - q + q = N by omega] at i2
  rw [ringAdd]
  simp only [hdiff, ← hq]
  exact i2.1

/-- The sum of the terms `y k` with coefficient one, in order. -/
def pick {A : Type} (add : A → A → A) (z : A) (cs : List Bool) (y : Nat → A) : A :=
  ((List.range cs.length).filter (fun k => cs.getD k false)).foldl (fun a k => add a (y k)) z

theorem pick_append {A : Type} (add : A → A → A) (z : A) (cs : List Bool) (c : Bool) (y : Nat → A) :
    pick add z (cs ++ [c]) y = if c then add (pick add z cs y) (y cs.length) else pick add z cs y := by
  unfold pick
  rw [List.length_append, List.length_singleton, List.range_succ, List.filter_append, List.foldl_append]
  have e : (List.range cs.length).filter (fun k => (cs ++ [c]).getD k false) = (List.range cs.length).filter (fun k => cs.getD k false) := by
    apply List.filter_congr
    intro k hk
    simp only [List.getD, List.getElem?_append_left (List.mem_range.1 hk)]
  rw [e]
  have e2 : (cs ++ [c]).getD cs.length false = c := by simp [List.getD]
  cases c
  · simp
  · simp

theorem ringJump_spec {nxt : Ring W R → Ring W R} {addW : W → W → W} {addR : R → R → R} {N : Nat} (hN : 0 < N) {x : Nat → W} {regs : Nat → R}
    (Rel : Nat → R → Prop) (hRel : ∀ k r, Rel k r → r = regs k)
    (hnxt : ∀ k s, RingAt x N k s → Rel k s.reg → RingAt x N (k + 1) (nxt s) ∧ Rel (k + 1) (nxt s).reg)
    (cs : List Bool) (s : Ring W R) (hs : RingAt x N 0 s) (hr : Rel 0 s.reg) (d : Ring W R) (hd : d.pos = 0) :
    let r := ringJump nxt (ringAdd addW addR N) cs (s, d)
    (∀ i < N, r.2.st i = pick addW (d.st i) cs (fun k => x (k + i))) ∧ r.2.reg = pick addR d.reg cs regs := by
  have main : RingAt x N cs.length (ringJump nxt (ringAdd addW addR N) cs (s, d)).1 ∧
      Rel cs.length (ringJump nxt (ringAdd addW addR N) cs (s, d)).1.reg ∧ (ringJump nxt (ringAdd addW addR N) cs (s, d)).2.pos = 0 ∧
      (∀ i < N, (ringJump nxt (ringAdd addW addR N) cs (s, d)).2.st i = pick addW (d.st i) cs (fun k => x (k + i))) ∧
      (ringJump nxt (ringAdd addW addR N) cs (s, d)).2.reg = pick addR d.reg cs regs := by
    induction cs using List.reverseRecOn with
    | nil => exact ⟨hs, hr, hd, fun i _ => rfl, rfl⟩
    | append_singleton cs c ih =>
      obtain ⟨h1, h2, h3, h4, h5⟩ := ih
      have e : ringJump nxt (ringAdd addW addR N) (cs ++ [c]) (s, d) =
          (nxt (ringJump nxt (ringAdd addW addR N) cs (s, d)).1, if c then ringAdd addW addR N (ringJump nxt (ringAdd addW addR N) cs (s, d)).2
            (ringJump nxt (ringAdd addW addR N) cs (s, d)).1 else (ringJump nxt (ringAdd addW addR N) cs (s, d)).2) := by
        rw [ringJump, List.foldl_append]; rfl
      rw [e]
      generalize ringJump nxt (ringAdd addW addR N) cs (s, d) = r at *
      obtain ⟨g, w⟩ := r
      have n := hnxt _ _ h1 h2
      rw [List.length_append, List.length_singleton]
      refine ⟨n.1, n.2, ?_⟩
      cases c
      · refine ⟨h3, fun i hi => ?_, ?_⟩
        · rw [pick_append]; exact h4 i hi
        · rw [pick_append]; exact h5
      · have a := ringAdd_at (addW := addW) (addR := addR) hN _ w g h1 h3
        refine ⟨a.2, fun i hi => ?_, ?_⟩
        · rw [pick_append, if_pos rfl, ← h4 i hi]; exact a.1 i hi
        · rw [pick_append, if_pos rfl, ← h5]
          show addR w.reg g.reg = _
          rw [hRel _ _ h2]; rfl
  exact ⟨main.2.2.2.1, main.2.2.2.2⟩

open Verif.GF2 Verif.Linear in
/-- Adding up the terms `T^k v` selected by the bits of a polynomial evaluates the polynomial at `T`. -/
theorem pick_eq_ev {V : Type} [AddCommGroup V] (hV : ∀ v : V, v + v = 0) (T : AddMonoid.End V) (poly : Nat) (z v : V) (m : Nat) :
    pick (· + ·) z ((List.range m).map poly.testBit) (fun k => T^[k] v) = z + ev T (poly % 2 ^ m) v := by
  induction m with
  | zero => rw [Nat.pow_zero, Nat.mod_one, ev_zero]; exact (add_zero z).symm
  | succ m ih =>
    rw [List.range_succ, List.map_append, List.map_singleton, pick_append, ih, List.length_map, List.length_range]
    have hsplit : poly % 2 ^ (m + 1) = (poly % 2 ^ m) ^^^ ((if poly.testBit m then 1 else 0) <<< m) := by
      apply Nat.eq_of_testBit_eq
      intro i
      rw [Nat.testBit_mod_two_pow, Nat.testBit_xor, Nat.testBit_mod_two_pow, Nat.testBit_shiftLeft]
      rcases Nat.lt_trichotomy i m with h | h | h
      · simp [h, show ¬ i ≥ m by omega, show i < m + 1 by omega]
      · subst h; cases hx : poly.testBit i <;> simp [hx]
      · have h3 : i - m ≠ 0 := by omega
        cases hx : poly.testBit m <;> simp [show ¬ i < m + 1 by omega, show ¬ i < m by omega]
        intro _
        exact Nat.testBit_lt_two_pow (lt_of_lt_of_le (by decide : 1 < 2 ^ 1) (Nat.pow_le_pow_right (by decide) (by omega)))
    rw [hsplit, ev_xor T (end_add_self hV), ev_shiftLeft]
    cases poly.testBit m
    · simp [ev_zero]
    · simp only [if_true, ev_one, mul_one, Linear.add_apply, Linear.pow_apply]
      rw [add_assoc]

/-- `pick` under a map that respects the additions. -/
theorem pick_map {A B : Type} (f : A → B) (add : A → A → A) (add' : B → B → B) (h : ∀ a b, f (add a b) = add' (f a) (f b)) (z : A) (cs : List Bool)
    (y : Nat → A) : f (pick add z cs y) = pick add' (f z) cs (fun k => f (y k)) := by
  unfold pick
  generalize (List.range cs.length).filter _ = l
  induction l generalizing z with
  | nil => rfl
  | cons k l ih => rw [List.foldl_cons, List.foldl_cons, ih, h]

end Verif
