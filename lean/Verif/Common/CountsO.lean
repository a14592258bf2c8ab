import Verif.Common.Counts
import Verif.Model.Double32
import Verif.Model.Api

/-! Doubles, 32-bit halves and 64-bit pairs drawn from a generator whose draws are all defined, in terms of its draws; counting the
draws at even positions over an odd period. -/

namespace Verif
open Doubles Orbit

section
variable {σ α : Type} {nx : σ → Option (α × σ)} {s : σ} {u : Nat → α}

/-- An invariant that gives every draw. -/
theorem nthO_of_steps (I : Nat → σ → Prop) (hs : I 0 s) (h : ∀ k x, I k x → ∃ y, nx x = some (u k, y) ∧ I (k + 1) y) (k : Nat) : nthO nx k s = some (u k) := by
  have run : ∀ k j x, I j x → ∃ y, runO nx k x = some y ∧ I (j + k) y := by
    intro k
    induction k with
    | zero => exact fun j x hx => ⟨x, rfl, hx⟩
    | succ k ih =>
      intro j x hx
      obtain ⟨y, hy, hI⟩ := h j x hx
      obtain ⟨z, hz, hJ⟩ := ih (j + 1) y hI
      exact ⟨z, by rw [runO, hy]; exact hz, by rw [show j + (k + 1) = j + 1 + k by omega]; exact hJ⟩
  obtain ⟨y, hy, hI⟩ := run k 0 s hs
  rw [Nat.zero_add] at hI
  obtain ⟨z, hz, _⟩ := h k y hI
  rw [nthO, hy]
  show (nx y).map Prod.fst = _
  rw [hz]; rfl

/-- The states before the draws. -/
theorem states_of_nthO (hu : ∀ k, nthO nx k s = some (u k)) : ∃ t : Nat → σ, t 0 = s ∧ ∀ k, nx (t k) = some (u k, t (k + 1)) := by
  have hr : ∀ m t, runO nx (m + 1) t = (runO nx m t).bind fun v => (nx v).map Prod.snd := by
    intro m
    induction m with
    | zero => intro t; show (nx t).bind _ = (nx t).map _; cases nx t <;> rfl
    | succ m ih => intro t; rw [runO]; cases h : nx t with
      | none => rw [show runO nx (m + 1) t = (nx t).bind fun r => runO nx m r.2 from rfl, h]; rfl
      | some r => rw [show runO nx (m + 1) t = (nx t).bind fun r => runO nx m r.2 from rfl, h]; exact ih r.2
  have hsome : ∀ k, ∃ t, runO nx k s = some t := fun k => by
    cases h : runO nx k s with
    | none => have := hu k; rw [nthO, h] at this; cases this
    | some t => exact ⟨t, rfl⟩
  refine ⟨fun k => (hsome k).choose, ?_, fun k => ?_⟩
  · have := (hsome 0).choose_spec
    exact (Option.some.inj this).symm
  · have h1 := (hsome k).choose_spec
    have h2 := (hsome (k + 1)).choose_spec
    have h3 := hu k
    dsimp only
    generalize (hsome k).choose = t at h1 ⊢
    generalize (hsome (k + 1)).choose = t' at h2 ⊢
    rw [hr, h1] at h2
    rw [nthO, h1] at h3
    have h2' : (nx t).map Prod.snd = some t' := h2
    have h3' : (nx t).map Prod.fst = some (u k) := h3
    cases hn : nx t with
    | none => rw [hn] at h3'; cases h3'
    | some r =>
      rw [hn] at h2' h3'
      rw [← Option.some.inj h2', ← Option.some.inj h3']

end

theorem dbl64O_nth {σ : Type} {nx : σ → Option (U64 × σ)} {s : σ} {u : Nat → U64} (hu : ∀ k, nthO nx k s = some (u k)) (k : Nat) :
    nthO (dbl64O nx) k s = some ((u k >>> 11).toNat) := by
  obtain ⟨t, h0, ht⟩ := states_of_nthO hu
  exact nthO_of_steps (u := fun k => (u k >>> 11).toNat) (fun k x => x = t k) h0.symm (fun k x hx => ⟨t (k + 1), by rw [hx, dbl64O, ht]; rfl, rfl⟩) k

/-- The 32-bit halves of a sequence of words, the lower one first. -/
def halfOf (u : Nat → U64) (j : Nat) : U32 := if j % 2 = 0 then (u (j / 2)).truncate 32 else (u (j / 2) >>> 32).truncate 32

theorem next32O_nth {σ : Type} {nx : σ → Option (U64 × σ)} {b : Buf σ} {u : Nat → U64} (hu : ∀ k, nthO nx k b.core = some (u k)) (hb : b.has = false)
    (k : Nat) : nthO (next32O nx) k b = some (halfOf u k) := by
  obtain ⟨t, h0, ht⟩ := states_of_nthO hu
  refine nthO_of_steps (u := halfOf u) (fun j x => (j % 2 = 0 → x.core = t (j / 2) ∧ x.has = false) ∧
    (j % 2 = 1 → x.core = t (j / 2 + 1) ∧ x.has = true ∧ x.uinteger = (u (j / 2) >>> 32).truncate 32)) ⟨fun _ => ⟨h0.symm, hb⟩, fun h => by omega⟩
    (fun j x hx => ?_) k
  rcases Nat.mod_two_eq_zero_or_one j with h | h
  · obtain ⟨h1, h2⟩ := hx.1 h
    refine ⟨_, by rw [next32O, if_neg (by rw [h2]; decide), h1, ht, Option.map_some, halfOf, if_pos h], fun h' => by omega, fun _ => ?_⟩
    rw [show (j + 1) / 2 = j / 2 by omega]
    exact ⟨rfl, rfl, rfl⟩
  · obtain ⟨h1, h2, h3⟩ := hx.2 h
    refine ⟨_, by rw [next32O, if_pos h2, h3, halfOf, if_neg (by omega)], fun _ => ?_, fun h' => by omega⟩
    rw [show (j + 1) / 2 = j / 2 + 1 by omega]
    exact ⟨h1, rfl⟩

theorem dblCallsO_nth {σ : Type} {nx : σ → Option (U32 × σ)} {s : σ} {u : Nat → U32} (hu : ∀ k, nthO nx k s = some (u k)) (k : Nat) :
    nthO (dblCallsO nx) k s = some (dbl32 (u (2 * k)) (u (2 * k + 1))) := by
  obtain ⟨t, h0, ht⟩ := states_of_nthO hu
  exact nthO_of_steps (u := fun k => dbl32 (u (2 * k)) (u (2 * k + 1))) (fun k x => x = t (2 * k)) h0.symm
    (fun k x hx => ⟨t (2 * k + 1 + 1), by rw [hx, dblCallsO, ht]; show (nx (t (2 * k + 1))).bind _ = _; rw [ht]; rfl, by rw [Nat.mul_succ]⟩) k

/-- A 64-bit word from two 32-bit words, in either order. -/
def joinOf (o : Bool) (a b : U32) : U64 := if o then a.setWidth 64 <<< 32 ||| b.setWidth 64 else b.setWidth 64 <<< 32 ||| a.setWidth 64

theorem twoCallsO_nth {σ : Type} {nx : σ → Option (U32 × σ)} {s : σ} {u : Nat → U32} (hu : ∀ k, nthO nx k s = some (u k)) (o : Bool) (k : Nat) :
    nthO (twoCallsO nx o) k s = some (joinOf o (u (2 * k)) (u (2 * k + 1))) := by
  obtain ⟨t, h0, ht⟩ := states_of_nthO hu
  refine nthO_of_steps (u := fun k => joinOf o (u (2 * k)) (u (2 * k + 1))) (fun k x => x = t (2 * k)) h0.symm
    (fun k x hx => ⟨t (2 * k + 1 + 1), ?_, by rw [Nat.mul_succ]⟩) k
  rw [hx, twoCallsO]
  simp only [ht, Option.bind_eq_bind, Option.bind_some, joinOf]
  cases o <;> rfl

theorem joinOf_append (a b : U32) : a.setWidth 64 <<< 32 ||| b.setWidth 64 = (a ++ b : BitVec 64) := by
  apply BitVec.eq_of_getLsbD_eq
  intro i hi
  rw [BitVec.getLsbD_append, BitVec.getLsbD_or, BitVec.getLsbD_shiftLeft, BitVec.getLsbD_setWidth, BitVec.getLsbD_setWidth]
  by_cases h : i < 32
  · simp [h, hi]
  · simp [h, hi, BitVec.getLsbD_of_ge b i (by omega), show i - 32 < 64 by omega]

/-- The pairs of words with a given join are one, those with a given double `2^11`. -/
theorem card_join (o : Bool) (x : U64) : Nat.card {p : U32 × U32 // joinOf o p.1 p.2 = x} = 1 := by
  have hj : ∀ a b : U32, (a ++ b : BitVec 64) = x ↔ (a, b) = split64 x := fun a b =>
    ⟨fun h => by rw [← h]; exact (split64.apply_symm_apply (a, b)).symm, fun h => by
      have := congrArg split64.symm h; rw [split64.symm_apply_apply] at this; exact this⟩
  cases o
  · have : Unique {p : U32 × U32 // joinOf false p.1 p.2 = x} := ⟨⟨⟨((split64 x).2, (split64 x).1), by
      show (split64 x).1.setWidth 64 <<< 32 ||| (split64 x).2.setWidth 64 = x; rw [joinOf_append, hj]⟩⟩, fun p => by
      obtain ⟨⟨a, b⟩, hp⟩ := p
      have hp' : b.setWidth 64 <<< 32 ||| a.setWidth 64 = x := hp
      rw [joinOf_append, hj] at hp'
      apply Subtype.ext
      show (a, b) = ((split64 x).2, (split64 x).1)
      rw [← hp']⟩
    exact Nat.card_unique
  · have : Unique {p : U32 × U32 // joinOf true p.1 p.2 = x} := ⟨⟨⟨split64 x, by
      show (split64 x).1.setWidth 64 <<< 32 ||| (split64 x).2.setWidth 64 = x; rw [joinOf_append, hj]⟩⟩, fun p => by
      obtain ⟨⟨a, b⟩, hp⟩ := p
      have hp' : a.setWidth 64 <<< 32 ||| b.setWidth 64 = x := hp
      rw [joinOf_append, hj] at hp'
      exact Subtype.ext hp'⟩
    exact Nat.card_unique

theorem dbl32_iff (m : Nat) (a b : U32) : dbl32 a b = m ↔ (a >>> 5).toNat = m / 2 ^ 26 ∧ (b >>> 6).toNat = m % 2 ^ 26 := by
  have h1 : (b >>> 6).toNat < 2 ^ 26 := by rw [BitVec.toNat_ushiftRight, Nat.shiftRight_eq_div_pow]; omega
  rw [dbl32]
  omega

theorem card_prod_sub {α β : Type} (P : α → Prop) (Q : β → Prop) : Nat.card {p : α × β // P p.1 ∧ Q p.2} = Nat.card {a // P a} * Nat.card {b // Q b} := by
  rw [← Nat.card_prod]
  exact Nat.card_congr Equiv.subtypeProdEquivProd

theorem card_dbl32 (m : Nat) (hm : m < 2 ^ 53) : Nat.card {p : U32 × U32 // dbl32 p.1 p.2 = m} = 2 ^ 11 := by
  rw [Nat.card_congr (Equiv.subtypeEquivRight fun p : U32 × U32 => dbl32_iff m p.1 p.2), card_prod_sub (fun a : U32 => (a >>> 5).toNat = m / 2 ^ 26)
    (fun b : U32 => (b >>> 6).toNat = m % 2 ^ 26), card_upper_bits 5 (by decide) _ (by omega), card_upper_bits 6 (by decide) _ (by omega), ← pow_add]

/-- Over an odd period the even positions meet every term once. -/
theorem card_even_positions {P : Nat → Prop} {N : Nat} (hN : N % 2 = 1) (hP : ∀ k, P (k + N) ↔ P k) :
    Nat.card {k // k < N ∧ P (2 * k)} = Nat.card {k // k < N ∧ P k} := by
  refine Nat.card_congr ⟨fun k => ⟨if 2 * k.val < N then 2 * k.val else 2 * k.val - N, ?_⟩,
    fun j => ⟨if j.val % 2 = 0 then j.val / 2 else (j.val + N) / 2, ?_⟩, ?_, ?_⟩
  · obtain ⟨k, h1, h2⟩ := k
    dsimp only
    split
    · exact ⟨by omega, h2⟩
    · exact ⟨by omega, by rw [← hP, Nat.sub_add_cancel (by omega)]; exact h2⟩
  · obtain ⟨j, h1, h2⟩ := j
    dsimp only
    split
    · exact ⟨by omega, by rw [show 2 * (j / 2) = j by omega]; exact h2⟩
    · exact ⟨by omega, by rw [show 2 * ((j + N) / 2) = j + N by omega, hP]; exact h2⟩
  · rintro ⟨k, h1, h2⟩
    apply Subtype.ext
    dsimp only
    split <;> split <;> omega
  · rintro ⟨j, h1, h2⟩
    apply Subtype.ext
    dsimp only
    split <;> split <;> omega

end Verif
