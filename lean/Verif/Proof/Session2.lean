import Verif.Proof.Session
import Verif.Model.Session2

/-! Places in streams for generators whose word function may be undefined. Two states are the same place if they give the same words. -/

namespace Verif

/-- From the state `c` on the generator returns the words `w n`, `w (n + 1)`, … -/
def StreamO {κ α : Type} (nx : κ → Option (α × κ)) (w : Nat → α) (n : Nat) (c : κ) : Prop := ∀ i, nthO nx i c = some (w (n + i))

theorem StreamO.next {κ α : Type} {nx : κ → Option (α × κ)} {w : Nat → α} {n : Nat} {c : κ} (h : StreamO nx w n c) :
    ∃ c', nx c = some (w n, c') ∧ StreamO nx w (n + 1) c' := by
  have h0 := h 0
  rw [nthO, runO, Option.bind_some, Nat.add_zero] at h0
  cases hc : nx c with
  | none => rw [hc] at h0; cases h0
  | some r =>
    rw [hc] at h0
    obtain ⟨v, c'⟩ := r
    obtain rfl : v = w n := Option.some.inj h0
    refine ⟨c', rfl, fun i => ?_⟩
    have := h (i + 1)
    rw [nthO, runO, hc] at this
    rw [Nat.add_right_comm]
    exact this

theorem StreamO.of_eq {κ α : Type} {nx : κ → Option (α × κ)} {w : Nat → α} {n : Nat} {c c' : κ} (h : StreamO nx w n c)
    (he : ∀ i, nthO nx i c' = nthO nx i c) : StreamO nx w n c' := fun i => (he i).trans (h i)

/-- The structure is at place `a` of the stream `w`. -/
def BufAtO {κ : Type} (nx : κ → Option (U64 × κ)) (w : Nat → U64) (a : Nat × Option U32) (b : Buf κ) : Prop :=
  StreamO nx w a.1 b.core ∧ b.has = a.2.isSome ∧ ∀ v, a.2 = some v → b.uinteger = v

theorem BufAtO.start {κ : Type} {nx : κ → Option (U64 × κ)} {w : Nat → U64} {b : Buf κ} (hc : StreamO nx w 0 b.core) (hh : b.has = false) :
    BufAtO nx w (0, none) b := ⟨hc, hh, fun v hv => by simp at hv⟩

/-- A draw, and how many words it takes. -/
theorem BufAtO.drawWords {κ : Type} {nx : κ → Option (U64 × κ)} {w : Nat → U64} {a : Nat × Option U32} {b : Buf κ} (h : BufAtO nx w a b) (o : Op) :
    ∃ b', Buf.opO nx o b = some ((draw64At w o a).1, b') ∧ BufAtO nx w (draw64At w o a).2 b' ∧
      ((b'.core = b.core ∧ (draw64At w o a).2.1 = a.1) ∨ ∃ v, nx b.core = some (v, b'.core) ∧ (draw64At w o a).2.1 = a.1 + 1) := by
  obtain ⟨h1, h2, h3⟩ := h
  obtain ⟨p, half⟩ := a
  obtain ⟨core, has, ui⟩ := b
  dsimp only at h1 h2 h3
  obtain ⟨c', hc, hs⟩ := h1.next
  cases o with
  | u64 =>
    refine ⟨⟨c', has, ui⟩, ?_, ⟨hs, h2, h3⟩, .inr ⟨_, hc, rfl⟩⟩
    simp only [Buf.opO, hc, Option.map_some, draw64At]
  | dbl =>
    refine ⟨⟨c', has, ui⟩, ?_, ⟨hs, h2, h3⟩, .inr ⟨_, hc, rfl⟩⟩
    simp only [Buf.opO, Doubles.dbl64O, hc, Option.map_some, draw64At, Doubles.dbl64, BitVec.toNat_ushiftRight, Nat.shiftRight_eq_div_pow]
  | u32 =>
    cases half with
    | some v =>
      simp only [Option.isSome_some] at h2
      subst h2
      have := h3 v rfl
      subst this
      refine ⟨⟨core, false, ui⟩, rfl, ⟨h1, rfl, fun v hv => ?_⟩, .inl ⟨rfl, rfl⟩⟩
      exact absurd hv (by simp [draw64At])
    | none =>
      simp only [Option.isSome_none] at h2
      subst h2
      refine ⟨⟨c', true, ((w p) >>> 32).truncate 32⟩, ?_, ⟨hs, rfl, fun v hv => ?_⟩, .inr ⟨_, hc, rfl⟩⟩
      · simp only [Buf.opO, Doubles.next32O, Bool.false_eq_true, if_false, hc, Option.map_some, draw64At, Option.some.injEq, Prod.mk.injEq, Out.o32.injEq, and_true]
        apply BitVec.eq_of_toNat_eq
        simp
      · simp only [draw64At, Option.some.injEq] at hv
        rw [← hv]
        apply BitVec.eq_of_toNat_eq
        simp [Nat.shiftRight_eq_div_pow]

theorem BufAtO.draw {κ : Type} {nx : κ → Option (U64 × κ)} {w : Nat → U64} {a : Nat × Option U32} {b : Buf κ} (h : BufAtO nx w a b) (o : Op) :
    ∃ b', Buf.opO nx o b = some ((draw64At w o a).1, b') ∧ BufAtO nx w (draw64At w o a).2 b' ∧ (b'.core = b.core ∨ ∃ v, nx b.core = some (v, b'.core)) := by
  obtain ⟨b', h1, h2, h3⟩ := h.drawWords o
  exact ⟨b', h1, h2, h3.imp And.left fun ⟨v, h, _⟩ => ⟨v, h⟩⟩

end Verif
