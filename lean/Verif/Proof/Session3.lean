import Verif.Proof.Session2
import Verif.Model.Session3
import Verif.Props.BlockCtr

/-! Places in streams for generators described by an invariant, and the records of the block-cipher classes. -/

namespace Verif

/-- The structure is at place `a`, where `I c n` says that the core `c` is at word `n`. -/
def BufInv {κ : Type} (I : κ → Nat → Prop) (a : Nat × Option U32) (b : Buf κ) : Prop :=
  I b.core a.1 ∧ b.has = a.2.isSome ∧ ∀ v, a.2 = some v → b.uinteger = v

theorem BufInv.start {κ : Type} {I : κ → Nat → Prop} {b : Buf κ} {n : Nat} (hc : I b.core n) (hh : b.has = false) : BufInv I (n, none) b :=
  ⟨hc, hh, fun v hv => by simp at hv⟩

theorem BufInv.draw {κ : Type} {nx : κ → Option (U64 × κ)} {I : κ → Nat → Prop} {w : Nat → U64}
    (hI : ∀ c n, I c n → ∃ c', nx c = some (w n, c') ∧ I c' (n + 1)) {a : Nat × Option U32} {b : Buf κ} (h : BufInv I a b) (o : Op) :
    ∃ b', Buf.opO nx o b = some ((draw64At w o a).1, b') ∧ BufInv I (draw64At w o a).2 b' := by
  obtain ⟨h1, h2, h3⟩ := h
  obtain ⟨p, half⟩ := a
  obtain ⟨core, has, ui⟩ := b
  dsimp only at h1 h2 h3
  obtain ⟨c', hc, hs⟩ := hI _ _ h1
  cases o with
  | u64 =>
    refine ⟨⟨c', has, ui⟩, ?_, hs, h2, h3⟩
    simp only [Buf.opO, hc, Option.map_some, draw64At]
  | dbl =>
    refine ⟨⟨c', has, ui⟩, ?_, hs, h2, h3⟩
    simp only [Buf.opO, Doubles.dbl64O, hc, Option.map_some, draw64At, Doubles.dbl64, BitVec.toNat_ushiftRight, Nat.shiftRight_eq_div_pow]
  | u32 =>
    cases half with
    | some v =>
      simp only [Option.isSome_some] at h2
      subst h2
      have := h3 v rfl
      subst this
      refine ⟨⟨core, false, ui⟩, rfl, h1, rfl, fun v hv => ?_⟩
      exact absurd hv (by simp [draw64At])
    | none =>
      simp only [Option.isSome_none] at h2
      subst h2
      refine ⟨⟨c', true, ((w p) >>> 32).truncate 32⟩, ?_, hs, rfl, fun v hv => ?_⟩
      · simp only [Buf.opO, Doubles.next32O, Bool.false_eq_true, if_false, hc, Option.map_some, draw64At, Option.some.injEq, Prod.mk.injEq, Out.o32.injEq, and_true]
        apply BitVec.eq_of_toNat_eq
        simp
      · simp only [draw64At, Option.some.injEq] at hv
        rw [← hv]
        apply BitVec.eq_of_toNat_eq
        simp [Nat.shiftRight_eq_div_pow]

theorem counter128_eq (c : Option Int) :
    counter128 c = if ∀ i ∈ c, 0 ≤ i ∧ i < 2 ^ 128 then .ok (c.getD 0).toNat else .error .valueError := by
  cases c with
  | none => rfl
  | some i =>
    simp only [counter128, Ints.objectToInt, Ints.objRange]
    by_cases h : 0 ≤ i ∧ i < 2 ^ 128
    · rw [if_neg (by omega), if_pos (by simpa using h)]; rfl
    · rw [if_pos (by omega), if_neg (by simpa using h)]

theorem smallInt (p : Int) (h0 : 0 ≤ p) (h1 : p ≤ 96) : (BitVec.ofInt 32 p).toInt = p := by
  rw [BitVec.toInt_ofInt, Int.bmod_def]
  omega

theorem BWF.congr {K : Nat} {enc : Ctr → Ctr} {ctr ctr' : Fin K → Ctr} {buf buf' : Nat → U64} {o : Nat} {p : BitVec 129}
    (h : BWF K enc ctr buf o p) (hc : ctr' = ctr) (hb : ∀ j < 2 * K, buf' j = buf j) : BWF K enc ctr' buf' o p := by
  obtain ⟨base, h1, h2, h3, h4⟩ := h
  subst hc
  exact ⟨base, h1, h2, fun ho j hj => (hb j hj).trans (h3 ho j hj), h4⟩

theorem speck_put_at {rk : Nat → U64} {n : Int} {c : Speck} {p : BitVec 129} (h : SpeckAt rk n c p) (hn : 0 < n ∧ n ≤ 34)
    (hr : ∀ i, 34 ≤ i → rk i = 0) : SpeckAt rk n (speckView (speckPut c)) p := by
  obtain ⟨h1, h2, o, h3, h4⟩ := h
  have ho : o ≤ 12 := by obtain ⟨_, _, h, _⟩ := h4; exact h
  refine ⟨?_, ?_, o, ?_, h4.congr ?_ fun j hj => ?_⟩
  · funext i
    by_cases hi : i < 34
    · simp [speckView, speckPut, hi, ← h1]
    · simp [speckView, hi, hr i (by omega)]
  · exact (smallInt _ (by omega) (by omega)).trans h2
  · exact (smallInt _ (by omega) (by omega)).trans h3
  · funext i
    have e1 : (2 * i.val + 1) / 2 = i.val := by omega
    simp [speckView, speckPut, Nat.add_mod, e1]
  · simp [speckView, speckPut, show j < 12 by omega]

theorem le64_leByte (x : U64) : le64 (leByte x) = x := by
  apply BitVec.eq_of_getLsbD_eq
  intro i hi
  simp only [le64, leByte, BitVec.getLsbD_append, BitVec.truncate_eq_setWidth, BitVec.getLsbD_setWidth, BitVec.getLsbD_ushiftRight]
  interval_cases i <;> simp

theorem leByte_le64 (b : Nat → U8) (k : Nat) (hk : k < 8) : leByte (le64 b) k = b k := by
  apply BitVec.eq_of_getLsbD_eq
  intro i hi
  simp only [le64, leByte, BitVec.getLsbD_append, BitVec.truncate_eq_setWidth, BitVec.getLsbD_setWidth, BitVec.getLsbD_ushiftRight]
  interval_cases k <;> interval_cases i <;> simp

theorem aes_put_at {rk : Nat → U8} {c : Aes} {p : BitVec 129} (h : AesAt rk c p) (hr : ∀ i, 176 ≤ i → rk i = 0) :
    AesAt rk (aesView (aesPut c)) p := by
  obtain ⟨h1, o, h3, h4⟩ := h
  have ho : o ≤ 8 := by obtain ⟨_, _, h, _⟩ := h4; exact h
  refine ⟨?_, o, ?_, h4.congr ?_ fun j hj => ?_⟩
  · funext i
    by_cases hi : i < 176
    · simp only [aesView, aesPut, hi, dif_pos, Vector.getElem_ofFn, h1]
      rw [leByte_le64 _ _ (Nat.mod_lt _ (by decide)), Nat.div_add_mod]
    · simp [aesView, hi, hr i (by omega)]
  · show (BitVec.ofNat 64 c.offset).toNat = _
    rw [BitVec.toNat_ofNat]; omega
  · funext i
    have e1 : (2 * i.val + 1) / 2 = i.val := by omega
    simp [aesView, aesPut, Nat.add_mod, e1]
  · simp only [aesView, aesPut, show j < 8 by omega, dif_pos, Vector.getElem_ofFn]
    rw [show (le64 fun k => leByte (c.buf ((8 * j + k) % 64 / 8)) ((8 * j + k) % 64 % 8)) = le64 (leByte (c.buf j)) from ?_, le64_leByte]
    simp only [le64]
    have e : ∀ k < 8, (8 * j + k) % 64 / 8 = j ∧ (8 * j + k) % 64 % 8 = k := fun k hk => by omega
    simp only [(e 0 (by decide)).1, (e 0 (by decide)).2, (e 1 (by decide)).1, (e 1 (by decide)).2, (e 2 (by decide)).1, (e 2 (by decide)).2,
      (e 3 (by decide)).1, (e 3 (by decide)).2, (e 4 (by decide)).1, (e 4 (by decide)).2, (e 5 (by decide)).1, (e 5 (by decide)).2,
      (e 6 (by decide)).1, (e 6 (by decide)).2, (e 7 (by decide)).1, (e 7 (by decide)).2]

end Verif
