import Verif.Common.Orbit
import Verif.Common.Draw
import Mathlib.Algebra.BigOperators.Ring.Finset
import Mathlib.Algebra.Order.BigOperators.Group.Finset
import Mathlib.SetTheory.Cardinal.Finite
import Mathlib.Data.Nat.Count
import Mathlib.Data.Nat.Prime.Basic
import Mathlib.Algebra.Group.Action.Defs

/-! Counting along a period: how often a condition holds, from how often every value occurs; the halves of a stream of words. -/

namespace Verif.Orbit

/-- If every value occurs `C` times, `z` `e` times less, a condition on the value holds `C` times for every value satisfying it. -/
theorem card_of_counts {γ : Type} [Finite γ] {u : Nat → γ} {N C e : Nat} {z : γ} [∀ x, Decidable (x = z)] (he : e ≤ C)
    (p : γ → Prop) (hc : ∀ x, p x → Nat.card {k // k < N ∧ u k = x} = C - if x = z then e else 0) [Decidable (p z)] :
    Nat.card {k // k < N ∧ p (u k)} = C * Nat.card {x // p x} - if p z then e else 0 := by
  classical
  have := Fintype.ofFinite γ
  have c1 : ∀ q : Nat → Prop, Nat.card {k // k < N ∧ q k} = ((Finset.range N).filter q).card := fun q => by
    rw [card_eq_count, Nat.count_eq_card_filter_range]
  rw [c1, Nat.card_eq_fintype_card, Fintype.card_subtype]
  rw [Finset.card_eq_sum_card_fiberwise (f := u) (t := Finset.univ.filter p) (fun k hk => by
    simp only [Finset.coe_filter, Finset.mem_univ, true_and, Set.mem_ofPred_eq]
    exact (Finset.mem_filter.1 hk).2)]
  have h1 : ∀ x ∈ Finset.univ.filter p, (((Finset.range N).filter fun k => p (u k)).filter fun k => u k = x).card = C - if x = z then e else 0 := fun x hx => by
    rw [← hc x (Finset.mem_filter.1 hx).2, c1, Finset.filter_filter]
    congr 1
    ext k
    simp only [Finset.mem_filter, Finset.mem_range]
    constructor
    · exact fun h => ⟨h.1, h.2.2⟩
    · exact fun h => ⟨h.1, by rw [h.2]; exact (Finset.mem_filter.1 hx).2, h.2⟩
  rw [Finset.sum_congr rfl h1, Finset.sum_tsub_distrib]
  · rw [Finset.sum_const, smul_eq_mul, Nat.mul_comm]
    congr 1
    rw [← Finset.sum_filter, Finset.sum_const, smul_eq_mul, Finset.filter_filter]
    by_cases hz : p z
    · rw [if_pos hz, show (Finset.univ.filter fun x => p x ∧ x = z) = {z} from ?_, Finset.card_singleton, Nat.one_mul]
      ext x
      simp only [Finset.mem_filter, Finset.mem_univ, true_and, Finset.mem_singleton]
      exact ⟨fun h => h.2, fun h => ⟨h ▸ hz, h⟩⟩
    · rw [if_neg hz, show (Finset.univ.filter fun x => p x ∧ x = z) = ∅ from ?_, Finset.card_empty, Nat.zero_mul]
      ext x
      simp only [Finset.mem_filter, Finset.mem_univ, true_and, Finset.notMem_empty, iff_false]
      exact fun h => hz (h.2 ▸ h.1)
  · intro x _
    split <;> omega

/-- The words with a given upper part. -/
theorem card_upper_bits {w : Nat} (e : Nat) (he : e ≤ w) (m : Nat) (hm : m < 2 ^ (w - e)) : Nat.card {x : BitVec w // (x >>> e).toNat = m} = 2 ^ e := by
  have hp := Nat.two_pow_pos e
  have hw : 2 ^ (w - e) * 2 ^ e = 2 ^ w := by rw [← pow_add, Nat.sub_add_cancel he]
  rw [← Nat.card_fin (2 ^ e)]
  refine Nat.card_congr ⟨fun x => ⟨x.val.toNat % 2 ^ e, Nat.mod_lt _ hp⟩, fun r => ⟨BitVec.ofNat w (m * 2 ^ e + r.val), ?_⟩, ?_, ?_⟩
  · have : m * 2 ^ e + r.val < 2 ^ w := by
      rw [← hw]
      calc m * 2 ^ e + r.val < m * 2 ^ e + 2 ^ e := by have := r.isLt; omega
        _ = (m + 1) * 2 ^ e := by rw [Nat.succ_mul]
        _ ≤ _ := Nat.mul_le_mul_right _ hm
    rw [BitVec.toNat_ushiftRight, BitVec.toNat_ofNat, Nat.mod_eq_of_lt this, Nat.shiftRight_eq_div_pow, Nat.mul_comm, Nat.mul_add_div hp,
      Nat.div_eq_of_lt r.isLt, Nat.add_zero]
  · rintro ⟨x, h⟩
    apply Subtype.ext
    apply BitVec.eq_of_toNat_eq
    rw [BitVec.toNat_ushiftRight, Nat.shiftRight_eq_div_pow] at h
    show (BitVec.ofNat w (m * 2 ^ e + x.toNat % 2 ^ e)).toNat = x.toNat
    rw [← h, Nat.mul_comm, Nat.div_add_mod, BitVec.toNat_ofNat, Nat.mod_eq_of_lt x.isLt]
  · intro r
    apply Fin.ext
    have : m * 2 ^ e + r.val < 2 ^ w := by
      rw [← hw]
      calc m * 2 ^ e + r.val < m * 2 ^ e + 2 ^ e := by have := r.isLt; omega
        _ = (m + 1) * 2 ^ e := by rw [Nat.succ_mul]
        _ ≤ _ := Nat.mul_le_mul_right _ hm
    show (BitVec.ofNat w (m * 2 ^ e + r.val)).toNat % 2 ^ e = r.val
    rw [BitVec.toNat_ofNat, Nat.mod_eq_of_lt this, Nat.mul_comm, Nat.mul_add_mod, Nat.mod_eq_of_lt r.isLt]

/-- The sequences whose first term satisfies a condition. -/
theorem card_first {γ : Type} [Finite γ] (n : Nat) (p : γ → Prop) : Nat.card {w : Fin (n + 1) → γ // p (w 0)} = Nat.card {x // p x} * Nat.card γ ^ n := by
  have := Fintype.ofFinite γ
  rw [show Nat.card γ ^ n = Nat.card (Fin n → γ) by rw [Nat.card_fun, Nat.card_fin], ← Nat.card_prod]
  refine Nat.card_congr ⟨fun w => (⟨w.val 0, w.prop⟩, fun i => w.val i.succ), fun q => ⟨Fin.cons q.1.val q.2, q.1.prop⟩, ?_, ?_⟩
  · rintro ⟨w, h⟩
    apply Subtype.ext
    exact Fin.cons_self_tail w
  · rintro ⟨⟨x, h⟩, t⟩
    rfl

/-- A word is its two halves. -/
def split64 : U64 ≃ U32 × U32 where
  toFun x := ((x >>> 32).truncate 32, x.truncate 32)
  invFun p := p.1 ++ p.2
  left_inv x := by
    apply BitVec.eq_of_getLsbD_eq
    intro i hi
    simp only [BitVec.truncate_eq_setWidth, BitVec.getLsbD_append, BitVec.getLsbD_setWidth, BitVec.getLsbD_ushiftRight]
    by_cases h : i < 32
    · simp [h]
    · rw [if_neg h, show 32 + (i - 32) = i by omega]; simp; omega
  right_inv p := by
    apply Prod.ext
    · apply BitVec.eq_of_getLsbD_eq
      intro i hi
      simp only [BitVec.truncate_eq_setWidth, BitVec.getLsbD_append, BitVec.getLsbD_setWidth, BitVec.getLsbD_ushiftRight]
      simp [hi]
    · apply BitVec.eq_of_getLsbD_eq
      intro i hi
      simp only [BitVec.truncate_eq_setWidth, BitVec.getLsbD_append, BitVec.getLsbD_setWidth]
      simp [hi]

theorem card_lo (v : U32) : Nat.card {x : U64 // x.truncate 32 = v} = 2 ^ 32 := by
  rw [fiber_card (W := U32) (β := U32) split64 (fun x => x.truncate 32) (fun w => ?_) v, card_bitVec]
  have : (fun a => (split64.symm (w, a)).truncate 32) = id := funext fun a => congrArg Prod.snd (split64.apply_symm_apply (w, a))
  rw [this]
  exact Function.bijective_id

theorem card_hi (v : U32) : Nat.card {x : U64 // (x >>> 32).truncate 32 = v} = 2 ^ 32 := by
  rw [fiber_card (W := U32) (β := U32) (split64.trans (Equiv.prodComm _ _)) (fun x => (x >>> 32).truncate 32) (fun w => ?_) v, card_bitVec]
  have : (fun a => ((split64.trans (Equiv.prodComm _ _)).symm (w, a) >>> 32).truncate 32) = id :=
    funext fun a => congrArg Prod.fst (split64.apply_symm_apply (a, w))
  rw [this]
  exact Function.bijective_id

/-! ### The stream of halves of a stream of words -/

section
variable {u : Nat → U64} {h : Nat → U32} (h0 : ∀ k, h (2 * k) = (u k).truncate 32) (h1 : ∀ k, h (2 * k + 1) = (u k >>> 32).truncate 32)
include h0 h1

theorem half_counts (N : Nat) (v : U32) : Nat.card {k // k < 2 * N ∧ h k = v} =
    Nat.card {k // k < N ∧ (u k).truncate 32 = v} + Nat.card {k // k < N ∧ (u k >>> 32).truncate 32 = v} := by
  classical
  rw [card_eq_count, card_eq_count, card_eq_count]
  induction N with
  | zero => simp
  | succ N ih =>
    rw [show 2 * (N + 1) = 2 * N + 1 + 1 by omega, Nat.count_succ, Nat.count_succ, ih, Nat.count_succ, Nat.count_succ]
    simp only [h0, h1]
    omega

theorem half_ext {i j : Nat} (e0 : h (2 * i) = h (2 * j)) (e1 : h (2 * i + 1) = h (2 * j + 1)) : u i = u j := by
  rw [h0, h0] at e0
  rw [h1, h1] at e1
  exact split64.injective (Prod.ext e1 e0)

/-- The period of the halves is twice that of the words, if that is even or the upper halves are not the lower halves half a period later. -/
theorem half_period {N : Nat} (hN : 0 < N) (hu : ∀ K n, TailPeriod u K n ↔ N ∣ n)
    (hodd : N % 2 = 1 → ∃ k, (u k).truncate 32 ≠ (u (k + N / 2) >>> 32).truncate 32) (K n : Nat) : TailPeriod h K n ↔ 2 * N ∣ n := by
  have hN' : ∀ k, h (k + 2 * N) = h k := fun k => by
    have e : u (k / 2 + N) = u (k / 2) := (hu 0 N).2 (dvd_refl N) _ (Nat.zero_le _)
    rcases Nat.mod_two_eq_zero_or_one k with hk | hk
    · rw [show k + 2 * N = 2 * (k / 2 + N) by omega, h0, e, ← h0, show 2 * (k / 2) = k by omega]
    · rw [show k + 2 * N = 2 * (k / 2 + N) + 1 by omega, h1, e, ← h1, show 2 * (k / 2) + 1 = k by omega]
  constructor
  · intro hn
    have hg := gcd_period (by omega : 0 < 2 * N) hN' hn
    refine Dvd.dvd.trans ?_ (Nat.gcd_dvd_left n (2 * N))
    have hd := Nat.gcd_dvd_right n (2 * N)
    generalize Nat.gcd n (2 * N) = g at hg hd
    rcases Nat.mod_two_eq_zero_or_one g with h2 | h2
    · have : N ∣ g / 2 := (hu 0 _).1 fun k _ => half_ext h0 h1 (by rw [← hg (2 * k)]; congr 1; omega) (by rw [← hg (2 * k + 1)]; congr 1; omega)
      obtain ⟨c, hc⟩ := this
      exact ⟨c, by rw [Nat.mul_assoc, ← hc]; omega⟩
    · exfalso
      have hgN : N ∣ g := (hu 0 _).1 fun k _ => half_ext h0 h1
        (by rw [← hg (2 * k), ← hg (2 * k + g)]; congr 1; omega) (by rw [← hg (2 * k + 1), ← hg (2 * k + 1 + g)]; congr 1; omega)
      have hNo : N % 2 = 1 := by
        obtain ⟨c, rfl⟩ := hgN
        rcases Nat.mod_two_eq_zero_or_one N with h | h
        · rw [Nat.mul_mod, h] at h2; simp at h2
        · exact h
      have : g ∣ N := by
        have hc : Nat.Coprime g 2 := Nat.coprime_two_right.2 (Nat.odd_iff.2 h2)
        exact hc.dvd_of_dvd_mul_left hd
      obtain rfl := Nat.dvd_antisymm this hgN
      obtain ⟨k, hk⟩ := hodd hNo
      apply hk
      rw [← h0, ← h1, ← hg (2 * k)]
      congr 1; omega
  · rintro ⟨c, rfl⟩ k _
    induction c with
    | zero => rfl
    | succ c ih => rw [Nat.mul_succ, ← Nat.add_assoc, hN', ih]

end

end Verif.Orbit

namespace Verif.Buf
variable {σ : Type} (nx : σ → U64 × σ)

theorem nextDouble_iter (b : Buf σ) (k : Nat) : (stepOf (nextDouble nx))^[k] b = { b with core := (stepOf nx)^[k] b.core } := by
  induction k generalizing b with
  | zero => rfl
  | succ k ih => rw [Function.iterate_succ_apply, ih]; rfl

theorem nextDouble_nth (b : Buf σ) (k : Nat) : nthDraw (nextDouble nx) k b = (nthDraw nx k b.core >>> 11).toNat := by
  rw [nthDraw, nextDouble_iter]; rfl

theorem next32_iter (b : Buf σ) (hb : b.has = false) (k : Nat) :
    ((stepOf (next32 nx))^[2 * k] b).core = (stepOf nx)^[k] b.core ∧ ((stepOf (next32 nx))^[2 * k] b).has = false := by
  induction k generalizing b with
  | zero => exact ⟨rfl, hb⟩
  | succ k ih =>
    have e : stepOf (next32 nx) (stepOf (next32 nx) b) = { core := (nx b.core).2, has := false, uinteger := ((nx b.core).1 >>> 32).truncate 32 } := by
      simp [stepOf, next32, hb]
    rw [show 2 * (k + 1) = 2 * k + 1 + 1 by omega, Function.iterate_succ_apply, Function.iterate_succ_apply, e]
    exact ih _ rfl

theorem next32_nth_even (b : Buf σ) (hb : b.has = false) (k : Nat) : nthDraw (next32 nx) (2 * k) b = (nthDraw nx k b.core).truncate 32 := by
  obtain ⟨h1, h2⟩ := next32_iter nx b hb k
  rw [nthDraw, next32, h2, if_neg (by decide), h1]; rfl

theorem next32_nth_odd (b : Buf σ) (hb : b.has = false) (k : Nat) :
    nthDraw (next32 nx) (2 * k + 1) b = (nthDraw nx k b.core >>> 32).truncate 32 := by
  obtain ⟨h1, h2⟩ := next32_iter nx b hb k
  rw [nthDraw, Function.iterate_succ_apply']
  generalize (stepOf (next32 nx))^[2 * k] b = c at h1 h2
  simp only [stepOf, next32, h2, h1, Bool.false_eq_true, if_false, if_true]
  rfl

end Verif.Buf
