import Mathlib.SetTheory.Cardinal.Finite
import Mathlib.Data.BitVec
import Mathlib.Data.Nat.Count
import Mathlib.Data.Int.GCD
import Verif.Common.Draw

/-! Counting along a full period: an orbit that is as long as a finite invariant set visits every element of the set
exactly once, so that every question on how often a value is output becomes a count of states. -/

namespace Verif.Orbit

theorem card_bitVec (w : Nat) : Nat.card (BitVec w) = 2 ^ w := by
  rw [Nat.card_congr BitVec.equivFin.toEquiv, Nat.card_fin]

instance (w : Nat) : Finite (BitVec w) := Finite.of_equiv _ BitVec.equivFin.toEquiv.symm

/-- The sequence `u` has the period `n` from the term `K` on. -/
def TailPeriod {γ : Type} (u : Nat → γ) (K n : Nat) : Prop := ∀ k, K ≤ k → u (k + n) = u k

variable {α : Type}

theorem orbit_inj {f : α → α} {v : α} {N : Nat} (h : ∀ n, f^[n] v = v ↔ N ∣ n) {i j : Nat} (hi : i < N) (hj : j < N)
    (e : f^[i] v = f^[j] v) : i = j := by
  have key : ∀ i j, i < N → j < N → i < j → f^[i] v ≠ f^[j] v := by
    intro i j hi hj hij e
    have h1 : f^[N - i + j] v = v := by
      rw [Function.iterate_add_apply, ← e, ← Function.iterate_add_apply, Nat.sub_add_cancel hi.le]
      exact (h N).2 (dvd_refl N)
    have h2 : N ∣ j - i := (Nat.dvd_add_right (dvd_refl N)).1 (by
      rw [show N + (j - i) = N - i + j by omega]; exact (h _).1 h1)
    have := Nat.le_of_dvd (by omega) h2
    omega
  rcases Nat.lt_trichotomy i j with h1 | h1 | h1
  · exact absurd e (key i j hi hj h1)
  · exact h1
  · exact absurd e.symm (key j i hj hi h1)

/-- The orbit of `v` visits every element of `A` exactly once in `N` steps. -/
theorem orbit_bij {f : α → α} {v : α} {N : Nat} (hN : 0 < N) {A : Set α} (hA : Nat.card A = N) (hf : ∀ s ∈ A, f s ∈ A) (hv : v ∈ A)
    (h : ∀ n, f^[n] v = v ↔ N ∣ n) : ∀ s ∈ A, ∃ k < N, f^[k] v = s := by
  have hm : ∀ k, f^[k] v ∈ A := by
    intro k
    induction k with
    | zero => exact hv
    | succ k ih => rw [Function.iterate_succ_apply']; exact hf _ ih
  have : Finite A := Nat.finite_of_card_ne_zero (by omega)
  let g : Fin N → A := fun k => ⟨f^[k.val] v, hm k.val⟩
  have gi : Function.Injective g := fun i j e => Fin.ext (orbit_inj h i.isLt j.isLt (congrArg Subtype.val e))
  have gb : Function.Bijective g := (Nat.bijective_iff_injective_and_card g).2 ⟨gi, by rw [hA, Nat.card_fin]⟩
  intro s hs
  obtain ⟨k, hk⟩ := gb.2 ⟨s, hs⟩
  exact ⟨k.val, k.isLt, congrArg Subtype.val hk⟩

/-- Along a full period, a condition on the state holds as often as there are states satisfying it. -/
theorem orbit_count {f : α → α} {v : α} {N : Nat} (hN : 0 < N) {A : Set α} (hA : Nat.card A = N) (hf : ∀ s ∈ A, f s ∈ A) (hv : v ∈ A)
    (h : ∀ n, f^[n] v = v ↔ N ∣ n) (P : α → Prop) :
    Nat.card {k // k < N ∧ P (f^[k] v)} = Nat.card {s // s ∈ A ∧ P s} := by
  have hm : ∀ k, f^[k] v ∈ A := by
    intro k
    induction k with
    | zero => exact hv
    | succ k ih => rw [Function.iterate_succ_apply']; exact hf _ ih
  refine Nat.card_congr (Equiv.ofBijective (fun k => ⟨f^[k.val] v, hm _, k.prop.2⟩) ⟨?_, ?_⟩)
  · intro i j e
    exact Subtype.ext (orbit_inj h i.prop.1 j.prop.1 (congrArg Subtype.val e))
  · rintro ⟨s, hs, hP⟩
    obtain ⟨k, hk, e⟩ := orbit_bij hN hA hf hv h s hs
    exact ⟨⟨k, hk, by rw [e]; exact hP⟩, Subtype.ext e⟩

/-- The number of non-zero states with a property. -/
theorem card_ne_zero [Finite α] [Zero α] (P : α → Prop) [Decidable (P 0)] :
    Nat.card {s : α // s ≠ 0 ∧ P s} = Nat.card {s // P s} - if P 0 then 1 else 0 := by
  classical
  have h := Nat.card_congr (Equiv.sumCompl (fun s : {s : α // P s} => s.val ≠ 0)).symm
  rw [Nat.card_sum] at h
  have h1 : Nat.card {s : {s : α // P s} // s.val ≠ 0} = Nat.card {s : α // s ≠ 0 ∧ P s} :=
    Nat.card_congr ⟨fun s => ⟨s.val.val, s.prop, s.val.prop⟩, fun s => ⟨⟨s.val, s.prop.2⟩, s.prop.1⟩, fun _ => rfl, fun _ => rfl⟩
  have h2 : Nat.card {s : {s : α // P s} // ¬ s.val ≠ 0} = if P 0 then 1 else 0 := by
    split
    · next hp =>
      rw [Nat.card_eq_one_iff_unique]
      refine ⟨⟨fun a b => ?_⟩, ⟨⟨⟨0, hp⟩, by simp⟩⟩⟩
      apply Subtype.ext; apply Subtype.ext
      rw [not_not.1 a.prop, not_not.1 b.prop]
    · next hp =>
      have : IsEmpty {s : {s : α // P s} // ¬ s.val ≠ 0} := ⟨fun a => hp (by rw [← not_not.1 a.prop]; exact a.val.prop)⟩
      exact Nat.card_of_isEmpty
  rw [h1, h2] at h
  omega

/-- If for every value of the remaining part of the state the output is a bijective function of one word, every output has as many
states as the remaining part has values. -/
theorem fiber_card {W β γ : Type} (e : α ≃ W × β) (out : α → γ) (hb : ∀ w, Function.Bijective fun a => out (e.symm (w, a))) (x : γ) :
    Nat.card {s // out s = x} = Nat.card W := by
  refine (Nat.card_congr (Equiv.ofBijective (fun w => ⟨e.symm (w, ((hb w).2 x).choose), ((hb w).2 x).choose_spec⟩) ⟨?_, ?_⟩)).symm
  · intro w w' h
    have := congrArg (fun s => (e s.val).1) h
    simpa using this
  · rintro ⟨s, hs⟩
    refine ⟨(e s).1, Subtype.ext ?_⟩
    have h1 := ((hb (e s).1).2 x).choose_spec
    have h2 : out (e.symm ((e s).1, (e s).2)) = x := by rw [Prod.mk.eta, e.symm_apply_apply]; exact hs
    have h3 := (hb (e s).1).1 (h1.trans h2.symm)
    show e.symm ((e s).1, ((hb (e s).1).2 x).choose) = s
    rw [h3, Prod.mk.eta, e.symm_apply_apply]

/-- The same, for a state given by two parts and an output that is a bijective function of the second for every value of the first. -/
theorem fiber_card' {W β γ : Type} {p : α → W} {q : α → β} (hpq : Function.Bijective fun s => (p s, q s)) {out : α → γ} {g : W → β → γ}
    (hg : ∀ s, out s = g (p s) (q s)) (hb : ∀ w, Function.Bijective (g w)) (x : γ) : Nat.card {s // out s = x} = Nat.card W := by
  refine fiber_card (Equiv.ofBijective _ hpq) out (fun w => ?_) x
  have : (fun a => out ((Equiv.ofBijective _ hpq).symm (w, a))) = g w := funext fun a => by
    have h := (Equiv.ofBijective _ hpq).apply_symm_apply (w, a)
    rw [Equiv.ofBijective_apply, Prod.mk.injEq] at h
    rw [hg, h.1, h.2]
  rw [this]
  exact hb w

/-- A period of a sequence that has the period `N` throughout, from some term on: then the greatest common divisor is a period too. -/
theorem gcd_period {γ : Type} {u : Nat → γ} {N n K : Nat} (hN0 : 0 < N) (hN : ∀ k, u (k + N) = u k) (hn : ∀ k, K ≤ k → u (k + n) = u k)
    (k : Nat) : u (k + Nat.gcd n N) = u k := by
  have hmul : ∀ m k, u (k + m * N) = u k := by
    intro m
    induction m with
    | zero => intro k; simp
    | succ m ih => intro k; rw [Nat.succ_mul, ← Nat.add_assoc, hN, ih]
  have hn' : ∀ k, u (k + n) = u k := by
    intro k
    rw [← hmul K (k + n), ← hmul K k, show k + n + K * N = k + K * N + n by omega]
    exact hn _ (Nat.le_trans (Nat.le_mul_of_pos_right K hN0) (Nat.le_add_left _ _))
  have hmuln : ∀ m k, u (k + n * m) = u k := by
    intro m
    induction m with
    | zero => intro k; simp
    | succ m ih => intro k; rw [Nat.mul_succ, ← Nat.add_assoc, hn', ih]
  rcases Nat.lt_or_ge (Nat.gcd n N) N with hg | hg
  · obtain ⟨a, _, ha⟩ := Nat.exists_mul_mod_eq_gcd hg
    have h1 := Nat.div_add_mod (n * a) N
    rw [ha] at h1
    rw [← hmul ((n * a) / N) (k + n.gcd N), show k + n.gcd N + n * a / N * N = k + n * a by rw [Nat.mul_comm (n * a / N)]; omega]
    exact hmuln a k
  · rw [Nat.le_antisymm (Nat.le_of_dvd hN0 (Nat.gcd_dvd_right n N)) hg, hN]

open scoped Count in
theorem card_eq_count (P : Nat → Prop) [DecidablePred P] (n : Nat) : Nat.card {k // k < n ∧ P k} = Nat.count P n := by
  rw [Nat.count_eq_card_fintype, Nat.card_eq_fintype_card]

theorem card_mul {P : Nat → Prop} {g : Nat} (hp : ∀ k, P (k + g) ↔ P k) (c : Nat) :
    Nat.card {k // k < g * c ∧ P k} = c * Nat.card {k // k < g ∧ P k} := by
  classical
  rw [card_eq_count, card_eq_count]
  induction c with
  | zero => simp
  | succ c ih =>
    rw [Nat.mul_succ, Nat.add_comm, Nat.count_add, Nat.succ_mul, Nat.add_comm, ← ih]
    congr 1
    simp only [Nat.add_comm g, hp]

/-- If two values occur in the period `N` of a sequence with frequencies that differ by one, no proper divisor of `N` is a period. -/
theorem output_period {γ : Type} {u : Nat → γ} {N : Nat} (hN0 : 0 < N) (hN : ∀ k, u (k + N) = u k) {x y : γ}
    (hxy : Nat.card {k // k < N ∧ u k = x} + 1 = Nat.card {k // k < N ∧ u k = y}) (K n : Nat) :
    (∀ k, K ≤ k → u (k + n) = u k) ↔ N ∣ n := by
  constructor
  · intro h
    have hg := gcd_period hN0 hN h
    obtain ⟨c, hc⟩ := Nat.gcd_dvd_right n N
    have h1 := card_mul (P := fun k => u k = x) (fun k => by rw [hg]) c
    have h2 := card_mul (P := fun k => u k = y) (fun k => by rw [hg]) c
    rw [← hc] at h1 h2
    rw [h1, h2] at hxy
    have : c ∣ 1 := (Nat.dvd_add_right (Dvd.intro _ rfl)).1 (by rw [hxy]; exact Dvd.intro _ rfl)
    rw [Nat.dvd_one.1 this, Nat.mul_one] at hc
    rw [hc]; exact Nat.gcd_dvd_left n N
  · rintro ⟨m, rfl⟩ k _
    induction m with
    | zero => simp
    | succ m ih => rw [Nat.mul_succ, ← Nat.add_assoc, hN, ih]

end Verif.Orbit
