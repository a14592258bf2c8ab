import Verif.Common.Orbit
import Mathlib.Data.Nat.Periodic
import Mathlib.Data.Nat.ModEq
import Mathlib.Logic.Equiv.Fin.Basic
import Mathlib.Algebra.BigOperators.Fin

/-! Sequences made of blocks of `N` words, block `i` depending on `i` modulo `M` only and different for different `i`: their exact
period, and how often every word occurs in it when all possible blocks occur. -/

namespace Verif.Blocks
open Orbit

variable {γ : Type} {u : Nat → γ} {N M : Nat}

/-- The exact period, from any term on. -/
theorem period (hN : 0 < N) (hM : 0 < M) (hNM : N ∣ M) (hper : ∀ k, u (k + N * M) = u k)
    (hinj : ∀ i j, (∀ n < N, u (N * i + n) = u (N * j + n)) → i ≡ j [MOD M]) (K d : Nat) :
    TailPeriod u K d ↔ N * M ∣ d := by
  constructor
  · intro h
    have hg := gcd_period (u := u) (Nat.mul_pos hN hM) hper h
    obtain ⟨g, e⟩ : ∃ g, g = d.gcd (N * M) := ⟨_, rfl⟩
    rw [← e] at hg
    have hmul : ∀ m k, u (k + m * g) = u k := by
      intro m
      induction m with
      | zero => intro k; rw [Nat.zero_mul, Nat.add_zero]
      | succ m ih => intro k; rw [Nat.succ_mul, ← Nat.add_assoc, hg, ih]
    have h1 : M ∣ g := by
      refine Nat.modEq_zero_iff_dvd.1 (hinj g 0 fun n _ => ?_)
      rw [Nat.mul_zero, Nat.zero_add, Nat.add_comm, hmul]
    obtain ⟨f, hf⟩ := hNM.trans h1
    have h2 : M ∣ f := by
      refine Nat.modEq_zero_iff_dvd.1 (hinj f 0 fun n _ => ?_)
      rw [Nat.mul_zero, Nat.zero_add, Nat.add_comm, ← hf, hg]
    exact (e ▸ hf ▸ Nat.mul_dvd_mul_left N h2 : N * M ∣ d.gcd (N * M)).trans (Nat.gcd_dvd_left _ _)
  · rintro ⟨c, rfl⟩ k -
    induction c with
    | zero => rfl
    | succ c ih => rw [Nat.mul_succ, ← Nat.add_assoc, hper, ih]

/-- The number of occurrences in a period does not depend on where the period starts. -/
theorem card_shift {P : Nat → Prop} {T : Nat} (hP : ∀ k, P (k + T) ↔ P k) (p : Nat) :
    Nat.card {k // k < T ∧ P (p + k)} = Nat.card {k // k < T ∧ P k} := by
  classical
  have hp : Function.Periodic P T := fun k => propext (hP k)
  rw [card_eq_count, card_eq_count, ← Nat.filter_Ico_card_eq_of_periodic p T P hp, Nat.count_eq_card_filter_range]
  refine Finset.card_bij' (fun k _ => p + k) (fun k _ => k - p) ?_ ?_ ?_ ?_ <;> intro k hk <;>
    simp only [Finset.mem_filter, Finset.mem_range, Finset.mem_Ico] at hk ⊢
  · exact ⟨⟨by omega, by omega⟩, hk.2⟩
  · exact ⟨by omega, by rw [show p + (k - p) = k by omega]; exact hk.2⟩
  · omega
  · omega

theorem card_fiber [Finite γ] (j : Fin N) (x : γ) : Nat.card {f : Fin N → γ // f j = x} = Nat.card γ ^ (N - 1) := by
  rw [fiber_card' (α := Fin N → γ) (p := fun f (k : {k // k ≠ j}) => f k) (q := fun f => f j) (g := fun _ y => y)
    ((Equiv.funSplitAt j γ).trans (Equiv.prodComm _ _)).bijective (fun _ => rfl) (fun _ => Function.bijective_id) x,
    Nat.card_fun, Nat.card_eq_fintype_card (α := {k // k ≠ j}), Fintype.card_subtype_compl, Fintype.card_fin, Fintype.card_unique]

/-- The blocks of one period are all the blocks there are, each exactly once. -/
theorem blocks_bijective [Finite γ] (hM : Nat.card γ ^ N = M)
    (hinj : ∀ i j, (∀ n < N, u (N * i + n) = u (N * j + n)) → i ≡ j [MOD M]) :
    Function.Bijective fun (i : Fin M) (n : Fin N) => u (N * i.val + n.val) := by
  refine (Nat.bijective_iff_injective_and_card _).2 ⟨fun i j h => ?_, by rw [Nat.card_fun, Nat.card_fin, Nat.card_fin, hM]⟩
  have h1 := hinj i.val j.val fun n hn => congrFun h ⟨n, hn⟩
  exact Fin.ext (Nat.ModEq.eq_of_lt_of_lt h1 i.isLt j.isLt)

/-- Every word occurs equally often in a period, wherever it starts. -/
theorem count [Finite γ] (hN : 0 < N) (hM : Nat.card γ ^ N = M) (hper : ∀ k, u (k + N * M) = u k)
    (hinj : ∀ i j, (∀ n < N, u (N * i + n) = u (N * j + n)) → i ≡ j [MOD M]) (p : Nat) (x : γ) :
    Nat.card {k // k < N * M ∧ u (p + k) = x} = N * Nat.card γ ^ (N - 1) := by
  rw [card_shift (P := fun k => u k = x) (fun k => by rw [hper])]
  have hb := blocks_bijective hM hinj
  have e1 : Nat.card {k // k < N * M ∧ u k = x} = Nat.card (Σ j : Fin N, {i : Fin M // u (N * i.val + j.val) = x}) := by
    refine Nat.card_congr ⟨fun k => ⟨⟨k.val % N, Nat.mod_lt _ hN⟩, ⟨k.val / N, Nat.div_lt_of_lt_mul k.prop.1⟩, ?_⟩,
      fun t => ⟨N * t.2.val.val + t.1.val, ?_, t.2.prop⟩, ?_, ?_⟩
    · show u (N * (k.val / N) + k.val % N) = x
      rw [Nat.div_add_mod]; exact k.prop.2
    · have h1 := t.1.isLt
      have h2 : N * (t.2.val.val + 1) ≤ N * M := Nat.mul_le_mul_left N t.2.val.isLt
      rw [Nat.mul_succ] at h2
      omega
    · intro k
      exact Subtype.ext (Nat.div_add_mod _ _)
    · rintro ⟨j, i, hi⟩
      have a1 : (N * i.val + j.val) % N = j.val := by rw [Nat.mul_add_mod, Nat.mod_eq_of_lt j.isLt]
      have a2 : (N * i.val + j.val) / N = i.val := by rw [Nat.mul_add_div hN, Nat.div_eq_of_lt j.isLt, Nat.add_zero]
      have b1 : (⟨(N * i.val + j.val) % N, Nat.mod_lt _ hN⟩ : Fin N) = j := Fin.ext a1
      refine Sigma.ext b1 ?_
      apply (Subtype.heq_iff_coe_eq (fun i' => by
        show u (N * i'.val + (N * i.val + j.val) % N) = x ↔ _
        rw [a1])).2
      exact Fin.ext a2
  rw [e1, Nat.card_sigma]
  have e2 : ∀ j : Fin N, Nat.card {i : Fin M // u (N * i.val + j.val) = x} = Nat.card γ ^ (N - 1) := fun j =>
    (Nat.card_congr ((Equiv.ofBijective _ hb).subtypeEquiv (p := fun i => u (N * i.val + j.val) = x) (q := fun f => f j = x)
      fun i => Iff.rfl)).trans (card_fiber j x)
  rw [Finset.sum_congr rfl fun j _ => e2 j, Finset.sum_const, Finset.card_univ, Fintype.card_fin, smul_eq_mul]

/-- Every sequence of `N` words is the block number `i` for exactly one `i < M`, counted from any block. -/
theorem unique [Finite γ] (hM : Nat.card γ ^ N = M)
    (hinj : ∀ i j, (∀ n < N, u (N * i + n) = u (N * j + n)) → i ≡ j [MOD M]) (b : Nat) (f : Fin N → γ) :
    ∃! i, i < M ∧ ∀ n : Fin N, u (N * b + (N * i + n.val)) = f n := by
  have hinj' : ∀ i j, (∀ n < N, u (N * b + (N * i + n)) = u (N * b + (N * j + n))) → i ≡ j [MOD M] := fun i j h =>
    Nat.ModEq.add_left_cancel' b (hinj (b + i) (b + j) fun n hn => by
      rw [Nat.mul_add, Nat.mul_add, Nat.add_assoc, Nat.add_assoc]; exact h n hn)
  obtain ⟨i, hi⟩ := (blocks_bijective (u := fun k => u (N * b + k)) hM hinj').2 f
  refine ⟨i.val, ⟨i.isLt, fun n => congrFun hi n⟩, fun j hj => ?_⟩
  have := (blocks_bijective (u := fun k => u (N * b + k)) hM hinj').1 (a₁ := ⟨j, hj.1⟩) (a₂ := i)
    ((funext fun n => hj.2 n).trans hi.symm)
  exact congrArg Fin.val this

end Verif.Blocks
