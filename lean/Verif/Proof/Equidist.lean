import Verif.Common.Orbit
import Verif.Common.BitInj
import Verif.Proof.XorPeriod

/-! Orbits of the linear maps of full period, and the windows of outputs that determine the state. -/

namespace Verif.Linear
open Verif.GF2 Verif.XorLinear Verif.Orbit

section
variable {V : Type} [AddCommGroup V]

theorem card_nonzero {d : Nat} (hV : Nat.card V = 2 ^ d) : Nat.card {s : V | s ≠ 0} = 2 ^ d - 1 := by
  have : Finite V := Nat.finite_of_card_ne_zero (by rw [hV]; exact (Nat.two_pow_pos d).ne')
  have h := card_ne_zero (α := V) (fun _ => True)
  rw [if_pos trivial, Nat.card_congr (Equiv.subtypeUnivEquiv (fun _ => trivial)), hV] at h
  rw [← h]
  exact Nat.card_congr (Equiv.subtypeEquivRight fun s => by simp)

variable {T : AddMonoid.End V} {d : Nat}

theorem ne_zero_of_period (hd : 0 < d) (hp : ∀ v : V, v ≠ 0 → ∀ n, T^[n] v = v ↔ 2 ^ d - 1 ∣ n) {s : V} (hs : s ≠ 0) : T s ≠ 0 := by
  intro h
  have h1 := (hp s hs (2 ^ d - 1)).2 (dvd_refl _)
  obtain ⟨m, hm⟩ := Nat.exists_eq_add_one.2 (show 0 < 2 ^ d - 1 by have := Nat.one_lt_two_pow hd.ne'; omega)
  rw [hm, Function.iterate_succ_apply, h, iterate_map_zero] at h1
  exact hs h1.symm

/-- A linear map of full period: a condition on the state holds along a period as often as there are non-zero states satisfying it. -/
theorem count_of_period (hd : 0 < d) (hV : Nat.card V = 2 ^ d) (hp : ∀ v : V, v ≠ 0 → ∀ n, T^[n] v = v ↔ 2 ^ d - 1 ∣ n) {v : V} (hv : v ≠ 0)
    (P : V → Prop) [Decidable (P 0)] :
    Nat.card {k // k < 2 ^ d - 1 ∧ P (T^[k] v)} = Nat.card {s // P s} - if P 0 then 1 else 0 := by
  have : Finite V := Nat.finite_of_card_ne_zero (by rw [hV]; exact (Nat.two_pow_pos d).ne')
  rw [orbit_count (A := {s | s ≠ 0}) (by have := Nat.one_lt_two_pow hd.ne'; omega) (card_nonzero hV)
    (fun s hs => ne_zero_of_period hd hp hs) hv (hp v hv) P]
  exact card_ne_zero P

/-- A linear map of full period visits every non-zero state exactly once per period. -/
theorem unique_of_period (hd : 0 < d) (hV : Nat.card V = 2 ^ d) (hp : ∀ v : V, v ≠ 0 → ∀ n, T^[n] v = v ↔ 2 ^ d - 1 ∣ n) {v : V} (hv : v ≠ 0)
    {s : V} (hs : s ≠ 0) : ∃! k, k < 2 ^ d - 1 ∧ T^[k] v = s := by
  obtain ⟨k, hk, e⟩ := orbit_bij (A := {s | s ≠ 0}) (by have := Nat.one_lt_two_pow hd.ne'; omega) (card_nonzero hV)
    (fun s hs => ne_zero_of_period hd hp hs) hv (hp v hv) s hs
  exact ⟨k, ⟨hk, e⟩, fun j hj => orbit_inj (hp v hv) hj.1 hk (hj.2.trans e.symm)⟩

theorem iterate_ne_zero (hd : 0 < d) (hp : ∀ v : V, v ≠ 0 → ∀ n, T^[n] v = v ↔ 2 ^ d - 1 ∣ n) {v : V} (hv : v ≠ 0) (k : Nat) : T^[k] v ≠ 0 := by
  induction k with
  | zero => exact hv
  | succ k ih => rw [Function.iterate_succ_apply']; exact ne_zero_of_period hd hp ih

/-- The windows of a sequence of outputs that determine the state: every window but that of the zero state occurs exactly once. -/
theorem window_unique (hd : 0 < d) (hV : Nat.card V = 2 ^ d) (hp : ∀ v : V, v ≠ 0 → ∀ n, T^[n] v = v ↔ 2 ^ d - 1 ∣ n) {v : V} (hv : v ≠ 0)
    {W : Type} {F : V → W} (hF : Function.Bijective F) (w : W) (hw : w ≠ F 0) : ∃! k, k < 2 ^ d - 1 ∧ F (T^[k] v) = w := by
  obtain ⟨s, rfl⟩ := hF.2 w
  obtain ⟨k, hk, hu⟩ := unique_of_period hd hV hp hv (s := s) (fun h => hw (by rw [h]))
  exact ⟨k, ⟨hk.1, by rw [hk.2]⟩, fun j hj => hu j ⟨hj.1, hF.1 hj.2⟩⟩

/-- … and the period of the outputs is that of the states. -/
theorem window_period {m : Nat} (hp : ∀ v : V, v ≠ 0 → ∀ n, T^[n] v = v ↔ 2 ^ d - 1 ∣ n) (hd : 0 < d) {v : V} (hv : v ≠ 0)
    {γ : Type} {o : V → γ} (hF : Function.Injective fun (s : V) (i : Fin m) => o (T^[i.val] s)) (K n : Nat) :
    (∀ k, K ≤ k → o (T^[k + n] v) = o (T^[k] v)) ↔ 2 ^ d - 1 ∣ n := by
  have hK := iterate_ne_zero hd hp hv K
  rw [← hp _ hK n]
  constructor
  · intro h
    apply hF
    funext i
    show o _ = o _
    rw [← Function.iterate_add_apply, ← Function.iterate_add_apply, ← Function.iterate_add_apply, ← h (i.val + K) (by omega)]
    congr 2; omega
  · intro h k hk
    obtain ⟨j, rfl⟩ := Nat.exists_eq_add_of_le hk
    rw [show K + j + n = j + (n + K) by omega, Nat.add_comm K j, Function.iterate_add_apply, Function.iterate_add_apply T n, h, ← Function.iterate_add_apply]

theorem bijective_of_card {A B : Type} {n : Nat} (hA : Nat.card A = 2 ^ n) (hB : Nat.card B = 2 ^ n) {F : A → B} (hF : Function.Injective F) :
    Function.Bijective F := by
  have : Finite B := Nat.finite_of_card_ne_zero (by rw [hB]; exact (Nat.two_pow_pos n).ne')
  exact (Nat.bijective_iff_injective_and_card F).2 ⟨hF, by rw [hA, hB]⟩

end

/-! ### The numbers of states -/

theorem card_S2 : Nat.card S2 = 2 ^ 128 := by
  rw [Nat.card_congr (show S2 ≃ U64 × U64 from ⟨fun s => (s.s0, s.s1), fun p => ⟨p.1, p.2⟩, fun _ => rfl, fun _ => rfl⟩), Nat.card_prod, card_bitVec]
  norm_num

theorem card_S4 : Nat.card S4 = 2 ^ 256 := by
  rw [Nat.card_congr (show S4 ≃ U64 × U64 × U64 × U64 from ⟨fun s => (s.s0, s.s1, s.s2, s.s3), fun p => ⟨p.1, p.2.1, p.2.2.1, p.2.2.2⟩, fun _ => rfl,
    fun _ => rfl⟩), Nat.card_prod, Nat.card_prod, Nat.card_prod, card_bitVec]
  norm_num

set_option exponentiation.threshold 2000 in
theorem card_S8 : Nat.card S8 = 2 ^ 512 := by
  rw [Nat.card_congr (show S8 ≃ U64 × U64 × U64 × U64 × U64 × U64 × U64 × U64 from ⟨fun s => (s.s0, s.s1, s.s2, s.s3, s.s4, s.s5, s.s6, s.s7),
    fun p => ⟨p.1, p.2.1, p.2.2.1, p.2.2.2.1, p.2.2.2.2.1, p.2.2.2.2.2.1, p.2.2.2.2.2.2.1, p.2.2.2.2.2.2.2⟩, fun _ => rfl, fun _ => rfl⟩)]
  simp only [Nat.card_prod, card_bitVec, ← pow_add]

theorem card_words (m : Nat) : Nat.card (Fin m → U64) = 2 ^ (64 * m) := by
  rw [Nat.card_fun, card_bitVec, Nat.card_fin, pow_mul]

set_option exponentiation.threshold 2000 in
theorem card_N16 : Nat.card N16 = 2 ^ 1024 := by
  rw [Nat.card_congr (show N16 ≃ (Fin 16 → U64) from ⟨fun s => s.f, fun f => ⟨f⟩, fun _ => rfl, fun _ => rfl⟩), card_words]

/-! ### Windows -/

/-- A family of additive functions with no common zero determines the argument. -/
theorem injective_of_kernel {V W : Type} [AddCommGroup V] {m : Nat} {g : Fin m → V → BitVec 64} (hg : ∀ i x y, g i (x + y) = g i x ^^^ g i y)
    (hV : ∀ v : V, v + v = 0) (h : ∀ v, (∀ i, g i v = 0) → v = 0) {c : BitVec 64 → W} (hc : Function.Injective c) :
    Function.Injective fun (v : V) (i : Fin m) => c (g i v) := by
  intro x y e
  have : x + y = 0 := h _ fun i => by
    rw [hg, hc (congrFun e i)]
    exact BitVec.xor_self
  rw [← add_zero x, ← hV y, ← add_assoc, this, zero_add]

theorem iterate_add {V : Type} [AddCommGroup V] (T : AddMonoid.End V) (k : Nat) (x y : V) : T^[k] (x + y) = T^[k] x + T^[k] y :=
  iterate_map_add T k x y

/-- Four successive values of the second word determine the state of Xoshiro256. -/
theorem xosh256_window (s : S4) (h : ∀ i : Fin 4, (xosh256End^[i.val] s).s1 = 0#64) : s = 0 := by
  by_contra hs
  refine ne_zero_of_period (by decide) xosh256_period hs ?_
  have z : ∀ i < 4, (xosh256End^[i] s).s1 = 0#64 := fun i hi => h ⟨i, hi⟩
  have st : ∀ i, xosh256End^[i + 1] s = xosh256Step (xosh256End^[i] s) := fun i => Function.iterate_succ_apply' _ _ _
  generalize ht : (fun i => xosh256End^[i] s) = t at *
  have ht' : ∀ i, xosh256End^[i] s = t i := fun i => congrFun ht i
  rw [show xosh256End s = xosh256End^[1] s from rfl]
  simp only [ht'] at z st ⊢
  clear ht ht' h hs
  have a : ∀ i < 3, (t i).s2 ^^^ (t i).s0 = 0#64 := fun i hi => by
    have h1 : (t i).s1 ^^^ ((t i).s2 ^^^ (t i).s0) = 0#64 := by
      rw [← z (i + 1) (by omega), st]; rfl
    rwa [z i (by omega), BitVec.zero_xor] at h1
  have b : ∀ i < 3, (t (i + 1)).s2 = 0#64 := fun i hi => by
    rw [st, show (xosh256Step (t i)).s2 = ((t i).s2 ^^^ (t i).s0) ^^^ ((t i).s1 <<< 17) from rfl, a i hi, z i (by omega)]; rfl
  have c : ∀ i < 2, (t (i + 1)).s0 = 0#64 := fun i hi => by
    have := a (i + 1) (by omega)
    rwa [b i (by omega), BitVec.zero_xor] at this
  have e : (t 1).s3 = 0#64 := by
    have h1 : (t 1).s0 ^^^ ((t 1).s3 ^^^ (t 1).s1) = 0#64 := by rw [← c 1 (by omega), st 1]; rfl
    rwa [c 0 (by omega), z 1 (by omega), BitVec.zero_xor, BitVec.xor_zero] at h1
  rw [S4.zero_def]
  cases h1 : t 1
  rw [S4.mk.injEq]
  have := c 0 (by omega); have := z 1 (by omega); have := b 0 (by omega)
  simp_all

/-- Four successive values of the first word determine the state of Xoshiro256. -/
theorem xosh256_window0 (s : S4) (h : ∀ i : Fin 4, (xosh256End^[i.val] s).s0 = 0#64) : s = 0 := by
  by_contra hs
  refine ne_zero_of_period (by decide) xosh256_period hs ?_
  have z : ∀ i < 4, (xosh256End^[i] s).s0 = 0#64 := fun i hi => h ⟨i, hi⟩
  have st : ∀ i, xosh256End^[i + 1] s = xosh256Step (xosh256End^[i] s) := fun i => Function.iterate_succ_apply' _ _ _
  generalize ht : (fun i => xosh256End^[i] s) = t at *
  have ht' : ∀ i, xosh256End^[i] s = t i := fun i => congrFun ht i
  rw [show xosh256End s = xosh256End^[1] s from rfl]
  simp only [ht'] at z st ⊢
  clear ht ht' h hs
  have a : ∀ i < 3, (t i).s3 ^^^ (t i).s1 = 0#64 := fun i hi => by
    have h1 : (t i).s0 ^^^ ((t i).s3 ^^^ (t i).s1) = 0#64 := by
      rw [← z (i + 1) (by omega), st]; rfl
    rwa [z i (by omega), BitVec.zero_xor] at h1
  have b : ∀ i < 3, (t (i + 1)).s3 = 0#64 := fun i hi => by
    rw [st, show (xosh256Step (t i)).s3 = rotl64 ((t i).s3 ^^^ (t i).s1) 45 from rfl, a i hi]; rfl
  have c : ∀ i < 2, (t (i + 1)).s1 = 0#64 := fun i hi => by
    have := a (i + 1) (by omega)
    rwa [b i (by omega), BitVec.zero_xor] at this
  have e : (t 1).s2 = 0#64 := by
    have h1 : (t 1).s1 ^^^ ((t 1).s2 ^^^ (t 1).s0) = 0#64 := by rw [← c 1 (by omega), st 1]; rfl
    rwa [c 0 (by omega), z 1 (by omega), BitVec.zero_xor, BitVec.xor_zero] at h1
  rw [S4.zero_def]
  cases h1 : t 1
  rw [S4.mk.injEq]
  have := c 0 (by omega); have := z 1 (by omega); have := b 0 (by omega)
  simp_all

/-- Eight successive values of the second word determine the state of Xoshiro512. -/
theorem xosh512_window (s : S8) (h : ∀ i : Fin 8, (xosh512End^[i.val] s).s1 = 0#64) : s = 0 := by
  by_contra hs
  refine ne_zero_of_period (by decide) xosh512_period (ne_zero_of_period (by decide) xosh512_period hs) ?_
  have z : ∀ i < 8, (xosh512End^[i] s).s1 = 0#64 := fun i hi => h ⟨i, hi⟩
  have st : ∀ i, xosh512End^[i + 1] s = xosh512Step (xosh512End^[i] s) := fun i => Function.iterate_succ_apply' _ _ _
  generalize ht : (fun i => xosh512End^[i] s) = t at *
  have ht' : ∀ i, xosh512End^[i] s = t i := fun i => congrFun ht i
  rw [show xosh512End (xosh512End s) = xosh512End^[2] s from rfl]
  simp only [ht'] at z st ⊢
  clear ht ht' h hs
  have a : ∀ i < 7, (t i).s2 ^^^ (t i).s0 = 0#64 := fun i hi => by
    have h1 : (t i).s1 ^^^ ((t i).s2 ^^^ (t i).s0) = 0#64 := by rw [← z (i + 1) (by omega), st]; rfl
    rwa [z i (by omega), BitVec.zero_xor] at h1
  have b : ∀ i < 7, (t (i + 1)).s2 = 0#64 := fun i hi => by
    rw [st, show (xosh512Step (t i)).s2 = (t i).s2 ^^^ (t i).s0 from rfl, a i hi]
  have c : ∀ i < 6, (t (i + 1)).s0 = 0#64 := fun i hi => by
    have := a (i + 1) (by omega)
    rwa [b i (by omega), BitVec.zero_xor] at this
  have c6 : ∀ i < 5, (t (i + 1)).s6 = 0#64 := fun i hi => by
    have h1 : (t (i + 1)).s0 ^^^ (t (i + 1)).s6 = 0#64 := by rw [← c (i + 1) (by omega), st (i + 1)]; rfl
    rwa [c i (by omega), BitVec.zero_xor] at h1
  have c73 : ∀ i < 4, (t (i + 1)).s7 ^^^ (t (i + 1)).s3 = 0#64 := fun i hi => by
    have h1 : ((t (i + 1)).s6 ^^^ ((t (i + 1)).s7 ^^^ (t (i + 1)).s3)) ^^^ ((t (i + 1)).s1 <<< 11) = 0#64 := by rw [← c6 (i + 1) (by omega), st (i + 1)]; rfl
    rwa [c6 i (by omega), z (i + 1) (by omega), BitVec.zero_shiftLeft, BitVec.zero_xor, BitVec.xor_zero] at h1
  have c7 : ∀ i < 4, (t (i + 2)).s7 = 0#64 := fun i hi => by
    rw [st (i + 1), show (xosh512Step (t (i + 1))).s7 = rotl64 ((t (i + 1)).s7 ^^^ (t (i + 1)).s3) 21 from rfl, c73 i hi]; rfl
  have c3 : ∀ i < 3, (t (i + 2)).s3 = 0#64 := fun i hi => by
    have := c73 (i + 1) (by omega)
    rwa [c7 i (by omega), BitVec.zero_xor] at this
  have c4 : ∀ i < 2, (t (i + 2)).s4 = 0#64 := fun i hi => by
    have h1 : (t (i + 2)).s3 ^^^ (t (i + 2)).s4 = 0#64 := by rw [← c3 (i + 1) (by omega), st (i + 2)]; rfl
    rwa [c3 i (by omega), BitVec.zero_xor] at h1
  have c5 : (t 2).s5 = 0#64 := by
    have h1 : (t 2).s4 ^^^ ((t 2).s5 ^^^ (t 2).s1) = 0#64 := by rw [← c4 1 (by omega), st 2]; rfl
    rwa [c4 0 (by omega), z 2 (by omega), BitVec.zero_xor, BitVec.xor_zero] at h1
  rw [S8.zero_def]
  cases h1 : t 2
  rw [S8.mk.injEq]
  have := c 1 (by omega); have := z 2 (by omega); have := b 1 (by omega); have := c6 1 (by omega); have := c7 0 (by omega)
  have := c3 0 (by omega); have := c4 0 (by omega)
  simp_all

/-- The outputs of Xorshift1024 from the 16 words, most recent first. -/
theorem xors1024_words (u : N16) (i : Fin 16) : (xorsEnd^[i.val + 1] u).f 0 = (xorsEnd^[16] u).f (i + 1) := by
  have st : ∀ (u : N16) (j : Fin 16), j ≠ 0 → (xorsEnd u).f j = u.f (j + 1) := fun u j hj => by
    show (xorsStep u).f j = _
    simp only [xorsStep, hj, if_false]
    split
    · next h => rw [h]; rfl
    · rfl
  have key : ∀ m ≤ 15, ∀ u : N16, (xorsEnd^[m] u).f (Fin.ofNat 16 (16 - m)) = u.f 0 := by
    intro m
    induction m with
    | zero => intro _ u; rfl
    | succ m ih =>
      intro hm u
      rw [Function.iterate_succ_apply', st _ _ (by
        intro h
        have := congrArg Fin.val h
        simp only [Fin.ofNat, Fin.val_zero] at this
        omega)]
      rw [← ih (by omega) u]
      congr 1
      apply Fin.ext
      simp only [Fin.ofNat, Fin.val_add, Fin.val_one]
      omega
  have := key (15 - i.val) (by omega) (xorsEnd^[i.val + 1] u)
  rw [← Function.iterate_add_apply, show 15 - i.val + (i.val + 1) = 16 by omega] at this
  rw [← this]
  congr 1
  apply Fin.ext
  simp only [Fin.ofNat, Fin.val_add, Fin.val_one]
  omega

end Verif.Linear
