import Verif.Common.CountsO
import Verif.Props.MtEquidist

set_option exponentiation.threshold 20000

/-! C94 for MT64 and MT19937: the doubles, the 32-bit halves of the words of MT64 and the 64-bit pairs of the words of MT19937. -/

namespace Verif
open Verif.Orbit Verif.Doubles

/-- The pairs at the start of windows. -/
theorem card_first_two {γ : Type} [Finite γ] (n : Nat) (p : γ × γ → Prop) :
    Nat.card {w : Fin (n + 2) → γ // p (w 0, w 1)} = Nat.card {x // p x} * Nat.card γ ^ n := by
  rw [show Nat.card γ ^ n = Nat.card (Fin n → γ) by rw [Nat.card_fun, Nat.card_fin], ← Nat.card_prod]
  refine Nat.card_congr ⟨fun w => (⟨(w.val 0, w.val 1), w.prop⟩, fun i => w.val i.succ.succ),
    fun q => ⟨Fin.cons q.1.val.1 (Fin.cons q.1.val.2 q.2), q.1.prop⟩, ?_, ?_⟩
  · rintro ⟨w, h⟩
    apply Subtype.ext
    funext i
    refine Fin.cases rfl (fun i => ?_) i
    refine Fin.cases rfl (fun i => rfl) i
  · rintro ⟨⟨x, h⟩, q⟩
    rfl

/-- How often a condition on the next `m` words holds, from how often every window of them occurs. -/
theorem card_windows {w : Nat} {u : Nat → BitVec w} {m N C : Nat} (hC : 1 ≤ C)
    (hc : ∀ v : Nat → BitVec w, [Decidable (∀ i < m, v i = 0)] → Nat.card {k // k < N ∧ ∀ i < m, u (k + i) = v i} = C - if ∀ i < m, v i = 0 then 1 else 0)
    (p : (Fin m → BitVec w) → Prop) [Decidable (p fun _ => 0)] :
    Nat.card {k // k < N ∧ p fun i => u (k + i)} = C * Nat.card {v // p v} - if p (fun _ => 0) then 1 else 0 := by
  classical
  refine card_of_counts (u := fun k (i : Fin m) => u (k + i)) (z := fun _ => 0) hC p fun x _ => ?_
  have h := hc fun i => if h : i < m then x ⟨i, h⟩ else 0
  have e1 : (∀ i < m, (if h : i < m then x ⟨i, h⟩ else 0) = 0) ↔ x = fun _ => 0 :=
    ⟨fun h => funext fun i => by have := h i i.isLt; rwa [dif_pos i.isLt] at this, fun h i hi => by rw [dif_pos hi, h]⟩
  have e2 : ∀ k, (∀ i < m, u (k + i) = if h : i < m then x ⟨i, h⟩ else 0) ↔ (fun i : Fin m => u (k + i)) = x := fun k =>
    ⟨fun h => funext fun i => by have := h i i.isLt; rwa [dif_pos i.isLt] at this, fun h i hi => by rw [dif_pos hi, ← h]⟩
  simp only [e2] at h
  rw [h]
  congr 1
  exact if_congr e1 rfl rfl

theorem pow_dbl : 2 ^ 33 * (2 ^ 11 * Nat.card U64 ^ 310) = 2 ^ 19884 := by
  rw [card_bitVec]; generalize h : (310 : Nat) = n; rw [← pow_mul, ← pow_add, ← pow_add, ← h]

theorem pow_half : 2 ^ 33 * (2 ^ 32 * Nat.card U64 ^ 310) = 2 ^ 19905 := by
  rw [card_bitVec]; generalize h : (310 : Nat) = n; rw [← pow_mul, ← pow_add, ← pow_add, ← h]

theorem pow_pair : 2 ^ 19873 * 2 ^ 11 = 2 ^ 19884 := by rw [← pow_add]

section
variable (s : Mt 64) (h0 : 1 ≤ s.pos) (h1 : s.pos ≤ 312) (hz : Mt64Live s.key)
include h0 h1 hz

theorem mt64_windows : ∃ u : Nat → U64, (∀ k, nthO mtNext64 k s = some (u k)) ∧ (∀ k, u (k + (2 ^ 19937 - 1)) = u k) ∧
    ∀ (p : (Fin 311 → U64) → Prop) [Decidable (p fun _ => 0)],
      Nat.card {k // k < 2 ^ 19937 - 1 ∧ p fun i => u (k + i)} = 2 ^ 33 * Nat.card {v // p v} - if p (fun _ => 0) then 1 else 0 := by
  obtain ⟨x, hx, _, ho⟩ := mt64_terms s (by omega) h1 hz
  refine ⟨fun k => temper64 (x.val (s.pos.toNat + k)), ho, fun k => ?_, fun p _ => card_windows (u := fun k => temper64 (x.val (s.pos.toNat + k))) (C := 2 ^ 33) (by decide) (fun v _ => ?_) p⟩
  · have := (C76_mt64 s h0 h1 hz _).2 (dvd_refl _) k
    rw [ho, ho] at this
    exact Option.some.inj this
  · have h := C80_mt64 s h0 h1 hz v
    simp only [ho, Option.some_inj] at h
    rw [h]
    split <;> rfl

/-- C94: the doubles of MT64 over its period, from every state that is not degenerate: every double `2^19884` times, 0 once less; the exact
period is `2^19937 - 1`, from any double on. -/
theorem C94_mt64_doubles : (∀ m < 2 ^ 53, Nat.card {k // k < 2 ^ 19937 - 1 ∧ nthO (dbl64O mtNext64) k s = some m} = 2 ^ 19884 - if m = 0 then 1 else 0) ∧
    ∀ K n, TailPeriod (fun k => nthO (dbl64O mtNext64) k s) K n ↔ 2 ^ 19937 - 1 ∣ n := by
  obtain ⟨u, hu, hp, hc⟩ := mt64_windows s h0 h1 hz
  have hcount : ∀ m < 2 ^ 53, Nat.card {k // k < 2 ^ 19937 - 1 ∧ nthO (dbl64O mtNext64) k s = some m} = 2 ^ 19884 - if m = 0 then 1 else 0 := fun m hm => by
    have h := hc fun v => (v 0 >>> 11).toNat = m
    rw [card_first 310 (fun x : U64 => (x >>> 11).toNat = m), card_upper_bits 11 (by decide) m hm, pow_dbl] at h
    simp only [dbl64O_nth hu, Option.some_inj]
    refine Eq.trans h (congrArg (_ - ·) (if_congr ?_ rfl rfl))
    rw [show ((0 : U64) >>> 11).toNat = 0 by decide]
    exact eq_comm
  refine ⟨hcount, output_period (u := fun k => nthO (dbl64O mtNext64) k s) (x := some 0) (y := some 1) (by have := Nat.one_lt_two_pow (n := 19937) (by decide); omega)
    (fun k => by rw [dbl64O_nth hu, dbl64O_nth hu, hp]) ?_⟩
  rw [hcount 0 (by decide), hcount 1 (by decide), if_pos rfl, if_neg (by decide)]
  have := Nat.two_pow_pos 19884
  omega

end

/-- C94: the 32-bit draws of MT64: every value `2^19906` times in the first `2 (2^19937 - 1)`, 0 twice less; they repeat from there. -/
theorem C94_mt64_halves_partial (b : Buf (Mt 64)) (h0 : 1 ≤ b.core.pos) (h1 : b.core.pos ≤ 312) (hz : Mt64Live b.core.key) (hb : b.has = false) :
    (∀ v : U32, Nat.card {k // k < 2 * (2 ^ 19937 - 1) ∧ nthO (next32O mtNext64) k b = some v} = 2 ^ 19906 - if v = 0 then 2 else 0) ∧
    TailPeriod (fun k => nthO (next32O mtNext64) k b) 0 (2 * (2 ^ 19937 - 1)) := by
  obtain ⟨u, hu, hp, hc⟩ := mt64_windows b.core h0 h1 hz
  have he : ∀ k, halfOf u (2 * k) = (u k).truncate 32 := fun k => by rw [halfOf, if_pos (by omega), show 2 * k / 2 = k by omega]
  have ho : ∀ k, halfOf u (2 * k + 1) = (u k >>> 32).truncate 32 := fun k => by rw [halfOf, if_neg (by omega), show (2 * k + 1) / 2 = k by omega]
  refine ⟨fun v => ?_, fun k _ => ?_⟩
  · simp only [next32O_nth hu hb, Option.some_inj]
    rw [half_counts he ho]
    have a1 := hc fun w => (w 0).truncate 32 = v
    have a2 := hc fun w => (w 0 >>> 32).truncate 32 = v
    rw [card_first 310 (fun x : U64 => x.truncate 32 = v), card_lo, pow_half] at a1
    rw [card_first 310 (fun x : U64 => (x >>> 32).truncate 32 = v), card_hi, pow_half] at a2
    have z1 : (BitVec.truncate 32 (0 : U64) = v) ↔ v = 0 := by rw [show BitVec.truncate 32 (0 : U64) = 0#32 by decide]; exact eq_comm
    have z2 : (BitVec.truncate 32 ((0 : U64) >>> 32) = v) ↔ v = 0 := by rw [show BitVec.truncate 32 ((0 : U64) >>> 32) = 0#32 by decide]; exact eq_comm
    rw [if_congr z1 rfl rfl] at a1
    rw [if_congr z2 rfl rfl] at a2
    refine Eq.trans (congrArg₂ (· + ·) a1 a2) ?_
    have : 2 ^ 19906 = 2 * 2 ^ 19905 := by rw [← pow_succ']
    rw [this]
    have := Nat.two_pow_pos 19905
    generalize 2 ^ 19905 = D at *
    split <;> omega
  · show nthO (next32O mtNext64) (k + 2 * (2 ^ 19937 - 1)) b = nthO (next32O mtNext64) k b
    rw [next32O_nth hu hb, next32O_nth hu hb, halfOf, halfOf]
    have e : (k + 2 * (2 ^ 19937 - 1)) / 2 = k / 2 + (2 ^ 19937 - 1) := by generalize 2 ^ 19937 - 1 = D; omega
    have f : (k + 2 * (2 ^ 19937 - 1)) % 2 = k % 2 := by generalize 2 ^ 19937 - 1 = D; omega
    rw [e, f, hp]

section
variable (s : Mt 32) (h0 : 1 ≤ s.pos) (h1 : s.pos ≤ 624) (hz : Mt32Live s.key)
include h0 h1 hz

theorem mt32_windows : ∃ u : Nat → U32, (∀ k, nthO mtNext32 k s = some (u k)) ∧ (∀ k, u (k + (2 ^ 19937 - 1)) = u k) ∧
    ∀ (p : U32 × U32 → Prop) [Decidable (p (0, 0))],
      Nat.card {k // k < 2 ^ 19937 - 1 ∧ p (u (2 * k), u (2 * k + 1))} = 2 ^ 19873 * Nat.card {v // p v} - if p (0, 0) then 1 else 0 := by
  obtain ⟨x, hx, _, ho⟩ := mt32_terms s (by omega) h1 hz
  have hp : ∀ k, temper32 (x.val (s.pos.toNat + (k + (2 ^ 19937 - 1)))) = temper32 (x.val (s.pos.toNat + k)) := fun k => by
    have := (C76_mt19937 s h0 h1 hz _).2 (dvd_refl _) k
    rw [ho, ho] at this
    exact Option.some.inj this
  refine ⟨_, ho, hp, fun p _ => ?_⟩
  have hodd : (2 ^ 19937 - 1) % 2 = 1 := by
    have : 2 ^ 19937 = 2 * 2 ^ 19936 := by rw [← pow_succ']
    have := Nat.two_pow_pos 19936
    generalize 2 ^ 19936 = D at *
    generalize 2 ^ 19937 = E at *
    omega
  rw [card_even_positions (P := fun k => p (temper32 (x.val (s.pos.toNat + k)), temper32 (x.val (s.pos.toNat + (k + 1))))) hodd
    (fun k => by rw [hp, show k + (2 ^ 19937 - 1) + 1 = k + 1 + (2 ^ 19937 - 1) from Nat.add_right_comm _ _ _, hp])]
  have h := card_windows (u := fun k => temper32 (x.val (s.pos.toNat + k))) (m := 623) (N := 2 ^ 19937 - 1) (C := 2) (by decide) (fun v _ => ?_)
    (fun w => p (w 0, w 1))
  · refine Eq.trans h ?_
    rw [card_first_two 621, card_bitVec, ← pow_mul 2 32 621, show 2 ^ 19873 = 2 * 2 ^ (32 * 621) by rw [← pow_succ'], Nat.mul_comm (Nat.card _), Nat.mul_assoc]
  · have h := C80_mt19937 s h0 h1 hz v
    simp only [ho, Option.some_inj] at h
    rw [h]
    split <;> rfl

/-- C94: the 64-bit draws of MT19937, in either order of evaluation: every value `2^19873` times, 0 once less, and the exact period. -/
theorem C94_mt19937_next64 (o : Bool) :
    (∀ x : U64, Nat.card {k // k < 2 ^ 19937 - 1 ∧ nthO (twoCallsO mtNext32 o) k s = some x} = 2 ^ 19873 - if x = 0 then 1 else 0) ∧
    ∀ K n, TailPeriod (fun k => nthO (twoCallsO mtNext32 o) k s) K n ↔ 2 ^ 19937 - 1 ∣ n := by
  obtain ⟨u, hu, hp, hc⟩ := mt32_windows s h0 h1 hz
  have hcount : ∀ x : U64, Nat.card {k // k < 2 ^ 19937 - 1 ∧ nthO (twoCallsO mtNext32 o) k s = some x} = 2 ^ 19873 - if x = 0 then 1 else 0 := fun x => by
    have h := hc fun v => joinOf o v.1 v.2 = x
    rw [card_join, Nat.mul_one] at h
    simp only [twoCallsO_nth hu, Option.some_inj]
    refine Eq.trans h (congrArg (_ - ·) (if_congr ?_ rfl rfl))
    rw [show joinOf o 0 0 = 0 by cases o <;> decide]
    exact eq_comm
  refine ⟨hcount, output_period (u := fun k => nthO (twoCallsO mtNext32 o) k s) (x := some 0) (y := some 1)
    (by have := Nat.one_lt_two_pow (n := 19937) (by decide); omega) (fun k => ?_) ?_⟩
  · rw [twoCallsO_nth hu, twoCallsO_nth hu, Nat.mul_add, Nat.two_mul (2 ^ 19937 - 1), ← Nat.add_assoc, Nat.add_right_comm _ _ 1, Nat.add_right_comm _ _ 1, hp, hp, hp, hp]
  · rw [hcount 0, hcount 1, if_pos rfl, if_neg (by decide)]
    have := Nat.two_pow_pos 19873
    omega

/-- C94: the doubles of MT19937, which take two draws each. -/
theorem C94_mt19937_doubles :
    (∀ m < 2 ^ 53, Nat.card {k // k < 2 ^ 19937 - 1 ∧ nthO (dblCallsO mtNext32) k s = some m} = 2 ^ 19884 - if m = 0 then 1 else 0) ∧
    ∀ K n, TailPeriod (fun k => nthO (dblCallsO mtNext32) k s) K n ↔ 2 ^ 19937 - 1 ∣ n := by
  obtain ⟨u, hu, hp, hc⟩ := mt32_windows s h0 h1 hz
  have hcount : ∀ m < 2 ^ 53, Nat.card {k // k < 2 ^ 19937 - 1 ∧ nthO (dblCallsO mtNext32) k s = some m} = 2 ^ 19884 - if m = 0 then 1 else 0 := fun m hm => by
    have h := hc fun v => dbl32 v.1 v.2 = m
    rw [card_dbl32 m hm] at h
    simp only [dblCallsO_nth hu, Option.some_inj]
    refine Eq.trans h (congrArg₂ (· - ·) pow_pair (if_congr ?_ rfl rfl))
    rw [show dbl32 0 0 = 0 by decide]
    exact eq_comm
  refine ⟨hcount, output_period (u := fun k => nthO (dblCallsO mtNext32) k s) (x := some 0) (y := some 1)
    (by have := Nat.one_lt_two_pow (n := 19937) (by decide); omega) (fun k => ?_) ?_⟩
  · rw [dblCallsO_nth hu, dblCallsO_nth hu, Nat.mul_add, Nat.two_mul (2 ^ 19937 - 1), ← Nat.add_assoc, Nat.add_right_comm _ _ 1, Nat.add_right_comm _ _ 1, hp, hp, hp, hp]
  · rw [hcount 0 (by decide), hcount 1 (by decide), if_pos rfl, if_neg (by decide)]
    have := Nat.two_pow_pos 19884
    omega

end

/-- C94: every seeded MT19937 and MT64. -/
theorem C94_mt_seeded (seed : List U32) (old : Nat → U32) (seed' : List U64) (old' : Nat → U64) (m : Nat) (hm : m < 2 ^ 53) :
    Nat.card {k // k < 2 ^ 19937 - 1 ∧ nthO (dblCallsO mtNext32) k (mtSeed32 seed old) = some m} = 2 ^ 19884 - (if m = 0 then 1 else 0) ∧
      Nat.card {k // k < 2 ^ 19937 - 1 ∧ nthO (dblCallsO mtNext32) k (mtSeedNumpy seed old) = some m} = 2 ^ 19884 - (if m = 0 then 1 else 0) ∧
      Nat.card {k // k < 2 ^ 19937 - 1 ∧ nthO (dbl64O mtNext64) k (mtSeed64 seed' old') = some m} = 2 ^ 19884 - if m = 0 then 1 else 0 := by
  obtain ⟨t1, t2, t3, t4⟩ := C37_mt19937_top seed old
  obtain ⟨u1, u2⟩ := C37_mt64_top seed' old'
  exact ⟨(C94_mt19937_doubles _ (by rw [t2]; decide) (by rw [t2]) (Or.inl (by rw [t1]; rfl))).1 m hm,
    (C94_mt19937_doubles _ (by rw [t4]; decide) (by rw [t4]; decide) (Or.inl (by rw [t3]; rfl))).1 m hm,
    (C94_mt64_doubles _ (by rw [u2]; decide) (by rw [u2]) (Or.inl (by rw [u1]; decide))).1 m hm⟩

end Verif
