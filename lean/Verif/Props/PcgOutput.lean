import Mathlib.Data.Nat.Prime.Basic
import Verif.Common.Orbit
import Verif.Common.BitInj
import Verif.Props.Lcg

/-! C79: the exact periods of the outputs of PCG64, LCG128Mix and PCG32, and how often every value occurs in one period. -/

namespace Verif.Pcg
open Verif.Orbit

section
variable {w : Nat}

/-- Half a period flips the top bit. -/
theorem lcg_half (hw : 2 ≤ w) (a c : BitVec w) (ha : a.toNat % 4 = 1) (hc : c.toNat % 2 = 1) :
    ((lcgStep a c)^[2 ^ (w - 1)] 0).toNat = 2 ^ (w - 1) := by
  have h0 : (lcgStep a c)^[2 ^ (w - 1)] 0 ≠ 0 := by
    rw [Ne, lcg_full_period hw a c 0 ha hc]
    intro h
    exact absurd (Nat.le_of_dvd (Nat.two_pow_pos _) h) (by rw [Nat.not_le]; exact Nat.pow_lt_pow_right (by decide) (by omega))
  obtain ⟨q, hq⟩ := geom_two_pow_dvd a.toNat (by omega) (w - 1)
  have h1 : 2 ^ (w - 1) ∣ ((lcgStep a c)^[2 ^ (w - 1)] 0).toNat := by
    rw [affine_iterate_closed, hq, mul_zero, zero_add, BitVec.toNat_mul, BitVec.natCast_eq_ofNat, BitVec.toNat_ofNat, Nat.mul_mod_mod,
      Nat.dvd_mod_iff (Nat.pow_dvd_pow 2 (by omega))]
    exact Dvd.dvd.mul_left (Dvd.intro _ rfl) _
  obtain ⟨r, hr⟩ := h1
  have hlt := ((lcgStep a c)^[2 ^ (w - 1)] 0).isLt
  rw [hr, show w = w - 1 + 1 by omega, pow_succ, Nat.add_sub_cancel] at hlt
  have hr2 := Nat.lt_of_mul_lt_mul_left hlt
  have hr0 : r ≠ 0 := fun h => h0 (BitVec.eq_of_toNat_eq (by rw [hr, h, mul_zero]; simp))
  rw [hr, show r = 1 by omega, mul_one]

/-- The number of times an output occurs in a period is the number of states giving it. -/
theorem lcg_counts (hw : 2 ≤ w) (a c : BitVec w) (ha : a.toNat % 4 = 1) (hc : c.toNat % 2 = 1) (t : BitVec w) (P : BitVec w → Prop) :
    Nat.card {k // k < 2 ^ w ∧ P ((lcgStep a c)^[k] t)} = Nat.card {s // P s} := by
  rw [orbit_count (A := Set.univ) (Nat.two_pow_pos w) (by rw [Nat.card_congr (Equiv.Set.univ _), card_bitVec]) (fun _ _ => trivial) trivial
    (lcg_full_period hw a c t ha hc) P]
  exact Nat.card_congr (Equiv.subtypeEquivRight fun s => by simp)

/-- The outputs have the full period if the two states that differ in the top bit only, 0 and `2^(w-1)`, have different outputs. -/
theorem lcg_output_period (hw : 2 ≤ w) (a c : BitVec w) (ha : a.toNat % 4 = 1) (hc : c.toNat % 2 = 1) (t : BitVec w) {γ : Type} {o : BitVec w → γ}
    (ho : ∀ s : BitVec w, s.toNat = 2 ^ (w - 1) → o s ≠ o 0) (K n : Nat) : TailPeriod (fun k => o ((lcgStep a c)^[k] t)) K n ↔ 2 ^ w ∣ n := by
  have hN : ∀ k, o ((lcgStep a c)^[k + 2 ^ w] t) = o ((lcgStep a c)^[k] t) := fun k => by
    rw [Function.iterate_add_apply, (lcg_full_period hw a c t ha hc _).2 (dvd_refl _)]
  constructor
  · intro h
    have hp := gcd_period (u := fun k => o ((lcgStep a c)^[k] t)) (Nat.two_pow_pos w) hN h
    obtain ⟨j, hj, e⟩ := (Nat.dvd_prime_pow Nat.prime_two).1 (Nat.gcd_dvd_right n (2 ^ w))
    rw [e] at hp
    rcases Nat.lt_or_ge j w with hlt | hge
    · exfalso
      obtain ⟨k, _, hk⟩ := orbit_bij (A := Set.univ) (Nat.two_pow_pos w) (by rw [Nat.card_congr (Equiv.Set.univ _), card_bitVec]) (fun _ _ => trivial) trivial
        (lcg_full_period hw a c t ha hc) 0 trivial
      have hm : ∀ m, o ((lcgStep a c)^[k + 2 ^ j * m] t) = o ((lcgStep a c)^[k] t) := by
        intro m
        induction m with
        | zero => rfl
        | succ m ih => rw [Nat.mul_succ, ← Nat.add_assoc]; exact (hp _).trans ih
      have := hm (2 ^ (w - 1 - j))
      rw [← pow_add, show j + (w - 1 - j) = w - 1 by omega, Nat.add_comm, Function.iterate_add_apply, hk] at this
      exact ho _ (lcg_half hw a c ha hc) this
    · rw [show j = w by omega] at e
      rw [← e]; exact Nat.gcd_dvd_left n _
  · rintro ⟨m, rfl⟩ k _
    induction m with
    | zero => simp
    | succ m ih => rw [Nat.mul_succ, ← Nat.add_assoc]; exact (hN _).trans ih

/-- With a multiplier that is 3 modulo 4 the period is at most half. -/
theorem lcg_three_mod_four (hw : 2 ≤ w) (a c s : BitVec w) (ha : a.toNat % 4 = 3) : (lcgStep a c)^[2 ^ (w - 1)] s = s := by
  have hg : 2 ^ w ∣ ∑ i ∈ Finset.range (2 ^ (w - 1)), a.toNat ^ i := by
    have h1 : ∀ m, ∑ i ∈ Finset.range (2 * m), a.toNat ^ i = (1 + a.toNat) * ∑ i ∈ Finset.range m, (a.toNat ^ 2) ^ i := by
      intro m
      induction m with
      | zero => rfl
      | succ m ih =>
        rw [Nat.mul_succ, Finset.sum_range_succ, Finset.sum_range_succ, ih, Finset.sum_range_succ _ m, ← pow_mul]
        ring
    rw [show 2 ^ (w - 1) = 2 * 2 ^ (w - 2) by rw [← pow_succ']; congr 1; omega, h1, show 2 ^ w = 4 * 2 ^ (w - 2) by
      rw [show (4 : Nat) = 2 ^ 2 from rfl, ← pow_add]; congr 1; omega]
    exact Nat.mul_dvd_mul (by omega) (geom_two_pow_dvd _ (by rw [Nat.pow_mod, show a.toNat % 2 = 1 by omega]) _)
  have hz := (natCast_eq_zero_iff (w := w) _).2 hg
  have hp : a ^ (2 ^ (w - 1)) = 1 := by
    have := mul_geom_sum a (2 ^ (w - 1))
    have hcast : ((a.toNat : Nat) : BitVec w) = a := by simp
    push_cast [hcast] at hz
    rw [hz, mul_zero] at this
    exact (sub_eq_zero.mp this.symm)
  rw [affine_iterate_closed, hz, hp]; simp

end

/-! ### Output functions -/

theorem rotr64_eq (v : U64) (r : Nat) (hr : r < 64) : rotr64 v r = rotl64 v ((64 - r) % 64) := by
  unfold rotr64 rotl64
  rcases Nat.eq_zero_or_pos r with rfl | h
  · apply BitVec.eq_of_getLsbD_eq; intro i hi; simp
  · rw [Nat.mod_eq_of_lt (by omega), BitVec.or_comm, show 64 - (64 - r) = r by omega]

theorem rotr64_inj {r : Nat} (hr : r < 64) : Function.Injective fun v => rotr64 v r := fun a b h => by
  simp only [rotr64_eq _ r hr] at h
  exact rotl64_inj (by omega) h

theorem words_bij : Function.Bijective fun s : U128 => (hi s, lo s) := by
  have : Function.Injective fun s : U128 => (hi s, lo s) := by
    intro a b h
    rw [Prod.mk.injEq] at h
    apply BitVec.eq_of_getLsbD_eq
    intro i hi'
    rcases Nat.lt_or_ge i 64 with h1 | h1
    · have := congrArg (fun x => x.getLsbD i) h.2
      simpa [lo, h1] using this
    · have := congrArg (fun x => x.getLsbD (i - 64)) h.1
      simpa [hi, show i - 64 < 64 by omega, show 64 + (i - 64) = i by omega] using this
  exact (Nat.bijective_iff_injective_and_card _).2 ⟨this, by rw [Nat.card_prod, card_bitVec, card_bitVec]; norm_num⟩

theorem words_bij' : Function.Bijective fun s : U128 => (lo s, hi s) :=
  (Equiv.prodComm U64 U64).bijective.comp words_bij

theorem bij_of_inj {f : U64 → U64} (hf : Function.Injective f) : Function.Bijective f := Finite.injective_iff_bijective.1 hf

theorem outXslRr_inj (h : U64) : Function.Injective (outXslRr h) := fun _ _ e =>
  xor_left_inj' h (rotr64_inj (show (h >>> 58).toNat < 64 by rw [BitVec.toNat_ushiftRight, Nat.shiftRight_eq_div_pow]; omega) e)

theorem or_one_odd' (l : U64) : (l ||| 1).toNat % 2 = 1 := by
  have h2 : ((l ||| 1).toNat).testBit 0 = true := by rw [BitVec.testBit_toNat]; simp
  simp only [Nat.testBit_zero, decide_eq_true_eq] at h2
  exact h2

theorem outDxsm_inj (l m : U64) (hm : m.toNat % 2 = 1) : Function.Injective fun h => outDxsm h l m := fun _ _ e =>
  xorshr_inj (by decide) (mul_odd_inj' m hm (xorshr_inj (by decide) (mul_odd_inj' (l ||| 1) (or_one_odd' l) e)))

theorem outMurmur3_inj (l : U64) : Function.Injective fun h => outMurmur3 h l := fun _ _ e =>
  xorshr_inj (by decide) (mul_odd_inj' _ (by decide) (xorshr_inj (by decide) (mul_odd_inj' _ (by decide) (xorshr_inj (by decide) e))))

/-- Every value of each of the output functions has exactly `2^64` states. -/
theorem out_fibers (x : U64) : (Nat.card {s // outXslRr (hi s) (lo s) = x} = 2 ^ 64) ∧
    (∀ m : U64, m.toNat % 2 = 1 → Nat.card {s // outDxsm (hi s) (lo s) m = x} = 2 ^ 64) ∧ (Nat.card {s // outMurmur3 (hi s) (lo s) = x} = 2 ^ 64) ∧
    (Nat.card {s // outUpper (hi s) (lo s) = x} = 2 ^ 64) ∧ Nat.card {s // outLower (hi s) (lo s) = x} = 2 ^ 64 := by
  refine ⟨?_, fun m hm => ?_, ?_, ?_, ?_⟩
  · rw [fiber_card' words_bij (fun s => rfl) (fun w => bij_of_inj (outXslRr_inj w)), card_bitVec]
  · rw [fiber_card' words_bij' (g := fun l h => outDxsm h l m) (fun s => rfl) (fun w => bij_of_inj (outDxsm_inj w m hm)), card_bitVec]
  · rw [fiber_card' words_bij' (g := fun l h => outMurmur3 h l) (fun s => rfl) (fun w => bij_of_inj (outMurmur3_inj w)), card_bitVec]
  · rw [fiber_card' words_bij' (g := fun l h => outUpper h l) (fun s => rfl) (fun w => bij_of_inj fun _ _ h => h), card_bitVec]
  · rw [fiber_card' words_bij (g := fun h l => outLower h l) (fun s => rfl) (fun w => bij_of_inj fun _ _ h => h), card_bitVec]

/-! ### PCG64 -/

/-- The output function of a variant, as a function of the state it is applied to. -/
def outOf (v : Variant) (s : U128) : U64 := match v with
  | .xslRr => outXslRr (hi s) (lo s)
  | _ => outDxsm (hi s) (lo s) 0xda942042e4dd58b5#64

/-- The first state to which the output function is applied. -/
def firstOf (c : Core) : U128 := match c.variant with
  | .cmDxsm => c.state
  | _ => lcgStep defaultMult c.inc c.state

theorem next_fst (c : Core) : (next c).1 = outOf c.variant (firstOf c) := by
  obtain ⟨s, i, v⟩ := c
  cases v <;> rfl

theorem firstOf_step (c : Core) (s : U128) : firstOf { c with state := lcgStep (multOf c.variant) c.inc s } =
    lcgStep (multOf c.variant) c.inc (firstOf { c with state := s }) := by
  obtain ⟨t, i, v⟩ := c
  cases v <;> rfl

theorem firstOf_iterate (c : Core) (k : Nat) : firstOf { c with state := (lcgStep (multOf c.variant) c.inc)^[k] c.state } =
    (lcgStep (multOf c.variant) c.inc)^[k] (firstOf c) := by
  induction k with
  | zero => rfl
  | succ k ih => rw [Function.iterate_succ_apply', firstOf_step, ih, Function.iterate_succ_apply']

theorem pcg64_nth (c : Core) (k : Nat) : nthDraw next k c = outOf c.variant ((lcgStep (multOf c.variant) c.inc)^[k] (firstOf c)) := by
  rw [nthDraw, step_iterate, next_fst, ← firstOf_iterate]

/-- C79: over `2^128` draws of PCG64 of any variant, with any odd increment, every value is output exactly `2^64` times. -/
theorem C79_pcg64_counts (c : Core) (hi : c.inc.toNat % 2 = 1) (x : U64) : Nat.card {k // k < 2 ^ 128 ∧ nthDraw next k c = x} = 2 ^ 64 := by
  simp only [pcg64_nth]
  rw [lcg_counts (by decide) _ _ (multOf_mod4 c.variant) hi _ (fun s => outOf c.variant s = x)]
  obtain ⟨h1, h2, _⟩ := out_fibers x
  cases c.variant
  · exact h2 _ (by decide)
  · exact h2 _ (by decide)
  · exact h1

/-- C79: `n` is a period of the outputs of PCG64 exactly if `2^128` divides it. -/
theorem C79_pcg64_period (c : Core) (hi : c.inc.toNat % 2 = 1) (K n : Nat) : TailPeriod (fun k => nthDraw next k c) K n ↔ 2 ^ 128 ∣ n := by
  simp only [pcg64_nth]
  refine lcg_output_period (by decide) _ _ (multOf_mod4 c.variant) hi _ (o := outOf c.variant) (fun s hs => ?_) K n
  obtain rfl : s = 0x80000000000000000000000000000000#128 := BitVec.eq_of_toNat_eq (by rw [hs]; decide)
  cases c.variant <;> decide

/-- C79: every seeded PCG64 generator, of any variant. -/
theorem C79_pcg64_seeded (v : Variant) (initstate initseq : U128) :
    (∀ x, Nat.card {k // k < 2 ^ 128 ∧ nthDraw next k (seedCore v initstate initseq) = x} = 2 ^ 64) ∧
      ∀ K n, TailPeriod (fun k => nthDraw next k (seedCore v initstate initseq)) K n ↔ 2 ^ 128 ∣ n :=
  have h : (seedCore v initstate initseq).inc.toNat % 2 = 1 := or_one_odd (by decide) initseq
  ⟨C79_pcg64_counts _ h, C79_pcg64_period _ h⟩

end Verif.Pcg

namespace Verif.Lcg128
open Verif.Pcg Verif.Orbit

/-- The first state to which the output function is applied. -/
def firstOf (c : Core) : U128 := if c.post then lcgStep c.multiplier c.inc c.state else c.state

theorem lcg128_nth (c : Core) (k : Nat) : nthDraw next k c = outFn c ((lcgStep c.multiplier c.inc)^[k] (firstOf c)) := by
  rw [nthDraw, step_iterate]
  obtain ⟨s, i, m, d, p, o⟩ := c
  cases p
  · simp only [next, firstOf, if_neg Bool.false_ne_true]; rfl
  · simp only [next, firstOf, if_true, ← Function.iterate_succ_apply, Function.iterate_succ_apply']; rfl

/-- C79: over `2^128` draws of LCG128Mix with a multiplier that is 1 modulo 4 and an odd increment, every value is output exactly `2^64` times,
for every output function of the package. -/
theorem C79_lcg128_counts (c : Core) (hm : c.multiplier.toNat % 4 = 1) (hi : c.inc.toNat % 2 = 1) (hd : c.dxsmMult.toNat % 2 = 1)
    (ho : ∀ f, c.output ≠ .custom f) (x : U64) : Nat.card {k // k < 2 ^ 128 ∧ nthDraw next k c = x} = 2 ^ 64 := by
  simp only [lcg128_nth]
  rw [lcg_counts (by decide) _ _ hm hi _ (fun s => outFn c s = x)]
  obtain ⟨h1, h2, h3, h4, h5⟩ := out_fibers x
  cases e : c.output with
  | xslRr => simp only [outFn, e]; exact h1
  | dxsm => simp only [outFn, e]; exact h2 _ hd
  | murmur3 => simp only [outFn, e]; exact h3
  | upper => simp only [outFn, e]; exact h4
  | lower => simp only [outFn, e]; exact h5
  | custom f => exact absurd e (ho f)

/-- C79: the outputs have the period `2^128` exactly, except for the output function `lower`. -/
theorem C79_lcg128_period (c : Core) (hm : c.multiplier.toNat % 4 = 1) (hi : c.inc.toNat % 2 = 1) (hd : c.dxsmMult.toNat % 2 = 1)
    (ho : ∀ f, c.output ≠ .custom f) (hl : c.output ≠ .lower) (K n : Nat) : TailPeriod (fun k => nthDraw next k c) K n ↔ 2 ^ 128 ∣ n := by
  simp only [lcg128_nth]
  refine lcg_output_period (by decide) _ _ hm hi _ (o := outFn c) (fun s hs => ?_) K n
  obtain rfl : s = 0x80000000000000000000000000000000#128 := BitVec.eq_of_toNat_eq (by rw [hs]; decide)
  cases e : c.output with
  | xslRr => simp only [outFn, e]; decide
  | dxsm =>
    simp only [outFn, e]
    rw [show lo 0x80000000000000000000000000000000#128 = lo 0 by decide]
    exact fun h => absurd (outDxsm_inj _ _ hd h) (by decide)
  | murmur3 => simp only [outFn, e]; decide
  | upper => simp only [outFn, e]; decide
  | lower => exact absurd e hl
  | custom f => exact absurd e (ho f)

theorem lo_iterate (a c s : U128) (k : Nat) : lo ((lcgStep a c)^[k] s) = (lcgStep (lo a) (lo c))^[k] (lo s) := by
  induction k with
  | zero => rfl
  | succ k ih =>
    rw [Function.iterate_succ_apply', Function.iterate_succ_apply', ← ih]
    simp only [lcgStep, lo]
    rw [BitVec.truncate_eq_setWidth, BitVec.setWidth_add _ _ (by decide), BitVec.setWidth_mul _ _ (by decide)]

/-- C79: with the output function `lower` the period of the outputs is `2^64`, not the `2^128` of the state. -/
theorem C79_lcg128_lower_period (c : Core) (hm : c.multiplier.toNat % 4 = 1) (hi : c.inc.toNat % 2 = 1) (hl : c.output = .lower) (K n : Nat) :
    TailPeriod (fun k => nthDraw next k c) K n ↔ 2 ^ 64 ∣ n := by
  have e : ∀ k, nthDraw next k c = (lcgStep (lo c.multiplier) (lo c.inc))^[k] (lo (firstOf c)) := fun k => by
    rw [lcg128_nth, outFn, hl]; exact lo_iterate _ _ _ _
  have ml : ∀ a : U128, (lo a).toNat = a.toNat % 2 ^ 64 := fun a => by simp [lo]
  simp only [e]
  refine lcg_output_period (by decide) _ _ (by rw [ml]; omega) (by rw [ml]; omega) _ (o := id) (fun s hs => ?_) K n
  intro h
  rw [show s = 0 from h] at hs
  exact absurd hs (by decide)

/-- C79: the constructor accepts every odd multiplier, but the state has the period `2^128` exactly for the multipliers that are 1 modulo 4;
for all others it returns after `2^127` draws at the latest. -/
theorem C79_lcg128_full_iff (c : Core) (hm : c.multiplier.toNat % 2 = 1) (hi : c.inc.toNat % 2 = 1) :
    (∀ n, (stepOf next)^[n] c = c ↔ 2 ^ 128 ∣ n) ↔ c.multiplier.toNat % 4 = 1 := by
  have key : ∀ n, (stepOf next)^[n] c = c ↔ (lcgStep c.multiplier c.inc)^[n] c.state = c.state := fun n => by
    rw [step_iterate]
    constructor
    · intro h; exact congrArg Core.state h
    · intro h; rw [h]
  simp only [key]
  constructor
  · intro h
    by_contra h4
    have h3 := (h (2 ^ 127)).1 (lcg_three_mod_four (by decide) _ _ _ (by omega))
    exact absurd (Nat.le_of_dvd (by decide) h3) (by decide)
  · exact fun h4 => lcg_full_period (by decide) _ _ _ h4 hi

/-- Parameters accepted by the constructor to which the theorems apply, and one for which the period is smaller. -/
example : ∃ c : Core, c.multiplier.toNat % 4 = 1 ∧ c.inc.toNat % 2 = 1 ∧ c.dxsmMult.toNat % 2 = 1 ∧ (∀ f, c.output ≠ .custom f) ∧ c.output ≠ .lower :=
  ⟨⟨0, 1, defaultMult, 0xda942042e4dd58b5, true, .dxsm⟩, by decide, by decide, by decide, fun f => by simp, by simp⟩

example : ¬ ∀ n, (stepOf next)^[n] (⟨0, 1, 3, 1, true, .upper⟩ : Core) = ⟨0, 1, 3, 1, true, .upper⟩ ↔ 2 ^ 128 ∣ n := by
  rw [C79_lcg128_full_iff _ (by decide) (by decide)]; decide

end Verif.Lcg128

namespace Verif.Pcg32
open Verif.Pcg Verif.Orbit

theorem rotr32_eq (v : U32) (r : Nat) (hr : r < 32) : rotr32 v r = rotl32 v ((32 - r) % 32) := by
  unfold rotr32 rotl32
  rcases Nat.eq_zero_or_pos r with rfl | h
  · apply BitVec.eq_of_getLsbD_eq; intro i hi; simp
  · rw [Nat.mod_eq_of_lt (by omega), BitVec.or_comm, show 32 - (32 - r) = r by omega]

theorem rotr32_inj {r : Nat} (hr : r < 32) : Function.Injective fun v => rotr32 v r := fun a b h => by
  simp only [rotr32_eq _ r hr] at h
  exact rotl32_inj (by omega) h

/-- The top 5 and the low 27 bits of the shifted state. -/
def pOf (s : U64) : BitVec 5 × BitVec 27 := let y := s ^^^ (s >>> 18); (y.extractLsb' 59 5, y.extractLsb' 0 27)
/-- The 32 bits between them, from which the output is rotated. -/
def qOf (s : U64) : U32 := let y := s ^^^ (s >>> 18); y.extractLsb' 27 32

theorem pq_bij : Function.Bijective fun s => (pOf s, qOf s) := by
  refine (Nat.bijective_iff_injective_and_card _).2 ⟨?_, by rw [Nat.card_prod, Nat.card_prod]; simp only [card_bitVec]; norm_num⟩
  intro a b h
  simp only [pOf, qOf, Prod.mk.injEq] at h
  obtain ⟨⟨h1, h2⟩, h3⟩ := h
  apply xorshr_inj (k := 18) (by decide)
  generalize a ^^^ a >>> 18 = y at *
  generalize b ^^^ b >>> 18 = z at *
  apply BitVec.eq_of_getLsbD_eq
  intro i hi
  rcases Nat.lt_or_ge i 27 with c | c
  · have := congrArg (fun x => x.getLsbD i) h2
    simpa [BitVec.getLsbD_extractLsb', c] using this
  · rcases Nat.lt_or_ge i 59 with d | d
    · have := congrArg (fun x => x.getLsbD (i - 27)) h3
      simpa [BitVec.getLsbD_extractLsb', show i - 27 < 32 by omega, show 27 + (i - 27) = i by omega] using this
    · have := congrArg (fun x => x.getLsbD (i - 59)) h1
      simpa [BitVec.getLsbD_extractLsb', show i - 59 < 5 by omega, show 59 + (i - 59) = i by omega] using this

theorem out_eq (s : U64) : out s = rotr32 (qOf s) (pOf s).1.toNat := by
  rw [out]
  congr 1
  · apply BitVec.eq_of_getLsbD_eq
    intro i hi
    simp [qOf, hi, Bool.xor_comm]
  · rw [← BitVec.toNat_setWidth_of_le (w' := 32) (show 5 ≤ 32 by decide)]
    congr 1
    apply BitVec.eq_of_getLsbD_eq
    intro i hi
    simp only [pOf, BitVec.truncate_eq_setWidth, BitVec.getLsbD_setWidth, BitVec.getLsbD_extractLsb', BitVec.getLsbD_ushiftRight, BitVec.getLsbD_xor, hi]
    by_cases h5 : i < 5
    · simp [h5, BitVec.getLsbD_of_ge s (18 + (59 + i)) (by omega)]
    · simp [h5, BitVec.getLsbD_of_ge s (59 + i) (by omega)]

/-- C79: over `2^64` draws of PCG32 with any odd increment every 32-bit value is output exactly `2^32` times. -/
theorem C79_pcg32_counts (c : Core) (hi : c.inc.toNat % 2 = 1) (x : U32) : Nat.card {k // k < 2 ^ 64 ∧ nthDraw next k c = x} = 2 ^ 32 := by
  simp only [nthDraw, step_iterate, next]
  rw [lcg_counts (by decide) _ _ (by decide) hi _ (fun s => out s = x),
    fiber_card' pq_bij (g := fun w q => rotr32 q w.1.toNat) out_eq (fun w => Finite.injective_iff_bijective.1 (rotr32_inj w.1.isLt)), Nat.card_prod,
    card_bitVec, card_bitVec]
  norm_num

/-- C79: `n` is a period of the outputs of PCG32 exactly if `2^64` divides it. -/
theorem C79_pcg32_period (c : Core) (hi : c.inc.toNat % 2 = 1) (K n : Nat) : TailPeriod (fun k => nthDraw next k c) K n ↔ 2 ^ 64 ∣ n := by
  simp only [nthDraw, step_iterate, next]
  refine lcg_output_period (by decide) _ _ (by decide) hi _ (o := out) (fun s hs => ?_) K n
  obtain rfl : s = 0x8000000000000000#64 := BitVec.eq_of_toNat_eq (by rw [hs]; decide)
  decide

/-- C79: every seeded PCG32 generator. -/
theorem C79_pcg32_seeded (initstate initseq : U64) :
    (∀ x, Nat.card {k // k < 2 ^ 64 ∧ nthDraw next k (seed initstate initseq) = x} = 2 ^ 32) ∧
      ∀ K n, TailPeriod (fun k => nthDraw next k (seed initstate initseq)) K n ↔ 2 ^ 64 ∣ n :=
  have h : (seed initstate initseq).inc.toNat % 2 = 1 := or_one_odd (by decide) initseq
  ⟨C79_pcg32_counts _ h, C79_pcg32_period _ h⟩

example : (seed 5 7).inc.toNat % 2 = 1 := or_one_odd (by decide) 7

end Verif.Pcg32
