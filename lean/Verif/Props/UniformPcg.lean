import Verif.Props.Uniform

/-! C94 for PCG64, LCG128Mix and PCG32. -/

namespace Verif.Pcg
open Verif.Orbit

/-- C94: PCG64 of any variant, with any odd increment. -/
theorem C94_pcg64 (b : Buf Core) (hi : b.core.inc.toNat % 2 = 1) :
    DoublesOften next b (2 ^ 128) (2 ^ 75) 0 ∧ DoublesPeriod next b (2 ^ 128) ∧
      (b.has = false → HalvesOften next b (2 ^ 129) (2 ^ 97) 0 ∧ HalvesPeriod next b (2 ^ 129)) := by
  have hc : ∀ x, Nat.card {k // k < 2 ^ 128 ∧ nthDraw next k b.core = x} = 2 ^ 64 - if x = 0 then 0 else 0 := fun x => by
    rw [C79_pcg64_counts b.core hi, ite_self, Nat.sub_zero]
  refine ⟨doubles_of_counts (by decide) hc, fun K n => ?_, fun hf => ⟨halves_of_counts (by decide) hc hf,
    halves_period_of hf (by decide) (C79_pcg64_period b.core hi) fun h => absurd h (by decide)⟩⟩
  rw [doubles_tail]
  simp only [pcg64_nth]
  refine lcg_output_period (by decide) _ _ (multOf_mod4 b.core.variant) hi _ (o := fun s => outOf b.core.variant s >>> 11) (fun s hs => ?_) K n
  obtain rfl : s = 0x80000000000000000000000000000000#128 := BitVec.eq_of_toNat_eq (by rw [hs]; decide)
  cases b.core.variant <;> decide

/-- The upper bits of the output DXSM tell the top bit of the state, for every odd multiplier. -/
theorem outDxsm_top (m : U64) (hm : m.toNat % 2 = 1) : outDxsm 0x8000000000000000#64 0 m >>> 11 ≠ outDxsm 0 0 m >>> 11 := by
  have h0 : outDxsm 0 0 m >>> 11 = 0 := by
    have z : (0 : U64) * m = 0 := zero_mul m
    rw [show outDxsm 0 0 m = ((0 : U64) * m ^^^ (((0 : U64) * m) >>> 48)) * 1 from rfl, z]; decide
  rw [h0, show outDxsm 0x8000000000000000#64 0 m = (0x8000000080000000#64 * m ^^^ ((0x8000000080000000#64 * m) >>> 48)) * 1 from rfl, mul_one]
  intro h
  have h1 := congrArg (fun x => x.getLsbD 20) h
  have h2 : (0x8000000080000000#64 * m).getLsbD 31 = true := by
    rw [← BitVec.testBit_toNat, BitVec.toNat_mul, Nat.testBit_eq_decide_div_mod_eq, decide_eq_true_eq,
      show (0x8000000080000000#64).toNat = 0x8000000080000000 by decide]
    omega
  simp only [BitVec.getLsbD_ushiftRight, BitVec.getLsbD_xor, h2, Nat.reduceAdd] at h1
  rw [BitVec.getLsbD_of_ge _ 79 (by decide)] at h1
  exact absurd h1 (by decide)

end Verif.Pcg

namespace Verif.Lcg128
open Verif.Pcg Verif.Orbit

/-- C94: LCG128Mix with a multiplier that is 1 modulo 4 and an odd increment. -/
theorem C94_lcg128 (b : Buf Core) (hm : b.core.multiplier.toNat % 4 = 1) (hi : b.core.inc.toNat % 2 = 1) (hd : b.core.dxsmMult.toNat % 2 = 1)
    (ho : ∀ f, b.core.output ≠ .custom f) :
    DoublesOften next b (2 ^ 128) (2 ^ 75) 0 ∧ (b.core.output ≠ .lower → DoublesPeriod next b (2 ^ 128)) ∧
      (b.has = false → HalvesOften next b (2 ^ 129) (2 ^ 97) 0 ∧ (b.core.output ≠ .lower → HalvesPeriod next b (2 ^ 129))) := by
  have hc : ∀ x, Nat.card {k // k < 2 ^ 128 ∧ nthDraw next k b.core = x} = 2 ^ 64 - if x = 0 then 0 else 0 := fun x => by
    rw [C79_lcg128_counts b.core hm hi hd ho, ite_self, Nat.sub_zero]
  refine ⟨doubles_of_counts (by decide) hc, fun hl K n => ?_, fun hf => ⟨halves_of_counts (by decide) hc hf, fun hl =>
    halves_period_of hf (by decide) (C79_lcg128_period b.core hm hi hd ho hl) fun h => absurd h (by decide)⟩⟩
  rw [doubles_tail]
  simp only [lcg128_nth]
  refine lcg_output_period (by decide) _ _ hm hi _ (o := fun s => outFn b.core s >>> 11) (fun s hs => ?_) K n
  obtain rfl : s = 0x80000000000000000000000000000000#128 := BitVec.eq_of_toNat_eq (by rw [hs]; decide)
  cases e : b.core.output with
  | xslRr => simp only [outFn, e]; decide
  | dxsm => simp only [outFn, e]; exact outDxsm_top _ hd
  | murmur3 => simp only [outFn, e]; decide
  | upper => simp only [outFn, e]; decide
  | lower => exact absurd e hl
  | custom f => exact absurd e (ho f)

/-- C94: with the output function `lower` the doubles repeat after `2^64` draws and the 32-bit draws after `2^65`. -/
theorem C94_lcg128_lower (b : Buf Core) (hm : b.core.multiplier.toNat % 4 = 1) (hi : b.core.inc.toNat % 2 = 1) (hl : b.core.output = .lower) :
    DoublesPeriod next b (2 ^ 64) ∧ (b.has = false → HalvesPeriod next b (2 ^ 65)) := by
  refine ⟨fun K n => ?_, fun hf => halves_period_of hf (by decide) (C79_lcg128_lower_period b.core hm hi hl) fun h => absurd h (by decide)⟩
  have e : ∀ k, nthDraw next k b.core = (lcgStep (lo b.core.multiplier) (lo b.core.inc))^[k] (lo (firstOf b.core)) := fun k => by
    rw [lcg128_nth, outFn, hl]; exact lo_iterate _ _ _ _
  have ml : ∀ a : U128, (lo a).toNat = a.toNat % 2 ^ 64 := fun a => by simp [lo]
  rw [doubles_tail]
  simp only [e]
  refine lcg_output_period (by decide) _ _ (by rw [ml]; omega) (by rw [ml]; omega) _ (o := fun s : U64 => s >>> 11) (fun s hs => ?_) K n
  obtain rfl : s = 0x8000000000000000#64 := BitVec.eq_of_toNat_eq (by rw [hs]; decide)
  decide

end Verif.Lcg128

namespace Verif.Pcg32
open Verif.Pcg Verif.Orbit Verif.Doubles

theorem dblCalls_nth {σ : Type} (nx : σ → U32 × σ) (n : Nat) (s : σ) :
    nthDraw (dblCalls nx) n s = dbl32 (nthDraw nx (2 * n) s) (nthDraw nx (2 * n + 1) s) := by
  have h : ∀ n s, (stepOf (dblCalls nx))^[n] s = (stepOf nx)^[2 * n] s := by
    intro n
    induction n with
    | zero => intro s; rfl
    | succ n ih => intro s; rw [Function.iterate_succ_apply, ih, Nat.mul_succ, Function.iterate_add_apply (stepOf nx)]; rfl
  rw [nthDraw, h, nthDraw, nthDraw, Function.iterate_succ_apply' (stepOf nx)]; rfl

theorem dbl32_inj_hi {a b c d : U32} (h : dbl32 a b = dbl32 c d) : a >>> 5 = c >>> 5 := by
  have h1 : ∀ x : U32, (x >>> 6).toNat < 67108864 := fun x => by rw [BitVec.toNat_ushiftRight, Nat.shiftRight_eq_div_pow]; omega
  have hb := h1 b
  have hd := h1 d
  rw [dbl32, dbl32] at h
  exact BitVec.eq_of_toNat_eq (by omega)

theorem lcg_add_top (c x : U64) (n : Nat) : (lcgStep mult c)^[n] (x + 0x8000000000000000#64) = (lcgStep mult c)^[n] x + 0x8000000000000000#64 := by
  induction n generalizing x with
  | zero => rfl
  | succ n ih =>
    have e : lcgStep mult c (x + 0x8000000000000000#64) = lcgStep mult c x + 0x8000000000000000#64 := by
      have t : (0x8000000000000000#64 : U64) * mult = 0x8000000000000000#64 := by decide
      generalize (0x8000000000000000#64 : U64) = h at *
      rw [lcgStep, lcgStep, add_mul, t]
      exact add_right_comm _ _ _
    rw [Function.iterate_succ_apply, Function.iterate_succ_apply, ← ih, e]

theorem lcg_parity (c x : U64) (hc : c.toNat % 2 = 1) (n : Nat) : ((lcgStep mult c)^[n] x).toNat % 2 = (x.toNat + n) % 2 := by
  induction n with
  | zero => rfl
  | succ n ih =>
    rw [Function.iterate_succ_apply', lcgStep, BitVec.toNat_add, BitVec.toNat_mul, Nat.mod_mod_of_dvd _ (by decide), Nat.add_mod, Nat.mod_mod_of_dvd _ (by decide),
      Nat.mul_mod, ih, hc, ← Nat.add_assoc]
    have : mult.toNat % 2 = 1 := by decide
    simp [this, Nat.add_mod]

/-- C94: the doubles of PCG32, which take two draws each, have the exact period `2^63`, from any double on and with any odd increment. -/
theorem C94_pcg32_period (c : Core) (hi : c.inc.toNat % 2 = 1) (K n : Nat) : TailPeriod (fun k => nthDraw (dblCalls next) k c) K n ↔ 2 ^ 63 ∣ n := by
  have hN : ∀ k, nthDraw (dblCalls next) (k + 2 ^ 63) c = nthDraw (dblCalls next) k c := fun k => by
    have h := (C79_pcg32_period c hi 0 _).2 (dvd_refl _)
    rw [dblCalls_nth, dblCalls_nth, show 2 * (k + 2 ^ 63) = 2 * k + 2 ^ 64 by ring, show 2 * k + 2 ^ 64 + 1 = 2 * k + 1 + 2 ^ 64 by ring]
    rw [show nthDraw next (2 * k + 2 ^ 64) c = nthDraw next (2 * k) c from h _ (Nat.zero_le _),
      show nthDraw next (2 * k + 1 + 2 ^ 64) c = nthDraw next (2 * k + 1) c from h _ (Nat.zero_le _)]
  constructor
  · intro h
    have hp := gcd_period (u := fun k => nthDraw (dblCalls next) k c) (by decide) hN h
    obtain ⟨j, hj, e⟩ := (Nat.dvd_prime_pow Nat.prime_two).1 (Nat.gcd_dvd_right n (2 ^ 63))
    rw [e] at hp
    rcases Nat.lt_or_ge j 63 with hlt | hge
    · exfalso
      have hm : ∀ k m, nthDraw (dblCalls next) (k + 2 ^ j * m) c = nthDraw (dblCalls next) k c := by
        intro k m
        induction m with
        | zero => rfl
        | succ m ih => rw [Nat.mul_succ, ← Nat.add_assoc]; exact (hp _).trans ih
      have hhalf : ∀ x : U64, (lcgStep mult c.inc)^[2 ^ 63] x = x + 0x8000000000000000#64 := fun x => by
        obtain ⟨k, _, hk⟩ := orbit_bij (A := Set.univ) (Nat.two_pow_pos 64) (by rw [Nat.card_congr (Equiv.Set.univ _), card_bitVec]) (fun _ _ => trivial)
          trivial (lcg_full_period (by decide) mult c.inc 0 (by decide) hi) x trivial
        rw [← hk, ← Function.iterate_add_apply, Nat.add_comm, Function.iterate_add_apply,
          show (lcgStep mult c.inc)^[2 ^ 63] 0 = 0 + 0x8000000000000000#64 from
            BitVec.eq_of_toNat_eq (lcg_half (w := 64) (by decide) mult c.inc (by decide) hi), lcg_add_top]
      -- one of two states is met before a double is drawn
      have key : ∀ x : U64, x.toNat % 2 = c.state.toNat % 2 → out (x + 0x8000000000000000#64) >>> 5 = out x >>> 5 := fun x hx => by
        obtain ⟨k, _, hk⟩ := orbit_bij (A := Set.univ) (Nat.two_pow_pos 64) (by rw [Nat.card_congr (Equiv.Set.univ _), card_bitVec]) (fun _ _ => trivial)
          trivial (lcg_full_period (by decide) mult c.inc c.state (by decide) hi) x trivial
        have hpar := lcg_parity c.inc c.state hi k
        rw [hk] at hpar
        obtain ⟨i, rfl⟩ : ∃ i, k = 2 * i := ⟨k / 2, by omega⟩
        have h1 := hm i (2 ^ (62 - j))
        rw [← pow_add, show j + (62 - j) = 62 by omega, dblCalls_nth, dblCalls_nth] at h1
        have h2 := dbl32_inj_hi h1
        simp only [nthDraw, step_iterate, next] at h2
        rw [show 2 * (i + 2 ^ 62) = 2 ^ 63 + 2 * i by ring, Function.iterate_add_apply, hk, hhalf] at h2
        exact h2
      rcases Nat.mod_two_eq_zero_or_one c.state.toNat with h0 | h0
      · exact absurd (key 0x10000000000#64 (by rw [h0]; decide)) (by decide)
      · exact absurd (key 0x10000000001#64 (by rw [h0]; decide)) (by decide)
    · rw [show j = 63 by omega] at e
      rw [← e]; exact Nat.gcd_dvd_left n _
  · rintro ⟨m, rfl⟩ k _
    induction m with
    | zero => simp
    | succ m ih => rw [Nat.mul_succ, ← Nat.add_assoc]; exact (hN _).trans ih

/-- C94: every seeded PCG32. -/
theorem C94_pcg32_seeded (initstate initseq : U64) (K n : Nat) :
    TailPeriod (fun k => nthDraw (dblCalls next) k (seed initstate initseq)) K n ↔ 2 ^ 63 ∣ n :=
  C94_pcg32_period _ (or_one_odd (by decide) initseq) K n

end Verif.Pcg32

namespace Verif

/-- States to which the theorems apply. -/
example : (∃ b : Buf Pcg.Core, b.core.inc.toNat % 2 = 1 ∧ b.has = false) ∧ (∃ c : Pcg32.Core, c.inc.toNat % 2 = 1) ∧
    ∃ b : Buf Lcg128.Core, b.core.multiplier.toNat % 4 = 1 ∧ b.core.inc.toNat % 2 = 1 ∧ b.core.output = .lower :=
  ⟨⟨⟨⟨3, 5, .xslRr⟩, false, 0⟩, by decide, rfl⟩, ⟨⟨3, 5⟩, by decide⟩, ⟨⟨⟨3, 5, Pcg.defaultMult, 1, true, .lower⟩, false, 0⟩, by decide, by decide, rfl⟩⟩

example : (∃ b : Buf XorLinear.S2, b.core ≠ ⟨0, 0⟩ ∧ b.has = false) ∧ ∃ b : Buf XorLinear.Lxm, b.core.x ≠ ⟨0, 0, 0, 0⟩ ∧ b.core.b.toNat % 2 = 1 :=
  ⟨⟨⟨⟨1, 2⟩, false, 0⟩, by decide, rfl⟩, ⟨⟨⟨⟨1, 2, 3, 4⟩, 5, 7⟩, false, 0⟩, by decide, by decide⟩⟩

end Verif
