import Verif.Props.OutputPeriod
import Verif.Props.PcgOutput
import Verif.Props.MtPeriod
import Verif.Props.StateRoundTrip
import Verif.Props.Squares
import Verif.Props.Hc128
import Verif.Props.Sfmt
import Verif.Props.Dsfmt
import Verif.Model.Session

/-! C96: a state that a setter accepts runs the whole cycle of its generator.

The setters store whatever words they are given, so the property fails for every class below: `not_C96_*` is a dictionary, accepted whatever the
old state, after which all draws are the same word for ever. `C96_*_partial` says which of the accepted states are good ones: for the classes
whose cycle is known, exactly those with a non-zero word or an odd increment. -/

namespace Verif

open XorLinear Orbit

set_option exponentiation.threshold 20000

/-- `N` is the smallest period of the outputs, from any point on. -/
def CycleIs {γ : Type} (u : Nat → γ) (N : Nat) : Prop := ∀ K n, TailPeriod u K n ↔ N ∣ n

theorem CycleIs.not_of_period {γ : Type} {u : Nat → γ} {N n : Nat} (hu : ∀ k, u (k + n) = u k) (h0 : 0 < n) (h : n < N) : ¬ CycleIs u N :=
  fun hc => absurd (Nat.le_of_dvd h0 ((hc 0 n).1 fun k _ => hu k)) (by omega)

theorem nthDraw_fixed {σ β : Type} (f : σ → β × σ) {s : σ} (h : (f s).2 = s) (k : Nat) : nthDraw f k s = (f s).1 := by
  rw [nthDraw, Function.iterate_fixed h]

theorem nthDraw_const {σ β : Type} {f : σ → β × σ} {s : σ} {x : β} (h : f s = (x, s)) (k : Nat) : nthDraw f k s = x := by
  rw [nthDraw_fixed f (by rw [h]), h]

theorem nthO_fixed {σ α : Type} {nx : σ → Option (α × σ)} {s : σ} {x : α} (h : nx s = some (x, s)) (k : Nat) : nthO nx k s = some x := by
  have r : runO nx k s = some s := by
    induction k with
    | zero => rfl
    | succ k ih => rw [runO, h]; exact ih
  rw [nthO, r]
  show (nx s).map Prod.fst = some x
  rw [h]; rfl

/-! ### The generators over GF(2) -/

theorem C96_xoshiro256_partial (s : XoshI 4) :
    CycleIs (fun k => nthDraw xosh256Next k (xo256View s).core) (2 ^ 256 - 1) ↔ ∃ i : Fin 4, s.s[i] ≠ 0 := by
  have e : (xo256View s).core = ⟨0, 0, 0, 0⟩ ↔ ∀ i : Fin 4, s.s[i] = 0 := by
    simp [xo256View, Fin.forall_fin_succ]
  rw [← not_iff_not]
  simp only [not_exists, not_not, ← e]
  constructor
  · exact fun h => by_contra fun hs => h (C78_xoshiro256_period _ hs)
  · exact fun h => CycleIs.not_of_period (n := 1) (fun k => by rw [h, nthDraw_fixed _ (by decide), nthDraw_fixed _ (by decide)]) (by decide) (by decide)

theorem not_C96_xoshiro256 (t : XoshI 4) : ∃ v s, xoshSet "Xoshiro256" "randomgen.xoshiro256.Xoshiro256" v t = (.ok (), s) ∧
    ∀ k, nthDraw xosh256Next k (xo256View s).core = 0 :=
  ⟨_, ⟨Vector.replicate 4 0, 0, 0⟩, C11_xoshiro256 _ t, fun k => by rw [show (xo256View ⟨Vector.replicate 4 0, 0, 0⟩).core = ⟨0, 0, 0, 0⟩ from rfl, nthDraw_fixed _ (by decide)]; decide⟩

theorem C96_xoshiro512_partial (s : XoshI 8) :
    CycleIs (fun k => nthDraw xosh512Next k (xo512View s).core) (2 ^ 512 - 1) ↔ ∃ i : Fin 8, s.s[i] ≠ 0 := by
  have e : (xo512View s).core = ⟨0, 0, 0, 0, 0, 0, 0, 0⟩ ↔ ∀ i : Fin 8, s.s[i] = 0 := by
    simp [xo512View, Fin.forall_fin_succ]
  rw [← not_iff_not]
  simp only [not_exists, not_not, ← e]
  constructor
  · exact fun h => by_contra fun hs => h (C78_xoshiro512_period _ hs)
  · exact fun h => CycleIs.not_of_period (n := 1) (fun k => by rw [h, nthDraw_fixed _ (by decide), nthDraw_fixed _ (by decide)]) (by decide) (by norm_num)

theorem not_C96_xoshiro512 (t : XoshI 8) : ∃ v s, xoshSet "Xoshiro512" "randomgen.xoshiro512.Xoshiro512" v t = (.ok (), s) ∧
    ∀ k, nthDraw xosh512Next k (xo512View s).core = 0 :=
  ⟨_, ⟨Vector.replicate 8 0, 0, 0⟩, C11_xoshiro512 _ t, fun k => by
    rw [show (xo512View ⟨Vector.replicate 8 0, 0, 0⟩).core = ⟨0, 0, 0, 0, 0, 0, 0, 0⟩ from rfl, nthDraw_fixed _ (by decide)]; decide⟩

theorem C96_xoroshiro128_partial (s : XoroI) :
    CycleIs (fun k => nthDraw (xoroNext s.actPlusplus) k (xoroView s).core) (2 ^ 128 - 1) ↔ ∃ i : Fin 2, s.s[i] ≠ 0 := by
  have e : (xoroView s).core = ⟨0, 0⟩ ↔ ∀ i : Fin 2, s.s[i] = 0 := by
    simp [xoroView, Fin.forall_fin_succ]
  have f : ∀ b, (xoroNext b ⟨0, 0⟩).2 = ⟨0, 0⟩ := by decide
  rw [← not_iff_not]
  simp only [not_exists, not_not, ← e]
  constructor
  · exact fun h => by_contra fun hs => h (C78_xoroshiro128_period _ _ hs)
  · exact fun h => CycleIs.not_of_period (n := 1) (fun k => by rw [h, nthDraw_fixed _ (f _), nthDraw_fixed _ (f _)]) (by decide) (by decide)

/-- Both variants. -/
theorem not_C96_xoroshiro128 (pp : Bool) (t : XoroI) : ∃ v s, xoroSet v t = (.ok (), s) ∧ s.actPlusplus = pp ∧
    ∀ k, nthDraw (xoroNext s.actPlusplus) k (xoroView s).core = 0 :=
  ⟨_, ⟨Vector.replicate 2 0, 0, 0, pp, pp⟩, C11_xoroshiro128 _ t rfl, rfl, fun k => by
    rw [show (xoroView ⟨Vector.replicate 2 0, 0, 0, pp, pp⟩).core = ⟨0, 0⟩ from rfl, nthDraw_fixed _ (by cases pp <;> decide)]
    cases pp <;> decide⟩

theorem xors1024_zero (k : Nat) (p : Fin 16) : nthDraw xors1024Next k ⟨fun _ => 0, p⟩ = 0 := by
  have h : ∀ p, xors1024Next ⟨fun _ => 0, p⟩ = (0, ⟨fun _ => 0, p + 1⟩) := fun p => by
    have : setWord (fun _ : Fin 16 => 0#64) (p + 1) 0#64 = fun _ => 0#64 := by funext i; simp [setWord]
    simp [xors1024Next, this]
  induction k generalizing p with
  | zero => rw [nthDraw]; exact congrArg Prod.fst (h p)
  | succ k ih =>
    rw [nthDraw, Function.iterate_succ_apply]
    show nthDraw xors1024Next k (xors1024Next _).2 = 0
    rw [h]; exact ih _

theorem C96_xorshift1024_partial (s : Xs1024I) :
    CycleIs (fun k => nthDraw xors1024Next k (xs1024View s).core) (2 ^ 1024 - 1) ↔ ∃ i : Fin 16, s.s[i] ≠ 0 := by
  constructor
  · intro h
    by_contra hs
    simp only [not_exists, not_not] at hs
    have e : (xs1024View s).core = ⟨fun _ => 0, (xs1024View s).core.p⟩ := by
      simp only [xs1024View, X16.mk.injEq, and_true]; funext i; exact hs i
    rw [e] at h
    exact CycleIs.not_of_period (n := 1) (fun k => by rw [xors1024_zero, xors1024_zero]) (by decide) (by norm_num) h
  · exact fun h => C78_xorshift1024_period _ h

theorem not_C96_xorshift1024 (t : Xs1024I) : ∃ v s, xs1024Set v t = (.ok (), s) ∧ ∀ k, nthDraw xors1024Next k (xs1024View s).core = 0 :=
  ⟨_, ⟨Vector.replicate 16 0, 0, 0, 0⟩, C11_xorshift1024 _ t, fun k => by
    rw [show (xs1024View ⟨Vector.replicate 16 0, 0, 0, 0⟩).core = ⟨fun _ => 0, 0⟩ by
      simp only [xs1024View, X16.mk.injEq]; exact ⟨by funext i; simp, rfl⟩]
    exact xors1024_zero k 0⟩

/-! ### Linear congruential generators -/

/-- With an even increment every state returns after half the modulus. -/
theorem lcg_half {w : Nat} (a c s : BitVec (w + 1)) (ha : a.toNat % 2 = 1) (hc : c.toNat % 2 = 0) :
    (Pcg.lcgStep a c)^[2 ^ w] s = s := by
  have hg := Pcg.geom_two_pow_dvd a.toNat ha w
  rw [Pcg.affine_iterate_closed]
  have hcast : ((a.toNat : Nat) : BitVec (w + 1)) = a := by simp
  have hgeom := mul_geom_sum a (2 ^ w)
  obtain ⟨q, hq⟩ := hg
  obtain ⟨a', ha'⟩ : ∃ a', a.toNat = 2 * a' + 1 := ⟨a.toNat / 2, by omega⟩
  obtain ⟨c', hc'⟩ : ∃ c', c.toNat = 2 * c' := ⟨c.toNat / 2, by omega⟩
  have hge : (∑ i ∈ Finset.range (2 ^ w), a ^ i) = ((2 ^ w * q : Nat) : BitVec (w + 1)) := by
    rw [← hq]; push_cast; rw [hcast]
  have hz : ∀ x : Nat, ((2 * x : Nat) : BitVec (w + 1)) * ((2 ^ w * q : Nat) : BitVec (w + 1)) = 0 := fun x => by
    rw [← Nat.cast_mul, Pcg.natCast_eq_zero_iff]
    exact ⟨x * q, by rw [pow_succ]; ring⟩
  have ha2 : a - 1 = ((2 * a' : Nat) : BitVec (w + 1)) := by
    rw [← hcast, ha']; push_cast; ring
  have hc2 : c = ((2 * c' : Nat) : BitVec (w + 1)) := by
    rw [← hc']; simp
  rw [hge, ha2, hz] at hgeom
  rw [hq, sub_eq_zero.mp hgeom.symm, one_mul]
  conv_lhs => rw [hc2]
  rw [hz, add_zero]

theorem C96_pcg64_partial (s : Pcg64I) :
    CycleIs (fun k => nthDraw Pcg.next k (pcg64View (pcg64Variant s) s).core) (2 ^ 128) ↔ s.inc.toNat % 2 = 1 := by
  constructor
  · intro h
    by_contra hi
    refine CycleIs.not_of_period (n := 2 ^ 127) (fun k => ?_) (by decide) (by decide) h
    rw [Pcg.pcg64_nth, Pcg.pcg64_nth, Function.iterate_add_apply, lcg_half (w := 127) _ _ _ _ (by simp only [pcg64View]; omega)]
    have := Pcg.multOf_mod4 (pcg64Variant s)
    simp only [pcg64View]
    omega
  · exact fun h => Pcg.C79_pcg64_period _ h

theorem C96_pcg32_partial (s : Pcg32I) :
    CycleIs (fun k => nthDraw Pcg32.next k ⟨s.state, s.inc⟩) (2 ^ 64) ↔ s.inc.toNat % 2 = 1 := by
  constructor
  · intro h
    by_contra hi
    refine CycleIs.not_of_period (n := 2 ^ 63) (fun k => ?_) (by decide) (by decide) h
    simp only [nthDraw, Pcg32.step_iterate, Function.iterate_add_apply]
    rw [lcg_half (w := 63) _ _ _ (by decide) (by omega)]
  · exact fun h => Pcg32.C79_pcg32_period _ h

/-- PCG64 of every variant, by its name. -/
theorem not_C96_pcg64 (t : Pcg64I) (u : Pcg64I) (hu : Pcg64Ok u) : ∃ v s, pcg64Set v t = (.ok (), s) ∧ s.variant = u.variant ∧
    ∀ k, nthDraw Pcg.next k (pcg64View (pcg64Variant s) s).core = 0 := by
  refine ⟨_, { u with state := 0, inc := 0 }, C11_pcg64 _ t hu, rfl, fun k => ?_⟩
  rw [nthDraw_fixed]
  · show (Pcg.next ⟨0, 0, pcg64Variant u⟩).1 = 0
    cases pcg64Variant u <;> decide
  · show (Pcg.next ⟨0, 0, pcg64Variant u⟩).2 = ⟨0, 0, pcg64Variant u⟩
    cases pcg64Variant u <;> decide

theorem not_C96_pcg64dxsm (t : Pcg64I) : ∃ v s, pcg64DxsmSet v t = (.ok (), s) ∧
    ∀ k, nthDraw Pcg.next k (pcg64View (pcg64Variant s) s).core = 0 := by
  refine ⟨_, { pcg64Setup ⟨0, 0, 0, 0, 0, "dxsm", true, true, true⟩ with cDxsm := 1 }, C11_pcg64dxsm _ t (pcg64Setup_ok _) (by decide), fun k => ?_⟩
  rw [nthDraw_fixed] <;> decide

theorem not_C96_pcg32 (t : Pcg32I) : ∃ v s, pcg32Set v t = (.ok (), s) ∧ ∀ k, nthDraw Pcg32.next k ⟨s.state, s.inc⟩ = 0 :=
  ⟨_, ⟨0, 0⟩, C11_pcg32 _ t, fun k => by rw [nthDraw_fixed _ (by decide)]; decide⟩

theorem lxm_even (g : Lxm) (hb : g.b.toNat % 2 = 0) (k : Nat) : nthDraw lxmNext (k + (2 ^ 256 - 1) * 2 ^ 63) g = nthDraw lxmNext k g := by
  have h : (stepOf lxmNext)^[(2 ^ 256 - 1) * 2 ^ 63] g = g := by
    have h1 : xosh256Step^[(2 ^ 256 - 1) * 2 ^ 63] g.x = g.x := by
      by_cases hx : g.x = ⟨0, 0, 0, 0⟩
      · rw [hx]; exact Function.iterate_fixed (by decide) _
      · exact (C32_xoshiro256_period g.x hx _).2 (Nat.dvd_mul_right _ _)
    have h2 : (lcgStep g.b)^[(2 ^ 256 - 1) * 2 ^ 63] g.lcg = g.lcg := by
      rw [Nat.mul_comm, Function.iterate_mul, lcgStep_eq]
      exact Function.iterate_fixed (lcg_half (w := 63) _ _ _ (by decide) hb) _
    rw [lxm_iterate, h1, h2]
  rw [nthDraw, nthDraw, Function.iterate_add_apply, h]

theorem lxm_zero (g : Lxm) (hx : g.x = ⟨0, 0, 0, 0⟩) (k : Nat) : nthDraw lxmNext (k + 2 ^ 64) g = nthDraw lxmNext k g := by
  have h : (stepOf lxmNext)^[2 ^ 64] g = g := by
    have h1 : xosh256Step^[2 ^ 64] g.x = g.x := by rw [hx]; exact Function.iterate_fixed (by decide) _
    have h2 : (lcgStep g.b)^[2 ^ 64] g.lcg = g.lcg := by
      rw [lcgStep_eq]; exact Pcg.lcg_iterate_two_pow _ _ _ (by decide)
    rw [lxm_iterate, h1, h2]
  rw [nthDraw, nthDraw, Function.iterate_add_apply, h]

theorem C96_lxm_partial (s : LxmI) :
    CycleIs (fun k => nthDraw lxmNext k (lxmView s).core) ((2 ^ 256 - 1) * 2 ^ 64) ↔ (∃ i : Fin 4, s.x[i] ≠ 0) ∧ s.b.toNat % 2 = 1 := by
  have e : (lxmView s).core.x = ⟨0, 0, 0, 0⟩ ↔ ∀ i : Fin 4, s.x[i] = 0 := by
    simp [lxmView, Fin.forall_fin_succ]
  constructor
  · intro h
    constructor
    · by_contra hx
      simp only [not_exists, not_not] at hx
      exact CycleIs.not_of_period (lxm_zero _ (e.2 hx)) (by decide) (by decide) h
    · by_contra hb
      exact CycleIs.not_of_period (lxm_even _ (by simp only [lxmView]; omega)) (by decide) (by decide) h
  · rintro ⟨⟨i, hi⟩, hb⟩
    exact C78_lxm_period _ (fun h => hi (e.1 h i)) hb

theorem not_C96_lxm (t : LxmI) : ∃ v s, lxmSet v t = (.ok (), s) ∧ ∀ k, nthDraw lxmNext k (lxmView s).core = 0 :=
  ⟨_, ⟨Vector.replicate 4 0, 0, 0, 0, 0⟩, C11_lxm _ t, fun k => by
    rw [show (lxmView ⟨Vector.replicate 4 0, 0, 0, 0, 0⟩).core = ⟨⟨0, 0, 0, 0⟩, 0, 0⟩ from rfl, nthDraw_fixed _ (by decide)]; decide⟩

/-! ### The Mersenne twisters -/

/-- The key as the C code reads it. -/
def mt32Key (s : Mt32I) : Mt 32 := ⟨fun i => if h : i < 624 then s.key[i] else 0, s.pos.toInt⟩
def mt64Key (s : Mt64I) : Mt 64 := ⟨fun i => if h : i < 312 then s.mt[i] else 0, s.mti.toInt⟩

/-- `n` is a period of the outputs exactly if `N` divides it. -/
def PeriodIs {γ : Type} (u : Nat → γ) (N : Nat) : Prop := ∀ n, (∀ k, u (k + n) = u k) ↔ N ∣ n

theorem PeriodIs.not_of_constant {γ : Type} {u : Nat → γ} {N : Nat} {c : γ} (hu : ∀ k, u k = c) (hN : 1 < N) : ¬ PeriodIs u N :=
  fun h => absurd (Nat.le_of_dvd Nat.one_pos ((h 1).1 fun k => by rw [hu, hu])) (by omega)

theorem mersenne_big : 1 < 2 ^ 19937 - 1 := by
  have : 2 ^ 2 ≤ 2 ^ 19937 := Nat.pow_le_pow_right (by decide) (by decide)
  generalize 2 ^ 19937 = x at this ⊢
  omega

/-- For the positions that draws and seeding leave. -/
theorem C96_mt19937_partial (s : Mt32I) (h0 : 1 ≤ s.pos.toInt) (h1 : s.pos.toInt ≤ 624) :
    PeriodIs (fun k => nthO mtNext32 k (mt32Key s)) (2 ^ 19937 - 1) ↔ s.key[0].getLsbD 31 = true ∨ ∃ i : Fin 624, i ≠ 0 ∧ s.key[i] ≠ 0 := by
  have e : Mt32Live (mt32Key s).key ↔ (s.key[0].getLsbD 31 = true ∨ ∃ i : Fin 624, i ≠ 0 ∧ s.key[i] ≠ 0) := by
    refine or_congr ?_ ⟨?_, ?_⟩
    · simp [mt32Key]
    · rintro ⟨i, i0, i1, h⟩
      refine ⟨⟨i, i1⟩, fun h => by simp [Fin.ext_iff] at h; omega, ?_⟩
      simpa [mt32Key, i1] using h
    · rintro ⟨i, i0, h⟩
      refine ⟨i.val, Nat.pos_of_ne_zero fun h => i0 (Fin.ext h), i.isLt, ?_⟩
      simpa [mt32Key] using h
  rw [← e]
  constructor
  · intro h
    by_contra hs
    exact PeriodIs.not_of_constant (C76_degenerate (mt32Key s) h0 h1 hs) mersenne_big h
  · exact fun h => C76_mt19937 _ h0 h1 h

theorem not_C96_mt19937 (t : Mt32I) : ∃ v s, mt32Set v t = (.ok (), s) ∧ ∀ k, nthO mtNext32 k (mt32Key s) = some 0 := by
  refine ⟨_, ⟨Vector.replicate 624 0, 624⟩, C11_mt19937 _ t, C76_degenerate _ (by decide) (by decide) ?_⟩
  rintro (h | ⟨i, i0, i1, h⟩)
  · simp [mt32Key] at h
  · exact h (by simp [mt32Key])

/-! ### The other classes -/

theorem not_C96_sfc64 (t : SfcI) : ∃ v s, sfcSet v t = (.ok (), s) ∧ ∀ k, nthDraw sfcNext k (sfcView s).core = 0 :=
  ⟨_, ⟨0, 0, 0, 0, 0, 0, 0⟩, C11_sfc64 _ t, fun k => by
    rw [show (sfcView ⟨0, 0, 0, 0, 0, 0, 0⟩).core = ⟨0, 0, 0, 0, 0⟩ from rfl, nthDraw_fixed _ (by decide)]; decide⟩

/-- Both variants. -/
theorem not_C96_romu (q : Bool) (t : RomuI) : ∃ v s, romuSet v t = (.ok (), s) ∧ s.actQuad = q ∧
    ∀ k, nthDraw (if s.actQuad then romuQuadNext else romuTrioNext) k (romuView s).core = 0 :=
  ⟨_, ⟨0, 0, 0, 0, 0, 0, romuName q, q⟩, C11_romu _ t (by unfold RomuOk; cases q <;> decide), rfl, fun k => by
    rw [show (romuView ⟨0, 0, 0, 0, 0, 0, romuName q, q⟩).core = ⟨0, 0, 0, 0⟩ from rfl, nthDraw_fixed _ (by cases q <;> decide)]
    cases q <;> decide⟩

/-- Both variants. -/
theorem not_C96_tyche (o : Bool) (t : TycheI) : ∃ v s, tycheSet v t = (.ok (), s) ∧ s.actOriginal = o ∧
    ∀ k, nthDraw (if s.actOriginal then tycheNext else tycheOpenNext) k ⟨s.a, s.b, s.c, s.d⟩ = 0 :=
  ⟨_, ⟨0, 0, 0, 0, o, o⟩, C11_tyche _ t rfl, rfl, fun k => by
    rw [nthDraw_fixed _ (by cases o <;> decide)]
    cases o <;> decide⟩

theorem sq_zero (k : Nat) (c : U64) : nthDraw sqNext64 k ⟨0, c⟩ = 0 ∧ nthDraw sqNext32 k ⟨0, c⟩ = 0 := by
  have m : ∀ c : U64, c * 0 = 0 := fun c => BitVec.mul_zero
  induction k generalizing c with
  | zero => exact ⟨by rw [nthDraw]; show sqMix64 (c * 0) 0 = 0; rw [m]; decide, by rw [nthDraw]; show sqMix32 (c * 0) 0 = 0; rw [m]; decide⟩
  | succ k ih => exact ⟨by rw [nthDraw, Function.iterate_succ_apply]; exact (ih (c + 1)).1, by rw [nthDraw, Function.iterate_succ_apply]; exact (ih (c + 1)).2⟩

/-- Both variants: key 0 makes every output 0, whatever the counter. -/
theorem not_C96_squares (w : Bool) (t : SquaresI) : ∃ v s, squaresSet v t = (.ok (), s) ∧ s.act64 = w ∧
    (∀ k, nthDraw sqNext64 k s.toBuf.core = 0) ∧ ∀ k, nthDraw sqNext32 k s.toBuf.core = 0 := by
  refine ⟨_, _, C11_squares_partial ⟨0, 0, 0, 0, if w then 64 else 32, w, w⟩ t (by unfold SquaresOk; cases w <;> decide), rfl, ?_, ?_⟩
  · exact fun k => (sq_zero k 0).1
  · exact fun k => (sq_zero k 0).2

/-- An even key: half the period, whatever the counter. -/
theorem C96_squares_even (s : SquaresI) (h : s.key.toNat % 2 = 0) (k : Nat) :
    nthDraw sqNext64 (k + 2 ^ 63) s.toBuf.core = nthDraw sqNext64 k s.toBuf.core ∧
      nthDraw sqNext32 (k + 2 ^ 63) s.toBuf.core = nthDraw sqNext32 k s.toBuf.core := by
  have e : ∀ j c, (stepOf sqNext64)^[j] ⟨s.key, c⟩ = ⟨s.key, c + BitVec.ofNat 64 j⟩ ∧ (stepOf sqNext32)^[j] ⟨s.key, c⟩ = ⟨s.key, c + BitVec.ofNat 64 j⟩ := fun j => by
    induction j with
    | zero => intro c; simp
    | succ j ih =>
      intro c
      have : c + 1 + BitVec.ofNat 64 j = c + BitVec.ofNat 64 (j + 1) := by
        rw [BitVec.add_assoc, Nat.add_comm j 1, BitVec.ofNat_add]; rfl
      exact ⟨by rw [Function.iterate_succ_apply]; exact ((ih (c + 1)).1).trans (by rw [this]),
        by rw [Function.iterate_succ_apply]; exact ((ih (c + 1)).2).trans (by rw [this])⟩
  have m : ∀ c : U64, (c + BitVec.ofNat 64 (k + 2 ^ 63)) * s.key = (c + BitVec.ofNat 64 k) * s.key := fun c => by
    have z : BitVec.ofNat 64 (2 ^ 63) * s.key = 0 := by
      apply BitVec.eq_of_toNat_eq
      rw [BitVec.toNat_mul, BitVec.toNat_ofNat, show s.key.toNat = 2 * (s.key.toNat / 2) by omega]
      show 9223372036854775808 * (2 * (s.key.toNat / 2)) % 18446744073709551616 = 0
      omega
    rw [BitVec.ofNat_add, ← BitVec.add_assoc, add_mul, z, add_zero]
  have v : s.toBuf.core = ⟨s.key, s.counter⟩ := rfl
  rw [v, nthDraw, nthDraw, nthDraw, nthDraw, (e _ _).1, (e _ _).1, (e _ _).2, (e _ _).2]
  simp only [sqNext64, sqNext32, m, and_self]

/-- Both sizes, with the default parameters. -/
theorem not_C96_jsf (t : JsfI) :
    (∃ v s, jsfSet v t = (.ok (), s) ∧ s.act64 = true ∧ ∀ k, nthO (jsfNext ⟨s.p.toInt, s.q.toInt, s.r.toInt⟩) k (⟨s.a, s.b, s.c, s.d⟩ : Jsf 64) = some 0) ∧
      ∃ v s, jsfSet v t = (.ok (), s) ∧ s.act64 = false ∧ ∀ k, nthO (jsfNext ⟨s.p.toInt, s.q.toInt, s.r.toInt⟩) k
        (⟨s.a.truncate 32, s.b.truncate 32, s.c.truncate 32, s.d.truncate 32⟩ : Jsf 32) = some 0 := by
  constructor
  · obtain ⟨s, h1, h2⟩ := C11_jsf ⟨0, 0, 0, 0, 7, 13, 37, 0, 0, 64, 0, true⟩ t rfl
    have hs : s.size = 64 := by
      have := congrArg JsfI.size h2
      simp only [jsfView] at this
      split at this <;> simpa using this
    simp only [jsfView, hs, if_true] at h2
    subst h2
    exact ⟨_, _, h1, rfl, nthO_fixed (by decide)⟩
  · obtain ⟨s, h1, h2⟩ := C11_jsf ⟨0, 0, 0, 0, 27, 17, 0, 0, 0, 32, 0, false⟩ t rfl
    have hs : s.size = 32 := by
      have := congrArg JsfI.size h2
      simp only [jsfView] at this
      split at this <;> simpa using this
    have z : ∀ x : U64, (x.truncate 32 : U32).zeroExtend 64 = 0 → (x.truncate 32 : U32) = 0 := fun x h => by
      have := congrArg BitVec.toNat h
      apply BitVec.eq_of_toNat_eq
      simp at this ⊢
      omega
    obtain ⟨a, b, c, d, p, q, r, has, uint, size, ss, act⟩ := s
    obtain rfl : size = 32 := hs
    simp only [jsfView, show ((32 : U32) = 64) = False by decide, if_false, JsfI.mk.injEq] at h2
    obtain ⟨ea, eb, ec, ed, rfl, rfl, rfl, -, -, -, -, rfl⟩ := h2
    refine ⟨_, _, h1, rfl, ?_⟩
    dsimp only
    rw [z _ (by simpa using ea), z _ (by simpa using eb), z _ (by simpa using ec), z _ (by simpa using ed)]
    exact nthO_fixed (by decide)

/-- Every named output function, either order of output and step, any multiplier. -/
theorem not_C96_lcg128mix (mult : U128) (dxsm : U64) (post : Bool) (o : U32) (n : String) (hn : outputName o = some n) (t : LcgMixI) (ext : Nat → U64 → U64 → U64) :
    ∃ v s, lcgMixSet v t = (.ok (), s) ∧ s.mult = mult ∧ s.outputIdx = o ∧ ∀ k, nthDraw Lcg128.next k (s.toBuf ext).core = 0 := by
  obtain ⟨v, -, h⟩ := lcg_copy_named ⟨0, 0, mult, dxsm, halfI post, o, 0, 0, 0, none⟩ t (by cases post; exacts [.inl rfl, .inr rfl]) rfl n hn
  refine ⟨v, _, h, rfl, rfl, fun k => ?_⟩
  have e : Pcg.lcgStep mult 0#128 0#128 = 0#128 := by simp [Pcg.lcgStep]
  have m : ∀ d : U64, Pcg.outDxsm 0 0 d = 0 := fun d => by simp [Pcg.outDxsm]
  have ho : ∃ p ∈ outputLookup, p.2 = o := by
    rw [outputName, Option.map_eq_some_iff] at hn
    obtain ⟨p, hp, -⟩ := hn
    exact ⟨p, List.mem_of_find?_eq_some hp, by simpa using List.find?_some hp⟩
  have step : Lcg128.next ⟨0#128, 0#128, mult, dxsm, halfI post == 1, LcgMixI.output ext ⟨0, 0, mult, dxsm, halfI post, o, 0, 0, 0, none⟩⟩ =
      (0, ⟨0#128, 0#128, mult, dxsm, halfI post == 1, LcgMixI.output ext ⟨0, 0, mult, dxsm, halfI post, o, 0, 0, 0, none⟩⟩) := by
    simp only [Lcg128.next, e, ite_self]
    congr 1
    obtain ⟨p, hp, rfl⟩ := ho
    simp only [outputLookup, List.mem_cons, List.not_mem_nil, or_false] at hp
    rcases hp with rfl | rfl | rfl | rfl | rfl
    · exact (by decide : Pcg.outXslRr (Pcg.hi 0) (Pcg.lo 0) = 0)
    · exact m dxsm
    · exact (by decide : Pcg.outMurmur3 (Pcg.hi 0) (Pcg.lo 0) = 0)
    · rfl
    · rfl
  have hc : LcgMixI.output ext { (⟨0, 0, mult, dxsm, halfI post, o, 0, 0, 0, none⟩ : LcgMixI) with outputFunc := t.outputFunc, cfunc := t.cfunc } =
      LcgMixI.output ext ⟨0, 0, mult, dxsm, halfI post, o, 0, 0, 0, none⟩ := by
    obtain ⟨p, hp, rfl⟩ := ho
    simp only [outputLookup, List.mem_cons, List.not_mem_nil, or_false] at hp
    rcases hp with rfl | rfl | rfl | rfl | rfl <;> rfl
  simp only [LcgMixI.toBuf, hc]
  exact nthDraw_const step k

theorem mt64_degenerate (s : Mt 64) (h0 : 1 ≤ s.pos) (h1 : s.pos ≤ 312) (hz : ¬ Mt64Live s.key) (k : Nat) : nthO mtNext64 k s = some 0 := by
  simp only [Mt64Live, not_or, not_exists, not_and, not_not] at hz
  rw [C34_mt64 s (by omega) h1 (fun i => if i = 0 then s.key 0 else 0) (fun j => ?_) (fun i hi => ?_)]
  · rw [if_neg (by omega)]; rfl
  · by_cases hj : j = 0
    · subst hj; simp; rw [show s.key 0 &&& 18446744071562067968#64 = 0 from hz.1]; rfl
    · simp [hj]
  · split
    · rename_i h; rw [h]
    · exact (hz.2 i (by omega) hi).symm

/-- For the positions that draws and seeding leave. -/
theorem C96_mt64_partial (s : Mt64I) (h0 : 1 ≤ s.mti.toInt) (h1 : s.mti.toInt ≤ 312) :
    PeriodIs (fun k => nthO mtNext64 k (mt64Key s)) (2 ^ 19937 - 1) ↔ s.mt[0] &&& 0xFFFFFFFF80000000 ≠ 0 ∨ ∃ i : Fin 312, i ≠ 0 ∧ s.mt[i] ≠ 0 := by
  have e : Mt64Live (mt64Key s).key ↔ (s.mt[0] &&& 0xFFFFFFFF80000000 ≠ 0 ∨ ∃ i : Fin 312, i ≠ 0 ∧ s.mt[i] ≠ 0) := by
    refine or_congr ?_ ⟨?_, ?_⟩
    · simp [mt64Key]
    · rintro ⟨i, i0, i1, h⟩
      refine ⟨⟨i, i1⟩, fun h => by simp [Fin.ext_iff] at h; omega, ?_⟩
      simpa [mt64Key, i1] using h
    · rintro ⟨i, i0, h⟩
      refine ⟨i.val, Nat.pos_of_ne_zero fun h => i0 (Fin.ext h), i.isLt, ?_⟩
      simpa [mt64Key] using h
  rw [← e]
  constructor
  · intro h
    by_contra hs
    exact PeriodIs.not_of_constant (mt64_degenerate (mt64Key s) h0 h1 hs) mersenne_big h
  · exact fun h => C76_mt64 _ h0 h1 h

theorem not_C96_mt64 (t : Mt64I) : ∃ v s, mt64Set v t = (.ok (), s) ∧ ∀ k, nthO mtNext64 k (mt64Key s) = some 0 := by
  refine ⟨_, ⟨Vector.replicate 312 0, 312, 0, 0⟩, C11_mt64 _ t, mt64_degenerate _ (by decide) (by decide) ?_⟩
  rintro (h | ⟨i, i0, i1, h⟩)
  · simp [mt64Key] at h
  · exact h (by simp [mt64Key])

/-- The structures as the C code reads them. -/
def hc128View (s : Hc128I) : Hc :=
  ⟨fun i => if h : i < 512 then s.p[i] else 0, fun i => if h : i < 512 then s.q[i] else 0, fun i => if h : i < 16 then s.buffer[i] else 0,
    s.hcIdx.toInt, s.bufferIdx.toInt⟩
def sfmtWords (s : SfmtI) : Sfmt :=
  ⟨fun i => words128 (fun j => if h : j < 624 then (view32 s.st)[j] else 0) i, fun i => if h : i < 312 then s.buf[i] else 0, s.loc.toInt⟩
def dsfmtWords (s : DsfmtI) : Dsfmt :=
  ⟨fun i => if h : i < 191 then ⟨s.st[2 * i], s.st[2 * i + 1]⟩ else ⟨0, 0⟩, ⟨s.st[382], s.st[383]⟩, fun i => if h : i < 382 then s.buf[i] else 0, s.loc.toInt⟩

theorem not_C96_hc128 (t : Hc128I) : ∃ v s, hc128Set v t = (.ok (), s) ∧ ∀ k, nthO hcNext32 k (hc128View s) = some 0 := by
  refine ⟨_, ⟨Vector.replicate 512 0, Vector.replicate 512 0, Vector.replicate 16 0, 0, 0⟩, C11_hc128 _ t, fun k => ?_⟩
  rw [C67_hc128_unroll _ ⟨fun _ => 0, fun _ => 0, 0⟩ (fun i hi => by simp [hc128View]) (fun i hi => by simp [hc128View]) rfl (by decide) (by decide) (by decide)]
  congr 1
  have u : ∀ (g : U32 → U32 → U32 → U32) (i : Nat), g 0 0 0 = 0 → refUpd g (fun _ => 0) i = fun _ => 0 := fun g i h => by
    rw [refUpd, h]; exact Function.update_eq_self _ _
  have h : ∀ c, refStep ⟨fun _ => 0, fun _ => 0, c⟩ = (0, ⟨fun _ => 0, fun _ => 0, (c + 1) % 1024⟩) := fun c => by
    simp only [refStep, u _ _ (show refG1 0 0 0 = 0 by decide), u _ _ (show refG2 0 0 0 = 0 by decide)]
    split <;> rfl
  generalize (0 : Nat) = c
  induction k generalizing c with
  | zero => rw [nthDraw]; exact congrArg Prod.fst (h c)
  | succ k ih =>
    rw [nthDraw, Function.iterate_succ_apply]
    show nthDraw refStep k (refStep _).2 = 0
    rw [h]; exact ih _

theorem not_C96_sfmt (t : SfmtI) : ∃ v s, sfmtSet v t = (.ok (), s) ∧ ∀ k, nthO sfmtNext64 k (sfmtWords s) = some 0 := by
  refine ⟨_, ⟨Vector.replicate 312 0, 0, Vector.replicate 312 0, 312, 0, 0⟩, C11_sfmt _ t, fun k => ?_⟩
  rw [C65_sfmt _ (by decide) (by decide) (fun _ => 0) (fun _ => by decide) (fun i hi => ?_)]
  · simp [sfmtWords]
  · have : ∀ j, (if h : j < 624 then (view32 (Vector.replicate 312 0))[j] else 0 : U32) = 0 := fun j => by
      split <;> simp [view32]
    simp only [sfmtWords, words128, this]
    decide

/-- The stored doubles are all 0.0, outside `[1, 2)`, and `next_double` returns -1.0. -/
theorem not_C96_dsfmt (t : DsfmtI) : ∃ v s, dsfmtSet v t = (.ok (), s) ∧ ∀ k, nthO dsfmtNext k (dsfmtWords s) = some 0 := by
  refine ⟨_, ⟨Vector.replicate 384 0, 0, Vector.replicate 382 0, 382⟩, C11_dsfmt _ t, fun k => ?_⟩
  rw [C65_dsfmt _ (by decide) (by decide) (fun _ => ⟨0, 0⟩) (fun _ => ⟨0, 0⟩) (fun _ => by decide) (fun i hi => ?_) ?_]
  · simp [dsfmtWords]
  · simp [dsfmtWords]
  · simp [dsfmtWords]

/-! States to which the theorems apply. -/

example : CycleIs (fun k => nthDraw xosh256Next k (xo256View ⟨#v[0, 0, 1, 0], 0, 0⟩).core) (2 ^ 256 - 1) :=
  (C96_xoshiro256_partial _).2 ⟨2, by decide⟩
example : ¬ CycleIs (fun k => nthDraw Pcg32.next k ⟨5, 12⟩) (2 ^ 64) := fun h => absurd ((C96_pcg32_partial ⟨5, 12⟩).1 h) (by decide)
example : CycleIs (fun k => nthDraw Pcg.next k (pcg64View (pcg64Variant (pcg64Fresh .cmDxsm)) { pcg64Fresh .cmDxsm with inc := 7 }).core) (2 ^ 128) :=
  (C96_pcg64_partial { pcg64Fresh .cmDxsm with inc := 7 }).2 (by decide)
example : Pcg64Ok { pcg64Fresh .dxsm128 with cDxsm := 1 } := pcg64Setup_ok _
example : ¬ CycleIs (fun k => nthDraw lxmNext k (lxmView ⟨#v[1, 2, 3, 4], 5, 6, 0, 0⟩).core) ((2 ^ 256 - 1) * 2 ^ 64) :=
  fun h => absurd ((C96_lxm_partial _).1 h).2 (by decide)
example : 1 ≤ (624 : U32).toInt ∧ (624 : U32).toInt ≤ 624 ∧ 1 ≤ (1 : U32).toInt ∧ (1 : U32).toInt ≤ 312 := by decide
example : (SquaresI.mk 12 0 0 0 64 true true).key.toNat % 2 = 0 := by decide
example : outputName 2 = some "murmur3" := by decide

end Verif
