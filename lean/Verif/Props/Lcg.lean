import Verif.Proof.Lcg
import Verif.Props.Ints
import Mathlib.Tactic.IntervalCases

/-! Properties C03 (PCG64, LCG128Mix advance), C04 (PCG32 advance), C05 (composition),
C07 (full period), C08 (seeding collisions). -/

namespace Verif.Pcg

/-! ### Helper lemmas -/

theorem const128_toNat (h l : U64) : (const128 h l).toNat = h.toNat * 2 ^ 64 + l.toNat := by
  unfold const128
  have := h.isLt; have := l.isLt
  rw [BitVec.toNat_add]
  simp only [BitVec.toNat_shiftLeft, BitVec.truncate_eq_setWidth, BitVec.toNat_setWidth,
    Nat.shiftLeft_eq]
  omega

/-- The two words passed to C denote the wrapped delta. -/
theorem delta_words (d : Int) (h0 : 0 ≤ d) (h1 : d < 2 ^ 128) :
    (const128 (BitVec.ofInt 64 (Int.fdiv d (2 ^ 64))) (BitVec.ofInt 64 (Int.fmod d (2 ^ 64)))).toNat
      = d.toNat := by
  rw [const128_toNat, BitVec.toNat_ofInt, BitVec.toNat_ofInt,
    Int.fdiv_eq_ediv_of_nonneg _ (by norm_num), Int.fmod_eq_emod_of_nonneg _ (by norm_num)]
  omega

theorem wrap_toNat_modEq (delta : Int) (b n : Nat) (h : (n : Int) ≡ delta [ZMOD 2 ^ b]) :
    (Ints.wrapInt delta b).toNat = n % 2 ^ b := by
  obtain ⟨h0, h1, h2⟩ := Ints.C01_wrap_int_range_congruent delta b
  have h3 := h2.trans h.symm
  have h4 : Ints.wrapInt delta b = (n : Int) % 2 ^ b := by
    rw [← Int.emod_eq_of_lt h0 h1]; exact h3
  rw [h4]
  have : ((n : Int) % 2 ^ b) = ((n % 2 ^ b : Nat) : Int) := by push_cast; rfl
  rw [this, Int.toNat_natCast]

theorem step_iterate (c : Core) (n : Nat) :
    (stepOf next)^[n] c = { c with state := (lcgStep (multOf c.variant) c.inc)^[n] c.state } := by
  induction n generalizing c with
  | zero => rfl
  | succ n ih =>
    rw [Function.iterate_succ_apply, ih, Function.iterate_succ_apply]
    obtain ⟨s, i, v⟩ := c
    cases v <;> simp only [stepOf, next, multOf]

theorem multOf_mod4 (v : Variant) : (multOf v).toNat % 4 = 1 := by cases v <;> decide +kernel

/-! ### C03 -/

/-- C03 (PCG64, every variant): for every integer `delta` and every number `n` of draws congruent
to it modulo the period `2^128`, `advance(delta)` leaves the core where `n` draws leave it, and the
cached half is dropped. -/
theorem C03_pcg64_advance (g : Buf Core) (delta : Int) (n : Nat)
    (h : (n : Int) ≡ delta [ZMOD 2 ^ 128]) :
    (advance g delta).core = (stepOf next)^[n] g.core ∧ (advance g delta).has = false := by
  obtain ⟨h0, h1, _⟩ := Ints.C01_wrap_int_range_congruent delta 128
  refine ⟨?_, rfl⟩
  rw [step_iterate]
  simp only [advance, Buf.reset]
  rw [advanceLcg_eq (by decide), delta_words _ h0 h1, wrap_toNat_modEq delta 128 n h,
    lcg_iterate_mod _ _ _ (by have := multOf_mod4 g.core.variant; omega)]

/-- C03: for a non-negative delta this is literally `delta` draws. -/
theorem C03_pcg64_advance_nat (g : Buf Core) (n : Nat) :
    (advance g n).core = (stepOf next)^[n] g.core :=
  (C03_pcg64_advance g n n (Int.ModEq.refl _)).1

/-- C03: after `advance(-n)` exactly `n` draws lead back to the current core state. -/
theorem C03_pcg64_advance_neg (g : Buf Core) (n : Nat) :
    (stepOf next)^[n] (advance g (-(n : Int))).core = g.core := by
  have h := (C03_pcg64_advance g (-(n : Int)) (2 ^ 128 * n - n) (by
    have : n ≤ 2 ^ 128 * n := Nat.le_mul_of_pos_left n (by positivity)
    rw [Int.natCast_sub this]
    apply Int.modEq_iff_dvd.mpr
    exact ⟨-(n : Int), by push_cast; ring⟩)).1
  rw [h, ← Function.iterate_add_apply, step_iterate]
  have hle : n ≤ 2 ^ 128 * n := Nat.le_mul_of_pos_left n (by positivity)
  have : n + (2 ^ 128 * n - n) = 2 ^ 128 * n := by omega
  rw [this]
  have := lcg_iterate_mod (multOf g.core.variant) g.core.inc g.core.state
    (by have := multOf_mod4 g.core.variant; omega) (2 ^ 128 * n)
  rw [Nat.mul_mod_right] at this
  rw [← this]; rfl

/-- C03: the numbers drawn after `advance(n)` are those that follow the next `n` draws. -/
theorem C03_pcg64_outputs (g : Buf Core) (n k : Nat) :
    drawN next (n + k) g.core = drawN next n g.core ++ drawN next k (advance g n).core := by
  rw [drawN_add, C03_pcg64_advance_nat]

/-- C03: `jumped(iter)` is `iter` times the documented stride
210306068529402873165736369884012333108, for any integer `iter`. -/
theorem C03_pcg64_jumped (g : Buf Core) (iter : Int) (n : Nat)
    (h : (n : Int) ≡ 210306068529402873165736369884012333108 * iter [ZMOD 2 ^ 128]) :
    (jumpInplace g iter).core = (stepOf next)^[n] g.core := by
  unfold jumpInplace
  apply (C03_pcg64_advance g _ n ?_).1
  have e : phi128 = 210306068529402873165736369884012333108 := by decide +kernel
  rw [e]
  apply h.trans
  apply Int.modEq_iff_dvd.mpr
  exact ⟨-(Int.fdiv (210306068529402873165736369884012333108 * iter) (2 ^ 128)), by ring⟩

end Verif.Pcg

namespace Verif.Lcg128
open Verif.Pcg

theorem step_eq (c : Core) :
    stepOf next c = { c with state := lcgStep c.multiplier c.inc c.state } := rfl

theorem step_iterate (c : Core) (n : Nat) :
    (stepOf next)^[n] c = { c with state := (lcgStep c.multiplier c.inc)^[n] c.state } := by
  induction n generalizing c with
  | zero => rfl
  | succ n ih => rw [Function.iterate_succ_apply, ih, Function.iterate_succ_apply, step_eq]

/-- C03 (LCG128Mix): any multiplier (even or odd), any increment, any output function:
`advance(n)` for `0 ≤ n < 2^128` is `n` draws. -/
theorem C03_lcg128_advance_nat (g : Buf Core) (n : Nat) (hn : n < 2 ^ 128) :
    (advance g n).core = (stepOf next)^[n] g.core ∧ (advance g n).has = false := by
  obtain ⟨h0, h1, _⟩ := Ints.C01_wrap_int_range_congruent (n : Int) 128
  refine ⟨?_, rfl⟩
  rw [step_iterate]
  simp only [advance, Buf.reset]
  rw [advanceLcg_eq (by decide), delta_words _ h0 h1, wrap_toNat_modEq (n : Int) 128 n (Int.ModEq.refl _),
    Nat.mod_eq_of_lt hn]

/-- C03 (LCG128Mix): for the odd multipliers that the constructor admits, every integer delta,
of any sign and magnitude. -/
theorem C03_lcg128_advance (g : Buf Core) (hm : g.core.multiplier.toNat % 2 = 1)
    (delta : Int) (n : Nat) (h : (n : Int) ≡ delta [ZMOD 2 ^ 128]) :
    (advance g delta).core = (stepOf next)^[n] g.core := by
  obtain ⟨h0, h1, _⟩ := Ints.C01_wrap_int_range_congruent delta 128
  rw [step_iterate]
  simp only [advance, Buf.reset]
  rw [advanceLcg_eq (by decide), delta_words _ h0 h1, wrap_toNat_modEq delta 128 n h,
    lcg_iterate_mod _ _ _ hm]

/-- The two hypotheses of `C03_lcg128_advance` are met by the default multiplier and -3. -/
example : ∃ (g : Buf Core) (n : Nat), g.core.multiplier.toNat % 2 = 1 ∧
    (n : Int) ≡ -3 [ZMOD 2 ^ 128] :=
  ⟨⟨⟨0, 1, defaultMult, 1, true, .xslRr⟩, false, 0⟩, 2 ^ 128 - 3,
    by decide +kernel, Int.modEq_iff_dvd.mpr ⟨-1, by norm_num⟩⟩

end Verif.Lcg128

namespace Verif.Pcg32
open Verif.Pcg

theorem step_eq (c : Core) : stepOf next c = ⟨lcgStep mult c.inc c.state, c.inc⟩ := rfl

theorem step_iterate (c : Core) (n : Nat) :
    (stepOf next)^[n] c = { c with state := (lcgStep mult c.inc)^[n] c.state } := by
  induction n generalizing c with
  | zero => rfl
  | succ n ih => rw [Function.iterate_succ_apply, ih, Function.iterate_succ_apply, step_eq]

/-! ### C04 -/

/-- C04: `PCG32.advance(delta)` is `n` 32-bit draws for every `n ≡ delta` modulo `2^64`. -/
theorem C04_pcg32_advance (c : Core) (delta : Int) (n : Nat)
    (h : (n : Int) ≡ delta [ZMOD 2 ^ 64]) :
    advance c delta = (stepOf next)^[n] c := by
  obtain ⟨h0, h1, _⟩ := Ints.C01_wrap_int_range_congruent delta 64
  rw [step_iterate]
  simp only [advance]
  rw [advanceLcg_eq (by decide)]
  have : (BitVec.ofInt 64 (Ints.wrapInt delta 64)).toNat = n % 2 ^ 64 := by
    rw [← wrap_toNat_modEq delta 64 n h, BitVec.toNat_ofInt]
    omega
  rw [this, lcg_iterate_mod _ _ _ (by decide +kernel)]

/-- C04: non-negative deltas. -/
theorem C04_pcg32_advance_nat (c : Core) (n : Nat) : advance c n = (stepOf next)^[n] c :=
  C04_pcg32_advance c n n (Int.ModEq.refl _)

/-- C04: after `advance(-n)`, `n` draws lead back. -/
theorem C04_pcg32_advance_neg (c : Core) (n : Nat) :
    (stepOf next)^[n] (advance c (-(n : Int))) = c := by
  have hle : n ≤ 2 ^ 64 * n := Nat.le_mul_of_pos_left n (by positivity)
  rw [C04_pcg32_advance c (-(n : Int)) (2 ^ 64 * n - n) (by
    rw [Int.natCast_sub hle]
    apply Int.modEq_iff_dvd.mpr
    exact ⟨-(n : Int), by push_cast; ring⟩), ← Function.iterate_add_apply, step_iterate,
    show n + (2 ^ 64 * n - n) = 2 ^ 64 * n by omega]
  have := lcg_iterate_mod mult c.inc c.state (by decide +kernel) (2 ^ 64 * n)
  rw [Nat.mul_mod_right] at this
  rw [← this]; rfl

/-- C04: `jumped(iter)` is `iter` strides of 11400714819323198486 draws. -/
theorem C04_pcg32_jumped (c : Core) (iter n : Nat) (h : n = iter * 11400714819323198486) :
    jumped c iter = (stepOf next)^[n] c := by
  unfold jumped
  apply C04_pcg32_advance
  subst h
  push_cast
  exact Int.ModEq.refl _

example : advance ⟨5, 7⟩ (-1) = ⟨(5 - 7) * 13877824140714322085#64, 7⟩ := by
  have h := C04_pcg32_advance_neg ⟨5, 7⟩ 1
  have h2 : (stepOf next)^[1] (⟨(5 - 7) * 13877824140714322085#64, 7⟩ : Core) = ⟨5, 7⟩ := by
    decide +kernel
  -- one draw is injective on states
  have inj : ∀ a b : Core, (stepOf next)^[1] a = (stepOf next)^[1] b → a = b := by
    intro a b hab
    simp only [step_iterate, Function.iterate_one, lcgStep, Core.mk.injEq] at hab
    obtain ⟨h1, h2⟩ := hab
    rw [h2] at h1
    have h3 : a.state * mult = b.state * mult := by
      have := congrArg (· - b.inc) h1
      simpa using this
    have h4 := congrArg (· * 13877824140714322085#64) h3
    simp only [BitVec.mul_assoc, show mult * 13877824140714322085#64 = 1#64 by decide +kernel,
      BitVec.mul_one] at h4
    cases a; cases b; simp_all
  exact inj _ _ (by rw [h2]; exact h)

end Verif.Pcg32

/-! ### C05 -/

namespace Verif

/-- C05 (PCG64): `advance(a)` then `advance(b)` is `advance(a + b)`. -/
theorem C05_pcg64_advance_add (g : Buf Pcg.Core) (a b : Int) :
    Pcg.advance (Pcg.advance g a) b = Pcg.advance g (a + b) := by
  obtain ⟨n, hn⟩ : ∃ n : Nat, (n : Int) ≡ a [ZMOD 2 ^ 128] :=
    ⟨(a % 2 ^ 128).toNat, by
      rw [Int.toNat_of_nonneg (Int.emod_nonneg _ (by norm_num))]; exact Int.mod_modEq _ _⟩
  obtain ⟨m, hm⟩ : ∃ n : Nat, (n : Int) ≡ b [ZMOD 2 ^ 128] :=
    ⟨(b % 2 ^ 128).toNat, by
      rw [Int.toNat_of_nonneg (Int.emod_nonneg _ (by norm_num))]; exact Int.mod_modEq _ _⟩
  have h1 := (Pcg.C03_pcg64_advance g a n hn).1
  have h2 := (Pcg.C03_pcg64_advance (Pcg.advance g a) b m hm).1
  have h3 := (Pcg.C03_pcg64_advance g (a + b) (m + n) (by
    push_cast; rw [add_comm a b]; exact hm.add hn)).1
  rw [h1, ← Function.iterate_add_apply, ← h3] at h2
  have e : ∀ (x : Buf Pcg.Core) (d : Int), Pcg.advance x d =
      { core := (Pcg.advance x d).core, has := false, uinteger := 0 } := fun _ _ => rfl
  rw [e (_) b, e g (a + b), h2]

/-- C05 (PCG64): `advance(n)` then `advance(-n)` restores the generator (the cached half, which
every advance drops, excepted). -/
theorem C05_pcg64_advance_neg (g : Buf Pcg.Core) (n : Int) :
    Pcg.advance (Pcg.advance g n) (-n) = g.reset := by
  rw [C05_pcg64_advance_add, add_neg_cancel]
  have := Pcg.C03_pcg64_advance_nat g 0
  have e : Pcg.advance g 0 = { core := (Pcg.advance g 0).core, has := false, uinteger := 0 } := rfl
  rw [e]
  simp only [Nat.cast_zero, Function.iterate_zero, id] at this
  rw [this]; rfl

/-- C05 (LCG128Mix, odd multiplier). -/
theorem C05_lcg128_advance_add (g : Buf Lcg128.Core) (hm : g.core.multiplier.toNat % 2 = 1)
    (a b : Int) :
    Lcg128.advance (Lcg128.advance g a) b = Lcg128.advance g (a + b) := by
  obtain ⟨n, hn⟩ : ∃ n : Nat, (n : Int) ≡ a [ZMOD 2 ^ 128] :=
    ⟨(a % 2 ^ 128).toNat, by
      rw [Int.toNat_of_nonneg (Int.emod_nonneg _ (by norm_num))]; exact Int.mod_modEq _ _⟩
  obtain ⟨m, hm'⟩ : ∃ n : Nat, (n : Int) ≡ b [ZMOD 2 ^ 128] :=
    ⟨(b % 2 ^ 128).toNat, by
      rw [Int.toNat_of_nonneg (Int.emod_nonneg _ (by norm_num))]; exact Int.mod_modEq _ _⟩
  have h1 := Lcg128.C03_lcg128_advance g hm a n hn
  have h2 := Lcg128.C03_lcg128_advance (Lcg128.advance g a) hm b m hm'
  have h3 := Lcg128.C03_lcg128_advance g hm (a + b) (m + n) (by
    push_cast; rw [add_comm a b]; exact hm'.add hn)
  rw [h1, ← Function.iterate_add_apply, ← h3] at h2
  have e : ∀ (x : Buf Lcg128.Core) (d : Int), Lcg128.advance x d =
      { core := (Lcg128.advance x d).core, has := false, uinteger := 0 } := fun _ _ => rfl
  rw [e (_) b, e g (a + b), h2]

/-- C05 (LCG128Mix): `advance(n)` then `advance(-n)`. -/
theorem C05_lcg128_advance_neg (g : Buf Lcg128.Core) (hm : g.core.multiplier.toNat % 2 = 1)
    (n : Int) : Lcg128.advance (Lcg128.advance g n) (-n) = g.reset := by
  rw [C05_lcg128_advance_add g hm, add_neg_cancel]
  have := Lcg128.C03_lcg128_advance g hm 0 0 (Int.ModEq.refl _)
  have e : Lcg128.advance g 0 =
    { core := (Lcg128.advance g 0).core, has := false, uinteger := 0 } := rfl
  rw [e, this]; rfl

/-- C05 (PCG32). -/
theorem C05_pcg32_advance_add (c : Pcg32.Core) (a b : Int) :
    Pcg32.advance (Pcg32.advance c a) b = Pcg32.advance c (a + b) := by
  obtain ⟨n, hn⟩ : ∃ n : Nat, (n : Int) ≡ a [ZMOD 2 ^ 64] :=
    ⟨(a % 2 ^ 64).toNat, by
      rw [Int.toNat_of_nonneg (Int.emod_nonneg _ (by norm_num))]; exact Int.mod_modEq _ _⟩
  obtain ⟨m, hm⟩ : ∃ n : Nat, (n : Int) ≡ b [ZMOD 2 ^ 64] :=
    ⟨(b % 2 ^ 64).toNat, by
      rw [Int.toNat_of_nonneg (Int.emod_nonneg _ (by norm_num))]; exact Int.mod_modEq _ _⟩
  rw [Pcg32.C04_pcg32_advance c a n hn, Pcg32.C04_pcg32_advance _ b m hm,
    Pcg32.C04_pcg32_advance c (a + b) (m + n) (by
      push_cast; rw [add_comm a b]; exact hm.add hn), Function.iterate_add_apply]

/-- C05 (PCG32): `advance(n)` then `advance(-n)` restores the state. -/
theorem C05_pcg32_advance_neg (c : Pcg32.Core) (n : Int) :
    Pcg32.advance (Pcg32.advance c n) (-n) = c := by
  rw [C05_pcg32_advance_add, add_neg_cancel]
  exact Pcg32.C04_pcg32_advance_nat c 0

example : ∃ g : Buf Lcg128.Core, g.core.multiplier.toNat % 2 = 1 :=
  ⟨⟨⟨0, 1, Pcg.defaultMult, 1, true, .xslRr⟩, false, 0⟩, by decide +kernel⟩

/-! ### C07 -/

theorem or_one_odd {w : Nat} (hw : 0 < w) (x : BitVec w) : ((x <<< 1) ||| 1#w).toNat % 2 = 1 := by
  have h1 : (1#w).toNat = 1 := by
    rw [BitVec.toNat_ofNat]; exact Nat.mod_eq_of_lt (Nat.one_lt_two_pow (by omega))
  rw [BitVec.toNat_or, h1]
  have h2 : ((x <<< 1).toNat ||| 1).testBit 0 = true := by rw [Nat.testBit_or]; simp
  simp only [Nat.testBit_zero, decide_eq_true_eq] at h2
  exact h2

/-- C07 (PCG64): for every seed, every stream selector and every variant the core state returns
to its seeded value after `n` draws exactly when `n` is a multiple of `2^128`. -/
theorem C07_pcg64_full_period (v : Pcg.Variant) (initstate initseq : U128) (n : Nat) :
    (stepOf Pcg.next)^[n] (Pcg.seedCore v initstate initseq) = Pcg.seedCore v initstate initseq ↔
      2 ^ 128 ∣ n := by
  rw [Pcg.step_iterate]
  have hinc : (Pcg.seedCore v initstate initseq).inc.toNat % 2 = 1 := or_one_odd (by decide) initseq
  rw [← Pcg.lcg_full_period (by decide) (Pcg.multOf (Pcg.seedCore v initstate initseq).variant)
    (Pcg.seedCore v initstate initseq).inc (Pcg.seedCore v initstate initseq).state
    (Pcg.multOf_mod4 _) hinc n]
  constructor
  · intro h; exact congrArg Pcg.Core.state h
  · intro h; rw [h]

/-- C07 (PCG64): no two of the first `2^128` states of a seeded generator coincide. -/
theorem C07_pcg64_distinct (v : Pcg.Variant) (initstate initseq : U128) (i j : Nat)
    (hij : i < j) (hj : j < 2 ^ 128) :
    (stepOf Pcg.next)^[i] (Pcg.seedCore v initstate initseq) ≠
      (stepOf Pcg.next)^[j] (Pcg.seedCore v initstate initseq) := by
  intro h
  -- apply 2^128 - i further draws
  have h2 := congrArg ((stepOf Pcg.next)^[2 ^ 128 - i]) h
  rw [← Function.iterate_add_apply, ← Function.iterate_add_apply,
    show 2 ^ 128 - i + i = 2 ^ 128 by omega,
    show 2 ^ 128 - i + j = (j - i) + 2 ^ 128 by omega, Function.iterate_add_apply (n := 2 ^ 128),
    (C07_pcg64_full_period v initstate initseq (2 ^ 128)).mpr (dvd_refl _)] at h2
  have h3 := (C07_pcg64_full_period v initstate initseq (j - i)).mp h2.symm
  have := Nat.le_of_dvd (by omega) h3
  omega

/-- C07 (PCG32): period exactly `2^64` for every seed and stream selector. -/
theorem C07_pcg32_full_period (initstate initseq : U64) (n : Nat) :
    (stepOf Pcg32.next)^[n] (Pcg32.seed initstate initseq) = Pcg32.seed initstate initseq ↔
      2 ^ 64 ∣ n := by
  rw [Pcg32.step_iterate]
  have hinc : (Pcg32.seed initstate initseq).inc.toNat % 2 = 1 := or_one_odd (by decide) initseq
  rw [← Pcg.lcg_full_period (by decide) Pcg32.mult
    (Pcg32.seed initstate initseq).inc (Pcg32.seed initstate initseq).state
    (by decide +kernel) hinc n]
  constructor
  · intro h; exact congrArg Pcg32.Core.state h
  · intro h; rw [h]

/-! ### C08 -/

/-- C08 (PCG64): with equal selectors, equal seeded states only for equal seeds. -/
theorem C08_pcg64_seed_injective (v : Pcg.Variant) (s₁ s₂ q : U128)
    (h : (Pcg.seedCore v s₁ q).state = (Pcg.seedCore v s₂ q).state) : s₁ = s₂ := by
  obtain ⟨b, hb⟩ := Pcg.isUnit_of_odd (Pcg.multOf v) (by have := Pcg.multOf_mod4 v; omega)
  simp only [Pcg.seedCore, Pcg.initPcg, Pcg.lcgStep] at h
  have h2 := add_right_cancel h
  have h3 := congrArg (b * ·) h2
  simp only [mul_comm _ (Pcg.multOf v)] at h3
  rw [← mul_assoc, hb, one_mul, ← mul_assoc, hb, one_mul] at h3
  exact add_left_cancel h3

theorem shl_or_one_toNat {w : Nat} (x : BitVec (w + 1)) :
    ((x <<< 1) ||| 1#(w + 1)).toNat = 2 * (x.toNat % 2 ^ w) + 1 := by
  have h1 : (1#(w + 1)).toNat = 1 := by
    rw [BitVec.toNat_ofNat]; exact Nat.mod_eq_of_lt (Nat.one_lt_two_pow (by omega))
  rw [BitVec.toNat_or, h1, BitVec.toNat_shiftLeft, Nat.shiftLeft_eq, pow_one]
  have hm : x.toNat * 2 % 2 ^ (w + 1) = 2 * (x.toNat % 2 ^ w) := by
    rw [pow_succ, Nat.mul_mod_mul_right, mul_comm]
  rw [hm]
  have := Nat.two_pow_add_eq_or_of_lt (i := 1) (b := 1) (by norm_num) (x.toNat % 2 ^ w)
  simpa [mul_comm] using this.symm

/-- C08 (PCG64): the stream selectors that give the same LCG increment are exactly those that
agree modulo `2^127`; the top bit is discarded. -/
theorem C08_pcg64_inc_collisions (v : Pcg.Variant) (s₁ s₂ q₁ q₂ : U128) :
    (Pcg.seedCore v s₁ q₁).inc = (Pcg.seedCore v s₂ q₂).inc ↔
      q₁.toNat % 2 ^ 127 = q₂.toNat % 2 ^ 127 := by
  simp only [Pcg.seedCore, Pcg.initPcg]
  rw [← BitVec.toNat_inj, shl_or_one_toNat, shl_or_one_toNat]
  omega

/-- C08: with the same seed, two selectors that agree modulo `2^127` give the same generator. -/
theorem C08_pcg64_same_stream (v : Pcg.Variant) (s q₁ q₂ : U128)
    (h : q₁.toNat % 2 ^ 127 = q₂.toNat % 2 ^ 127) :
    Pcg.seedCore v s q₁ = Pcg.seedCore v s q₂ := by
  have := (C08_pcg64_inc_collisions v s s q₁ q₂).mpr h
  simp only [Pcg.seedCore, Pcg.initPcg] at this ⊢
  rw [this]

/-- C08: seeds and selectors together: the seeded generator determines the seed, and the selector
up to its top bit. -/
theorem C08_pcg64_seedCore_eq_iff (v : Pcg.Variant) (s₁ s₂ q₁ q₂ : U128) :
    Pcg.seedCore v s₁ q₁ = Pcg.seedCore v s₂ q₂ ↔
      s₁ = s₂ ∧ q₁.toNat % 2 ^ 127 = q₂.toNat % 2 ^ 127 := by
  constructor
  · intro h
    have hq := (C08_pcg64_inc_collisions v s₁ s₂ q₁ q₂).mp (congrArg Pcg.Core.inc h)
    rw [C08_pcg64_same_stream v s₁ q₁ q₂ hq] at h
    exact ⟨C08_pcg64_seed_injective v s₁ s₂ q₂ (congrArg Pcg.Core.state h), hq⟩
  · rintro ⟨rfl, hq⟩
    exact C08_pcg64_same_stream v s₁ q₁ q₂ hq

/-- C08 (PCG32): the same with 64-bit seeds and selectors modulo `2^63`. -/
theorem C08_pcg32_seed_eq_iff (s₁ s₂ q₁ q₂ : U64) :
    Pcg32.seed s₁ q₁ = Pcg32.seed s₂ q₂ ↔ s₁ = s₂ ∧ q₁.toNat % 2 ^ 63 = q₂.toNat % 2 ^ 63 := by
  have hinc : (q₁ <<< 1) ||| 1#64 = (q₂ <<< 1) ||| 1#64 ↔
      q₁.toNat % 2 ^ 63 = q₂.toNat % 2 ^ 63 := by
    rw [← BitVec.toNat_inj, shl_or_one_toNat, shl_or_one_toNat]
    omega
  simp only [Pcg32.seed, Pcg32.Core.mk.injEq]
  rw [hinc]
  constructor
  · rintro ⟨h, hq⟩
    refine ⟨?_, hq⟩
    rw [hinc.mpr hq] at h
    obtain ⟨b, hb⟩ := Pcg.isUnit_of_odd Pcg32.mult (by decide +kernel)
    simp only [Pcg.lcgStep] at h
    have h2 := add_right_cancel h
    have h3 := congrArg (b * ·) h2
    simp only [mul_comm _ Pcg32.mult] at h3
    rw [← mul_assoc, hb, one_mul, ← mul_assoc, hb, one_mul] at h3
    exact add_left_cancel h3
  · rintro ⟨rfl, hq⟩
    rw [hinc.mpr hq]
    exact ⟨rfl, hq⟩

example : Pcg.seedCore .xslRr 3 5 = Pcg.seedCore .xslRr 3 (5 + 2 ^ 127) := by decide +kernel
example : Pcg.seedCore .xslRr 3 5 ≠ Pcg.seedCore .xslRr 3 6 := by decide +kernel

end Verif
