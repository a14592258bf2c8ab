import Verif.Common.Counts
import Verif.Proof.HalfShift
import Verif.Props.OutputPeriod
import Verif.Props.PcgOutput
import Verif.Model.Double32

set_option exponentiation.threshold 2000

/-! C94: the doubles and the 32-bit draws over one period of the generator: how often every value occurs, and the exact periods of the two streams. -/

namespace Verif
open Verif.Orbit Verif.Linear

/-- Along `N` successive draws of doubles from `b` every double `m 2^-53` occurs `C` times, 0 `e` times less. -/
def DoublesOften {σ : Type} (nx : σ → U64 × σ) (b : Buf σ) (N C e : Nat) : Prop :=
  ∀ m, m < 2 ^ 53 → Nat.card {k // k < N ∧ nthDraw (Buf.nextDouble nx) k b = m} = C - if m = 0 then e else 0

/-- Along `N` successive 32-bit draws from `b` every value occurs `C` times, 0 `e` times less. -/
def HalvesOften {σ : Type} (nx : σ → U64 × σ) (b : Buf σ) (N C e : Nat) : Prop :=
  ∀ v : U32, Nat.card {k // k < N ∧ nthDraw (Buf.next32 nx) k b = v} = C - if v = 0 then e else 0

/-- The periods of the doubles drawn from `b`, from any draw on, are the multiples of `N`. -/
def DoublesPeriod {σ : Type} (nx : σ → U64 × σ) (b : Buf σ) (N : Nat) : Prop :=
  ∀ K n, TailPeriod (fun k => nthDraw (Buf.nextDouble nx) k b) K n ↔ N ∣ n

/-- The periods of the 32-bit draws from `b`, from any draw on, are the multiples of `N`. -/
def HalvesPeriod {σ : Type} (nx : σ → U64 × σ) (b : Buf σ) (N : Nat) : Prop :=
  ∀ K n, TailPeriod (fun k => nthDraw (Buf.next32 nx) k b) K n ↔ N ∣ n

section
variable {σ : Type} {nx : σ → U64 × σ} {b : Buf σ} {N C e : Nat} (he : e ≤ C)
  (hc : ∀ x, Nat.card {k // k < N ∧ nthDraw nx k b.core = x} = C - if x = 0 then e else 0)
include he hc

theorem doubles_of_counts : DoublesOften nx b N (C * 2 ^ 11) e := fun m hm => by
  have h := card_of_counts he (fun x : U64 => (x >>> 11).toNat = m) (fun x _ => hc x)
  rw [card_upper_bits 11 (by decide) m hm] at h
  simp only [Buf.nextDouble_nth]
  rw [h]
  congr 1
  have : ((0#64 >>> 11).toNat = m) ↔ m = 0 := by rw [show (0#64 >>> 11).toNat = 0 by decide]; exact eq_comm
  exact if_congr this rfl rfl

theorem halves_of_counts (hb : b.has = false) : HalvesOften nx b (2 * N) (C * 2 ^ 33) (2 * e) := fun v => by
  rw [half_counts (Buf.next32_nth_even nx b hb) (Buf.next32_nth_odd nx b hb),
    card_of_counts he (fun x : U64 => x.truncate 32 = v) (fun x _ => hc x), card_of_counts he (fun x : U64 => (x >>> 32).truncate 32 = v) (fun x _ => hc x),
    card_lo, card_hi]
  have h0 : (BitVec.truncate 32 (0 : U64) = v) ↔ v = 0 := by rw [show BitVec.truncate 32 (0 : U64) = 0#32 by decide]; exact eq_comm
  have h1 : (BitVec.truncate 32 ((0 : U64) >>> 32) = v) ↔ v = 0 := by rw [show BitVec.truncate 32 ((0 : U64) >>> 32) = 0#32 by decide]; exact eq_comm
  have e0 : (if BitVec.truncate 32 (0 : U64) = v then e else 0) = if v = 0 then e else 0 := if_congr h0 rfl rfl
  have e1 : (if BitVec.truncate 32 ((0 : U64) >>> 32) = v then e else 0) = if v = 0 then e else 0 := if_congr h1 rfl rfl
  have : C * 2 ^ 33 = C * 2 ^ 32 + C * 2 ^ 32 := by ring
  rw [e0, e1, this]
  have : e ≤ C * 2 ^ 32 := le_trans he (Nat.le_mul_of_pos_right _ (by decide))
  generalize C * 2 ^ 32 = D at this
  split <;> omega

end

/-- The doubles have the full period if one of them is missing once. -/
theorem doubles_period_of_counts {σ : Type} {nx : σ → U64 × σ} {b : Buf σ} {N C : Nat} (hN : 0 < N) (hC : 1 ≤ C)
    (hu : ∀ k, nthDraw nx (k + N) b.core = nthDraw nx k b.core) (h : DoublesOften nx b N C 1) : DoublesPeriod nx b N := fun K n =>
  output_period (u := fun k => nthDraw (Buf.nextDouble nx) k b) hN (fun k => by simp only [Buf.nextDouble_nth, hu]) (x := 0) (y := 1)
    (by rw [h 0 (by decide), h 1 (by decide), if_pos rfl, if_neg (by decide)]; omega) K n

theorem doubles_tail {σ : Type} (nx : σ → U64 × σ) (b : Buf σ) (K n : Nat) :
    TailPeriod (fun k => nthDraw (Buf.nextDouble nx) k b) K n ↔ TailPeriod (fun k => nthDraw nx k b.core >>> 11) K n := by
  simp only [TailPeriod, Buf.nextDouble_nth]
  exact forall₂_congr fun k _ => ⟨BitVec.eq_of_toNat_eq, fun h => by rw [h]⟩

theorem halves_period_of {σ : Type} {nx : σ → U64 × σ} {b : Buf σ} {N : Nat} (hb : b.has = false) (hN : 0 < N)
    (hu : ∀ K n, TailPeriod (fun k => nthDraw nx k b.core) K n ↔ N ∣ n)
    (hodd : N % 2 = 1 → ∃ k, (nthDraw nx k b.core).truncate 32 ≠ (nthDraw nx (k + N / 2) b.core >>> 32).truncate 32) : HalvesPeriod nx b (2 * N) :=
  half_period (Buf.next32_nth_even nx b hb) (Buf.next32_nth_odd nx b hb) hN hu hodd

/-- C94: with a cached half the first 32-bit draw is that half and the others are those from the same state without it. -/
theorem C94_cached {σ : Type} (nx : σ → U64 × σ) (b : Buf σ) (hb : b.has = true) :
    nthDraw (Buf.next32 nx) 0 b = b.uinteger ∧ ∀ k, nthDraw (Buf.next32 nx) (k + 1) b = nthDraw (Buf.next32 nx) k { b with has := false } := by
  have e : stepOf (Buf.next32 nx) b = { b with has := false } := by simp [stepOf, Buf.next32, hb]
  exact ⟨by simp [nthDraw, Buf.next32, hb], fun k => by rw [nthDraw, Function.iterate_succ_apply, e]; rfl⟩

namespace XorLinear

/-! ### Xoroshiro128 -/

theorem xoro_shift (pp : Bool) (s : S2) (hs : s ≠ 0) :
    ∃ k, (nthDraw (xoroNext pp) k s).truncate 32 ≠ (nthDraw (xoroNext pp) (k + (2 ^ 128 - 1) / 2) s >>> 32).truncate 32 := by
  cases pp
  · obtain ⟨k, h1, h2⟩ := half_shift (d := 128) (by decide) card_S2 xoroPlus_period hs (w := ⟨1, 2⟩) (by decide)
    refine ⟨k, ?_⟩
    rw [nthDraw, nthDraw, xoro_iter, xoro_iter]
    simp only [cond_false]
    rw [h1, h2, xoroPlus_half]
    decide +kernel
  · obtain ⟨k, h1, h2⟩ := half_shift (d := 128) (by decide) card_S2 xoroPP_period hs (w := ⟨1, 2⟩) (by decide)
    refine ⟨k, ?_⟩
    rw [nthDraw, nthDraw, xoro_iter, xoro_iter]
    simp only [cond_true]
    rw [h1, h2, xoroPP_half]
    decide +kernel

/-- C94: Xoroshiro128, of either variant, from every non-zero state. -/
theorem C94_xoroshiro128 (pp : Bool) (b : Buf S2) (hs : b.core ≠ ⟨0, 0⟩) :
    DoublesOften (xoroNext pp) b (2 ^ 128 - 1) (2 ^ 75) 1 ∧ DoublesPeriod (xoroNext pp) b (2 ^ 128 - 1) ∧
      (b.has = false → HalvesOften (xoroNext pp) b (2 * (2 ^ 128 - 1)) (2 ^ 97) 2 ∧ HalvesPeriod (xoroNext pp) b (2 * (2 ^ 128 - 1))) := by
  have hc := C78_xoroshiro128_counts pp b.core hs
  have hp := C78_xoroshiro128_period pp b.core hs
  have hd := doubles_of_counts (by decide) hc
  exact ⟨hd, doubles_period_of_counts (by decide) (by decide) (fun k => (hp 0 _).2 (dvd_refl _) k (Nat.zero_le _)) hd,
    fun hb => ⟨halves_of_counts (by decide) hc hb, halves_period_of hb (by decide) hp fun _ => xoro_shift pp _ hs⟩⟩

/-! ### Xoshiro256 -/

theorem xosh256_shift (s : S4) (hs : s ≠ 0) :
    ∃ k, (nthDraw xosh256Next k s).truncate 32 ≠ (nthDraw xosh256Next (k + (2 ^ 256 - 1) / 2) s >>> 32).truncate 32 := by
  obtain ⟨k, h1, h2⟩ := half_shift (d := 256) (by decide) card_S4 xosh256_period hs (w := ⟨1, 2, 3, 4⟩) (by decide)
  refine ⟨k, ?_⟩
  rw [xosh256_nth, xosh256_nth, h1, h2, xosh256_half]
  decide +kernel

/-- C94: Xoshiro256, from every non-zero state. -/
theorem C94_xoshiro256 (b : Buf S4) (hs : b.core ≠ ⟨0, 0, 0, 0⟩) :
    DoublesOften xosh256Next b (2 ^ 256 - 1) (2 ^ 203) 1 ∧ DoublesPeriod xosh256Next b (2 ^ 256 - 1) ∧
      (b.has = false → HalvesOften xosh256Next b (2 * (2 ^ 256 - 1)) (2 ^ 225) 2 ∧ HalvesPeriod xosh256Next b (2 * (2 ^ 256 - 1))) := by
  have hc := C78_xoshiro256_counts b.core hs
  have hp := C78_xoshiro256_period b.core hs
  have hd := doubles_of_counts (by decide) hc
  exact ⟨hd, doubles_period_of_counts (by decide) (by decide) (fun k => (hp 0 _).2 (dvd_refl _) k (Nat.zero_le _)) hd,
    fun hb => ⟨halves_of_counts (by decide) hc hb, halves_period_of hb (by decide) hp fun _ => xosh256_shift _ hs⟩⟩

/-! ### Xoshiro512 -/

theorem xosh512_shift (s : S8) (hs : s ≠ 0) :
    ∃ k, (nthDraw xosh512Next k s).truncate 32 ≠ (nthDraw xosh512Next (k + (2 ^ 512 - 1) / 2) s >>> 32).truncate 32 := by
  obtain ⟨k, h1, h2⟩ := half_shift (d := 512) (by decide) card_S8 xosh512_period hs (w := ⟨1, 2, 3, 4, 5, 6, 7, 8⟩) (by decide)
  refine ⟨k, ?_⟩
  rw [xosh512_nth, xosh512_nth, h1, h2, xosh512_half]
  decide +kernel

/-- C94: Xoshiro512, from every non-zero state. -/
theorem C94_xoshiro512 (b : Buf S8) (hs : b.core ≠ ⟨0, 0, 0, 0, 0, 0, 0, 0⟩) :
    DoublesOften xosh512Next b (2 ^ 512 - 1) (2 ^ 459) 1 ∧ DoublesPeriod xosh512Next b (2 ^ 512 - 1) ∧
      (b.has = false → HalvesOften xosh512Next b (2 * (2 ^ 512 - 1)) (2 ^ 481) 2 ∧ HalvesPeriod xosh512Next b (2 * (2 ^ 512 - 1))) := by
  have hc := C78_xoshiro512_counts b.core hs
  have hp := C78_xoshiro512_period b.core hs
  have hd := doubles_of_counts (by decide) hc
  exact ⟨hd, doubles_period_of_counts (by decide) (by decide) (fun k => (hp 0 _).2 (dvd_refl _) k (Nat.zero_le _)) hd,
    fun hb => ⟨halves_of_counts (by decide) hc hb, halves_period_of hb (by decide) hp fun _ => xosh512_shift _ hs⟩⟩

/-! ### Xorshift1024 -/

/-- Over `2^1024 - 1` draws of Xorshift1024 every value is output `2^960` times, 0 once less. -/
theorem C94_xorshift1024_counts (g : X16) (hg : ∃ j, g.s j ≠ 0) (x : U64) :
    Nat.card {k // k < 2 ^ 1024 - 1 ∧ nthDraw xors1024Next k g = x} = 2 ^ 960 - if x = 0 then 1 else 0 := by
  classical
  have hc : ∀ w : Fin 16 → U64, Nat.card {k // k < 2 ^ 1024 - 1 ∧ (fun i : Fin 16 => nthDraw xors1024Next (k + i) g) = w} =
      1 - if w = (fun _ => 0) then 1 else 0 := fun w => by
    by_cases hw : w = fun _ => 0
    · rw [if_pos hw, Nat.sub_self, hw]
      have : IsEmpty {k // k < 2 ^ 1024 - 1 ∧ (fun i : Fin 16 => nthDraw xors1024Next (k + i) g) = fun _ => 0} := ⟨fun k => by
        obtain ⟨i, hi⟩ := C78_xorshift1024_zero_window g hg k.val
        exact hi (congrFun k.prop.2 i)⟩
      exact Nat.card_of_isEmpty
    · rw [if_neg hw]
      obtain ⟨k, hk, hu⟩ := C78_xorshift1024_windows g hg w hw
      have : Unique {k // k < 2 ^ 1024 - 1 ∧ (fun i : Fin 16 => nthDraw xors1024Next (k + i) g) = w} :=
        ⟨⟨⟨k, hk.1, funext hk.2⟩⟩, fun j => Subtype.ext (hu j.val ⟨j.prop.1, fun i => congrFun j.prop.2 i⟩)⟩
      exact Nat.card_unique
  have h := card_of_counts (le_refl 1) (fun w : Fin 16 → U64 => w 0 = x) (fun w _ => hc w)
  have h1 : Nat.card {y : U64 // y = x} = 1 := Nat.card_unique
  rw [card_first 15 (fun y => y = x), h1, card_bitVec, Nat.one_mul, Nat.one_mul, ← pow_mul] at h
  refine Eq.trans ?_ (h.trans ?_)
  · rfl
  · congr 1
    exact if_congr eq_comm rfl rfl

theorem mul_odd_bit0 (x m : U64) (hm : m.toNat % 2 = 1) : (x * m).getLsbD 0 = x.getLsbD 0 := by
  rw [← BitVec.testBit_toNat, ← BitVec.testBit_toNat, BitVec.toNat_mul, Nat.testBit_zero, Nat.testBit_zero, Nat.mod_mod_of_dvd _ (by decide), Nat.mul_mod, hm,
    Nat.mul_one, Nat.mod_mod]

theorem xors_shift (g : X16) (hg : ∃ j, g.s j ≠ 0) :
    ∃ k, (nthDraw xors1024Next k g).truncate 32 ≠ (nthDraw xors1024Next (k + (2 ^ 1024 - 1) / 2) g >>> 32).truncate 32 := by
  by_contra hk
  simp only [not_exists, not_not] at hk
  have key : ∀ w, ((xorsEnd (xorsEnd w)).f 0).getLsbD 0 = ((xorsEnd (xorsEnd^[2 ^ 1023] w)).f 0 * 0x9e3779b97f4a7c13).getLsbD 32 := fun w => by
    by_cases hw : w = 0
    · rw [hw, iterate_map_zero, map_zero, map_zero]; decide
    · obtain ⟨k, h1, h2⟩ := half_shift (d := 1024) (by decide) card_N16 xors1024_period (norm_ne_zero hg) hw
      rw [show 1024 - 1 = 1023 from rfl] at h2
      have h := congrArg (fun x => x.getLsbD 0) (hk k)
      rw [xors_nth, xors_nth, h1, h2] at h
      simp only [BitVec.truncate_eq_setWidth, BitVec.getLsbD_setWidth, BitVec.getLsbD_ushiftRight, Nat.zero_lt_succ, decide_true, Bool.true_and] at h
      rw [← h]
      exact (mul_odd_bit0 _ _ (by decide)).symm
  have sur : ∀ X : U64, ∃ w, (xorsEnd (xorsEnd^[2 ^ 1023] w)).f 0 = X := fun X => by
    have hT : Function.Surjective xorsEnd := surjective_of_ann N16.add_self xorsEnd xors1024Poly (by decide +kernel) xors1024_ann
    obtain ⟨w, hw⟩ := (hT.comp (hT.iterate (2 ^ 1023))) ⟨fun _ => X⟩
    rw [Function.comp_apply] at hw
    exact ⟨w, by rw [hw]⟩
  obtain ⟨a, ha⟩ := sur 1
  obtain ⟨b, hb⟩ := sur 2
  have hab := key (a + b)
  rw [iterate_add, map_add, map_add, map_add, N16.add_f, N16.add_f, BitVec.getLsbD_xor, key a, key b, ha, hb] at hab
  exact absurd hab (by decide)

/-- C94: Xorshift1024, from every state that is not zero. -/
theorem C94_xorshift1024 (b : Buf X16) (hs : ∃ j, b.core.s j ≠ 0) :
    DoublesOften xors1024Next b (2 ^ 1024 - 1) (2 ^ 971) 1 ∧ DoublesPeriod xors1024Next b (2 ^ 1024 - 1) ∧
      (b.has = false → HalvesOften xors1024Next b (2 * (2 ^ 1024 - 1)) (2 ^ 993) 2 ∧ HalvesPeriod xors1024Next b (2 * (2 ^ 1024 - 1))) := by
  have hc := C94_xorshift1024_counts b.core hs
  have hp := C78_xorshift1024_period b.core hs
  have hd := doubles_of_counts (by decide) hc
  exact ⟨hd, doubles_period_of_counts (by decide) (by decide) (fun k => (hp 0 _).2 (dvd_refl _) k (Nat.zero_le _)) hd,
    fun hb => ⟨halves_of_counts (by decide) hc hb, halves_period_of hb (by decide) hp fun _ => xors_shift _ hs⟩⟩

/-! ### LXM -/

/-- The doubles of LXM tell apart words that differ in the top bit. -/
theorem lxm_top : murmurHash3 0x8000000000000000#64 >>> 11 ≠ murmurHash3 0#64 >>> 11 := by decide

theorem lxm_doubles_period (g : Lxm) (hg : g.x ≠ ⟨0, 0, 0, 0⟩) (hb : g.b.toNat % 2 = 1) (K n : Nat) :
    TailPeriod (fun k => nthDraw lxmNext k g >>> 11) K n ↔ (2 ^ 256 - 1) * 2 ^ 64 ∣ n := by
  have hN : ∀ k, nthDraw lxmNext (k + (2 ^ 256 - 1) * 2 ^ 64) g >>> 11 = nthDraw lxmNext k g >>> 11 := fun k => by
    rw [nthDraw, Function.iterate_add_apply, (C32_lxm_period g hg hb _).2 (dvd_refl _)]; rfl
  constructor
  · intro h
    have hp := gcd_period (u := fun k => nthDraw lxmNext k g >>> 11) (by decide) hN h
    have hd := Nat.gcd_dvd_right n ((2 ^ 256 - 1) * 2 ^ 64)
    refine Dvd.dvd.trans ?_ (Nat.gcd_dvd_left n ((2 ^ 256 - 1) * 2 ^ 64))
    generalize Nat.gcd n ((2 ^ 256 - 1) * 2 ^ 64) = m at hp hd
    have hm : ∀ c k, nthDraw lxmNext (k + m * c) g >>> 11 = nthDraw lxmNext k g >>> 11 := fun c k => by
      induction c with
      | zero => rfl
      | succ c ih => rw [Nat.mul_succ, ← Nat.add_assoc]; exact (hp _).trans ih
    -- every pair of a non-zero xorshift state and a congruential state is met
    have hall : ∀ (x : S4) (l : U64), x ≠ 0 → ∃ k, xosh256Step^[k] g.x = x ∧ (lcgStep g.b)^[k] g.lcg = l := fun x l hx => by
      obtain ⟨k, _, hk⟩ := orbit_bij (f := stepOf lxmNext) (by decide) (card_lxmStates g.b)
        (fun s hs => ⟨ne_zero_of_period (by decide) xosh256_period hs.1, hs.2⟩) (v := g) ⟨hg, rfl⟩ (C32_lxm_period g hg hb) ⟨x, l, g.b⟩ ⟨hx, rfl⟩
      rw [lxm_iterate, Lxm.mk.injEq] at hk
      exact ⟨k, hk.1, hk.2.1⟩
    have hst : ∀ k, nthDraw lxmNext k g = murmurHash3 ((xosh256Step^[k] g.x).s0 + (lcgStep g.b)^[k] g.lcg) := fun k => by
      rw [nthDraw, lxm_iterate]; rfl
    have h64 : 2 ^ 64 ∣ m := by
      by_contra hn64
      -- then half the period of the congruential part would be a period
      have hdv : m ∣ 2 ^ 63 * (2 ^ 256 - 1) := by
        obtain ⟨a, b, ha, hb', rfl⟩ := (Nat.dvd_mul).1 hd
        obtain ⟨j, hj, rfl⟩ := (Nat.dvd_prime_pow Nat.prime_two).1 hb'
        have : j ≤ 63 := by
          by_contra hj'
          exact hn64 (Dvd.dvd.mul_left (pow_dvd_pow 2 (by omega)) a)
        rw [Nat.mul_comm a]
        exact Nat.mul_dvd_mul (pow_dvd_pow 2 this) ha
      obtain ⟨c, hc⟩ := hdv
      obtain ⟨k, hk1, hk2⟩ := hall ⟨0, 0, 0, 1⟩ 0 (by decide)
      have h1 := hm c k
      rw [← hc, hst, hst, Nat.add_comm, Function.iterate_add_apply, Function.iterate_add_apply (lcgStep g.b), hk1, hk2] at h1
      have e1 : xosh256Step^[2 ^ 63 * (2 ^ 256 - 1)] (⟨0, 0, 0, 1⟩ : S4) = ⟨0, 0, 0, 1⟩ :=
        (xosh256_period _ (by decide) _).2 (Nat.dvd_mul_left _ _)
      have e2 : (lcgStep g.b)^[2 ^ 63 * (2 ^ 256 - 1)] 0 = 0x8000000000000000#64 := by
        rw [show 2 ^ 63 * (2 ^ 256 - 1) = 2 ^ 63 + 2 ^ 64 * (2 ^ 255 - 1) by norm_num, Function.iterate_add_apply,
          (C07_lxm_lcg_full_period g.b 0 hb _).2 (Nat.dvd_mul_right _ _), lcgStep_eq]
        exact BitVec.eq_of_toNat_eq (Pcg.lcg_half (by decide) lcgMult g.b (by decide) hb)
      rw [e1, e2] at h1
      exact lxm_top h1
    refine Nat.Coprime.mul_dvd_of_dvd_of_dvd coprime_periods ?_ h64
    -- the lower part is a period of the words of the xorshift part
    rw [← window_period xosh256_period (by decide) hg (o := S4.s0) (m := 4) (injective_of_kernel (g := fun i s => (xosh256End^[i.val] s).s0)
      (fun i x y => by rw [iterate_add]; rfl) S4.add_self xosh256_window0 (c := id) fun _ _ h => h) 0 m]
    intro k _
    by_contra hne
    -- two words that differ give the same double with every addend: then the doubles repeat with their difference
    have hD : ∀ l : U64, murmurHash3 ((xosh256End^[k + m] g.x).s0 + l) >>> 11 = murmurHash3 ((xosh256End^[k] g.x).s0 + l) >>> 11 := fun l => by
      obtain ⟨j, hj1, hj2⟩ := hall (xosh256Step^[k] g.x) l (iterate_ne_zero (by decide) xosh256_period hg k)
      have h1 := hp j
      rw [hst, hst, Function.iterate_add_apply (lcgStep g.b), (C07_lxm_lcg_full_period g.b g.lcg hb m).2 h64, hj2, hj1, Nat.add_comm j,
        Function.iterate_add_apply, hj1, ← Function.iterate_add_apply, Nat.add_comm m] at h1
      exact h1
    generalize (xosh256End^[k + m] g.x).s0 = a at hD hne
    generalize (xosh256End^[k] g.x).s0 = b at hD hne
    have hs : ∀ (c : Nat) (y : U64), murmurHash3 (y + BitVec.ofNat 64 c * (a - b)) >>> 11 = murmurHash3 y >>> 11 := fun c y => by
      induction c generalizing y with
      | zero => rw [show BitVec.ofNat 64 0 = 0 from rfl, zero_mul, add_zero]
      | succ c ih =>
        rw [BitVec.ofNat_add, add_mul, show BitVec.ofNat 64 1 = 1 from rfl, one_mul, ← add_assoc, ← ih y]
        have := hD (y + BitVec.ofNat 64 c * (a - b) - b)
        rw [show a + (y + BitVec.ofNat 64 c * (a - b) - b) = y + BitVec.ofNat 64 c * (a - b) + (a - b) by abel,
          show b + (y + BitVec.ofNat 64 c * (a - b) - b) = y + BitVec.ofNat 64 c * (a - b) by abel] at this
        exact this
    -- some multiple of the difference is the top bit
    have htop : ∃ c : Nat, BitVec.ofNat 64 c * (a - b) = 0x8000000000000000#64 := by
      have hab : (a - b).toNat ≠ 0 := fun h => hne (sub_eq_zero.1 (BitVec.eq_of_toNat_eq h))
      obtain ⟨j, q, hq, hjq⟩ := Nat.exists_eq_two_pow_mul_odd hab
      have hlt := (a - b).isLt
      have hj : j ≤ 63 := by
        by_contra hj
        have h1 : 2 ^ 64 ≤ 2 ^ j := Nat.pow_le_pow_right (by decide) (by omega)
        have h2 : 2 ^ j ≤ 2 ^ j * q := Nat.le_mul_of_pos_right _ hq.pos
        omega
      refine ⟨2 ^ (63 - j), BitVec.eq_of_toNat_eq ?_⟩
      rw [BitVec.toNat_mul, BitVec.toNat_ofNat, Nat.mod_mul_mod, hjq, ← Nat.mul_assoc, ← pow_add, Nat.sub_add_cancel hj]
      have := Nat.odd_iff.1 hq
      rw [show (0x8000000000000000#64).toNat = 2 ^ 63 by decide]
      omega
    obtain ⟨c, hc⟩ := htop
    have := hs c 0
    rw [hc] at this
    exact lxm_top this
  · rintro ⟨m, rfl⟩ k _
    induction m with
    | zero => simp
    | succ m ih => rw [Nat.mul_succ, ← Nat.add_assoc]; exact (hN _).trans ih

/-- C94: LXM, from every state with an odd addend and a xorshift part that is not zero: 0 is no exception here. -/
theorem C94_lxm (b : Buf Lxm) (hg : b.core.x ≠ ⟨0, 0, 0, 0⟩) (hb : b.core.b.toNat % 2 = 1) :
    DoublesOften lxmNext b ((2 ^ 256 - 1) * 2 ^ 64) ((2 ^ 256 - 1) * 2 ^ 11) 0 ∧ DoublesPeriod lxmNext b ((2 ^ 256 - 1) * 2 ^ 64) ∧
      (b.has = false → HalvesOften lxmNext b (2 * ((2 ^ 256 - 1) * 2 ^ 64)) ((2 ^ 256 - 1) * 2 ^ 33) 0 ∧
        HalvesPeriod lxmNext b (2 * ((2 ^ 256 - 1) * 2 ^ 64))) := by
  have hc : ∀ x, Nat.card {k // k < (2 ^ 256 - 1) * 2 ^ 64 ∧ nthDraw lxmNext k b.core = x} = 2 ^ 256 - 1 - if x = 0 then 0 else 0 := fun x => by
    rw [C78_lxm_counts b.core hg hb, ite_self, Nat.sub_zero]
  refine ⟨doubles_of_counts (by decide) hc, fun K n => ?_, fun hf => ⟨halves_of_counts (by decide) hc hf,
    halves_period_of hf (by decide) (C78_lxm_period b.core hg hb) fun h => absurd h (by decide)⟩⟩
  rw [← lxm_doubles_period b.core hg hb K n]
  exact doubles_tail _ b K n

end XorLinear

end Verif
