import Verif.Proof.Equidist
import Verif.Props.XorLinear
import Verif.Props.Lcg

set_option exponentiation.threshold 2000

/-! C78: the exact periods of the outputs of the xor-linear generators and how often every value, or every window of
values, occurs in one period. -/

namespace Verif.XorLinear
open Verif.Linear Verif.GF2 Verif.Orbit

/-! ### Scramblers -/

theorem starstar_inj : Function.Injective fun x : U64 => rotl64 (x * 5) 7 * 9 := fun _ _ h =>
  mul_odd_inj' _ (by decide) (rotl64_inj (by decide) (mul_odd_inj' _ (by decide) h))

theorem murmurHash3_inj : Function.Injective murmurHash3 := fun _ _ h =>
  xorshr_inj (by decide) (mul_odd_inj' _ (by decide) (xorshr_inj (by decide) (mul_odd_inj' _ (by decide) (xorshr_inj (by decide) h))))

/-! ### Xoroshiro128 -/

theorem xoro_iter (pp : Bool) (s : S2) (k : Nat) : (stepOf (xoroNext pp))^[k] s = (bif pp then xoroPPEnd else xoroPlusEnd : AddMonoid.End S2)^[k] s := by
  cases pp
  · rw [xoroNext, if_neg (by decide), show stepOf xoroPlusNext = xoroPlusEnd from funext xoroPlus_end_eq]; rfl
  · rw [xoroNext, if_pos rfl, show stepOf xoroPPNext = xoroPPEnd from funext xoroPP_end_eq]; rfl

theorem xoro_fiber (pp : Bool) (x : U64) : Nat.card {s : S2 // (xoroNext pp s).1 = x} = 2 ^ 64 := by
  rw [fiber_card (W := U64) (β := U64) ⟨fun s => (s.s0, s.s1), fun p => ⟨p.1, p.2⟩, fun _ => rfl, fun _ => rfl⟩ (fun s => (xoroNext pp s).1) ?_ x, card_bitVec]
  intro w
  refine bijective_of_card (card_bitVec 64) (card_bitVec 64) fun a b h => ?_
  cases pp
  · exact add_left_cancel (a := w) h
  · exact add_left_cancel (a := w) (rotl64_inj (k := 17) (by decide) (add_right_cancel (b := w) h))

/-- C78: over one period every value is output `2^64` times by Xoroshiro128, of either variant, 0 once less. -/
theorem C78_xoroshiro128_counts (pp : Bool) (s : S2) (hs : s ≠ ⟨0, 0⟩) (x : U64) :
    Nat.card {k // k < 2 ^ 128 - 1 ∧ nthDraw (xoroNext pp) k s = x} = 2 ^ 64 - if x = 0 then 1 else 0 := by
  have h := count_of_period (T := bif pp then xoroPPEnd else xoroPlusEnd) (d := 128) (by decide) card_S2
    (fun v hv n => by cases pp; exacts [xoroPlus_period v hv n, xoroPP_period v hv n]) (v := s) hs (fun s => (xoroNext pp s).1 = x)
  rw [xoro_fiber] at h
  have e : ((xoroNext pp 0).1 = x) ↔ x = 0 := by
    rw [show (xoroNext pp 0).1 = 0 by cases pp <;> decide]; exact eq_comm
  simp only [e] at h
  rw [← h]
  simp only [nthDraw, xoro_iter]

/-- C78: `n` is a period of the outputs of Xoroshiro128, from any term on, exactly if `2^128 - 1` divides it. -/
theorem C78_xoroshiro128_period (pp : Bool) (s : S2) (hs : s ≠ ⟨0, 0⟩) (K n : Nat) :
    TailPeriod (fun k => nthDraw (xoroNext pp) k s) K n ↔ 2 ^ 128 - 1 ∣ n := by
  refine output_period (u := fun k => nthDraw (xoroNext pp) k s) (N := 2 ^ 128 - 1) (by decide) (fun k => ?_) (x := 0) (y := 1) ?_ K n
  · show (xoroNext pp _).1 = (xoroNext pp _).1
    rw [Function.iterate_add_apply, (C32_xoroshiro128_period pp s hs _).2 (dvd_refl _)]
  · rw [C78_xoroshiro128_counts pp s hs, C78_xoroshiro128_counts pp s hs]
    decide

/-! ### Xoshiro256 -/

theorem xosh256_nth (s : S4) (k : Nat) : nthDraw xosh256Next k s = rotl64 ((xosh256End^[k] s).s1 * 5) 7 * 9 := rfl

theorem xosh256_inj : Function.Injective fun (s : S4) (i : Fin 4) => rotl64 ((xosh256End^[i.val] s).s1 * 5) 7 * 9 :=
  injective_of_kernel (g := fun i s => (xosh256End^[i.val] s).s1) (fun i x y => by rw [iterate_add]; rfl) S4.add_self xosh256_window starstar_inj

/-- C78: over one period of Xoshiro256 every window of four successive outputs but `(0, 0, 0, 0)` occurs exactly once. -/
theorem C78_xoshiro256_windows (s : S4) (hs : s ≠ ⟨0, 0, 0, 0⟩) (w : Fin 4 → U64) (hw : w ≠ fun _ => 0) :
    ∃! k, k < 2 ^ 256 - 1 ∧ ∀ i : Fin 4, nthDraw xosh256Next (k + i) s = w i := by
  have := window_unique (by decide) card_S4 xosh256_period hs (bijective_of_card card_S4 (card_words 4) xosh256_inj) w
    (fun h => hw (by rw [h]; funext i; simp only [iterate_map_zero]; rfl))
  simpa only [funext_iff, xosh256_nth, ← Function.iterate_add_apply, Nat.add_comm] using this

/-- … and `(0, 0, 0, 0)` never. -/
theorem C78_xoshiro256_zero_window (s : S4) (hs : s ≠ ⟨0, 0, 0, 0⟩) (k : Nat) : ∃ i : Fin 4, nthDraw xosh256Next (k + i) s ≠ 0 := by
  by_contra h
  simp only [not_exists, not_not] at h
  refine iterate_ne_zero (by decide) xosh256_period hs k (xosh256_inj (funext fun i => ?_))
  show rotl64 _ 7 * 9 = rotl64 _ 7 * 9
  rw [← Function.iterate_add_apply, Nat.add_comm, ← xosh256_nth, h i, iterate_map_zero]
  rfl

theorem C78_xoshiro256_period (s : S4) (hs : s ≠ ⟨0, 0, 0, 0⟩) (K n : Nat) :
    TailPeriod (fun k => nthDraw xosh256Next k s) K n ↔ 2 ^ 256 - 1 ∣ n :=
  window_period xosh256_period (by decide) hs (o := fun s => rotl64 (s.s1 * 5) 7 * 9) xosh256_inj K n

theorem xosh256_fiber (x : U64) : Nat.card {s : S4 // (xosh256Next s).1 = x} = 2 ^ 192 := by
  rw [fiber_card (W := U64 × U64 × U64) (β := U64) ⟨fun s => ((s.s0, s.s2, s.s3), s.s1), fun p => ⟨p.1.1, p.2, p.1.2.1, p.1.2.2⟩, fun _ => rfl, fun _ => rfl⟩
    (fun s => (xosh256Next s).1) ?_ x, Nat.card_prod, Nat.card_prod, card_bitVec]
  · norm_num
  · exact fun w => bijective_of_card (card_bitVec 64) (card_bitVec 64) fun a b h => starstar_inj h

/-- C78: over one period every value is output `2^192` times, 0 once less. -/
theorem C78_xoshiro256_counts (s : S4) (hs : s ≠ ⟨0, 0, 0, 0⟩) (x : U64) :
    Nat.card {k // k < 2 ^ 256 - 1 ∧ nthDraw xosh256Next k s = x} = 2 ^ 192 - if x = 0 then 1 else 0 := by
  have h := count_of_period (T := xosh256End) (d := 256) (by decide) card_S4 xosh256_period (v := s) hs (fun s => (xosh256Next s).1 = x)
  rw [xosh256_fiber] at h
  have e : ((xosh256Next 0).1 = x) ↔ x = 0 := by rw [show (xosh256Next 0).1 = 0 by decide]; exact eq_comm
  have hn : ∀ k, (xosh256Next (xosh256End^[k] s)).1 = nthDraw xosh256Next k s := fun _ => rfl
  simp only [e, hn] at h
  exact h

/-! ### Xoshiro512 -/

theorem xosh512_nth (s : S8) (k : Nat) : nthDraw xosh512Next k s = rotl64 ((xosh512End^[k] s).s1 * 5) 7 * 9 := rfl

theorem xosh512_inj : Function.Injective fun (s : S8) (i : Fin 8) => rotl64 ((xosh512End^[i.val] s).s1 * 5) 7 * 9 :=
  injective_of_kernel (g := fun i s => (xosh512End^[i.val] s).s1) (fun i x y => by rw [iterate_add]; rfl) S8.add_self xosh512_window starstar_inj

/-- C78: from every non-zero state of Xoshiro512, the state after `n` draws is the starting state exactly if `2^512 - 1` divides `n`. -/
theorem C78_xoshiro512_state_period (s : S8) (hs : s ≠ ⟨0, 0, 0, 0, 0, 0, 0, 0⟩) (n : Nat) : (stepOf xosh512Next)^[n] s = s ↔ 2 ^ 512 - 1 ∣ n :=
  xosh512_period s hs n

/-- C78: over one period of Xoshiro512 every window of eight successive outputs but the zero window occurs exactly once. -/
theorem C78_xoshiro512_windows (s : S8) (hs : s ≠ ⟨0, 0, 0, 0, 0, 0, 0, 0⟩) (w : Fin 8 → U64) (hw : w ≠ fun _ => 0) :
    ∃! k, k < 2 ^ 512 - 1 ∧ ∀ i : Fin 8, nthDraw xosh512Next (k + i) s = w i := by
  have := window_unique (by decide) card_S8 xosh512_period hs (bijective_of_card card_S8 (card_words 8) xosh512_inj) w
    (fun h => hw (by rw [h]; funext i; simp only [iterate_map_zero]; rfl))
  simpa only [funext_iff, xosh512_nth, ← Function.iterate_add_apply, Nat.add_comm] using this

theorem C78_xoshiro512_zero_window (s : S8) (hs : s ≠ ⟨0, 0, 0, 0, 0, 0, 0, 0⟩) (k : Nat) : ∃ i : Fin 8, nthDraw xosh512Next (k + i) s ≠ 0 := by
  by_contra h
  simp only [not_exists, not_not] at h
  refine iterate_ne_zero (by decide) xosh512_period hs k (xosh512_inj (funext fun i => ?_))
  show rotl64 _ 7 * 9 = rotl64 _ 7 * 9
  rw [← Function.iterate_add_apply, Nat.add_comm, ← xosh512_nth, h i, iterate_map_zero]
  rfl

theorem C78_xoshiro512_period (s : S8) (hs : s ≠ ⟨0, 0, 0, 0, 0, 0, 0, 0⟩) (K n : Nat) :
    TailPeriod (fun k => nthDraw xosh512Next k s) K n ↔ 2 ^ 512 - 1 ∣ n :=
  window_period xosh512_period (by decide) hs (o := fun s => rotl64 (s.s1 * 5) 7 * 9) xosh512_inj K n

theorem xosh512_fiber (x : U64) : Nat.card {s : S8 // (xosh512Next s).1 = x} = 2 ^ 448 := by
  rw [fiber_card (W := U64 × U64 × U64 × U64 × U64 × U64 × U64) (β := U64) ⟨fun s => ((s.s0, s.s2, s.s3, s.s4, s.s5, s.s6, s.s7), s.s1),
    fun p => ⟨p.1.1, p.2, p.1.2.1, p.1.2.2.1, p.1.2.2.2.1, p.1.2.2.2.2.1, p.1.2.2.2.2.2.1, p.1.2.2.2.2.2.2⟩, fun _ => rfl, fun _ => rfl⟩
    (fun s => (xosh512Next s).1) ?_ x]
  · simp only [Nat.card_prod, card_bitVec, ← pow_add]
  · exact fun w => bijective_of_card (card_bitVec 64) (card_bitVec 64) fun a b h => starstar_inj h

/-- C78: over one period every value is output `2^448` times, 0 once less. -/
theorem C78_xoshiro512_counts (s : S8) (hs : s ≠ ⟨0, 0, 0, 0, 0, 0, 0, 0⟩) (x : U64) :
    Nat.card {k // k < 2 ^ 512 - 1 ∧ nthDraw xosh512Next k s = x} = 2 ^ 448 - if x = 0 then 1 else 0 := by
  have h := count_of_period (T := xosh512End) (d := 512) (by decide) card_S8 xosh512_period (v := s) hs (fun s => (xosh512Next s).1 = x)
  rw [xosh512_fiber] at h
  have e : ((xosh512Next 0).1 = x) ↔ x = 0 := by rw [show (xosh512Next 0).1 = 0 by decide]; exact eq_comm
  have hn : ∀ k, (xosh512Next (xosh512End^[k] s)).1 = nthDraw xosh512Next k s := fun _ => rfl
  simp only [e, hn] at h
  exact h

/-! ### Xorshift1024 -/

theorem norm_iter (g : X16) (k : Nat) : norm ((stepOf xors1024Next)^[k] g) = xorsEnd^[k] (norm g) := by
  induction k with
  | zero => rfl
  | succ k ih => rw [Function.iterate_succ_apply', norm_step, ih, Function.iterate_succ_apply']; rfl

theorem norm_ne_zero {g : X16} (h : ∃ j, g.s j ≠ 0) : norm g ≠ 0 := by
  obtain ⟨j, hj⟩ := h
  intro h0
  apply hj
  have := congrArg (fun u => u.f (j - g.p)) h0
  simp only [norm, sub_add_cancel, N16.zero_f] at this
  exact this

theorem xors_pos (g : X16) (k : Nat) : ((stepOf xors1024Next)^[k] g).p = g.p + Fin.ofNat 16 k := by
  induction k with
  | zero => rw [show Fin.ofNat 16 0 = 0 from rfl, add_zero]; rfl
  | succ k ih =>
    rw [Function.iterate_succ_apply', xors1024_step]
    show _ + 1 = _
    rw [ih, add_assoc]
    congr 1
    apply Fin.ext
    simp only [Fin.ofNat, Fin.val_add, Fin.val_one]
    omega

theorem norm_eq {a b : X16} (h : norm a = norm b) (hp : a.p = b.p) : a = b := by
  obtain ⟨s, p⟩ := a
  obtain ⟨s', p'⟩ := b
  simp only at hp
  subst hp
  congr
  funext j
  have := congrArg (fun u => u.f (j - p)) h
  simpa only [norm, sub_add_cancel] using this

/-- C78: the state of Xorshift1024, which includes the position, returns after `n` draws exactly if `16 (2^1024 - 1)` divides `n`. -/
theorem C78_xorshift1024_state_period (g : X16) (hg : ∃ j, g.s j ≠ 0) (n : Nat) :
    (stepOf xors1024Next)^[n] g = g ↔ 16 * (2 ^ 1024 - 1) ∣ n := by
  have h1 := xors1024_period (norm g) (norm_ne_zero hg) n
  have h2 : g.p + Fin.ofNat 16 n = g.p ↔ 16 ∣ n := by
    rw [add_eq_left, Fin.ext_iff]
    simp only [Fin.ofNat, Fin.val_zero]
    omega
  have hc : Nat.Coprime 16 (2 ^ 1024 - 1) := by
    rw [show 16 = 2 ^ 4 from rfl]
    apply Nat.Coprime.pow_left
    rw [Nat.coprime_two_left]
    exact Nat.Even.sub_odd (Nat.two_pow_pos _) (Nat.even_pow.2 ⟨even_two, by decide⟩) odd_one
  constructor
  · intro h
    refine Nat.Coprime.mul_dvd_of_dvd_of_dvd hc (h2.1 ?_) (h1.1 ?_)
    · rw [← xors_pos, h]
    · rw [← norm_iter, h]
  · intro h
    refine norm_eq ?_ ?_
    · rw [norm_iter]; exact h1.2 (Dvd.dvd.trans (Nat.dvd_mul_left _ _) h)
    · rw [xors_pos]; exact h2.2 (Dvd.dvd.trans (Nat.dvd_mul_right _ _) h)

theorem xors_nth (g : X16) (k : Nat) : nthDraw xors1024Next k g = (xorsEnd (xorsEnd^[k] (norm g))).f 0 * 0x9e3779b97f4a7c13 := by
  rw [← norm_iter]
  show _ = (xorsStep _).f 0 * _
  rw [← norm_step, xors1024_step]
  show xorsNew _ _ * _ = setWord _ _ _ _ * _
  rw [setWord, zero_add, if_pos rfl]

theorem xors_inj : Function.Injective fun (u : N16) (i : Fin 16) => (xorsEnd (xorsEnd^[i.val] u)).f 0 * 0x9e3779b97f4a7c13 := by
  refine injective_of_kernel (g := fun i u => (xorsEnd (xorsEnd^[i.val] u)).f 0) (fun i x y => by rw [iterate_add, map_add]; rfl) N16.add_self ?_
    fun _ _ h => mul_odd_inj' _ (by decide) h
  intro u h
  by_contra hu
  refine iterate_ne_zero (by decide) xors1024_period hu 16 (N16.ext' fun j => ?_)
  rw [← sub_add_cancel j 1, ← xors1024_words, Function.iterate_succ_apply']
  exact h _

/-- C78: over `2^1024 - 1` draws of Xorshift1024 every window of sixteen successive outputs but the zero window occurs exactly once. -/
theorem C78_xorshift1024_windows (g : X16) (hg : ∃ j, g.s j ≠ 0) (w : Fin 16 → U64) (hw : w ≠ fun _ => 0) :
    ∃! k, k < 2 ^ 1024 - 1 ∧ ∀ i : Fin 16, nthDraw xors1024Next (k + i) g = w i := by
  have := window_unique (by decide) card_N16 xors1024_period (norm_ne_zero hg) (bijective_of_card card_N16 (card_words 16) xors_inj) w
    (fun h => hw (by rw [h]; funext i; simp only [iterate_map_zero, map_zero]; rfl))
  simpa only [funext_iff, xors_nth, ← Function.iterate_add_apply, Nat.add_comm] using this

theorem C78_xorshift1024_zero_window (g : X16) (hg : ∃ j, g.s j ≠ 0) (k : Nat) : ∃ i : Fin 16, nthDraw xors1024Next (k + i) g ≠ 0 := by
  by_contra h
  simp only [not_exists, not_not] at h
  refine iterate_ne_zero (by decide) xors1024_period (norm_ne_zero hg) k (xors_inj (funext fun i => ?_))
  show (xorsEnd _).f 0 * _ = (xorsEnd _).f 0 * _
  rw [← Function.iterate_add_apply, Nat.add_comm, ← xors_nth, h i, iterate_map_zero, map_zero]
  rfl

/-- C78: `n` is a period of the outputs exactly if `2^1024 - 1` divides it: a sixteenth of the period of the state. -/
theorem C78_xorshift1024_period (g : X16) (hg : ∃ j, g.s j ≠ 0) (K n : Nat) :
    TailPeriod (fun k => nthDraw xors1024Next k g) K n ↔ 2 ^ 1024 - 1 ∣ n := by
  rw [← window_period xors1024_period (by decide) (norm_ne_zero hg) (o := fun u => (xorsEnd u).f 0 * 0x9e3779b97f4a7c13) xors_inj K n]
  simp only [TailPeriod, xors_nth]

/-! ### LXM -/

/-- The states an LXM generator with the increment `b` can be in. -/
def lxmStates (b : U64) : Set Lxm := {g | g.x ≠ 0 ∧ g.b = b}

def lxmEquiv (b : U64) : lxmStates b ≃ {s : S4 // s ≠ 0} × U64 where
  toFun g := (⟨g.val.x, g.prop.1⟩, g.val.lcg)
  invFun p := ⟨⟨p.1.val, p.2, b⟩, p.1.prop, rfl⟩
  left_inv := by rintro ⟨⟨x, l, b'⟩, h1, h2⟩; cases h2; rfl
  right_inv _ := rfl

theorem card_lxmStates (b : U64) : Nat.card (lxmStates b) = (2 ^ 256 - 1) * 2 ^ 64 := by
  rw [Nat.card_congr (lxmEquiv b), Nat.card_prod, card_bitVec, show Nat.card {s : S4 // s ≠ 0} = _ from card_nonzero card_S4]

/-- C78: over one period of LXM every value is output exactly `2^256 - 1` times. -/
theorem C78_lxm_counts (g : Lxm) (hg : g.x ≠ ⟨0, 0, 0, 0⟩) (hb : g.b.toNat % 2 = 1) (x : U64) :
    Nat.card {k // k < (2 ^ 256 - 1) * 2 ^ 64 ∧ nthDraw lxmNext k g = x} = 2 ^ 256 - 1 := by
  have h := orbit_count (f := stepOf lxmNext) (by decide) (card_lxmStates g.b) (fun s hs => ⟨ne_zero_of_period (by decide) xosh256_period hs.1, hs.2⟩)
    (v := g) ⟨hg, rfl⟩ (C32_lxm_period g hg hb) (fun s => (lxmNext s).1 = x)
  rw [show Nat.card {k // k < (2 ^ 256 - 1) * 2 ^ 64 ∧ nthDraw lxmNext k g = x} = _ from h,
    ← Nat.card_congr (Equiv.subtypeSubtypeEquivSubtypeInter (fun s => s ∈ lxmStates g.b) (fun s => (lxmNext s).1 = x))]
  rw [fiber_card (lxmEquiv g.b) (fun s => (lxmNext s.val).1) ?_ x, show Nat.card {s : S4 // s ≠ 0} = _ from card_nonzero card_S4]
  exact fun w => bijective_of_card (card_bitVec 64) (card_bitVec 64) fun a b h => add_left_cancel (murmurHash3_inj h)

/-- C78: `n` is a period of the outputs of LXM exactly if `(2^256 - 1) 2^64` divides it. -/
theorem C78_lxm_period (g : Lxm) (hg : g.x ≠ ⟨0, 0, 0, 0⟩) (hb : g.b.toNat % 2 = 1) (K n : Nat) :
    TailPeriod (fun k => nthDraw lxmNext k g) K n ↔ (2 ^ 256 - 1) * 2 ^ 64 ∣ n := by
  have hN : ∀ k, nthDraw lxmNext (k + (2 ^ 256 - 1) * 2 ^ 64) g = nthDraw lxmNext k g := fun k => by
    rw [nthDraw, Function.iterate_add_apply, (C32_lxm_period g hg hb _).2 (dvd_refl _)]; rfl
  constructor
  · intro h
    have hp := gcd_period (u := fun k => nthDraw lxmNext k g) (by decide) hN h
    obtain ⟨c, hc⟩ := Nat.gcd_dvd_right n ((2 ^ 256 - 1) * 2 ^ 64)
    refine Dvd.dvd.trans ?_ (Nat.gcd_dvd_left n ((2 ^ 256 - 1) * 2 ^ 64))
    generalize Nat.gcd n ((2 ^ 256 - 1) * 2 ^ 64) = m at hp hc
    have h1 := card_mul (P := fun k => nthDraw lxmNext k g = 0) (fun k => by rw [hp]) c
    rw [← hc, C78_lxm_counts g hg hb] at h1
    have hcop : Nat.Coprime (2 ^ 64) c := (Nat.Coprime.coprime_dvd_left (Dvd.intro _ h1.symm) coprime_periods).symm
    have h64 : 2 ^ 64 ∣ m := hcop.dvd_of_dvd_mul_right (by rw [← hc]; exact Nat.dvd_mul_left _ _)
    refine Nat.Coprime.mul_dvd_of_dvd_of_dvd coprime_periods ?_ h64
    rw [← window_period xosh256_period (by decide) hg (o := S4.s0) (m := 4) (injective_of_kernel (g := fun i s => (xosh256End^[i.val] s).s0)
      (fun i x y => by rw [iterate_add]; rfl) S4.add_self xosh256_window0 (c := id) fun _ _ h => h) 0 m]
    intro k _
    have h2 := hp k
    simp only [nthDraw, lxmNext, lxm_iterate] at h2
    have h3 := murmurHash3_inj h2
    rw [Function.iterate_add_apply (lcgStep g.b), (C07_lxm_lcg_full_period g.b g.lcg hb m).2 h64] at h3
    exact add_right_cancel h3
  · rintro ⟨m, rfl⟩ k _
    induction m with
    | zero => simp
    | succ m ih => rw [Nat.mul_succ, ← Nat.add_assoc]; exact (hN _).trans ih

/-- States to which the theorems apply. -/
example : (⟨1, 0⟩ : S2) ≠ ⟨0, 0⟩ ∧ (⟨0, 0, 7, 0⟩ : S4) ≠ ⟨0, 0, 0, 0⟩ ∧ (⟨0, 0, 0, 0, 0, 0, 0, 5⟩ : S8) ≠ ⟨0, 0, 0, 0, 0, 0, 0, 0⟩ ∧
    (∃ j, (⟨fun j => if j = 3 then 1 else 0, 15⟩ : X16).s j ≠ 0) ∧ (⟨⟨0, 0, 0, 1⟩, 0, 3⟩ : Lxm).b.toNat % 2 = 1 :=
  ⟨by decide, by decide, by decide, ⟨3, by decide⟩, by decide⟩

example : ((fun i => if i = 2 then 1 else 0 : Fin 4 → U64)) ≠ fun _ => 0 := fun h => absurd (congrFun h 2) (by decide)

end Verif.XorLinear
