import Verif.Proof.Period
import Verif.Proof.Lcg

/-! Properties C26-C33 (and the LXM part of C07): the GF(2)-linear generators. -/

namespace Verif.XorLinear
open Verif Verif.Linear Verif.GF2

/-! ### Jumps (C26-C30)

Specification: one jump is `2^k` draws, i.e. the state `(stepOf next)^[2^k] s`. -/

attribute [local irreducible] Nat.iterate

theorem xoroPlus_end_eq (s : S2) : stepOf xoroPlusNext s = xoroPlusEnd s := rfl
theorem xoroPP_end_eq (s : S2) : stepOf xoroPPNext s = xoroPPEnd s := rfl
theorem xosh256_end_eq (s : S4) : stepOf xosh256Next s = xosh256End s := rfl
theorem xosh512_end_eq (s : S8) : stepOf xosh512Next s = xosh512End s := rfl

theorem C26_plus_jump_is_2_pow_64_draws (s : S2) :
    xoroPlusJump s = (stepOf xoroPlusNext)^[2 ^ 64] s := by
  rw [xoroPlusJump]
  exact jump_of_cert' S2.add_self xoroPlusEnd (stepOf xoroPlusNext) xoroPlus_end_eq S2.xor (fun _ _ => rfl) S2.zero rfl
    xoroPlusPoly 128 64 xoroPlusTable (by decide)
    (by decide +kernel) (by decide +kernel) xoroPlus_ann xoroPlus_cert s

theorem C26_plusplus_jump_is_2_pow_64_draws (s : S2) :
    xoroPPJump s = (stepOf xoroPPNext)^[2 ^ 64] s := by
  rw [xoroPPJump]
  exact jump_of_cert' S2.add_self xoroPPEnd (stepOf xoroPPNext) xoroPP_end_eq S2.xor (fun _ _ => rfl) S2.zero rfl
    xoroPPPoly 128 64 xoroPPTable (by decide)
    (by decide +kernel) (by decide +kernel) xoroPP_ann xoroPP_cert s

theorem xoroJump_eq (pp : Bool) : xoroJump pp = (stepOf (xoroNext pp))^[2 ^ 64] := by
  funext s
  cases pp
  · rw [xoroJump, xoroNext, if_neg (by decide), if_neg (by decide), C26_plus_jump_is_2_pow_64_draws]
  · rw [xoroJump, xoroNext, if_pos rfl, if_pos rfl, C26_plusplus_jump_is_2_pow_64_draws]

/-- `jumped(iter)`/`jump(iter)` of a `Xoroshiro128` object, either variant, from any state (including
one with a cached 32-bit half): the state is the one after `iter * 2^64` draws, and the object keeps
its variant and forgets the cached half. -/
theorem C26_jumped (g : Xoro) (iter : Nat) :
    (g.jumpInplace iter).buf.core = (stepOf (xoroNext g.plusplus))^[iter * 2 ^ 64] g.buf.core ∧
    (g.jumpInplace iter).plusplus = g.plusplus ∧ (g.jumpInplace iter).buf.has = false := by
  refine ⟨?_, rfl, rfl⟩
  show (xoroJump g.plusplus)^[(iter : Int).toNat] g.buf.core = _
  rw [Int.toNat_natCast, xoroJump_eq, ← Function.iterate_mul, Nat.mul_comm]

/-- The jumped generator's `n`-th draw is draw number `iter * 2^64 + n` of the original. -/
theorem C26_jumped_stream (g : Xoro) (iter n : Nat) :
    nthDraw (xoroNext g.plusplus) n (g.jumpInplace iter).buf.core =
      nthDraw (xoroNext g.plusplus) (iter * 2 ^ 64 + n) g.buf.core := by
  rw [nthDraw, nthDraw, (C26_jumped g iter).1, ← Function.iterate_add_apply, Nat.add_comm]

example : (Xoro.jumpInplace ⟨⟨⟨1, 2⟩, true, 7⟩, true⟩ 1).buf.core ≠ ⟨1, 2⟩ := by decide +kernel

theorem C27_jump_is_2_pow_128_draws (s : S4) : xosh256Jump s = (stepOf xosh256Next)^[2 ^ 128] s := by
  rw [xosh256Jump]
  exact jump_of_cert' S4.add_self xosh256End (stepOf xosh256Next) xosh256_end_eq S4.xor (fun _ _ => rfl) S4.zero rfl
    xosh256Poly 256 128 xosh256Table (by decide)
    (by decide +kernel) (by decide +kernel) xosh256_ann xosh256_cert s

theorem C27_jumped (g : Buf S4) (iter : Nat) :
    (xosh256JumpInplace g iter).core = (stepOf xosh256Next)^[iter * 2 ^ 128] g.core ∧
    (xosh256JumpInplace g iter).has = false := by
  refine ⟨?_, rfl⟩
  show xosh256Jump^[(iter : Int).toNat] g.core = _
  rw [Int.toNat_natCast, show xosh256Jump = (stepOf xosh256Next)^[2 ^ 128] from
    funext C27_jump_is_2_pow_128_draws, ← Function.iterate_mul, Nat.mul_comm]

theorem C27_jumped_stream (g : Buf S4) (iter n : Nat) :
    nthDraw xosh256Next n (xosh256JumpInplace g iter).core =
      nthDraw xosh256Next (iter * 2 ^ 128 + n) g.core := by
  rw [nthDraw, nthDraw, (C27_jumped g iter).1, ← Function.iterate_add_apply, Nat.add_comm]

example : (xosh256JumpInplace ⟨⟨1, 2, 3, 4⟩, true, 7⟩ 1).core ≠ ⟨1, 2, 3, 4⟩ := by decide +kernel

theorem C28_jump_is_2_pow_256_draws (s : S8) : xosh512Jump s = (stepOf xosh512Next)^[2 ^ 256] s := by
  rw [xosh512Jump]
  exact jump_of_cert' S8.add_self xosh512End (stepOf xosh512Next) xosh512_end_eq S8.xor (fun _ _ => rfl) S8.zero rfl
    xosh512Poly 512 256 xosh512Table (by decide)
    (by decide +kernel) (by decide +kernel) xosh512_ann xosh512_cert s

theorem C28_jumped (g : Buf S8) (iter : Nat) :
    (xosh512JumpInplace g iter).core = (stepOf xosh512Next)^[iter * 2 ^ 256] g.core ∧
    (xosh512JumpInplace g iter).has = false := by
  refine ⟨?_, rfl⟩
  show xosh512Jump^[(iter : Int).toNat] g.core = _
  rw [Int.toNat_natCast, show xosh512Jump = (stepOf xosh512Next)^[2 ^ 256] from
    funext C28_jump_is_2_pow_256_draws, ← Function.iterate_mul, Nat.mul_comm]

theorem C28_jumped_stream (g : Buf S8) (iter n : Nat) :
    nthDraw xosh512Next n (xosh512JumpInplace g iter).core =
      nthDraw xosh512Next (iter * 2 ^ 256 + n) g.core := by
  rw [nthDraw, nthDraw, (C28_jumped g iter).1, ← Function.iterate_add_apply, Nat.add_comm]

example : (xosh512JumpInplace ⟨⟨1, 2, 3, 4, 5, 6, 7, 8⟩, true, 7⟩ 1).core ≠ ⟨1, 2, 3, 4, 5, 6, 7, 8⟩ := by
  decide +kernel

/-! #### Xorshift1024 -/

theorem X16.ext' {a b : X16} (hp : a.p = b.p) (h : ∀ i, a.s i = b.s i) : a = b := by
  cases a; cases b; simp only at hp h; subst hp; congr 1; funext i; exact h i

theorem norm_inj {a b : X16} (hp : a.p = b.p) (h : norm a = norm b) : a = b := by
  apply X16.ext' hp
  intro i
  have := congrFun (congrArg N16.f h) (i - a.p)
  simp only [norm, sub_add_cancel] at this
  rw [this, hp, sub_add_cancel]

theorem norm_iterate (n : Nat) (g : X16) : norm ((stepOf xors1024Next)^[n] g) = xorsEnd^[n] (norm g) := by
  induction n generalizing g with
  | zero => rw [Function.iterate_zero_apply, Function.iterate_zero_apply]
  | succ n ih => rw [Function.iterate_succ_apply, ih, norm_step, Function.iterate_succ_apply]; rfl

theorem p_iterate (n : Nat) (g : X16) :
    ((stepOf xors1024Next)^[n] g).p.val = (g.p.val + n) % 16 := by
  induction n generalizing g with
  | zero =>
    have := g.p.isLt
    rw [Function.iterate_zero_apply]; omega
  | succ n ih =>
    rw [Function.iterate_succ_apply, ih, xors1024_step]
    have h1 : (g.p + 1).val = (g.p.val + 1) % 16 := Fin.val_add g.p 1
    rw [h1]
    omega

/-- The accumulation loop of `xorshift1024_jump`, in terms of the words listed from `p`. -/
theorem xors1024_loop (table : List U64) (t : Fin 16 → U64) (g : X16) :
    let r := table.foldl (fun ts w => (List.range 64).foldl (xors1024JumpBit w) ts) (t, g)
    let r' := table.foldl (fun as w => (List.range 64).foldl
        (fun (as : N16 × N16) b => (if w.getLsbD b then as.1 + as.2 else as.1, xorsEnd as.2)) as)
        ((⟨t⟩ : N16), norm g)
    r.1 = r'.1.f ∧ norm r.2 = r'.2 ∧ r.2.p.val = (g.p.val + 64 * table.length) % 16 := by
  have hbit : ∀ (w : U64) (b : Nat) (ts : (Fin 16 → U64) × X16) (as : N16 × N16),
      ts.1 = as.1.f → norm ts.2 = as.2 →
      (xors1024JumpBit w ts b).1 = (if w.getLsbD b then as.1 + as.2 else as.1).f ∧
      norm (xors1024JumpBit w ts b).2 = xorsEnd as.2 ∧
      (xors1024JumpBit w ts b).2.p.val = (ts.2.p.val + 1) % 16 := by
    intro w b ts as h1 h2
    refine ⟨?_, ?_, ?_⟩
    · simp only [xors1024JumpBit]
      split
      · funext j
        rw [N16.add_f, ← h2, h1]; rfl
      · exact h1
    · show norm (stepOf xors1024Next ts.2) = _
      rw [norm_step, h2]; rfl
    · exact Fin.val_add ts.2.p 1
  have hinner : ∀ (w : U64) (l : List Nat) (ts : (Fin 16 → U64) × X16) (as : N16 × N16),
      ts.1 = as.1.f → norm ts.2 = as.2 →
      (l.foldl (xors1024JumpBit w) ts).1 =
        (l.foldl (fun (as : N16 × N16) b =>
          (if w.getLsbD b then as.1 + as.2 else as.1, xorsEnd as.2)) as).1.f ∧
      norm (l.foldl (xors1024JumpBit w) ts).2 =
        (l.foldl (fun (as : N16 × N16) b =>
          (if w.getLsbD b then as.1 + as.2 else as.1, xorsEnd as.2)) as).2 ∧
      (l.foldl (xors1024JumpBit w) ts).2.p.val = (ts.2.p.val + l.length) % 16 := by
    intro w l
    induction l with
    | nil =>
      intro ts as h1 h2
      refine ⟨h1, h2, ?_⟩
      have := ts.2.p.isLt
      show ts.2.p.val = (ts.2.p.val + 0) % 16
      omega
    | cons b l ih =>
      intro ts as h1 h2
      obtain ⟨e1, e2, e3⟩ := hbit w b ts as h1 h2
      obtain ⟨f1, f2, f3⟩ := ih (xors1024JumpBit w ts b)
        (if w.getLsbD b then as.1 + as.2 else as.1, xorsEnd as.2) e1 e2
      refine ⟨f1, f2, ?_⟩
      rw [List.foldl_cons, f3, e3, List.length_cons]
      omega
  have houter : ∀ (table : List U64) (ts : (Fin 16 → U64) × X16) (as : N16 × N16),
      ts.1 = as.1.f → norm ts.2 = as.2 →
      (table.foldl (fun ts w => (List.range 64).foldl (xors1024JumpBit w) ts) ts).1 =
        (table.foldl (fun as w => (List.range 64).foldl
          (fun (as : N16 × N16) b => (if w.getLsbD b then as.1 + as.2 else as.1, xorsEnd as.2)) as)
          as).1.f ∧
      norm (table.foldl (fun ts w => (List.range 64).foldl (xors1024JumpBit w) ts) ts).2 =
        (table.foldl (fun as w => (List.range 64).foldl
          (fun (as : N16 × N16) b => (if w.getLsbD b then as.1 + as.2 else as.1, xorsEnd as.2)) as)
          as).2 ∧
      (table.foldl (fun ts w => (List.range 64).foldl (xors1024JumpBit w) ts) ts).2.p.val =
        (ts.2.p.val + 64 * table.length) % 16 := by
    intro table
    induction table with
    | nil =>
      intro ts as h1 h2
      refine ⟨h1, h2, ?_⟩
      have := ts.2.p.isLt
      show ts.2.p.val = (ts.2.p.val + 0) % 16
      omega
    | cons w ws ih =>
      intro ts as h1 h2
      obtain ⟨e1, e2, e3⟩ := hinner w (List.range 64) ts as h1 h2
      obtain ⟨f1, f2, f3⟩ := ih _ _ e1 e2
      refine ⟨f1, f2, ?_⟩
      rw [List.foldl_cons, f3, e3, List.length_range, List.length_cons]
      omega
  exact houter table (t, g) (⟨t⟩, norm g) rfl rfl

set_option exponentiation.threshold 600 in
/-- From every one of the 16 positions: the jump leaves exactly the state (words and position) of
`2^512` draws. -/
theorem C29_jump_is_2_pow_512_draws (g : X16) :
    xors1024Jump g = (stepOf xors1024Next)^[2 ^ 512] g := by
  obtain ⟨h1, h2, h3⟩ := xors1024_loop xors1024Table (fun _ => 0) g
  have hj := jump_of_cert N16.add_self xorsEnd xors1024Poly 1024 512 xors1024Table (by decide)
    (by decide +kernel) (by decide +kernel) xors1024_ann xors1024_cert (norm g)
  apply norm_inj
  · apply Fin.ext
    rw [p_iterate]
    show (xors1024Table.foldl (fun ts w => (List.range 64).foldl (xors1024JumpBit w) ts)
      ((fun _ => 0), g)).2.p.val = _
    rw [h3]
    have e1 : xors1024Table.length = 16 := rfl
    have e2 : ∃ m : Nat, 2 ^ 512 = 16 * m := ⟨2 ^ 508, by rw [show 512 = 4 + 508 by rfl, Nat.pow_add]⟩
    obtain ⟨m, e2⟩ := e2
    rw [e1, e2]
    omega
  · rw [norm_iterate, ← hj]
    apply N16.ext'
    intro j
    have := congrFun h1 j
    have e : (norm (xors1024Jump g)).f j = (xors1024Table.foldl (fun ts w => (List.range 64).foldl
        (xors1024JumpBit w) ts) ((fun _ => 0), g)).1 j := by
      rw [norm, xors1024Jump]
      show _ = _
      dsimp only
      rw [add_sub_cancel_right]
    rw [e, this, jumpLoop, show (0 : N16) = ⟨fun _ => 0⟩ from rfl]

theorem C29_jumped (g : Buf X16) (iter : Nat) :
    (xors1024JumpInplace g iter).core = (stepOf xors1024Next)^[iter * 2 ^ 512] g.core ∧
    (xors1024JumpInplace g iter).has = false := by
  refine ⟨?_, rfl⟩
  show xors1024Jump^[(iter : Int).toNat] g.core = _
  rw [Int.toNat_natCast, show xors1024Jump = (stepOf xors1024Next)^[2 ^ 512] from
    funext C29_jump_is_2_pow_512_draws, ← Function.iterate_mul, Nat.mul_comm]

theorem C29_jumped_stream (g : Buf X16) (iter n : Nat) :
    nthDraw xors1024Next n (xors1024JumpInplace g iter).core =
      nthDraw xors1024Next (iter * 2 ^ 512 + n) g.core := by
  rw [nthDraw, nthDraw, (C29_jumped g iter).1, ← Function.iterate_add_apply, Nat.add_comm]

example : (xors1024Jump ⟨fun i => BitVec.ofNat 64 (i.val + 1), 5⟩).s 3 ≠ 4#64 := by decide +kernel

/-! #### LXM -/

theorem lxm_step (g : Lxm) :
    stepOf lxmNext g = { g with lcg := lcgStep g.b g.lcg, x := xosh256Step g.x } := rfl

theorem lxm_iterate (n : Nat) (g : Lxm) :
    (stepOf lxmNext)^[n] g = ⟨xosh256Step^[n] g.x, (lcgStep g.b)^[n] g.lcg, g.b⟩ := by
  induction n generalizing g with
  | zero => simp only [Function.iterate_zero_apply]
  | succ n ih => rw [Function.iterate_succ_apply, ih, lxm_step]; simp only [Function.iterate_succ_apply]

/-- The LXM linear congruential component returns to its state after exactly `2^64` steps and not
before, for every odd increment (the constructor forces `b |= 1`). -/
theorem lcgStep_eq (b : U64) : lcgStep b = Pcg.lcgStep lcgMult b := by
  funext x; rw [lcgStep, Pcg.lcgStep, BitVec.mul_comm]

theorem C07_lxm_lcg_full_period (b x : U64) (hb : b.toNat % 2 = 1) (n : Nat) :
    (lcgStep b)^[n] x = x ↔ 2 ^ 64 ∣ n := by
  rw [lcgStep_eq]
  exact Pcg.lcg_full_period (by decide) lcgMult b x (by decide) hb n

example : (3037000493#64).toNat % 2 = 1 := by decide

theorem lcg_iterate_2_pow_128 (b x : U64) : (lcgStep b)^[2 ^ 128] x = x := by
  have h : (Pcg.lcgStep lcgMult b)^[2 ^ 64] = id :=
    funext fun y => Pcg.lcg_iterate_two_pow lcgMult b y (by decide)
  rw [lcgStep_eq, show (2 : Nat) ^ 128 = 2 ^ 64 * 2 ^ 64 by norm_num, Function.iterate_mul, h,
    Function.iterate_id]; rfl

/-- `lxm_jump` moves only the xorshift part; the whole state is nevertheless the one after `2^128`
draws, for every increment `b`. -/
theorem C30_jump_is_2_pow_128_draws (g : Lxm) : lxmJump g = (stepOf lxmNext)^[2 ^ 128] g := by
  rw [lxm_iterate, lcg_iterate_2_pow_128]
  have h := jump_of_cert' S4.add_self xosh256End xosh256Step (fun _ => rfl) S4.xor (fun _ _ => rfl)
    S4.zero rfl xosh256Poly 256 128 xosh256Table (by decide)
    (by decide +kernel) (by decide +kernel) xosh256_ann xosh256_cert g.x
  rw [lxmJump, h]

theorem C30_jumped (g : Buf Lxm) (iter : Nat) :
    (lxmJumpInplace g iter).core = (stepOf lxmNext)^[iter * 2 ^ 128] g.core ∧
    (lxmJumpInplace g iter).has = false := by
  refine ⟨?_, rfl⟩
  show lxmJump^[(iter : Int).toNat] g.core = _
  rw [Int.toNat_natCast, show lxmJump = (stepOf lxmNext)^[2 ^ 128] from
    funext C30_jump_is_2_pow_128_draws, ← Function.iterate_mul, Nat.mul_comm]

theorem C30_jumped_stream (g : Buf Lxm) (iter n : Nat) :
    nthDraw lxmNext n (lxmJumpInplace g iter).core =
      nthDraw lxmNext (iter * 2 ^ 128 + n) g.core := by
  rw [nthDraw, nthDraw, (C30_jumped g iter).1, ← Function.iterate_add_apply, Nat.add_comm]

example : (lxmJump ⟨⟨1, 2, 3, 4⟩, 5, 7⟩).x ≠ ⟨1, 2, 3, 4⟩ := by decide +kernel

/-! ### No state is absorbed (C31) -/

theorem iterate_ne_of_bij {α : Type} {f : α → α} (hf : Function.Injective f) {z : α} (hz : f z = z)
    (n : Nat) {s : α} (hs : s ≠ z) : f^[n] s ≠ z := by
  intro h
  have hzn : f^[n] z = z := Function.iterate_fixed hz n
  exact hs (hf.iterate n (h.trans hzn.symm))

/-- Xoroshiro128, both variants: the state map is a bijection. -/
theorem C31_xoroshiro128_bijective (pp : Bool) : Function.Bijective (stepOf (xoroNext pp)) := by
  have h1 : stepOf xoroPlusNext = xoroPlusEnd := funext xoroPlus_end_eq
  have h2 : stepOf xoroPPNext = xoroPPEnd := funext xoroPP_end_eq
  cases pp
  · rw [xoroNext, if_neg (by decide), h1]
    exact ⟨injective_of_ann S2.add_self xoroPlusEnd xoroPlusPoly (by decide +kernel) xoroPlus_ann,
      surjective_of_ann S2.add_self xoroPlusEnd xoroPlusPoly (by decide +kernel) xoroPlus_ann⟩
  · rw [xoroNext, if_pos rfl, h2]
    exact ⟨injective_of_ann S2.add_self xoroPPEnd xoroPPPoly (by decide +kernel) xoroPP_ann,
      surjective_of_ann S2.add_self xoroPPEnd xoroPPPoly (by decide +kernel) xoroPP_ann⟩

theorem C31_xoroshiro128_zero_fixed (pp : Bool) : stepOf (xoroNext pp) ⟨0, 0⟩ = ⟨0, 0⟩ := by
  cases pp <;> decide

theorem C31_xoroshiro128_never_zero (pp : Bool) (s : S2) (hs : s ≠ ⟨0, 0⟩) (n : Nat) :
    (stepOf (xoroNext pp))^[n] s ≠ ⟨0, 0⟩ :=
  iterate_ne_of_bij (C31_xoroshiro128_bijective pp).1 (C31_xoroshiro128_zero_fixed pp) n hs

example : (⟨0, 1⟩ : S2) ≠ ⟨0, 0⟩ := by decide

theorem C31_xoshiro256_bijective : Function.Bijective (stepOf xosh256Next) := by
  have h1 : stepOf xosh256Next = xosh256End := funext xosh256_end_eq
  rw [h1]
  exact ⟨injective_of_ann S4.add_self xosh256End xosh256Poly (by decide +kernel) xosh256_ann,
    surjective_of_ann S4.add_self xosh256End xosh256Poly (by decide +kernel) xosh256_ann⟩

theorem C31_xoshiro256_zero_fixed : stepOf xosh256Next ⟨0, 0, 0, 0⟩ = ⟨0, 0, 0, 0⟩ := by decide

theorem C31_xoshiro256_never_zero (s : S4) (hs : s ≠ ⟨0, 0, 0, 0⟩) (n : Nat) :
    (stepOf xosh256Next)^[n] s ≠ ⟨0, 0, 0, 0⟩ :=
  iterate_ne_of_bij C31_xoshiro256_bijective.1 C31_xoshiro256_zero_fixed n hs

example : (⟨0, 1, 0, 0⟩ : S4) ≠ ⟨0, 0, 0, 0⟩ := by decide

theorem C31_xoshiro512_bijective : Function.Bijective (stepOf xosh512Next) := by
  have h1 : stepOf xosh512Next = xosh512End := funext xosh512_end_eq
  rw [h1]
  exact ⟨injective_of_ann S8.add_self xosh512End xosh512Poly (by decide +kernel) xosh512_ann,
    surjective_of_ann S8.add_self xosh512End xosh512Poly (by decide +kernel) xosh512_ann⟩

theorem C31_xoshiro512_zero_fixed :
    stepOf xosh512Next ⟨0, 0, 0, 0, 0, 0, 0, 0⟩ = ⟨0, 0, 0, 0, 0, 0, 0, 0⟩ := by decide

theorem C31_xoshiro512_never_zero (s : S8) (hs : s ≠ ⟨0, 0, 0, 0, 0, 0, 0, 0⟩) (n : Nat) :
    (stepOf xosh512Next)^[n] s ≠ ⟨0, 0, 0, 0, 0, 0, 0, 0⟩ :=
  iterate_ne_of_bij C31_xoshiro512_bijective.1 C31_xoshiro512_zero_fixed n hs

example : (⟨0, 1, 0, 0, 0, 0, 0, 0⟩ : S8) ≠ ⟨0, 0, 0, 0, 0, 0, 0, 0⟩ := by decide

/-- Xorshift1024, words and position together. -/
theorem C31_xorshift1024_bijective : Function.Bijective (stepOf xors1024Next) := by
  have hinj := injective_of_ann N16.add_self xorsEnd xors1024Poly (by decide +kernel) xors1024_ann
  have hsur := surjective_of_ann N16.add_self xorsEnd xors1024Poly (by decide +kernel) xors1024_ann
  constructor
  · intro a b h
    have hp : a.p = b.p := by
      have := congrArg X16.p h
      rw [xors1024_step, xors1024_step] at this
      exact add_right_cancel this
    apply norm_inj hp
    apply hinj
    have := congrArg norm h
    rw [norm_step, norm_step] at this
    exact this
  · intro b
    obtain ⟨a, ha⟩ := hsur (norm b)
    refine ⟨⟨fun i => a.f (i - (b.p - 1)), b.p - 1⟩, ?_⟩
    apply norm_inj
    · rw [xors1024_step]; exact sub_add_cancel _ _
    · rw [norm_step, ← ha]
      show xorsStep _ = xorsStep _
      congr 1
      apply N16.ext'
      intro j
      show a.f (j + (b.p - 1) - (b.p - 1)) = a.f j
      rw [add_sub_cancel_right]

/-- All words zero: the words stay zero (only the position moves). -/
theorem C31_xorshift1024_zero_fixed (p : Fin 16) :
    stepOf xors1024Next ⟨fun _ => 0, p⟩ = ⟨fun _ => 0, p + 1⟩ := by
  rw [xors1024_step]
  refine X16.ext' (by rfl) ?_
  intro i
  show setWord _ _ _ i = 0#64
  rw [setWord]
  split
  · show xorsNew 0 0 = 0
    decide
  · rfl

theorem C31_xorshift1024_never_zero (g : X16) (hg : ∃ i, g.s i ≠ 0) (n : Nat) :
    ∃ i, ((stepOf xors1024Next)^[n] g).s i ≠ 0 := by
  by_contra hcon
  push Not at hcon
  have hinj := injective_of_ann N16.add_self xorsEnd xors1024Poly (by decide +kernel) xors1024_ann
  have hz : norm ((stepOf xors1024Next)^[n] g) = 0 := by
    apply N16.ext'; intro j; exact hcon _
  rw [norm_iterate] at hz
  have h0 : xorsEnd^[n] (0 : N16) = 0 := Function.iterate_fixed (map_zero _) n
  have := hinj.iterate n (hz.trans h0.symm)
  obtain ⟨i, hi⟩ := hg
  apply hi
  have h1 := congrFun (congrArg N16.f this) (i - g.p)
  have h2 : (norm g).f (i - g.p) = g.s i := by rw [norm]; dsimp only; rw [sub_add_cancel]
  rw [h2] at h1
  exact h1

example : ∃ i, (⟨fun i => if i = 3 then 1 else 0, 5⟩ : X16).s i ≠ 0 := ⟨3, by decide⟩

/-- LXM: distinct states never merge, and the xorshift part never becomes zero. -/
theorem C31_lxm_injective : Function.Injective (stepOf lxmNext) := by
  intro a b h
  rw [lxm_step, lxm_step] at h
  simp only [Lxm.mk.injEq] at h
  obtain ⟨hx, hl, hb⟩ := h
  have hx' : a.x = b.x := C31_xoshiro256_bijective.1 hx
  have hl' : a.lcg = b.lcg := by
    rw [hb] at hl
    have e : (lcgStep b.b)^[2 ^ 64 - 1] (lcgStep b.b a.lcg) = (lcgStep b.b)^[2 ^ 64 - 1] (lcgStep b.b b.lcg) := by
      rw [hl]
    rw [← Function.iterate_succ_apply, ← Function.iterate_succ_apply, lcgStep_eq,
      show (2 ^ 64 - 1 : Nat).succ = 2 ^ 64 from rfl, Pcg.lcg_iterate_two_pow _ _ _ (by decide),
      Pcg.lcg_iterate_two_pow _ _ _ (by decide)] at e
    exact e
  cases a; cases b; simp_all

theorem C31_lxm_never_zero (g : Lxm) (hg : g.x ≠ ⟨0, 0, 0, 0⟩) (n : Nat) :
    ((stepOf lxmNext)^[n] g).x ≠ ⟨0, 0, 0, 0⟩ := by
  rw [lxm_iterate]
  exact C31_xoshiro256_never_zero g.x hg n

example : (⟨⟨0, 0, 0, 1⟩, 0, 1⟩ : Lxm).x ≠ ⟨0, 0, 0, 0⟩ := by decide

/-! ### Exact periods (C32) -/

/-- From every non-zero state, either variant: the state after `n` draws is the starting state
exactly when `2^128 - 1` divides `n`. -/
theorem C32_xoroshiro128_period (pp : Bool) (s : S2) (hs : s ≠ ⟨0, 0⟩) (n : Nat) :
    (stepOf (xoroNext pp))^[n] s = s ↔ 2 ^ 128 - 1 ∣ n := by
  have h1 : stepOf xoroPlusNext = xoroPlusEnd := funext xoroPlus_end_eq
  have h2 : stepOf xoroPPNext = xoroPPEnd := funext xoroPP_end_eq
  cases pp
  · rw [xoroNext, if_neg (by decide), h1]; exact xoroPlus_period s hs n
  · rw [xoroNext, if_pos rfl, h2]; exact xoroPP_period s hs n

theorem C32_xoshiro256_period (s : S4) (hs : s ≠ ⟨0, 0, 0, 0⟩) (n : Nat) :
    (stepOf xosh256Next)^[n] s = s ↔ 2 ^ 256 - 1 ∣ n := by
  have h1 : stepOf xosh256Next = xosh256End := funext xosh256_end_eq
  rw [h1]; exact xosh256_period s hs n

/-- The xorshift part of LXM. -/
theorem C32_lxm_xorshift_period (g : Lxm) (hg : g.x ≠ ⟨0, 0, 0, 0⟩) (n : Nat) :
    ((stepOf lxmNext)^[n] g).x = g.x ↔ 2 ^ 256 - 1 ∣ n := by
  rw [lxm_iterate]
  exact C32_xoshiro256_period g.x hg n

theorem coprime_periods : Nat.Coprime (2 ^ 256 - 1) (2 ^ 64) := by
  apply Nat.Coprime.pow_right
  decide +kernel

/-- The whole LXM state, with the odd increment the constructor enforces. -/
theorem C32_lxm_period (g : Lxm) (hg : g.x ≠ ⟨0, 0, 0, 0⟩) (hb : g.b.toNat % 2 = 1) (n : Nat) :
    (stepOf lxmNext)^[n] g = g ↔ (2 ^ 256 - 1) * 2 ^ 64 ∣ n := by
  have h1 := C32_lxm_xorshift_period g hg n
  have h2 := C07_lxm_lcg_full_period g.b g.lcg hb n
  constructor
  · intro h
    apply Nat.Coprime.mul_dvd_of_dvd_of_dvd coprime_periods
    · exact h1.1 (by rw [h])
    · apply h2.1
      have := congrArg Lxm.lcg h
      rw [lxm_iterate] at this
      exact this
  · intro h
    have e1 := h1.2 (Dvd.dvd.trans (Nat.dvd_mul_right _ _) h)
    have e2 := h2.2 (Dvd.dvd.trans (Nat.dvd_mul_left _ _) h)
    rw [lxm_iterate] at e1 ⊢
    dsimp only at e1
    rw [e1, e2]

example : (⟨⟨0, 0, 0, 1⟩, 0, 1⟩ : Lxm).x ≠ ⟨0, 0, 0, 0⟩ ∧ (1#64).toNat % 2 = 1 := by decide

/-! ### Jumped streams do not overlap (C33) -/

theorem iterate_eq_iff {α : Type} {f : α → α} (hf : Function.Injective f) {N : Nat} {s : α}
    (hper : ∀ n, f^[n] s = s ↔ N ∣ n) (a b : Nat) (hab : a ≤ b) :
    f^[a] s = f^[b] s ↔ N ∣ b - a := by
  rw [← hper]
  constructor
  · intro h
    apply hf.iterate a
    rw [← Function.iterate_add_apply, Nat.add_sub_cancel' hab]
    exact h.symm
  · intro h
    rw [show b = a + (b - a) by omega, Function.iterate_add_apply, h]

theorem positions_distinct {J N : Nat} {i j a b : Nat} (hN : N + 1 = J * J)
    (hi : i < J) (hj : j < J) (ha : a < J - 1) (hb : b < J - 1)
    (hne : (i, a) ≠ (j, b)) (hle : i * J + a ≤ j * J + b) : ¬ N ∣ j * J + b - (i * J + a) := by
  have h1 : j * J + b < N := by
    have : j * J ≤ (J - 1) * J := Nat.mul_le_mul_right _ (by omega)
    have h2 : (J - 1) * J + J = J * J := by
      rw [← Nat.succ_mul]; congr 1; omega
    omega
  intro hd
  have h0 : j * J + b - (i * J + a) = 0 := Nat.eq_zero_of_dvd_of_lt hd (by omega)
  have heq : i * J + a = j * J + b := by omega
  apply hne
  have hij : i = j := by
    have e1 : (i * J + a) / J = i := by
      rw [Nat.mul_comm, Nat.mul_add_div (by omega), Nat.div_eq_of_lt (by omega)]; omega
    have e2 : (j * J + b) / J = j := by
      rw [Nat.mul_comm, Nat.mul_add_div (by omega), Nat.div_eq_of_lt (by omega)]; omega
    rw [← e1, ← e2, heq]
  subst hij
  have : a = b := by omega
  rw [this]

theorem streams_disjoint {α : Type} {f : α → α} (hf : Function.Injective f) {N J : Nat} {s : α}
    (hper : ∀ n, f^[n] s = s ↔ N ∣ n) (hN : N + 1 = J * J) (i j a b : Nat)
    (hi : i < J) (hj : j < J) (ha : a < J - 1) (hb : b < J - 1) (hne : (i, a) ≠ (j, b)) :
    f^[i * J + a] s ≠ f^[j * J + b] s := by
  intro h
  rcases Nat.le_total (i * J + a) (j * J + b) with hle | hle
  · exact positions_distinct hN hi hj ha hb hne hle ((iterate_eq_iff hf hper _ _ hle).1 h)
  · exact positions_distinct hN hj hi hb ha (Ne.symm hne) hle
      ((iterate_eq_iff hf hper _ _ hle).1 h.symm)

/-- `i`-th and `j`-th of at most `2^64` generators jumped from the same non-zero `Xoroshiro128`: the
states from which they take their draws number `a` and `b` (fewer than `2^64 - 1` draws each) differ. -/
theorem C33_xoroshiro128_streams_disjoint (g : Xoro) (hg : g.buf.core ≠ ⟨0, 0⟩) (i j a b : Nat)
    (hi : i < 2 ^ 64) (hj : j < 2 ^ 64) (ha : a < 2 ^ 64 - 1) (hb : b < 2 ^ 64 - 1)
    (hne : (i, a) ≠ (j, b)) :
    (stepOf (xoroNext g.plusplus))^[a] (g.jumpInplace i).buf.core ≠
      (stepOf (xoroNext g.plusplus))^[b] (g.jumpInplace j).buf.core := by
  rw [(C26_jumped g i).1, (C26_jumped g j).1, ← Function.iterate_add_apply,
    ← Function.iterate_add_apply, Nat.add_comm a, Nat.add_comm b]
  exact streams_disjoint (C31_xoroshiro128_bijective _).1
    (C32_xoroshiro128_period g.plusplus g.buf.core hg) (by norm_num) i j a b hi hj ha hb hne

/-- The bound on the number of draws is sharp: draw number `2^64 - 1` of the last of the `2^64`
streams repeats the first draw of the first stream. -/
theorem C33_xoroshiro128_bound_sharp (g : Xoro) (hg : g.buf.core ≠ ⟨0, 0⟩) :
    (stepOf (xoroNext g.plusplus))^[2 ^ 64 - 1] (g.jumpInplace ((2 ^ 64 - 1 : Nat) : Int)).buf.core =
      (stepOf (xoroNext g.plusplus))^[0] (g.jumpInplace ((0 : Nat) : Int)).buf.core := by
  rw [(C26_jumped g (2 ^ 64 - 1)).1, (C26_jumped g 0).1, ← Function.iterate_add_apply,
    ← Function.iterate_add_apply, Nat.zero_mul, Nat.add_zero, Function.iterate_zero_apply]
  exact (C32_xoroshiro128_period g.plusplus g.buf.core hg _).2 (by norm_num)

theorem C33_xoshiro256_streams_disjoint (g : Buf S4) (hg : g.core ≠ ⟨0, 0, 0, 0⟩) (i j a b : Nat)
    (hi : i < 2 ^ 128) (hj : j < 2 ^ 128) (ha : a < 2 ^ 128 - 1) (hb : b < 2 ^ 128 - 1)
    (hne : (i, a) ≠ (j, b)) :
    (stepOf xosh256Next)^[a] (xosh256JumpInplace g i).core ≠
      (stepOf xosh256Next)^[b] (xosh256JumpInplace g j).core := by
  rw [(C27_jumped g i).1, (C27_jumped g j).1, ← Function.iterate_add_apply,
    ← Function.iterate_add_apply, Nat.add_comm a, Nat.add_comm b]
  exact streams_disjoint C31_xoshiro256_bijective.1
    (C32_xoshiro256_period g.core hg) (by norm_num) i j a b hi hj ha hb hne

/-- LXM: fewer than `2^128` jumped generators, by their xorshift parts. -/
theorem C33_lxm_streams_disjoint (g : Buf Lxm) (hg : g.core.x ≠ ⟨0, 0, 0, 0⟩) (i j a b : Nat)
    (hi : i < 2 ^ 128) (hj : j < 2 ^ 128) (ha : a < 2 ^ 128 - 1) (hb : b < 2 ^ 128 - 1)
    (hne : (i, a) ≠ (j, b)) :
    (stepOf lxmNext)^[a] (lxmJumpInplace g i).core ≠
      (stepOf lxmNext)^[b] (lxmJumpInplace g j).core := by
  rw [(C30_jumped g i).1, (C30_jumped g j).1, ← Function.iterate_add_apply,
    ← Function.iterate_add_apply, Nat.add_comm a, Nat.add_comm b]
  intro h
  have hx := congrArg Lxm.x h
  rw [lxm_iterate, lxm_iterate] at hx
  exact streams_disjoint C31_xoshiro256_bijective.1
    (C32_xoshiro256_period g.core.x hg) (by norm_num) i j a b hi hj ha hb hne hx

example : ∃ g : Xoro, g.buf.core ≠ ⟨0, 0⟩ ∧ (3, 5) ≠ ((4, 5) : Nat × Nat) := ⟨⟨⟨⟨1, 0⟩, false, 0⟩, true⟩, by decide⟩

end Verif.XorLinear
