import Verif.Proof.MtPower
import Verif.Props.Mt
import Verif.Props.Sfmt

/-! Properties C35 (distance of `MT19937.jumped`) and C36 (sums of jumps) for MT19937. -/

namespace Verif
open Verif.Linear Verif.GF2

theorem bitsVal_range (p n : Nat) : bitsVal ((List.range n).map fun j => p.testBit (n - 1 - j)) = p % 2 ^ n := by
  induction n with
  | zero => rw [pow_zero, Nat.mod_one]; rfl
  | succ n ih =>
    rw [List.range_succ_eq_map, List.map_cons, List.map_map, bitsVal]
    have e : (List.range n).map ((fun j => p.testBit (n + 1 - 1 - j)) ∘ Nat.succ) = (List.range n).map fun j => p.testBit (n - 1 - j) := by
      apply List.map_congr_left
      intro j _
      show p.testBit (n + 1 - 1 - (j + 1)) = p.testBit (n - 1 - j)
      congr 1; omega
    rw [e, ih, List.length_map, List.length_range, show n + 1 - 1 - 0 = n by omega]
    apply Nat.eq_of_testBit_eq
    intro i
    rw [Nat.testBit_xor, Nat.testBit_shiftLeft, Nat.testBit_mod_two_pow, Nat.testBit_mod_two_pow]
    rcases Nat.lt_trichotomy i n with h | h | h
    · have h1 : ¬ i ≥ n := by omega
      have h2 : i < n + 1 := by omega
      simp [h, h1, h2]
    · subst h
      cases p.testBit i <;> simp
    · have h1 : ¬ i < n := by omega
      have h2 : ¬ i < n + 1 := by omega
      have h3 : (if p.testBit n then 1 else 0).testBit (i - n) = false := by
        have : i - n ≠ 0 := by omega
        split
        · exact Nat.testBit_lt_two_pow (Nat.one_lt_two_pow this)
        · simp
      simp [h1, h2, h3]

theorem mtPoly_facts : ∀ e ∈ [128, 132, 136, 140, 144], mtPoly e < 2 ^ 19937 ∧ mtPoly e ≠ 0 := by decide +kernel

theorem mtPolyStr_val (e : Nat) (he : e ∈ [128, 132, 136, 140, 144]) : bitsVal (mtPolyStr e) = mtPoly e := by
  have h := bitsVal_range (mtPoly e) 19937
  rw [Nat.mod_eq_of_lt (mtPoly_facts e he).1] at h
  exact h

/-- How far the table with the number `e` moves the position: the degree of its polynomial. -/
def mtDeg (e : Nat) : Nat := if e = 144 then 19931 else if e = 136 then 19934 else if e = 128 then 19933 else 19936

theorem mtDeg_eq : ∀ e ∈ [128, 132, 136, 140, 144], (mtPoly e).log2 = mtDeg e := by decide +kernel

/-- The recurrence in its usual form. -/
def MtStd (x : Nat → U32) : Prop := ∀ k, x (k + 624) = x (k + 397) ^^^ (((x k &&& 0x80000000) ||| (x (k + 1) &&& 0x7fffffff)) >>> 1) ^^^
  (if (x (k + 1)).getLsbD 0 then 0x9908b0df else 0)

theorem mtStd_rec {x : Nat → U32} : MtStd x ↔ MtRec mt32 x := by
  have hb : ∀ u v : U32, ((u &&& 0x80000000#32) ||| (v &&& 0x7fffffff#32)).getLsbD 0 = v.getLsbD 0 := fun u v => by
    rw [BitVec.getLsbD_or, BitVec.getLsbD_and, BitVec.getLsbD_and, show (0x80000000#32).getLsbD 0 = false from rfl,
      show (0x7fffffff#32).getLsbD 0 = true from rfl]; simp
  have e : ∀ k, mtWord mt32 (x k) (x (k + 1)) (x (k + 397)) = x (k + 397) ^^^ (((x k &&& 0x80000000) ||| (x (k + 1) &&& 0x7fffffff)) >>> 1) ^^^
      (if (x (k + 1)).getLsbD 0 then 0x9908b0df else 0) := fun k => by
    rw [mtWord]
    simp only [show mt32.upper = 0x80000000#32 from rfl, show mt32.lower = 0x7fffffff#32 from rfl, show mt32.a = 0x9908b0df#32 from rfl, hb]
    rfl
  constructor
  · intro h k
    show x (k + 624) = mtWord mt32 (x k) (x (k + 1)) (x (k + 397))
    rw [e, h k]
  · intro h k
    have := h k
    rw [show mt32.N = 624 from rfl, show mt32.M = 397 from rfl, e] at this
    exact this

/-- One table jump on a rotated array. -/
theorem mt_jump1 (e : Nat) (he : e ∈ [128, 132, 136, 140, 144]) (s : Mt 32) (x : MSol mt32) (h : Rot s x) :
    ∃ s', mtJumpState mt32 (mtPolyStr e) s = some s' ∧ Rot s' (ev (mtS mt32) (mtPoly e) x) ∧ s'.pos = ((s.pos.toNat + mtDeg e) % 624 : Nat) := by
  obtain ⟨s', h1, h2, h3⟩ := rot_horner h (mtPolyStr e) (by rw [mtPolyStr_val e he]; exact (mtPoly_facts e he).2)
  rw [mtPolyStr_val e he] at h2 h3
  rw [mtDeg_eq e he] at h3
  refine ⟨s', ?_, h2, h3⟩
  rw [mtJumpState, if_neg (by have := h.1; omega), if_neg (by have := h.2.1; omega)]
  exact h1

/-- The polynomial of several jumps. -/
def mtProd (plan : List Nat) : AddMonoid.End (MSol mt32) := (plan.map fun e => ev (mtS mt32) (mtPoly e)).reverse.prod

theorem mtProd_cons (e : Nat) (es : List Nat) (x : MSol mt32) : mtProd (e :: es) x = mtProd es (ev (mtS mt32) (mtPoly e) x) := by
  rw [mtProd, mtProd, List.map_cons, List.reverse_cons, List.prod_append, List.prod_singleton, mul_apply]

theorem mt_jumps (plan : List Nat) (hp : ∀ e ∈ plan, e ∈ [128, 132, 136, 140, 144]) (s : Mt 32) (x : MSol mt32) (h : Rot s x) :
    ∃ s', plan.foldl (fun (o : Option (Mt 32)) e => o.bind (mtJumpState mt32 (mtPolyStr e))) (some s) = some s' ∧ Rot s' (mtProd plan x) ∧
      s'.pos = ((s.pos.toNat + (plan.map mtDeg).sum) % 624 : Nat) := by
  induction plan generalizing s x with
  | nil =>
    refine ⟨s, rfl, h, ?_⟩
    have h0 := h.1
    have h1 : s.pos < 624 := h.2.1
    rw [List.map_nil, List.sum_nil, Nat.add_zero, Nat.mod_eq_of_lt (by omega)]; omega
  | cons e es ih =>
    obtain ⟨s1, a1, a2, a3⟩ := mt_jump1 e (hp e List.mem_cons_self) s x h
    obtain ⟨s2, b1, b2, b3⟩ := ih (fun e' he' => hp e' (List.mem_cons_of_mem _ he')) s1 _ a2
    refine ⟨s2, ?_, by rw [mtProd_cons]; exact b2, ?_⟩
    · rw [List.foldl_cons]
      show List.foldl _ (mtJumpState mt32 (mtPolyStr e) s) es = _
      rw [a1]; exact b1
    · rw [b3, a3, Int.toNat_natCast, Nat.mod_add_mod, List.map_cons, List.sum_cons, Nat.add_assoc]

theorem mt32Phi_ev (c : Nat) (x : MSol mt32) : mtPhi mt32 (ev (mtS mt32) c x) = ev mt32T c (mtPhi mt32 x) :=
  ev_hom (mtS mt32) mt32T (mtPhi mt32) mt32Phi_step c x

theorem mt32Phi_pow (n : Nat) (x : MSol mt32) : mtPhi mt32 ((mtS mt32 ^ n) x) = (mt32T ^ n) (mtPhi mt32 x) := by
  induction n with
  | zero => rfl
  | succ n ih => rw [pow_succ', pow_succ', mul_apply, mul_apply, mt32Phi_step, ih]

theorem mt32Phi_prod (plan : List Nat) (hp : ∀ e ∈ plan, e ∈ [128, 132, 136, 140, 144]) (x : MSol mt32) :
    mtPhi mt32 (mtProd plan x) = (mt32T ^ (plan.map (2 ^ ·)).sum) (mtPhi mt32 x) := by
  induction plan generalizing x with
  | nil => rfl
  | cons e es ih =>
    rw [mtProd_cons, ih (fun e' he' => hp e' (List.mem_cons_of_mem _ he')), mt32Phi_ev, mt32_powers e (hp e List.mem_cons_self), List.map_cons, List.sum_cons,
      ← mul_apply, ← pow_add, Nat.add_comm]

/-- The shift commutes with the jumps. -/
theorem mtProd_shift (plan : List Nat) (x : MSol mt32) : mtProd plan (mtS mt32 x) = mtS mt32 (mtProd plan x) := by
  induction plan generalizing x with
  | nil => rfl
  | cons e es ih =>
    have c : ev (mtS mt32) (mtPoly e) (mtS mt32 x) = mtS mt32 (ev (mtS mt32) (mtPoly e) x) := by
      rw [← mul_apply, ← mul_apply, (commute_ev (mtS mt32) _).eq]
    rw [mtProd_cons, mtProd_cons, ← ih, c]

/-- The solution that starts with the array read from the position on. -/
theorem rot_of_key (s : Mt 32) (h0 : 0 ≤ s.pos) (h1 : s.pos < 624) (x : Nat → U32) (hx : MtStd x)
    (hk : ∀ i < 624, x i = s.key ((s.pos.toNat + i) % 624)) : Rot s (⟨x, mtStd_rec.1 hx⟩ : MSol mt32) :=
  ⟨h0, h1, fun i hi => (hk i hi).symm⟩

/-- What the jump computes, on the level of solutions. -/
theorem mt_jump_rot (count : Nat) (s : Mt 32) (h0 : 0 ≤ s.pos) (h1 : s.pos < 624) (x : Nat → U32) (hx : MtStd x)
    (hk : ∀ i < 624, x i = s.key ((s.pos.toNat + i) % 624)) :
    ∃ (s' : Mt 32) (y : MSol mt32), mtJumps count s = some s' ∧ Rot s' y ∧ s'.pos = ((s.pos.toNat + ((jumpPlan count).map mtDeg).sum) % 624 : Nat) ∧
      (∀ i, y.val (i + 1) = x (count * 2 ^ 128 + (i + 1))) ∧ (y.val 0).toNat >>> 31 = (x (count * 2 ^ 128)).toNat >>> 31 ∧
      ((∃ z : Nat → U32, MtStd z ∧ ∀ i, x i = z (i + 1)) → y.val 0 = x (count * 2 ^ 128)) := by
  obtain ⟨p1, p2⟩ := C36_strides count
  obtain ⟨s', a1, a2, a3⟩ := mt_jumps (jumpPlan count) p2 s _ (rot_of_key s h0 h1 x hx hk)
  have hphi : ∀ u : MSol mt32, mtPhi mt32 (mtProd (jumpPlan count) u) = mtPhi mt32 ((mtS mt32 ^ (count * 2 ^ 128)) u) := fun u => by
    rw [mt32Phi_prod _ p2, mt32Phi_pow, p1]
  obtain ⟨e1, e2⟩ := mtPhi_eq (hphi ⟨x, mtStd_rec.1 hx⟩)
  refine ⟨s', _, a1, a2, a3, fun i => ?_, ?_, fun ⟨z, hz, hxz⟩ => ?_⟩
  · rw [e1 i, mtS_pow]
  · rw [e2, mtS_pow, Nat.add_zero]
  · have ex : (⟨x, mtStd_rec.1 hx⟩ : MSol mt32) = mtS mt32 ⟨z, mtStd_rec.1 hz⟩ := MSol.ext' hxz
    rw [ex, mtProd_shift]
    show (mtProd (jumpPlan count) ⟨z, mtStd_rec.1 hz⟩).val (0 + 1) = _
    obtain ⟨f1, _⟩ := mtPhi_eq (hphi ⟨z, mtStd_rec.1 hz⟩)
    rw [f1 0, mtS_pow, hxz]

/-- C66 for MT19937: each of the five tables moves the array, read cyclically from the position on, by exactly `2^e` terms. -/
theorem C66_mt19937 (e : Nat) (he : e ∈ [128, 132, 136, 140, 144]) (s : Mt 32) (h0 : 0 ≤ s.pos) (h1 : s.pos < 624) (x : Nat → U32)
    (hx : ∀ k, x (k + 624) = x (k + 397) ^^^ (((x k &&& 0x80000000) ||| (x (k + 1) &&& 0x7fffffff)) >>> 1) ^^^
      (if (x (k + 1)).getLsbD 0 then 0x9908b0df else 0))
    (hk : ∀ i < 624, x i = s.key ((s.pos.toNat + i) % 624)) :
    ∃ s', mtJumpState mt32 (mtPolyStr e) s = some s' ∧ s'.pos = ((s.pos.toNat + mtDeg e) % 624 : Nat) ∧
      (∀ i < 624, 0 < i → s'.key ((s'.pos.toNat + i) % 624) = x (2 ^ e + i)) ∧
      (s'.key s'.pos.toNat).toNat >>> 31 = (x (2 ^ e)).toNat >>> 31 := by
  obtain ⟨s', a1, ⟨r0, r1, r2⟩, a3⟩ := mt_jump1 e he s _ (rot_of_key s h0 h1 x hx hk)
  have r1 : s'.pos < 624 := r1
  have hphi : mtPhi mt32 (ev (mtS mt32) (mtPoly e) ⟨x, mtStd_rec.1 hx⟩) = mtPhi mt32 ((mtS mt32 ^ (2 ^ e)) ⟨x, mtStd_rec.1 hx⟩) := by
    rw [mt32Phi_ev, mt32Phi_pow, mt32_powers e he]
  obtain ⟨e1, e2⟩ := mtPhi_eq hphi
  refine ⟨s', a1, a3, fun i hi h0 => ?_, ?_⟩
  · have := r2 i hi
    rw [show mt32.N = 624 from rfl] at this
    obtain ⟨j, rfl⟩ : ∃ j, i = j + 1 := ⟨i - 1, by omega⟩
    rw [this, e1 j, mtS_pow]
  · have := r2 0 (by decide)
    rw [show mt32.N = 624 from rfl, Nat.add_zero, Nat.mod_eq_of_lt (by omega)] at this
    rw [this, e2, mtS_pow, Nat.add_zero]

/-- Every array at every position is the start of a run of the recurrence, as `C66_mt19937` and `C36_mt19937` assume. -/
theorem mt_window (s : Mt 32) : ∃ x : Nat → U32, MtStd x ∧ ∀ i < 624, x i = s.key ((s.pos.toNat + i) % 624) :=
  ⟨mtSeq mt32 fun i => s.key ((s.pos.toNat + i) % 624), mtStd_rec.2 (mtSeq_rec mt32 _), fun _ hi => mtSeq_init mt32 _ hi⟩

example : ∃ (s : Mt 32) (x : Nat → U32), s.pos = 300 ∧ MtStd x ∧ x 324 = 7 ∧ ∀ i < 624, x i = s.key ((s.pos.toNat + i) % 624) := by
  obtain ⟨x, h1, h2⟩ := mt_window ⟨fun i => if i = 0 then 7 else 0, 300⟩
  exact ⟨_, x, rfl, h1, by rw [h2 324 (by decide)]; rfl, h2⟩

/-- C36 for MT19937: `count` jumps advance the array, read cyclically from the position on, by exactly `count * 2^128`
terms of the recurrence; of the first word only the top bit counts (the others have no influence on the terms to come).
The position moves on by the sum of the degrees of the jump polynomials. -/
theorem C36_mt19937 (count : Nat) (s : Mt 32) (h0 : 0 ≤ s.pos) (h1 : s.pos < 624) (x : Nat → U32)
    (hx : ∀ k, x (k + 624) = x (k + 397) ^^^ (((x k &&& 0x80000000) ||| (x (k + 1) &&& 0x7fffffff)) >>> 1) ^^^
      (if (x (k + 1)).getLsbD 0 then 0x9908b0df else 0))
    (hk : ∀ i < 624, x i = s.key ((s.pos.toNat + i) % 624)) :
    ∃ s', mtJumps count s = some s' ∧ s'.pos = ((s.pos.toNat + ((jumpPlan count).map mtDeg).sum) % 624 : Nat) ∧
      (∀ i < 624, 0 < i → s'.key ((s'.pos.toNat + i) % 624) = x (count * 2 ^ 128 + i)) ∧
      (s'.key s'.pos.toNat).toNat >>> 31 = (x (count * 2 ^ 128)).toNat >>> 31 := by
  obtain ⟨s', y, a1, ⟨r0, r1, r2⟩, a3, a4, a5, _⟩ := mt_jump_rot count s h0 h1 x hx hk
  have r1 : s'.pos < 624 := r1
  refine ⟨s', a1, a3, fun i hi h0 => ?_, ?_⟩
  · have := r2 i hi
    rw [show mt32.N = 624 from rfl] at this
    obtain ⟨j, rfl⟩ : ∃ j, i = j + 1 := ⟨i - 1, by omega⟩
    rw [this, a4 j]
  · have := r2 0 (by decide)
    rw [show mt32.N = 624 from rfl, Nat.add_zero, Nat.mod_eq_of_lt (by omega)] at this
    rw [this, a5]

theorem foldl_first {α : Type} (J : α → Nat → α) (a b : α) (h : ∀ e, J a e = J b e) : ∀ (l : List Nat), l ≠ [] → l.foldl J a = l.foldl J b
  | [], hl => absurd rfl hl
  | e :: es, _ => by rw [List.foldl_cons, List.foldl_cons, h]

theorem jumpPlan_ne (count : Nat) (hc : 0 < count) : jumpPlan count ≠ [] := fun h => by
  have := (C36_strides count).1
  rw [h, List.map_nil, List.sum_nil] at this
  have : 0 < count * 2 ^ 128 := Nat.mul_pos hc (Nat.pow_pos (by decide))
  omega

/-- A full array counts as position 0. -/
theorem mtJumps_full (count : Nat) (hc : 0 < count) (key : Nat → U32) (p : Int) (hp : 624 ≤ p) : mtJumps count ⟨key, p⟩ = mtJumps count ⟨key, 0⟩ := by
  refine foldl_first _ _ _ (fun e => ?_) _ (jumpPlan_ne count hc)
  beta_reduce
  rw [Option.bind_some, Option.bind_some]
  generalize mtPolyStr e = poly
  rw [mtJumpState, if_neg (show ¬ p < 0 by omega), if_pos (show ((mt32.N : Nat) : Int) ≤ p from hp), mtJumpState, if_neg (show ¬ (0 : Int) < 0 by omega),
      if_neg (show ¬ ((mt32.N : Nat) : Int) ≤ 0 by decide)]

/-- The draws of the jumped generator up to the end of its array. -/
theorem mt_draws (s' : Mt 32) (y : MSol mt32) (h : Rot s' y) (i : Nat) (hi : i < 624 - s'.pos.toNat) :
    nthO mtNext32 i s' = some (temper32 (y.val i)) := by
  obtain ⟨r0, r1, r2⟩ := h
  have r1 : s'.pos < 624 := r1
  obtain ⟨u, hu, hk⟩ := mt32_solution s'.key
  rw [C34_mt19937 s' r0 (by omega) u hu hk i, hk _ (by omega)]
  have := r2 i (by show i < 624; omega)
  rw [show mt32.N = 624 from rfl, Nat.mod_eq_of_lt (by omega)] at this
  rw [this]

/-- C35 (partial): a jumped generator whose array was aligned (position 0) draws what the original draws `count * 2^128`
draws later, up to the end of its own array, except that its first draw is only guaranteed if the array continues a
longer run of the recurrence (as it does after the first block). Missing: every later draw (`not_C35_mt19937`), the first
draw of other arrays (`not_C35_first_draw`), and the other positions (`not_C35_numpy_position`). -/
theorem C35_mt19937_partial (count : Nat) (s : Mt 32) (hp : s.pos = 0) :
    ∃ s', mtJumps count s = some s' ∧ s'.pos = (((jumpPlan count).map mtDeg).sum % 624 : Nat) ∧
      (∀ i < 624 - s'.pos.toNat, 0 < i → nthO mtNext32 i s' = nthO mtNext32 (count * 2 ^ 128 + i) s) ∧
      ((∃ z : Nat → U32, (∀ k, z (k + 624) = z (k + 397) ^^^ (((z k &&& 0x80000000) ||| (z (k + 1) &&& 0x7fffffff)) >>> 1) ^^^
          (if (z (k + 1)).getLsbD 0 then 0x9908b0df else 0)) ∧ ∀ i < 624, s.key i = z (i + 1)) →
        nthO mtNext32 0 s' = nthO mtNext32 (count * 2 ^ 128) s) := by
  obtain ⟨x, hx, hk⟩ := mt32_solution s.key
  have h34 := fun n => C34_mt19937 s (by omega) (by omega) x hx hk n
  obtain ⟨s', y, a1, a2, a3, a4, _, a6⟩ := mt_jump_rot count s (by omega) (by omega) x hx (fun i hi => by
    rw [hk i hi, hp, show (0 : Int).toNat = 0 from rfl, Nat.zero_add, Nat.mod_eq_of_lt hi])
  rw [hp, show (0 : Int).toNat = 0 from rfl, Nat.zero_add] at a3
  have h34 : ∀ n, nthO mtNext32 n s = some (temper32 (x n)) := fun n => by
    rw [h34, hp, show (0 : Int).toNat = 0 from rfl, Nat.zero_add]
  refine ⟨s', a1, a3, fun i hi h0 => ?_, fun ⟨z, hz, hzk⟩ => ?_⟩
  · obtain ⟨j, rfl⟩ : ∃ j, i = j + 1 := ⟨i - 1, by omega⟩
    rw [mt_draws s' y a2 _ hi, h34, a4 j]
  · have r0 := a2.1
    have r1 : s'.pos < 624 := a2.2.1
    rw [mt_draws s' y a2 0 (by omega), h34, a6 ⟨z, hz, fun i => ?_⟩]
    have hz' := (mtStd_rec.1 hz).shift 1
    have := MtRec.unique (mtStd_rec.1 hx) hz' (fun i hi => by rw [hk i hi, hzk i hi, Nat.add_comm i 1]) i
    rw [this, Nat.add_comm 1 i]

/-- An array that continues a longer run. -/
example : ∃ z : Nat → U32, MtStd z ∧ z 0 = 5 ∧ ∀ i < 624, (fun i => mtSeq mt32 (fun j => if j = 0 then 5 else 9) (i + 1)) i = z (i + 1) :=
  ⟨mtSeq mt32 fun j => if j = 0 then 5 else 9, mtStd_rec.2 (mtSeq_rec mt32 _), by rw [mtSeq_init mt32 _ (by decide)]; rfl, fun _ _ => rfl⟩

/-- C35 (partial): at the end of a block (position 624; also every freshly seeded generator) the jump is 624 draws short
of the documented distance. -/
theorem C35_mt19937_end_partial (count : Nat) (hc : 0 < count) (s : Mt 32) (hp : s.pos = 624) :
    ∃ s', mtJumps count s = some s' ∧ s'.pos = (((jumpPlan count).map mtDeg).sum % 624 : Nat) ∧
      ∀ i < 624 - s'.pos.toNat, 0 < i → nthO mtNext32 i s' = nthO mtNext32 (count * 2 ^ 128 - 624 + i) s := by
  obtain ⟨key, p⟩ := s
  have hp : p = 624 := hp
  subst hp
  obtain ⟨s', a1, a2, a3, _⟩ := C35_mt19937_partial count ⟨key, 0⟩ rfl
  refine ⟨s', by rw [mtJumps_full count hc key 624 (by omega)]; exact a1, a2, fun i hi h0 => ?_⟩
  obtain ⟨x, hx, hk⟩ := mt32_solution key
  rw [a3 i hi h0, C34_mt19937 ⟨key, 624⟩ (show (0 : Int) ≤ 624 by decide) (show (624 : Int) ≤ 624 by decide) x hx hk, C34_mt19937 ⟨key, 0⟩ (show (0 : Int) ≤ 0 by decide) (show (0 : Int) ≤ 624 by decide) x hx hk]
  have hbig : 624 ≤ count * 2 ^ 128 := le_trans (by decide : 624 ≤ 1 * 2 ^ 128) (Nat.mul_le_mul_right _ hc)
  generalize count * 2 ^ 128 = J at hbig ⊢
  show some (temper32 (x (0 + (J + i)))) = some (temper32 (x (624 + (J - 624 + i))))
  rw [show 0 + (J + i) = 624 + (J - 624 + i) by omega]

/-! ### Where the documented distance fails -/

theorem mt32Chi_odd : mt32Chi % 2 = 1 := by decide +kernel

theorem mt32T_surj (n : Nat) : Function.Surjective (mt32T ^ n) := by
  induction n with
  | zero => exact fun v => ⟨v, rfl⟩
  | succ n ih =>
    intro v
    obtain ⟨u, hu⟩ := surjective_of_ann (PV.add_self (d := 19937)) mt32T mt32Chi mt32Chi_odd mt32_ann.1 v
    obtain ⟨t, ht⟩ := ih u
    exact ⟨t, by rw [pow_succ', mul_apply, ht, hu]⟩

theorem mul_lt_aux (a b c : Nat) (h : a < b) : a * 2 ^ c < b * 2 ^ c := Nat.mul_lt_mul_of_pos_right h (by positivity)

/-- Every packed window is the window of a solution. -/
theorem mtPhi_surj {w : Nat} (P : MtPar w) [MtPk P] : Function.Surjective (mtPhi P) := fun v => by
  have hw := MtPk.hw (P := P)
  have hd := MtPk.hd (P := P)
  refine ⟨⟨mtSeq P fun i => BitVec.ofNat w ((v.val <<< 31) >>> (w * i)), mtSeq_rec P _⟩, ?_⟩
  apply PV.ext'
  have e := pk_words (w := w) (by omega) P.N (v.val <<< 31) (by
    rw [Nat.shiftLeft_eq, hd, show 19968 = 19937 + 31 from rfl, pow_add]; exact mul_lt_aux _ _ _ v.lt)
  show pk P.N (fun i => mtSeq P _ (0 + i)) >>> 31 = v.val
  rw [pk_congr P.N _ _ (fun i hi => by rw [Nat.zero_add, mtSeq_init P _ hi]), e, Nat.shiftLeft_shiftRight]

/-- Every solution is reached, up to the unused bits of its first term, `n` terms after some array. -/
theorem mt_reach (n : Nat) (y : MSol mt32) : ∃ x : MSol mt32, (∀ k, x.val (n + (k + 1)) = y.val (k + 1)) ∧ (x.val n).toNat >>> 31 = (y.val 0).toNat >>> 31 := by
  obtain ⟨v, hv⟩ := mt32T_surj n (mtPhi mt32 y)
  obtain ⟨x, hx⟩ := mtPhi_surj mt32 v
  have h : mtPhi mt32 ((mtS mt32 ^ n) x) = mtPhi mt32 y := by rw [mt32Phi_pow, hx, hv]
  obtain ⟨h1, h2⟩ := mtPhi_eq h
  refine ⟨x, fun k => ?_, ?_⟩
  · rw [← h1 k, mtS_pow]
  · rw [← h2, mtS_pow, Nat.add_zero]

theorem mtPoly_odd : ∀ e ∈ [128, 132, 136, 140, 144], mtPoly e % 2 = if e = 132 ∨ e = 136 then 0 else 1 := by decide +kernel

/-- A polynomial in the shift maps a solution that ends after its first term to its multiple by the constant coefficient. -/
theorem ev_null (c : Nat) (d : MSol mt32) (hd : mtS mt32 d = 0) : ev (mtS mt32) c d = if c % 2 = 1 then d else 0 := by
  have h := ev_eq (mtS mt32) c
  rw [(commute_ev (mtS mt32) _).eq] at h
  have e : ((if c % 2 = 1 then 1 else 0) + ev (mtS mt32) (c / 2) * mtS mt32 : AddMonoid.End (MSol mt32)) d =
      (if c % 2 = 1 then (1 : AddMonoid.End (MSol mt32)) else 0) d + ev (mtS mt32) (c / 2) (mtS mt32 d) := rfl
  rw [h, e, hd, map_zero, add_zero]
  split <;> rfl

theorem mtProd_null (plan : List Nat) (hp : ∀ e ∈ plan, e ∈ [128, 132, 136, 140, 144]) (d : MSol mt32) (hd : mtS mt32 d = 0) :
    mtProd plan d = if 132 ∈ plan ∨ 136 ∈ plan then 0 else d := by
  induction plan with
  | nil => rfl
  | cons e es ih =>
    have he := hp e List.mem_cons_self
    have ho := mtPoly_odd e he
    rw [mtProd_cons, ev_null _ _ hd, ho]
    by_cases h : e = 132 ∨ e = 136
    · rw [if_pos h, if_neg (by omega), map_zero, if_pos]
      rcases h with rfl | rfl <;> simp
    · rw [if_neg h, if_pos rfl, ih fun e' he' => hp e' (List.mem_cons_of_mem _ he')]
      have : (132 ∈ e :: es ∨ 136 ∈ e :: es) ↔ (132 ∈ es ∨ 136 ∈ es) := by
        simp only [List.mem_cons]
        constructor
        · rintro ((h1 | h1) | (h1 | h1))
          · exact absurd (Or.inl h1.symm) h
          · exact .inl h1
          · exact absurd (Or.inr h1.symm) h
          · exact .inr h1
        · rintro (h1 | h1)
          · exact .inl (.inr h1)
          · exact .inr (.inr h1)
      simp only [this]

theorem temper32_inj' {a b : U32} (h : temper32 a = temper32 b) : a = b := C64_temper32 h

/-- The first draw after the jump is the right one exactly when the array continues a longer run of the recurrence, or
when one of the tables for `2^132` and `2^136` is used, whose polynomials have no constant term. -/
theorem C35_first_draw_iff (count : Nat) (hc : 0 < count) (s : Mt 32) (hp : s.pos = 0) :
    ∃ s', mtJumps count s = some s' ∧ (nthO mtNext32 0 s' = nthO mtNext32 (count * 2 ^ 128) s ↔
      (132 ∈ jumpPlan count ∨ 136 ∈ jumpPlan count) ∨
      ∃ z : Nat → U32, (∀ k, z (k + 624) = z (k + 397) ^^^ (((z k &&& 0x80000000) ||| (z (k + 1) &&& 0x7fffffff)) >>> 1) ^^^
          (if (z (k + 1)).getLsbD 0 then 0x9908b0df else 0)) ∧ ∀ i < 624, s.key i = z (i + 1)) := by
  obtain ⟨x, hx, hk⟩ := mt32_solution s.key
  let X : MSol mt32 := ⟨x, mtStd_rec.1 hx⟩
  obtain ⟨p1, p2⟩ := C36_strides count
  obtain ⟨s', a1, a2, a3⟩ := mt_jumps (jumpPlan count) p2 s X (rot_of_key s (by omega) (by omega) x hx (fun i hi => by
    rw [hk i hi, hp, show (0 : Int).toNat = 0 from rfl, Nat.zero_add, Nat.mod_eq_of_lt hi]))
  refine ⟨s', a1, ?_⟩
  have r0 := a2.1
  have r1 : s'.pos < 624 := a2.2.1
  rw [mt_draws s' _ a2 0 (by omega), C34_mt19937 s (by omega) (by omega) x hx hk, hp, show (0 : Int).toNat = 0 from rfl, Nat.zero_add]
  -- the array as the continuation of a run plus a deviation in the unused bits
  obtain ⟨z, hz, _⟩ : ∃ z : MSol mt32, mtPhi mt32 (mtS mt32 z) = mtPhi mt32 X ∧ True := by
    obtain ⟨v, hv⟩ := mt32T_surj 1 (mtPhi mt32 X)
    obtain ⟨z, hz⟩ := mtPhi_surj mt32 v
    exact ⟨z, by rw [mt32Phi_step, hz, ← hv, pow_one], trivial⟩
  obtain ⟨z1, _⟩ := mtPhi_eq hz
  let D : MSol mt32 := X + mtS mt32 z
  have hD : mtS mt32 D = 0 := MSol.ext' fun k => by
    show x (k + 1) ^^^ (mtS mt32 z).val (k + 1) = 0
    rw [z1 k]; exact BitVec.xor_self
  have hXD : X = mtS mt32 z + D := MSol.ext' fun k => by
    show x k = (mtS mt32 z).val k ^^^ (x k ^^^ (mtS mt32 z).val k)
    rw [BitVec.xor_comm (x k), ← BitVec.xor_assoc, BitVec.xor_self, BitVec.zero_xor]
  have hphi : mtPhi mt32 (mtProd (jumpPlan count) z) = mtPhi mt32 ((mtS mt32 ^ (count * 2 ^ 128)) z) := by
    rw [mt32Phi_prod _ p2, mt32Phi_pow, p1]
  have hJ : 0 < count * 2 ^ 128 := Nat.mul_pos hc (Nat.pow_pos (by decide))
  generalize count * 2 ^ 128 = J at *
  have hy : (mtProd (jumpPlan count) X).val 0 = x J ^^^ (if 132 ∈ jumpPlan count ∨ 136 ∈ jumpPlan count then 0 else D.val 0) := by
    have e1 : (mtProd (jumpPlan count) (mtS mt32 z)).val 0 = x J := by
      rw [mtProd_shift]
      show (mtProd (jumpPlan count) z).val (0 + 1) = x J
      obtain ⟨j, rfl⟩ : ∃ j, J = j + 1 := ⟨J - 1, by omega⟩
      rw [(mtPhi_eq hphi).1 0, mtS_pow]
      show z.val (j + 1 + 1) = X.val (j + 1)
      rw [← z1 j]; rfl
    rw [hXD, map_add, MSol.add_val, e1, mtProd_null _ p2 D hD]
    split <;> rfl
  rw [hy]
  constructor
  · intro h
    have h := temper32_inj' (Option.some.inj h)
    by_cases hc : 132 ∈ jumpPlan count ∨ 136 ∈ jumpPlan count
    · exact .inl hc
    · right
      rw [if_neg hc] at h
      have h0 : D.val 0 = 0 := by
        have h' : x J ^^^ (x J ^^^ D.val 0) = 0 := by rw [h]; exact BitVec.xor_self
        rwa [← BitVec.xor_assoc, BitVec.xor_self, BitVec.zero_xor] at h'
      refine ⟨z.val, mtStd_rec.2 z.sol, fun i hi => ?_⟩
      rw [← hk i hi]
      show X.val i = (mtS mt32 z).val i
      have : D.val i = 0 := by
        cases i with
        | zero => exact h0
        | succ k =>
          show x (k + 1) ^^^ (mtS mt32 z).val (k + 1) = 0
          rw [z1 k]; exact BitVec.xor_self
      rw [hXD, MSol.add_val, this]; exact BitVec.xor_zero
  · rintro (h | ⟨u, hu, huk⟩)
    · rw [if_pos h]; simp
    · have h0 : D.val 0 = 0 := by
        have hzu : ∀ i, x i = u (i + 1) := fun i => by
          have := MtRec.unique (mtStd_rec.1 hx) ((mtStd_rec.1 hu).shift 1) (fun i hi => by rw [hk i hi, huk i hi, Nat.add_comm i 1]) i
          rw [this, Nat.add_comm 1 i]
        let U : MSol mt32 := ⟨u, mtStd_rec.1 hu⟩
        have eX : X = mtS mt32 U := MSol.ext' hzu
        have hUz : mtPhi mt32 z = mtPhi mt32 U := by
          apply injective_of_ann (PV.add_self (d := 19937)) mt32T mt32Chi mt32Chi_odd mt32_ann.1
          rw [← mt32Phi_step, hz, eX, mt32Phi_step]
        show x 0 ^^^ z.val (0 + 1) = 0
        rw [(mtPhi_eq hUz).1 0, hzu 0]; exact BitVec.xor_self
      rw [h0]; simp

/-- The array with the single nonzero word 1 at index `i`. -/
def mtUnit (i : Nat) : Nat → U32 := fun j => if j = i then 1 else 0

/-- C35 fails: from an array with one nonzero word the first draw after the jump is wrong. -/
theorem not_C35_first_draw : ∃ s s' : Mt 32, s.pos = 0 ∧ mtJumps 1 s = some s' ∧ nthO mtNext32 0 s' ≠ nthO mtNext32 (2 ^ 128) s := by
  obtain ⟨s', a1, a2⟩ := C35_first_draw_iff 1 (by decide) ⟨mtUnit 0, 0⟩ rfl
  rw [Nat.one_mul] at a2
  refine ⟨⟨mtUnit 0, 0⟩, s', rfl, a1, fun h => ?_⟩
  rcases a2.1 h with h | ⟨z, hz, hk⟩
  · exact absurd h (by decide +kernel)
  · have h0 := hz 0
    rw [← hk 0 (by decide), show 0 + 624 = 623 + 1 from rfl, show 0 + 397 = 396 + 1 from rfl, ← hk 623 (by decide), ← hk 396 (by decide)] at h0
    have : ∀ u : U32, (0 : U32) ≠ 0 ^^^ (((u &&& 0x80000000) ||| (1 &&& 0x7fffffff)) >>> 1) ^^^ (if (1 : U32).getLsbD 0 then 0x9908b0df else 0) := fun u hu => by
      have := congrArg (fun v : U32 => v.getLsbD 0) hu
      simp at this
    exact this _ h0

/-- The array of a jumped generator, in terms of where its solution stands. -/
theorem rot_key {s : Mt 32} {y : MSol mt32} (h : Rot s y) (j i : Nat) (hi : i < 624) (hj : j = (s.pos.toNat + i) % 624) : s.key j = y.val i := by
  rw [hj]; exact h.2.2 i hi

theorem mtDeg_one : ((jumpPlan 1).map mtDeg).sum = 19933 := by decide +kernel

/-- C35 fails: 35 draws after the jump the array, which is rotated by 589 words, is regenerated as if it began at index 0. -/
theorem not_C35_mt19937 : ∃ s s' : Mt 32, s.pos = 0 ∧ mtJumps 1 s = some s' ∧ nthO mtNext32 35 s' ≠ nthO mtNext32 (2 ^ 128 + 35) s := by
  let Y : MSol mt32 := ⟨mtSeq mt32 (mtUnit 432), mtSeq_rec mt32 _⟩
  have hY : ∀ i < 624, Y.val i = mtUnit 432 i := fun i hi => mtSeq_init mt32 _ hi
  obtain ⟨x, hx, _⟩ := mt_reach (2 ^ 128) Y
  let s : Mt 32 := ⟨x.val, 0⟩
  obtain ⟨s', y, a1, a2, a3, a4, _, _⟩ := mt_jump_rot 1 s (le_refl _) (show (0 : Int) < 624 by decide) x.val (mtStd_rec.2 x.sol) (fun i hi => by
    show x.val i = x.val ((0 + i) % 624)
    rw [Nat.zero_add, Nat.mod_eq_of_lt hi])
  have hp : s'.pos = 589 := by
    rw [a3, mtDeg_one]
    show ((((0 : Nat) + 19933) % 624 : Nat) : Int) = 589
    norm_num
  refine ⟨s, s', rfl, a1, ?_⟩
  rw [Nat.one_mul] at a4
  generalize 2 ^ 128 = J at *
  obtain ⟨u, hu, hk⟩ := mt32_solution s'.key
  rw [C34_mt19937 s' (by omega) (by omega) u hu hk, C34_mt19937 s (le_refl _) (show (0 : Int) ≤ 624 by decide) x.val (mtStd_rec.2 x.sol) (fun i hi => rfl)]
  intro h
  have h := temper32_inj' (Option.some.inj h)
  have e1 : x.val (s.pos.toNat + (J + 35)) = 0 := by
    show x.val (0 + (J + (34 + 1))) = 0
    rw [Nat.zero_add, hx 34, hY 35 (by decide)]; rfl
  have yv : ∀ i, y.val (i + 1) = Y.val (i + 1) := fun i => by rw [a4 i, hx i]
  have kv : ∀ j i, i + 1 < 624 → j = (589 + (i + 1)) % 624 → s'.key j = mtUnit 432 (i + 1) := fun j i hi hj => by
    rw [rot_key a2 j (i + 1) hi (by rw [hp]; exact hj), yv, hY _ hi]
  rw [e1, hp, show (589 : Int).toNat + 35 = 0 + 624 from rfl, hu 0, Nat.zero_add, Nat.zero_add, hk 0 (by decide), hk 1 (by decide), hk 397 (by decide),
    kv 0 34 (by decide) (by decide), kv 1 35 (by decide) (by decide), kv 397 431 (by decide) (by decide)] at h
  exact absurd h (by decide)

/-- C35 fails: a freshly seeded generator (position 624) jumps 624 draws short. -/
theorem not_C35_fresh : ∃ s s' : Mt 32, s.pos = 624 ∧ mtJumps 1 s = some s' ∧ nthO mtNext32 1 s' ≠ nthO mtNext32 (2 ^ 128 + 1) s := by
  let Y : MSol mt32 := ⟨mtSeq mt32 (mtUnit 398), mtSeq_rec mt32 _⟩
  have hY : ∀ i < 624, Y.val i = mtUnit 398 i := fun i hi => mtSeq_init mt32 _ hi
  obtain ⟨x, hx, _⟩ := mt_reach (2 ^ 128) Y
  obtain ⟨s', y, a1, a2, a3, a4, _, _⟩ := mt_jump_rot 1 ⟨x.val, 0⟩ (le_refl _) (show (0 : Int) < 624 by decide) x.val (mtStd_rec.2 x.sol) (fun i hi => by
    show x.val i = x.val ((0 + i) % 624)
    rw [Nat.zero_add, Nat.mod_eq_of_lt hi])
  have hp : s'.pos = 589 := by
    rw [a3, mtDeg_one]
    show ((((0 : Nat) + 19933) % 624 : Nat) : Int) = 589
    norm_num
  refine ⟨⟨x.val, 624⟩, s', rfl, by rw [mtJumps_full 1 (by decide) _ _ (le_refl _)]; exact a1, ?_⟩
  rw [Nat.one_mul] at a4
  generalize 2 ^ 128 = J at *
  rw [mt_draws s' y a2 1 (by rw [hp]; decide), C34_mt19937 ⟨x.val, 624⟩ (show (0 : Int) ≤ 624 by decide) (show (624 : Int) ≤ 624 by decide) x.val (mtStd_rec.2 x.sol) (fun i hi => rfl)]
  intro h
  have h := temper32_inj' (Option.some.inj h)
  have e0 : (Y.val 625) = 1 := by
    have := mtStd_rec.2 Y.sol 1
    rw [hY 1 (by decide), hY 398 (by decide), hY 2 (by decide)] at this
    rw [this]; decide
  have e1 : x.val ((624 : Int).toNat + (J + 1)) = Y.val 625 := by
    rw [show (624 : Int).toNat + (J + 1) = J + (624 + 1) by rw [show (624 : Int).toNat = 624 from rfl]; omega, hx 624]
  have e2 : y.val (0 + 1) = 0 := by
    rw [a4 0, hx 0, hY 1 (by decide)]; rfl
  rw [show y.val 1 = 0 from e2] at h
  have h : (0 : U32) = x.val ((624 : Int).toNat + (J + 1)) := h
  rw [e1, e0] at h
  exact absurd h (by decide)

theorem mt_interior_cert : Nat.beq (Nat.mod (Nat.shiftRight (hornerBits mt32F mtPoly128 (Nat.shiftLeft 2 64) 19937 15 0) 65) 0x100000000) 0 = false := by
  decide +kernel

theorem beq_aux (a : Nat) (h : a = 0) : Nat.beq a 0 = true := by rw [h]; rfl

theorem mt_interior : (((ev mt32T mtPoly128 ⟨2, by decide +kernel⟩ : PV 19937).val >>> 1) % 2 ^ 32) ≠ 0 := by
  have ht := hornerBits_tag (mtG 1 32 12673 19905 0x9908b0df) mt32F (mtF_tag 1 1 32 0xffffffff 12673 19905 0x9908b0df (by decide) (by decide)) mtPoly128 2 19937 15 0
  have hq := hornerBits_eq (mtG 1 32 12673 19905 0x9908b0df) (fun _ h => mtG_lt rfl (by decide) (show 19937 = 32 + 19905 from rfl) h) (mtG_xor _ _ _ _ _)
    mtPoly128 (⟨2, by decide +kernel⟩ : PV 19937) 19937 15 0
  rw [show 19937 % 2 ^ 15 = 19937 from rfl, Nat.mod_eq_of_lt (show mtPoly128 < 2 ^ 19937 from (mtPoly_facts 128 (by decide)).1)] at hq
  have h0 : (⇑(PV.endo (mtG 1 32 12673 19905 0x9908b0df) (fun _ h => mtG_lt rfl (by decide) (show 19937 = 32 + 19905 from rfl) h) (mtG_xor _ _ _ _ _)))^[19937] (0 : PV 19937) = 0 :=
    Function.iterate_fixed (map_zero _) _
  rw [h0, add_zero] at hq
  have hc := mt_interior_cert
  intro h
  have e : (ev mt32T mtPoly128 ⟨2, by decide +kernel⟩ : PV 19937).val = hornerBits (mtG 1 32 12673 19905 0x9908b0df) mtPoly128 2 19937 15 0 := hq.symm
  rw [e, show (0 : Nat) = 0 >>> 64 from rfl, ← ht, ← Nat.shiftRight_add] at h
  have : Nat.beq (Nat.mod (Nat.shiftRight (hornerBits mt32F mtPoly128 (Nat.shiftLeft 2 64) 19937 15 0) 65) 0x100000000) 0 = true :=
    beq_aux _ h
  rw [hc] at this
  exact Bool.false_ne_true this

/-- C35 fails from inside a block: at position 623 (where NumPy-compatible seeding leaves it) the words before the position
are taken for the words to come. -/
theorem not_C35_numpy_position : ∃ s s' : Mt 32, s.pos = 623 ∧ mtJumps 1 s = some s' ∧ nthO mtNext32 1 s' ≠ nthO mtNext32 (2 ^ 128 + 1) s := by
  have hpk : pk 624 (fun i => mtUnit 1 i) = 2 ^ 32 := by
    apply Nat.eq_of_testBit_eq
    intro j
    rw [testBit_pk (by decide), Nat.testBit_two_pow]
    by_cases h : j / 32 = 1
    · rw [mtUnit, if_pos h, h, show (1 : U32) = 1#32 from rfl, BitVec.getLsbD_one]
      simp only [show (1 < 624) = True from by simp, decide_true, Bool.true_and, show (0 < 32) = True from by simp]
      exact decide_eq_decide.2 (by omega)
    · rw [mtUnit, if_neg h]
      have : ¬ 32 = j := by omega
      simp [this]
  let W : MSol mt32 := ⟨mtSeq mt32 (mtUnit 1), mtSeq_rec mt32 _⟩
  have hW : ∀ i < 624, W.val i = mtUnit 1 i := fun i hi => mtSeq_init mt32 _ hi
  have hphi : mtPhi mt32 W = ⟨2, by decide +kernel⟩ := by
    apply PV.ext'
    show pk 624 (fun i => W.val (0 + i)) >>> 31 = 2
    rw [pk_congr 624 _ (mtUnit 1) (fun i hi => by rw [Nat.zero_add, hW i hi]), hpk]
    decide
  obtain ⟨s', y, a1, a2, a3, a4, _, _⟩ := mt_jump_rot 1 ⟨mtUnit 0, 623⟩ (show (0 : Int) ≤ 623 by decide) (show (623 : Int) < 624 by decide) W.val (mtStd_rec.2 W.sol) (fun i hi => by
    rw [hW i hi]
    show (if i = 1 then 1 else 0) = if (623 + i) % 624 = 0 then 1 else 0
    have : (623 + i) % 624 = 0 ↔ i = 1 := by omega
    simp only [this])
  have hp : s'.pos = 588 := by
    rw [a3, mtDeg_one]
    show ((((623 : Nat) + 19933) % 624 : Nat) : Int) = 588
    norm_num
  refine ⟨⟨mtUnit 0, 623⟩, s', rfl, a1, ?_⟩
  rw [Nat.one_mul] at a4
  have hw1 : W.val (2 ^ 128 + (0 + 1)) ≠ 0 := by
    have e := mt32_powers 128 (by decide)
    have e1 := mt32Phi_pow (2 ^ 128) W
    rw [← e, hphi] at e1
    have h := mt_interior
    rw [show ev mt32T mtPoly128 ⟨2, by decide +kernel⟩ = mtPhi mt32 ((mtS mt32 ^ 2 ^ 128) W) from e1.symm, mtPhi_val] at h
    have hw := mtWin_word (P := mt32) ((mtS mt32 ^ 2 ^ 128) W).val 0 1 (by decide) (by decide)
    rw [show 32 * 1 - 31 = 1 from rfl] at hw
    rw [hw, mtS_pow] at h
    intro h0
    rw [h0] at h
    exact h rfl
  obtain ⟨u, hu, hk⟩ := mt32_solution (mtUnit 0)
  have hu0 : ∀ n, u (n + 1) = 0 := fun n => by
    have h1 : MtRec mt32 (fun n => u (1 + n)) := (mtStd_rec.1 hu).shift 1
    have h2 : MtRec mt32 (fun _ => (0 : U32)) := fun k => show (0 : U32) = mtWord mt32 0 0 0 by decide
    have := MtRec.unique h1 h2 (fun i hi => ?_) n
    · rwa [Nat.add_comm 1 n] at this
    · have hi : i < 624 := hi
      rcases Nat.lt_or_ge (1 + i) 624 with h | h
      · show u (1 + i) = 0
        rw [hk _ h, mtUnit, if_neg (by omega)]
      · have e : 1 + i = 0 + 624 := by omega
        show u (1 + i) = 0
        rw [e, hu 0, hk 0 (by decide), hk (0 + 1) (by decide), hk (0 + 397) (by decide)]
        decide
  rw [mt_draws s' y a2 1 (by rw [hp]; decide), C34_mt19937 ⟨mtUnit 0, 623⟩ (show (0 : Int) ≤ 623 by decide) (show (623 : Int) ≤ 624 by decide) u hu hk]
  generalize 2 ^ 128 = J at *
  intro h
  have h := temper32_inj' (Option.some.inj h)
  have h : y.val (0 + 1) = u (623 + (J + 1)) := h
  rw [a4 0, ← Nat.add_assoc 623, hu0] at h
  exact hw1 h

end Verif
