import Verif.Proof.Mt
import Verif.Common.Linear
import Mathlib.Data.Nat.Log

/-! Horner's rule of `mt19937-jump.c` on rotated arrays: the jump evaluates the polynomial at the shift of the solutions
of the recurrence. -/

namespace Verif
open Verif.GF2 Verif.Linear
variable {w : Nat}

/-! ### The space of solutions -/

theorem band_xor' (a b m : BitVec w) : (a ^^^ b) &&& m = (a &&& m) ^^^ (b &&& m) := by
  apply BitVec.eq_of_getLsbD_eq
  intro i hi
  simp only [BitVec.getLsbD_and, BitVec.getLsbD_xor]
  cases a.getLsbD i <;> cases b.getLsbD i <;> cases m.getLsbD i <;> rfl

theorem mtWord_xor (P : MtPar w) (hP : P.upper &&& P.lower = 0) (a b c a' b' c' : BitVec w) :
    mtWord P (a ^^^ a') (b ^^^ b') (c ^^^ c') = mtWord P a b c ^^^ mtWord P a' b' c' := by
  have hor : ∀ u v : BitVec w, (u &&& P.upper) ||| (v &&& P.lower) = (u &&& P.upper) ^^^ (v &&& P.lower) := by
    intro u v
    apply BitVec.eq_of_getLsbD_eq
    intro i hi
    have := congrArg (fun z => z.getLsbD i) hP
    simp only [BitVec.getLsbD_and] at this
    rw [show (0 : BitVec w).getLsbD i = false by simp] at this
    simp only [BitVec.getLsbD_or, BitVec.getLsbD_xor, BitVec.getLsbD_and]
    revert this
    cases u.getLsbD i <;> cases v.getLsbD i <;> cases P.upper.getLsbD i <;> cases P.lower.getLsbD i <;> simp
  simp only [mtWord, hor]
  simp only [band_xor']
  have e : (a &&& P.upper ^^^ a' &&& P.upper) ^^^ (b &&& P.lower ^^^ b' &&& P.lower) =
      (a &&& P.upper ^^^ b &&& P.lower) ^^^ (a' &&& P.upper ^^^ b' &&& P.lower) := by ac_rfl
  rw [e]
  generalize (a &&& P.upper ^^^ b &&& P.lower) = y
  generalize (a' &&& P.upper ^^^ b' &&& P.lower) = y'
  have e2 : (if (y ^^^ y').getLsbD 0 then P.a else 0) = (if y.getLsbD 0 then P.a else 0) ^^^ (if y'.getLsbD 0 then P.a else 0) := by
    rw [BitVec.getLsbD_xor]
    cases y.getLsbD 0 <;> cases y'.getLsbD 0 <;> simp
  rw [e2, BitVec.ushiftRight_xor_distrib]
  ac_rfl

/-- The masks of a parameter set do not overlap. -/
class MtOk (P : MtPar w) : Prop where
  disj : P.upper &&& P.lower = 0

instance : MtOk mt32 := ⟨by decide⟩
instance : MtOk mt64 := ⟨by decide⟩

/-- A solution of the recurrence. -/
structure MSol (P : MtPar w) where
  val : Nat → BitVec w
  sol : MtRec P val

theorem MSol.ext' {P : MtPar w} {x y : MSol P} (h : ∀ k, x.val k = y.val k) : x = y := by
  cases x; cases y; congr; exact funext h

theorem mtWord_zero (P : MtPar w) : mtWord P 0 0 0 = 0 := by
  rw [mtWord]
  simp

instance (P : MtPar w) [MtOk P] : AddCommGroup (MSol P) := xorGroup ⟨fun _ => 0, fun _ => (mtWord_zero P).symm⟩
  (fun x y => ⟨fun k => x.val k ^^^ y.val k, fun k => by
    show x.val (k + P.N) ^^^ y.val (k + P.N) = _
    rw [x.sol k, y.sol k, ← mtWord_xor P MtOk.disj]⟩)
  (fun a b c => MSol.ext' fun _ => BitVec.xor_assoc ..) (fun a b => MSol.ext' fun _ => BitVec.xor_comm ..)
  (fun a => MSol.ext' fun _ => BitVec.zero_xor) (fun a => MSol.ext' fun _ => BitVec.xor_self)

variable {P : MtPar w} [MtOk P]

theorem MSol.add_val (x y : MSol P) (k : Nat) : (x + y).val k = x.val k ^^^ y.val k := rfl
theorem MSol.zero_val (k : Nat) : (0 : MSol P).val k = 0 := rfl
theorem MSol.add_self (x : MSol P) : x + x = 0 := MSol.ext' fun _ => BitVec.xor_self

/-- The shift. -/
def mtS (P : MtPar w) [MtOk P] : AddMonoid.End (MSol P) where
  toFun x := ⟨fun k => x.val (k + 1), fun k => by
    have := x.sol (k + 1)
    rw [Nat.add_right_comm k 1 P.N, Nat.add_right_comm k 1 P.M] at this
    exact this⟩
  map_zero' := rfl
  map_add' _ _ := rfl

theorem mtS_pow (n : Nat) (x : MSol P) (k : Nat) : ((mtS P ^ n) x).val k = x.val (n + k) := by
  rw [pow_apply]
  induction n generalizing x k with
  | zero => rw [Nat.zero_add]; rfl
  | succ n ih =>
    rw [Function.iterate_succ_apply, ih]
    show x.val (n + k + 1) = _
    rw [Nat.add_right_comm n 1 k]

/-! ### Rotated arrays -/

/-- The array, read cyclically from the position on, holds the first `N` terms of `x`. -/
def Rot (s : Mt w) (x : MSol P) : Prop := 0 ≤ s.pos ∧ s.pos < P.N ∧ ∀ i < P.N, s.key ((s.pos.toNat + i) % P.N) = x.val i

theorem mod_or {a N : Nat} (h : a < 2 * N) : a % N = if a < N then a else a - N := by
  split
  · exact Nat.mod_eq_of_lt (by assumption)
  · rw [Nat.mod_eq_sub_mod (by omega), Nat.mod_eq_of_lt (by omega)]

omit [MtOk P] in
theorem mtStep_eq (s : Mt w) (h0 : 0 ≤ s.pos) (h1 : s.pos < P.N) : mtStep P s =
    ⟨mtSet P s.key s.pos.toNat ((s.pos.toNat + 1) % P.N) ((s.pos.toNat + P.M) % P.N), ((s.pos.toNat + 1) % P.N : Nat)⟩ := by
  have hM := P.hM
  have e1 := mod_or (a := s.pos.toNat + 1) (N := P.N) (by omega)
  have e2 := mod_or (a := s.pos.toNat + P.M) (N := P.N) (by omega)
  rw [mtStep]
  split
  · rw [if_pos (by omega)] at e1 e2
    rw [e1, e2]
    congr 1
    omega
  split
  · rw [if_pos (by omega)] at e1
    rw [if_neg (by omega)] at e2
    rw [e1, e2]
    congr 1
    omega
  · rw [if_pos (by omega)]
    rw [if_neg (by omega)] at e1 e2
    rw [e1, e2]
    have : s.pos.toNat = P.N - 1 := by omega
    rw [this]
    congr 1
    · congr 1 <;> omega
    · omega

theorem rot_step {s : Mt w} {x : MSol P} (h : Rot s x) : Rot (mtStep P s) (mtS P x) ∧ (mtStep P s).pos = ((s.pos.toNat + 1) % P.N : Nat) := by
  obtain ⟨h0, h1, h2⟩ := h
  have hM := P.hM
  rw [mtStep_eq s h0 h1]
  refine ⟨⟨Int.natCast_nonneg _, by show ((_ : Nat) : Int) < _; exact_mod_cast Nat.mod_lt _ (by omega), fun i hi => ?_⟩, rfl⟩
  show mtSet P s.key s.pos.toNat _ _ (((((s.pos.toNat + 1) % P.N : Nat) : Int).toNat + i) % P.N) = x.val (i + 1)
  rw [Int.toNat_natCast, Nat.mod_add_mod, Nat.add_right_comm, Nat.add_assoc]
  have hp : s.pos.toNat < P.N := by omega
  rcases Nat.lt_or_ge (i + 1) P.N with hi' | hi'
  · rw [mtSet_ne, h2 (i + 1) hi']
    rw [mod_or (by omega)]
    split <;> omega
  · have : i + 1 = P.N := by omega
    rw [this, Nat.add_mod_right, Nat.mod_eq_of_lt hp, mtSet_self]
    have hx := x.sol 0
    rw [Nat.zero_add, Nat.zero_add, Nat.zero_add] at hx
    rw [hx]
    congr 1
    · have := h2 0 (by omega)
      rwa [Nat.add_zero, Nat.mod_eq_of_lt hp] at this
    · exact h2 1 (by omega)
    · exact h2 P.M (by omega)

/-- After `m` of the additions. -/
def AddI (P : MtPar w) (s t : Mt w) (m : Nat) (k : Nat → BitVec w) : Prop :=
  ∀ i < P.N, k ((s.pos.toNat + i) % P.N) = if i < m then s.key ((s.pos.toNat + i) % P.N) ^^^ t.key ((t.pos.toNat + i) % P.N)
    else s.key ((s.pos.toNat + i) % P.N)

omit [MtOk P] in
theorem AddI.step {s t : Mt w} (hs : s.pos.toNat < P.N) {m : Nat} {k : Nat → BitVec w} (h : AddI P s t m k) (hm : m < P.N) {a b : Nat}
    (ha : a = (s.pos.toNat + m) % P.N) (hb : b = (t.pos.toNat + m) % P.N) : AddI P s t (m + 1) (Function.update k a (k a ^^^ t.key b)) := by
  intro i hi
  by_cases him : i = m
  · subst him
    rw [← ha, Function.update_self, if_pos (by omega), hb, ha, h i hi, if_neg (by omega)]
  · rw [Function.update_of_ne, h i hi]
    · by_cases hlt : i < m
      · rw [if_pos hlt, if_pos (by omega)]
      · rw [if_neg hlt, if_neg (by omega)]
    · rw [ha, mod_or (by omega), mod_or (by omega)]
      split <;> split <;> omega

theorem rot_add {s t : Mt w} {x y : MSol P} (hs : Rot s x) (ht : Rot t y) : Rot (mtAdd P s t) (x + y) ∧ (mtAdd P s t).pos = s.pos := by
  obtain ⟨s0, s1, s2⟩ := hs
  obtain ⟨t0, t1, t2⟩ := ht
  have hsp : s.pos.toNat < P.N := by omega
  have htp : t.pos.toNat < P.N := by omega
  have fin : ∀ k, AddI P s t P.N k → Rot ⟨k, s.pos⟩ (x + y) := by
    intro k hk
    refine ⟨s0, s1, fun i hi => ?_⟩
    show k ((s.pos.toNat + i) % P.N) = _
    rw [hk i hi, if_pos hi, s2 i hi, t2 i hi]; rfl
  have init : AddI P s t 0 s.key := fun i hi => by rw [if_neg (by omega)]
  rw [mtAdd]
  by_cases hle : s.pos.toNat ≤ t.pos.toNat
  · rw [if_pos hle]
    refine ⟨fin _ ?_, rfl⟩
    have i1 := foldl_range_inv (fun k i => Function.update k (i + s.pos.toNat) (k (i + s.pos.toNat) ^^^ t.key (i + t.pos.toNat))) (AddI P s t)
      (P.N - t.pos.toNat) s.key init (fun m a hm ha => ha.step hsp (by omega)
        (by rw [mod_or (by omega), if_pos (by omega)]; omega) (by rw [mod_or (by omega), if_pos (by omega)]; omega))
    have i2 := foldl_range'_inv (fun k i => Function.update k (i + s.pos.toNat) (k (i + s.pos.toNat) ^^^ t.key (i + t.pos.toNat - P.N))) (AddI P s t)
      (P.N - t.pos.toNat) (t.pos.toNat - s.pos.toNat) _ i1 (fun m a hm hm' ha => ha.step hsp (by omega)
        (by rw [mod_or (by omega), if_pos (by omega)]; omega) (by rw [mod_or (by omega), if_neg (by omega)]; omega))
    rw [show P.N - t.pos.toNat + (t.pos.toNat - s.pos.toNat) = P.N - s.pos.toNat by omega] at i2
    have i3 := foldl_range'_inv (fun k i => Function.update k (i + s.pos.toNat - P.N) (k (i + s.pos.toNat - P.N) ^^^ t.key (i + t.pos.toNat - P.N)))
      (AddI P s t) (P.N - s.pos.toNat) s.pos.toNat _ i2 (fun m a hm hm' ha => ha.step hsp (by omega)
        (by rw [mod_or (by omega), if_neg (by omega)]; omega) (by rw [mod_or (by omega), if_neg (by omega)]; omega))
    rwa [show P.N - s.pos.toNat + s.pos.toNat = P.N by omega] at i3
  · rw [if_neg hle]
    refine ⟨fin _ ?_, rfl⟩
    have i1 := foldl_range_inv (fun k i => Function.update k (i + s.pos.toNat) (k (i + s.pos.toNat) ^^^ t.key (i + t.pos.toNat))) (AddI P s t)
      (P.N - s.pos.toNat) s.key init (fun m a hm ha => ha.step hsp (by omega)
        (by rw [mod_or (by omega), if_pos (by omega)]; omega) (by rw [mod_or (by omega), if_pos (by omega)]; omega))
    have i2 := foldl_range'_inv (fun k i => Function.update k (i + s.pos.toNat - P.N) (k (i + s.pos.toNat - P.N) ^^^ t.key (i + t.pos.toNat))) (AddI P s t)
      (P.N - s.pos.toNat) (s.pos.toNat - t.pos.toNat) _ i1 (fun m a hm hm' ha => ha.step hsp (by omega)
        (by rw [mod_or (by omega), if_neg (by omega)]; omega) (by rw [mod_or (by omega), if_pos (by omega)]; omega))
    rw [show P.N - s.pos.toNat + (s.pos.toNat - t.pos.toNat) = P.N - t.pos.toNat by omega] at i2
    have i3 := foldl_range'_inv (fun k i => Function.update k (i + s.pos.toNat - P.N) (k (i + s.pos.toNat - P.N) ^^^ t.key (i + t.pos.toNat - P.N)))
      (AddI P s t) (P.N - t.pos.toNat) t.pos.toNat _ i2 (fun m a hm hm' ha => ha.step hsp (by omega)
        (by rw [mod_or (by omega), if_neg (by omega)]; omega) (by rw [mod_or (by omega), if_neg (by omega)]; omega))
    rwa [show P.N - t.pos.toNat + t.pos.toNat = P.N by omega] at i3

/-! ### Horner's rule -/

/-- The number with the given bits, highest first. -/
def bitsVal : List Bool → Nat
  | [] => 0
  | c :: cs => ((if c then 1 else 0) <<< cs.length) ^^^ bitsVal cs

theorem bitsVal_lt (cs : List Bool) : bitsVal cs < 2 ^ cs.length := by
  induction cs with
  | nil => decide
  | cons c cs ih =>
    rw [bitsVal, List.length_cons]
    apply Nat.xor_lt_two_pow
    · rw [Nat.shiftLeft_eq, pow_succ, Nat.mul_comm]
      apply Nat.mul_lt_mul_of_pos_left _ (Nat.pow_pos (by decide))
      split <;> decide
    · exact lt_of_lt_of_le ih (Nat.pow_le_pow_right (by decide) (by omega))

theorem bitsVal_true (cs : List Bool) : (bitsVal (true :: cs)).log2 = cs.length ∧ bitsVal (true :: cs) ≠ 0 := by
  have hb : (bitsVal (true :: cs)).testBit cs.length = true := by
    rw [bitsVal, if_pos rfl, Nat.testBit_xor, Nat.testBit_lt_two_pow (bitsVal_lt cs), Nat.testBit_shiftLeft]
    simp
  have hge := Nat.ge_two_pow_of_testBit hb
  have hne : bitsVal (true :: cs) ≠ 0 := by have := Nat.pow_pos (n := cs.length) (show 0 < 2 by decide); omega
  refine ⟨?_, hne⟩
  have h1 := (Nat.le_log2 hne).2 hge
  have h2 := (Nat.log2_lt hne).2 (bitsVal_lt (true :: cs))
  rw [List.length_cons] at h2
  omega

theorem ev_bitsVal_cons (c : Bool) (cs : List Bool) (x : MSol P) :
    ev (mtS P) (bitsVal (c :: cs)) x = (if c then (mtS P ^ cs.length) x else 0) + ev (mtS P) (bitsVal cs) x := by
  rw [bitsVal, ev_xor (mtS P) (end_add_self MSol.add_self), add_apply, ev_shiftLeft]
  congr 1
  cases c
  · rw [if_neg (by decide), if_neg (by decide), ev_zero, mul_zero]; rfl
  · rw [if_pos rfl, if_pos rfl, ev_one, mul_one]

theorem rot_loop {s : Mt w} {x : MSol P} (hs : Rot s x) (c : Bool) (cs : List Bool) (t : Mt w) (y : MSol P) (ht : Rot t y) :
    Rot (mtHornerLoop P s (c :: cs) t) ((mtS P ^ cs.length) y + ev (mtS P) (bitsVal (c :: cs)) x) ∧
      (mtHornerLoop P s (c :: cs) t).pos = ((t.pos.toNat + cs.length) % P.N : Nat) := by
  induction cs generalizing c t y with
  | nil =>
    rw [mtHornerLoop, ev_bitsVal_cons, List.length_nil, pow_zero, bitsVal, ev_zero, Nat.add_zero]
    have hp : t.pos = ((t.pos.toNat % P.N : Nat) : Int) := by
      have := ht.1; have := ht.2.1
      rw [Nat.mod_eq_of_lt (by omega)]; omega
    have e0 : (0 : AddMonoid.End (MSol P)) x = 0 := rfl
    rw [e0, add_zero]
    cases c
    · exact ⟨by rw [if_neg (by decide), if_neg (by decide), add_zero]; exact ht, hp⟩
    · rw [if_pos rfl, if_pos rfl]
      obtain ⟨a1, a2⟩ := rot_add ht hs
      exact ⟨a1, by rw [a2]; exact hp⟩
  | cons d cs ih =>
    rw [mtHornerLoop]
    obtain ⟨t', y', ht', hr, hy, hp⟩ : ∃ t' y', (if c then mtAdd P t s else t) = t' ∧ Rot t' y' ∧ y' = y + (if c then x else 0) ∧ t'.pos = t.pos := by
      cases c
      · exact ⟨t, y, by rw [if_neg (by decide)], ht, by rw [if_neg (by decide), add_zero], rfl⟩
      · obtain ⟨a1, a2⟩ := rot_add ht hs
        exact ⟨mtAdd P t s, y + x, by rw [if_pos rfl], a1, by rw [if_pos rfl], a2⟩
    rw [ht']
    obtain ⟨b1, b2⟩ := rot_step hr
    obtain ⟨i1, i2⟩ := ih d (mtStep P t') (mtS P y') b1
    constructor
    · have e : (mtS P ^ (d :: cs).length) y + ev (mtS P) (bitsVal (c :: d :: cs)) x = (mtS P ^ cs.length) (mtS P y') + ev (mtS P) (bitsVal (d :: cs)) x := by
        rw [ev_bitsVal_cons c, ← add_assoc]
        congr 1
        rw [← mul_apply, ← pow_succ, hy, map_add, List.length_cons]
        congr 1
        cases c
        · rw [if_neg (by decide), if_neg (by decide), map_zero]
        · rfl
      rw [e]; exact i1
    · rw [i2, b2, Int.toNat_natCast, Nat.mod_add_mod, hp, List.length_cons, Nat.add_assoc, Nat.add_comm 1]

/-- The jump evaluates the polynomial at the shift; the position moves on by its degree. -/
theorem rot_horner {s : Mt w} {x : MSol P} (hs : Rot s x) (cs : List Bool) (h : bitsVal cs ≠ 0) :
    ∃ s', mtHorner P s cs = some s' ∧ Rot s' (ev (mtS P) (bitsVal cs) x) ∧ s'.pos = ((s.pos.toNat + (bitsVal cs).log2) % P.N : Nat) := by
  induction cs with
  | nil => exact absurd rfl h
  | cons c cs ih =>
    cases c
    · have e : bitsVal (false :: cs) = bitsVal cs := by
        rw [bitsVal, if_neg (by decide), Nat.zero_shiftLeft, Nat.zero_xor]
      rw [e] at h ⊢
      rw [mtHorner]
      exact ih h
    · rw [(bitsVal_true cs).1]
      cases cs with
      | nil =>
        refine ⟨s, by rw [mtHorner], ?_, ?_⟩
        · rw [ev_bitsVal_cons, if_pos rfl, bitsVal, ev_zero, List.length_nil, pow_zero]
          have e0 : (0 : AddMonoid.End (MSol P)) x = 0 := rfl
          rw [e0, add_zero]
          exact hs
        · have := hs.1; have := hs.2.1
          rw [List.length_nil, Nat.add_zero, Nat.mod_eq_of_lt (by omega)]; omega
      | cons d cs =>
        obtain ⟨b1, b2⟩ := rot_step hs
        obtain ⟨l1, l2⟩ := rot_loop hs d cs _ _ b1
        refine ⟨_, by rw [mtHorner], ?_, ?_⟩
        · rw [ev_bitsVal_cons, if_pos rfl, List.length_cons, pow_succ, mul_apply]
          exact l1
        · rw [l2, b2, Int.toNat_natCast, Nat.mod_add_mod, List.length_cons, Nat.add_assoc, Nat.add_comm 1]

end Verif
