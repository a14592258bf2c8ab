import Verif.Common.Linear

/-! Xoroshiro128+/++: the step is GF(2)-linear and annihilated by an explicit polynomial. -/

namespace Verif.Linear
open Verif.GF2 Verif.Lanes Verif.XorLinear

theorem rotl64_xor (a b : U64) (k : Nat) (hk : k < 64) :
    rotl64 (a ^^^ b) k = rotl64 a k ^^^ rotl64 b k := by
  rw [rotl64_eq _ _ hk, rotl64_eq _ _ hk, rotl64_eq _ _ hk]
  apply BitVec.eq_of_getLsbD_eq
  intro j hj
  rw [BitVec.getLsbD_xor, BitVec.getLsbD_rotateLeft, BitVec.getLsbD_rotateLeft,
    BitVec.getLsbD_rotateLeft, BitVec.getLsbD_xor, BitVec.getLsbD_xor]
  cases decide (j < k % 64)
  · cases decide (j < 64) <;> simp
  · rfl

theorem shl_xor (a b : U64) (k : Nat) : (a ^^^ b) <<< k = a <<< k ^^^ b <<< k :=
  BitVec.shiftLeft_xor_distrib a b k

theorem shr_xor (a b : U64) (k : Nat) : (a ^^^ b) >>> k = a >>> k ^^^ b >>> k :=
  BitVec.ushiftRight_xor_distrib a b k

/-- The common shape of the two steps. -/
def xoroStep (a b c : Nat) (s : S2) : S2 :=
  ⟨rotl64 s.s0 a ^^^ (s.s1 ^^^ s.s0) ^^^ ((s.s1 ^^^ s.s0) <<< b), rotl64 (s.s1 ^^^ s.s0) c⟩

theorem xoroPlus_step (s : S2) : stepOf xoroPlusNext s = xoroStep 24 16 37 s := rfl
theorem xoroPP_step (s : S2) : stepOf xoroPPNext s = xoroStep 49 21 28 s := rfl

def xoroEnd (a b c : Nat) (ha : a < 64) (hc : c < 64) : AddMonoid.End S2 :=
  AddMonoidHom.mk' (xoroStep a b c) (by
    intro x y
    simp only [xoroStep, S2.add_def, rotl64_xor _ _ a ha, rotl64_xor _ _ c hc, shl_xor, S2.mk.injEq]
    constructor <;> ac_rfl)

/-- The step on packed states. -/
def xoroStepP (a b c m : Nat) : List Nat → List Nat
  | [x0, x1] =>
    force (Nat.xor x1 x0) fun y =>
      [Nat.xor (Nat.xor (rotL (maskHi a m) (maskLo a m) a x0) y) (shlL (maskHi b m) b y),
       rotL (maskHi c m) (maskLo c m) c y]
  | l => l

def unp2 (l : List Nat) (i : Nat) : S2 := ⟨lane (l.getD 0 0) i, lane (l.getD 1 0) i⟩

theorem xoroStepP_len (a b c m : Nat) (l : List Nat) (h : l.length = 2) :
    (xoroStepP a b c m l).length = 2 := by
  match l, h with
  | [x0, x1], _ => simp [xoroStepP, force_eq]

theorem xoroStepP_eq (a b c m : Nat) (ha : a < 64) (ha0 : 0 < a) (hb : b ≤ 64) (hc : c < 64)
    (hc0 : 0 < c) (l : List Nat) (i : Nat) (h : l.length = 2) (hi : i < m) :
    unp2 (xoroStepP a b c m l) i = xoroEnd a b c ha hc (unp2 l i) := by
  match l, h with
  | [x0, x1], _ =>
    have hx : ∀ u v, Nat.xor u v = u ^^^ v := fun _ _ => rfl
    show unp2 (xoroStepP a b c m [x0, x1]) i = xoroStep a b c (unp2 [x0, x1] i)
    rw [xoroStepP, force_eq]
    simp only [unp2, xoroStep, List.getD_cons_zero, List.getD_cons_succ, hx, lane_xor,
      lane_rot _ _ _ _ ha ha0 hi, lane_rot _ _ _ _ hc hc0 hi, lane_shl _ _ _ _ hb hi,
      rotl64_eq _ _ ha, rotl64_eq _ _ hc]

theorem unp2_xor (l l' : List Nat) (i : Nat) (h : l.length = 2) (h' : l'.length = 2) :
    unp2 (List.zipWith Nat.xor l l') i = unp2 l i + unp2 l' i := by
  match l, h, l', h' with
  | [x0, x1], _, [y0, y1], _ =>
    simp [unp2, S2.add_def, lane_xor]

/-- A map of the 128-bit states that is additive and vanishes on the unit vectors is zero. -/
theorem end2_zero (f : AddMonoid.End S2) (h : ∀ i, i < 128 → f (unp2 [idWord 0, idWord 1] i) = 0) :
    f = 0 := by
  have hb0 : ∀ j, j < 64 → f ⟨BitVec.twoPow 64 j, 0⟩ = 0 := by
    intro j hj
    have := h (64 * 0 + j) (by omega)
    rw [unp2] at this
    simp only [List.getD_cons_zero, List.getD_cons_succ] at this
    rwa [lane_idWord_self 0 j hj, lane_idWord_ne 0 1 j hj (by decide)] at this
  have hb1 : ∀ j, j < 64 → f ⟨0, BitVec.twoPow 64 j⟩ = 0 := by
    intro j hj
    have := h (64 * 1 + j) (by omega)
    rw [unp2] at this
    simp only [List.getD_cons_zero, List.getD_cons_succ] at this
    rwa [lane_idWord_self 1 j hj, lane_idWord_ne 1 0 j hj (by decide)] at this
  ext v
  have h0 := add_map_eq_zero (fun a => f ⟨a, 0⟩)
    (by intro a b; rw [← map_add]; simp [S2.add_def]) hb0 v.s0
  have h1 := add_map_eq_zero (fun a => f ⟨0, a⟩)
    (by intro a b; rw [← map_add]; simp [S2.add_def]) hb1 v.s1
  have hv : v = ⟨v.s0, 0⟩ + ⟨0, v.s1⟩ := by cases v; simp [S2.add_def]
  rw [hv, map_add]
  rw [h0, h1]
  exact add_zero _

theorem xoro_ann (a b c p : Nat) (ha : a < 64) (ha0 : 0 < a) (hb : b ≤ 64) (hc : c < 64)
    (hc0 : 0 < c) (hp : p < 2 ^ 129)
    (hcheck : annLoop (xoroStepP a b c 128) 129 p [idWord 0, idWord 1] [0, 0] = [0, 0]) :
    ev (xoroEnd a b c ha hc) p = 0 := by
  apply end2_zero
  intro i hi
  have := annLoop_eq (xoroEnd a b c ha hc) 2 128 unp2 (xoroStepP a b c 128)
    (xoroStepP_len a b c 128) (fun l i h hi => xoroStepP_eq a b c 128 ha ha0 hb hc hc0 l i h hi)
    (fun l l' i h h' => unp2_xor l l' i h h') 129 p [idWord 0, idWord 1] [0, 0] rfl rfl i hi
  rw [hcheck, Nat.mod_eq_of_lt hp] at this
  have h00 : unp2 [0, 0] i = 0 := by simp [unp2, lane_zero, S2.zero_def]
  rw [h00, zero_add] at this
  exact this.symm

/-- Characteristic polynomials. -/
def xoroPlusPoly : Nat := 0x10008828e513b43d5095b8f76579aa001
def xoroPPPoly : Nat := 0x10031bcf2f855d6e58dae70779760b081

def xoroPlusEnd : AddMonoid.End S2 := xoroEnd 24 16 37 (by decide) (by decide)
def xoroPPEnd : AddMonoid.End S2 := xoroEnd 49 21 28 (by decide) (by decide)

theorem xoroPlus_ann : ev xoroPlusEnd xoroPlusPoly = 0 :=
  xoro_ann 24 16 37 _ (by decide) (by decide) (by decide) (by decide) (by decide) (by decide +kernel)
    (by decide +kernel)

theorem xoroPP_ann : ev xoroPPEnd xoroPPPoly = 0 :=
  xoro_ann 49 21 28 _ (by decide) (by decide) (by decide) (by decide) (by decide) (by decide +kernel)
    (by decide +kernel)

end Verif.Linear
