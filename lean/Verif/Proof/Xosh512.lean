import Verif.Proof.Xoro

/-! Xoshiro512: the step is GF(2)-linear and annihilated by an explicit polynomial. -/

namespace Verif.Linear
open Verif.GF2 Verif.Lanes Verif.XorLinear

theorem xosh512_step (s : S8) : stepOf xosh512Next s = xosh512Step s := rfl

def xosh512End : AddMonoid.End S8 :=
  AddMonoidHom.mk' xosh512Step (by
    intro x y
    simp only [xosh512Step, S8.add_def, rotl64_xor _ _ 21 (by decide), shl_xor, S8.mk.injEq]
    refine ⟨?_, ?_, ?_, ?_, ?_, ?_, ?_, ?_⟩ <;> simp only [BitVec.xor_assoc, xor_left_comm, BitVec.xor_comm])

/-- The step on packed states. -/
def xosh512StepP (m : Nat) : List Nat → List Nat
  | [x0, x1, x2, x3, x4, x5, x6, x7] =>
    [Nat.xor x0 x6, Nat.xor x1 (Nat.xor x2 x0), Nat.xor x2 x0, Nat.xor x3 x4,
     Nat.xor x4 (Nat.xor x5 x1), Nat.xor x5 x1,
     Nat.xor (Nat.xor x6 (Nat.xor x7 x3)) (shlL (maskHi 11 m) 11 x1),
     rotL (maskHi 21 m) (maskLo 21 m) 21 (Nat.xor x7 x3)]
  | l => l

def unp8 (l : List Nat) (i : Nat) : S8 :=
  ⟨lane (l.getD 0 0) i, lane (l.getD 1 0) i, lane (l.getD 2 0) i, lane (l.getD 3 0) i, lane (l.getD 4 0) i, lane (l.getD 5 0) i, lane (l.getD 6 0) i, lane (l.getD 7 0) i⟩

theorem xosh512StepP_len (m : Nat) (l : List Nat) (h : l.length = 8) :
    (xosh512StepP m l).length = 8 := by
  match l, h with
  | [x0, x1, x2, x3, x4, x5, x6, x7], _ => simp [xosh512StepP]

theorem xosh512StepP_eq (m : Nat) (l : List Nat) (i : Nat) (h : l.length = 8) (hi : i < m) :
    unp8 (xosh512StepP m l) i = xosh512End (unp8 l i) := by
  match l, h with
  | [x0, x1, x2, x3, x4, x5, x6, x7], _ =>
    have hx : ∀ u v, Nat.xor u v = u ^^^ v := fun _ _ => rfl
    show unp8 (xosh512StepP m [x0, x1, x2, x3, x4, x5, x6, x7]) i = xosh512Step (unp8 [x0, x1, x2, x3, x4, x5, x6, x7] i)
    rw [xosh512StepP]
    simp only [unp8, xosh512Step, List.getD_cons_zero, List.getD_cons_succ, hx, lane_xor,
      lane_rot _ 21 _ _ (by decide) (by decide) hi, lane_shl _ 11 _ _ (by decide) hi,
      rotl64_eq _ 21 (by decide)]

theorem unp8_xor (l l' : List Nat) (i : Nat) (h : l.length = 8) (h' : l'.length = 8) :
    unp8 (List.zipWith Nat.xor l l') i = unp8 l i + unp8 l' i := by
  match l, h, l', h' with
  | [x0, x1, x2, x3, x4, x5, x6, x7], _, [y0, y1, y2, y3, y4, y5, y6, y7], _ =>
    simp [unp8, S8.add_def, lane_xor]

/-- A map of the 512-bit states that is additive and vanishes on the unit vectors is zero. -/
theorem end8_zero (f : AddMonoid.End S8)
    (h : ∀ i, i < 512 → f (unp8 [idWord 0, idWord 1, idWord 2, idWord 3, idWord 4, idWord 5, idWord 6, idWord 7] i) = 0) : f = 0 := by
  have hb0 : ∀ j, j < 64 → f ⟨BitVec.twoPow 64 j, 0, 0, 0, 0, 0, 0, 0⟩ = 0 := by
    intro j hj
    have := h (64 * 0 + j) (by omega)
    rw [unp8] at this
    simp only [List.getD_cons_zero, List.getD_cons_succ] at this
    rwa [lane_idWord_self 0 j hj, lane_idWord_ne 0 1 j hj (by decide), lane_idWord_ne 0 2 j hj (by decide), lane_idWord_ne 0 3 j hj (by decide), lane_idWord_ne 0 4 j hj (by decide), lane_idWord_ne 0 5 j hj (by decide), lane_idWord_ne 0 6 j hj (by decide), lane_idWord_ne 0 7 j hj (by decide)] at this
  have hb1 : ∀ j, j < 64 → f ⟨0, BitVec.twoPow 64 j, 0, 0, 0, 0, 0, 0⟩ = 0 := by
    intro j hj
    have := h (64 * 1 + j) (by omega)
    rw [unp8] at this
    simp only [List.getD_cons_zero, List.getD_cons_succ] at this
    rwa [lane_idWord_ne 1 0 j hj (by decide), lane_idWord_self 1 j hj, lane_idWord_ne 1 2 j hj (by decide), lane_idWord_ne 1 3 j hj (by decide), lane_idWord_ne 1 4 j hj (by decide), lane_idWord_ne 1 5 j hj (by decide), lane_idWord_ne 1 6 j hj (by decide), lane_idWord_ne 1 7 j hj (by decide)] at this
  have hb2 : ∀ j, j < 64 → f ⟨0, 0, BitVec.twoPow 64 j, 0, 0, 0, 0, 0⟩ = 0 := by
    intro j hj
    have := h (64 * 2 + j) (by omega)
    rw [unp8] at this
    simp only [List.getD_cons_zero, List.getD_cons_succ] at this
    rwa [lane_idWord_ne 2 0 j hj (by decide), lane_idWord_ne 2 1 j hj (by decide), lane_idWord_self 2 j hj, lane_idWord_ne 2 3 j hj (by decide), lane_idWord_ne 2 4 j hj (by decide), lane_idWord_ne 2 5 j hj (by decide), lane_idWord_ne 2 6 j hj (by decide), lane_idWord_ne 2 7 j hj (by decide)] at this
  have hb3 : ∀ j, j < 64 → f ⟨0, 0, 0, BitVec.twoPow 64 j, 0, 0, 0, 0⟩ = 0 := by
    intro j hj
    have := h (64 * 3 + j) (by omega)
    rw [unp8] at this
    simp only [List.getD_cons_zero, List.getD_cons_succ] at this
    rwa [lane_idWord_ne 3 0 j hj (by decide), lane_idWord_ne 3 1 j hj (by decide), lane_idWord_ne 3 2 j hj (by decide), lane_idWord_self 3 j hj, lane_idWord_ne 3 4 j hj (by decide), lane_idWord_ne 3 5 j hj (by decide), lane_idWord_ne 3 6 j hj (by decide), lane_idWord_ne 3 7 j hj (by decide)] at this
  have hb4 : ∀ j, j < 64 → f ⟨0, 0, 0, 0, BitVec.twoPow 64 j, 0, 0, 0⟩ = 0 := by
    intro j hj
    have := h (64 * 4 + j) (by omega)
    rw [unp8] at this
    simp only [List.getD_cons_zero, List.getD_cons_succ] at this
    rwa [lane_idWord_ne 4 0 j hj (by decide), lane_idWord_ne 4 1 j hj (by decide), lane_idWord_ne 4 2 j hj (by decide), lane_idWord_ne 4 3 j hj (by decide), lane_idWord_self 4 j hj, lane_idWord_ne 4 5 j hj (by decide), lane_idWord_ne 4 6 j hj (by decide), lane_idWord_ne 4 7 j hj (by decide)] at this
  have hb5 : ∀ j, j < 64 → f ⟨0, 0, 0, 0, 0, BitVec.twoPow 64 j, 0, 0⟩ = 0 := by
    intro j hj
    have := h (64 * 5 + j) (by omega)
    rw [unp8] at this
    simp only [List.getD_cons_zero, List.getD_cons_succ] at this
    rwa [lane_idWord_ne 5 0 j hj (by decide), lane_idWord_ne 5 1 j hj (by decide), lane_idWord_ne 5 2 j hj (by decide), lane_idWord_ne 5 3 j hj (by decide), lane_idWord_ne 5 4 j hj (by decide), lane_idWord_self 5 j hj, lane_idWord_ne 5 6 j hj (by decide), lane_idWord_ne 5 7 j hj (by decide)] at this
  have hb6 : ∀ j, j < 64 → f ⟨0, 0, 0, 0, 0, 0, BitVec.twoPow 64 j, 0⟩ = 0 := by
    intro j hj
    have := h (64 * 6 + j) (by omega)
    rw [unp8] at this
    simp only [List.getD_cons_zero, List.getD_cons_succ] at this
    rwa [lane_idWord_ne 6 0 j hj (by decide), lane_idWord_ne 6 1 j hj (by decide), lane_idWord_ne 6 2 j hj (by decide), lane_idWord_ne 6 3 j hj (by decide), lane_idWord_ne 6 4 j hj (by decide), lane_idWord_ne 6 5 j hj (by decide), lane_idWord_self 6 j hj, lane_idWord_ne 6 7 j hj (by decide)] at this
  have hb7 : ∀ j, j < 64 → f ⟨0, 0, 0, 0, 0, 0, 0, BitVec.twoPow 64 j⟩ = 0 := by
    intro j hj
    have := h (64 * 7 + j) (by omega)
    rw [unp8] at this
    simp only [List.getD_cons_zero, List.getD_cons_succ] at this
    rwa [lane_idWord_ne 7 0 j hj (by decide), lane_idWord_ne 7 1 j hj (by decide), lane_idWord_ne 7 2 j hj (by decide), lane_idWord_ne 7 3 j hj (by decide), lane_idWord_ne 7 4 j hj (by decide), lane_idWord_ne 7 5 j hj (by decide), lane_idWord_ne 7 6 j hj (by decide), lane_idWord_self 7 j hj] at this
  ext v
  have h0 := add_map_eq_zero (fun a => f ⟨a, 0, 0, 0, 0, 0, 0, 0⟩)
    (by intro a b; rw [← map_add]; simp [S8.add_def]) hb0 v.s0
  have h1 := add_map_eq_zero (fun a => f ⟨0, a, 0, 0, 0, 0, 0, 0⟩)
    (by intro a b; rw [← map_add]; simp [S8.add_def]) hb1 v.s1
  have h2 := add_map_eq_zero (fun a => f ⟨0, 0, a, 0, 0, 0, 0, 0⟩)
    (by intro a b; rw [← map_add]; simp [S8.add_def]) hb2 v.s2
  have h3 := add_map_eq_zero (fun a => f ⟨0, 0, 0, a, 0, 0, 0, 0⟩)
    (by intro a b; rw [← map_add]; simp [S8.add_def]) hb3 v.s3
  have h4 := add_map_eq_zero (fun a => f ⟨0, 0, 0, 0, a, 0, 0, 0⟩)
    (by intro a b; rw [← map_add]; simp [S8.add_def]) hb4 v.s4
  have h5 := add_map_eq_zero (fun a => f ⟨0, 0, 0, 0, 0, a, 0, 0⟩)
    (by intro a b; rw [← map_add]; simp [S8.add_def]) hb5 v.s5
  have h6 := add_map_eq_zero (fun a => f ⟨0, 0, 0, 0, 0, 0, a, 0⟩)
    (by intro a b; rw [← map_add]; simp [S8.add_def]) hb6 v.s6
  have h7 := add_map_eq_zero (fun a => f ⟨0, 0, 0, 0, 0, 0, 0, a⟩)
    (by intro a b; rw [← map_add]; simp [S8.add_def]) hb7 v.s7
  have hv : v = ⟨v.s0, 0, 0, 0, 0, 0, 0, 0⟩ + ⟨0, v.s1, 0, 0, 0, 0, 0, 0⟩ + ⟨0, 0, v.s2, 0, 0, 0, 0, 0⟩ + ⟨0, 0, 0, v.s3, 0, 0, 0, 0⟩ + ⟨0, 0, 0, 0, v.s4, 0, 0, 0⟩ + ⟨0, 0, 0, 0, 0, v.s5, 0, 0⟩ + ⟨0, 0, 0, 0, 0, 0, v.s6, 0⟩ + ⟨0, 0, 0, 0, 0, 0, 0, v.s7⟩ := by
    cases v; simp [S8.add_def]
  rw [hv]
  simp only [map_add]
  rw [h0, h1, h2, h3, h4, h5, h6, h7]
  simp

def xosh512Poly : Nat := 0x10000500055d8b77f8f2d27268ce4b20b51ba7c47edc758adf11eef832e32518f7a67058e7bbab6f0f05e63fca6d7b7817fdc78d886f00c63cf3cff0c00000001

theorem xosh512_ann : ev xosh512End xosh512Poly = 0 := by
  apply end8_zero
  intro i hi
  have := annLoop_eq xosh512End 8 512 unp8 (xosh512StepP 512)
    (xosh512StepP_len 512) (fun l i h hi => xosh512StepP_eq 512 l i h hi)
    (fun l l' i h h' => unp8_xor l l' i h h') 513 xosh512Poly [idWord 0, idWord 1, idWord 2, idWord 3, idWord 4, idWord 5, idWord 6, idWord 7] [0, 0, 0, 0, 0, 0, 0, 0] rfl rfl i hi
  have hcheck : annLoop (xosh512StepP 512) 513 xosh512Poly [idWord 0, idWord 1, idWord 2, idWord 3, idWord 4, idWord 5, idWord 6, idWord 7] [0, 0, 0, 0, 0, 0, 0, 0] =
      [0, 0, 0, 0, 0, 0, 0, 0] := by decide +kernel
  have hp : xosh512Poly < 2 ^ 513 := by decide +kernel
  rw [hcheck, Nat.mod_eq_of_lt hp] at this
  have h00 : unp8 [0, 0, 0, 0, 0, 0, 0, 0] i = 0 := by simp [unp8, lane_zero, S8.zero_def]
  rw [h00, zero_add] at this
  exact this.symm

end Verif.Linear
