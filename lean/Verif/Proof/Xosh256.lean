import Verif.Proof.Xoro

/-! Xoshiro256: the step is GF(2)-linear and annihilated by an explicit polynomial. -/

namespace Verif.Linear
open Verif.GF2 Verif.Lanes Verif.XorLinear

theorem xosh256_step (s : S4) : stepOf xosh256Next s = xosh256Step s := rfl

def xosh256End : AddMonoid.End S4 :=
  AddMonoidHom.mk' xosh256Step (by
    intro x y
    simp only [xosh256Step, S4.add_def, rotl64_xor _ _ 45 (by decide), shl_xor, S4.mk.injEq]
    refine ⟨?_, ?_, ?_, ?_⟩ <;> simp only [BitVec.xor_assoc, xor_left_comm, BitVec.xor_comm])

/-- The step on packed states. -/
def xosh256StepP (m : Nat) : List Nat → List Nat
  | [x0, x1, x2, x3] =>
    [Nat.xor x0 (Nat.xor x3 x1), Nat.xor x1 (Nat.xor x2 x0),
     Nat.xor (Nat.xor x2 x0) (shlL (maskHi 17 m) 17 x1),
     rotL (maskHi 45 m) (maskLo 45 m) 45 (Nat.xor x3 x1)]
  | l => l

def unp4 (l : List Nat) (i : Nat) : S4 :=
  ⟨lane (l.getD 0 0) i, lane (l.getD 1 0) i, lane (l.getD 2 0) i, lane (l.getD 3 0) i⟩

theorem xosh256StepP_len (m : Nat) (l : List Nat) (h : l.length = 4) :
    (xosh256StepP m l).length = 4 := by
  match l, h with
  | [x0, x1, x2, x3], _ => simp [xosh256StepP]

theorem xosh256StepP_eq (m : Nat) (l : List Nat) (i : Nat) (h : l.length = 4) (hi : i < m) :
    unp4 (xosh256StepP m l) i = xosh256End (unp4 l i) := by
  match l, h with
  | [x0, x1, x2, x3], _ =>
    have hx : ∀ u v, Nat.xor u v = u ^^^ v := fun _ _ => rfl
    show unp4 (xosh256StepP m [x0, x1, x2, x3]) i = xosh256Step (unp4 [x0, x1, x2, x3] i)
    rw [xosh256StepP]
    simp only [unp4, xosh256Step, List.getD_cons_zero, List.getD_cons_succ, hx, lane_xor,
      lane_rot _ 45 _ _ (by decide) (by decide) hi, lane_shl _ 17 _ _ (by decide) hi,
      rotl64_eq _ 45 (by decide)]

theorem unp4_xor (l l' : List Nat) (i : Nat) (h : l.length = 4) (h' : l'.length = 4) :
    unp4 (List.zipWith Nat.xor l l') i = unp4 l i + unp4 l' i := by
  match l, h, l', h' with
  | [x0, x1, x2, x3], _, [y0, y1, y2, y3], _ =>
    simp [unp4, S4.add_def, lane_xor]

/-- A map of the 256-bit states that is additive and vanishes on the unit vectors is zero. -/
theorem end4_zero (f : AddMonoid.End S4)
    (h : ∀ i, i < 256 → f (unp4 [idWord 0, idWord 1, idWord 2, idWord 3] i) = 0) : f = 0 := by
  have hb0 : ∀ j, j < 64 → f ⟨BitVec.twoPow 64 j, 0, 0, 0⟩ = 0 := by
    intro j hj
    have := h (64 * 0 + j) (by omega)
    rw [unp4] at this
    simp only [List.getD_cons_zero, List.getD_cons_succ] at this
    rwa [lane_idWord_self 0 j hj, lane_idWord_ne 0 1 j hj (by decide), lane_idWord_ne 0 2 j hj (by decide), lane_idWord_ne 0 3 j hj (by decide)] at this
  have hb1 : ∀ j, j < 64 → f ⟨0, BitVec.twoPow 64 j, 0, 0⟩ = 0 := by
    intro j hj
    have := h (64 * 1 + j) (by omega)
    rw [unp4] at this
    simp only [List.getD_cons_zero, List.getD_cons_succ] at this
    rwa [lane_idWord_ne 1 0 j hj (by decide), lane_idWord_self 1 j hj, lane_idWord_ne 1 2 j hj (by decide), lane_idWord_ne 1 3 j hj (by decide)] at this
  have hb2 : ∀ j, j < 64 → f ⟨0, 0, BitVec.twoPow 64 j, 0⟩ = 0 := by
    intro j hj
    have := h (64 * 2 + j) (by omega)
    rw [unp4] at this
    simp only [List.getD_cons_zero, List.getD_cons_succ] at this
    rwa [lane_idWord_ne 2 0 j hj (by decide), lane_idWord_ne 2 1 j hj (by decide), lane_idWord_self 2 j hj, lane_idWord_ne 2 3 j hj (by decide)] at this
  have hb3 : ∀ j, j < 64 → f ⟨0, 0, 0, BitVec.twoPow 64 j⟩ = 0 := by
    intro j hj
    have := h (64 * 3 + j) (by omega)
    rw [unp4] at this
    simp only [List.getD_cons_zero, List.getD_cons_succ] at this
    rwa [lane_idWord_ne 3 0 j hj (by decide), lane_idWord_ne 3 1 j hj (by decide), lane_idWord_ne 3 2 j hj (by decide), lane_idWord_self 3 j hj] at this
  ext v
  have h0 := add_map_eq_zero (fun a => f ⟨a, 0, 0, 0⟩)
    (by intro a b; rw [← map_add]; simp [S4.add_def]) hb0 v.s0
  have h1 := add_map_eq_zero (fun a => f ⟨0, a, 0, 0⟩)
    (by intro a b; rw [← map_add]; simp [S4.add_def]) hb1 v.s1
  have h2 := add_map_eq_zero (fun a => f ⟨0, 0, a, 0⟩)
    (by intro a b; rw [← map_add]; simp [S4.add_def]) hb2 v.s2
  have h3 := add_map_eq_zero (fun a => f ⟨0, 0, 0, a⟩)
    (by intro a b; rw [← map_add]; simp [S4.add_def]) hb3 v.s3
  have hv : v = ⟨v.s0, 0, 0, 0⟩ + ⟨0, v.s1, 0, 0⟩ + ⟨0, 0, v.s2, 0⟩ + ⟨0, 0, 0, v.s3⟩ := by
    cases v; simp [S4.add_def]
  rw [hv]
  simp only [map_add]
  rw [h0, h1, h2, h3]
  simp

def xosh256Poly : Nat := 0x10003c03c3f3ecb1904b4edcf26259f850280002bcefd1a5e9d116f2bb0f0f001

theorem xosh256_ann : ev xosh256End xosh256Poly = 0 := by
  apply end4_zero
  intro i hi
  have := annLoop_eq xosh256End 4 256 unp4 (xosh256StepP 256)
    (xosh256StepP_len 256) (fun l i h hi => xosh256StepP_eq 256 l i h hi)
    (fun l l' i h h' => unp4_xor l l' i h h') 257 xosh256Poly [idWord 0, idWord 1, idWord 2, idWord 3] [0, 0, 0, 0] rfl rfl i hi
  have hcheck : annLoop (xosh256StepP 256) 257 xosh256Poly [idWord 0, idWord 1, idWord 2, idWord 3] [0, 0, 0, 0] =
      [0, 0, 0, 0] := by decide +kernel
  have hp : xosh256Poly < 2 ^ 257 := by decide +kernel
  rw [hcheck, Nat.mod_eq_of_lt hp] at this
  have h00 : unp4 [0, 0, 0, 0] i = 0 := by simp [unp4, lane_zero, S4.zero_def]
  rw [h00, zero_add] at this
  exact this.symm

end Verif.Linear
