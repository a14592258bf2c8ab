import Verif.Proof.Xoro
import Mathlib.Algebra.Group.Fin.Basic

/-! Xorshift1024: read from position `p`, the step is a fixed GF(2)-linear map of 16 words. -/

namespace Verif.Linear
open Verif.GF2 Verif.Lanes Verif.XorLinear

/-- The 16 words, listed from the current position. -/
structure N16 where
  f : Fin 16 → U64

theorem N16.ext' {a b : N16} (h : ∀ j, a.f j = b.f j) : a = b := by
  cases a; cases b; congr 1; funext j; exact h j

instance : AddCommGroup N16 := xorGroup ⟨fun _ => 0#64⟩ (fun a b => ⟨fun j => a.f j ^^^ b.f j⟩)
  (by intro a b c; simp [BitVec.xor_assoc]) (by intro a b; simp [BitVec.xor_comm])
  (by intro a; simp) (by intro a; simp)

theorem N16.add_f (a b : N16) (j : Fin 16) : (a + b).f j = a.f j ^^^ b.f j := rfl
theorem N16.zero_f (j : Fin 16) : (0 : N16).f j = 0#64 := rfl
theorem N16.add_self (a : N16) : a + a = 0 := by
  apply N16.ext'; intro j; simp [N16.add_f, N16.zero_f]

/-- The new word computed by `xorshift1024_next`. -/
def xorsNew (s0 s1 : U64) : U64 :=
  (s1 ^^^ s1 <<< 31) ^^^ s0 ^^^ ((s1 ^^^ s1 <<< 31) >>> 11) ^^^ (s0 >>> 30)

def xorsStep (u : N16) : N16 :=
  ⟨fun j => if j = 0 then xorsNew (u.f 0) (u.f 1) else if j = 15 then u.f 0 else u.f (j + 1)⟩

/-- The words from position `p` on. -/
def norm (g : X16) : N16 := ⟨fun j => g.s (j + g.p)⟩

theorem xors1024_step (g : X16) :
    stepOf xors1024Next g = ⟨setWord g.s (g.p + 1) (xorsNew (g.s g.p) (g.s (g.p + 1))), g.p + 1⟩ := rfl

theorem norm_step (g : X16) : norm (stepOf xors1024Next g) = xorsStep (norm g) := by
  rw [xors1024_step]
  apply N16.ext'
  intro j
  simp only [norm, xorsStep, setWord]
  by_cases h0 : j = 0
  · subst h0
    simp [add_comm]
  · rw [if_neg h0]
    have hne : ¬ j + (g.p + 1) = g.p + 1 := by
      intro h; exact h0 (by simpa using h)
    rw [if_neg hne]
    by_cases h15 : j = 15
    · subst h15
      rw [if_pos rfl]
      congr 1
      rw [add_comm g.p 1, ← add_assoc]; rfl
    · rw [if_neg h15]
      congr 1
      rw [add_comm g.p 1, add_assoc]

theorem xorsNew_xor (a b c d : U64) : xorsNew (a ^^^ c) (b ^^^ d) = xorsNew a b ^^^ xorsNew c d := by
  simp only [xorsNew, shl_xor, shr_xor]
  simp only [xor_left_comm, BitVec.xor_comm]

def xorsEnd : AddMonoid.End N16 :=
  AddMonoidHom.mk' xorsStep (by
    intro x y
    apply N16.ext'
    intro j
    simp only [xorsStep, N16.add_f, xorsNew_xor]
    split
    · rfl
    · split <;> rfl)

def xorsStepP (m : Nat) : List Nat → List Nat
  | x0 :: x1 :: xs =>
    force (Nat.xor x1 (shlL (maskHi 31 m) 31 x1)) fun y =>
    Nat.xor (Nat.xor (Nat.xor y x0) (shrL (maskLo 53 m) 11 y)) (shrL (maskLo 34 m) 30 x0) ::
      (xs ++ [x0])
  | l => l

def unp16 (l : List Nat) (i : Nat) : N16 := ⟨fun j => lane (l.getD j 0) i⟩

theorem xorsStepP_len (m : Nat) (l : List Nat) (h : l.length = 16) : (xorsStepP m l).length = 16 := by
  match l, h with
  | x0 :: x1 :: xs, h => simp [xorsStepP, force_eq] at h ⊢; omega

theorem xorsStepP_eq (m : Nat) (l : List Nat) (i : Nat) (h : l.length = 16) (hi : i < m) :
    unp16 (xorsStepP m l) i = xorsEnd (unp16 l i) := by
  match l, h with
  | x0 :: x1 :: xs, h =>
    have hx : ∀ u v, Nat.xor u v = u ^^^ v := fun _ _ => rfl
    have hl : xs.length = 14 := by simp at h; omega
    show unp16 (xorsStepP m (x0 :: x1 :: xs)) i = xorsStep (unp16 (x0 :: x1 :: xs) i)
    rw [xorsStepP, force_eq]
    apply N16.ext'
    intro j
    simp only [xorsStep, unp16]
    by_cases h0 : j = 0
    · subst h0
      rw [if_pos rfl]
      have h11 := lane_shr (x1 ^^^ shlL (maskHi 31 m) 31 x1) 11 m i (by decide) hi
      have h30 := lane_shr x0 30 m i (by decide) hi
      simp only [Fin.val_zero, Fin.val_one, List.getD_cons_zero, List.getD_cons_succ, hx, lane_xor,
        lane_shl _ 31 _ _ (by decide) hi, xorsNew] at h11 h30 ⊢
      rw [h11, h30]
    · rw [if_neg h0]
      obtain ⟨jv, hj⟩ := j
      have hj0 : jv ≠ 0 := fun h => h0 (Fin.ext h)
      obtain ⟨k, rfl⟩ := Nat.exists_eq_succ_of_ne_zero hj0
      by_cases h15 : (⟨k.succ, hj⟩ : Fin 16) = 15
      · rw [if_pos h15]
        have : k = 14 := by
          have := congrArg Fin.val h15
          simp at this; omega
        subst this
        simp [List.getD_eq_getElem?_getD, hl]
      · rw [if_neg h15]
        have hk : k < 14 := by
          by_contra hc
          apply h15
          apply Fin.ext
          simp; omega
        have hv : ((⟨k.succ, hj⟩ : Fin 16) + 1).val = k + 2 := by
          simp [Fin.val_add]; omega
        rw [hv]
        simp only [Nat.succ_eq_add_one, List.getD_cons_succ]
        rw [List.getD_eq_getElem?_getD, List.getD_eq_getElem?_getD, List.getElem?_append_left (by omega)]

theorem unp16_xor (l l' : List Nat) (i : Nat) (h : l.length = 16) (h' : l'.length = 16) :
    unp16 (List.zipWith Nat.xor l l') i = unp16 l i + unp16 l' i := by
  apply N16.ext'
  intro j
  rw [N16.add_f]
  show lane ((List.zipWith Nat.xor l l').getD j 0) i = lane (l.getD j 0) i ^^^ lane (l'.getD j 0) i
  rw [← lane_xor]
  congr 1
  have h1 : j.val < l.length := by omega
  have h2 : j.val < l'.length := by omega
  simp [List.getD_eq_getElem?_getD, h1, h2]

def single (w : Fin 16) (a : U64) : N16 := ⟨fun j => if j = w then a else 0#64⟩

def idList16 : List Nat := (List.range 16).map idWord

theorem unp16_id (w : Fin 16) (j : Nat) (hj : j < 64) :
    unp16 idList16 (64 * w.val + j) = single w (BitVec.twoPow 64 j) := by
  apply N16.ext'
  intro k
  have hg : idList16.getD k.val 0 = idWord k.val := by
    simp [idList16, List.getD_eq_getElem?_getD]
  show lane (idList16.getD k.val 0) _ = if k = w then _ else _
  rw [hg]
  by_cases hkw : k = w
  · subst hkw; rw [if_pos rfl, lane_idWord_self _ _ hj]
  · rw [if_neg hkw, lane_idWord_ne _ _ _ hj (fun h => hkw (Fin.ext h))]

theorem end16_zero (f : AddMonoid.End N16) (h : ∀ i, i < 1024 → f (unp16 idList16 i) = 0) :
    f = 0 := by
  have hs : ∀ (w : Fin 16) (a : U64), f (single w a) = 0 := by
    intro w a
    refine add_map_eq_zero (fun a => f (single w a)) ?_ ?_ a
    · intro a b
      rw [← map_add]
      congr 1
      apply N16.ext'
      intro j
      rw [N16.add_f]
      simp only [single]
      split <;> simp
    · intro j hj
      rw [← unp16_id w j hj]
      exact h _ (by omega)
  ext v
  have key : ∀ k, k ≤ 16 → f ⟨fun j => if j.val < k then v.f j else 0#64⟩ = 0 := by
    intro k
    induction k with
    | zero =>
      intro _
      have : (⟨fun j => if j.val < 0 then v.f j else 0#64⟩ : N16) = 0 := by
        apply N16.ext'; intro j; simp [N16.zero_f]
      rw [this, map_zero]
    | succ k ih =>
      intro hk
      have : (⟨fun j => if j.val < k + 1 then v.f j else 0#64⟩ : N16) =
          ⟨fun j => if j.val < k then v.f j else 0#64⟩ + single ⟨k, by omega⟩ (v.f ⟨k, by omega⟩) := by
        apply N16.ext'
        intro j
        rw [N16.add_f]
        simp only [single]
        rcases Nat.lt_trichotomy j.val k with hlt | heq | hgt
        · have h1 : j.val < k + 1 := by omega
          have h2 : j ≠ ⟨k, by omega⟩ := fun h => by rw [h] at hlt; simp at hlt
          simp [hlt, h1, h2]
        · subst heq
          simp
        · have h1 : ¬ j.val < k + 1 := by omega
          have h2 : ¬ j.val < k := by omega
          have h3 : j ≠ ⟨k, by omega⟩ := fun h => by rw [h] at hgt; simp at hgt
          simp [h1, h2, h3]
      rw [this, map_add, ih (by omega), hs, add_zero]
  have := key 16 (Nat.le_refl _)
  have hv : (⟨fun j => if j.val < 16 then v.f j else 0#64⟩ : N16) = v := by
    apply N16.ext'; intro j; simp
  rw [hv] at this
  rw [this]; rfl

def xors1024Poly : Nat := 0x10000000000007879787878786d3815400440024003007b2853116c08605c805fa1422cb7814f5c680040f0e46e848800cd40a7e2537771eababab341e2554b59df6a7cadba32bca9e860f083d70158c634b3216457d7b0284a32d044029b08f7030d5352015561300111e1c02bc181802200aa001400f0001000000000000001

set_option exponentiation.threshold 2000 in
theorem xors1024_ann : ev xorsEnd xors1024Poly = 0 := by
  apply end16_zero
  intro i hi
  have := annLoop_eq xorsEnd 16 1024 unp16 (xorsStepP 1024)
    (xorsStepP_len 1024) (fun l i h hi => xorsStepP_eq 1024 l i h hi)
    (fun l l' i h h' => unp16_xor l l' i h h') 1025 xors1024Poly idList16 (List.replicate 16 0)
    (by simp [idList16]) (by simp) i hi
  have hcheck : annLoop (xorsStepP 1024) 1025 xors1024Poly idList16 (List.replicate 16 0) =
      List.replicate 16 0 := by decide +kernel
  have hp : xors1024Poly < 2 ^ 1025 := by decide +kernel
  rw [hcheck, Nat.mod_eq_of_lt hp] at this
  have h00 : unp16 (List.replicate 16 0) i = 0 := by
    apply N16.ext'
    intro j
    have : (List.replicate 16 0).getD j.val 0 = 0 := by
      rw [List.getD_eq_getElem?_getD, List.getElem?_replicate]
      split <;> rfl
    show lane ((List.replicate 16 0).getD j.val 0) i = _
    rw [this, lane_zero]; rfl
  rw [h00, zero_add] at this
  exact this.symm

end Verif.Linear
