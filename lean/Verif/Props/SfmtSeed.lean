import Verif.Props.Sfmt

/-! C37 for SFMT and the seeding half of dSFMT: the period certification. -/

namespace Verif

instance : Std.Commutative Bool.xor := ⟨Bool.xor_comm⟩
instance : Std.Associative Bool.xor := ⟨Bool.xor_assoc⟩

/-- Parity of the number of ones among the `n` lowest bits of `x`. -/
def ones {w : Nat} (x : BitVec w) : Nat → Bool
  | 0 => false
  | n + 1 => (ones x n).xor (x.getLsbD n)

theorem and_one_eq {w : Nat} (y : BitVec w) : y &&& 1 = if y.getLsbD 0 then 1 else 0 := by
  rcases w with _ | w
  · exact Subsingleton.elim _ _
  apply BitVec.eq_of_getLsbD_eq
  intro i hi
  rw [BitVec.getLsbD_and]
  by_cases h : y.getLsbD 0 = true
  · rw [if_pos h]
    rcases i with _ | i
    · simp [h]
    · simp
  · rw [if_neg h]
    rcases i with _ | i
    · simp only [Bool.not_eq_true] at h
      rw [h]; simp
    · simp

theorem fold32_eq (x : U32) : fold32 x = if ones x 32 then 1 else 0 := by
  rw [fold32, and_one_eq]
  have h0 : ∀ y, (y = ones x 32) → (if y then (1 : U32) else 0) = if ones x 32 then 1 else 0 := fun y h => by rw [h]
  apply h0
  simp only [BitVec.getLsbD_xor, BitVec.getLsbD_ushiftRight, ones]
  simp only [Nat.reduceAdd, Bool.false_xor]
  generalize x.getLsbD = f
  ac_rfl

theorem fold64_eq (x : U64) : fold64 x = if ones x 64 then 1 else 0 := by
  rw [fold64, and_one_eq]
  have h0 : ∀ y, (y = ones x 64) → (if y then (1 : U64) else 0) = if ones x 64 then 1 else 0 := fun y h => by rw [h]
  apply h0
  simp only [BitVec.getLsbD_xor, BitVec.getLsbD_ushiftRight, ones]
  simp only [Nat.reduceAdd, Bool.false_xor]
  generalize x.getLsbD = f
  ac_rfl

theorem ones_xor {w : Nat} (x y : BitVec w) (n : Nat) : ones (x ^^^ y) n = (ones x n).xor (ones y n) := by
  induction n with
  | zero => rfl
  | succ n ih => rw [ones, ones, ones, ih, BitVec.getLsbD_xor]; ac_rfl

theorem ones_lo {a b : Nat} (hi : BitVec a) (lo : BitVec b) (n : Nat) (h : n ≤ b) : ones (hi ++ lo) n = ones lo n := by
  induction n with
  | zero => rfl
  | succ n ih => rw [ones, ones, ih (by omega), BitVec.getLsbD_append, if_pos (by omega)]

theorem ones_append {a b : Nat} (hi : BitVec a) (lo : BitVec b) (n : Nat) : ones (hi ++ lo) (b + n) = (ones lo b).xor (ones hi n) := by
  induction n with
  | zero => rw [Nat.add_zero, ones_lo _ _ _ le_rfl, ones, Bool.xor_false]
  | succ n ih =>
    rw [← Nat.add_assoc, ones, ih, ones, BitVec.getLsbD_append, if_neg (by omega), Nat.add_sub_cancel_left]; ac_rfl

theorem pack_and (x y : W128) : x.pack &&& y.pack = W128.pack ⟨x.u0 &&& y.u0, x.u1 &&& y.u1, x.u2 &&& y.u2, x.u3 &&& y.u3⟩ := by
  apply BitVec.eq_of_getLsbD_eq
  intro i hi
  simp only [BitVec.getLsbD_and, pack_bit]
  split_ifs <;> rfl

theorem ones_pack (x : W128) : ones x.pack 128 = (ones (x.u0 ^^^ x.u1 ^^^ x.u2 ^^^ x.u3) 32) := by
  have h := ones_append (x.u3 ++ x.u2 ++ x.u1) x.u0 96
  have h2 := ones_append (x.u3 ++ x.u2) x.u1 64
  have h3 := ones_append x.u3 x.u2 32
  rw [ones_xor, ones_xor, ones_xor, Bool.xor_assoc, Bool.xor_assoc]
  exact h.trans (congrArg _ (h2.trans (congrArg _ h3)))

theorem onesD_pack (x : D128) : ones x.pack 128 = ones (x.u0 ^^^ x.u1) 64 := by
  rw [ones_xor]; exact ones_append x.u1 x.u0 64

theorem firstBit_eq : firstBit [0, 1, 2, 3] = some (0, 0) := by decide +kernel

theorem sfmtCert_eq (a : Nat → U32) : sfmtCert a = if ones ((a 0 &&& 1) ^^^ (a 3 &&& 0x13c9e684)) 32 then a else Function.update a 0 (a 0 ^^^ 1) := by
  have e : (0 : U32) ^^^ (a 0 &&& sfmtParity 0) ^^^ (a 1 &&& sfmtParity 1) ^^^ (a 2 &&& sfmtParity 2) ^^^ (a 3 &&& sfmtParity 3) =
      (a 0 &&& 1) ^^^ (a 3 &&& 0x13c9e684) := by
    rw [show sfmtParity 0 = 1 from rfl, show sfmtParity 1 = 0#32 from rfl, show sfmtParity 2 = 0#32 from rfl, show sfmtParity 3 = 0x13c9e684 from rfl,
      BitVec.and_zero, BitVec.and_zero, BitVec.xor_zero, BitVec.xor_zero, show (0 : U32) = 0#32 from rfl, BitVec.zero_xor]
  rw [sfmtCert]
  simp only [e, fold32_eq, firstBit_eq]
  cases ones ((a 0 &&& 1) ^^^ (a 3 &&& 0x13c9e684)) 32
  · rfl
  · rfl

/-- C37: the period certification makes the parity of the masked first 128-bit word odd, in every state; it changes at
most the lowest bit of the first word. -/
theorem C37_sfmt_cert (a : Nat → U32) :
    ones ((words128 (sfmtCert a) 0).pack &&& 0x13c9e684000000000000000000000001) 128 = true ∧
    (∀ i ≠ 0, sfmtCert a i = a i) ∧ (sfmtCert a 0 = a 0 ∨ sfmtCert a 0 = a 0 ^^^ 1) := by
  rw [show (0x13c9e684000000000000000000000001 : U128) = W128.pack ⟨1, 0, 0, 0x13c9e684⟩ by decide +kernel, pack_and, ones_pack]
  have e : ∀ b : Nat → U32, (words128 b 0).u0 &&& 1 ^^^ (words128 b 0).u1 &&& 0 ^^^ (words128 b 0).u2 &&& 0 ^^^ (words128 b 0).u3 &&& 0x13c9e684 =
      (b 0 &&& 1) ^^^ (b 3 &&& 0x13c9e684) := by
    intro b
    show (b 0 &&& 1) ^^^ (b 1 &&& 0#32) ^^^ (b 2 &&& 0#32) ^^^ (b 3 &&& 0x13c9e684) = _
    rw [BitVec.and_zero, BitVec.and_zero, BitVec.xor_zero, BitVec.xor_zero]
  simp only [e]
  rw [sfmtCert_eq]
  by_cases h : ones ((a 0 &&& 1) ^^^ (a 3 &&& 0x13c9e684)) 32 = true
  · rw [if_pos h]
    exact ⟨h, fun _ _ => rfl, Or.inl rfl⟩
  · rw [if_neg h]
    refine ⟨?_, fun i hi => Function.update_of_ne hi _ _, Or.inr (Function.update_self ..)⟩
    rw [Function.update_self, Function.update_of_ne (by omega)]
    have : ∀ y : U32, (y ^^^ 1) &&& 1 = (y &&& 1) ^^^ 1 := by
      intro y; apply BitVec.eq_of_getLsbD_eq; intro i hi; by_cases h : i = 0 <;> simp [h]
    rw [this, BitVec.xor_assoc, BitVec.xor_comm 1, ← BitVec.xor_assoc, ones_xor, show ones (1 : U32) 32 = true by decide +kernel]
    simpa using h

/-- C37: so for every seed. -/
theorem C37_sfmt (old : Sfmt) (key : List U32) :
    ones (((sfmtSeed old key).st 0).pack &&& 0x13c9e684000000000000000000000001) 128 = true ∧ ∃ i < 156, ((sfmtSeed old key).st i).pack ≠ 0 := by
  have h : ones (((sfmtSeed old key).st 0).pack &&& 0x13c9e684000000000000000000000001) 128 = true := (C37_sfmt_cert _).1
  refine ⟨h, 0, by omega, fun h0 => ?_⟩
  rw [h0] at h
  exact absurd h (by decide +kernel)

theorem packD_and (x y : D128) : x.pack &&& y.pack = D128.pack ⟨x.u0 &&& y.u0, x.u1 &&& y.u1⟩ := by
  apply BitVec.eq_of_getLsbD_eq
  intro i hi
  simp only [D128.pack, BitVec.getLsbD_and, BitVec.getLsbD_append]
  split_ifs <;> rfl

theorem packD_xor (x y : D128) : x.pack ^^^ y.pack = D128.pack ⟨x.u0 ^^^ y.u0, x.u1 ^^^ y.u1⟩ := by
  apply BitVec.eq_of_getLsbD_eq
  intro i hi
  simp only [D128.pack, BitVec.getLsbD_xor, BitVec.getLsbD_append]
  split_ifs <;> rfl

theorem dsfmtCert_eq (l : D128) : dsfmtCert l = if ones (((l.u0 ^^^ 0x90014964b32f4329) &&& 0x3d84e1ac0dc82880) ^^^ ((l.u1 ^^^ 0x3b8d12ac548a7c7a) &&& 1)) 64 then l
    else ⟨l.u0, l.u1 ^^^ 1⟩ := by
  rw [dsfmtCert]
  simp only [fold64_eq]
  generalize ones _ 64 = b
  cases b <;> rfl

/-- C37 for dSFMT: the certification makes the parity of the masked, shifted lung odd, and changes at most its lowest bit. -/
theorem C37_dsfmt_cert (l : D128) :
    ones (((dsfmtCert l).pack ^^^ 0x3b8d12ac548a7c7a90014964b32f4329) &&& 0x00000000000000013d84e1ac0dc82880) 128 = true ∧
    (dsfmtCert l).u0 = l.u0 ∧ ((dsfmtCert l).u1 = l.u1 ∨ (dsfmtCert l).u1 = l.u1 ^^^ 1) := by
  rw [show (0x3b8d12ac548a7c7a90014964b32f4329 : U128) = D128.pack ⟨0x90014964b32f4329, 0x3b8d12ac548a7c7a⟩ by decide +kernel,
    show (0x00000000000000013d84e1ac0dc82880 : U128) = D128.pack ⟨0x3d84e1ac0dc82880, 1⟩ by decide +kernel, packD_xor, packD_and, onesD_pack,
    dsfmtCert_eq]
  by_cases h : ones (((l.u0 ^^^ 0x90014964b32f4329) &&& 0x3d84e1ac0dc82880) ^^^ ((l.u1 ^^^ 0x3b8d12ac548a7c7a) &&& 1)) 64 = true
  · rw [if_pos h]
    exact ⟨h, rfl, Or.inl rfl⟩
  · rw [if_neg h]
    refine ⟨?_, rfl, Or.inr rfl⟩
    have : ∀ y c : U64, (y ^^^ 1 ^^^ c) &&& 1 = ((y ^^^ c) &&& 1) ^^^ 1 := by
      intro y c; apply BitVec.eq_of_getLsbD_eq; intro i hi; simp; by_cases h : i = 0 <;> simp [h]
    simp only [this]
    rw [← BitVec.xor_assoc, ones_xor, show ones (1 : U64) 64 = true by decide +kernel]
    simpa using h

/-- C37 for dSFMT: so for every seed. -/
theorem C37_dsfmt (old : Dsfmt) (key : List U32) :
    ones (((dsfmtSeed old key).lung.pack ^^^ 0x3b8d12ac548a7c7a90014964b32f4329) &&& 0x00000000000000013d84e1ac0dc82880) 128 = true :=
  (C37_dsfmt_cert _).1

/-- Both branches of the certification occur. -/
example : sfmtCert (fun _ => 1) 0 = 1 ∧ sfmtCert (fun i => if i = 3 then 4 else 1) 0 = 0 ∧ dsfmtCert ⟨0, 0⟩ = ⟨0, 0⟩ ∧ dsfmtCert ⟨0, 1⟩ = ⟨0, 0⟩ := by
  decide +kernel

end Verif
