import Verif.Proof.CtrBlocks

/-! Property C61: the three ways Philox computes a double-word product agree. -/

namespace Verif

/-- The carry analysis behind `_mulhilo_c99_tpl`. -/
theorem hi_word_nat (B X Y t : Nat) (ht : t < B) :
    (X + Y + t) / B = X / B + Y / B + (X % B + Y % B) / B +
      (if (X + Y + t) % B < (X % B + Y % B) % B then 1 else 0) := by
  have hB : 0 < B := by omega
  obtain ⟨q1, r1, h1, e1⟩ : ∃ q r, r < B ∧ X = B * q + r := ⟨X / B, X % B, Nat.mod_lt _ hB, (Nat.div_add_mod X B).symm⟩
  obtain ⟨q2, r2, h2, e2⟩ : ∃ q r, r < B ∧ Y = B * q + r := ⟨Y / B, Y % B, Nat.mod_lt _ hB, (Nat.div_add_mod Y B).symm⟩
  have dm : ∀ q r, r < B → (B * q + r) / B = q ∧ (B * q + r) % B = r := fun q r h => by
    constructor
    · rw [Nat.mul_add_div hB, Nat.div_eq_of_lt h, Nat.add_zero]
    · rw [Nat.mul_add_mod, Nat.mod_eq_of_lt h]
  subst e1 e2
  rw [(dm q1 r1 h1).1, (dm q1 r1 h1).2, (dm q2 r2 h2).1, (dm q2 r2 h2).2]
  by_cases c : r1 + r2 < B
  · rw [Nat.div_eq_of_lt c, Nat.mod_eq_of_lt c]
    by_cases c2 : r1 + r2 + t < B
    · have e : B * q1 + r1 + (B * q2 + r2) + t = B * (q1 + q2) + (r1 + r2 + t) := by ring
      rw [e, (dm _ _ c2).1, (dm _ _ c2).2, if_neg (by omega)]
      omega
    · have e : B * q1 + r1 + (B * q2 + r2) + t = B * (q1 + q2 + 1) + (r1 + r2 + t - B) := by
        have : r1 + r2 + t = B + (r1 + r2 + t - B) := by omega
        calc _ = B * (q1 + q2) + (r1 + r2 + t) := by ring
          _ = B * (q1 + q2) + (B + (r1 + r2 + t - B)) := by rw [← this]
          _ = _ := by ring
      rw [e, (dm _ _ (by omega)).1, (dm _ _ (by omega)).2, if_pos (by omega)]
  · have e0 : r1 + r2 = B * 1 + (r1 + r2 - B) := by omega
    rw [e0, (dm 1 _ (by omega)).1, (dm 1 _ (by omega)).2]
    by_cases c2 : r1 + r2 - B + t < B
    · have e : B * q1 + r1 + (B * q2 + r2) + t = B * (q1 + q2 + 1) + (r1 + r2 - B + t) := by
        calc _ = B * (q1 + q2) + (r1 + r2) + t := by ring
          _ = B * (q1 + q2) + (B * 1 + (r1 + r2 - B)) + t := by rw [← e0]
          _ = _ := by ring
      rw [e, (dm _ _ c2).1, (dm _ _ c2).2, if_neg (by omega)]
    · have e : B * q1 + r1 + (B * q2 + r2) + t = B * (q1 + q2 + 2) + (r1 + r2 - B + t - B) := by
        have : r1 + r2 - B + t = B + (r1 + r2 - B + t - B) := by omega
        calc _ = B * (q1 + q2) + (r1 + r2) + t := by ring
          _ = B * (q1 + q2) + (B * 1 + (r1 + r2 - B)) + t := by rw [← e0]
          _ = B * (q1 + q2 + 1) + (r1 + r2 - B + t) := by ring
          _ = B * (q1 + q2 + 1) + (B + (r1 + r2 - B + t - B)) := by rw [← this]
          _ = _ := by ring
      rw [e, (dm _ _ (by omega)).1, (dm _ _ (by omega)).2, if_pos (by omega)]

/-- The high word as a number. -/
theorem mulhilo_hi {w : Nat} (a b : BitVec w) : (mulhilo a b).1.toNat = a.toNat * b.toNat / 2 ^ w := by
  have h1 : a.toNat % 2 ^ (2 * w) = a.toNat := Nat.mod_eq_of_lt (lt_of_lt_of_le a.isLt (Nat.pow_le_pow_right (by decide) (by omega)))
  have h2 : b.toNat % 2 ^ (2 * w) = b.toNat := Nat.mod_eq_of_lt (lt_of_lt_of_le b.isLt (Nat.pow_le_pow_right (by decide) (by omega)))
  have h3 : a.toNat * b.toNat < 2 ^ (2 * w) := by
    rw [two_mul, Nat.pow_add]; exact Nat.mul_lt_mul'' a.isLt b.isLt
  simp only [mulhilo, BitVec.truncate_eq_setWidth, BitVec.toNat_setWidth, BitVec.toNat_mul, BitVec.toNat_ushiftRight,
    Nat.shiftRight_eq_div_pow]
  rw [h1, h2, Nat.mod_eq_of_lt h3, Nat.mod_eq_of_lt]
  apply Nat.div_lt_of_lt_mul
  rwa [← Nat.pow_add, ← two_mul]

/-- C61: for every even word width, the C99 form of `mulhilo` returns the exact high and low words of the
product. -/
theorem C61_mulhilo_c99 (h : Nat) (hh : 0 < h) (a b : BitVec (2 * h)) :
    (mulhiloC99 a b).1.toNat * 2 ^ (2 * h) + (mulhiloC99 a b).2.toNat = a.toNat * b.toNat := by
  have hB : 0 < 2 ^ h := Nat.two_pow_pos h
  have hB2 : 2 ≤ 2 ^ h := by
    calc 2 = 2 ^ 1 := rfl
      _ ≤ 2 ^ h := Nat.pow_le_pow_right (by decide) hh
  have hpow : 2 ^ (2 * h) = 2 ^ h * 2 ^ h := by rw [two_mul, Nat.pow_add]
  have hone : (1 : BitVec (2 * h)).toNat = 1 := by
    show 1 % 2 ^ (2 * h) = 1
    exact Nat.mod_eq_of_lt (Nat.one_lt_two_pow (by omega))
  have hlt : 2 ^ h < 2 ^ (2 * h) := by
    rw [hpow]; exact lt_mul_of_one_lt_left hB (by omega)
  have hmask : ((1 : BitVec (2 * h)) <<< h - 1).toNat = 2 ^ h - 1 := by
    rw [BitVec.toNat_sub, BitVec.toNat_shiftLeft, hone, Nat.shiftLeft_eq, one_mul, Nat.mod_eq_of_lt hlt,
      show 2 ^ (2 * h) - 1 + 2 ^ h = 2 ^ (2 * h) + (2 ^ h - 1) by omega, Nat.add_mod_left, Nat.mod_eq_of_lt (by omega)]
  have hand : ∀ x : BitVec (2 * h), (x &&& ((1 : BitVec (2 * h)) <<< h - 1)).toNat = x.toNat % 2 ^ h := by
    intro x
    rw [BitVec.toNat_and, hmask, Nat.and_two_pow_sub_one_eq_mod]
  have hshr : ∀ x : BitVec (2 * h), (x >>> h).toNat = x.toNat / 2 ^ h := fun x => by
    rw [BitVec.toNat_ushiftRight, Nat.shiftRight_eq_div_pow]
  have hdiv : 2 * h / 2 = h := by omega
  -- the pieces
  generalize 2 ^ h = B at hB hB2 hpow hlt hmask hand hshr
  obtain ⟨ah, al, hal, ea⟩ : ∃ q r, r < B ∧ a.toNat = B * q + r := ⟨_, _, Nat.mod_lt _ hB, (Nat.div_add_mod a.toNat B).symm⟩
  obtain ⟨bh, bl, hbl, eb⟩ : ∃ q r, r < B ∧ b.toNat = B * q + r := ⟨_, _, Nat.mod_lt _ hB, (Nat.div_add_mod b.toNat B).symm⟩
  have dm : ∀ q r, r < B → (B * q + r) / B = q ∧ (B * q + r) % B = r := fun q r h => by
    constructor
    · rw [Nat.mul_add_div hB, Nat.div_eq_of_lt h, Nat.add_zero]
    · rw [Nat.mul_add_mod, Nat.mod_eq_of_lt h]
  have hah : ah < B := by
    have := a.isLt
    rw [ea, hpow] at this
    exact Nat.lt_of_mul_lt_mul_left (a := B) (by omega)
  have hbh : bh < B := by
    have := b.isLt
    rw [eb, hpow] at this
    exact Nat.lt_of_mul_lt_mul_left (a := B) (by omega)
  have m1 : ah * bl < B * B := Nat.mul_lt_mul'' hah hbl
  have m2 : al * bh < B * B := Nat.mul_lt_mul'' hal hbh
  have m3 : ah * bh < B * B := Nat.mul_lt_mul'' hah hbh
  have m4 : al * bl / B < B := Nat.div_lt_of_lt_mul (Nat.mul_lt_mul'' hal hbl)
  have key := hi_word_nat B (ah * bl) (al * bh) (al * bl / B) m4
  have hprod : a.toNat * b.toNat = B * (B * (ah * bh) + (ah * bl + al * bh + al * bl / B)) + al * bl % B := by
    rw [ea, eb]
    have : al * bl = B * (al * bl / B) + al * bl % B := (Nat.div_add_mod _ _).symm
    calc (B * ah + al) * (B * bh + bl) = B * (B * (ah * bh) + (ah * bl + al * bh)) + al * bl := by ring
      _ = B * (B * (ah * bh) + (ah * bl + al * bh)) + (B * (al * bl / B) + al * bl % B) := by rw [← this]
      _ = _ := by ring
  have hdivB : a.toNat * b.toNat / B = B * (ah * bh) + (ah * bl + al * bh + al * bl / B) := by
    rw [hprod, (dm _ _ (Nat.mod_lt _ hB)).1]
  have hhi : a.toNat * b.toNat / (B * B) = ah * bh + (ah * bl + al * bh + al * bl / B) / B := by
    rw [← Nat.div_div_eq_div_mul, hdivB, Nat.mul_add_div hB]
  have hab : a.toNat * b.toNat < B * B * (B * B) := by
    rw [← hpow]; exact Nat.mul_lt_mul'' a.isLt b.isLt
  have hhilt : a.toNat * b.toNat / (B * B) < B * B := Nat.div_lt_of_lt_mul hab
  -- low word
  have hlo : (mulhiloC99 a b).2.toNat = a.toNat * b.toNat % (B * B) := by
    show (a * b).toNat = _
    rw [BitVec.toNat_mul, hpow]
  have hloB : a.toNat * b.toNat % (B * B) / B = (ah * bl + al * bh + al * bl / B) % B := by
    rw [Nat.mod_mul_right_div_self, hdivB, Nat.mul_add_mod]
  -- high word
  have vahi : (a >>> h).toNat = ah := by rw [hshr, ea, (dm _ _ hal).1]
  have vbhi : (b >>> h).toNat = bh := by rw [hshr, eb, (dm _ _ hbl).1]
  have valo : (a &&& ((1 : BitVec (2 * h)) <<< h - 1)).toNat = al := by rw [hand, ea, (dm _ _ hal).2]
  have vblo : (b &&& ((1 : BitVec (2 * h)) <<< h - 1)).toNat = bl := by rw [hand, eb, (dm _ _ hbl).2]
  have hhiv : (mulhiloC99 a b).1.toNat = a.toNat * b.toNat / (B * B) := by
    simp only [mulhiloC99, hdiv]
    obtain ⟨x1, hx1⟩ : ∃ x, x = a >>> h := ⟨_, rfl⟩
    obtain ⟨x2, hx2⟩ : ∃ x, x = a &&& ((1 : BitVec (2 * h)) <<< h - 1) := ⟨_, rfl⟩
    obtain ⟨y1, hy1⟩ : ∃ x, x = b >>> h := ⟨_, rfl⟩
    obtain ⟨y2, hy2⟩ : ∃ x, x = b &&& ((1 : BitVec (2 * h)) <<< h - 1) := ⟨_, rfl⟩
    rw [← hx1] at vahi ⊢
    rw [← hx2] at valo ⊢
    rw [← hy1] at vbhi ⊢
    rw [← hy2] at vblo ⊢
    have u1 : (x1 * y2).toNat = ah * bl := by rw [BitVec.toNat_mul, vahi, vblo, hpow, Nat.mod_eq_of_lt m1]
    have u2 : (x2 * y1).toNat = al * bh := by rw [BitVec.toNat_mul, valo, vbhi, hpow, Nat.mod_eq_of_lt m2]
    have u3 : (x1 * y1).toNat = ah * bh := by rw [BitVec.toNat_mul, vahi, vbhi, hpow, Nat.mod_eq_of_lt m3]
    obtain ⟨p1, hp1⟩ : ∃ x, x = x1 * y2 := ⟨_, rfl⟩
    obtain ⟨p2, hp2⟩ : ∃ x, x = x2 * y1 := ⟨_, rfl⟩
    obtain ⟨p3, hp3⟩ : ∃ x, x = x1 * y1 := ⟨_, rfl⟩
    rw [← hp1] at u1 ⊢
    rw [← hp2] at u2 ⊢
    rw [← hp3] at u3 ⊢
    obtain ⟨s, hs⟩ : ∃ s, s = (p1 &&& ((1 : BitVec (2 * h)) <<< h - 1)) + (p2 &&& ((1 : BitVec (2 * h)) <<< h - 1)) := ⟨_, rfl⟩
    rw [← hs]
    have us : s.toNat = (ah * bl) % B + (al * bh) % B := by
      rw [hs, BitVec.toNat_add, hand, hand, u1, u2, hpow, Nat.mod_eq_of_lt]
      have l1 := Nat.mod_lt (ah * bl) hB
      have l2 := Nat.mod_lt (al * bh) hB
      have l3 : 2 * B ≤ B * B := Nat.mul_le_mul_right B hB2
      omega
    have ucond : ((a * b) >>> h < s &&& ((1 : BitVec (2 * h)) <<< h - 1)) ↔
        (ah * bl + al * bh + al * bl / B) % B < (ah * bl % B + al * bh % B) % B := by
      rw [BitVec.lt_def, hand, us, hshr, BitVec.toNat_mul, hpow, hloB]
    have uite : ((if (a * b) >>> h < s &&& ((1 : BitVec (2 * h)) <<< h - 1) then 1 else 0 : BitVec (2 * h))).toNat =
        if (ah * bl + al * bh + al * bl / B) % B < (ah * bl % B + al * bh % B) % B then 1 else 0 := by
      by_cases c : (a * b) >>> h < s &&& ((1 : BitVec (2 * h)) <<< h - 1)
      · rw [if_pos c, if_pos (ucond.mp c), hone]
      · rw [if_neg c, if_neg (fun d => c (ucond.mpr d))]; rfl
    rw [hhi] at hhilt ⊢
    rw [BitVec.toNat_add, BitVec.toNat_add, BitVec.toNat_add, BitVec.toNat_add, uite, hshr, hshr, hshr, u1, u2, u3, us, hpow]
    rw [key] at hhilt ⊢
    generalize (if (ah * bl + al * bh + al * bl / B) % B < (ah * bl % B + al * bh % B) % B then 1 else 0) = c at hhilt ⊢
    rw [Nat.mod_add_mod, Nat.add_assoc, Nat.mod_add_mod, Nat.add_assoc, Nat.mod_add_mod, Nat.mod_eq_of_lt (by linarith)]
    ring
  rw [hhiv, hlo, hpow, Nat.mul_comm, Nat.div_add_mod]

/-- C61: the double-word form (`__uint128_t`, or a 64-bit type for 32-bit words) returns them as well, so all
builds of Philox compute the same blocks. -/
theorem C61_mulhilo_double {w : Nat} (a b : BitVec w) :
    (mulhilo a b).1.toNat * 2 ^ w + (mulhilo a b).2.toNat = a.toNat * b.toNat := by
  rw [mulhilo_hi, mulhilo_lo, BitVec.toNat_mul, Nat.mul_comm, Nat.div_add_mod]

/-- C61: both forms return the same pair, for every even word width. -/
theorem C61_mulhilo_agree (h : Nat) (hh : 0 < h) (a b : BitVec (2 * h)) : mulhiloC99 a b = mulhilo a b := by
  have h1 := C61_mulhilo_c99 h hh a b
  have h2 := C61_mulhilo_double a b
  have l1 := (mulhiloC99 a b).2.isLt
  have l2 := (mulhilo a b).2.isLt
  have hp : 0 < 2 ^ (2 * h) := Nat.two_pow_pos _
  have e : ∀ x y : Nat, y < 2 ^ (2 * h) → (x * 2 ^ (2 * h) + y) / 2 ^ (2 * h) = x ∧ (x * 2 ^ (2 * h) + y) % 2 ^ (2 * h) = y := by
    intro x y hy
    rw [Nat.mul_comm, Nat.mul_add_div hp, Nat.div_eq_of_lt hy, Nat.mul_add_mod, Nat.mod_eq_of_lt hy]
    exact ⟨rfl, rfl⟩
  have e1 := e (mulhiloC99 a b).1.toNat _ l1
  have e2 := e (mulhilo a b).1.toNat _ l2
  rw [h1] at e1
  rw [h2] at e2
  exact Prod.ext (BitVec.eq_of_toNat_eq (e1.1.symm.trans e2.1)) (BitVec.eq_of_toNat_eq (e1.2.symm.trans e2.2))

example : mulhiloC99 (0xFFFFFFFFFFFFFFFF#(2 * 32)) 0xD2B74407B1CE6E93#(2 * 32) = (0xD2B74407B1CE6E92#(2 * 32), 0x2D48BBF84E31916D#(2 * 32)) := by
  decide +kernel

end Verif
