import Verif.Common.GF2

/-! Many 64-bit words side by side in one natural number.  A word-level program made of XOR, shifts
and rotations then runs on all of them at once; the kernel's big-number arithmetic makes checking a
linear map on a whole basis cheap. -/

namespace Verif.Lanes

/-- Word number `i` of `X`. -/
def lane (X i : Nat) : U64 := BitVec.ofNat 64 (X >>> (64 * i))

theorem lane_bit (X i j : Nat) (hj : j < 64) : (lane X i).getLsbD j = X.testBit (64 * i + j) := by
  rw [lane, BitVec.getLsbD_ofNat, Nat.testBit_shiftRight]
  simp [hj]

theorem lane_zero (i : Nat) : lane 0 i = 0#64 := by simp [lane]

theorem lane_xor (X Y i : Nat) : lane (X ^^^ Y) i = lane X i ^^^ lane Y i := by
  apply BitVec.eq_of_getLsbD_eq
  intro j hj
  rw [BitVec.getLsbD_xor, lane_bit _ _ _ hj, lane_bit _ _ _ hj, lane_bit _ _ _ hj, Nat.testBit_xor]

/-- `m` copies of the 64-bit pattern `pat`. -/
def rep (pat : Nat) : Nat → Nat
  | 0 => 0
  | m + 1 => Nat.add (Nat.mul (rep pat m) 18446744073709551616) pat

theorem rep_bit (pat : Nat) (hp : pat < 2 ^ 64) (m i j : Nat) (hi : i < m) (hj : j < 64) :
    (rep pat m).testBit (64 * i + j) = pat.testBit j := by
  induction m generalizing i with
  | zero => omega
  | succ m ih =>
    have hr : rep pat (m + 1) = 2 ^ 64 * rep pat m + pat := by
      show rep pat m * 18446744073709551616 + pat = _
      omega
    rw [hr, Nat.testBit_two_pow_mul_add _ hp]
    cases i with
    | zero => simp [hj]
    | succ i =>
      rw [if_neg (by omega), show 64 * (i + 1) + j - 64 = 64 * i + j by omega]
      exact ih i (by omega)

/-- Shift every lane left by `k` (`mask = rep (2^64 - 2^k) m`). -/
def shlL (mask k X : Nat) : Nat := Nat.land (Nat.shiftLeft X k) mask
/-- Shift every lane right by `k` (`mask = rep (2^(64-k) - 1) m`). -/
def shrL (mask k X : Nat) : Nat := Nat.land (Nat.shiftRight X k) mask
/-- Rotate every lane left by `k`. -/
def rotL (mh ml k X : Nat) : Nat := Nat.xor (shlL mh k X) (shrL ml (Nat.sub 64 k) X)

def maskHi (k m : Nat) : Nat := rep (Nat.sub 18446744073709551616 (Nat.pow 2 k)) m
def maskLo (k m : Nat) : Nat := rep (Nat.sub (Nat.pow 2 k) 1) m

theorem maskHi_bit (k m i j : Nat) (hk : k ≤ 64) (hi : i < m) (hj : j < 64) :
    (maskHi k m).testBit (64 * i + j) = decide (k ≤ j) := by
  have h0 : Nat.sub 18446744073709551616 (Nat.pow 2 k) = 2 ^ 64 - 2 ^ k := rfl
  have hpos : 0 < 2 ^ k := by positivity
  have hle : 2 ^ k ≤ 2 ^ 64 := Nat.pow_le_pow_right (by decide) hk
  rw [maskHi, h0, rep_bit _ (by omega) _ _ _ hi hj]
  have : 2 ^ 64 - 2 ^ k = 2 ^ 64 - ((2 ^ k - 1) + 1) := by omega
  rw [this, Nat.testBit_two_pow_sub_succ (by omega), Nat.testBit_two_pow_sub_one]
  by_cases h : k ≤ j
  · simp [hj, h]
  · simp [h]; omega

theorem maskLo_bit (k m i j : Nat) (hk : k ≤ 64) (hi : i < m) (hj : j < 64) :
    (maskLo k m).testBit (64 * i + j) = decide (j < k) := by
  have h0 : Nat.sub (Nat.pow 2 k) 1 = 2 ^ k - 1 := rfl
  have hpos : 0 < 2 ^ k := by positivity
  have hle : 2 ^ k ≤ 2 ^ 64 := Nat.pow_le_pow_right (by decide) hk
  rw [maskLo, h0, rep_bit _ (by omega) _ _ _ hi hj, Nat.testBit_two_pow_sub_one]

theorem lane_shl (X k m i : Nat) (hk : k ≤ 64) (hi : i < m) :
    lane (shlL (maskHi k m) k X) i = lane X i <<< k := by
  apply BitVec.eq_of_getLsbD_eq
  intro j hj
  rw [lane_bit _ _ _ hj, BitVec.getLsbD_shiftLeft]
  show ((X <<< k) &&& maskHi k m).testBit _ = _
  rw [Nat.testBit_and, maskHi_bit _ _ _ _ hk hi hj, Nat.testBit_shiftLeft]
  by_cases h : k ≤ j
  · rw [lane_bit _ _ _ (by omega)]
    have h1 : k ≤ 64 * i + j := by omega
    have h3 : 64 * i + j - k = 64 * i + (j - k) := by omega
    have h4 : ¬ j < k := by omega
    simp [hj, h, h1, h3, h4]
  · have h4 : j < k := by omega
    simp [h, h4]

theorem lane_shr (X k m i : Nat) (hk : k ≤ 64) (hi : i < m) :
    lane (shrL (maskLo (64 - k) m) k X) i = lane X i >>> k := by
  apply BitVec.eq_of_getLsbD_eq
  intro j hj
  rw [lane_bit _ _ _ hj, BitVec.getLsbD_ushiftRight]
  show ((X >>> k) &&& maskLo (64 - k) m).testBit _ = _
  rw [Nat.testBit_and, maskLo_bit _ _ _ _ (by omega) hi hj, Nat.testBit_shiftRight]
  by_cases h : j < 64 - k
  · rw [lane_bit _ _ _ (by omega)]
    have h3 : k + (64 * i + j) = 64 * i + (k + j) := by omega
    simp [h, h3]
  · have : (lane X i).getLsbD (k + j) = false := BitVec.getLsbD_of_ge _ _ (by omega)
    simp [h, this]

theorem lane_rot (X k m i : Nat) (hk : k < 64) (hk0 : 0 < k) (hi : i < m) :
    lane (rotL (maskHi k m) (maskLo k m) k X) i = (lane X i).rotateLeft k := by
  have h1 : rotL (maskHi k m) (maskLo k m) k X =
      shlL (maskHi k m) k X ^^^ shrL (maskLo (64 - (64 - k)) m) (64 - k) X := by
    rw [show 64 - (64 - k) = k by omega]; rfl
  rw [h1, lane_xor, lane_shl _ _ _ _ (by omega) hi, lane_shr _ _ _ _ (by omega) hi]
  apply BitVec.eq_of_getLsbD_eq
  intro j hj
  rw [BitVec.getLsbD_xor, BitVec.getLsbD_shiftLeft, BitVec.getLsbD_ushiftRight,
    BitVec.getLsbD_rotateLeft]
  rw [Nat.mod_eq_of_lt hk]
  by_cases h : j < k
  · simp [h]
  · have : (lane X i).getLsbD (64 - k + j) = false := BitVec.getLsbD_of_ge _ _ (by omega)
    simp [h, hj, this]

/-! ### Linear maps vanish when they vanish on a basis -/

theorem add_map_eq_zero {V : Type} [AddCommGroup V] (f : U64 → V)
    (hf : ∀ a b, f (a ^^^ b) = f a + f b) (hb : ∀ j, j < 64 → f (BitVec.twoPow 64 j) = 0) (x : U64) :
    f x = 0 := by
  have h0 : f 0#64 = 0 := by
    have := hf 0#64 0#64
    simpa using this
  have key : ∀ k, k ≤ 64 → f (x &&& BitVec.ofNat 64 (2 ^ k - 1)) = 0 := by
    intro k
    induction k with
    | zero => intro _; simpa using h0
    | succ k ih =>
      intro hk
      have hsplit : x &&& BitVec.ofNat 64 (2 ^ (k + 1) - 1) =
          (x &&& BitVec.ofNat 64 (2 ^ k - 1)) ^^^
            (if x.getLsbD k then BitVec.twoPow 64 k else 0#64) := by
        apply BitVec.eq_of_getLsbD_eq
        intro j hj
        rw [BitVec.getLsbD_and, BitVec.getLsbD_xor, BitVec.getLsbD_and, BitVec.getLsbD_ofNat,
          BitVec.getLsbD_ofNat, Nat.testBit_two_pow_sub_one, Nat.testBit_two_pow_sub_one]
        rcases Nat.lt_trichotomy j k with h | h | h
        · have : ¬ j = k := by omega
          have h2 : j < k + 1 := by omega
          cases hx : x.getLsbD k <;> simp [h, hj, this, h2]
        · subst h
          cases hx : x.getLsbD j <;> simp [hj]
        · have : ¬ j = k := by omega
          have h2 : ¬ j < k + 1 := by omega
          have h3 : ¬ j < k := by omega
          cases hx : x.getLsbD k <;> simp [hj, this, h2, h3]
      rw [hsplit, hf, ih (by omega)]
      split
      · simpa using hb k (by omega)
      · simpa using h0
  have := key 64 (Nat.le_refl _)
  have hx : x &&& BitVec.ofNat 64 (2 ^ 64 - 1) = x := by
    apply BitVec.eq_of_getLsbD_eq
    intro j hj
    rw [BitVec.getLsbD_and, BitVec.getLsbD_ofNat, Nat.testBit_two_pow_sub_one]
    simp [hj]
  rwa [hx] at this

end Verif.Lanes
