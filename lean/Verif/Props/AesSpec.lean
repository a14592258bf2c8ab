import Verif.Model.AesNi
import Verif.Props.BlockPerm

/-! C83: AESCounter is AES-128 in counter mode, against FIPS 197. -/

namespace Verif
open Fips197 (mul pow subByte mixColumns shiftRows subBytes keyWord)

/-! ### The S-box, the field and MixColumns -/

theorem forall_byte {P : U8 → Prop} (h : ∀ x : Fin 256, P (BitVec.ofFin x)) (x : U8) : P x := h x.toFin

/-- The inverses, as a table, so that the powers are computed once. -/
def invTable : List U8 :=
  [
    0x00, 0x01, 0x8d, 0xf6, 0xcb, 0x52, 0x7b, 0xd1, 0xe8, 0x4f, 0x29, 0xc0, 0xb0, 0xe1, 0xe5, 0xc7,
    0x74, 0xb4, 0xaa, 0x4b, 0x99, 0x2b, 0x60, 0x5f, 0x58, 0x3f, 0xfd, 0xcc, 0xff, 0x40, 0xee, 0xb2,
    0x3a, 0x6e, 0x5a, 0xf1, 0x55, 0x4d, 0xa8, 0xc9, 0xc1, 0x0a, 0x98, 0x15, 0x30, 0x44, 0xa2, 0xc2,
    0x2c, 0x45, 0x92, 0x6c, 0xf3, 0x39, 0x66, 0x42, 0xf2, 0x35, 0x20, 0x6f, 0x77, 0xbb, 0x59, 0x19,
    0x1d, 0xfe, 0x37, 0x67, 0x2d, 0x31, 0xf5, 0x69, 0xa7, 0x64, 0xab, 0x13, 0x54, 0x25, 0xe9, 0x09,
    0xed, 0x5c, 0x05, 0xca, 0x4c, 0x24, 0x87, 0xbf, 0x18, 0x3e, 0x22, 0xf0, 0x51, 0xec, 0x61, 0x17,
    0x16, 0x5e, 0xaf, 0xd3, 0x49, 0xa6, 0x36, 0x43, 0xf4, 0x47, 0x91, 0xdf, 0x33, 0x93, 0x21, 0x3b,
    0x79, 0xb7, 0x97, 0x85, 0x10, 0xb5, 0xba, 0x3c, 0xb6, 0x70, 0xd0, 0x06, 0xa1, 0xfa, 0x81, 0x82,
    0x83, 0x7e, 0x7f, 0x80, 0x96, 0x73, 0xbe, 0x56, 0x9b, 0x9e, 0x95, 0xd9, 0xf7, 0x02, 0xb9, 0xa4,
    0xde, 0x6a, 0x32, 0x6d, 0xd8, 0x8a, 0x84, 0x72, 0x2a, 0x14, 0x9f, 0x88, 0xf9, 0xdc, 0x89, 0x9a,
    0xfb, 0x7c, 0x2e, 0xc3, 0x8f, 0xb8, 0x65, 0x48, 0x26, 0xc8, 0x12, 0x4a, 0xce, 0xe7, 0xd2, 0x62,
    0x0c, 0xe0, 0x1f, 0xef, 0x11, 0x75, 0x78, 0x71, 0xa5, 0x8e, 0x76, 0x3d, 0xbd, 0xbc, 0x86, 0x57,
    0x0b, 0x28, 0x2f, 0xa3, 0xda, 0xd4, 0xe4, 0x0f, 0xa9, 0x27, 0x53, 0x04, 0x1b, 0xfc, 0xac, 0xe6,
    0x7a, 0x07, 0xae, 0x63, 0xc5, 0xdb, 0xe2, 0xea, 0x94, 0x8b, 0xc4, 0xd5, 0x9d, 0xf8, 0x90, 0x6b,
    0xb1, 0x0d, 0xd6, 0xeb, 0xc6, 0x0e, 0xcf, 0xad, 0x08, 0x4e, 0xd7, 0xe3, 0x5d, 0x50, 0x1e, 0xb3,
    0x5b, 0x23, 0x38, 0x34, 0x68, 0x46, 0x03, 0x8c, 0xdd, 0x9c, 0x7d, 0xa0, 0xcd, 0x1a, 0x41, 0x1c]

theorem inv_table (a : U8) : Fips197.inv a = invTable.getD a.toNat 0 := by
  have e : ∀ x : Fin 256, Fips197.inv (BitVec.ofFin x) = invTable.getD x.val 0 := by decide +kernel
  exact e a.toFin

/-- `inv a` is the inverse of `a` in GF(2^8). -/
theorem fips_inv (a : U8) (h : a ≠ 0) : mul a (Fips197.inv a) = 1 := by
  have e : ∀ x : Fin 256, (BitVec.ofFin x : U8) ≠ 0 → mul (BitVec.ofFin x) (invTable.getD x.val 0) = 1 := by
    decide +kernel
  rw [inv_table]
  exact e a.toFin h

theorem fips_inv_zero : Fips197.inv 0 = 0 := by rw [inv_table]; rfl

/-- C83: the table of softaes.h is the S-box of the standard, all 256 entries. -/
theorem C83_sbox (x : U8) : sbox x = subByte x := by
  have e : ∀ x : Fin 256, sbox (BitVec.ofFin x) = Fips197.affine (invTable.getD x.val 0) := by decide +kernel
  rw [subByte, inv_table]
  exact e x.toFin

theorem mul_one' (x : U8) : mul 1 x = x := by
  have e : ∀ x : Fin 256, mul 1 (BitVec.ofFin x) = BitVec.ofFin x := by decide +kernel
  exact e x.toFin

theorem mul_two (x : U8) : mul 2 x = xtime x := by
  have e : ∀ x : Fin 256, mul 2 (BitVec.ofFin x) = xtime (BitVec.ofFin x) := by decide +kernel
  exact e x.toFin

theorem mul_three (x : U8) : mul 3 x = xtime x ^^^ x := by
  have e : ∀ x : Fin 256, mul 3 (BitVec.ofFin x) = xtime (BitVec.ofFin x) ^^^ BitVec.ofFin x := by decide +kernel
  exact e x.toFin

/-- Transposition between the columns of the code and the rows and columns of the standard. -/
def tr (s : AesBlk) : Fips197.State := fun r c => s c r

theorem tr_sub (s : AesBlk) : tr (aesSub s) = subBytes (tr s) := by
  funext r c; exact C83_sbox _

theorem tr_shift (s : AesBlk) : tr (aesShift s) = shiftRows (tr s) := by
  funext r c; fin_cases r <;> fin_cases c <;> rfl

theorem xor_cancel4 (a b c d x : U8) : a ^^^ (x ^^^ (a ^^^ b ^^^ c ^^^ d)) = x ^^^ b ^^^ c ^^^ d := by
  have : a ^^^ (x ^^^ (a ^^^ b ^^^ c ^^^ d)) = (a ^^^ a) ^^^ (x ^^^ b ^^^ c ^^^ d) := by ac_rfl
  rw [this, BitVec.xor_self, BitVec.zero_xor]

theorem tr_mix (s : AesBlk) : tr (aesMix s) = mixColumns (tr s) := by
  funext r c
  have h0 : ∀ x : U8, mul (Fips197.mixPoly 0) x = xtime x := mul_two
  have h1 : ∀ x : U8, mul (Fips197.mixPoly 1) x = x := mul_one'
  have h2 : ∀ x : U8, mul (Fips197.mixPoly 2) x = x := mul_one'
  have h3 : ∀ x : U8, mul (Fips197.mixPoly 3) x = xtime x ^^^ x := mul_three
  have e0 : ∀ a b c d : U8, a ^^^ (xtime (a ^^^ b) ^^^ (a ^^^ b ^^^ c ^^^ d)) = xtime a ^^^ (xtime b ^^^ b) ^^^ c ^^^ d := by
    intro a b c d
    rw [xor_cancel4, xtime_xor]; ac_rfl
  fin_cases r
  · change aesMixCol (s c) 0 = mul (Fips197.mixPoly 0) (s c 0) ^^^ mul (Fips197.mixPoly 3) (s c 1) ^^^
      mul (Fips197.mixPoly 2) (s c 2) ^^^ mul (Fips197.mixPoly 1) (s c 3)
    rw [h0, h1, h2, h3]
    exact e0 _ _ _ _
  · change aesMixCol (s c) 1 = mul (Fips197.mixPoly 1) (s c 0) ^^^ mul (Fips197.mixPoly 0) (s c 1) ^^^
      mul (Fips197.mixPoly 3) (s c 2) ^^^ mul (Fips197.mixPoly 2) (s c 3)
    rw [h0, h1, h2, h3]
    have := e0 (s c 1) (s c 2) (s c 3) (s c 0)
    simp only [aesMixCol]
    rw [show s c 0 ^^^ s c 1 ^^^ s c 2 ^^^ s c 3 = s c 1 ^^^ s c 2 ^^^ s c 3 ^^^ s c 0 by ac_rfl, this]
    ac_rfl
  · change aesMixCol (s c) 2 = mul (Fips197.mixPoly 2) (s c 0) ^^^ mul (Fips197.mixPoly 1) (s c 1) ^^^
      mul (Fips197.mixPoly 0) (s c 2) ^^^ mul (Fips197.mixPoly 3) (s c 3)
    rw [h0, h1, h2, h3]
    have := e0 (s c 2) (s c 3) (s c 0) (s c 1)
    simp only [aesMixCol]
    rw [show s c 0 ^^^ s c 1 ^^^ s c 2 ^^^ s c 3 = s c 2 ^^^ s c 3 ^^^ s c 0 ^^^ s c 1 by ac_rfl, this]
    ac_rfl
  · change aesMixCol (s c) 3 = mul (Fips197.mixPoly 3) (s c 0) ^^^ mul (Fips197.mixPoly 2) (s c 1) ^^^
      mul (Fips197.mixPoly 1) (s c 2) ^^^ mul (Fips197.mixPoly 0) (s c 3)
    rw [h0, h1, h2, h3]
    have := e0 (s c 3) (s c 0) (s c 1) (s c 2)
    simp only [aesMixCol]
    rw [show s c 0 ^^^ s c 1 ^^^ s c 2 ^^^ s c 3 = s c 3 ^^^ s c 0 ^^^ s c 1 ^^^ s c 2 by ac_rfl, this]
    ac_rfl

/-! ### The key schedule -/

/-- A word of the standard as the list the code keeps. -/
def wl (w : Fips197.Word) : List U8 := [w 0, w 1, w 2, w 3]

theorem rcon_eq (i : Nat) (h : i < 11) (h0 : i ≠ 0) : rconTable.getD i 0 = pow 2 (i - 1) := by
  have : ∀ i : Fin 11, i.val ≠ 0 → rconTable.getD i.val 0 = pow 2 (i.val - 1) := by decide +kernel
  exact this ⟨i, h⟩ h0

theorem aesKeyWord_spec (key : Nat → U8) (ws : List (List U8)) (m : Nat) (hm : 4 ≤ m) (hm' : m < 44)
    (hl : ws.length = m) (h : ∀ i < m, ws.getD i [] = wl (keyWord key i)) :
    (aesKeyWord ws m).length = m + 1 ∧ ∀ i < m + 1, (aesKeyWord ws m).getD i [] = wl (keyWord key i) := by
  have hk := h (m - 1) (by omega)
  have hp := h (m - 4) (by omega)
  refine ⟨by simp [aesKeyWord, hl], fun i hi => ?_⟩
  rcases Nat.lt_succ_iff_lt_or_eq.mp hi with hlt | rfl
  · rw [← h i hlt, aesKeyWord]
    rw [List.getD_eq_getElem?_getD, List.getElem?_append_left (hl ▸ hlt), List.getD_eq_getElem?_getD]
  · rw [aesKeyWord, List.getD_eq_getElem?_getD, List.getElem?_append_right (le_of_eq hl), hl, Nat.sub_self, hk, hp]
    change List.cons _ _ = _
    by_cases h4 : i % 4 = 0
    · rw [keyWord.eq_def key i, if_neg (show ¬ i < 4 by omega), if_pos h4, if_pos h4]
      simp only [wl, List.getD_cons_zero, List.getD_cons_succ, C83_sbox, rcon_eq (i / 4) (by omega) (by omega),
        Fips197.subWord, Fips197.rotWord, Fips197.rcon]
      simp
    · rw [keyWord.eq_def key i, if_neg (show ¬ i < 4 by omega), if_neg h4, if_neg h4]
      rfl

theorem aesKeyFold (key : Nat → U8) (ws : List (List U8)) (hl : ws.length = 4)
    (h : ∀ i < 4, ws.getD i [] = wl (keyWord key i)) (n : Nat) (hn : n ≤ 40) :
    (((List.range n).map (· + 4)).foldl aesKeyWord ws).length = n + 4 ∧
      ∀ i < n + 4, (((List.range n).map (· + 4)).foldl aesKeyWord ws).getD i [] = wl (keyWord key i) := by
  induction n with
  | zero => exact ⟨hl, h⟩
  | succ n ih =>
    obtain ⟨h1, h2⟩ := ih (by omega)
    rw [List.range_succ, List.map_append, List.foldl_append]
    have := aesKeyWord_spec key _ (n + 4) (by omega) (by omega) h1 h2
    exact ⟨this.1.trans (by omega), fun i hi => this.2 i (by omega)⟩

/-- Byte `i` of a key or counter, read from its two words in little-endian memory. -/
def ctrByte (c : Ctr) (i : Nat) : U8 := if i < 8 then leByte c.lo i else leByte c.hi (i - 8)

theorem aesExpandKey_spec (k0 k1 : U64) (i j : Nat) (hi : i < 44) (hj : j < 4) :
    aesExpandKey k0 k1 (4 * i + j) = keyWord (ctrByte ⟨k0, k1⟩) i ⟨j, hj⟩ := by
  have h : ∀ i < 4, [[leByte k0 0, leByte k0 1, leByte k0 2, leByte k0 3], [leByte k0 4, leByte k0 5, leByte k0 6,
      leByte k0 7], [leByte k1 0, leByte k1 1, leByte k1 2, leByte k1 3], [leByte k1 4, leByte k1 5, leByte k1 6,
      leByte k1 7]].getD i [] = wl (keyWord (ctrByte ⟨k0, k1⟩) i) := by
    intro i hi
    interval_cases i <;> (rw [keyWord, if_pos (by decide)]; rfl)
  have := (aesKeyFold _ _ rfl h 40 le_rfl).2 i hi
  rw [aesExpandKey, show (4 * i + j) / 4 = i by omega, show (4 * i + j) % 4 = j by omega]
  rw [this]
  interval_cases j <;> rfl

/-- Past the 176 bytes of the schedule the model holds zeros. -/
theorem aesExpandKey_out (k0 k1 : U64) (n : Nat) (hn : 176 ≤ n) : aesExpandKey k0 k1 n = 0 := by
  have h : ∀ i < 4, [[leByte k0 0, leByte k0 1, leByte k0 2, leByte k0 3], [leByte k0 4, leByte k0 5, leByte k0 6,
      leByte k0 7], [leByte k1 0, leByte k1 1, leByte k1 2, leByte k1 3], [leByte k1 4, leByte k1 5, leByte k1 6,
      leByte k1 7]].getD i [] = wl (keyWord (ctrByte ⟨k0, k1⟩) i) := by
    intro i hi
    interval_cases i <;> (rw [keyWord, if_pos (by decide)]; rfl)
  have h1 := (aesKeyFold _ _ rfl h 40 le_rfl).1
  rw [aesExpandKey]
  rw [List.getD_eq_getElem?_getD (l := List.foldl _ _ _), List.getElem?_eq_none (by rw [h1]; omega)]
  rfl

/-! ### The cipher -/

theorem tr_addKey (key rk : Nat → U8) (hrk : ∀ i j : Nat, i < 44 → (hj : j < 4) → rk (4 * i + j) = keyWord key i ⟨j, hj⟩)
    (round : Nat) (hr : round ≤ 10) (s : AesBlk) :
    tr (aesAddKey round rk s) = Fips197.addRoundKey (keyWord key) round (tr s) := by
  funext r c
  change s c r ^^^ rk (round * 16 + c.val * 4 + r.val) = s c r ^^^ keyWord key (4 * round + c) r
  rw [show round * 16 + c.val * 4 + r.val = 4 * (4 * round + c) + r by omega, hrk _ _ (by omega) r.isLt]

theorem tr_rounds (key rk : Nat → U8) (hrk : ∀ i j : Nat, i < 44 → (hj : j < 4) → rk (4 * i + j) = keyWord key i ⟨j, hj⟩)
    (s : AesBlk) (n : Nat) (hn : n ≤ 9) :
    tr (aesRounds rk n s) = Fips197.rounds (keyWord key) (tr s) n := by
  induction n with
  | zero => exact tr_addKey key rk hrk 0 (by omega) s
  | succ n ih =>
    rw [aesRounds, tr_addKey key rk hrk (n + 1) (by omega), tr_mix, tr_shift, tr_sub, ih (by omega)]
    rfl

theorem aesEncrypt_spec (key rk : Nat → U8)
    (hrk : ∀ i j : Nat, i < 44 → (hj : j < 4) → rk (4 * i + j) = keyWord key i ⟨j, hj⟩) (s : AesBlk) :
    tr (aesEncrypt rk s) = Fips197.addRoundKey (keyWord key) 10
      (shiftRows (subBytes (Fips197.rounds (keyWord key) (tr s) 9))) := by
  rw [aesEncrypt, tr_addKey key rk hrk 10 le_rfl, tr_shift, tr_sub, tr_rounds key rk hrk s 9 le_rfl]

theorem leByte_le64 (b : Nat → U8) (k : Nat) (hk : k < 8) : leByte (le64 b) k = b k := by
  have h : ∀ {m : Nat} (x : BitVec m) (u : U8) (j : Nat), ((x ++ u) >>> (8 + j)) = (x >>> j).setWidth (m + 8) := by
    intro m x u j
    apply BitVec.eq_of_getLsbD_eq
    intro i hi
    simp only [BitVec.getLsbD_ushiftRight, BitVec.getLsbD_append, BitVec.getLsbD_setWidth]
    rw [if_neg (by omega), show 8 + j + i - 8 = j + i by omega]
    simp [hi]
  have hb : ∀ i, (le64 b).getLsbD i = (decide (i < 64) && (b (i / 8)).getLsbD (i % 8)) := by
    intro i
    by_cases hi : i < 64
    · simp only [le64, BitVec.getLsbD_append, hi, decide_true, Bool.true_and]
      interval_cases i <;> rfl
    · rw [BitVec.getLsbD_of_ge _ _ (by omega)]; simp [hi]
  apply BitVec.eq_of_getLsbD_eq
  intro i hi
  simp only [leByte, BitVec.truncate_eq_setWidth, BitVec.getLsbD_setWidth, BitVec.getLsbD_ushiftRight, hb]
  rw [show (8 * k + i) / 8 = k by omega, show (8 * k + i) % 8 = i by omega]
  simp [hi, show 8 * k + i < 64 by omega]

theorem ctrByte_blkToCtr (s : AesBlk) (n : Fin 16) :
    ctrByte (blkToCtr s) n = s ⟨n / 4, by omega⟩ ⟨n % 4, Nat.mod_lt _ (by decide)⟩ := by
  unfold ctrByte blkToCtr
  dsimp only
  split
  · rename_i h
    rw [leByte_le64 _ _ h]
    congr 2
    omega
  · rw [leByte_le64 _ _ (by omega)]
    congr 2
    · omega
    · omega

/-- C83: encryption of a counter under an expanded key is AES-128: for every key and every block, byte by byte. -/
theorem C83_encrypt (k0 k1 : U64) (c : Ctr) (n : Fin 16) :
    ctrByte (aesEnc (aesExpandKey k0 k1) c) n = Fips197.cipher (ctrByte ⟨k0, k1⟩) (ctrByte c) n := by
  rw [aesEnc, ctrByte_blkToCtr]
  have h := aesEncrypt_spec (ctrByte ⟨k0, k1⟩) _ (aesExpandKey_spec k0 k1) (ctrToBlk c)
  have e : tr (ctrToBlk c) = Fips197.load (ctrByte c) := by
    funext r c'
    simp only [tr, ctrToBlk, Fips197.load, ctrByte]
    rw [show c'.val * 4 + r.val = r.val + 4 * c'.val by omega]
  rw [e] at h
  exact congrFun (congrFun h ⟨n % 4, Nat.mod_lt _ (by decide)⟩) ⟨n / 4, by omega⟩

/-- Byte `i` of a number, least significant first. -/
def natByte (v i : Nat) : U8 := BitVec.ofNat 8 (v / 2 ^ (8 * i))

theorem leByte_ofNat (v k : Nat) (hk : k < 8) : leByte (BitVec.ofNat 64 v) k = natByte v k := by
  apply BitVec.eq_of_getLsbD_eq
  intro i hi
  simp only [leByte, natByte, BitVec.truncate_eq_setWidth, BitVec.getLsbD_setWidth, BitVec.getLsbD_ushiftRight,
    BitVec.getLsbD_ofNat, hi, decide_true, Bool.true_and, show 8 * k + i < 64 by omega]
  rw [Nat.testBit_div_two_pow, Nat.add_comm]

theorem ctrByte_num (v i : Nat) (hi : i < 16) :
    ctrByte ⟨BitVec.ofNat 64 v, BitVec.ofNat 64 (v / 2 ^ 64)⟩ i = natByte v i := by
  unfold ctrByte
  split
  · rename_i h; exact leByte_ofNat v i h
  · rw [leByte_ofNat _ _ (by omega), natByte, natByte, Nat.div_div_eq_div_mul, ← pow_add,
      show 64 + 8 * (i - 8) = 8 * i by omega]

theorem keyWord_congr {f g : Nat → U8} (h : ∀ i < 16, f i = g i) (i : Nat) : keyWord f i = keyWord g i := by
  induction i using Nat.strong_induction_on with
  | _ i ih =>
    rw [keyWord.eq_def f i, keyWord.eq_def g i]
    split
    · rename_i hi
      funext j; exact h (4 * i + j) (by omega)
    · rw [ih (i - 4) (by omega), ih (i - 1) (by omega)]

theorem cipher_congr {f g u v : Nat → U8} (h : ∀ i < 16, f i = g i) (h' : ∀ i < 16, u i = v i) (n : Fin 16) :
    Fips197.cipher f u n = Fips197.cipher g v n := by
  have e1 : keyWord f = keyWord g := funext (keyWord_congr h)
  have e2 : Fips197.load u = Fips197.load v := by
    funext r c; exact h' (r + 4 * c) (by omega)
  unfold Fips197.cipher
  rw [e1, e2]

/-- C83: draw `n` of an AESCounter seeded with the 128-bit numbers `key` and `counter` is eight bytes of the AES-128
encryption of `counter + n / 2` modulo `2^128` under `key`, key and block in little-endian byte order: the first
eight for even `n`, the last eight for odd `n`. -/
theorem C83_stream (old : Aes) (key counter n : Nat) :
    ∃ w : U64, nthO aesNext n (aesSeed old (BitVec.ofNat 64 key) (BitVec.ofNat 64 (key / 2 ^ 64)) counter) = some w ∧
      ∀ k (hk : k < 8), natByte w.toNat k =
        Fips197.cipher (natByte key) (natByte ((counter + n / 2) % 2 ^ 128)) ⟨8 * (n % 2) + k, by omega⟩ := by
  refine ⟨_, C16_aes_stream old _ _ counter n, fun k hk => ?_⟩
  rw [← leByte_ofNat _ _ hk, BitVec.ofNat_toNat, BitVec.setWidth_eq]
  have h := C83_encrypt (BitVec.ofNat 64 key) (BitVec.ofNat 64 (key / 2 ^ 64))
    (Ctr.ofVal (BitVec.ofNat 128 (counter + n / 2))) ⟨8 * (n % 2) + k, by omega⟩
  have hc : Ctr.ofVal (BitVec.ofNat 128 (counter + n / 2)) = ⟨BitVec.ofNat 64 ((counter + n / 2) % 2 ^ 128),
      BitVec.ofNat 64 ((counter + n / 2) % 2 ^ 128 / 2 ^ 64)⟩ := by
    rw [Ctr.ofVal, Ctr.mk.injEq]
    constructor
    · apply BitVec.eq_of_toNat_eq
      simp only [BitVec.extractLsb'_toNat, BitVec.toNat_ofNat, Nat.shiftRight_eq_div_pow]
      omega
    · apply BitVec.eq_of_toNat_eq
      simp only [BitVec.extractLsb'_toNat, BitVec.toNat_ofNat, Nat.shiftRight_eq_div_pow]
  rw [cipher_congr (fun i hi => ctrByte_num key i hi)
    (fun i hi => (congrArg (ctrByte · i) hc).trans (ctrByte_num ((counter + n / 2) % 2 ^ 128) i hi))] at h
  rw [← h]
  generalize aesEnc _ _ = e
  unfold half ctrByte
  rcases Nat.mod_two_eq_zero_or_one n with h2 | h2
  · simp [h2, hk]
  · simp [h2]

end Verif
