import Verif.Model.SpeckSse
import Verif.Props.Dsfmt

/-! C18 for SPECK128. -/

namespace Verif

theorem set64_bit (a b : U64) (i : Nat) : (mmSet64 a b).getLsbD i = if i < 64 then b.getLsbD i else a.getLsbD (i - 64) := packD_bit ⟨b, a⟩ i

theorem set64_lo (a b : U64) : (mmSet64 a b).extractLsb' 0 64 = b := by
  apply BitVec.eq_of_getLsbD_eq; intro i hi
  rw [BitVec.getLsbD_extractLsb', set64_bit, Nat.zero_add, if_pos hi, decide_eq_true hi, Bool.true_and]

theorem set64_hi (a b : U64) : (mmSet64 a b).extractLsb' 64 64 = a := by
  apply BitVec.eq_of_getLsbD_eq; intro i hi
  rw [BitVec.getLsbD_extractLsb', set64_bit, if_neg (by omega), decide_eq_true hi, Bool.true_and, Nat.add_sub_cancel_left]

theorem sseRor8_eq (a b : U64) : sseRor8 (mmSet64 a b) = mmSet64 (rotr64 a 8) (rotr64 b 8) := by
  have h : ∀ i : Fin 128, ((mmSet64 0x080f0e0d0c0b0a09 0x0007060504030201).extractLsb' (8 * (i.val / 8)) 8).getLsbD 7 = false ∧
      8 * (((mmSet64 0x080f0e0d0c0b0a09 0x0007060504030201).extractLsb' (8 * (i.val / 8)) 8) &&& 15).toNat + i.val % 8 =
        64 * (i.val / 64) + (i.val + 8) % 64 := by decide +kernel
  apply BitVec.eq_of_getLsbD_eq
  intro i hi
  obtain ⟨h1, h2⟩ := h ⟨i, hi⟩
  simp only at h1 h2
  have hb : (sseRor8 (mmSet64 a b)).getLsbD i = (mmSet64 a b).getLsbD (64 * (i / 64) + (i + 8) % 64) := by
    rw [sseRor8, mmShuffle8, BitVec.getLsbD_ofFnLE, dif_pos hi]
    simp only [h1, h2]
    rfl
  rw [hb, set64_bit, set64_bit]
  simp only [rotr64, BitVec.getLsbD_or, BitVec.getLsbD_ushiftRight, BitVec.getLsbD_shiftLeft]
  by_cases h64 : i < 64
  · by_cases h56 : i < 56
    · simp [h64, h56, show 64 * (i / 64) + (i + 8) % 64 = 8 + i by omega, show 8 + i < 64 by omega]
    · simp [h64, h56, show 64 * (i / 64) + (i + 8) % 64 = i - 56 by omega, show i - 56 < 64 by omega, BitVec.getLsbD_of_ge b (8 + i) (by omega)]
  · by_cases h120 : i < 120
    · simp [h64, show i - 64 < 56 by omega, show 64 * (i / 64) + (i + 8) % 64 = 64 + (8 + (i - 64)) by omega]
    · simp [h64, show ¬ i - 64 < 56 by omega, show 64 * (i / 64) + (i + 8) % 64 = 64 + (i - 64 - 56) by omega, show i - 64 < 64 by omega,
        BitVec.getLsbD_of_ge a (8 + (i - 64)) (by omega)]

theorem rotl64_xor3 (x : U64) : rotl64 x 3 = x <<< 3 ^^^ x >>> (64 - 3) := by
  apply BitVec.eq_of_getLsbD_eq
  intro i hi
  simp only [rotl64, BitVec.getLsbD_or, BitVec.getLsbD_xor, BitVec.getLsbD_shiftLeft, BitVec.getLsbD_ushiftRight]
  by_cases h : i < 3
  · simp [h]
  · simp [BitVec.getLsbD_of_ge x (61 + i) (by omega)]

theorem set64_xor (a b c d : U64) : mmSet64 a b ^^^ mmSet64 c d = mmSet64 (a ^^^ c) (b ^^^ d) := packD_xor ⟨b, a⟩ ⟨d, c⟩

theorem sseRound_eq (k x x' y y' : U64) : sseRound k (mmSet64 x' x, mmSet64 y' y) =
    (mmSet64 (er64 x' y' k).1 (er64 x y k).1, mmSet64 (er64 x' y' k).2 (er64 x y k).2) := by
  have hl : mmSlli64 (mmSet64 y' y) 3 = mmSet64 (y' <<< 3) (y <<< 3) := mmSlli64_pack ⟨y, y'⟩ 3
  have hr : mmSrli64 (mmSet64 y' y) (64 - 3) = mmSet64 (y' >>> (64 - 3)) (y >>> (64 - 3)) := mmSrli64_pack ⟨y, y'⟩ (64 - 3)
  simp only [sseRound, sseRor8_eq, mmAdd64, set64_lo, set64_hi, set64_xor, sseRol, hl, hr, er64, rotl64_xor3]

theorem sseRounds_eq (rk : Nat → U64) (n : Nat) (c d : Ctr) : sseRounds rk n (mmSet64 d.hi c.hi, mmSet64 d.lo c.lo) =
    (mmSet64 (speckEnc rk n d).hi (speckEnc rk n c).hi, mmSet64 (speckEnc rk n d).lo (speckEnc rk n c).lo) := by
  induction n with
  | zero => rfl
  | succ n ih => rw [sseRounds, ih, sseRound_eq]; rfl

theorem ssePair_eq (rk : Nat → U64) (n : Nat) (c d : Ctr) : ssePair rk n c d =
    (mmSet64 (speckEnc rk n c).hi (speckEnc rk n c).lo, mmSet64 (speckEnc rk n d).hi (speckEnc rk n d).lo) := by
  simp only [ssePair, mmUnpackHi, mmUnpackLo, set64_lo, set64_hi, sseRounds_eq]

/-- C18 for SPECK128: the SSSE3 path fills the buffer with the words of the portable path, in every state. -/
theorem C18_speck_block (s : Speck) : speckGenSse s = speckGen s := by
  have hb : (speckGenSse s).buf = (speckGen s).buf := by
    funext j
    have h3 : j / 2 % 2 = 0 ∨ j / 2 % 2 = 1 := by omega
    simp only [speckGenSse, ssePair_eq]
    rcases h3 with h | h
    · rw [if_pos h, set64_lo, set64_hi]
      show _ = if j % 2 = 0 then (speckEnc s.rk s.rounds.toNat (s.ctr ⟨j / 2 % 6, _⟩)).lo else (speckEnc s.rk s.rounds.toNat (s.ctr ⟨j / 2 % 6, _⟩)).hi
      have e : (⟨2 * (j / 4 % 3) % 6, Nat.mod_lt _ (by decide)⟩ : Fin 6) = ⟨j / 2 % 6, Nat.mod_lt _ (by decide)⟩ := by
        apply Fin.ext; show 2 * (j / 4 % 3) % 6 = j / 2 % 6; omega
      rw [e]
    · rw [if_neg (show ¬ j / 2 % 2 = 0 by omega), set64_lo, set64_hi]
      show _ = if j % 2 = 0 then (speckEnc s.rk s.rounds.toNat (s.ctr ⟨j / 2 % 6, _⟩)).lo else (speckEnc s.rk s.rounds.toNat (s.ctr ⟨j / 2 % 6, _⟩)).hi
      have e : (⟨(2 * (j / 4 % 3) + 1) % 6, Nat.mod_lt _ (by decide)⟩ : Fin 6) = ⟨j / 2 % 6, Nat.mod_lt _ (by decide)⟩ := by
        apply Fin.ext; show (2 * (j / 4 % 3) + 1) % 6 = j / 2 % 6; omega
      rw [e]
  have : speckGenSse s = { speckGen s with buf := (speckGenSse s).buf } := rfl
  rw [this, hb]

/-- C18 for SPECK128: so do the streams. -/
theorem C18_speck (s : Speck) (n : Nat) : nthO speckNextSse n s = nthO speckNext n s := by
  have : speckNextSse = speckNext := by
    funext s
    rw [speckNextSse, speckNext, C18_speck_block]
  rw [this]

/-- The buffer words differ from each other and from the counters. -/
example : let s : Speck := ⟨fun i => BitVec.ofNat 64 (i * 77), fun i => ⟨BitVec.ofNat 64 i.val, 0⟩, fun _ => 0, 3, 96, false, 0⟩
    (nthO speckNextSse 2 s, nthO speckNextSse 3 s) = (some 5548716215897161974, some 4972255463593738390) := by
  decide +kernel

end Verif
