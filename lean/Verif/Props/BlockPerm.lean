import Verif.Props.BlockCtr
import Verif.Common.BitInj
import Mathlib.Tactic.FinCases

/-! Property C17: SPECK128 and AESCounter never repeat a 128-bit block within their period of `2^128` blocks. -/

namespace Verif

/-! ### SPECK -/

theorem rotr8_inj : Function.Injective (fun x : U64 => rotr64 x 8) := by
  have : (fun x : U64 => rotr64 x 8) = fun x => rotl64 x 56 := by
    funext x
    simp only [rotr64, rotl64]
    exact BitVec.or_comm _ _
  rw [this]
  exact fun x y h => rotl64_inj (k := 56) (by decide) h

theorem er64_inj (s x y x' y' : U64) (h : er64 x y s = er64 x' y' s) : x = x' ∧ y = y' := by
  simp only [er64, Prod.mk.injEq] at h
  obtain ⟨h1, h2⟩ := h
  rw [h1] at h2
  have hy : y = y' := rotl64_inj (k := 3) (by decide) (xor_right_inj' _ h2)
  subst hy
  have h3 := xor_right_inj' _ h1
  exact ⟨rotr8_inj (add_right_cancel h3), rfl⟩

theorem speckEnc_injective (rk : Nat → U64) (n : Nat) : Function.Injective (speckEnc rk n) := by
  induction n with
  | zero => exact fun _ _ h => h
  | succ n ih =>
    intro c d h
    simp only [speckEnc, Ctr.mk.injEq] at h
    obtain ⟨h1, h2⟩ := er64_inj _ _ _ _ _ (Prod.ext h.2 h.1)
    exact ih (by cases hc : speckEnc rk n c; cases hd : speckEnc rk n d; simp_all)

/-! ### AES -/

theorem sbox_injective : Function.Injective sbox := by
  have h : ∀ x : Fin 256, sboxTable.idxOf (sbox (BitVec.ofFin x)) = x.val := by decide +kernel
  intro x y hxy
  have h1 := h x.toFin
  have h2 := h y.toFin
  rw [show BitVec.ofFin x.toFin = x from rfl] at h1
  rw [show BitVec.ofFin y.toFin = y from rfl] at h2
  exact BitVec.eq_of_toNat_eq (h1.symm.trans ((congrArg (fun b => sboxTable.idxOf b) hxy).trans h2))

theorem aesSub_injective : Function.Injective aesSub := by
  intro s t h
  funext i j
  exact sbox_injective (congrFun (congrFun h i) j)

theorem aesShift_injective : Function.Injective aesShift := by
  intro s t h
  have e : ∀ i j, aesShift s i j = aesShift t i j := fun i j => congrFun (congrFun h i) j
  funext i j
  fin_cases j <;> fin_cases i
  · exact e 0 0
  · exact e 1 0
  · exact e 2 0
  · exact e 3 0
  · exact e 3 1
  · exact e 0 1
  · exact e 1 1
  · exact e 2 1
  · exact e 2 2
  · exact e 3 2
  · exact e 0 2
  · exact e 1 2
  · exact e 1 3
  · exact e 2 3
  · exact e 3 3
  · exact e 0 3

theorem xtime_eq (x : U8) : xtime x = (x <<< 1) ^^^ (if x.getLsbD 7 then 0x1b else 0) := by
  have h : ∀ x : Fin 256, xtime (BitVec.ofFin x) =
      ((BitVec.ofFin x : U8) <<< 1) ^^^ (if (BitVec.ofFin x : U8).getLsbD 7 then 0x1b else 0 : U8) := by decide +kernel
  exact h x.toFin

theorem xtime_xor (x y : U8) : xtime (x ^^^ y) = xtime x ^^^ xtime y := by
  rw [xtime_eq, xtime_eq x, xtime_eq y, BitVec.getLsbD_xor, BitVec.shiftLeft_xor_distrib]
  cases x.getLsbD 7 <;> cases y.getLsbD 7 <;> simp [BitVec.xor_assoc]
  · simp only [BitVec.xor_comm]
  · rw [← BitVec.xor_assoc 27#8 (y <<< 1), BitVec.xor_comm 27#8, BitVec.xor_assoc]; simp

theorem xtime_zero : xtime 0 = 0 := by decide

theorem bv_ext {w : Nat} {x y : BitVec w} : x = y ↔ ∀ k < w, x.getLsbD k = y.getLsbD k :=
  ⟨fun h _ _ => by rw [h], fun h => BitVec.eq_of_getLsbD_eq h⟩

theorem aesMixCol_xor (c d : Fin 4 → U8) (j : Fin 4) :
    aesMixCol (fun i => c i ^^^ d i) j = aesMixCol c j ^^^ aesMixCol d j := by
  fin_cases j <;> simp only [aesMixCol]
  all_goals
    have : ∀ a b e f : U8, xtime (a ^^^ b ^^^ (e ^^^ f)) = xtime (a ^^^ e) ^^^ xtime (b ^^^ f) := fun a b e f => by
      rw [← xtime_xor]; congr 1; ac_rfl
    rw [this]; ac_rfl

theorem aesMixCol_zero (c : Fin 4 → U8) (h : ∀ j, aesMixCol c j = 0) (j : Fin 4) : c j = 0 := by
  have h0 := h 0
  have h1 := h 1
  have h2 := h 2
  have h3 := h 3
  simp only [aesMixCol, xtime_xor] at h0 h1 h2 h3
  have e : c 0 = c 2 ∧ c 1 = c 3 := by
    have ht : c 0 ^^^ c 1 ^^^ c 2 ^^^ c 3 = 0 := by
      rw [bv_ext] at h0 h1 h2 h3 ⊢
      intro k hk
      have g0 := h0 k hk
      have g1 := h1 k hk
      have g2 := h2 k hk
      have g3 := h3 k hk
      simp only [BitVec.getLsbD_xor, BitVec.ofNat_eq_ofNat, BitVec.getLsbD_zero] at g0 g1 g2 g3 ⊢
      clear h0 h1 h2 h3 h
      revert g0 g1 g2 g3
      generalize (c 0).getLsbD k = a0
      generalize (c 1).getLsbD k = a1
      generalize (c 2).getLsbD k = a2
      generalize (c 3).getLsbD k = a3
      generalize (xtime (c 0)).getLsbD k = b0
      generalize (xtime (c 1)).getLsbD k = b1
      generalize (xtime (c 2)).getLsbD k = b2
      generalize (xtime (c 3)).getLsbD k = b3
      revert a0 a1 a2 a3 b0 b1 b2 b3
      decide
    have hx : xtime (c 0) ^^^ xtime (c 1) ^^^ xtime (c 2) ^^^ xtime (c 3) = 0 := by
      rw [← xtime_xor, ← xtime_xor, ← xtime_xor, ht, xtime_zero]
    rw [ht] at h0 h1 h2 h3
    constructor
    all_goals
      rw [bv_ext] at h0 h1 h2 h3 hx ⊢
      intro k hk
      have g0 := h0 k hk
      have g1 := h1 k hk
      have g2 := h2 k hk
      have g3 := h3 k hk
      have g4 := hx k hk
      simp only [BitVec.getLsbD_xor, BitVec.ofNat_eq_ofNat, BitVec.getLsbD_zero] at g0 g1 g2 g3 g4 ⊢
      clear h0 h1 h2 h3 h hx ht
      revert g0 g1 g2 g3 g4
      generalize (c 0).getLsbD k = a0
      generalize (c 1).getLsbD k = a1
      generalize (c 2).getLsbD k = a2
      generalize (c 3).getLsbD k = a3
      generalize (xtime (c 0)).getLsbD k = b0
      generalize (xtime (c 1)).getLsbD k = b1
      generalize (xtime (c 2)).getLsbD k = b2
      generalize (xtime (c 3)).getLsbD k = b3
      revert a0 a1 a2 a3 b0 b1 b2 b3
      decide
  rw [← e.1, ← e.2] at h0 h1
  have ht : c 0 ^^^ c 1 ^^^ c 0 ^^^ c 1 = 0 := by
    rw [BitVec.xor_assoc (c 0 ^^^ c 1), BitVec.xor_self]; rfl
  rw [ht] at h0 h1
  have h01 : c 0 = c 1 := by
    have e0 : c 0 = xtime (c 0) ^^^ xtime (c 1) := by simpa using (BitVec.xor_eq_zero_iff.mp h0)
    have e1 : c 1 = xtime (c 1) ^^^ xtime (c 0) := by simpa using (BitVec.xor_eq_zero_iff.mp h1)
    rw [e0, BitVec.xor_comm]; exact e1.symm
  have hz : c 0 = 0 := by
    rw [← h01, BitVec.xor_self] at h0
    simpa using h0
  fin_cases j
  · exact hz
  · exact h01 ▸ hz
  · exact e.1 ▸ hz
  · exact e.2 ▸ h01 ▸ hz

theorem aesMix_injective : Function.Injective aesMix := by
  intro s t h
  funext i j
  have hz : ∀ j, aesMixCol (fun j => s i j ^^^ t i j) j = 0 := by
    intro j
    rw [aesMixCol_xor, show aesMixCol (s i) j = aesMixCol (t i) j from congrFun (congrFun h i) j, BitVec.xor_self]
    rfl
  exact BitVec.xor_eq_zero_iff.mp (aesMixCol_zero _ hz j)

theorem aesAddKey_injective (r : Nat) (rk : Nat → U8) : Function.Injective (aesAddKey r rk) := by
  intro s t h
  funext i j
  exact xor_right_inj' _ (congrFun (congrFun h i) j)

theorem aesRounds_injective (rk : Nat → U8) (n : Nat) : Function.Injective (aesRounds rk n) := by
  induction n with
  | zero => exact aesAddKey_injective 0 rk
  | succ n ih =>
    exact fun s t h => ih (aesSub_injective (aesShift_injective (aesMix_injective (aesAddKey_injective _ rk h))))

theorem aesEncrypt_injective (rk : Nat → U8) : Function.Injective (aesEncrypt rk) := fun _ _ h =>
  aesRounds_injective rk 9 (aesSub_injective (aesShift_injective (aesAddKey_injective 10 rk h)))

theorem leByte_inj {x y : U64} (h : ∀ k < 8, leByte x k = leByte y k) : x = y := by
  apply BitVec.eq_of_getLsbD_eq
  intro i hi
  have e := congrArg (fun b : U8 => b.getLsbD (i % 8)) (h (i / 8) (by omega))
  simp only [leByte, BitVec.truncate_eq_setWidth, BitVec.getLsbD_setWidth, BitVec.getLsbD_ushiftRight] at e
  have h1 : 8 * (i / 8) + i % 8 = i := Nat.div_add_mod i 8
  have h2 : i % 8 < 8 := Nat.mod_lt _ (by decide)
  simpa [h1, h2] using e

theorem ctrToBlk_injective : Function.Injective ctrToBlk := by
  intro c d h
  have e : ∀ n < 16, (if n < 8 then leByte c.lo n else leByte c.hi (n - 8)) =
      (if n < 8 then leByte d.lo n else leByte d.hi (n - 8)) := by
    intro n hn
    have := congrFun (congrFun h ⟨n / 4, by omega⟩) ⟨n % 4, Nat.mod_lt _ (by decide)⟩
    simp only [ctrToBlk] at this
    rwa [show n / 4 * 4 + n % 4 = n by omega] at this
  have h1 : c.lo = d.lo := leByte_inj fun k hk => by simpa [hk] using e k (by omega)
  have h2 : c.hi = d.hi := leByte_inj fun k hk => by simpa using e (k + 8) (by omega)
  cases c; cases d; simp_all

theorem le64_inj {b d : Nat → U8} (h : le64 b = le64 d) : ∀ k < 8, b k = d k := by
  have key : ∀ {m : Nat} (x y : BitVec m) (u v : U8), x ++ u = y ++ v → x = y ∧ u = v := by
    intro m x y u v h
    constructor
    · have := congrArg (BitVec.extractLsb' 8 m) h
      rwa [BitVec.extractLsb'_append_eq_left, BitVec.extractLsb'_append_eq_left] at this
    · have := congrArg (BitVec.extractLsb' 0 8) h
      rwa [BitVec.extractLsb'_append_eq_right, BitVec.extractLsb'_append_eq_right] at this
  obtain ⟨h, e0⟩ := key (m := 56) _ _ _ _ h
  obtain ⟨h, e1⟩ := key (m := 48) _ _ _ _ h
  obtain ⟨h, e2⟩ := key (m := 40) _ _ _ _ h
  obtain ⟨h, e3⟩ := key (m := 32) _ _ _ _ h
  obtain ⟨h, e4⟩ := key (m := 24) _ _ _ _ h
  obtain ⟨h, e5⟩ := key (m := 16) _ _ _ _ h
  obtain ⟨e7, e6⟩ := key (m := 8) _ _ _ _ h
  intro k hk
  interval_cases k <;> assumption

theorem blkToCtr_injective : Function.Injective blkToCtr := by
  intro s t h
  simp only [blkToCtr, Ctr.mk.injEq] at h
  have h1 := le64_inj h.1
  have h2 := le64_inj h.2
  funext i j
  by_cases hij : i.val * 4 + j.val < 8
  · have := h1 (i.val * 4 + j.val) hij
    have e1 : (i.val * 4 + j.val) / 4 % 4 = i.val := by have := i.isLt; omega
    have e2 : (i.val * 4 + j.val) % 4 = j.val := by omega
    simpa only [e1, e2, Fin.eta] using this
  · have := h2 (i.val * 4 + j.val - 8) (by omega)
    have e1 : (i.val * 4 + j.val - 8 + 8) / 4 % 4 = i.val := by have := i.isLt; omega
    have e2 : (i.val * 4 + j.val - 8 + 8) % 4 = j.val := by omega
    simpa only [e1, e2, Fin.eta] using this

theorem aesEnc_injective (rk : Nat → U8) : Function.Injective (aesEnc rk) := fun _ _ h =>
  ctrToBlk_injective (aesEncrypt_injective rk (blkToCtr_injective h))

/-! ### The property -/

/-- Block `i` of a stream of words: draws `2i` and `2i + 1`. -/
def blockOf {σ : Type} (nx : σ → Option (U64 × σ)) (s : σ) (i : Nat) : Option U64 × Option U64 :=
  (nthO nx (2 * i) s, nthO nx (2 * i + 1) s)

theorem blocks_of_stream {σ : Type} (nx : σ → Option (U64 × σ)) (s : σ) (enc : Ctr → Ctr) (henc : Function.Injective enc)
    (c : U128) (h : ∀ n, nthO nx n s = some (half (enc (Ctr.ofVal (c + BitVec.ofNat 128 (n / 2)))) n)) (i j : Nat) :
    blockOf nx s i = blockOf nx s j ↔ i ≡ j [MOD 2 ^ 128] := by
  have e : ∀ i, blockOf nx s i = (some (enc (Ctr.ofVal (c + BitVec.ofNat 128 i))).lo,
      some (enc (Ctr.ofVal (c + BitVec.ofNat 128 i))).hi) := by
    intro i
    rw [blockOf, h, h, show 2 * i / 2 = i by omega, show (2 * i + 1) / 2 = i by omega, half, half, if_pos (by omega),
      if_neg (by omega)]
  rw [e, e]
  constructor
  · intro hh
    simp only [Prod.mk.injEq, Option.some.injEq] at hh
    have h1 := henc (a₁ := Ctr.ofVal (c + BitVec.ofNat 128 i)) (a₂ := Ctr.ofVal (c + BitVec.ofNat 128 j))
      (by cases hc : enc (Ctr.ofVal (c + BitVec.ofNat 128 i)); cases hd : enc (Ctr.ofVal (c + BitVec.ofNat 128 j)); simp_all)
    have h2 := congrArg Ctr.val h1
    rw [Ctr.val_ofVal, Ctr.val_ofVal] at h2
    have h3 := congrArg BitVec.toNat (add_left_cancel h2)
    rwa [BitVec.toNat_ofNat, BitVec.toNat_ofNat] at h3
  · intro hh
    have : BitVec.ofNat 128 i = BitVec.ofNat 128 j := by
      apply BitVec.eq_of_toNat_eq
      rw [BitVec.toNat_ofNat, BitVec.toNat_ofNat]; exact hh
    rw [this]

/-- C17: for every key, number of rounds and counter, blocks `i` and `j` of a SPECK128 stream are equal exactly
when `i ≡ j` modulo `2^128`. -/
theorem C17_speck_blocks_never_repeat (old : Speck) (k0 k1 k2 k3 : U64) (c : Ctr) (i j : Nat) :
    blockOf speckNext (speckSeed old k0 k1 k2 k3 c) i = blockOf speckNext (speckSeed old k0 k1 k2 k3 c) j ↔
      i ≡ j [MOD 2 ^ 128] :=
  blocks_of_stream _ _ _ (speckEnc_injective _ _) c.val (C15_speck_stream old k0 k1 k2 k3 c) i j

/-- C17: for every key and counter, blocks `i` and `j` of an AESCounter stream are equal exactly when `i ≡ j`
modulo `2^128`. -/
theorem C17_aes_blocks_never_repeat (old : Aes) (k0 k1 : U64) (c : Nat) (i j : Nat) :
    blockOf aesNext (aesSeed old k0 k1 c) i = blockOf aesNext (aesSeed old k0 k1 c) j ↔ i ≡ j [MOD 2 ^ 128] :=
  blocks_of_stream _ _ _ (aesEnc_injective _) (BitVec.ofNat 128 c)
    (fun n => by rw [C16_aes_stream, BitVec.ofNat_add]) i j

/-- The blocks really are there (no undefined draw makes them equal). -/
example (old : Aes) : (blockOf aesNext (aesSeed old 1 2 3) 5).1.isSome := by
  exact C16_aes_total (aesSeed old 1 2 3) (.seed old 1 2 3) (2 * 5)

end Verif
