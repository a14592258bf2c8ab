import Verif.Model.ChaCha
import Verif.Proof.CtrStream
import Verif.Common.BitInj

/-! Properties C22 (ChaCha outputs depend on the position only) and C23 (`chacha_advance`). -/

namespace Verif

/-- The 128-bit counter. -/
def ccPos (c0 c1 : U64) : Nat := c0.toNat + 2 ^ 64 * c1.toNat

/-- Block of `generate_block` for counter value `p` (only `p / 16` matters). -/
def ccBlock (k0 k1 : V4) (rounds : Int) (c0 c1 : U64) : Rows :=
  (ccCore rounds (ccInput k0 k1 c0 c1)).add (ccInput k0 k1 c0 c1)

theorem ccGen_eq (s : ChaCha) : ccGen s = { s with block := ccBlock s.k0 s.k1 s.rounds s.ctr0 s.ctr1 } := rfl

theorem div16_eq {x y : U64} (h : x.toNat / 16 = y.toNat / 16) : x / 16#64 = y / 16#64 := by
  apply BitVec.eq_of_toNat_eq
  simpa [BitVec.toNat_udiv] using h

/-- The block depends on the counter only through its block number. -/
theorem ccBlock_congr (k0 k1 : V4) (rounds : Int) {c0 c1 d0 : U64} (h : c0.toNat / 16 = d0.toNat / 16) :
    ccBlock k0 k1 rounds c0 c1 = ccBlock k0 k1 rounds d0 c1 := by
  have := div16_eq h
  simp only [ccBlock, ccInput, this]

/-- Word number `p` of the stream. -/
def ccWord (k0 k1 : V4) (rounds : Int) (p : Nat) : U32 :=
  (ccBlock k0 k1 rounds (BitVec.ofNat 64 p) (BitVec.ofNat 64 (p / 2 ^ 64))).get (p % 16)

/-- The generator is at position `p`. -/
def CcAt (k0 k1 : V4) (rounds : Int) (s : ChaCha) (p : Nat) : Prop :=
  s.k0 = k0 ∧ s.k1 = k1 ∧ s.rounds = rounds ∧ s.ctr0 = BitVec.ofNat 64 p ∧ s.ctr1 = BitVec.ofNat 64 (p / 2 ^ 64) ∧
    (p % 16 ≠ 0 → s.block = ccBlock k0 k1 rounds s.ctr0 s.ctr1)

theorem idx_val (p : Nat) : (BitVec.ofNat 64 p % 16#64).toNat = p % 16 := by
  rw [BitVec.toNat_umod, BitVec.toNat_ofNat]
  show p % 2 ^ 64 % 16 = _
  omega

theorem ofNat_div_congr (p q : Nat) (h : p / 16 = q / 16) :
    (BitVec.ofNat 64 p).toNat / 16 = (BitVec.ofNat 64 q).toNat / 16 ∧ p / 2 ^ 64 = q / 2 ^ 64 := by
  rw [BitVec.toNat_ofNat, BitVec.toNat_ofNat]
  omega

theorem ccNext_at (k0 k1 : V4) (rounds : Int) (s : ChaCha) (p : Nat) (h : CcAt k0 k1 rounds s p) :
    (ccNext s).1 = ccWord k0 k1 rounds p ∧ CcAt k0 k1 rounds (ccNext s).2 (p + 1) := by
  obtain ⟨h1, h2, h3, h4, h5, h6⟩ := h
  -- the state after the possible refill
  obtain ⟨u, hu⟩ : ∃ u, u = if (s.ctr0 % 16#64).toNat = 0 then ccGen s else s := ⟨_, rfl⟩
  have hidx : (s.ctr0 % 16#64).toNat = p % 16 := by rw [h4, idx_val]
  have u0 : u.ctr0 = s.ctr0 ∧ u.ctr1 = s.ctr1 ∧ u.k0 = k0 ∧ u.k1 = k1 ∧ u.rounds = rounds ∧
      u.block = ccBlock k0 k1 rounds s.ctr0 s.ctr1 := by
    rw [hu]
    split
    · rw [ccGen_eq, h1, h2, h3]
      exact ⟨rfl, rfl, rfl, rfl, rfl, rfl⟩
    · rename_i hne
      exact ⟨rfl, rfl, h1, h2, h3, h6 (by rwa [hidx] at hne)⟩
  obtain ⟨e0, e1, e2, e3, e4, e5⟩ := u0
  have hn : ccNext s = (u.block.get (s.ctr0 % 16#64).toNat,
      { u with ctr0 := u.ctr0 + 1, ctr1 := if u.ctr0 + 1 = 0 then u.ctr1 + 1 else u.ctr1 }) := by
    rw [hu]; rfl
  rw [hn]
  have hc0 : s.ctr0 + 1 = BitVec.ofNat 64 (p + 1) := by rw [h4, BitVec.ofNat_add]; rfl
  have hc1 : (if s.ctr0 + 1 = 0 then s.ctr1 + 1 else s.ctr1) = BitVec.ofNat 64 ((p + 1) / 2 ^ 64) := by
    rw [hc0, h5]
    by_cases hz : BitVec.ofNat 64 (p + 1) = 0
    · have : (p + 1) % 2 ^ 64 = 0 := by
        have := congrArg BitVec.toNat hz
        rwa [BitVec.toNat_ofNat] at this
      rw [if_pos hz, show (p + 1) / 2 ^ 64 = p / 2 ^ 64 + 1 by omega, BitVec.ofNat_add]; rfl
    · have : (p + 1) % 2 ^ 64 ≠ 0 := by
        intro h
        apply hz
        apply BitVec.eq_of_toNat_eq
        rw [BitVec.toNat_ofNat, h]; rfl
      rw [if_neg hz, show (p + 1) / 2 ^ 64 = p / 2 ^ 64 by omega]
  refine ⟨?_, e2, e3, e4, ?_, ?_, ?_⟩
  · show u.block.get _ = _
    rw [e5, hidx, h4, h5]; rfl
  · show u.ctr0 + 1 = _
    rw [e0, hc0]
  · show (if u.ctr0 + 1 = 0 then u.ctr1 + 1 else u.ctr1) = _
    rw [e0, e1, hc1]
  · intro hne
    show u.block = ccBlock k0 k1 rounds (u.ctr0 + 1) (if u.ctr0 + 1 = 0 then u.ctr1 + 1 else u.ctr1)
    rw [e5, e0, e1, hc1, hc0, h4, h5]
    have h7 := ofNat_div_congr p (p + 1) (by omega)
    rw [h7.2]
    exact ccBlock_congr k0 k1 rounds h7.1

theorem cc_nth (k0 k1 : V4) (rounds : Int) (s : ChaCha) (p : Nat) (h : CcAt k0 k1 rounds s p) (n : Nat) :
    nthDraw ccNext n s = ccWord k0 k1 rounds (p + n) := by
  have run : ∀ n s p, CcAt k0 k1 rounds s p → CcAt k0 k1 rounds ((stepOf ccNext)^[n] s) (p + n) := by
    intro n
    induction n with
    | zero => intro s p h; exact h
    | succ n ih =>
      intro s p h
      rw [Function.iterate_succ_apply, show p + (n + 1) = p + 1 + n by ring]
      exact ih _ _ (ccNext_at k0 k1 rounds s p h).2
  exact (ccNext_at k0 k1 rounds _ _ (run n s p h)).1

/-- Words are periodic with period `2^128`. -/
theorem ccWord_mod (k0 k1 : V4) (rounds : Int) {p q : Nat} (h : p % 2 ^ 128 = q % 2 ^ 128) :
    ccWord k0 k1 rounds p = ccWord k0 k1 rounds q := by
  have e1 : BitVec.ofNat 64 p = BitVec.ofNat 64 q := by
    apply BitVec.eq_of_toNat_eq
    rw [BitVec.toNat_ofNat, BitVec.toNat_ofNat]; omega
  have e2 : BitVec.ofNat 64 (p / 2 ^ 64) = BitVec.ofNat 64 (q / 2 ^ 64) := by
    apply BitVec.eq_of_toNat_eq
    rw [BitVec.toNat_ofNat, BitVec.toNat_ofNat]; omega
  rw [ccWord, ccWord, e1, e2, show p % 16 = q % 16 by omega]

/-- The key rows stored by `chacha_seed`. -/
def ccKey (s0 s1 : U64) : V4 :=
  ⟨(s0 &&& 0xffffffff#64).truncate 32, (s0 >>> 32).truncate 32, (s1 &&& 0xffffffff#64).truncate 32, (s1 >>> 32).truncate 32⟩

theorem ccPos_split (c0 c1 : U64) : BitVec.ofNat 64 (ccPos c0 c1) = c0 ∧ BitVec.ofNat 64 (ccPos c0 c1 / 2 ^ 64) = c1 := by
  have h0 := c0.isLt
  have h1 := c1.isLt
  constructor <;> apply BitVec.eq_of_toNat_eq <;> rw [BitVec.toNat_ofNat, ccPos] <;> omega

theorem ccSeed_eq (old : ChaCha) (s0 s1 t0 t1 c0 c1 : U64) :
    ccSeed old s0 s1 t0 t1 c0 c1 = ⟨ccBlock (ccKey s0 s1) (ccKey t0 t1) old.rounds ((c0 >>> 4) <<< 4) c1, ccKey s0 s1, ccKey t0 t1,
      c0, c1, old.rounds⟩ := by
  rw [ccSeed, ccGen_eq]
  unfold ccKey
  exact rfl

theorem shr4_shl4 (c : U64) : ((c >>> 4) <<< 4).toNat / 16 = c.toNat / 16 := by
  rw [BitVec.toNat_shiftLeft, BitVec.toNat_ushiftRight, Nat.shiftLeft_eq, Nat.shiftRight_eq_div_pow]
  have := c.isLt
  omega

theorem ccSeed_at (old : ChaCha) (s0 s1 t0 t1 c0 c1 : U64) :
    CcAt (ccKey s0 s1) (ccKey t0 t1) old.rounds (ccSeed old s0 s1 t0 t1 c0 c1) (ccPos c0 c1) := by
  obtain ⟨h0, h1⟩ := ccPos_split c0 c1
  rw [ccSeed_eq, ccBlock_congr _ _ _ (shr4_shl4 c0), CcAt, h0, h1]
  exact ⟨rfl, rfl, rfl, rfl, rfl, fun _ => rfl⟩

/-- C22: the `n`-th 32-bit output of ChaCha seeded at counter `c` is the first output of ChaCha seeded (over any
other old state with the same number of rounds) at counter `c + n` modulo `2^128`. -/
theorem C22_chacha_position (old old' : ChaCha) (hr : old'.rounds = old.rounds) (s0 s1 t0 t1 c0 c1 d0 d1 : U64) (n : Nat)
    (h : d0.toNat + 2 ^ 64 * d1.toNat = (c0.toNat + 2 ^ 64 * c1.toNat + n) % 2 ^ 128) :
    nthDraw ccNext n (ccSeed old s0 s1 t0 t1 c0 c1) = nthDraw ccNext 0 (ccSeed old' s0 s1 t0 t1 d0 d1) := by
  rw [cc_nth _ _ _ _ _ (ccSeed_at old s0 s1 t0 t1 c0 c1), cc_nth _ _ _ _ _ (ccSeed_at old' s0 s1 t0 t1 d0 d1), hr]
  apply ccWord_mod
  have e : ccPos d0 d1 = (ccPos c0 c1 + n) % 2 ^ 128 := h
  rw [Nat.add_zero, e]; omega

example : (5#64).toNat + 2 ^ 64 * (8#64).toNat = ((2 ^ 64 - 3 : Nat) + 2 ^ 64 * (7#64).toNat + 8) % 2 ^ 128 := by decide

/-- C22: every later output too: streams started at two counters are shifted copies of each other. -/
theorem C22_chacha_shift (old old' : ChaCha) (hr : old'.rounds = old.rounds) (s0 s1 t0 t1 c0 c1 d0 d1 : U64) (n m : Nat)
    (h : d0.toNat + 2 ^ 64 * d1.toNat = (c0.toNat + 2 ^ 64 * c1.toNat + n) % 2 ^ 128) :
    nthDraw ccNext (n + m) (ccSeed old s0 s1 t0 t1 c0 c1) = nthDraw ccNext m (ccSeed old' s0 s1 t0 t1 d0 d1) := by
  rw [cc_nth _ _ _ _ _ (ccSeed_at old s0 s1 t0 t1 c0 c1), cc_nth _ _ _ _ _ (ccSeed_at old' s0 s1 t0 t1 d0 d1), hr]
  apply ccWord_mod
  have e : ccPos d0 d1 = (ccPos c0 c1 + n) % 2 ^ 128 := h
  rw [e]; omega

/-! ### The block function is a permutation, the inputs are distinct -/

theorem ccRotl_inj {n : Nat} (hn : n < 32) {x y : U32} (h : ccRotl x n = ccRotl y n) : x = y :=
  rotl32_inj hn h

theorem quarter_inj {a b c d a' b' c' d' : U32} (h : quarter a b c d = quarter a' b' c' d') :
    a = a' ∧ b = b' ∧ c = c' ∧ d = d' := by
  simp only [quarter, V4.mk.injEq] at h
  generalize hp1 : ccRotl (d ^^^ (a + b)) 16 = p1 at h
  generalize hp1' : ccRotl (d' ^^^ (a' + b')) 16 = p1' at h
  generalize hp2 : ccRotl (b ^^^ (c + p1)) 12 = p2 at h
  generalize hp2' : ccRotl (b' ^^^ (c' + p1')) 12 = p2' at h
  generalize hp3 : ccRotl (p1 ^^^ (a + b + p2)) 8 = p3 at h
  generalize hp3' : ccRotl (p1' ^^^ (a' + b' + p2')) 8 = p3' at h
  obtain ⟨h1, h2, h3, rfl⟩ := h
  have e1 := ccRotl_inj (by decide) h2
  rw [h3] at e1
  have e2 := xor_right_inj' _ e1
  subst e2
  have e3 : c + p1 = c' + p1' := add_right_cancel h3
  have e4 : a + b = a' + b' := add_right_cancel h1
  have e5 := ccRotl_inj (by decide) (hp3.trans hp3'.symm)
  rw [e4] at e5
  have e6 := xor_right_inj' _ e5
  subst e6
  have e7 : c = c' := add_right_cancel e3
  subst e7
  have e8 := xor_right_inj' _ (ccRotl_inj (by decide) (hp2.trans hp2'.symm))
  subst e8
  have e9 : a = a' := add_right_cancel e4
  subst e9
  exact ⟨rfl, rfl, rfl, xor_right_inj' _ (ccRotl_inj (by decide) (hp1.trans hp1'.symm))⟩

theorem doubleRound_inj : Function.Injective doubleRound := by
  rintro ⟨⟨a0, a1, a2, a3⟩, ⟨b0, b1, b2, b3⟩, ⟨c0, c1, c2, c3⟩, ⟨d0, d1, d2, d3⟩⟩
    ⟨⟨a0', a1', a2', a3'⟩, ⟨b0', b1', b2', b3'⟩, ⟨c0', c1', c2', c3'⟩, ⟨d0', d1', d2', d3'⟩⟩ h
  simp only [doubleRound, Rows.mk.injEq, V4.mk.injEq] at h
  obtain ⟨⟨h1, h2, h3, h4⟩, ⟨h5, h6, h7, h8⟩, ⟨h9, h10, h11, h12⟩, h13, h14, h15, h16⟩ := h
  have e : ∀ {p q : V4}, p.x0 = q.x0 → p.x1 = q.x1 → p.x2 = q.x2 → p.x3 = q.x3 → p = q := by
    rintro ⟨⟩ ⟨⟩ h1 h2 h3 h4
    simp only at h1 h2 h3 h4
    rw [h1, h2, h3, h4]
  obtain ⟨p1, p2, p3, p4⟩ := quarter_inj (e h1 h6 h11 h16)
  obtain ⟨p5, p6, p7, p8⟩ := quarter_inj (e h2 h7 h12 h13)
  obtain ⟨p9, p10, p11, p12⟩ := quarter_inj (e h3 h8 h9 h14)
  obtain ⟨p13, p14, p15, p16⟩ := quarter_inj (e h4 h5 h10 h15)
  obtain ⟨rfl, rfl, rfl, rfl⟩ := quarter_inj (e p1 p14 p11 p8)
  obtain ⟨rfl, rfl, rfl, rfl⟩ := quarter_inj (e p5 p2 p15 p12)
  obtain ⟨rfl, rfl, rfl, rfl⟩ := quarter_inj (e p9 p6 p3 p16)
  obtain ⟨rfl, rfl, rfl, rfl⟩ := quarter_inj (e p13 p10 p7 p4)
  rfl

/-- C62: the ChaCha core is a permutation of the 16-word block for every number of rounds. -/
theorem C62_core_injective (rounds : Int) : Function.Injective (ccCore rounds) :=
  doubleRound_inj.iterate _

/-- C62: different keys, streams or block numbers always enter the core as different blocks, so the core never
sees the same input twice within the `2^124` blocks of a stream or in two streams. -/
theorem C62_input_injective (k0 k1 k0' k1' : V4) (c0 c1 c0' c1' : U64) (h : ccInput k0 k1 c0 c1 = ccInput k0' k1' c0' c1') :
    k0 = k0' ∧ k1 = k1' ∧ (c0.toNat + 2 ^ 64 * c1.toNat) / 16 = (c0'.toNat + 2 ^ 64 * c1'.toNat) / 16 := by
  simp only [ccInput, Rows.mk.injEq, V4.mk.injEq, true_and] at h
  obtain ⟨h1, h2, h3, h4, h5, h6⟩ := h
  refine ⟨h1, h2, ?_⟩
  have w0 : ∀ x : U64, (((x / 16#64) &&& 0xffffffff#64).truncate 32 : U32).toNat = x.toNat / 16 % 2 ^ 32 := fun x => by
    rw [BitVec.truncate_eq_setWidth, BitVec.toNat_setWidth, BitVec.toNat_and, BitVec.toNat_udiv,
      show (0xffffffff#64).toNat = 2 ^ 32 - 1 from rfl, Nat.and_two_pow_sub_one_eq_mod, Nat.mod_mod]
    rfl
  have w1 : ∀ x : U64, (((x / 16#64) >>> 32).truncate 32 : U32).toNat = x.toNat / 16 / 2 ^ 32 := fun x => by
    rw [BitVec.truncate_eq_setWidth, BitVec.toNat_setWidth, BitVec.toNat_ushiftRight, BitVec.toNat_udiv,
      Nat.shiftRight_eq_div_pow, Nat.mod_eq_of_lt]
    · rfl
    · have := x.isLt
      show x.toNat / 16 / 2 ^ 32 < 2 ^ 32
      omega
  have w2 : ∀ x y : U64, ((((y.truncate 32 : U32) % 16#32) <<< 28) ||| ((x / 16#64) >>> 32).truncate 32 : U32).toNat =
      2 ^ 28 * (y.toNat % 16) + x.toNat / 16 / 2 ^ 32 := fun x y => by
    rw [BitVec.toNat_or, w1, BitVec.toNat_shiftLeft, BitVec.toNat_umod, BitVec.truncate_eq_setWidth, BitVec.toNat_setWidth,
      Nat.shiftLeft_eq, show (16#32).toNat = 16 from rfl, Nat.mod_eq_of_lt (by omega),
      show y.toNat % 2 ^ 32 % 16 = y.toNat % 16 by omega, Nat.mul_comm]
    have := x.isLt
    exact (Nat.two_pow_add_eq_or_of_lt (i := 28) (by omega) _).symm
  have n3 := congrArg BitVec.toNat h3
  have n4 := congrArg BitVec.toNat h4
  have n5 := congrArg BitVec.toNat h5
  have n6 := congrArg BitVec.toNat h6
  rw [w0, w0] at n3 n5
  rw [w2, w2] at n4
  rw [w1, w1] at n6
  have := c0.isLt
  have := c0'.isLt
  have := c1.isLt
  have := c1'.isLt
  omega

/-! ### C23 -/

/-- C23 (partial): `chacha_advance(delta)` moves exactly `delta` 32-bit draws ahead when the generator is inside a
block (or `delta` is 0 or at least 16) and `idx + delta[0]` does not overflow 64 bits (or `delta[1] ≠ 0`).
Missing: the two excluded cases, where the code is wrong (`not_C23_aligned`, `not_C23_overflow`). -/
theorem C23_advance_partial (k0 k1 : V4) (rounds : Int) (s : ChaCha) (p : Nat) (h : CcAt k0 k1 rounds s p) (d0 d1 : U64)
    (h1 : p % 16 ≠ 0 ∨ d1 ≠ 0 ∨ 16 ≤ d0.toNat ∨ d0 = 0) (h2 : d1 ≠ 0 ∨ p % 16 + d0.toNat < 2 ^ 64) (n : Nat) :
    nthDraw ccNext n (ccAdvance s d0 d1) = nthDraw ccNext (d0.toNat + 2 ^ 64 * d1.toNat + n) s := by
  rw [cc_nth k0 k1 rounds s p h]
  have hat : CcAt k0 k1 rounds (ccAdvance s d0 d1) (p + (d0.toNat + 2 ^ 64 * d1.toNat)) := by
    obtain ⟨g1, g2, g3, g4, g5, g6⟩ := h
    obtain ⟨q, hq⟩ : ∃ q, q = p + (d0.toNat + 2 ^ 64 * d1.toNat) := ⟨_, rfl⟩
    rw [← hq]
    have l0 := d0.isLt
    have l1 := d1.isLt
    have hc0 : s.ctr0 + d0 = BitVec.ofNat 64 q := by
      apply BitVec.eq_of_toNat_eq
      rw [g4, BitVec.toNat_add, BitVec.toNat_ofNat, BitVec.toNat_ofNat, hq]; omega
    have hcy : (if s.ctr0 + d0 < s.ctr0 then (1 : U64) else 0).toNat = (p % 2 ^ 64 + d0.toNat) / 2 ^ 64 := by
      have hlt : (s.ctr0 + d0 < s.ctr0) ↔ 2 ^ 64 ≤ p % 2 ^ 64 + d0.toNat := by
        rw [BitVec.lt_def, BitVec.toNat_add, g4, BitVec.toNat_ofNat]
        omega
      by_cases hc : s.ctr0 + d0 < s.ctr0
      · rw [if_pos hc]
        have := hlt.mp hc
        show 1 = _
        omega
      · rw [if_neg hc]
        have := Nat.lt_of_not_le fun h => hc (hlt.mpr h)
        show 0 = _
        omega
    have hc1 : s.ctr1 + (d1 + (if s.ctr0 + d0 < s.ctr0 then (1 : U64) else 0)) = BitVec.ofNat 64 (q / 2 ^ 64) := by
      apply BitVec.eq_of_toNat_eq
      rw [BitVec.toNat_add, BitVec.toNat_add, hcy, g5, BitVec.toNat_ofNat, BitVec.toNat_ofNat, hq]
      omega
    obtain ⟨u, hu⟩ : ∃ u : ChaCha, u = { s with ctr0 := BitVec.ofNat 64 q, ctr1 := BitVec.ofNat 64 (q / 2 ^ 64) } := ⟨_, rfl⟩
    have hadv : ccAdvance s d0 d1 =
        if (16#64 ≤ s.ctr0 % 16#64 + d0 ∨ d1 ≠ 0) ∧ BitVec.ofNat 64 q % 16#64 ≠ 0 then ccGen u else u := by
      rw [hu, ← hc0, ← hc1]; rfl
    have u1 : u.k0 = k0 := by rw [hu]; exact g1
    have u2 : u.k1 = k1 := by rw [hu]; exact g2
    have u3 : u.rounds = rounds := by rw [hu]; exact g3
    have u4 : u.ctr0 = BitVec.ofNat 64 q := by rw [hu]
    have u5 : u.ctr1 = BitVec.ofNat 64 (q / 2 ^ 64) := by rw [hu]
    have u6 : u.block = s.block := by rw [hu]
    rw [hadv]
    split
    · rw [ccGen_eq]
      exact ⟨u1, u2, u3, u4, u5, fun _ => by
        show ccBlock u.k0 u.k1 u.rounds u.ctr0 u.ctr1 = ccBlock k0 k1 rounds u.ctr0 u.ctr1
        rw [u1, u2, u3]⟩
    · rename_i hn
      refine ⟨u1, u2, u3, u4, u5, fun hne => ?_⟩
      have hz : BitVec.ofNat 64 q % 16#64 ≠ 0 := by
        intro h
        have := congrArg BitVec.toNat h
        rw [idx_val] at this
        exact hne this
      have hn' : ¬ (16#64 ≤ s.ctr0 % 16#64 + d0 ∨ d1 ≠ 0) := fun h => hn ⟨h, hz⟩
      have hd1 : d1 = 0 := by
        by_contra h
        exact hn' (.inr h)
      have hlt : ¬ 16#64 ≤ s.ctr0 % 16#64 + d0 := fun h => hn' (.inl h)
      subst hd1
      have h2' : p % 16 + d0.toNat < 2 ^ 64 := h2.resolve_left (by simp)
      have hlt' : p % 16 + d0.toNat < 16 := by
        rw [BitVec.le_def, BitVec.toNat_add, g4, idx_val, Nat.mod_eq_of_lt h2'] at hlt
        exact Nat.lt_of_not_le hlt
      have hz0 : (0#64).toNat = 0 := rfl
      have hq' : q = p + d0.toNat := by rw [hq]; simp
      have hp : p % 16 ≠ 0 := by
        rcases h1 with h | h | h | h
        · exact h
        · simp at h
        · omega
        · rw [h] at hq'
          simp at hq'
          rwa [← hq']
      have h7 := ofNat_div_congr p q (by omega)
      rw [u6, g6 hp, u4, u5, g4, g5, h7.2]
      exact ccBlock_congr k0 k1 rounds h7.1
  rw [cc_nth k0 k1 rounds _ _ hat]
  congr 1
  omega

/-- Seeding leads to such states. -/
example (old : ChaCha) (s0 s1 t0 t1 : U64) :
    CcAt (ccKey s0 s1) (ccKey t0 t1) old.rounds (ccSeed old s0 s1 t0 t1 (2 ^ 64 - 1) 5) (ccPos (2 ^ 64 - 1) 5) :=
  ccSeed_at old s0 s1 t0 t1 _ _

/-- A generator to exhibit the two faults with: eight rounds, key 1, stream 2. -/
def ccBad (c0 : U64) : ChaCha :=
  ccSeed ⟨⟨⟨0, 0, 0, 0⟩, ⟨0, 0, 0, 0⟩, ⟨0, 0, 0, 0⟩, ⟨0, 0, 0, 0⟩⟩, ⟨0, 0, 0, 0⟩, ⟨0, 0, 0, 0⟩, 0, 0, 8⟩ 1 0 2 0 c0 0

/-- The claim of C23 is false at a block boundary: after 16 draws, `advance(1)` reads the old block. -/
theorem not_C23_aligned :
    nthDraw ccNext 0 (ccAdvance ((stepOf ccNext)^[16] (ccBad 0)) 1 0) ≠ nthDraw ccNext 1 ((stepOf ccNext)^[16] (ccBad 0)) := by
  decide +kernel

/-- The claim of C23 is false when `idx + delta[0]` overflows: at counter 8, `advance(2^64 - 7)` keeps the block of
counter 8 although the new counter is `2^64 + 1`. -/
theorem not_C23_overflow :
    nthDraw ccNext 0 (ccAdvance (ccBad 8) (-7) 0) ≠ nthDraw ccNext 0 (ccSeed (ccBad 8) 1 0 2 0 1 1) := by
  decide +kernel

end Verif
