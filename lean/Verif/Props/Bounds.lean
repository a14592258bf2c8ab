import Verif.Props.StateRoundTrip
import Verif.Proof.CtrStream
import Verif.Model.BlockCtr
import Verif.Model.CtrMode
import Verif.Model.ChaCha
import Verif.Props.Hc128

/-! C13: which stored states of the block generators ever read outside their tables. Each theorem gives the exact set of
safe states; the setters check none of these conditions. -/

namespace Verif

/-- If every state of `Safe` has a next state in `Safe`, all draws are defined. -/
theorem some_of_safe {σ α : Type} (nx : σ → Option (α × σ)) (Safe : σ → Prop) (h : ∀ s, Safe s → ∃ r, nx s = some r ∧ Safe r.2) (s : σ) (hs : Safe s)
    (n : Nat) : (nthO nx n s).isSome := by
  have run : ∀ n s, Safe s → ∃ t, runO nx n s = some t ∧ Safe t := by
    intro n
    induction n with
    | zero => exact fun s hs => ⟨s, rfl, hs⟩
    | succ n ih =>
      intro s hs
      obtain ⟨r, hr, hsr⟩ := h s hs
      obtain ⟨t, ht, hst⟩ := ih r.2 hsr
      exact ⟨t, by rw [runO, hr]; exact ht, hst⟩
  obtain ⟨t, ht, hst⟩ := run n s hs
  obtain ⟨r, hr, _⟩ := h t hst
  rw [nthO, ht]
  show ((nx t).map Prod.fst).isSome
  rw [hr]; rfl

theorem nthO_none {σ α : Type} {nx : σ → Option (α × σ)} {s : σ} (h : nx s = none) : nthO nx 0 s = none := by
  rw [nthO, runO]; show (nx s).map Prod.fst = none; rw [h]; rfl

theorem nthO_succ_none {σ α : Type} {nx : σ → Option (α × σ)} {s : σ} {r : α × σ} (h : nx s = some r) {n : Nat} (hn : nthO nx n r.2 = none) :
    nthO nx (n + 1) s = none := by
  rw [nthO, runO, h]; exact hn

/-! ### SPECK128 -/

/-- `speck_next64` with the bound of the round key table: `generate_block_fast` reads `round_key[i]` for `i < rounds`
(speck-128.h:89-100), and the table has `SPECK_MAX_ROUNDS` = 34 entries (speck-128-common.h:10, 23). -/
def speckNextChk (s : Speck) : Option (U64 × Speck) :=
  if s.offset = 96 ∧ 34 < s.rounds then none else speckNext s

def SpeckSafe (s : Speck) : Prop := s.rounds ≤ 34 ∧ 0 ≤ s.offset ∧ s.offset ≤ 96 ∧ s.offset % 8 = 0

theorem speckNextChk_read (s : Speck) (h : s.offset ≠ 96) (h0 : 0 ≤ s.offset) (h1 : s.offset + 8 ≤ 96) :
    ∃ x, speckNextChk s = some (x, { s with offset := s.offset + 8 }) := by
  rw [speckNextChk, if_neg (fun e => h e.1), speckNext, if_neg h]
  simp only [read8]
  rw [if_pos ⟨h0, h1⟩]
  exact ⟨_, rfl⟩

theorem speckNextChk_gen (s : Speck) (h : s.offset = 96) (hr : s.rounds ≤ 34) :
    ∃ x t, speckNextChk s = some (x, t) ∧ t.offset = 8 ∧ t.rounds = s.rounds := by
  rw [speckNextChk, if_neg (fun e => by omega), speckNext, if_pos h]
  simp only [read8]
  rw [if_pos (by show (0 : Int) ≤ 0 ∧ (0 : Int) + 8 ≤ 8 * 12; decide)]
  exact ⟨_, _, rfl, rfl, rfl⟩

theorem speckNextChk_none (s : Speck) (h : s.offset ≠ 96) (hb : ¬ (0 ≤ s.offset ∧ s.offset + 8 ≤ 96)) : speckNextChk s = none := by
  rw [speckNextChk, if_neg (fun e => h e.1), speckNext, if_neg h]
  simp only [read8]
  rw [if_neg (by push_cast; omega)]
  rfl

/-- C13 for SPECK128: no draw ever leaves the tables exactly if the offset is a multiple of eight between 0 and 96 and there
are at most 34 rounds. -/
theorem C13_speck128_partial (s : Speck) : (∀ n, (nthO speckNextChk n s).isSome) ↔ SpeckSafe s := by
  constructor
  · intro h
    by_contra hs
    have bad : ∀ k : Nat, ∀ s : Speck, ¬ SpeckSafe s → (s.offset < 0 ∨ 96 < s.offset ∨ s.offset + 8 * k ≥ 96) → ∃ n, nthO speckNextChk n s = none := by
      intro k
      induction k with
      | zero =>
        intro s hs hk
        by_cases e : s.offset = 96
        · refine ⟨0, nthO_none ?_⟩
          have : 34 < s.rounds := by
            by_contra hr
            exact hs ⟨by omega, by omega, by omega, by omega⟩
          rw [speckNextChk, if_pos ⟨e, this⟩]
        · exact ⟨0, nthO_none (speckNextChk_none s e (by omega))⟩
      | succ k ih =>
        intro s hs hk
        by_cases e : s.offset = 96
        · refine ⟨0, nthO_none ?_⟩
          have : 34 < s.rounds := by
            by_contra hr
            exact hs ⟨by omega, by omega, by omega, by omega⟩
          rw [speckNextChk, if_pos ⟨e, this⟩]
        · by_cases hb : 0 ≤ s.offset ∧ s.offset + 8 ≤ 96
          · obtain ⟨x, hx⟩ := speckNextChk_read s e hb.1 hb.2
            obtain ⟨n, hn⟩ := ih { s with offset := s.offset + 8 } (fun h => hs (by
                obtain ⟨a, b, c, d⟩ := h
                simp only at a b c d
                exact ⟨a, hb.1, by omega, by omega⟩)) (by simp only; push_cast at hk; omega)
            exact ⟨n + 1, nthO_succ_none hx hn⟩
          · exact ⟨0, nthO_none (speckNextChk_none s e hb)⟩
    obtain ⟨n, hn⟩ := bad (96 - s.offset).toNat s hs (by omega)
    have := h n
    rw [hn] at this
    exact absurd this (by simp)
  · intro h n
    refine some_of_safe _ SpeckSafe (fun s hs => ?_) s h n
    obtain ⟨a, b, c, d⟩ := hs
    by_cases e : s.offset = 96
    · obtain ⟨x, t, ht, h1, h2⟩ := speckNextChk_gen s e a
      exact ⟨_, ht, by rw [h2]; exact a, by simp only [h1]; decide, by simp only [h1]; decide, by simp only [h1]; decide⟩
    · obtain ⟨x, hx⟩ := speckNextChk_read s e b (by omega)
      exact ⟨_, hx, a, by simp only; omega, by simp only; omega, by simp only; omega⟩

example : ∃ s : Speck, SpeckSafe s ∧ s.rounds = 34 ∧ s.offset = 40 :=
  ⟨⟨fun i => BitVec.ofNat 64 i, fun _ => ⟨1, 2⟩, fun _ => 3, 34, 40, false, 0⟩, ⟨by decide, by decide, by decide, by decide⟩, rfl, rfl⟩

/-- The struct behind a SPECK128 instance. -/
def speckCore (x : SpeckI) : Speck where
  rk := fun i => x.roundKey.toList.getD (2 * i) 0
  ctr := fun i => ⟨x.ctr.toList.getD (2 * i.val) 0, x.ctr.toList.getD (2 * i.val + 1) 0⟩
  buf := fun i => x.buffer.toList.getD i 0
  rounds := x.rounds.toInt
  offset := x.offset.toInt
  has := x.has ≠ 0
  uinteger := x.uint

/-- C13 fails for SPECK128: whatever else is stored, the setter accepts 35 rounds, an offset of 1 and an offset of -8. -/
theorem not_C13_speck128 (x t : SpeckI) :
    (∃ v t', speckSet v t = (.ok (), t') ∧ t' = { x with rounds := 35 } ∧ ∃ n, nthO speckNextChk n (speckCore t') = none) ∧
    (∃ v t', speckSet v t = (.ok (), t') ∧ t' = { x with offset := 1 } ∧ ∃ n, nthO speckNextChk n (speckCore t') = none) ∧
    (∃ v t', speckSet v t = (.ok (), t') ∧ t' = { x with offset := -8 } ∧ ∃ n, nthO speckNextChk n (speckCore t') = none) := by
  have key : ∀ y : SpeckI, ¬ SpeckSafe (speckCore y) → ∃ v t', speckSet v t = (.ok (), t') ∧ t' = y ∧ ∃ n, nthO speckNextChk n (speckCore t') = none := by
    intro y hy
    refine ⟨speckGet y, y, C11_speck128 y t, rfl, ?_⟩
    by_contra hc
    simp only [not_exists] at hc
    exact hy ((C13_speck128_partial _).1 fun n => Option.isSome_iff_ne_none.2 (hc n))
  refine ⟨key _ fun h => ?_, key _ fun h => ?_, key _ fun h => ?_⟩
  · exact absurd h.1 (show ¬ (35 : Int) ≤ 34 by decide)
  · exact absurd h.2.2.2 (show ¬ (1 : Int) % 8 = 0 by decide)
  · exact absurd h.2.1 (show ¬ (0 : Int) ≤ -8 by decide)

/-! ### AESCounter -/

def AesSafe (s : Aes) : Prop := 64 ≤ s.offset ∨ s.offset % 8 = 0

theorem aesNext_read (s : Aes) (h : s.offset < 64) (h1 : s.offset + 8 ≤ 64) : ∃ x, aesNext s = some (x, { s with offset := s.offset + 8 }) := by
  rw [aesNext, if_neg (by omega)]
  simp only [read8]
  rw [if_pos ⟨by omega, by push_cast; omega⟩]
  exact ⟨_, rfl⟩

theorem aesNext_none (s : Aes) (h : s.offset < 64) (h1 : ¬ s.offset + 8 ≤ 64) : aesNext s = none := by
  rw [aesNext, if_neg (by omega)]
  simp only [read8]
  rw [if_neg (by push_cast; omega)]
  rfl

theorem aesNext_gen (s : Aes) (h : 64 ≤ s.offset) : ∃ x t, aesNext s = some (x, t) ∧ t.offset = 8 := by
  rw [aesNext, if_pos h]
  simp only [read8]
  rw [if_pos (by show (0 : Int) ≤ 0 ∧ (0 : Int) + 8 ≤ 8 * 8; decide)]
  exact ⟨_, _, rfl, rfl⟩

/-- C13 for AESCounter: no draw ever leaves the buffer exactly if the offset is at least 64 or a multiple of eight. -/
theorem C13_aesctr_partial (s : Aes) : (∀ n, (nthO aesNext n s).isSome) ↔ AesSafe s := by
  constructor
  · intro h
    by_contra hs
    have bad : ∀ k : Nat, ∀ s : Aes, ¬ AesSafe s → s.offset + 8 * k ≥ 57 → ∃ n, nthO aesNext n s = none := by
      intro k
      induction k with
      | zero =>
        intro s hs hk
        rw [AesSafe] at hs
        exact ⟨0, nthO_none (aesNext_none s (by omega) (by omega))⟩
      | succ k ih =>
        intro s hs hk
        rw [AesSafe] at hs
        by_cases hb : s.offset + 8 ≤ 64
        · obtain ⟨x, hx⟩ := aesNext_read s (by omega) hb
          obtain ⟨n, hn⟩ := ih { s with offset := s.offset + 8 } (by rw [AesSafe]; simp only; omega) (by simp only; omega)
          exact ⟨n + 1, nthO_succ_none hx hn⟩
        · exact ⟨0, nthO_none (aesNext_none s (by omega) hb)⟩
    obtain ⟨n, hn⟩ := bad 57 s hs (by omega)
    have := h n
    rw [hn] at this
    exact absurd this (by simp)
  · intro h n
    refine some_of_safe _ AesSafe (fun s hs => ?_) s h n
    by_cases e : 64 ≤ s.offset
    · obtain ⟨x, t, ht, h1⟩ := aesNext_gen s e
      exact ⟨_, ht, .inr (by simp only [h1])⟩
    · obtain ⟨x, hx⟩ := aesNext_read s (by omega) (by rw [AesSafe] at hs; omega)
      exact ⟨_, hx, .inr (by rw [AesSafe] at hs; simp only; omega)⟩

/-- The struct behind an AESCounter instance; the 64 bytes of output as words. -/
def aesCore (x : AesI) (keys : Aes) : Aes :=
  { keys with
    ctr := fun i => ⟨x.ctr.toList.getD (2 * i.val) 0, x.ctr.toList.getD (2 * i.val + 1) 0⟩
    buf := fun i => (List.range 8).foldr (fun j acc => (acc <<< 8) ||| (x.state.toList.getD (8 * i + j) 0).zeroExtend 64) 0
    offset := x.offset.toNat
    has := x.has ≠ 0
    uinteger := x.uint }

/-- C13 fails for AESCounter: the setter accepts offset 60, whatever else is stored; the next draw reads four bytes behind the
buffer. -/
theorem not_C13_aesctr (x t : AesI) (keys : Aes) :
    ∃ v t', aesSet v t = (.ok (), t') ∧ t' = { x with offset := 60 } ∧ nthO aesNext 0 (aesCore t' keys) = none :=
  ⟨aesGet { x with offset := 60 }, _, C11_aesctr _ t, rfl, nthO_none (aesNext_none _ (show (60 : Nat) < 64 by decide) (show ¬ (60 : Nat) + 8 ≤ 64 by decide))⟩

/-! ### Philox and ThreeFry -/

/-- C13 for Philox and ThreeFry: no draw ever leaves the buffer exactly if the buffer position is not negative. -/
theorem C13_philox_threefry_partial {w : Nat} (N : Nat) (blk : List (BitVec w) → List (BitVec w) → List (BitVec w)) (hN : 0 < N) (s : CtrGen w) :
    (∀ n, (nthO (cmNext N blk) n s).isSome) ↔ 0 ≤ s.pos := by
  constructor
  · intro h
    by_contra hc
    have : cmNext N blk s = none := by rw [cmNext, if_pos (by omega), if_neg hc]
    have h0 := h 0
    rw [nthO_none this] at h0
    exact absurd h0 (by simp)
  · intro h n
    refine some_of_safe _ (fun s : CtrGen w => 0 ≤ s.pos) (fun s hs => ?_) s h n
    rw [cmNext]
    by_cases e : s.pos < N
    · rw [if_pos e, if_pos hs]; exact ⟨_, rfl, by simp only; omega⟩
    · rw [if_neg e]; exact ⟨_, rfl, by simp only; decide⟩

/-- C13 fails for Philox and ThreeFry: a negative `buffer_pos` passes the setter. -/
theorem not_C13_philox (x t : CtrI) (h : CtrOk x) : ∃ v t', philoxSet v t = (.ok (), t') ∧ t'.pos.toInt = -1 ∧
    ∀ (w N : Nat) (blk : List (BitVec w) → List (BitVec w) → List (BitVec w)) (g : CtrGen w), g.pos = t'.pos.toInt → nthO (cmNext N blk) 0 g = none := by
  obtain ⟨t', ht, hv⟩ := C11_philox { x with pos := -1 } t h
  have : t'.pos = -1 := by have := congrArg (fun v => v.pos) hv; exact this
  have hp : t'.pos.toInt = -1 := by rw [this]; decide
  refine ⟨_, t', ht, hp, fun w N blk g hg => nthO_none ?_⟩
  rw [cmNext, if_pos (by omega), if_neg (by omega)]

theorem not_C13_threefry (x t : CtrI) (h : CtrOk x) : ∃ v t', threefrySet v t = (.ok (), t') ∧ t'.pos.toInt = -1 ∧
    ∀ (w N : Nat) (blk : List (BitVec w) → List (BitVec w) → List (BitVec w)) (g : CtrGen w), g.pos = t'.pos.toInt → nthO (cmNext N blk) 0 g = none := by
  obtain ⟨t', ht, hv⟩ := C11_threefry { x with pos := -1 } t h
  have : t'.pos = -1 := by have := congrArg (fun v => v.pos) hv; exact this
  have hp : t'.pos.toInt = -1 := by rw [this]; decide
  refine ⟨_, t', ht, hp, fun w N blk g hg => nthO_none ?_⟩
  rw [cmNext, if_pos (by omega), if_neg (by omega)]

/-- Whether the run of a setter ends in undefined behaviour. -/
def isUb {σ α : Type} (m : SetM σ α) (s : σ) : Bool := match (m s).1 with
  | .ub => true
  | _ => false

/-- The setters of Philox and ThreeFry themselves write outside the struct when given a state with eight words. -/
theorem not_C13_philox_setter : ∃ v, isUb (philoxSet v) ⟨4, 64, 4, 64, 4, 64, #v[1, 0, 0, 0], #v[2, 0, 0, 0], #v[0, 0, 0, 0], 4, 0, 0⟩ = true :=
  ⟨mkDict [("bit_generator", .str "randomgen.philox.Philox"), ("number", .int 8), ("width", .int 64),
    ("state", mkDict [("counter", .arr 64 (List.replicate 8 0)), ("key", .arr 64 (List.replicate 4 0))]), ("buffer", .arr 64 (List.replicate 8 0))],
    by decide +kernel⟩

theorem not_C13_threefry_setter : ∃ v, isUb (threefrySet v) ⟨4, 64, 4, 64, 4, 64, #v[1, 0, 0, 0], #v[2, 0, 0, 0], #v[0, 0, 0, 0], 4, 0, 0⟩ = true :=
  ⟨mkDict [("bit_generator", .str "randomgen.threefry.ThreeFry"), ("number", .int 8), ("width", .int 64),
    ("state", mkDict [("counter", .arr 64 (List.replicate 8 0)), ("key", .arr 64 (List.replicate 8 0))]), ("buffer", .arr 64 (List.replicate 8 0))],
    by decide +kernel⟩

/-! ### ChaCha -/

/-- C13 for ChaCha: the index into the block is always below 16. -/
theorem C13_chacha (s : ChaCha) : (s.ctr0 % 16#64).toNat < 16 := by
  rw [BitVec.toNat_umod]; exact Nat.mod_lt _ (by decide)

end Verif
