import Verif.Proof.BlockCtr

/-! Properties C15, C16 (advance of SPECK128 and AESCounter) and C17 (their blocks never repeat). -/

namespace Verif

/-- A generator whose draws are the words of a fixed sequence `W` of period `2^129`, read from a position. -/
theorem nthO_of_invariant {σ : Type} (nx : σ → Option (U64 × σ)) (I : σ → BitVec 129 → Prop) (W : BitVec 129 → U64)
    (h : ∀ s p, I s p → ∃ s', nx s = some (W p, s') ∧ I s' (p + 1)) (s : σ) (p : BitVec 129) (hs : I s p) (n : Nat) :
    nthO nx n s = some (W (p + BitVec.ofNat 129 n)) := by
  have run : ∀ n s p, I s p → ∃ t, runO nx n s = some t ∧ I t (p + BitVec.ofNat 129 n) := by
    intro n
    induction n with
    | zero => intro s p hs; exact ⟨s, rfl, by simpa using hs⟩
    | succ n ih =>
      intro s p hs
      obtain ⟨s', h1, h2⟩ := h s p hs
      obtain ⟨t, h3, h4⟩ := ih s' _ h2
      refine ⟨t, by rw [runO, h1]; exact h3, ?_⟩
      rw [BitVec.ofNat_add, add_comm (BitVec.ofNat 129 n), ← add_assoc]; exact h4
  obtain ⟨t, h1, h2⟩ := run n s p hs
  obtain ⟨t', h3, -⟩ := h t _ h2
  rw [nthO, h1, Option.bind_some, h3]; rfl

/-! ### SPECK128 -/

/-- Invariant of SPECK128 at position `p` of the stream with round keys `rk`, `n` rounds. -/
def SpeckAt (rk : Nat → U64) (n : Int) (s : Speck) (p : BitVec 129) : Prop :=
  s.rk = rk ∧ s.rounds = n ∧ ∃ o : Nat, s.offset = 8 * (o : Int) ∧ BWF 6 (speckEnc rk n.toNat) s.ctr s.buf o p

theorem speckGen_ctr (u : Speck) (i : Fin 6) : (speckGen u).ctr i = speckAdd6 (u.ctr i) := rfl

theorem speckGen_buf (u : Speck) (j : Nat) (hj : j < 2 * 6) :
    (speckGen u).buf j = half (speckEnc u.rk u.rounds.toNat (u.ctr ⟨j / 2, by omega⟩)) j := by
  simp only [speckGen, half]
  congr 5 <;> omega

theorem speckGen_at {rk n s p} (h : SpeckAt rk n s p) (ho : s.offset = 96) :
    SpeckAt rk n (speckGen s) p ∧ (speckGen s).offset = 0 := by
  obtain ⟨rfl, rfl, o, h1, h2⟩ := h
  have : o = 2 * 6 := by omega
  subst this
  refine ⟨⟨rfl, rfl, 0, rfl, h2.gen (by decide) _ _ (fun i => speckAdd6_val _) ?_⟩, rfl⟩
  exact fun j hj => speckGen_buf s j hj

theorem speckNext_at (rk : Nat → U64) (n : Int) (s : Speck) (p : BitVec 129) (h : SpeckAt rk n s p) :
    ∃ s', speckNext s = some (wordAt (speckEnc rk n.toNat) p, s') ∧ SpeckAt rk n s' (p + 1) := by
  have key : ∀ s : Speck, SpeckAt rk n s p → s.offset ≠ 96 →
      ∃ s', (read8 12 s.buf s.offset).map (fun out => (out, { s with offset := s.offset + 8 })) =
        some (wordAt (speckEnc rk n.toNat) p, s') ∧ SpeckAt rk n s' (p + 1) := by
    rintro s ⟨hr, hn, o, h1, h2⟩ hne
    have ho : o < 2 * 6 := by
      obtain ⟨_, _, hle, _⟩ := h2; omega
    refine ⟨{ s with offset := s.offset + 8 }, ?_, hr, hn, o + 1, ?_, h2.succ ho 1 (by omega)⟩
    · rw [h1, read8_aligned 12 s.buf o ho, h2.read ho]; rfl
    · show s.offset + 8 = _
      rw [h1]; push_cast; ring
  by_cases ho : s.offset = 96
  · obtain ⟨h1, h2⟩ := speckGen_at h ho
    have := key (speckGen s) h1 (by rw [h2]; decide)
    simpa only [speckNext, if_pos ho] using this
  · simpa only [speckNext, if_neg ho] using key s h ho

theorem speckNext_full (u : Speck) (h : u.offset = 96) :
    speckNext u = some ((speckGen u).buf 0, { speckGen u with offset := 8 }) := by
  rw [speckNext, if_pos h]
  show (read8 12 (speckGen u).buf (8 * ((0 : Nat) : Int))).map _ = _
  rw [read8_aligned 12 _ 0 (by decide)]; rfl

theorem speckAdvance_at (rk : Nat → U64) (n : Int) (s : Speck) (p : BitVec 129) (h : SpeckAt rk n s p) (d0 d1 d2 : U64) :
    ∃ s', speckAdvance s d0 d1 d2 = some s' ∧
      SpeckAt rk n s' (p + BitVec.ofNat 129 (d0.toNat + 2 ^ 64 * d1.toNat + 2 ^ 128 * d2.toNat)) := by
  -- the forced update
  have h1 : ∃ t, speckForce s = some t ∧
      SpeckAt rk n t p ∧ t.offset ≠ 96 := by
    by_cases ho : s.offset = 96
    · obtain ⟨g1, g2⟩ := speckGen_at h ho
      obtain ⟨e1, e2, o, e3, e4⟩ := g1
      have ho0 : o = 0 := by omega
      subst ho0
      refine ⟨speckGen s, ?_, ⟨e1, e2, 0, e3, e4⟩, by rw [g2]; decide⟩
      rw [speckForce, if_pos ho, speckNext]
      simp only [if_pos ho]
      rw [g2, show (0 : Int) = 8 * ((0 : Nat) : Int) from rfl, read8_aligned 12 _ 0 (by decide)]
      simp only [Option.map_some, Option.some.injEq]
      show { speckGen s with offset := 0 } = speckGen s
      rfl
    · exact ⟨s, if_neg ho, h, ho⟩
  obtain ⟨t, ht, hat, hto⟩ := h1
  obtain ⟨hr, hn, o, e1, e2⟩ := hat
  have ho : o < 2 * 6 := by
    obtain ⟨_, _, hle, _⟩ := e2; omega
  have hod : (d0 % 2#64).toNat ≤ 1 := by
    rw [BitVec.toNat_umod, show (2#64).toNat = 2 from rfl]; omega
  have e3 := e2.succ ho (d0 % 2#64).toNat (by omega)
  rw [← adj_step]
  set a0 := d0 / 2#64 + ((d1 % 2#64) <<< 63) with ha0
  set a1 := d1 / 2#64 + ((d2 % 2#64) <<< 63) with ha1
  rw [speckAdvance, ht]
  simp only [Option.bind_eq_bind, Option.bind_some, ← ha0, ← ha1]
  by_cases hz : a0 = 0 ∧ a1 = 0
  · rw [if_pos hz]
    refine ⟨_, rfl, hr, hn, o + (d0 % 2#64).toNat, ?_, ?_⟩
    · show t.offset + 8 * _ = _
      rw [e1]; push_cast; ring
    · rw [hz.1, hz.2]
      simpa [dbl, Ctr.val] using e3
  · rw [if_neg hz]
    show ∃ s', (speckNext { t with offset := 96, ctr := fun i => speckAdvCtr a0 a1 (t.ctr i) }).bind (fun r =>
      some { r.2 with offset := t.offset + 8 * ((d0 % 2#64).toNat : Int) }) = some s' ∧ _
    obtain ⟨u, hu⟩ : ∃ u : Speck, u = { t with offset := 96, ctr := fun i => speckAdvCtr a0 a1 (t.ctr i) } := ⟨_, rfl⟩
    rw [← hu]
    have u1 : u.offset = 96 := by rw [hu]
    have u2 : ∀ i, u.ctr i = speckAdvCtr a0 a1 (t.ctr i) := fun i => by rw [hu]
    have u3 : u.rk = rk := by rw [hu]; exact hr
    have u4 : u.rounds = n := by rw [hu]; exact hn
    refine ⟨{ speckGen u with offset := t.offset + 8 * ((d0 % 2#64).toNat : Int) }, ?_, u3, u4, o + (d0 % 2#64).toNat, ?_, ?_⟩
    · rw [speckNext_full u u1]; rfl
    · show t.offset + 8 * _ = _
      rw [e1]; push_cast; ring
    · rw [add_comm (dbl _), ← add_assoc]
      refine e3.adv _ _ _ ?_ ?_
      · intro i
        rw [speckGen_ctr, u2, speckAdd6_val, speckAdvCtr_val]
        exact sub_add_cancel _ _
      · intro j hj
        have e5 := Ctr.eq_ofVal (speckAdvCtr_val a0 a1 (t.ctr ⟨j / 2, by omega⟩))
        refine (speckGen_buf u j hj).trans ?_
        rw [u3, u4, u2, e5]; rfl

/-- Everything a user can do with a SPECK128 instance between constructions: seed it (from any memory
content, any number of rounds), draw, advance. -/
inductive Speck.Reach : Speck → Prop
  | seed (old : Speck) (k0 k1 k2 k3 : U64) (c : Ctr) : Reach (speckSeed old k0 k1 k2 k3 c)
  | next {s : Speck} {v : U64} {s' : Speck} : Reach s → speckNext s = some (v, s') → Reach s'
  | half {s : Speck} (h : Bool) (u : U32) : Reach s → Reach { s with has := h, uinteger := u }
  | advance {s : Speck} (delta : Int) {s' : Speck} : Reach s → speckPyAdvance s delta = .ok (some s') → Reach s'

theorem wrap129 (delta : Int) : Ints.wrapInt delta 129 = delta % 2 ^ 129 := by
  obtain ⟨h1, h2, h3⟩ := Ints.C01_wrap_int_range_congruent delta 129
  rw [← Int.emod_eq_of_lt h1 h2]; exact h3

theorem speckPyAdvance_at (rk : Nat → U64) (n : Int) (s : Speck) (p : BitVec 129) (h : SpeckAt rk n s p) (delta : Int) :
    ∃ s', speckPyAdvance s delta = .ok (some s') ∧ SpeckAt rk n s' (p + BitVec.ofNat 129 (delta % 2 ^ 129).toNat) ∧
      (delta % 2 ^ 129 ≠ 0 → s'.has = false) := by
  rw [speckPyAdvance, wrap129]
  by_cases hz : delta % 2 ^ 129 = 0
  · rw [if_pos hz]
    exact ⟨s, rfl, by rw [hz]; simpa using h, fun hh => absurd hz hh⟩
  · rw [if_neg hz]
    obtain ⟨d0, d1, d2, h1, h2⟩ := steps129_spec delta
    obtain ⟨s', h3, h4⟩ := speckAdvance_at rk n s p h d0 d1 d2
    rw [h1]
    refine ⟨{ s' with has := false, uinteger := 0 }, by simp only [h3, Option.map_some], ?_, fun _ => rfl⟩
    rw [← h2, Int.toNat_natCast]
    exact h4

theorem speckSeed_at (old : Speck) (k0 k1 k2 k3 : U64) (c : Ctr) :
    SpeckAt (fun i => (speckExpandKey k0 k1 k2 k3).getD i 0) old.rounds (speckSeed old k0 k1 k2 k3 c) (dbl c.val) :=
  ⟨rfl, rfl, 12, rfl, BWF.fresh (K := 6) c.val (fun i => speckSetCtr_val c i.val (by have := i.isLt; omega))⟩

theorem Speck.Reach.at {s : Speck} (h : s.Reach) : ∃ rk n p, SpeckAt rk n s p := by
  induction h with
  | seed old k0 k1 k2 k3 c => exact ⟨_, _, _, speckSeed_at old k0 k1 k2 k3 c⟩
  | next _ hn ih =>
    obtain ⟨rk, n, p, hp⟩ := ih
    obtain ⟨s', h1, h2⟩ := speckNext_at rk n _ p hp
    rw [hn] at h1
    cases h1
    exact ⟨rk, n, _, h2⟩
  | half hb u _ ih =>
    obtain ⟨rk, n, p, hp⟩ := ih
    exact ⟨rk, n, p, hp⟩
  | advance delta _ ha ih =>
    obtain ⟨rk, n, p, hp⟩ := ih
    obtain ⟨s', h1, h2, -⟩ := speckPyAdvance_at rk n _ p hp delta
    rw [ha] at h1
    cases h1
    exact ⟨rk, n, _, h2⟩

/-- C15, no undefined behaviour: every draw from every reachable SPECK128 state reads inside its buffer. -/
theorem C15_speck_total (s : Speck) (h : s.Reach) (n : Nat) : (nthO speckNext n s).isSome := by
  obtain ⟨rk, r, p, hp⟩ := h.at
  rw [nthO_of_invariant speckNext (SpeckAt rk r) _ (speckNext_at rk r) s p hp n]; rfl

/-- C15: from every reachable SPECK128 state (any key, round count, counter and buffer position) and for every
integer `delta`, `advance(delta)` succeeds and the `n`-th draw afterwards is draw `n + m` of the original, for
every `m` congruent to `delta` modulo `2^129`. -/
theorem C15_speck_advance (s : Speck) (h : s.Reach) (delta : Int) (m : Nat) (hm : (m : Int) ≡ delta [ZMOD 2 ^ 129]) :
    ∃ s', speckPyAdvance s delta = .ok (some s') ∧ (∀ n, nthO speckNext n s' = nthO speckNext (n + m) s) ∧
      (¬ delta ≡ 0 [ZMOD 2 ^ 129] → s'.has = false) := by
  obtain ⟨rk, r, p, hp⟩ := h.at
  obtain ⟨s', h1, h2, h3⟩ := speckPyAdvance_at rk r s p hp delta
  refine ⟨s', h1, fun n => ?_, fun hh => h3 (fun h0 => hh (by rw [Int.ModEq, h0]; rfl))⟩
  rw [nthO_of_invariant speckNext (SpeckAt rk r) _ (speckNext_at rk r) s' _ h2 n,
    nthO_of_invariant speckNext (SpeckAt rk r) _ (speckNext_at rk r) s p hp (n + m)]
  congr 2
  rw [add_assoc, ← BitVec.ofNat_add]
  congr 1
  apply BitVec.eq_of_toNat_eq
  rw [BitVec.toNat_ofNat, BitVec.toNat_ofNat]
  have e : ((delta % 2 ^ 129).toNat : Int) = (m : Int) % 2 ^ 129 := by
    rw [Int.toNat_of_nonneg (Int.emod_nonneg _ (by norm_num))]; exact hm.symm
  have e' : (delta % 2 ^ 129).toNat = m % 2 ^ 129 := by
    have : ((delta % 2 ^ 129).toNat : Int) = ((m % 2 ^ 129 : Nat) : Int) := by rw [e]; norm_cast
    exact_mod_cast this
  rw [e', Nat.mod_add_mod, Nat.add_comm]

/-- C15: the stream of a seeded SPECK128: draw `n` is half `n mod 2` of the encryption of counter
`c + n / 2` modulo `2^128`. Hence the period divides `2^129`. -/
theorem C15_speck_stream (old : Speck) (k0 k1 k2 k3 : U64) (c : Ctr) (n : Nat) :
    nthO speckNext n (speckSeed old k0 k1 k2 k3 c) =
      some (half (speckEnc (fun i => (speckExpandKey k0 k1 k2 k3).getD i 0) old.rounds.toNat
        (Ctr.ofVal (c.val + BitVec.ofNat 128 (n / 2)))) n) := by
  rw [nthO_of_invariant speckNext _ _ (speckNext_at _ _) _ _ (speckSeed_at old k0 k1 k2 k3 c) n, wordAt, posCtr_dbl, half_dbl]

example : Speck.Reach (speckSeed ⟨fun _ => 0, fun _ => ⟨0, 0⟩, fun _ => 0, 34, 0, false, 0⟩ 1 2 3 4 ⟨-1, 7⟩) :=
  .seed _ _ _ _ _ _

/-- C15: `jumped(iter)` is `iter * 2^64` draws. -/
theorem C15_speck_jumped (s : Speck) (h : s.Reach) (iter : Nat) :
    ∃ s', speckJumpInplace s iter = .ok (some s') ∧ ∀ n, nthO speckNext n s' = nthO speckNext (n + iter * 2 ^ 64) s := by
  obtain ⟨s', h1, h2, -⟩ := C15_speck_advance s h ((iter : Int) * 2 ^ 64) (iter * 2 ^ 64) (by push_cast; rfl)
  exact ⟨s', h1, h2⟩

/-! ### AESCounter -/

/-- Invariant of AESCounter at position `p` of the stream of expanded key `rk`. -/
def AesAt (rk : Nat → U8) (s : Aes) (p : BitVec 129) : Prop :=
  s.seed = rk ∧ ∃ o : Nat, s.offset = 8 * o ∧ BWF 4 (aesEnc rk) s.ctr s.buf o p

theorem aesGen_ctr (u : Aes) (i : Fin 4) : (aesGen u).ctr i = aesAdd4 (u.ctr i) := rfl

theorem aesGen_buf (u : Aes) (j : Nat) (hj : j < 2 * 4) :
    (aesGen u).buf j = half (aesEnc u.seed (u.ctr ⟨j / 2, by omega⟩)) j := by
  simp only [aesGen, half]
  congr 5 <;> omega

theorem aesGen_at {rk s p} (h : AesAt rk s p) (ho : s.offset = 64) :
    AesAt rk (aesGen s) p ∧ (aesGen s).offset = 0 := by
  obtain ⟨rfl, o, h1, h2⟩ := h
  have : o = 2 * 4 := by omega
  subst this
  exact ⟨⟨rfl, 0, rfl, h2.gen (by decide) _ _ (fun i => aesAdd4_val _) (fun j hj => aesGen_buf s j hj)⟩, rfl⟩

theorem AesAt.le {rk s p} (h : AesAt rk s p) : s.offset ≤ 64 := by
  obtain ⟨-, o, h1, _, _, hle, _⟩ := h; omega

theorem aesNext_at (rk : Nat → U8) (s : Aes) (p : BitVec 129) (h : AesAt rk s p) :
    ∃ s', aesNext s = some (wordAt (aesEnc rk) p, s') ∧ AesAt rk s' (p + 1) := by
  have key : ∀ s : Aes, AesAt rk s p → s.offset ≠ 64 →
      ∃ s', (read8 8 s.buf s.offset).map (fun out => (out, { s with offset := s.offset + 8 })) =
        some (wordAt (aesEnc rk) p, s') ∧ AesAt rk s' (p + 1) := by
    rintro s ⟨hr, o, h1, h2⟩ hne
    have ho : o < 2 * 4 := by
      obtain ⟨_, _, hle, _⟩ := h2; omega
    refine ⟨{ s with offset := s.offset + 8 }, ?_, hr, o + 1, ?_, h2.succ ho 1 (by omega)⟩
    · rw [h1, show ((8 * o : Nat) : Int) = 8 * (o : Int) by push_cast; rfl, read8_aligned 8 s.buf o ho, h2.read ho]; rfl
    · show s.offset + 8 = _
      rw [h1]; ring
  by_cases ho : s.offset = 64
  · obtain ⟨h1, h2⟩ := aesGen_at h ho
    have := key (aesGen s) h1 (by rw [h2]; decide)
    simpa only [aesNext, if_pos ho.ge] using this
  · have hlt : ¬ s.offset ≥ 64 := by have := h.le; omega
    simpa only [aesNext, if_neg hlt] using key s h ho

theorem aesNext_full (u : Aes) (h : u.offset = 64) :
    aesNext u = some ((aesGen u).buf 0, { aesGen u with offset := 8 }) := by
  rw [aesNext, if_pos h.ge]
  show (read8 8 (aesGen u).buf (8 * ((0 : Nat) : Int))).map _ = _
  rw [read8_aligned 8 _ 0 (by decide)]; rfl

theorem aesAdvance_at (rk : Nat → U8) (s : Aes) (p : BitVec 129) (h : AesAt rk s p) (d0 d1 d2 : U64) :
    ∃ s', aesAdvance s d0 d1 d2 = some s' ∧
      AesAt rk s' (p + BitVec.ofNat 129 (d0.toNat + 2 ^ 64 * d1.toNat + 2 ^ 128 * d2.toNat)) := by
  have h1 : ∃ t, aesForce s = some t ∧ AesAt rk t p ∧ t.offset ≠ 64 := by
    by_cases ho : s.offset = 64
    · obtain ⟨g1, g2⟩ := aesGen_at h ho
      refine ⟨aesGen s, ?_, g1, by rw [g2]; decide⟩
      rw [aesForce, if_pos ho, aesNext_full s ho]; rfl
    · exact ⟨s, if_neg ho, h, ho⟩
  obtain ⟨t, ht, hat, hto⟩ := h1
  obtain ⟨hr, o, e1, e2⟩ := hat
  have ho : o < 2 * 4 := by
    obtain ⟨_, _, hle, _⟩ := e2; omega
  have hod : (d0 % 2#64).toNat ≤ 1 := by
    rw [BitVec.toNat_umod, show (2#64).toNat = 2 from rfl]; omega
  have e3 := e2.succ ho (d0 % 2#64).toNat (by omega)
  rw [← adj_step]
  set a0 := d0 / 2#64 + ((d1 % 2#64) <<< 63) with ha0
  set a1 := d1 / 2#64 + ((d2 % 2#64) <<< 63) with ha1
  rw [aesAdvance, ht]
  simp only [Option.bind_eq_bind, Option.bind_some, ← ha0, ← ha1]
  by_cases hz : a0 = 0 ∧ a1 = 0
  · rw [if_pos hz]
    refine ⟨_, rfl, hr, o + (d0 % 2#64).toNat, ?_, ?_⟩
    · show t.offset + 8 * _ = _
      rw [e1]; ring
    · rw [hz.1, hz.2]
      simpa [dbl, Ctr.val] using e3
  · rw [if_neg hz]
    show ∃ s', (aesNext { t with offset := 64, ctr := fun i => aesAdvSub (aesAdvAdd a0 a1 (t.ctr i)) }).bind (fun r =>
      some { r.2 with offset := t.offset + 8 * (d0 % 2#64).toNat }) = some s' ∧ _
    obtain ⟨u, hu⟩ : ∃ u : Aes, u = { t with offset := 64, ctr := fun i => aesAdvSub (aesAdvAdd a0 a1 (t.ctr i)) } := ⟨_, rfl⟩
    rw [← hu]
    have u1 : u.offset = 64 := by rw [hu]
    have u2 : ∀ i, u.ctr i = aesAdvSub (aesAdvAdd a0 a1 (t.ctr i)) := fun i => by rw [hu]
    have u3 : u.seed = rk := by rw [hu]; exact hr
    refine ⟨{ aesGen u with offset := t.offset + 8 * (d0 % 2#64).toNat }, ?_, u3, o + (d0 % 2#64).toNat, ?_, ?_⟩
    · rw [aesNext_full u u1]; rfl
    · show t.offset + 8 * _ = _
      rw [e1]; ring
    · rw [add_comm (dbl _), ← add_assoc]
      have hv : ∀ i, (u.ctr i).val = (t.ctr i).val + Ctr.val ⟨a0, a1⟩ - 4 := fun i => by
        rw [u2, aesAdvSub_val, aesAdvAdd_val]
      refine e3.adv _ _ _ ?_ ?_
      · intro i
        rw [aesGen_ctr, aesAdd4_val, hv]
        exact sub_add_cancel _ _
      · intro j hj
        refine (aesGen_buf u j hj).trans ?_
        rw [u3, Ctr.eq_ofVal (hv ⟨j / 2, by omega⟩)]; rfl

/-- Everything a user can do with a AESCounter instance between constructions: seed it (from any memory
content), draw, advance. -/
inductive Aes.Reach : Aes → Prop
  | seed (old : Aes) (k0 k1 : U64) (c : Nat) : Reach (aesSeed old k0 k1 c)
  | next {s : Aes} {v : U64} {s' : Aes} : Reach s → aesNext s = some (v, s') → Reach s'
  | half {s : Aes} (h : Bool) (u : U32) : Reach s → Reach { s with has := h, uinteger := u }
  | advance {s : Aes} (delta : Int) {s' : Aes} : Reach s → aesPyAdvance s delta = .ok (some s') → Reach s'

theorem aesPyAdvance_at (rk : Nat → U8) (s : Aes) (p : BitVec 129) (h : AesAt rk s p) (delta : Int) :
    ∃ s', aesPyAdvance s delta = .ok (some s') ∧ AesAt rk s' (p + BitVec.ofNat 129 (delta % 2 ^ 129).toNat) ∧
      (delta % 2 ^ 129 ≠ 0 → s'.has = false) := by
  rw [aesPyAdvance, wrap129]
  by_cases hz : delta % 2 ^ 129 = 0
  · rw [if_pos hz]
    exact ⟨s, rfl, by rw [hz]; simpa using h, fun hh => absurd hz hh⟩
  · rw [if_neg hz]
    obtain ⟨d0, d1, d2, h1, h2⟩ := steps129_spec delta
    obtain ⟨s', h3, h4⟩ := aesAdvance_at rk s p h d0 d1 d2
    rw [h1]
    refine ⟨{ s' with has := false, uinteger := 0 }, by simp only [h3, Option.map_some], ?_, fun _ => rfl⟩
    rw [← h2, Int.toNat_natCast]
    exact h4

theorem aesSeed_at (old : Aes) (k0 k1 : U64) (c : Nat) :
    AesAt (aesExpandKey k0 k1) (aesSeed old k0 k1 c) (dbl (BitVec.ofNat 128 c)) := by
  have h : ∀ i : Fin 4, ((aesSeed old k0 k1 c).ctr i).val = BitVec.ofNat 128 c + BitVec.ofNat 128 i.val :=
    fun i => aesSetCtr_val c i.val
  have hs : (aesSeed old k0 k1 c).seed = aesExpandKey k0 k1 := by simp only [aesSeed]
  have ho : (aesSeed old k0 k1 c).offset = 8 * (2 * 4) := by simp only [aesSeed]
  exact ⟨hs, 2 * 4, ho, BWF.fresh _ h⟩

theorem Aes.Reach.at {s : Aes} (h : s.Reach) : ∃ rk p, AesAt rk s p := by
  induction h with
  | seed old k0 k1 c => exact ⟨_, _, aesSeed_at old k0 k1 c⟩
  | next _ hn ih =>
    obtain ⟨rk, p, hp⟩ := ih
    obtain ⟨s', h1, h2⟩ := aesNext_at rk _ p hp
    rw [hn] at h1
    cases h1
    exact ⟨rk, _, h2⟩
  | half hb u _ ih =>
    obtain ⟨rk, p, hp⟩ := ih
    exact ⟨rk, p, hp⟩
  | advance delta _ ha ih =>
    obtain ⟨rk, p, hp⟩ := ih
    obtain ⟨s', h1, h2, -⟩ := aesPyAdvance_at rk _ p hp delta
    rw [ha] at h1
    cases h1
    exact ⟨rk, _, h2⟩

/-- C16, no undefined behaviour: every draw from every reachable AESCounter state reads inside its buffer. -/
theorem C16_aes_total (s : Aes) (h : s.Reach) (n : Nat) : (nthO aesNext n s).isSome := by
  obtain ⟨rk, p, hp⟩ := h.at
  rw [nthO_of_invariant aesNext (AesAt rk) _ (aesNext_at rk) s p hp n]; rfl

/-- C16: from every reachable AESCounter state (any key, counter and buffer position) and for every
integer `delta`, `advance(delta)` succeeds and the `n`-th draw afterwards is draw `n + m` of the original, for
every `m` congruent to `delta` modulo `2^129`. -/
theorem C16_aes_advance (s : Aes) (h : s.Reach) (delta : Int) (m : Nat) (hm : (m : Int) ≡ delta [ZMOD 2 ^ 129]) :
    ∃ s', aesPyAdvance s delta = .ok (some s') ∧ (∀ n, nthO aesNext n s' = nthO aesNext (n + m) s) ∧
      (¬ delta ≡ 0 [ZMOD 2 ^ 129] → s'.has = false) := by
  obtain ⟨rk, p, hp⟩ := h.at
  obtain ⟨s', h1, h2, h3⟩ := aesPyAdvance_at rk s p hp delta
  refine ⟨s', h1, fun n => ?_, fun hh => h3 (fun h0 => hh (by rw [Int.ModEq, h0]; rfl))⟩
  rw [nthO_of_invariant aesNext (AesAt rk) _ (aesNext_at rk) s' _ h2 n,
    nthO_of_invariant aesNext (AesAt rk) _ (aesNext_at rk) s p hp (n + m)]
  congr 2
  rw [add_assoc, ← BitVec.ofNat_add]
  congr 1
  apply BitVec.eq_of_toNat_eq
  rw [BitVec.toNat_ofNat, BitVec.toNat_ofNat]
  have e : ((delta % 2 ^ 129).toNat : Int) = (m : Int) % 2 ^ 129 := by
    rw [Int.toNat_of_nonneg (Int.emod_nonneg _ (by norm_num))]; exact hm.symm
  have e' : (delta % 2 ^ 129).toNat = m % 2 ^ 129 := by
    have : ((delta % 2 ^ 129).toNat : Int) = ((m % 2 ^ 129 : Nat) : Int) := by rw [e]; norm_cast
    exact_mod_cast this
  rw [e', Nat.mod_add_mod, Nat.add_comm]

/-- C16: the stream of a seeded AESCounter: draw `n` is half `n mod 2` of the encryption of counter
`c + n / 2` modulo `2^128`. Hence the period divides `2^129`. -/
theorem C16_aes_stream (old : Aes) (k0 k1 : U64) (c : Nat) (n : Nat) :
    nthO aesNext n (aesSeed old k0 k1 c) =
      some (half (aesEnc (aesExpandKey k0 k1) (Ctr.ofVal (BitVec.ofNat 128 (c + n / 2)))) n) := by
  rw [nthO_of_invariant aesNext _ _ (aesNext_at _) _ _ (aesSeed_at old k0 k1 c) n, wordAt, posCtr_dbl, half_dbl,
    BitVec.ofNat_add]

example : Aes.Reach (aesSeed ⟨fun _ => ⟨0, 0⟩, fun _ => 0, fun _ => 0, 3, false, 0⟩ 1 2 (2 ^ 128 - 1)) :=
  .seed _ _ _ _

/-- C16: `jumped(iter)` is `iter * 2^64` draws. -/
theorem C16_aes_jumped (s : Aes) (h : s.Reach) (iter : Nat) :
    ∃ s', aesJumpInplace s iter = .ok (some s') ∧ ∀ n, nthO aesNext n s' = nthO aesNext (n + iter * 2 ^ 64) s := by
  obtain ⟨s', h1, h2, -⟩ := C16_aes_advance s h ((iter : Int) * 2 ^ 64) (iter * 2 ^ 64) (by push_cast; rfl)
  exact ⟨s', h1, h2⟩

end Verif
