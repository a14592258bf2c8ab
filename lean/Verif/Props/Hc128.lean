import Verif.Proof.Hc128

/-! HC128: C67 (agreement with the reference cipher), C13 (indices) and C14 (reseeding). -/

namespace Verif

open HC

attribute [local irreducible] refInit hcSeed

/-- C67: a new HC128 generator delivers the keystream of the reference implementation, for every key, IV and number of
draws, and no draw leaves the tables. -/
theorem C67_hc128_reference (seed : Nat → U32) (n : Nat) :
    nthO hcNext32 n (hcSeed seed hcZero) = some (nthDraw refStep n (refInit seed fun i => seed (4 + i))) :=
  seed_stream seed hcZero (by decide) n

/-- C67 from any block boundary: the sixteen-fold unrolled code follows the reference from whatever tables. -/
theorem C67_hc128_unroll (s : Hc) (r : HcRef) (hp : ∀ i < 512, s.p i = r.P i) (hq : ∀ i < 512, s.q i = r.Q i) (hi : s.hcIdx = r.c)
    (hc : r.c < 1024) (h16 : r.c % 16 = 0) (hb : s.bufIdx % 16 = 0) (n : Nat) :
    nthO hcNext32 n s = some (nthDraw refStep n r) := by
  have := stream r hc h16 s 0 ⟨0, hp, hq, hi, .inl ⟨hb, rfl⟩⟩ n
  rwa [Nat.zero_add] at this

example : ∃ (s : Hc) (r : HcRef), (∀ i < 512, s.p i = r.P i) ∧ (∀ i < 512, s.q i = r.Q i) ∧ s.hcIdx = r.c ∧ r.c < 1024 ∧ r.c % 16 = 0 ∧
    s.bufIdx % 16 = 0 :=
  ⟨⟨fun i => BitVec.ofNat 32 i, fun i => BitVec.ofNat 32 (7 * i), fun _ => 5, 528, 16⟩, ⟨fun i => BitVec.ofNat 32 i, fun i => BitVec.ofNat 32 (7 * i), 528⟩,
    fun _ _ => rfl, fun _ _ => rfl, rfl, by decide, by decide, by decide⟩

/-! ### C13 -/

/-- Positions for which no draw ever leaves the tables. -/
def HcSafe (s : Hc) : Prop := s.hcIdx % 16 = 0 ∧ (s.bufIdx % 16 = 0 ∨ 0 ≤ s.bufIdx ∧ s.bufIdx < 16)

theorem hcExtract_some (s : Hc) (h : s.hcIdx % 16 = 0) : ∃ s', hcExtract s = some s' ∧ s'.bufIdx = 0 ∧ s'.hcIdx % 16 = 0 := by
  simp only [hcExtract]
  by_cases h1 : (s.hcIdx % 65536).toNat < 512
  · rw [if_pos h1, if_pos (by omega)]
    exact ⟨_, rfl, rfl, by show (s.hcIdx + 16) % 1024 % 16 = 0; omega⟩
  · rw [if_neg h1]
    exact ⟨_, rfl, rfl, by show (s.hcIdx + 16) % 1024 % 16 = 0; omega⟩

theorem hcSafe_step (s : Hc) (h : HcSafe s) : ∃ r, hcNext32 s = some r ∧ HcSafe r.2 := by
  obtain ⟨h1, h2⟩ := h
  by_cases hb : s.bufIdx % 16 = 0
  · obtain ⟨s', e, b, i⟩ := hcExtract_some s h1
    refine ⟨(s'.buffer s'.bufIdx.toNat, { s' with bufIdx := s'.bufIdx + 1 }), ?_, i, .inr ?_⟩
    · rw [hcNext32, if_pos hb, e]
      show (if 0 ≤ s'.bufIdx ∧ s'.bufIdx < 16 then some (s'.buffer s'.bufIdx.toNat, _) else none) = _
      rw [if_pos (by rw [b]; decide)]
    · show 0 ≤ s'.bufIdx + 1 ∧ s'.bufIdx + 1 < 16
      omega
  · have h2 := h2.resolve_left hb
    refine ⟨(s.buffer s.bufIdx.toNat, { s with bufIdx := s.bufIdx + 1 }), ?_, h1, ?_⟩
    · rw [hcNext32, if_neg hb]
      show (if 0 ≤ s.bufIdx ∧ s.bufIdx < 16 then some (s.buffer s.bufIdx.toNat, _) else none) = _
      rw [if_pos h2]
    · show (s.bufIdx + 1) % 16 = 0 ∨ 0 ≤ s.bufIdx + 1 ∧ s.bufIdx + 1 < 16
      omega

theorem runO_add {σ α : Type} (nx : σ → Option (α × σ)) (a b : Nat) (s t : σ) (h : runO nx a s = some t) : runO nx (a + b) s = runO nx b t := by
  induction a generalizing s with
  | zero => simp only [runO, Option.some.injEq] at h; rw [h, Nat.zero_add]
  | succ a ih =>
    rw [show a + 1 + b = a + b + 1 by ring, runO]
    rw [runO] at h
    cases hn : nx s with
    | none => rw [hn] at h; exact absurd h (by simp)
    | some r => rw [hn] at h; exact ih r.2 h

theorem nthO_add {σ α : Type} (nx : σ → Option (α × σ)) (a b : Nat) (s t : σ) (h : runO nx a s = some t) : nthO nx (a + b) s = nthO nx b t := by
  rw [nthO, nthO, runO_add nx a b s t h]

/-- Sixteen draws from a block boundary. -/
theorem hc_block (s s' : Hc) (hb : s.bufIdx % 16 = 0) (e : hcExtract s = some s') (b : s'.bufIdx = 0) :
    runO hcNext32 16 s = some { s' with bufIdx := 16 } := by
  have first : hcNext32 s = some (s'.buffer 0, { s' with bufIdx := 1 }) := by
    rw [hcNext32, if_pos hb, e]
    show (if 0 ≤ s'.bufIdx ∧ s'.bufIdx < 16 then some (s'.buffer s'.bufIdx.toNat, { s' with bufIdx := s'.bufIdx + 1 }) else none) = _
    rw [b, if_pos (by decide)]; rfl
  have next : ∀ k : Nat, 0 < k → k < 16 → hcNext32 { s' with bufIdx := k } = some (s'.buffer k, { s' with bufIdx := (k + 1 : Nat) }) := by
    intro k h0 h1
    rw [hcNext32, if_neg (by show ¬ (k : Int) % 16 = 0; omega)]
    show (if 0 ≤ (k : Int) ∧ (k : Int) < 16 then some (s'.buffer (k : Int).toNat, { s' with bufIdx := (k : Int) + 1 }) else none) = _
    rw [if_pos (by omega)]; rfl
  have run : ∀ n k : Nat, 0 < k → k + n = 16 → runO hcNext32 n { s' with bufIdx := k } = some { s' with bufIdx := 16 } := by
    intro n
    induction n with
    | zero => intro k _ hk; rw [runO, show k = 16 by omega]; rfl
    | succ n ih =>
      intro k h0 hk
      rw [runO, next k h0 (by omega)]
      exact ih (k + 1) (by omega) (by omega)
  rw [runO, first]
  exact run 15 1 (by decide) rfl

theorem hcExtract_idx {s s' : Hc} (h : hcExtract s = some s') : s'.hcIdx = (s.hcIdx + 16) % 1024 ∧ s'.bufIdx = 0 := by
  simp only [hcExtract] at h
  split_ifs at h <;> (rw [Option.some.injEq] at h; subst h; exact ⟨rfl, rfl⟩)

theorem nthO_zero_none {s : Hc} (h : hcNext32 s = none) : nthO hcNext32 0 s = none := by
  rw [nthO, runO]; show (hcNext32 s).map Prod.fst = none; rw [h]; rfl

theorem hcNext_extract_none {s : Hc} (hb : s.bufIdx % 16 = 0) (h : hcExtract s = none) : hcNext32 s = none := by
  rw [hcNext32, if_pos hb, h]; rfl

/-- From a misaligned table position the generator reaches the end of `p` and writes past it. -/
theorem hc_misaligned (t : Nat) : ∀ s : Hc, s.bufIdx % 16 = 0 → 0 ≤ s.hcIdx → s.hcIdx < 1024 → s.hcIdx % 16 ≠ 0 →
    (s.hcIdx + 16 * t) % 1024 = 496 + s.hcIdx % 16 → ∃ n, nthO hcNext32 n s = none := by
  induction t with
  | zero =>
    intro s hb h0 h1 hm ht
    refine ⟨0, nthO_zero_none (hcNext_extract_none hb ?_)⟩
    simp only [hcExtract]
    rw [if_pos (by omega), if_neg (by omega)]
  | succ t ih =>
    intro s hb h0 h1 hm ht
    cases e : hcExtract s with
    | none => exact ⟨0, nthO_zero_none (hcNext_extract_none hb e)⟩
    | some s' =>
      obtain ⟨hi, hb'⟩ := hcExtract_idx e
      obtain ⟨n, hn⟩ := ih { s' with bufIdx := 16 } (show (16 : Int) % 16 = 0 by decide) (by show 0 ≤ s'.hcIdx; omega) (by show s'.hcIdx < 1024; omega)
        (by show s'.hcIdx % 16 ≠ 0; omega) (by show (s'.hcIdx + 16 * t) % 1024 = 496 + s'.hcIdx % 16; push_cast at ht; omega)
      exact ⟨16 + n, by rw [nthO_add hcNext32 16 n s _ (hc_block s s' hb e hb')]; exact hn⟩

/-- C13 for HC128: the exact condition under which no draw reads or writes outside the tables. The setter does not check
it. -/
theorem C13_hc128_partial (s : Hc) : (∀ n, (nthO hcNext32 n s).isSome) ↔ HcSafe s := by
  constructor
  · intro h
    by_contra hs
    have bad : ∃ n, nthO hcNext32 n s = none := by
      -- a bad buffer position fails at once
      by_cases hbuf : s.bufIdx % 16 = 0 ∨ 0 ≤ s.bufIdx ∧ s.bufIdx < 16
      · have hm : s.hcIdx % 16 ≠ 0 := fun e => hs ⟨e, hbuf⟩
        -- from a block boundary
        have aligned : ∀ u : Hc, u.bufIdx % 16 = 0 → u.hcIdx % 16 ≠ 0 → ∃ n, nthO hcNext32 n u = none := by
          intro u hb hm
          cases e : hcExtract u with
          | none => exact ⟨0, nthO_zero_none (hcNext_extract_none hb e)⟩
          | some s' =>
            obtain ⟨hi, hb'⟩ := hcExtract_idx e
            obtain ⟨n, hn⟩ := hc_misaligned ((496 + 1024 - (s'.hcIdx - s'.hcIdx % 16)) / 16).toNat { s' with bufIdx := 16 } (show (16 : Int) % 16 = 0 by decide)
              (by show 0 ≤ s'.hcIdx; omega) (by show s'.hcIdx < 1024; omega) (by show s'.hcIdx % 16 ≠ 0; omega)
              (by
                show (s'.hcIdx + 16 * (((496 + 1024 - (s'.hcIdx - s'.hcIdx % 16)) / 16).toNat : Int)) % 1024 = 496 + s'.hcIdx % 16
                rw [Int.toNat_of_nonneg (by omega)]; omega)
            exact ⟨16 + n, by rw [nthO_add hcNext32 16 n u _ (hc_block u s' hb e hb')]; exact hn⟩
        -- inside a block the remaining words come first
        have inside : ∀ (k : Nat) (u : Hc), u.hcIdx % 16 ≠ 0 → u.bufIdx + k = 16 → 0 < u.bufIdx → ∃ n, nthO hcNext32 n u = none := by
          intro k
          induction k with
          | zero => intro u hu hk _; exact aligned u (by omega) hu
          | succ k ih =>
            intro u hu hk h0
            have hu16 : u.bufIdx < 16 := by push_cast at hk; omega
            have e : hcNext32 u = some (u.buffer u.bufIdx.toNat, { u with bufIdx := u.bufIdx + 1 }) := by
              rw [hcNext32, if_neg (by omega)]
              show (if 0 ≤ u.bufIdx ∧ u.bufIdx < 16 then some (u.buffer u.bufIdx.toNat, _) else none) = _
              rw [if_pos ⟨by omega, hu16⟩]
            obtain ⟨n, hn⟩ := ih { u with bufIdx := u.bufIdx + 1 } hu (by show u.bufIdx + 1 + k = 16; push_cast at hk; omega)
              (by show 0 < u.bufIdx + 1; omega)
            refine ⟨1 + n, ?_⟩
            rw [nthO_add hcNext32 1 n u { u with bufIdx := u.bufIdx + 1 } (by rw [runO, e]; rfl)]
            exact hn
        by_cases hb : s.bufIdx % 16 = 0
        · exact aligned s hb hm
        · exact inside (16 - s.bufIdx).toNat s hm (by omega) (by omega)
      · refine ⟨0, nthO_zero_none ?_⟩
        rw [hcNext32, if_neg (by omega)]
        show (if 0 ≤ s.bufIdx ∧ s.bufIdx < 16 then some (s.buffer s.bufIdx.toNat, _) else none) = none
        rw [if_neg (by omega)]
    obtain ⟨n, hn⟩ := bad
    have := h n
    rw [hn] at this
    exact absurd this (by decide)
  · intro h n
    have run : ∀ (n : Nat) (s : Hc), HcSafe s → ∃ t, runO hcNext32 n s = some t ∧ HcSafe t := by
      intro n
      induction n with
      | zero => intro s h; exact ⟨s, rfl, h⟩
      | succ n ih =>
        intro s h
        obtain ⟨r, e, hr⟩ := hcSafe_step s h
        obtain ⟨t, ht, hst⟩ := ih r.2 hr
        exact ⟨t, by rw [runO, e]; exact ht, hst⟩
    obtain ⟨t, ht, hst⟩ := run n s h
    obtain ⟨r, e, _⟩ := hcSafe_step t hst
    rw [nthO, ht]
    show ((hcNext32 t).map Prod.fst).isSome
    rw [e]; rfl

example : HcSafe ⟨fun _ => 1, fun _ => 2, fun _ => 3, 496, 5⟩ := by unfold HcSafe; decide
example : ¬ HcSafe ⟨fun _ => 1, fun _ => 2, fun _ => 3, 500, 5⟩ := by unfold HcSafe; decide

/-- C13 fails for HC128: a `buffer_idx` outside the buffer is read at once, and a `hc_idx` that is no multiple of 16
makes a later draw write past a table. -/
theorem not_C13_hc128 (p q b : Nat → U32) :
    nthO hcNext32 0 ⟨p, q, b, 0, 17⟩ = none ∧ nthO hcNext32 0 ⟨p, q, b, 0, -1⟩ = none ∧
      ∃ n, nthO hcNext32 n ⟨p, q, b, 1, 0⟩ = none := by
  refine ⟨rfl, rfl, ?_⟩
  by_contra h
  have h' : ∀ n, (nthO hcNext32 n ⟨p, q, b, 1, 0⟩).isSome := fun n =>
    Option.ne_none_iff_isSome.mp fun e => h ⟨n, e⟩
  have := ((C13_hc128_partial _).mp h').1
  revert this
  show (1 : Int) % 16 = 0 → False
  decide

/-! ### C14 -/

/-- C14 for HC128 (partial): reseeding at a block boundary gives the stream of a new generator. Missing: other
positions, where it is wrong (`not_C14_hc128`). -/
theorem C14_hc128_partial (seed : Nat → U32) (s : Hc) (hb : s.bufIdx % 16 = 0) (n : Nat) :
    nthO hcNext32 n (hcSeed seed s) = nthO hcNext32 n (hcSeed seed hcZero) := by
  rw [C67_hc128_reference, seed_stream seed s hb]

example : (hcZero.bufIdx) % 16 = 0 := by decide

/-- C14 fails for HC128: after `m` draws with the first seed, `m` no multiple of 16, reseeding with any other seed leaves
the rest of the old block in the buffer: the next draws are still words `m, m+1, …` of the old stream, and only then the
new stream begins. -/
theorem not_C14_hc128 (seed seed' : Nat → U32) (m : Nat) (hm : m % 16 ≠ 0) :
    ∃ t, runO hcNext32 m (hcSeed seed hcZero) = some t ∧
      (∀ j < 16 - m % 16, nthO hcNext32 j (hcSeed seed' t) = nthO hcNext32 (m + j) (hcSeed seed hcZero)) ∧
      ∀ n, nthO hcNext32 (16 - m % 16 + n) (hcSeed seed' t) = nthO hcNext32 n (hcSeed seed' hcZero) := by
  have h0 := seed_at seed hcZero (by decide)
  obtain ⟨_, _, h3⟩ := seed_tables seed hcZero
  have gen : ∀ n s p, At (refInit seed fun i => seed (4 + i)) s p →
      ∃ t, runO hcNext32 n s = some t ∧ At (refInit seed fun i => seed (4 + i)) t (p + n) := by
    generalize refInit seed (fun i => seed (4 + i)) = r at h3
    intro n
    induction n with
    | zero => intro s p h; exact ⟨s, rfl, h⟩
    | succ n ih =>
      intro s p h
      obtain ⟨s', e, h'⟩ := at_step _ (by rw [h3]; decide) (by rw [h3]) s p h
      obtain ⟨t, ht, hat⟩ := ih s' _ h'
      exact ⟨t, by rw [runO, e]; exact ht, by rwa [show p + (n + 1) = p + 1 + n by ring]⟩
  obtain ⟨t, ht, b, hp, hq, hi, ⟨hb, hn⟩ | ⟨k, hk0, hk, hb, hn, hbuf⟩⟩ := gen m _ _ h0
  · omega
  have hkm : k = m % 16 := by omega
  -- the position in the buffer survives
  have go : ∀ j, j ≤ 16 - k → runO hcNext32 j (hcSeed seed' t) = some { hcSeed seed' t with bufIdx := (k + j : Nat) } := by
    intro j
    induction j with
    | zero => intro _; rw [runO, Nat.add_zero, ← hb, ← seed_setBuf]
    | succ j ih =>
      intro hj
      rw [runO_add hcNext32 j 1 _ _ (ih (by omega)), runO]
      have : hcNext32 { hcSeed seed' t with bufIdx := (k + j : Nat) } =
          some (t.buffer (k + j), { hcSeed seed' t with bufIdx := (k + (j + 1) : Nat) }) := by
        rw [hcNext32, if_neg (by show ¬ ((k + j : Nat) : Int) % 16 = 0; omega)]
        show (if 0 ≤ ((k + j : Nat) : Int) ∧ ((k + j : Nat) : Int) < 16 then
          some ((hcSeed seed' t).buffer ((k + j : Nat) : Int).toNat, { hcSeed seed' t with bufIdx := ((k + j : Nat) : Int) + 1 }) else none) = _
        rw [if_pos (by omega), seed_buffer]; rfl
      rw [this]; rfl
  refine ⟨t, ht, fun j hj => ?_, fun n => ?_⟩
  · rw [← hkm] at hj
    rw [C67_hc128_reference, nthO, go j (by omega)]
    show (hcNext32 { hcSeed seed' t with bufIdx := (k + j : Nat) }).map Prod.fst = _
    rw [hcNext32, if_neg (by show ¬ ((k + j : Nat) : Int) % 16 = 0; omega)]
    show ((if 0 ≤ ((k + j : Nat) : Int) ∧ ((k + j : Nat) : Int) < 16 then
      some ((hcSeed seed' t).buffer ((k + j : Nat) : Int).toNat, _) else none) : Option (U32 × Hc)).map Prod.fst = _
    rw [if_pos (by omega), Int.toNat_natCast, seed_buffer, hbuf (k + j) (by omega)]
    show some _ = some _
    rw [show 16 * (b - 1) + (k + j) = m + j by omega]
  · rw [← hkm, nthO_add hcNext32 (16 - k) n _ _ (go _ (le_refl _)), show k + (16 - k) = 16 by omega]
    rw [← seed_setBuf]
    exact C14_hc128_partial seed' { t with bufIdx := 16 } (show (16 : Int) % 16 = 0 by decide) n

/-- The same with equal seeds and one draw: the second word comes again first. -/
example (seed : Nat → U32) : ∃ t, runO hcNext32 1 (hcSeed seed hcZero) = some t ∧
    nthO hcNext32 0 (hcSeed seed t) = nthO hcNext32 1 (hcSeed seed hcZero) := by
  obtain ⟨t, h, h', _⟩ := not_C14_hc128 seed seed 1 (by decide)
  exact ⟨t, h, h' 0 (by decide)⟩

end Verif
