import Verif.Proof.CtrStream

/-! Properties C19 (Philox `advance`), C20 (ThreeFry `advance`), C21 (blocks of both never repeat),
C60 (their `jumped` / `advance(counter=True)`). `N` is 2 or 4 words, `w` is 32 or 64 bits (`Variant`). -/

namespace Verif

/-- One draw from a Philox generator with `N` words (philox.h:409-428). -/
abbrev philoxNext {w : Nat} (N : Nat) : CtrGen w → Option (BitVec w × CtrGen w) := cmNext N philox
/-- One draw from a ThreeFry generator with `N` words (threefry.h:783-802). -/
abbrev threefryNext {w : Nat} (N : Nat) : CtrGen w → Option (BitVec w × CtrGen w) := cmNext N threefry
/-- Philox instances as a user can build them: keys have `N/2` words. -/
abbrev PhiloxReach {w : Nat} (N : Nat) : CtrGen w → Prop := CmReach N (N / 2) philox
/-- ThreeFry instances: keys have `N` words. -/
abbrev ThreefryReach {w : Nat} (N : Nat) : CtrGen w → Prop := CmReach N N threefry

section Generic
variable {w N kN : Nat} (V : Variant N w) (blk : List (BitVec w) → List (BitVec w) → List (BitVec w))
include V

theorem cm_total {s : CtrGen w} (h : CmReach N kN blk s) (n : Nat) : (nthO (cmNext N blk) n s).isSome := by
  obtain ⟨⟨p, hp⟩, -⟩ := cmReach_at V blk h
  rw [cm_nth V blk _ s p hp]; rfl

/-- What `advance(delta)` does to the draws, for every `delta ≠ 0`. -/
theorem cm_advance_exact {s : CtrGen w} (h : CmReach N kN blk s) (hpos : s.pos ≤ N) (delta : Int) (h0 : delta ≠ 0) :
    ∃ s', cmPyAdvance N blk s delta false = .ok s' ∧ s'.has = false ∧
      ∀ n, nthO (cmNext N blk) n s' =
        nthO (cmNext N blk) ((delta % 2 ^ (N * w + N / 2)).toNat % 2 ^ (w * N) + n) s := by
  obtain ⟨⟨p, hp⟩, -⟩ := cmReach_at V blk h
  obtain ⟨ws, h1, h2, h3⟩ := cmPyAdvance_draws V blk s delta h0
  have h4 := cmAdvance_at V blk s.key s p hp hpos (ws.map (BitVec.ofNat w)) (by rw [List.length_map, h1])
  refine ⟨_, h3, rfl, fun n => ?_⟩
  have h5 : CmAt N blk s.key { cmAdvance N blk s (ws.map (BitVec.ofNat w)) true with uinteger := 0, has := false }
      (p + wval (ws.map (BitVec.ofNat w)) % 2 ^ (w * N)) := h4
  rw [cm_nth V blk s.key _ _ h5, cm_nth V blk s.key s p hp, h2, Nat.add_assoc]

theorem pow_period : (2 : Nat) ^ (N * w + N / 2) = cmPeriod N w := by
  rw [cmPeriod, Nat.pow_add, Nat.mul_comm w N]
  rcases V.hN with rfl | rfl
  · ring
  · norm_num; ring

theorem cm_advance_small {s : CtrGen w} (h : CmReach N kN blk s) (hpos : s.pos ≤ N) (delta : Nat) (hd : delta < 2 ^ (w * N)) :
    ∃ s', cmPyAdvance N blk s delta false = .ok s' ∧ ∀ n, nthO (cmNext N blk) n s' = nthO (cmNext N blk) (delta + n) s := by
  by_cases h0 : delta = 0
  · subst h0
    exact ⟨s, by rw [cmPyAdvance, Nat.cast_zero, if_pos rfl], fun n => by rw [Nat.zero_add]⟩
  · obtain ⟨s', h1, -, h2⟩ := cm_advance_exact V blk h hpos delta (by exact_mod_cast h0)
    refine ⟨s', h1, fun n => ?_⟩
    have hle : delta < 2 ^ (N * w + N / 2) := lt_of_lt_of_le hd (Nat.pow_le_pow_right (by decide) (by rw [Nat.mul_comm]; omega))
    have e : ((delta : Int) % 2 ^ (N * w + N / 2)).toNat = delta := by
      rw [Int.emod_eq_of_lt (by positivity) (by exact_mod_cast hle), Int.toNat_natCast]
    rw [h2 n, e, Nat.mod_eq_of_lt hd]

/-- Large and negative `delta` give a different stream from the intended one. -/
theorem cm_advance_wrong {s : CtrGen w} (h : CmReach N kN blk s) (hb : PermN N (fun c => blk c s.key)) (hpos : s.pos ≤ N)
    (delta : Int) (hd : 2 ^ (w * N) ≤ delta % (N * 2 ^ (w * N))) :
    ∃ s', cmPyAdvance N blk s delta false = .ok s' ∧
      ∃ n, nthO (cmNext N blk) n s' ≠ nthO (cmNext N blk) ((delta % (N * 2 ^ (w * N))).toNat + n) s := by
  have h0 : delta ≠ 0 := by
    rintro rfl
    rw [Int.zero_emod] at hd
    have : (0 : Int) < 2 ^ (w * N) := by positivity
    omega
  obtain ⟨s', h1, -, h2⟩ := cm_advance_exact V blk h hpos delta h0
  refine ⟨s', h1, ?_⟩
  by_contra hne
  push Not at hne
  have hP : ((2 : Int) ^ (N * w + N / 2)) = N * 2 ^ (w * N) := by
    have := pow_period V
    rw [cmPeriod] at this
    exact_mod_cast this
  obtain ⟨D, hD⟩ : ∃ D : Nat, delta % (N * 2 ^ (w * N)) = D :=
    ⟨_, (Int.toNat_of_nonneg (Int.emod_nonneg _ (by have := V.N_pos; positivity))).symm⟩
  have hDlt : D < N * 2 ^ (w * N) := by
    have := Int.emod_lt_of_pos delta (b := N * 2 ^ (w * N)) (by have := V.N_pos; positivity)
    rw [hD] at this; exact_mod_cast this
  have hDge : 2 ^ (w * N) ≤ D := by rw [hD] at hd; exact_mod_cast hd
  obtain ⟨⟨p, hp⟩, -⟩ := cmReach_at V blk h
  have h3 : ∀ n, cmWord N blk s.key (p + D % 2 ^ (w * N) + n) = cmWord N blk s.key (p + D + n) := by
    intro n
    have := (h2 n).symm.trans (hne n)
    rw [hP, hD, Int.toNat_natCast, cm_nth V blk _ s p hp, cm_nth V blk _ s p hp, Option.some.injEq] at this
    rwa [← Nat.add_assoc, ← Nat.add_assoc] at this
  have h4 := Nat.ModEq.add_left_cancel' p (cmWord_stream V blk hb _ _ h3)
  have h5 : D % 2 ^ (w * N) % cmPeriod N w = D % cmPeriod N w := h4
  have hlt := Nat.mod_lt D (Nat.two_pow_pos (w * N))
  rw [cmPeriod, Nat.mod_eq_of_lt hDlt, Nat.mod_eq_of_lt (by omega)] at h5
  omega

/-- The state after `advance(delta, counter=True)`. -/
theorem cm_advance_counter_of {s : CtrGen w} (hl : s.ctr.length = N) (delta : Int) (h0 : delta ≠ 0) :
    cmPyAdvance N blk s delta true =
      .ok (cmReset { s with ctr := toWords w N (wval s.ctr + (delta % 2 ^ (w * N - N / 2)).toNat) }) := by
  obtain ⟨ws, h1, h2, h3⟩ := step_words V (delta * N)
  have hNpow : N * 2 ^ (w * N - N / 2) = 2 ^ (w * N) := by
    rcases V.hN with rfl | rfl <;> rcases V.hw with rfl | rfl <;> norm_num
  have hP : (2 : Int) ^ (N * w + N / 2) = 2 ^ (w * N) * N := by
    have := pow_period V
    rw [cmPeriod] at this
    rw [mul_comm (2 ^ (w * N) : Int)]; exact_mod_cast this
  -- the number of blocks
  have hD : wval (ws.map (BitVec.ofNat w)) % 2 ^ (w * N) = N * (delta % 2 ^ (w * N - N / 2)).toNat := by
    rw [h3, hP, mul_comm delta, mul_comm ((2 : Int) ^ (w * N)), Int.mul_emod_mul_of_pos _ _ (by exact_mod_cast V.N_pos), mul_comm (N : Int)]
    obtain ⟨E, hE⟩ : ∃ E : Nat, delta % 2 ^ (w * N) = E := ⟨_, (Int.toNat_of_nonneg (Int.emod_nonneg _ (by positivity))).symm⟩
    have hd : (delta % 2 ^ (w * N - N / 2)).toNat = E % 2 ^ (w * N - N / 2) := by
      have : delta % 2 ^ (w * N - N / 2) = ((E % 2 ^ (w * N - N / 2) : Nat) : Int) := by
        push_cast
        rw [← hE, Int.emod_emod_of_dvd]
        exact pow_dvd_pow 2 (by omega)
      rw [this, Int.toNat_natCast]
    rw [hd, hE, show ((E : Int) * N).toNat = N * E by rw [mul_comm]; exact_mod_cast Int.toNat_natCast _, ← hNpow,
      Nat.mul_mod_mul_left]
  have hstep : (ws.map (BitVec.ofNat w)).length = N + 1 := by rw [List.length_map, h2]
  have hctr : (cmAdvance N blk s (ws.map (BitVec.ofNat w)) false).ctr =
      toWords w N (wval s.ctr + (delta % 2 ^ (w * N - N / 2)).toNat) := by
    have e1 : (cmAdvance N blk s (ws.map (BitVec.ofNat w)) false).ctr = cmAdvLoop N (ws.map (BitVec.ofNat w)) s.ctr 0 := by
      simp [cmAdvance]
    have hz : (0 : BitVec w).toNat ≤ 1 := by simp
    have e2 := wval_cmAdvLoop V (ws.map (BitVec.ofNat w)) s.ctr 0 hz (by rw [hl, hstep]; omega)
    rw [hl, wval_take _ _ (by rw [hstep]; omega), hD, Nat.mul_div_cancel_left _ V.N_pos] at e2
    rw [e1]
    apply wval_inj (by rw [cmAdvLoop_length, hl, toWords_length])
    rw [e2, wval_toWords]
    simp
  rw [cmPyAdvance, if_neg h0]
  simp only [if_true, Bool.not_true, h1, Except.ok.injEq]
  rw [cmReset, cmReset, hctr]
  have hbuf : ∀ i, (if i < 4 then (0 : BitVec w) else (cmAdvance N blk s (ws.map (BitVec.ofNat w)) false).buf i) =
      if i < 4 then 0 else s.buf i := by
    intro i
    split
    · rfl
    · have : ¬ i < N := by rcases V.hN with h | h <;> omega
      simp [cmAdvance, this]
  simp only [hbuf]
  rfl

theorem cm_advance_counter {s : CtrGen w} (h : CmReach N kN blk s) (delta : Int) (h0 : delta ≠ 0) :
    cmPyAdvance N blk s delta true =
      .ok (cmReset { s with ctr := toWords w N (wval s.ctr + (delta % 2 ^ (w * N - N / 2)).toNat) }) := by
  obtain ⟨⟨p, hp⟩, -⟩ := cmReach_at V blk h
  exact cm_advance_counter_of V blk hp.1 delta h0

/-- `advance(delta, counter=True)` for `0 < delta < 2^(w N - N/2)`: the rest of the current block is dropped,
then exactly `delta` blocks are skipped. -/
theorem cm_counter_draws {s : CtrGen w} (h : CmReach N kN blk s) (delta : Nat) (h0 : delta ≠ 0) (hd : delta < 2 ^ (w * N - N / 2)) :
    ∃ s', cmPyAdvance N blk s delta true = .ok s' ∧ ∀ n, nthO (cmNext N blk) n s' =
      nthO (cmNext N blk) (N - min s.pos.toNat N + N * delta + n) s := by
  refine ⟨_, cm_advance_counter V blk h delta (by exact_mod_cast h0), fun n => ?_⟩
  obtain ⟨⟨p, hp⟩, -⟩ := cmReach_at V blk h
  obtain ⟨u, hu⟩ : ∃ u : CtrGen w, u = { s with ctr := toWords w N (wval s.ctr + ((delta : Int) % 2 ^ (w * N - N / 2)).toNat) } := ⟨_, rfl⟩
  have hc : u.ctr = toWords w N (wval s.ctr + delta) := by
    have e : ((delta : Int) % 2 ^ (w * N - N / 2)).toNat = delta := by
      rw [Int.emod_eq_of_lt (by positivity) (by exact_mod_cast hd), Int.toNat_natCast]
    rw [hu]
    show toWords w N (wval s.ctr + _) = _
    rw [e]
  have hk : u.key = s.key := by rw [hu]
  rw [← hu, cm_nth V blk u.key _ _ (cmReset_at V blk u (by rw [hc, toWords_length])), cm_nth V blk s.key s p hp, hk,
    Option.some.injEq]
  apply cmWord_congr
  obtain ⟨-, -, pos, h3, -, h4⟩ := hp
  have h5 : s.pos.toNat = pos := by omega
  rw [h5]
  have e1 : N * (wval u.ctr + 1) ≡ N * (wval s.ctr + delta + 1) [MOD cmPeriod N w] := by
    rw [hc, wval_toWords]
    exact Nat.ModEq.mul_left' N ((Nat.mod_modEq _ _).add_right 1)
  refine (e1.add_right n).trans ?_
  rw [show p + (N - min pos N + N * delta + n) = p + (N - min pos N) + (N * delta + n) by ring]
  refine Nat.ModEq.trans ?_ ((h4.symm.add_right (N - min pos N)).add_right (N * delta + n))
  rw [show N * wval s.ctr + min pos N + (N - min pos N) = N * wval s.ctr + N by omega,
    show N * (wval s.ctr + delta + 1) + n = N * wval s.ctr + N + (N * delta + n) by ring]

/-- The stream of a freshly seeded generator. -/
theorem cm_blocks_distinct (old : CtrGen w) (key counter : Nat) (hb : PermN N (fun c => blk c (toWords w kN key))) (i j : Nat) :
    (∀ n < N, nthO (cmNext N blk) (N * i + n) (cmSeed N kN old key counter) =
      nthO (cmNext N blk) (N * j + n) (cmSeed N kN old key counter)) ↔ i ≡ j [MOD 2 ^ (w * N)] := by
  have h := cmSeed_at (kN := kN) V blk old key counter
  simp only [cm_nth V blk _ _ _ h, Option.some.injEq]
  constructor
  · intro h1
    have := cmWord_blocks V blk hb (counter + 1 + i) (counter + 1 + j) (fun n hn => by
      rw [show N * (counter + 1 + i) + n = N * (counter + 1) + (N * i + n) by ring,
        show N * (counter + 1 + j) + n = N * (counter + 1) + (N * j + n) by ring, h1 n hn])
    exact Nat.ModEq.add_left_cancel' _ this
  · intro h1 n _
    apply cmWord_congr
    exact ((Nat.ModEq.mul_left' N h1).add_right n).add_left _

theorem cm_exact_period {s : CtrGen w} (h : CmReach N kN blk s) (hb : PermN N (fun c => blk c s.key)) (d : Nat) :
    (∀ n, nthO (cmNext N blk) (n + d) s = nthO (cmNext N blk) n s) ↔ N * 2 ^ (w * N) ∣ d := by
  obtain ⟨⟨p, hp⟩, -⟩ := cmReach_at V blk h
  simp only [cm_nth V blk _ _ _ hp, Option.some.injEq]
  constructor
  · intro h1
    have := cmWord_stream V blk hb (p + d) p (fun n => by rw [← h1 n]; congr 1; ring)
    have h2 : d ≡ 0 [MOD cmPeriod N w] := Nat.ModEq.add_left_cancel' p this
    exact Nat.modEq_zero_iff_dvd.mp h2
  · intro h1 n
    apply cmWord_congr
    have h2 : d ≡ 0 [MOD cmPeriod N w] := Nat.modEq_zero_iff_dvd.mpr h1
    exact (h2.add_left n).add_left p

end Generic

/-- A freshly seeded two-word generator: `advance(2k)` lands one block too early. -/
theorem cm_fresh2_wrong {w kN : Nat} (V : Variant 2 w) (blk : List (BitVec w) → List (BitVec w) → List (BitVec w))
    (old : CtrGen w) (key counter : Nat) (hb : PermN 2 (fun c => blk c (toWords w kN key))) (k : Nat) (hk : 0 < k) (hlt : 2 * k < 2 ^ (w * 2)) :
    ∃ s', cmPyAdvance 2 blk (cmSeed 2 kN old key counter) (2 * k : Nat) false = .ok s' ∧
      (∀ n, nthO (cmNext 2 blk) n s' = nthO (cmNext 2 blk) (2 * k - 2 + n) (cmSeed 2 kN old key counter)) ∧
      ∃ n < 2, nthO (cmNext 2 blk) n s' ≠ nthO (cmNext 2 blk) (2 * k + n) (cmSeed 2 kN old key counter) := by
  obtain ⟨s, hs⟩ : ∃ s, s = cmSeed 2 kN old key counter := ⟨_, rfl⟩
  have hat := cmSeed_at (kN := kN) V blk old key counter
  rw [← hs] at hat ⊢
  have hpos : s.pos = 4 := by rw [hs]; rfl
  have hctr : s.ctr = toWords w 2 counter := by rw [hs]; rfl
  have hkey : s.key = toWords w kN key := by rw [hs]; rfl
  have hl : s.ctr.length = 2 := by rw [hctr, toWords_length]
  obtain ⟨ws, h1, h2, h3⟩ := cmPyAdvance_draws V blk s (2 * k : Nat) (by omega)
  have hv : wval (ws.map (BitVec.ofNat w)) = 2 * k := by
    have hle : 2 * k < 2 ^ (2 * w + 1) := lt_of_lt_of_le hlt (Nat.pow_le_pow_right (by decide) (by omega))
    rw [h2, Int.emod_eq_of_lt (by positivity) (by exact_mod_cast hle), Int.toNat_natCast]
  have hstep : (ws.map (BitVec.ofNat w)).length = 3 := by rw [List.length_map, h1]
  obtain ⟨st, hst⟩ : ∃ st, st = ws.map (BitVec.ofNat w) := ⟨_, rfl⟩
  rw [← hst] at hv hstep h3
  have hrem : (st.headD 0 % BitVec.ofNat w 2).toNat = 0 := by
    match st, hstep, hv with
    | y :: ys, _, hv =>
      rw [List.headD_cons, BitVec.toNat_umod, ofNat_N V]
      have := wval_mod_N V y ys
      rw [hv] at this
      omega
  have hadv : cmAdvance 2 blk s st true = { s with
      ctr := cmAdvLoop 2 st s.ctr 0
      pos := 0
      buf := fun i => if i < 2 then (blk (cmAdvLoop 2 st s.ctr 0) s.key).getD i 0 else s.buf i } := by
    simp only [cmAdvance, hrem, hpos]
    rfl
  have hz : (0 : BitVec w).toNat ≤ 1 := by simp
  have hval := wval_cmAdvLoop V st s.ctr 0 hz (by omega)
  rw [hl, wval_take _ _ (by omega), hv, Nat.mod_eq_of_lt hlt, hctr, wval_toWords] at hval
  have hval' : wval (cmAdvLoop 2 st s.ctr 0) ≡ counter + k [MOD 2 ^ (w * 2)] := by
    rw [hctr, hval]
    refine (Nat.mod_modEq _ _).trans ?_
    rw [show 2 * k / 2 = k by omega, show (0 : BitVec w).toNat = 0 by simp, Nat.add_zero]
    exact (Nat.mod_modEq _ _).add_right k
  have hat' : CmAt 2 blk (toWords w kN key) { cmAdvance 2 blk s st true with uinteger := 0, has := false } (2 * (counter + k)) := by
    rw [hadv]
    refine ⟨by rw [cmAdvLoop_length, hl], hkey, 0, rfl, ?_, ?_⟩
    · intro j _ hj
      show (if j < 2 then _ else _) = _
      rw [if_pos hj, hkey]
    · exact (Nat.ModEq.mul_left' 2 hval').symm
  refine ⟨_, h3, fun n => ?_, ?_⟩
  · rw [cm_nth V blk _ _ _ hat', cm_nth V blk _ _ _ hat]
    congr 2; omega
  · by_contra hne
    push Not at hne
    have h4 : ∀ j < 2, cmWord 2 blk (toWords w kN key) (2 * (counter + k) + j) = cmWord 2 blk (toWords w kN key) (2 * (counter + k + 1) + j) := by
      intro j hj
      have := hne j hj
      rw [cm_nth V blk _ _ _ hat', cm_nth V blk _ _ _ hat, Option.some.injEq] at this
      rw [this]; congr 1; ring
    have h5 := cmWord_blocks V blk hb _ _ h4
    have h6 : 0 ≡ 1 [MOD 2 ^ (w * 2)] := Nat.ModEq.add_left_cancel' (counter + k) h5
    have h7 : 1 < 2 ^ (w * 2) := Nat.one_lt_two_pow (by have := V.w_pos; omega)
    have h8 : 0 % 2 ^ (w * 2) = 1 % 2 ^ (w * 2) := h6
    rw [Nat.mod_eq_of_lt h7, Nat.zero_mod] at h8
    omega

/-! ## C21: blocks never repeat -/

/-- C21: Philox is a bijection of the counter, for every key, in all four variants. -/
theorem C21_philox_injective {N w : Nat} (V : Variant N w) (key c c' : List (BitVec w)) (hk : key.length = N / 2)
    (hc : c.length = N) (hc' : c'.length = N) (h : philox c key = philox c' key) : c = c' :=
  (philox_perm V key hk).2 c c' hc hc' h

example : ([1#32, 2#32].length = 2) ∧ ([7#32].length = 2 / 2) := by decide

/-- C21: ThreeFry is a bijection of the counter, for every key, in all four variants. -/
theorem C21_threefry_injective {N w : Nat} (V : Variant N w) (key c c' : List (BitVec w))
    (hc : c.length = N) (hc' : c'.length = N) (h : threefry c key = threefry c' key) : c = c' :=
  (threefry_perm V key).2 c c' hc hc' h

/-- C21: the `i`-th and `j`-th blocks drawn from a freshly seeded Philox generator are equal only if `i` and `j`
agree modulo `2^(w N)`. -/
theorem C21_philox_blocks {N w : Nat} (V : Variant N w) (old : CtrGen w) (key counter i j : Nat) :
    (∀ n < N, nthO (philoxNext N) (N * i + n) (cmSeed N (N / 2) old key counter) =
      nthO (philoxNext N) (N * j + n) (cmSeed N (N / 2) old key counter)) ↔ i ≡ j [MOD 2 ^ (w * N)] :=
  cm_blocks_distinct V philox old key counter (philox_perm V _ (toWords_length _ _ _)) i j

/-- C21: the same for ThreeFry. -/
theorem C21_threefry_blocks {N w : Nat} (V : Variant N w) (old : CtrGen w) (key counter i j : Nat) :
    (∀ n < N, nthO (threefryNext N) (N * i + n) (cmSeed N N old key counter) =
      nthO (threefryNext N) (N * j + n) (cmSeed N N old key counter)) ↔ i ≡ j [MOD 2 ^ (w * N)] :=
  cm_blocks_distinct V threefry old key counter (threefry_perm V _) i j

/-- C21: the stream of every reachable Philox generator has exact period `N * 2^(w N)` draws. -/
theorem C21_philox_period {N w : Nat} (V : Variant N w) {s : CtrGen w} (h : PhiloxReach N s) (d : Nat) :
    (∀ n, nthO (philoxNext N) (n + d) s = nthO (philoxNext N) n s) ↔ N * 2 ^ (w * N) ∣ d :=
  cm_exact_period V philox h (philox_perm V _ (cmReach_at V philox h).2.1) d

/-- C21: the same for ThreeFry. -/
theorem C21_threefry_period {N w : Nat} (V : Variant N w) {s : CtrGen w} (h : ThreefryReach N s) (d : Nat) :
    (∀ n, nthO (threefryNext N) (n + d) s = nthO (threefryNext N) n s) ↔ N * 2 ^ (w * N) ∣ d :=
  cm_exact_period V threefry h (threefry_perm V _) d

/-- No Philox draw ever reads outside the buffer, from any reachable state. -/
theorem C21_philox_total {N w : Nat} (V : Variant N w) {s : CtrGen w} (h : PhiloxReach N s) (n : Nat) :
    (nthO (philoxNext N) n s).isSome := cm_total V philox h n

/-- The same for ThreeFry. -/
theorem C21_threefry_total {N w : Nat} (V : Variant N w) {s : CtrGen w} (h : ThreefryReach N s) (n : Nat) :
    (nthO (threefryNext N) n s).isSome := cm_total V threefry h n

/-- A state to try the theorems on: a fresh Philox 4x64 generator. -/
example (old : CtrGen 64) : PhiloxReach 4 (cmSeed 4 2 old 12345 (2 ^ 256 - 1)) := .seed old _ _
example : Variant 4 64 := ⟨.inr rfl, .inr rfl⟩
example : Variant 2 32 := ⟨.inl rfl, .inl rfl⟩

/-! ## C19: Philox advance -/

/-- C19 (partial): for `0 ≤ delta < 2^(w N)`, from any reachable state whose buffer position is at most `N`,
`advance(delta)` followed by draws is the same as `delta` discarded draws followed by draws. Missing: negative
and larger `delta`, and two-word generators that have not drawn yet; the code is wrong there, see
`not_C19_philox_large`, `not_C19_philox_fresh`. -/
theorem C19_philox_advance_partial {N w : Nat} (V : Variant N w) {s : CtrGen w} (h : PhiloxReach N s) (hpos : s.pos ≤ N)
    (delta : Nat) (hd : delta < 2 ^ (w * N)) :
    ∃ s', cmPyAdvance N philox s delta false = .ok s' ∧ ∀ n, nthO (philoxNext N) n s' = nthO (philoxNext N) (delta + n) s :=
  cm_advance_small V philox h hpos delta hd

/-- C19 (partial): the four-word variants need no condition on the buffer position. -/
theorem C19_philox4_advance_partial {w : Nat} (V : Variant 4 w) {s : CtrGen w} (h : PhiloxReach 4 s)
    (delta : Nat) (hd : delta < 2 ^ (w * 4)) :
    ∃ s', cmPyAdvance 4 philox s delta false = .ok s' ∧ ∀ n, nthO (philoxNext 4) n s' = nthO (philoxNext 4) (delta + n) s :=
  cm_advance_small V philox h (cmReach_at V philox h).2.2.2 delta hd

/-- What `advance(delta)` does for every `delta ≠ 0`: it skips `(delta mod 2^(N w + N/2)) mod 2^(w N)` draws and
forgets the cached 32-bit half. -/
theorem C19_philox_advance_exact {N w : Nat} (V : Variant N w) {s : CtrGen w} (h : PhiloxReach N s) (hpos : s.pos ≤ N)
    (delta : Int) (h0 : delta ≠ 0) :
    ∃ s', cmPyAdvance N philox s delta false = .ok s' ∧ s'.has = false ∧
      ∀ n, nthO (philoxNext N) n s' = nthO (philoxNext N) ((delta % 2 ^ (N * w + N / 2)).toNat % 2 ^ (w * N) + n) s :=
  cm_advance_exact V philox h hpos delta h0

/-- The claim of C19 is false for every `delta` whose residue modulo the period is `2^(w N)` or more, in
particular for every small negative one: the draws that follow differ from those after
`delta mod period` discarded draws. (The low bits of `step[N]` are never added: philox.c:17-29.) -/
theorem not_C19_philox_large {N w : Nat} (V : Variant N w) {s : CtrGen w} (h : PhiloxReach N s) (hpos : s.pos ≤ N)
    (delta : Int) (hd : 2 ^ (w * N) ≤ delta % (N * 2 ^ (w * N))) :
    ∃ s', cmPyAdvance N philox s delta false = .ok s' ∧
      ∃ n, nthO (philoxNext N) n s' ≠ nthO (philoxNext N) ((delta % (N * 2 ^ (w * N))).toNat + n) s :=
  cm_advance_wrong V philox h (philox_perm V _ (cmReach_at V philox h).2.1) hpos delta hd

example : (2 : Int) ^ (64 * 4) ≤ (-1) % ((4 : Nat) * 2 ^ (64 * 4)) := by norm_num

/-- The claim of C19 is false for a freshly seeded two-word generator and every even `delta`: `buffer_pos` is
4 rather than `N`, so the carry is missed and the stream lands two draws early. -/
theorem not_C19_philox_fresh {w : Nat} (V : Variant 2 w) (old : CtrGen w) (key counter k : Nat) (hk : 0 < k)
    (hlt : 2 * k < 2 ^ (w * 2)) :
    ∃ s', cmPyAdvance 2 philox (cmSeed 2 1 old key counter) (2 * k : Nat) false = .ok s' ∧
      (∀ n, nthO (philoxNext 2) n s' = nthO (philoxNext 2) (2 * k - 2 + n) (cmSeed 2 1 old key counter)) ∧
      ∃ n < 2, nthO (philoxNext 2) n s' ≠ nthO (philoxNext 2) (2 * k + n) (cmSeed 2 1 old key counter) :=
  cm_fresh2_wrong V philox old key counter (philox_perm V _ (toWords_length _ _ _)) k hk hlt

/-! ## C20: ThreeFry advance -/

/-- C20 (partial): as `C19_philox_advance_partial`. -/
theorem C20_threefry_advance_partial {N w : Nat} (V : Variant N w) {s : CtrGen w} (h : ThreefryReach N s) (hpos : s.pos ≤ N)
    (delta : Nat) (hd : delta < 2 ^ (w * N)) :
    ∃ s', cmPyAdvance N threefry s delta false = .ok s' ∧
      ∀ n, nthO (threefryNext N) n s' = nthO (threefryNext N) (delta + n) s :=
  cm_advance_small V threefry h hpos delta hd

/-- C20 (partial): the four-word variants need no condition on the buffer position. -/
theorem C20_threefry4_advance_partial {w : Nat} (V : Variant 4 w) {s : CtrGen w} (h : ThreefryReach 4 s)
    (delta : Nat) (hd : delta < 2 ^ (w * 4)) :
    ∃ s', cmPyAdvance 4 threefry s delta false = .ok s' ∧
      ∀ n, nthO (threefryNext 4) n s' = nthO (threefryNext 4) (delta + n) s :=
  cm_advance_small V threefry h (cmReach_at V threefry h).2.2.2 delta hd

/-- As `C19_philox_advance_exact`. -/
theorem C20_threefry_advance_exact {N w : Nat} (V : Variant N w) {s : CtrGen w} (h : ThreefryReach N s) (hpos : s.pos ≤ N)
    (delta : Int) (h0 : delta ≠ 0) :
    ∃ s', cmPyAdvance N threefry s delta false = .ok s' ∧ s'.has = false ∧
      ∀ n, nthO (threefryNext N) n s' = nthO (threefryNext N) ((delta % 2 ^ (N * w + N / 2)).toNat % 2 ^ (w * N) + n) s :=
  cm_advance_exact V threefry h hpos delta h0

/-- As `not_C19_philox_large`. -/
theorem not_C20_threefry_large {N w : Nat} (V : Variant N w) {s : CtrGen w} (h : ThreefryReach N s) (hpos : s.pos ≤ N)
    (delta : Int) (hd : 2 ^ (w * N) ≤ delta % (N * 2 ^ (w * N))) :
    ∃ s', cmPyAdvance N threefry s delta false = .ok s' ∧
      ∃ n, nthO (threefryNext N) n s' ≠ nthO (threefryNext N) ((delta % (N * 2 ^ (w * N))).toNat + n) s :=
  cm_advance_wrong V threefry h (threefry_perm V _) hpos delta hd

/-- As `not_C19_philox_fresh`. -/
theorem not_C20_threefry_fresh {w : Nat} (V : Variant 2 w) (old : CtrGen w) (key counter k : Nat) (hk : 0 < k)
    (hlt : 2 * k < 2 ^ (w * 2)) :
    ∃ s', cmPyAdvance 2 threefry (cmSeed 2 2 old key counter) (2 * k : Nat) false = .ok s' ∧
      (∀ n, nthO (threefryNext 2) n s' = nthO (threefryNext 2) (2 * k - 2 + n) (cmSeed 2 2 old key counter)) ∧
      ∃ n < 2, nthO (threefryNext 2) n s' ≠ nthO (threefryNext 2) (2 * k + n) (cmSeed 2 2 old key counter) :=
  cm_fresh2_wrong V threefry old key counter (threefry_perm V _) k hk hlt

example : 0 < 1 ∧ 2 * 1 < 2 ^ (64 * 2) := by decide

/-! ## C60: jumps -/

/-- C60 (partial): `jumped(iter)` with `0 < iter < 2^(w N/2) / N` drops the rest of the current block and then
skips exactly `iter * 2^(w N/2)` blocks. Missing: larger and negative `iter`; the code is wrong there, see
`not_C60_philox_jump_wraps`. -/
theorem C60_philox_jumped_partial {N w : Nat} (V : Variant N w) {s : CtrGen w} (h : PhiloxReach N s) (iter : Nat)
    (h0 : 0 < iter) (hi : iter * 2 ^ (w * N / 2) < 2 ^ (w * N - N / 2)) :
    ∃ s', cmJump N philox s iter = .ok s' ∧ ∀ n, nthO (philoxNext N) n s' =
      nthO (philoxNext N) (N - min s.pos.toNat N + N * (iter * 2 ^ (w * N / 2)) + n) s := by
  have := cm_counter_draws V philox h (iter * 2 ^ (w * N / 2)) (by positivity) hi
  simpa only [cmJump, Nat.cast_mul, Nat.cast_pow, Nat.cast_ofNat] using this

/-- C60 (partial): the same for ThreeFry. -/
theorem C60_threefry_jumped_partial {N w : Nat} (V : Variant N w) {s : CtrGen w} (h : ThreefryReach N s) (iter : Nat)
    (h0 : 0 < iter) (hi : iter * 2 ^ (w * N / 2) < 2 ^ (w * N - N / 2)) :
    ∃ s', cmJump N threefry s iter = .ok s' ∧ ∀ n, nthO (threefryNext N) n s' =
      nthO (threefryNext N) (N - min s.pos.toNat N + N * (iter * 2 ^ (w * N / 2)) + n) s := by
  have := cm_counter_draws V threefry h (iter * 2 ^ (w * N / 2)) (by positivity) hi
  simpa only [cmJump, Nat.cast_mul, Nat.cast_pow, Nat.cast_ofNat] using this

example : 7 * 2 ^ (64 * 4 / 2) < 2 ^ (64 * 4 - 4 / 2) := by norm_num

/-- The exact effect of `advance(delta, counter=True)` for every `delta ≠ 0`: the counter moves by `delta` modulo
`2^(w N) / N` only, and the buffers are reset. -/
theorem C60_philox_counter_exact {N w : Nat} (V : Variant N w) {s : CtrGen w} (h : PhiloxReach N s) (delta : Int) (h0 : delta ≠ 0) :
    cmPyAdvance N philox s delta true =
      .ok (cmReset { s with ctr := toWords w N (wval s.ctr + (delta % 2 ^ (w * N - N / 2)).toNat) }) :=
  cm_advance_counter V philox h delta h0

/-- The same for ThreeFry. -/
theorem C60_threefry_counter_exact {N w : Nat} (V : Variant N w) {s : CtrGen w} (h : ThreefryReach N s) (delta : Int) (h0 : delta ≠ 0) :
    cmPyAdvance N threefry s delta true =
      .ok (cmReset { s with ctr := toWords w N (wval s.ctr + (delta % 2 ^ (w * N - N / 2)).toNat) }) :=
  cm_advance_counter V threefry h delta h0

/-- `iter * 2^(w N/2)` is a multiple of `2^(w N - N/2)` for `iter = k * 2^(w N/2 - N/2)`. -/
theorem jump_wraps {N w : Nat} (V : Variant N w) (k : Nat) :
    (((k * 2 ^ (w * N / 2 - N / 2) : Nat) : Int) * 2 ^ (w * N / 2)) % 2 ^ (w * N - N / 2) = 0 := by
  apply Int.emod_eq_zero_of_dvd
  push_cast
  rw [mul_assoc, ← pow_add, show w * N / 2 - N / 2 + w * N / 2 = w * N - N / 2 by
    rcases V.hN with rfl | rfl <;> rcases V.hw with rfl | rfl <;> rfl]
  exact Dvd.intro_left _ rfl

/-- The claim of C60 is false for `iter = k * 2^(w N/2) / N`: the jump does not move the counter at all, so the
"jumped" generator of a freshly seeded one replays the original stream. -/
theorem not_C60_philox_jump_wraps {N w : Nat} (V : Variant N w) {s : CtrGen w} (h : PhiloxReach N s) (k : Nat) (hk : 0 < k) :
    cmJump N philox s (k * 2 ^ (w * N / 2 - N / 2) : Nat) = .ok (cmReset s) := by
  have h1 := cm_advance_counter V philox h ((k * 2 ^ (w * N / 2 - N / 2) : Nat) * 2 ^ (w * N / 2)) (by positivity)
  rw [jump_wraps V k, Int.toNat_zero, Nat.add_zero] at h1
  rw [cmJump, h1]
  have : toWords w N (wval s.ctr) = s.ctr := by
    obtain ⟨⟨p, hp⟩, -⟩ := cmReach_at V philox h
    have hl := hp.1
    rw [← hl]; exact toWords_wval _
  rw [this]

/-- The same for ThreeFry. -/
theorem not_C60_threefry_jump_wraps {N w : Nat} (V : Variant N w) {s : CtrGen w} (h : ThreefryReach N s) (k : Nat) (hk : 0 < k) :
    cmJump N threefry s (k * 2 ^ (w * N / 2 - N / 2) : Nat) = .ok (cmReset s) := by
  have h1 := cm_advance_counter V threefry h ((k * 2 ^ (w * N / 2 - N / 2) : Nat) * 2 ^ (w * N / 2)) (by positivity)
  rw [jump_wraps V k, Int.toNat_zero, Nat.add_zero] at h1
  rw [cmJump, h1]
  have : toWords w N (wval s.ctr) = s.ctr := by
    obtain ⟨⟨p, hp⟩, -⟩ := cmReach_at V threefry h
    have hl := hp.1
    rw [← hl]; exact toWords_wval _
  rw [this]

end Verif
