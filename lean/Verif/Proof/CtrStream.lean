import Verif.Proof.CtrBlocks
import Mathlib.Data.Nat.ModEq

/-! Streams of the counter-mode generators: reachable states sit at a position of the stream of their key, and
two positions give the same stream exactly when they agree modulo `N * 2^(w N)`. -/

namespace Verif

/-- A generator whose draws are the words of a fixed sequence `W`, read from a position. -/
theorem nthO_of_inv {σ α : Type} (nx : σ → Option (α × σ)) (I : σ → Nat → Prop) (W : Nat → α)
    (h : ∀ s p, I s p → ∃ s', nx s = some (W p, s') ∧ I s' (p + 1)) (s : σ) (p : Nat) (hs : I s p) (n : Nat) :
    nthO nx n s = some (W (p + n)) := by
  have run : ∀ n s p, I s p → ∃ t, runO nx n s = some t ∧ I t (p + n) := by
    intro n
    induction n with
    | zero => intro s p hs; exact ⟨s, rfl, hs⟩
    | succ n ih =>
      intro s p hs
      obtain ⟨s', h1, h2⟩ := h s p hs
      obtain ⟨t, h3, h4⟩ := ih s' _ h2
      refine ⟨t, by rw [runO, h1]; exact h3, ?_⟩
      rw [show p + (n + 1) = p + 1 + n by ring]; exact h4
  obtain ⟨t, h1, h2⟩ := run n s p hs
  obtain ⟨t', h3, -⟩ := h t _ h2
  rw [nthO, h1, Option.bind_some, h3]; rfl

/-- Everything a user can do with a Philox or ThreeFry instance: seed it with a key and a counter (over any
previous content), draw, use its 32-bit buffer, advance it. -/
inductive CmReach {w : Nat} (N kN : Nat) (blk : List (BitVec w) → List (BitVec w) → List (BitVec w)) : CtrGen w → Prop
  | seed (old : CtrGen w) (key counter : Nat) : CmReach N kN blk (cmSeed N kN old key counter)
  | next {s : CtrGen w} {v : BitVec w} {s' : CtrGen w} : CmReach N kN blk s → cmNext N blk s = some (v, s') → CmReach N kN blk s'
  | half {s : CtrGen w} (h : Bool) (u : U32) : CmReach N kN blk s → CmReach N kN blk { s with has := h, uinteger := u }
  | advance {s : CtrGen w} (delta : Int) (counter : Bool) {s' : CtrGen w} :
      CmReach N kN blk s → cmPyAdvance N blk s delta counter = .ok s' → CmReach N kN blk s'

section
variable {w N kN : Nat} (V : Variant N w) (blk : List (BitVec w) → List (BitVec w) → List (BitVec w))
include V

theorem cm_nth (key : List (BitVec w)) (s : CtrGen w) (p : Nat) (h : CmAt N blk key s p) (n : Nat) :
    nthO (cmNext N blk) n s = some (cmWord N blk key (p + n)) :=
  nthO_of_inv (cmNext N blk) (CmAt N blk key) (cmWord N blk key)
    (fun s p h => by obtain ⟨s', h1, h2, -⟩ := cmNext_at V blk key s p h; exact ⟨s', h1, h2⟩) s p h n

/-- A full reset puts the generator at the boundary after the block of its counter. -/
theorem cmReset_at (s : CtrGen w) (hl : s.ctr.length = N) :
    CmAt N blk s.key (cmReset s) (N * (wval s.ctr + 1)) := by
  have h4 : N ≤ 4 := by rcases V.hN with h | h <;> omega
  refine ⟨hl, rfl, 4, rfl, fun j h1 h2 => by omega, ?_⟩
  rw [Nat.min_eq_right h4, Nat.mul_succ]
  exact Nat.ModEq.refl _

theorem cmSeed_at (old : CtrGen w) (key counter : Nat) :
    CmAt N blk (toWords w kN key) (cmSeed N kN old key counter) (N * (counter + 1)) := by
  obtain ⟨u, hu⟩ : ∃ u : CtrGen w, u = { old with key := toWords w kN key, ctr := toWords w N counter } := ⟨_, rfl⟩
  have hc : u.ctr = toWords w N counter := by rw [hu]
  have hk : u.key = toWords w kN key := by rw [hu]
  obtain ⟨h1, h2, pos, h3, h4, h5⟩ := cmReset_at V blk u (by rw [hc, toWords_length])
  rw [cmSeed, ← hu, ← hk]
  refine ⟨h1, h2, pos, h3, h4, Nat.ModEq.trans ?_ h5⟩
  rw [hc, wval_toWords]
  exact Nat.ModEq.mul_left' N ((Nat.mod_modEq _ _).symm.add_right 1)

theorem cmAdvance_some (s : CtrGen w) (hl : s.ctr.length = N) (step : List (BitVec w)) (f : Bool) :
    ∃ p, CmAt N blk s.key (cmAdvance N blk s step f) p ∧ 0 ≤ (cmAdvance N blk s step f).pos ∧
      (cmAdvance N blk s step f).pos ≤ N := by
  obtain ⟨pos, hpos⟩ : ∃ pos : Nat, pos = (s.pos.toNat + (step.headD 0 % BitVec.ofNat w N).toNat) % N := ⟨_, rfl⟩
  have h1 : (cmAdvance N blk s step f).pos = pos := by rw [hpos]; rfl
  have hlt : pos < N := by rw [hpos]; exact Nat.mod_lt _ V.N_pos
  refine ⟨N * wval (cmAdvance N blk s step f).ctr + min pos N, ⟨?_, rfl, pos, h1, ?_, Nat.ModEq.refl _⟩, by omega, by omega⟩
  · simp only [cmAdvance, cmAdvLoop_length, hl]
  · intro j _ hj
    simp only [cmAdvance, if_pos hj]

/-- Every reachable state sits at a position of its key's stream. -/
theorem cmReach_at {s : CtrGen w} (h : CmReach N kN blk s) :
    (∃ p, CmAt N blk s.key s p) ∧ s.key.length = kN ∧ 0 ≤ s.pos ∧ s.pos ≤ 4 := by
  have h4 : N ≤ 4 := by rcases V.hN with h | h <;> omega
  induction h with
  | seed old key counter =>
    refine ⟨⟨_, cmSeed_at V blk old key counter⟩, toWords_length _ _ _, ?_, ?_⟩ <;>
      · show _ ≤ _
        simp [cmSeed, cmReset]
  | @next s v s' _ hn ih =>
    obtain ⟨⟨p, hp⟩, hk, h0, h1⟩ := ih
    obtain ⟨t, h2, h3, -⟩ := cmNext_at V blk s.key s p hp
    rw [hn] at h2
    simp only [Option.some.injEq, Prod.mk.injEq] at h2
    obtain ⟨-, rfl⟩ := h2
    have hkey : s'.key = s.key := h3.2.1
    refine ⟨⟨p + 1, by rw [hkey]; exact h3⟩, by rw [hkey, hk], ?_⟩
    rw [cmNext] at hn
    split at hn
    · simp only [Option.some.injEq, Prod.mk.injEq] at hn
      rw [← hn.2]
      show 0 ≤ s.pos + 1 ∧ s.pos + 1 ≤ 4
      omega
    · simp only [Option.some.injEq, Prod.mk.injEq] at hn
      rw [← hn.2]
      show (0 : Int) ≤ 1 ∧ (1 : Int) ≤ 4
      decide
  | half h u _ ih => exact ih
  | @advance s delta counter s' _ ha ih =>
    obtain ⟨⟨p, hp⟩, hk, h0, h1⟩ := ih
    rw [cmPyAdvance] at ha
    split at ha
    · simp only [Except.ok.injEq] at ha
      subst ha
      exact ⟨⟨p, hp⟩, hk, h0, h1⟩
    · obtain ⟨ws, hws, -⟩ := step_words V (if counter = true then delta * N else delta)
      simp only [hws, Except.ok.injEq] at ha
      obtain ⟨q, hq, h2, h3⟩ := cmAdvance_some V blk s hp.1 (ws.map (BitVec.ofNat w)) (!counter)
      cases counter with
      | false =>
        rw [if_neg (by decide)] at ha
        subst ha
        exact ⟨⟨q, hq⟩, hk, h2, le_trans h3 (by exact_mod_cast h4)⟩
      | true =>
        rw [if_pos rfl] at ha
        subst ha
        exact ⟨⟨_, cmReset_at V blk _ hq.1⟩, hk, by show (0 : Int) ≤ 4; decide, by show (4 : Int) ≤ 4; decide⟩

theorem cmWord_block (key : List (BitVec w)) (i j : Nat) (hj : j < N) :
    cmWord N blk key (N * i + j) = (blk (toWords w N i) key).getD j 0 := by
  rw [cmWord, Nat.mul_add_mod, Nat.mod_eq_of_lt hj, Nat.mul_add_div V.N_pos, Nat.div_eq_of_lt hj, Nat.add_zero]

omit V in
theorem list_ext_getD {l m : List (BitVec w)} (hl : l.length = N) (hm : m.length = N)
    (h : ∀ j < N, l.getD j 0 = m.getD j 0) : l = m := by
  apply List.ext_getElem (by rw [hl, hm])
  intro i h1 h2
  have := h i (by omega)
  simpa [List.getD_eq_getElem?_getD, List.getElem?_eq_getElem h1, List.getElem?_eq_getElem h2] using this

/-- Blocks of the stream are equal exactly when their numbers agree modulo `2^(w N)`. -/
theorem cmWord_blocks {key : List (BitVec w)} (hb : PermN N (fun c => blk c key)) (i i' : Nat)
    (h : ∀ j < N, cmWord N blk key (N * i + j) = cmWord N blk key (N * i' + j)) : i ≡ i' [MOD 2 ^ (w * N)] := by
  have h1 : blk (toWords w N i) key = blk (toWords w N i') key := by
    apply list_ext_getD (hb.1 _ (toWords_length _ _ _)) (hb.1 _ (toWords_length _ _ _))
    intro j hj
    rw [← cmWord_block V blk key i j hj, ← cmWord_block V blk key i' j hj, h j hj]
  have h2 := hb.2 _ _ (toWords_length _ _ _) (toWords_length _ _ _) h1
  have h3 := congrArg wval h2
  rw [wval_toWords, wval_toWords] at h3
  exact h3

/-- Two positions with the same stream agree modulo the period. -/
theorem cmWord_stream {key : List (BitVec w)} (hb : PermN N (fun c => blk c key)) (p q : Nat)
    (h : ∀ n, cmWord N blk key (p + n) = cmWord N blk key (q + n)) : p ≡ q [MOD cmPeriod N w] := by
  have main : ∀ p d : Nat, (∀ n, cmWord N blk key (p + n) = cmWord N blk key (p + d + n)) → cmPeriod N w ∣ d := by
    intro p d h
    have hP := cmPeriod_pos V
    have h1 : ∀ m, cmWord N blk key m = cmWord N blk key (m + d) := by
      intro m
      have e : ∀ m, cmWord N blk key m = cmWord N blk key (m + cmPeriod N w * p) := fun m =>
        cmWord_congr blk key (by
          show m % _ = _ % _
          rw [Nat.add_mul_mod_self_left])
      have hle : p ≤ cmPeriod N w * p := Nat.le_mul_of_pos_left p hP
      rw [e m, e (m + d)]
      have := h (m + cmPeriod N w * p - p)
      rwa [show p + (m + cmPeriod N w * p - p) = m + cmPeriod N w * p by omega,
        show p + d + (m + cmPeriod N w * p - p) = m + d + cmPeriod N w * p by omega] at this
    have h2 : ∀ k m, cmWord N blk key m = cmWord N blk key (m + k * d) := by
      intro k
      induction k with
      | zero => intro m; simp
      | succ k ih => intro m; rw [ih m, h1 (m + k * d)]; congr 1; ring
    have h3 : 0 ≡ d [MOD 2 ^ (w * N)] := by
      apply cmWord_blocks V blk hb
      intro j _
      rw [h2 N (N * 0 + j)]; congr 1; ring
    have h4 : 2 ^ (w * N) ∣ d := (Nat.modEq_zero_iff_dvd.mp h3.symm)
    have hN : N ∣ 2 ^ (w * N) := by
      have h1 : N ∣ 2 ^ w := ⟨_, V.pow_eq⟩
      exact h1.trans (pow_dvd_pow 2 (Nat.le_mul_of_pos_right w V.N_pos))
    obtain ⟨e, rfl⟩ := hN.trans h4
    have h5 : 0 ≡ e [MOD 2 ^ (w * N)] := by
      apply cmWord_blocks V blk hb
      intro j _
      rw [h1 (N * 0 + j)]; congr 1; ring
    exact Nat.mul_dvd_mul_left N (Nat.modEq_zero_iff_dvd.mp h5.symm)
  rcases le_total p q with hpq | hpq
  · obtain ⟨d, rfl⟩ := Nat.exists_eq_add_of_le hpq
    have := main p d h
    exact ((Nat.modEq_zero_iff_dvd.mpr this).add_left p).symm
  · obtain ⟨d, rfl⟩ := Nat.exists_eq_add_of_le hpq
    have := main q d (fun n => (h n).symm)
    exact (Nat.modEq_zero_iff_dvd.mpr this).add_left q

/-- Python-level `advance(delta)` with `delta ≠ 0`, `counter=False`. -/
theorem cmPyAdvance_draws (s : CtrGen w) (delta : Int) (h0 : delta ≠ 0) :
    ∃ ws : List Nat, ws.length = N + 1 ∧ wval (ws.map (BitVec.ofNat w)) = (delta % 2 ^ (N * w + N / 2)).toNat ∧
      cmPyAdvance N blk s delta false = .ok { cmAdvance N blk s (ws.map (BitVec.ofNat w)) true with uinteger := 0, has := false } := by
  obtain ⟨ws, h1, h2, h3⟩ := step_words V delta
  refine ⟨ws, h2, h3, ?_⟩
  rw [cmPyAdvance, if_neg h0]
  simp only [Bool.false_eq_true, if_false, Bool.not_false]
  rw [h1]

end
end Verif
