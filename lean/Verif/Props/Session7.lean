import Verif.Model.Session6
import Verif.Props.Session
import Verif.Props.CtrMode

/-! C95 for Philox and ThreeFry. -/

namespace Verif

/-- Word `n` of the stream of a key and a counter: the block function at the counters that follow it, `N` words each. -/
def ctrStream {w : Nat} (N kN : Nat) (blk : List (BitVec w) → List (BitVec w) → List (BitVec w)) (o : Nat × Nat) (n : Nat) : BitVec w :=
  (blk (toWords w N (o.2 + 1 + n / N)) (toWords w kN o.1)).getD (n % N) 0

/-- Moves by blocks: the rest of the current block is dropped, then `d` blocks are skipped, modulo `2^(w N - N / 2)`; nothing happens if `d` is
zero. -/
def blockSkip (N w : Nat) (d : Int) (a : Nat × Option U32) : Nat × Option U32 :=
  if d = 0 then a else (N * ((a.1 + N - 1) / N + (d % 2 ^ (w * N - N / 2)).toNat), none)

/-- Moves by words, modulo `2^(w N)`; nothing happens if `d` is zero. -/
def wordSkip (N w : Nat) (d : Int) (a : Nat × Option U32) : Nat × Option U32 :=
  if d = 0 then a else skipAt (d % 2 ^ (w * N)).toNat a

/-- The key made from the seed sequence: its first `bits` bits. -/
def seqKey (bits : Nat) (ws : Nat → U64) : Nat :=
  ((ws 0).toNat + 2 ^ 64 * (ws 1).toNat + 2 ^ 128 * (ws 2).toNat + 2 ^ 192 * (ws 3).toNat) % 2 ^ bits

/-- The key and the counter. -/
def ctrOrg (N w kN : Nat) (sd : CtrSeed) : Made (Nat × Nat) :=
  if (∀ k ∈ sd.key, 0 ≤ k ∧ k < 2 ^ (kN * w)) ∧ (∀ c ∈ sd.counter, 0 ≤ c ∧ c < 2 ^ (N * w)) then
    .ok ((sd.key.map Int.toNat).getD (seqKey (kN * w) sd.words), (sd.counter.map Int.toNat).getD 0)
  else .err .valueError

/-- The promise for the variant with `N` words of `w` bits and `kN` key words: `jump` moves by `2^(w N / 2)` blocks, `advance` by blocks
or by words. -/
def ctrSpec (F : CtrFam) (hiFirst counter : Bool) (N w : Nat) : SSpec CtrArgs CtrSeed (Nat × Nat) where
  start p sd := if (p.number = 2 ∨ p.number = 4) ∧ (p.width = 32 ∨ p.width = 64) then ctrOrg N w (F.keys N) sd else .err .valueError
  restart _ _ _ sd := ctrOrg N w (F.keys N) sd
  draw o := if w = 64 then draw64At (ctrStream N (F.keys N) (F.blk 64) o) else draw32At hiFirst (ctrStream N (F.keys N) (F.blk 32) o)
  jump := some fun n => some (blockSkip N w (n * 2 ^ (w * N / 2)))
  jumped := some fun n => if -2 ^ 63 ≤ n ∧ n < 2 ^ 63 then some (blockSkip N w (n * 2 ^ (w * N / 2))) else none
  advance := some fun d => if counter then blockSkip N w d else wordSkip N w d

/-! ### The C structure -/

section
variable {w N kN : Nat} (V : Variant N w) {blk : List (BitVec w) → List (BitVec w) → List (BitVec w)}

/-- A structure at a place; `lo` is a lower bound for `buffer_pos`. -/
def GAt (N kN : Nat) (blk : List (BitVec w) → List (BitVec w) → List (BitVec w)) (lo : Int) (o : Nat × Nat) (a : Nat × Option U32) (g : CtrGen w) :
    Prop :=
  CmAt N blk (toWords w kN o.1) g (N * (o.2 + 1) + a.1) ∧ (lo ≤ g.pos ∧ 0 ≤ g.pos ∧ g.pos ≤ 4) ∧ g.has = a.2.isSome ∧ ∀ v, a.2 = some v → g.uinteger = v

include V

theorem cmWord_eq (o : Nat × Nat) (n : Nat) : cmWord N blk (toWords w kN o.1) (N * (o.2 + 1) + n) = ctrStream N kN blk o n := by
  rw [cmWord, ctrStream, Nat.mul_add_mod, Nat.mul_add_div V.N_pos]

theorem GAt.next {lo : Int} (hlo : lo ≤ 1) {o : Nat × Nat} {a : Nat × Option U32} {g : CtrGen w} (h : GAt N kN blk lo o a g) :
    ∃ g', cmNext N blk g = some (ctrStream N kN blk o a.1, g') ∧ GAt N kN blk lo o (a.1 + 1, a.2) g' := by
  obtain ⟨h1, h2, h3, h4⟩ := h
  obtain ⟨g', e1, e2, e3, e4⟩ := cmNext_at V blk _ g _ h1
  refine ⟨g', by rw [e1, cmWord_eq V], e2, ?_, by rw [e3]; exact h3, by rw [e4]; exact h4⟩
  have hN : N ≤ 4 := by rcases V.hN with h | h <;> omega
  rw [cmNext] at e1
  split at e1
  · split at e1
    · obtain ⟨-, rfl⟩ := Prod.mk.inj (Option.some.inj e1)
      show lo ≤ g.pos + 1 ∧ 0 ≤ g.pos + 1 ∧ g.pos + 1 ≤ 4
      omega
    · cases e1
  · obtain ⟨-, rfl⟩ := Prod.mk.inj (Option.some.inj e1)
    show lo ≤ 1 ∧ (0 : Int) ≤ 1 ∧ (1 : Int) ≤ 4
    omega

theorem GAt.block {o : Nat × Nat} {a : Nat × Option U32} {g : CtrGen w} (h : GAt N kN blk 1 o a g) (d : Int) :
    ∃ g', cmPyAdvance N blk g d true = .ok g' ∧ GAt N kN blk 1 o (blockSkip N w d a) g' := by
  by_cases h0 : d = 0
  · refine ⟨g, by rw [cmPyAdvance, if_pos h0], ?_⟩
    rw [blockSkip, if_pos h0]; exact h
  obtain ⟨⟨hl, hk, pos, hpos, hbuf, hp⟩, h2, h3, h4⟩ := h
  rw [blockSkip, if_neg h0]
  obtain ⟨D, hD⟩ : ∃ D, D = (d % 2 ^ (w * N - N / 2)).toNat := ⟨_, rfl⟩
  rw [← hD]
  refine ⟨_, by rw [cm_advance_counter_of V blk hl d h0, ← hD], ?_, ⟨by show (1 : Int) ≤ 4; decide, by show (0 : Int) ≤ 4; decide, le_refl _⟩, rfl,
    fun v hv => by simp at hv⟩
  have := cmReset_at V blk { g with ctr := toWords w N (wval g.ctr + D) } (toWords_length _ _ _)
  obtain ⟨e1, e2, q, e3, e4, e5⟩ := this
  refine ⟨e1, hk, q, e3, by rw [← hk]; exact e4, Nat.ModEq.trans ?_ e5⟩
  -- the end of the current block
  show N * (o.2 + 1) + N * ((a.1 + N - 1) / N + D) ≡ N * (wval (toWords w N (wval g.ctr + D)) + 1) [MOD cmPeriod N w]
  rw [wval_toWords]
  have f1 : N * ((wval g.ctr + D) % 2 ^ (w * N) + 1) ≡ N * (wval g.ctr + D + 1) [MOD cmPeriod N w] :=
    Nat.ModEq.mul_left' N ((Nat.mod_modEq _ _).add_right 1)
  refine Nat.ModEq.trans ?_ f1.symm
  obtain ⟨m, hm⟩ : ∃ m, m = min pos N := ⟨_, rfl⟩
  rw [← hm] at hp
  have hm1 : 1 ≤ m ∧ m ≤ N := by have := V.N_pos; omega
  have hdvd : N ∣ cmPeriod N w := ⟨_, rfl⟩
  -- `n` and `m` agree modulo `N`
  have f2 : a.1 % N = m % N := by
    have := (Nat.ModEq.of_dvd hdvd hp : _ ≡ _ [MOD N])
    have := (show (N * (o.2 + 1) + a.1) % N = (N * wval g.ctr + m) % N from this)
    rwa [Nat.mul_add_mod, Nat.mul_add_mod] at this
  have f3 : N * ((a.1 + N - 1) / N) = a.1 + (N - m) := by
    clear hD hbuf e3 e4 e5 h2 h0
    rcases V.hN with h | h <;> rw [h] at f2 hm1 ⊢ <;> omega
  have f4 := (hp.add_right (N - m)).add_right (N * D)
  rw [show N * wval g.ctr + m + (N - m) + N * D = N * (wval g.ctr + D + 1) by rw [Nat.mul_succ, Nat.mul_add]; omega] at f4
  rw [show N * (o.2 + 1) + N * ((a.1 + N - 1) / N + D) = N * (o.2 + 1) + a.1 + (N - m) + N * D by rw [Nat.mul_add N ((a.1 + N - 1) / N), f3]; omega]
  exact f4

theorem GAt.words (h4 : N = 4) {o : Nat × Nat} {a : Nat × Option U32} {g : CtrGen w} (h : GAt N kN blk 0 o a g) (d : Int) :
    ∃ g', cmPyAdvance N blk g d false = .ok g' ∧ GAt N kN blk 0 o (wordSkip N w d a) g' := by
  by_cases h0 : d = 0
  · refine ⟨g, by rw [cmPyAdvance, if_pos h0], ?_⟩
    rw [wordSkip, if_pos h0]; exact h
  obtain ⟨h1, h2, h3, -⟩ := h
  obtain ⟨ws, e1, e2, e3⟩ := cmPyAdvance_draws V blk g d h0
  rw [wordSkip, if_neg h0]
  have e4 := cmAdvance_at V blk _ g _ h1 (by rw [h4]; exact h2.2.2) (ws.map (BitVec.ofNat w)) (by rw [List.length_map, e1])
  have e5 : wval (ws.map (BitVec.ofNat w)) % 2 ^ (w * N) = (d % 2 ^ (w * N)).toNat := by
    rw [e2]
    have : (2 : Int) ^ (w * N) ∣ 2 ^ (N * w + N / 2) := pow_dvd_pow 2 (by rw [Nat.mul_comm]; omega)
    obtain ⟨E, hE⟩ : ∃ E : Nat, d % 2 ^ (N * w + N / 2) = E := ⟨_, (Int.toNat_of_nonneg (Int.emod_nonneg _ (by positivity))).symm⟩
    rw [← Int.emod_emod_of_dvd d this, hE, Int.toNat_natCast]
    have : ((E : Int) % 2 ^ (w * N)) = ((E % 2 ^ (w * N) : Nat) : Int) := by push_cast; rfl
    rw [this, Int.toNat_natCast]
  rw [e5] at e4
  rw [Nat.add_assoc] at e4
  refine ⟨_, e3, e4, ?_, rfl, fun v hv => by simp [skipAt] at hv⟩
  obtain ⟨x, hx⟩ : ∃ x : Nat, (cmAdvance N blk g (ws.map (BitVec.ofNat w)) true).pos = ((x % N : Nat) : Int) := ⟨_, rfl⟩
  show (0 : Int) ≤ (cmAdvance N blk g (ws.map (BitVec.ofNat w)) true).pos ∧ (0 : Int) ≤ (cmAdvance N blk g (ws.map (BitVec.ofNat w)) true).pos ∧
    (cmAdvance N blk g (ws.map (BitVec.ofNat w)) true).pos ≤ 4
  rw [hx]
  have := Nat.mod_lt x V.N_pos
  omega

theorem GAt.seed {lo : Int} (hlo : lo ≤ 1) (old : CtrGen w) (key counter : Nat) :
    GAt N kN blk lo (key, counter) (0, none) (cmSeed N kN old key counter) := by
  refine ⟨cmSeed_at V blk old key counter, ⟨?_, by show (0 : Int) ≤ 4; decide, by show (4 : Int) ≤ 4; decide⟩, rfl, fun v hv => by simp at hv⟩
  show lo ≤ 4
  omega

end

theorem GAt.draw64 {N kN : Nat} (V : Variant N 64) {blk : List U64 → List U64 → List U64} {lo : Int} (hlo : lo ≤ 1) {o : Nat × Nat}
    {a : Nat × Option U32} {g : CtrGen 64} (h : GAt N kN blk lo o a g) (k : Op) :
    ∃ g', ctrOp64 N blk k g = some ((draw64At (ctrStream N kN blk o) k a).1, g') ∧ GAt N kN blk lo o (draw64At (ctrStream N kN blk o) k a).2 g' := by
  obtain ⟨g', e1, e2⟩ := h.next V hlo
  cases k with
  | u64 => exact ⟨g', by rw [ctrOp64, e1]; rfl, e2⟩
  | dbl =>
    refine ⟨g', ?_, e2⟩
    rw [ctrOp64, e1]
    simp only [Option.map_some, draw64At, BitVec.toNat_ushiftRight, Nat.shiftRight_eq_div_pow]
  | u32 =>
    obtain ⟨n, half⟩ := a
    obtain ⟨h1, h2, h3, h4⟩ := h
    cases half with
    | some v =>
      refine ⟨{ g with has := false }, ?_, h1, h2, rfl, fun v hv => by simp [draw64At] at hv⟩
      rw [ctrOp64, if_pos (by rw [h3]; rfl), h4 v rfl]
      rfl
    | none =>
      refine ⟨{ g' with has := true, uinteger := (ctrStream N kN blk o n >>> 32).truncate 32 }, ?_, e2.1, e2.2.1, rfl, ?_⟩
      · rw [ctrOp64, if_neg (by rw [h3]; simp), e1]
        show some (Out.o32 _, _) = some (Out.o32 _, _)
        congr 3
        apply BitVec.eq_of_toNat_eq
        simp
      · intro v hv
        simp only [draw64At, Option.some.injEq] at hv
        rw [← hv]
        apply BitVec.eq_of_toNat_eq
        simp [Nat.shiftRight_eq_div_pow]

theorem GAt.draw32 {N kN : Nat} (V : Variant N 32) {blk : List U32 → List U32 → List U32} {lo : Int} (hlo : lo ≤ 1) (b : Bool) {o : Nat × Nat}
    {a : Nat × Option U32} {g : CtrGen 32} (h : GAt N kN blk lo o a g) (k : Op) :
    ∃ g', ctrOp32 N blk b k g = some ((draw32At b (ctrStream N kN blk o) k a).1, g') ∧ GAt N kN blk lo o (draw32At b (ctrStream N kN blk o) k a).2 g' := by
  obtain ⟨g1, e1, h1⟩ := h.next V hlo
  obtain ⟨g2, e2, h2⟩ := h1.next V hlo
  cases k with
  | u32 => exact ⟨g1, by rw [ctrOp32, e1]; rfl, h1⟩
  | u64 =>
    refine ⟨g2, ?_, h2⟩
    have : twoCallsO (cmNext N blk) b g = some (if b then (ctrStream N kN blk o a.1).setWidth 64 <<< 32 ||| (ctrStream N kN blk o (a.1 + 1)).setWidth 64
        else (ctrStream N kN blk o (a.1 + 1)).setWidth 64 <<< 32 ||| (ctrStream N kN blk o a.1).setWidth 64, g2) := by
      rw [twoCallsO, e1]
      simp only [Option.bind_eq_bind, Option.bind_some, e2]
      cases b <;> rfl
    rw [ctrOp32, this]
    cases b
    · simp only [Option.map_some, draw32At, join_toNat, Bool.false_eq_true, if_false]
    · simp only [Option.map_some, draw32At, join_toNat, if_true]
  | dbl =>
    refine ⟨g2, ?_, h2⟩
    rw [ctrOp32, e1]
    simp only [Option.bind_eq_bind, Option.bind_some, e2, draw32At, Doubles.dbl32, BitVec.toNat_ushiftRight, Nat.shiftRight_eq_div_pow]
    rfl

/-! ### The instance -/

theorem slotPut_get {w : Nat} (hw : w = 32 ∨ w = 64) (old : U64) (x : BitVec w) : (slotPut old x).setWidth w = x := by
  rcases hw with rfl | rfl
  · rw [slotPut, if_neg (by decide)]
    simpa using setLow_low old (x.setWidth 32)
  · rw [slotPut, if_pos rfl]
    simp

theorem ofFn_words {w k : Nat} (hw : w = 32 ∨ w = 64) (hk : k ≤ 4) (old : Vector U64 4) (l : List (BitVec w)) (hl : l.length = k) :
    ((Vector.ofFn fun i : Fin 4 => match l[i.val]? with
      | some x => slotPut old[i] x
      | none => old[i]).toList.take k).map (·.setWidth w) = l := by
  apply List.ext_getElem
  · simp [hl, hk]
  · intro i h1 h2
    have hi : i < 4 := by omega
    simp only [List.getElem_map, List.getElem_take, Vector.getElem_toList, Vector.getElem_ofFn, List.getElem?_eq_getElem h2]
    exact slotPut_get hw _ _

theorem GAt.put {w N kN : Nat} (V : Variant N w) {blk : List (BitVec w) → List (BitVec w) → List (BitVec w)} {lo : Int} {o : Nat × Nat}
    {a : Nat × Option U32} {g : CtrGen w} (keys : Nat → Nat) (hk : keys N = kN) (h4 : kN ≤ 4) (s : CtrI) (h : GAt N kN blk lo o a g) :
    GAt N kN blk lo o a ((s.put N g).gen keys N w) := by
  obtain ⟨⟨hl, hkey, pos, hpos, hbuf, hp⟩, h2, h3, h4'⟩ := h
  have hN : N ≤ 4 := by rcases V.hN with h | h <;> omega
  have e1 : ((s.put N g).gen keys N w).ctr = g.ctr := ofFn_words V.hw hN s.ctr g.ctr hl
  have e2 : ((s.put N g).gen keys N w).key = g.key := by
    have := ofFn_words V.hw h4 s.key g.key (by rw [hkey, toWords_length])
    rw [← hk] at this
    exact this
  have e3 : ((s.put N g).gen keys N w).pos = g.pos := by
    show (BitVec.ofInt 32 g.pos).toInt = g.pos
    rw [BitVec.toInt_ofInt, Int.bmod_def]
    omega
  have e4 : ((s.put N g).gen keys N w).has = g.has := by
    show ((if g.has then (1 : U32) else 0) != 0) = g.has
    cases g.has <;> rfl
  have e5 : ∀ j, j < N → ((s.put N g).gen keys N w).buf j = g.buf j := by
    intro j hj
    show (if j < N then _ else _) = _
    rw [if_pos hj]
    have hj4 : j < 4 := by omega
    have : (s.put N g).buf.toList.getD j 0 = slotPut s.buf[j] (g.buf j) := by
      simp [CtrI.put, List.getD_eq_getElem?_getD, hj4, hj]
    rw [this, slotPut_get V.hw]
  refine ⟨⟨by rw [e1]; exact hl, by rw [e2]; exact hkey, pos, by rw [e3]; exact hpos, fun j h1 hj => by rw [e5 j hj, e1]; exact hbuf j h1 hj,
    by rw [e1]; exact hp⟩, by rw [e3]; exact h2, by rw [e4]; exact h3, h4'⟩

theorem seen_words {w k : Nat} {W : U32} (hw : w = 32 ∨ w = 64) (hW : W.toNat = w) {u v : Vector U64 4} (h : seen W k u = seen W k v) :
    (u.toList.take k).map (·.setWidth w) = (v.toList.take k).map (·.setWidth w) := by
  apply List.ext_getElem
  · simp
  · intro i h1 h2
    have hi : i < 4 := by simp at h1; omega
    have hik : i < k := by simp at h1; omega
    have := congrArg (fun x : Vector U64 4 => x[i]) h
    simp only [seen, Vector.getElem_ofFn, hik, if_true, Fin.getElem_fin] at this
    simp only [List.getElem_map, List.getElem_take, Vector.getElem_toList]
    rcases hw with rfl | rfl
    · have hne : W ≠ 64 := by rintro rfl; exact absurd hW (by decide)
      simp only [slotWord, hne, if_false] at this
      have := congrArg (fun x : U64 => x.setWidth 32) this
      simpa using this
    · have hne : W = 64 := BitVec.eq_of_toNat_eq hW
      simp only [slotWord, hne, if_true] at this
      rw [this]

/-- The draws depend on the part of the instance that the round trip keeps. -/
theorem gen_view {N w : Nat} (V : Variant N w) (keys : Nat → Nat) {s t : CtrI} (hn : s.n.toNat = N) (hw : s.w.toNat = w)
    (h : ctrView keys t = ctrView keys s) : t.gen keys N w = s.gen keys N w := by
  have hN : N ≤ 4 := by rcases V.hN with h | h <;> omega
  have f : ∀ {α : Type} (f : CtrI → α), f (ctrView keys t) = f (ctrView keys s) := fun f => congrArg f h
  have e1 : t.n = s.n := f CtrI.n
  have e2 : t.w = s.w := f CtrI.w
  have c1 := f CtrI.ctr
  have c2 := f CtrI.key
  have c3 := f CtrI.buf
  simp only [ctrView, e1, e2, hn] at c1 c2 c3
  have b := seen_words V.hw hw c3
  have hp : t.pos = s.pos := f CtrI.pos
  have hh : t.has = s.has := f CtrI.has
  have hu : t.uint = s.uint := f CtrI.uint
  unfold CtrI.gen
  rw [seen_words V.hw hw c1, seen_words V.hw hw c2, hp, hh, hu]
  congr 1
  funext i
  by_cases hi : i < N
  · rw [if_pos hi, if_pos hi]
    have hi4 : i < 4 := by omega
    have := congrArg (fun l : List (BitVec w) => l[i]?) b
    simp [hi, hi4] at this
    simp [List.getD_eq_getElem?_getD, hi4, this]
  · rw [if_neg hi, if_neg hi]

/-- An instance at a place. -/
def CAt (F : CtrFam) (N w : Nat) (lo : Int) (o : Nat × Nat) (a : Nat × Option U32) (s : CtrI) : Prop :=
  CtrOk s ∧ s.n.toNat = N ∧ s.w.toNat = w ∧ GAt N (F.keys N) (F.blk w) lo o a (s.gen F.keys N w)

/-- What is needed of the two classes. -/
structure FamOk (F : CtrFam) (N w : Nat) : Prop where
  four : F.keys N ≤ 4
  room : F.keys N ≤ F.room
  key : ∀ ws, Ints.objectToInt (.arr64 (F.seedKey N w ws)) (F.keys N * w) = .ok (some (seqKey (F.keys N * w) ws : Int))

theorem objKey {l : List U64} {bits v : Nat} (h0 : l.length ≠ 0) (h1 : Ints.wordSum 64 (l.map BitVec.toNat) = v) (h2 : v < 2 ^ bits) :
    Ints.objectToInt (.arr64 l) bits = .ok (some (v : Int)) := by
  have h3 : (v : Int) < 2 ^ bits := by exact_mod_cast h2
  have h4 : ¬((v : Int) < 0 ∨ (v : Int) ≥ 2 ^ bits) := by omega
  rw [Ints.objectToInt, if_neg (by decide), if_neg h0, h1, Ints.objRange, if_neg h4]

theorem wordSum_one (p a : Nat) : Ints.wordSum p [a] = a := by simp [Ints.wordSum]
theorem wordSum_two (p a b : Nat) : Ints.wordSum p [a, b] = a + b * 2 ^ p := by simp [Ints.wordSum, List.range_succ]
theorem wordSum_four (p a b c d : Nat) : Ints.wordSum p [a, b, c, d] = a + b * 2 ^ p + c * 2 ^ (p * 2) + d * 2 ^ (p * 3) := by
  simp [Ints.wordSum, List.range_succ]; omega

theorem seqKey_lt (bits : Nat) (ws : Nat → U64) : seqKey bits ws < 2 ^ bits := Nat.mod_lt _ (Nat.two_pow_pos _)

theorem philoxFam_ok {N w : Nat} (V : Variant N w) : FamOk philoxFam N w := by
  refine ⟨?_, ?_, fun ws => ?_⟩
  · rcases V.hN with rfl | rfl <;> decide
  · rcases V.hN with rfl | rfl <;> decide
  · have h0 := (ws 0).isLt
    have h1 := (ws 1).isLt
    rcases V.hN with rfl | rfl <;> rcases V.hw with rfl | rfl
    · refine objKey (l := [ws 0 % 4294967296]) (by simp) ?_ (seqKey_lt 32 ws)
      rw [List.map_cons, List.map_nil, wordSum_one]
      show (ws 0 % 4294967296).toNat = seqKey 32 ws
      rw [BitVec.toNat_umod, seqKey]
      show (ws 0).toNat % 4294967296 = _
      omega
    · refine objKey (l := [ws 0]) (by simp) ?_ (seqKey_lt 64 ws)
      rw [List.map_cons, List.map_nil, wordSum_one]
      show _ = seqKey 64 ws
      rw [seqKey]; omega
    · refine objKey (l := [ws 0]) (by simp) ?_ (seqKey_lt 64 ws)
      rw [List.map_cons, List.map_nil, wordSum_one]
      show _ = seqKey 64 ws
      rw [seqKey]; omega
    · refine objKey (l := [ws 0, ws 1]) (by simp) ?_ (seqKey_lt 128 ws)
      rw [List.map_cons, List.map_cons, List.map_nil, wordSum_two]
      show _ = seqKey 128 ws
      rw [seqKey]; omega

theorem threefryFam_ok {N w : Nat} (V : Variant N w) : FamOk threefryFam N w := by
  refine ⟨?_, ?_, fun ws => ?_⟩
  · rcases V.hN with rfl | rfl <;> decide
  · rcases V.hN with rfl | rfl <;> decide
  · have h0 := (ws 0).isLt
    have h1 := (ws 1).isLt
    have h2 := (ws 2).isLt
    have h3 := (ws 3).isLt
    rcases V.hN with rfl | rfl <;> rcases V.hw with rfl | rfl
    · refine objKey (l := [ws 0]) (by simp) ?_ (seqKey_lt 64 ws)
      rw [List.map_cons, List.map_nil, wordSum_one]
      show _ = seqKey 64 ws
      rw [seqKey]; omega
    · refine objKey (l := [ws 0, ws 1]) (by simp) ?_ (seqKey_lt 128 ws)
      rw [List.map_cons, List.map_cons, List.map_nil, wordSum_two]
      show _ = seqKey 128 ws
      rw [seqKey]; omega
    · refine objKey (l := [ws 0, ws 1]) (by simp) ?_ (seqKey_lt 128 ws)
      rw [List.map_cons, List.map_cons, List.map_nil, wordSum_two]
      show _ = seqKey 128 ws
      rw [seqKey]; omega
    · refine objKey (l := [ws 0, ws 1, ws 2, ws 3]) (by simp) ?_ (seqKey_lt 256 ws)
      rw [List.map_cons, List.map_cons, List.map_cons, List.map_cons, List.map_nil, wordSum_four]
      show _ = seqKey 256 ws
      rw [seqKey]; omega

theorem objOf_eq (c : Option Int) (bits : Nat) : Ints.objectToInt (objOf c) bits =
    if ∀ c' ∈ c, 0 ≤ c' ∧ c' < 2 ^ bits then .ok c else .error .valueError := by
  cases c with
  | none => rw [if_pos (by simp)]; rfl
  | some c =>
    show Ints.objRange bits c = _
    rw [Ints.objRange]
    by_cases h : 0 ≤ c ∧ c < 2 ^ bits
    · rw [if_neg (by omega), if_pos (by intro c' h'; obtain rfl := Option.some.inj h'; exact h)]
    · rw [if_pos (by omega), if_neg fun h' => h (h' c rfl)]

section
variable {F : CtrFam} {N w : Nat} (V : Variant N w) (H : FamOk F N w) {lo : Int} (hlo : lo ≤ 1)
include V H hlo

theorem CAt.seedKey {s : CtrI} (hs : CtrOk s) (hn : s.n.toNat = N) (hw : s.w.toNat = w) (key counter : Ints.ObjIn) (k : Nat) (c : Option Int)
    (h1 : Ints.objectToInt key (F.keys N * w) = .ok (some (k : Int))) (h2 : Ints.objectToInt counter (N * w) = .ok c) :
    ∃ s', ctrSeedKey F key counter s = .ok s' ∧ CAt F N w lo (k, (c.getD 0).toNat) (0, none) s' := by
  unfold ctrSeedKey
  dsimp only
  rw [hn, hw, h1, h2]
  refine ⟨_, rfl, ?_⟩
  dsimp only [Option.getD_some]
  rw [Int.toNat_natCast]
  rcases V.hw with rfl | rfl
  · rw [if_neg (by rintro e; rw [e] at hw; exact absurd hw (by decide))]
    exact ⟨hs, hn, hw, GAt.put V _ rfl H.four _ (GAt.seed V hlo _ _ _)⟩
  · rw [if_pos (BitVec.eq_of_toNat_eq hw)]
    exact ⟨hs, hn, hw, GAt.put V _ rfl H.four _ (GAt.seed V hlo _ _ _)⟩

omit V H hlo in
theorem ctrSeedKey_err (key counter : Ints.ObjIn) (s : CtrI) (hn : s.n.toNat = N) (hw : s.w.toNat = w) (k : Option Int)
    (h : Ints.objectToInt key (F.keys N * w) = .error .valueError ∨
      (Ints.objectToInt key (F.keys N * w) = .ok k ∧ Ints.objectToInt counter (N * w) = .error .valueError)) :
    ctrSeedKey F key counter s = .error .valueError := by
  unfold ctrSeedKey
  dsimp only
  rw [hn, hw]
  rcases h with h | ⟨h1, h2⟩
  · rw [h]; rfl
  · rw [h1, h2]; rfl

theorem CAt.reseed {s : CtrI} (hs : CtrOk s) (hn : s.n.toNat = N) (hw : s.w.toNat = w) (sd : CtrSeed) :
    (∃ o s', ctrOrg N w (F.keys N) sd = .ok o ∧ ctrReseed F false sd s = .ok s' ∧ CAt F N w lo o (0, none) s') ∨
      (ctrOrg N w (F.keys N) sd = .err .valueError ∧ ctrReseed F false sd s = .error .valueError) := by
  have hk := objOf_eq sd.key (F.keys N * w)
  have hc := objOf_eq sd.counter (N * w)
  rw [ctrOrg]
  cases hkey : sd.key with
  | some k =>
    rw [hkey] at hk
    rw [show ctrReseed F false sd s = ctrSeedKey F (objOf (some k)) (objOf sd.counter) s by rw [ctrReseed, hkey]; rfl]
    by_cases h1 : ∀ k' ∈ some k, 0 ≤ k' ∧ k' < 2 ^ (F.keys N * w)
    · rw [if_pos h1] at hk
      have hk0 : ((k.toNat : Nat) : Int) = k := Int.toNat_of_nonneg (h1 k rfl).1
      by_cases h2 : ∀ c' ∈ sd.counter, 0 ≤ c' ∧ c' < 2 ^ (N * w)
      · rw [if_pos h2] at hc
        obtain ⟨s', e1, e2⟩ := CAt.seedKey V H hlo hs hn hw (objOf (some k)) (objOf sd.counter) k.toNat sd.counter (by rw [hk0]; exact hk) hc
        refine Or.inl ⟨_, s', if_pos ⟨h1, h2⟩, e1, ?_⟩
        cases hq : sd.counter <;> rw [hq] at e2 <;> exact e2
      · rw [if_neg h2] at hc
        exact Or.inr ⟨if_neg fun h => h2 h.2, ctrSeedKey_err (objOf (some k)) _ s hn hw _ (Or.inr ⟨hk, hc⟩)⟩
    · rw [if_neg h1] at hk
      exact Or.inr ⟨if_neg fun h => h1 h.1, ctrSeedKey_err (objOf (some k)) _ s hn hw none (Or.inl hk)⟩
  | none =>
    rw [show ctrReseed F false sd s = ctrSeedKey F (.arr64 (F.seedKey N w sd.words)) (objOf sd.counter) s by rw [ctrReseed, hkey, ← hn, ← hw]; rfl]
    by_cases h2 : ∀ c' ∈ sd.counter, 0 ≤ c' ∧ c' < 2 ^ (N * w)
    · rw [if_pos h2] at hc
      obtain ⟨s', e1, e2⟩ := CAt.seedKey V H hlo hs hn hw _ (objOf sd.counter) _ sd.counter (H.key sd.words) hc
      refine Or.inl ⟨_, s', if_pos ⟨by simp, h2⟩, e1, ?_⟩
      cases hq : sd.counter <;> rw [hq] at e2 <;> exact e2
    · rw [if_neg h2] at hc
      exact Or.inr ⟨if_neg fun h => h2 h.2, ctrSeedKey_err _ _ s hn hw _ (Or.inr ⟨H.key sd.words, hc⟩)⟩

omit H in
theorem CAt.draw (hF : F.keys N ≤ 4) (b c : Bool) {o : Nat × Nat} {a : Nat × Option U32} {s : CtrI} (h : CAt F N w lo o a s) (k : Op) :
    ∃ s', ctrOp F b k s = some (((ctrSpec F b c N w).draw o k a).1, s') ∧ CAt F N w lo o ((ctrSpec F b c N w).draw o k a).2 s' := by
  obtain ⟨hs, hn, hw, hg⟩ := h
  have hN : s.actN.toNat = N := by rw [hs.2.2.2.2.1, hn]
  have hW : s.actW = s.w := hs.2.2.2.2.2
  rw [ctrOp]
  rw [hN, hW]
  rcases V.hw with rfl | rfl
  · rw [if_neg (by rintro e; rw [e] at hw; exact absurd hw (by decide))]
    obtain ⟨g', e1, e2⟩ := hg.draw32 V hlo b k
    exact ⟨s.put N g', by rw [e1]; rfl, hs, hn, hw, GAt.put V _ rfl hF _ e2⟩
  · rw [if_pos (BitVec.eq_of_toNat_eq hw)]
    obtain ⟨g', e1, e2⟩ := hg.draw64 V hlo k
    exact ⟨s.put N g', by rw [e1]; rfl, hs, hn, hw, GAt.put V _ rfl hF _ e2⟩

omit hlo in
theorem CAt.load {o : Nat × Nat} {a : Nat × Option U32} {s : CtrI} (h : CAt F N w lo o a s) (t : CtrI) :
    ∃ s', ctrSet F.short F.full F.keys F.room (ctrGet F.full F.keys s) t = (.ok (), s') ∧ CAt F N w lo o a s' := by
  obtain ⟨hs, hn, hw, hg⟩ := h
  obtain ⟨s', e1, e2⟩ := ctr_round_trip F.short F.full F.keys F.room s t hs (by rw [hn]; exact H.room) (by rw [hn]; exact H.four)
  have f : ∀ {α : Type} (f : CtrI → α), f (ctrView F.keys s') = f (ctrView F.keys s) := fun f => congrArg f e2
  have f1 : s'.n = s.n := f CtrI.n
  have f2 : s'.w = s.w := f CtrI.w
  have f3 : s'.number = s.number := f CtrI.number
  have f4 : s'.width = s.width := f CtrI.width
  have f5 : s'.actN = s.actN := f CtrI.actN
  have f6 : s'.actW = s.actW := f CtrI.actW
  refine ⟨s', e1, ?_, by rw [f1]; exact hn, by rw [f2]; exact hw, by rw [gen_view V F.keys hn hw e2]; exact hg⟩
  unfold CtrOk
  rw [f1, f2, f3, f4, f5, f6]
  exact hs

end

section
variable {F : CtrFam} {N w : Nat} (V : Variant N w) (H : FamOk F N w)
include V H

theorem CAt.block {o : Nat × Nat} {a : Nat × Option U32} {s : CtrI} (h : CAt F N w 1 o a s) (d : Int) :
    ∃ s', ctrMove F d true s = .ok s' ∧ CAt F N w 1 o (blockSkip N w d a) s' := by
  obtain ⟨hs, hn, hw, hg⟩ := h
  obtain ⟨g', e1, e2⟩ := hg.block V d
  refine ⟨s.put N g', ?_, hs, hn, hw, GAt.put V _ rfl H.four _ e2⟩
  rw [ctrMove]
  rw [hn]
  rcases V.hw with rfl | rfl
  · rw [if_neg (by rintro e; rw [e] at hw; exact absurd hw (by decide)), e1]
  · rw [if_pos (BitVec.eq_of_toNat_eq hw), e1]

theorem CAt.words (h4 : N = 4) {o : Nat × Nat} {a : Nat × Option U32} {s : CtrI} (h : CAt F N w 0 o a s) (d : Int) :
    ∃ s', ctrMove F d false s = .ok s' ∧ CAt F N w 0 o (wordSkip N w d a) s' := by
  obtain ⟨hs, hn, hw, hg⟩ := h
  obtain ⟨g', e1, e2⟩ := hg.words V h4 d
  refine ⟨s.put N g', ?_, hs, hn, hw, GAt.put V _ rfl H.four _ e2⟩
  rw [ctrMove]
  rw [hn]
  rcases V.hw with rfl | rfl
  · rw [if_neg (by rintro e; rw [e] at hw; exact absurd hw (by decide)), e1]
  · rw [if_pos (BitVec.eq_of_toNat_eq hw), e1]

/-- Arguments of the constructor: this variant, or arguments that are refused; not NumPy's seeding mode. -/
def ArgsOk (N w : Nat) (p : CtrArgs) : Prop :=
  p.numpy = false ∧ ((p.number = N ∧ p.width = w) ∨ ¬((p.number = 2 ∨ p.number = 4) ∧ (p.width = 32 ∨ p.width = 64)))

omit V H in
theorem ctrNew_eq (p : CtrArgs) (hp : p.numpy = false) (h : (p.number = 2 ∨ p.number = 4) ∧ (p.width = 32 ∨ p.width = 64)) (sd : CtrSeed) :
    ctrNew F p sd = match ctrReseed F false sd ⟨BitVec.ofInt 32 p.number, BitVec.ofInt 32 p.width, BitVec.ofInt 32 p.number, BitVec.ofInt 32 p.width,
      BitVec.ofInt 32 p.number, BitVec.ofInt 32 p.width, Vector.replicate 4 0, Vector.replicate 4 0, Vector.replicate 4 0, 0, 0, 0⟩ with
    | .ok s => .ok (false, s)
    | .error e => .err e := by
  rw [ctrNew, hp, if_neg (by simp), if_neg (by omega), if_neg (by omega)]
  rfl

theorem ctr_refines (b cm : Bool) (A : SOp CtrArgs CtrSeed → Prop) (lo : Int) (hlo : lo ≤ 1) (hclone : ∀ sd, ∃ t, ctrNew F {} ⟨sd, none, none⟩ = .ok t)
    (hnew : ∀ p sd, A (.new p sd) → ArgsOk N w p) (hjump : ∀ i n, A (.jump i n) → lo = 1) (hjumped : ∀ i n, A (.jumped i n) → lo = 1)
    (hadv : ∀ i d, A (.advance i d) → (cm = true ∧ lo = 1) ∨ (cm = false ∧ N = 4 ∧ lo = 0)) :
    RefinesOn (ctrCls F b cm) (ctrSpec F b cm N w) A (fun _ o a s => s.1 = false ∧ CAt F N w lo o a s.2) where
  start p sd hA := by
    obtain ⟨hp, h⟩ := hnew p sd hA
    show MadeRel _ (if _ then _ else _) (ctrNew F p sd)
    rcases h with ⟨e1, e2⟩ | h
    · have hv : (p.number = 2 ∨ p.number = 4) ∧ (p.width = 32 ∨ p.width = 64) := by
        have := V.hN
        have := V.hw
        omega
      rw [if_pos hv, ctrNew_eq p hp hv]
      have hn : (BitVec.ofInt 32 p.number).toNat = N := by
        rw [e1]; rcases V.hN with h | h <;> rw [h] <;> rfl
      have hw : (BitVec.ofInt 32 p.width).toNat = w := by
        rw [e2]; rcases V.hw with h | h <;> rw [h] <;> rfl
      have hok : CtrOk ⟨BitVec.ofInt 32 p.number, BitVec.ofInt 32 p.width, BitVec.ofInt 32 p.number, BitVec.ofInt 32 p.width,
          BitVec.ofInt 32 p.number, BitVec.ofInt 32 p.width, Vector.replicate 4 0, Vector.replicate 4 0, Vector.replicate 4 0, 0, 0, 0⟩ := by
        refine ⟨?_, ?_, rfl, rfl, rfl, rfl⟩
        · rcases hv.1 with h | h <;> rw [h]
          · exact Or.inl rfl
          · exact Or.inr rfl
        · rcases hv.2 with h | h <;> rw [h]
          · exact Or.inl rfl
          · exact Or.inr rfl
      rcases CAt.reseed V H hlo hok hn hw sd with ⟨o, s', f1, f2, f3⟩ | ⟨f1, f2⟩
      · rw [f1, f2]; exact ⟨rfl, f3⟩
      · rw [f1, f2]; rfl
    · rw [if_neg h]
      have : ctrNew F p sd = .err .valueError := by
        rw [ctrNew, hp, if_neg (by simp)]
        by_cases h1 : p.number ≠ 2 ∧ p.number ≠ 4
        · rw [if_pos h1]
        · rw [if_neg h1, if_pos (by omega)]
      rw [this]; rfl
  restart i sd _ p o a s h := by
    obtain ⟨h1, h2⟩ := h
    have e : (ctrCls F b cm).seed sd s = match ctrReseed F s.1 sd s.2 with | .ok t => .ok (s.1, t) | .error e => .err e := rfl
    rw [h1] at e
    refine ⟨?_, fun _ _ => ⟨h1, h2⟩⟩
    show MadeRel _ (ctrOrg N w (F.keys N) sd) _
    rw [e]
    rcases CAt.reseed V H hlo h2.1 h2.2.1 h2.2.2.1 sd with ⟨o, s', f1, f2, f3⟩ | ⟨f1, f2⟩
    · rw [f1, f2]; exact ⟨rfl, f3⟩
    · rw [f1, f2]; rfl
  draw i k _ p o a s h := by
    obtain ⟨s', e1, e2⟩ := CAt.draw V hlo H.four b cm h.2 k
    refine ⟨(s.1, s'), ?_, h.1, e2⟩
    show (ctrOp F b k s.2).map _ = _
    rw [e1]; rfl
  load i j _ p o a s p' o' a' t h ht := by
    obtain ⟨s', e1, e2⟩ := CAt.load V H h.2 t.2
    refine ⟨(t.1, s'), ?_, ht.1, e2⟩
    show ((ctrSet F.short F.full F.keys F.room (ctrGet F.full F.keys s.2) t.2).1, t.1, (ctrSet F.short F.full F.keys F.room (ctrGet F.full F.keys s.2) t.2).2) = _
    rw [e1]
  jump i n hA := by
    have := hjump i n hA
    subst this
    refine Or.inr ⟨_, _, _, rfl, rfl, rfl, Or.inr ⟨rfl, Or.inl ⟨_, rfl, fun p o a s h => ?_⟩⟩⟩
    obtain ⟨s', e1, e2⟩ := CAt.block V H h.2 (n * 2 ^ (w * N / 2))
    refine ⟨(s.1, s'), ?_, h.1, e2⟩
    rw [h.2.2.1, h.2.2.2.1, e1]
  jumped i n hA := by
    have := hjumped i n hA
    subst this
    refine Or.inr ⟨_, _, _, _, rfl, rfl, rfl, ?_⟩
    by_cases hi : -2 ^ 63 ≤ n ∧ n < 2 ^ 63
    · refine Or.inr ⟨by simp only [isIntp, hi.1, hi.2, decide_true, Bool.and_self, Bool.not_true, Bool.and_false], fun p o a s sd h _ => ?_⟩
      obtain ⟨t, ht⟩ := hclone sd.words
      obtain ⟨s', e1, e2⟩ := CAt.load V H h.2 t.2
      obtain ⟨s'', e3, e4⟩ := CAt.block V H e2 (n * 2 ^ (w * N / 2))
      have hm : t.1 = false := by
        rw [ctrNew_eq _ rfl ⟨Or.inr rfl, Or.inr rfl⟩] at ht
        revert ht
        generalize ctrReseed F false _ _ = r
        intro ht
        cases r with
        | ok r => exact (Made.ok.inj ht) ▸ rfl
        | error e => cases ht
      refine ⟨t, (t.1, s'), ?_, ?_, Or.inl ⟨_, (t.1, s''), if_pos hi, ?_, hm, e4⟩⟩
      · show ctrNew F { numpy := s.1 } _ = _
        rw [h.1]; exact ht
      · show ((ctrSet F.short F.full F.keys F.room (ctrGet F.full F.keys s.2) t.2).1, t.1, (ctrSet F.short F.full F.keys F.room (ctrGet F.full F.keys s.2) t.2).2) = _
        rw [e1]
      · dsimp only
        rw [e2.2.1, e2.2.2.1, e3]
    · refine Or.inl ⟨?_, if_neg hi, rfl⟩
      simp only [isIntp, Bool.true_and, Bool.not_eq_true', Bool.and_eq_false_iff, decide_eq_false_iff_not]
      omega
  advance i d hA := by
    refine Or.inl ⟨_, _, rfl, rfl, Or.inr ⟨rfl, fun p o a s h => ?_⟩⟩
    rcases hadv i d hA with ⟨rfl, rfl⟩ | ⟨rfl, h4, rfl⟩
    · obtain ⟨s', e1, e2⟩ := CAt.block V H h.2 d
      refine ⟨(s.1, s'), ?_, h.1, e2⟩
      rw [e1]
    · obtain ⟨s', e1, e2⟩ := CAt.words V H h4 h.2 d
      refine ⟨(s.1, s'), ?_, h.1, e2⟩
      rw [e1]

end

theorem ctrNew_default {F : CtrFam} (V : Variant 4 64) (H : FamOk F 4 64) (ws : Nat → U64) : ∃ t, ctrNew F {} ⟨ws, none, none⟩ = .ok t := by
  rw [ctrNew_eq _ rfl ⟨Or.inr rfl, Or.inr rfl⟩]
  rcases CAt.reseed V H (lo := 1) (le_refl _) (s := ⟨4, 64, 4, 64, 4, 64, Vector.replicate 4 0, Vector.replicate 4 0, Vector.replicate 4 0, 0, 0, 0⟩)
    ⟨Or.inr rfl, Or.inr rfl, rfl, rfl, rfl, rfl⟩ rfl rfl ⟨ws, none, none⟩ with ⟨o, s', f1, f2, f3⟩ | ⟨f1, f2⟩
  · exact ⟨(false, s'), by rw [show BitVec.ofInt 32 ({} : CtrArgs).number = 4 from rfl, show BitVec.ofInt 32 ({} : CtrArgs).width = 64 from rfl, f2]⟩
  · rw [ctrOrg, if_pos (by simp)] at f1
    cases f1

/-! ### The theorems -/

/-- C95 for Philox with `advance(counter=True)`, in programs whose instances are all of one variant, none in NumPy's seeding mode. In that mode it
is false: `not_C95_philox_numpy`. Not covered: programs that mix variants. -/
theorem C95_philox_counter_partial {N w : Nat} (hN : N = 2 ∨ N = 4) (hw : w = 32 ∨ w = 64) (hiFirst : Bool) (os : List (SOp CtrArgs CtrSeed))
    (h : ∀ p sd, .new p sd ∈ os → ArgsOk N w p) : (ctrCls philoxFam hiFirst true).program os = (ctrSpec philoxFam hiFirst true N w).program os :=
  (ctr_refines ⟨hN, hw⟩ (philoxFam_ok ⟨hN, hw⟩) hiFirst true (· ∈ os) 1 (le_refl _)
    (ctrNew_default ⟨Or.inr rfl, Or.inr rfl⟩ (philoxFam_ok ⟨Or.inr rfl, Or.inr rfl⟩)) h (fun _ _ _ => rfl) (fun _ _ _ => rfl)
    (fun _ _ _ => Or.inl ⟨rfl, rfl⟩)).program os fun _ ho => ho

/-- C95 for ThreeFry with `advance(counter=True)`, in programs whose instances are all of one variant. -/
theorem C95_threefry_counter_partial {N w : Nat} (hN : N = 2 ∨ N = 4) (hw : w = 32 ∨ w = 64) (hiFirst : Bool) (os : List (SOp CtrArgs CtrSeed))
    (h : ∀ p sd, .new p sd ∈ os → ArgsOk N w p) : (ctrCls threefryFam hiFirst true).program os = (ctrSpec threefryFam hiFirst true N w).program os :=
  (ctr_refines ⟨hN, hw⟩ (threefryFam_ok ⟨hN, hw⟩) hiFirst true (· ∈ os) 1 (le_refl _)
    (ctrNew_default ⟨Or.inr rfl, Or.inr rfl⟩ (threefryFam_ok ⟨Or.inr rfl, Or.inr rfl⟩)) h (fun _ _ _ => rfl) (fun _ _ _ => rfl)
    (fun _ _ _ => Or.inl ⟨rfl, rfl⟩)).program os fun _ ho => ho

/-- C95 for Philox with `advance(counter=False)`, for the variants with four words, in programs without jumps. With jumps it is false:
`not_C95_philox`. -/
theorem C95_philox_draws_partial {w : Nat} (hw : w = 32 ∨ w = 64) (hiFirst : Bool) (os : List (SOp CtrArgs CtrSeed))
    (h : ∀ p sd, .new p sd ∈ os → ArgsOk 4 w p) (hj : ∀ i n, .jump i n ∉ os ∧ .jumped i n ∉ os) :
    (ctrCls philoxFam hiFirst false).program os = (ctrSpec philoxFam hiFirst false 4 w).program os :=
  (ctr_refines ⟨Or.inr rfl, hw⟩ (philoxFam_ok ⟨Or.inr rfl, hw⟩) hiFirst false (· ∈ os) 0 (by decide)
    (ctrNew_default ⟨Or.inr rfl, Or.inr rfl⟩ (philoxFam_ok ⟨Or.inr rfl, Or.inr rfl⟩)) h (fun i n hA => absurd hA (hj i n).1)
    (fun i n hA => absurd hA (hj i n).2) (fun _ _ _ => Or.inr ⟨rfl, rfl, rfl⟩)).program os fun _ ho => ho

/-- The same for ThreeFry. -/
theorem C95_threefry_draws_partial {w : Nat} (hw : w = 32 ∨ w = 64) (hiFirst : Bool) (os : List (SOp CtrArgs CtrSeed))
    (h : ∀ p sd, .new p sd ∈ os → ArgsOk 4 w p) (hj : ∀ i n, .jump i n ∉ os ∧ .jumped i n ∉ os) :
    (ctrCls threefryFam hiFirst false).program os = (ctrSpec threefryFam hiFirst false 4 w).program os :=
  (ctr_refines ⟨Or.inr rfl, hw⟩ (threefryFam_ok ⟨Or.inr rfl, hw⟩) hiFirst false (· ∈ os) 0 (by decide)
    (ctrNew_default ⟨Or.inr rfl, Or.inr rfl⟩ (threefryFam_ok ⟨Or.inr rfl, Or.inr rfl⟩)) h (fun i n hA => absurd hA (hj i n).1)
    (fun i n hA => absurd hA (hj i n).2) (fun _ _ _ => Or.inr ⟨rfl, rfl, rfl⟩)).program os fun _ ho => ho

/-- The hypotheses are met by programs that use every call. -/
example (hiFirst : Bool) (ws : Nat → U64) :
    let p : List (SOp CtrArgs CtrSeed) := [.new { number := 2, width := 32 } ⟨ws, some 5, none⟩, .new { number := 3 } ⟨ws, none, none⟩, .draw 0 .u64,
      .jumped 0 3, .save 0, .draw 0 .u32, .jump 1 (-2 ^ 70), .advance 1 (-1), .load 1 0, .seed 0 ⟨ws, some (-1), some 7⟩, .draw 1 .dbl]
    let q : List (SOp CtrArgs CtrSeed) := [.new {} ⟨ws, some 5, none⟩, .draw 0 .u32, .save 0, .advance 0 (-4), .draw 0 .u32, .load 0 0, .draw 0 .dbl]
    ((ctrCls philoxFam hiFirst true).program p = (ctrSpec philoxFam hiFirst true 2 32).program p ∧
      (ctrCls threefryFam hiFirst true).program p = (ctrSpec threefryFam hiFirst true 2 32).program p) ∧
      (ctrCls philoxFam hiFirst false).program q = (ctrSpec philoxFam hiFirst false 4 64).program q ∧
      (ctrCls threefryFam hiFirst false).program q = (ctrSpec threefryFam hiFirst false 4 64).program q := by
  have hp : ∀ p sd, SOp.new p sd ∈ ([.new { number := 2, width := 32 } ⟨ws, some 5, none⟩, .new { number := 3 } ⟨ws, none, none⟩, .draw 0 .u64,
      .jumped 0 3, .save 0, .draw 0 .u32, .jump 1 (-2 ^ 70), .advance 1 (-1), .load 1 0, .seed 0 ⟨ws, some (-1), some 7⟩, .draw 1 .dbl] :
      List (SOp CtrArgs CtrSeed)) → ArgsOk 2 32 p := by
    intro p sd h
    simp only [List.mem_cons, SOp.new.injEq, reduceCtorEq, List.not_mem_nil, or_false] at h
    rcases h with ⟨rfl, -⟩ | ⟨rfl, -⟩
    · exact ⟨rfl, Or.inl ⟨rfl, rfl⟩⟩
    · exact ⟨rfl, Or.inr (by decide)⟩
  have hq : ∀ p sd, SOp.new p sd ∈ ([.new {} ⟨ws, some 5, none⟩, .draw 0 .u32, .save 0, .advance 0 (-4), .draw 0 .u32, .load 0 0, .draw 0 .dbl] :
      List (SOp CtrArgs CtrSeed)) → ArgsOk 4 64 p := by
    intro p sd h
    simp only [List.mem_cons, SOp.new.injEq, reduceCtorEq, List.not_mem_nil, or_false] at h
    rw [h.1]
    exact ⟨rfl, Or.inl ⟨rfl, rfl⟩⟩
  exact ⟨⟨C95_philox_counter_partial (Or.inl rfl) (Or.inl rfl) _ _ hp, C95_threefry_counter_partial (Or.inl rfl) (Or.inl rfl) _ _ hp⟩,
    C95_philox_draws_partial (Or.inr rfl) _ _ hq (by simp), C95_threefry_draws_partial (Or.inr rfl) _ _ hq (by simp)⟩

/-- `advance(4)` of a new instance leaves `buffer_pos` 0, so a jump drops the whole block that was just made: one more than it skips for an
instance that has drawn four words. -/
theorem not_C95_philox (hiFirst : Bool) : ¬∀ os : List (SOp CtrArgs CtrSeed), (∀ p sd, .new p sd ∈ os → ArgsOk 4 64 p) →
    (ctrCls philoxFam hiFirst false).program os = (ctrSpec philoxFam hiFirst false 4 64).program os := by
  intro h
  have := h [.new {} ⟨fun _ => 0, none, some 1⟩, .advance 0 4, .jump 0 1, .draw 0 .u64] (by
    intro p sd h
    simp only [List.mem_cons, SOp.new.injEq, reduceCtorEq, List.not_mem_nil, or_false] at h
    rw [h.1]
    exact ⟨rfl, Or.inl ⟨rfl, rfl⟩⟩)
  revert this
  cases hiFirst <;> decide +kernel

theorem not_C95_threefry (hiFirst : Bool) : ¬∀ os : List (SOp CtrArgs CtrSeed), (∀ p sd, .new p sd ∈ os → ArgsOk 4 64 p) →
    (ctrCls threefryFam hiFirst false).program os = (ctrSpec threefryFam hiFirst false 4 64).program os := by
  intro h
  have := h [.new {} ⟨fun _ => 0, none, some 1⟩, .advance 0 4, .jump 0 1, .draw 0 .u64] (by
    intro p sd h
    simp only [List.mem_cons, SOp.new.injEq, reduceCtorEq, List.not_mem_nil, or_false] at h
    rw [h.1]
    exact ⟨rfl, Or.inl ⟨rfl, rfl⟩⟩)
  revert this
  cases hiFirst <;> decide +kernel

/-- In NumPy's seeding mode the argument `counter` is ignored: `Philox(seed, counter=5, numpy_seed=True)` starts at counter 0. -/
theorem not_C95_philox_numpy (hiFirst : Bool) : ¬∀ os : List (SOp CtrArgs CtrSeed), (∀ p sd, .new p sd ∈ os → p.number = 4 ∧ p.width = 64) →
    (ctrCls philoxFam hiFirst true).program os = (ctrSpec philoxFam hiFirst true 4 64).program os := by
  intro h
  have := h [.new { numpy := true } ⟨fun _ => 3, some 5, none⟩, .draw 0 .u64] (by
    intro p sd h
    simp only [List.mem_cons, SOp.new.injEq, reduceCtorEq, List.not_mem_nil, or_false] at h
    rw [h.1]
    exact ⟨rfl, rfl⟩)
  revert this
  cases hiFirst <;> decide +kernel

end Verif
