import Verif.Props.Rdrand

/-! C48 for whole programs: draws through the buffer, `random_raw`, assignments of `retries` and `_reset` in any order. -/

namespace Verif

/-- The attempts among number `a, …, b - 1` that succeeded. -/
def hwIdx (hw : Hw) (a b : Nat) : List Nat := (List.range' a (b - a)).filter fun i => (hw i).isSome

theorem hwIdx_map (hw : Hw) (a b : Nat) : (hwIdx hw a b).map hw = (hwWords hw a b).map some := by
  unfold hwIdx hwWords
  induction List.range' a (b - a) with
  | nil => rfl
  | cons i l ih =>
    cases h : hw i with
    | none => rw [List.filter_cons_of_neg (by simp [h]), List.filterMap_cons_none h]; exact ih
    | some v =>
      rw [List.filter_cons_of_pos (by simp [h]), List.filterMap_cons_some h, List.map_cons, List.map_cons, ih, h]

theorem hwIdx_nodup (hw : Hw) (a b : Nat) : (hwIdx hw a b).Nodup := List.Nodup.filter _ List.nodup_range'

theorem mem_hwIdx {hw : Hw} {a b i : Nat} (h : i ∈ hwIdx hw a b) : a ≤ i ∧ i < b := by
  unfold hwIdx at h
  rw [List.mem_filter, List.mem_range'_1] at h
  omega

/-- What holds between two steps of a program: `ix` are the attempts that produced the words delivered, `bx` those that
produced the words still in the buffer. -/
structure RdInv (hw : Hw) (t0 : Nat) (outs : List U64) (s : Rdr) : Prop where
  status : s.status = 0 ∨ s.status = 1
  le : t0 ≤ s.t
  idx : ∃ ix bx : List Nat, (ix ++ bx).Nodup ∧ (∀ i ∈ ix ++ bx, t0 ≤ i ∧ i < s.t) ∧ ix.map hw = outs.map some ∧
    (s.status = 1 → 0 ≤ s.loc ∧ s.loc ≤ 256 ∧
      bx.map hw = ((List.range' s.loc.toNat (256 - s.loc.toNat)).map s.buffer).map some)

/-- Words taken from the processor past the buffer. -/
theorem RdInv.direct {hw : Hw} {t0 : Nat} {outs : List U64} {s s' : Rdr} (h : RdInv hw t0 outs s) (ht : s.t ≤ s'.t)
    (hst : s'.status = 0 ∨ (s'.status = s.status ∧ s'.loc = s.loc ∧ s'.buffer = s.buffer)) :
    RdInv hw t0 (outs ++ hwWords hw s.t s'.t) s' := by
  obtain ⟨h1, h2, ix, bx, hn, hb, hm, hs⟩ := h
  refine ⟨?_, by omega, ?_⟩
  · rcases hst with e | ⟨e, -⟩
    · exact Or.inl e
    · rw [e]; exact h1
  refine ⟨ix ++ hwIdx hw s.t s'.t, bx, ?_, ?_, ?_, ?_⟩
  · rw [List.append_assoc, List.nodup_append] at *
    obtain ⟨n1, n2, n3⟩ := hn
    refine ⟨n1, ?_, ?_⟩
    · rw [List.nodup_append]
      refine ⟨hwIdx_nodup hw _ _, n2, fun a ha b hb' e => ?_⟩
      have := mem_hwIdx ha
      have := hb b (List.mem_append_right _ hb')
      omega
    · intro a ha b hb' e
      rcases List.mem_append.1 hb' with hh | hh
      · have := mem_hwIdx hh
        have := hb a (List.mem_append_left _ ha)
        omega
      · exact n3 a ha b hh e
  · intro i hi
    rw [List.append_assoc, List.mem_append, List.mem_append] at hi
    rcases hi with hi | hi | hi
    · have := hb i (List.mem_append_left _ hi); omega
    · have := mem_hwIdx hi; omega
    · have := hb i (List.mem_append_right _ hi); omega
  · rw [List.map_append, List.map_append, hm, hwIdx_map]
  · intro h
    rcases hst with e | ⟨e, e2, e3⟩
    · rw [e] at h; exact absurd h (by decide)
    · rw [e2, e3]; exact hs (e ▸ h)

/-- The state changes without any word being delivered. -/
theorem RdInv.silent {hw : Hw} {t0 : Nat} {outs : List U64} {s s' : Rdr} (h : RdInv hw t0 outs s) (ht : s.t ≤ s'.t)
    (hst : s'.status = 0 ∨ (s'.status = s.status ∧ s'.loc = s.loc ∧ s'.buffer = s.buffer) ∨
      (s'.status = 1 ∧ s'.loc = 256)) :
    RdInv hw t0 outs s' := by
  obtain ⟨h1, h2, ix, bx, hn, hb, hm, hs⟩ := h
  refine ⟨?_, by omega, ?_⟩
  · rcases hst with e | ⟨e, -⟩ | ⟨e, -⟩
    · exact Or.inl e
    · rw [e]; exact h1
    · exact Or.inr e
  rcases hst with e | ⟨e, e2, e3⟩ | ⟨e, e2⟩
  · refine ⟨ix, bx, hn, fun i hi => ?_, hm, fun h => ?_⟩
    · have := hb i hi; omega
    · rw [e] at h; exact absurd h (by decide)
  · refine ⟨ix, bx, hn, fun i hi => ?_, hm, ?_⟩
    · have := hb i hi; omega
    · rw [e, e2, e3]; exact hs
  · refine ⟨ix, [], ?_, fun i hi => ?_, hm, fun _ => ?_⟩
    · rw [List.append_nil]; exact (List.nodup_append.1 hn).1
    · rw [List.append_nil] at hi
      have := hb i (List.mem_append_left _ hi); omega
    · rw [e2]; exact ⟨by decide, by decide, rfl⟩

/-- A word taken from the buffer while the flag is 1. -/
theorem RdInv.take {hw : Hw} {t0 : Nat} {outs : List U64} {s : Rdr} (h : RdInv hw t0 outs s) (h1 : s.status = 1)
    {r : U64 × Rdr} (hr : rdTake s = some r) : RdInv hw t0 (outs ++ [r.1]) r.2 := by
  obtain ⟨hst, h2, ix, bx, hn, hb, hm, hs⟩ := h
  unfold rdTake at hr
  split at hr
  · rename_i hl
    simp only [Option.some.injEq] at hr
    subst hr
    obtain ⟨-, -, hs⟩ := hs h1
    have e1 : (s.loc + 1).toNat = s.loc.toNat + 1 := by omega
    have e2 : 256 - s.loc.toNat = (256 - (s.loc.toNat + 1)) + 1 := by omega
    rw [e2, List.range'_succ, List.map_cons, List.map_cons] at hs
    cases bx with
    | nil => simp at hs
    | cons b bx =>
      rw [List.map_cons, List.cons.injEq] at hs
      refine ⟨hst, h2, ix ++ [b], bx, ?_, ?_, ?_, fun _ => ?_⟩
      · simpa using hn
      · simpa using hb
      · rw [List.map_append, List.map_append, hm, List.map_cons, List.map_nil, List.map_cons, List.map_nil, hs.1]
      · refine ⟨by dsimp only; omega, by dsimp only; omega, ?_⟩
        dsimp only
        rw [e1]
        exact hs.2
  · simp at hr

theorem rdFill_time (hw : Hw) (s : Rdr) : s.t ≤ (rdFill hw s).t := by
  have hl := rdFill_loop hw s 256
  simp only [rdFill]
  generalize List.range 256 = l at hl ⊢
  exact hl.2.2.2.2.2

theorem RdInv.draw {hw : Hw} {t0 : Nat} {outs : List U64} {s : Rdr} (h : RdInv hw t0 outs s) {r : U64 × Rdr}
    (hr : rdNext64 hw s = some r) : RdInv hw t0 (outs ++ if r.2.status = 1 then [r.1] else []) r.2 := by
  have hkeep : ∀ {s : Rdr} {r : U64 × Rdr}, rdTake s = some r → r.2.status = s.status ∧ r.2.t = s.t := by
    intro s r ht
    unfold rdTake at ht
    split at ht
    · simp only [Option.some.injEq] at ht; subst ht; exact ⟨rfl, rfl⟩
    · simp at ht
  unfold rdNext64 at hr
  split at hr
  · rename_i h1
    rw [if_pos (by rw [(hkeep hr).1]; exact h1.1)]
    exact h.take h1.1 hr
  · split at hr
    · rename_i h1
      have ht := rdFill_time hw s
      obtain ⟨-, e3, e4, -, e6⟩ := rdFill_spec hw s
      have hst : (rdFill hw s).status = 0 ∨ (rdFill hw s).status = 1 := by
        rcases e3 with e | e
        · rw [e]; exact Or.inr h1
        · exact Or.inl e
      have key : RdInv hw t0 outs (rdFill hw s) := by
        rcases hst with e | e
        · exact h.silent ht (Or.inl e)
        · obtain ⟨m1, -, m3⟩ := e4 h1 e
          obtain ⟨-, h2, ix, bx, hn, hb, hm, -⟩ := h
          refine ⟨Or.inr e, by omega, ix, hwIdx hw s.t (rdFill hw s).t, ?_, ?_, hm, fun _ => ?_⟩
          · rw [List.nodup_append]
            refine ⟨(List.nodup_append.1 hn).1, hwIdx_nodup hw _ _, fun a ha b hb' e => ?_⟩
            have := mem_hwIdx hb'
            have := hb a (List.mem_append_left _ ha)
            omega
          · intro i hi
            rcases List.mem_append.1 hi with hi | hi
            · have := hb i (List.mem_append_left _ hi); omega
            · have := mem_hwIdx hi; omega
          · refine ⟨by rw [e6], by rw [e6]; decide, ?_⟩
            have hr0 : List.range' (rdFill hw s).loc.toNat (256 - (rdFill hw s).loc.toNat) = List.range 256 := by
              rw [e6]; exact List.range_eq_range'.symm
            rw [hr0, m3, hwIdx_map]
      generalize rdFill hw s = s' at hr key hst
      simp only [Option.bind_eq_bind] at hr
      cases hq : rdTake s' with
      | none => rw [hq] at hr; simp at hr
      | some q =>
        rw [hq] at hr
        simp only [Option.bind_some, Option.pure_def] at hr
        obtain ⟨k1, k2⟩ := hkeep hq
        split at hr
        · rename_i hz
          simp only [Option.some.injEq] at hr
          subst hr
          dsimp only
          rw [if_neg (by rw [k1, hz]; decide), List.append_nil]
          exact key.silent (by dsimp only; omega) (Or.inl (by dsimp only; rw [k1, hz]))
        · rename_i hz
          simp only [Option.some.injEq] at hr
          subst hr
          have h1' : s'.status = 1 := by rcases hst with e | e
                                         · exact absurd e hz
                                         · exact e
          rw [if_pos (by rw [k1]; exact h1')]
          exact key.take h1' hq
    · rename_i h1
      have h0 : s.status = 0 := by rcases h.status with e | e
                                   · exact e
                                   · exact absurd e h1
      obtain ⟨k1, k2⟩ := hkeep hr
      rw [if_neg (by rw [k1, h0]; decide), List.append_nil]
      exact h.silent (by omega) (Or.inl (by rw [k1, h0]))

/-- The loop over `rdrand_next64` keeps the buffer and the cursor. -/
theorem rdLoop_keep (hw : Hw) (n : Nat) (st : Int) (s : Rdr) :
    (rdLoop hw n st s).2.2.loc = s.loc ∧ (rdLoop hw n st s).2.2.buffer = s.buffer := by
  induction n generalizing st s with
  | zero => exact ⟨rfl, rfl⟩
  | succ n ih =>
    simp only [rdLoop]
    have hd : (rdDirect hw 0 s).2.loc = s.loc ∧ (rdDirect hw 0 s).2.buffer = s.buffer := by
      unfold rdDirect
      split <;> exact ⟨rfl, rfl⟩
    obtain ⟨a, b⟩ := ih (if st = 1 ∧ (rdDirect hw 0 s).2.status = 1 then 1 else 0) (rdDirect hw 0 s).2
    exact ⟨a.trans hd.1, b.trans hd.2⟩

theorem rdFin {hw : Hw} {t0 : Nat} {outs : List U64} {s : Rdr} (h : RdInv hw t0 outs s) (n : Nat) (st : Int)
    (hst : st = 0 ∨ st = 1) :
    let r := rdLoop hw n st s
    let s' := { r.2.2 with status := if r.2.2.status = 1 ∧ r.2.1 = 1 then 1 else 0 }
    RdInv hw t0 outs s' ∧ (r.2.1 ≠ 0 → RdInv hw t0 (outs ++ r.1) s') := by
  have hsp := rdLoop_spec hw n st s hst h.status
  obtain ⟨k1, k2⟩ := rdLoop_keep hw n st s
  simp only at hsp ⊢
  generalize rdLoop hw n st s = r at hsp k1 k2
  obtain ⟨i1, i2, i3, i4, i5, i6, i7⟩ := hsp
  have hcase : (if r.2.2.status = 1 ∧ r.2.1 = 1 then (1 : Int) else 0) = 0 ∨
      ((if r.2.2.status = 1 ∧ r.2.1 = 1 then (1 : Int) else 0) = s.status ∧ r.2.2.loc = s.loc ∧ r.2.2.buffer = s.buffer) := by
    split
    · rename_i hc
      right
      refine ⟨?_, k1, k2⟩
      rw [← (i6 hc.2).2.1, hc.1]
    · left; rfl
  constructor
  · exact h.silent i4 (hcase.imp id Or.inl)
  · intro hne
    have h1 : r.2.1 = 1 := by rcases i2 with e | e
                              · exact absurd e hne
                              · exact e
    rw [(i6 h1).2.2]
    exact h.direct (s' := { r.2.2 with status := if r.2.2.status = 1 ∧ r.2.1 = 1 then 1 else 0 }) i4 hcase

theorem RdInv.raw {hw : Hw} {t0 : Nat} {outs : List U64} {s : Rdr} (h : RdInv hw t0 outs s) (size : Size) (output : Bool)
    {r : List U64 × Rdr} (hr : rdOp hw s (.raw size output) = some r) : RdInv hw t0 (outs ++ r.1) r.2 := by
  have fin : ∀ (n : Nat) (st : Int) (v : RawOut), (st = 0 ∨ st = 1) → (v.words = [] ∨ v.words = (rdLoop hw n st s).1) →
      ∀ o : Except RdErr RawOut × Rdr,
      o = (let s' := { (rdLoop hw n st s).2.2 with
              status := if (rdLoop hw n st s).2.2.status = 1 ∧ (rdLoop hw n st s).2.1 = 1 then 1 else 0 }
           if (rdLoop hw n st s).2.1 = 0 then (.error .runtime, s') else (.ok v, s')) →
      (match o with
       | (.ok v, s') => some (v.words, s')
       | (.error _, s') => some (([] : List U64), s')) = some r → RdInv hw t0 (outs ++ r.1) r.2 := by
    intro n st v hst hv o ho hr
    obtain ⟨f1, f2⟩ := rdFin h n st hst
    generalize rdLoop hw n st s = q at *
    simp only at f1 f2 ho
    by_cases hz : q.2.1 = 0
    · rw [if_pos hz] at ho
      subst ho
      simp only [Option.some.injEq] at hr
      subst hr
      rw [List.append_nil]
      exact f1
    · rw [if_neg hz] at ho
      subst ho
      simp only [Option.some.injEq] at hr
      subst hr
      rcases hv with hv | hv
      · rw [hv, List.append_nil]; exact f1
      · rw [hv]; exact f2 hz
  unfold rdOp at hr
  simp only at hr
  cases output with
  | false =>
    cases size with
    | none => exact fin 1 s.status .nothing h.status (Or.inl rfl) _ rfl hr
    | int n => exact fin n.toNat s.status .nothing h.status (Or.inl rfl) _ rfl hr
    | tup d =>
      simp only [rdRandomRaw, if_true, Option.some.injEq] at hr
      subst hr
      rw [List.append_nil]
      exact h
  | true =>
    have arr : ∀ size : Size, size ≠ .none → (match rdRandomRaw hw size true s with
       | (.ok v, s') => some (v.words, s')
       | (.error _, s') => some (([] : List U64), s')) = some r → RdInv hw t0 (outs ++ r.1) r.2 := by
      intro size hne hr
      cases hn : npEmptySize size.dims with
      | error e =>
        have hk : rdRandomRaw hw size true s = (.error .value, s) := by
          unfold rdRandomRaw
          cases size with
          | none => exact absurd rfl hne
          | int k => simp only [hn]; rfl
          | tup k => simp only [hn]; rfl
        rw [hk] at hr
        simp only [Option.some.injEq] at hr
        subst hr
        rw [List.append_nil]
        exact h
      | ok n =>
        refine fin n 1 (.array size.dims (rdLoop hw n 1 s).1) (Or.inr rfl) (Or.inr rfl) _ ?_ hr
        unfold rdRandomRaw
        cases size with
        | none => exact absurd rfl hne
        | int k => simp only [hn]; rfl
        | tup k => simp only [hn]; rfl
    cases size with
    | int n => exact arr _ (by simp) hr
    | tup d => exact arr _ (by simp) hr
    | none =>
      have key : rdRandomRaw hw .none true s = (if (rdDirect hw 0 s).2.status = 0
          then (.error .runtime, { (rdDirect hw 0 s).2 with status := 0 })
          else (.ok (.scalar (rdDirect hw 0 s).1), (rdDirect hw 0 s).2)) := rfl
      rw [key] at hr
      cases ha : rdAttempts hw (rdAllowed s.retries) s.t with
      | mk o t' =>
        cases o with
        | none =>
          have hd : (rdDirect hw 0 s).2 = { s with status := 0, t := t' } := by simp only [rdDirect, ha]
          rw [hd, if_pos rfl] at hr
          simp only [Option.some.injEq] at hr
          subst hr
          rw [List.append_nil]
          exact h.silent (by have := ((rdAttempts_spec hw _ _).2 t' ha).1; dsimp only; omega) (Or.inl rfl)
        | some v =>
          obtain ⟨a1, a2, a3, a4⟩ := (rdAttempts_spec hw _ _).1 v t' ha
          have hd : rdDirect hw 0 s = (v, { s with t := t' }) := by simp only [rdDirect, ha]
          rw [hd] at hr
          by_cases hz : s.status = 0
          · rw [if_pos hz] at hr
            simp only [Option.some.injEq] at hr
            subst hr
            rw [List.append_nil]
            exact h.silent (Nat.le_of_lt a1) (Or.inl rfl)
          · rw [if_neg hz] at hr
            simp only [Option.some.injEq] at hr
            subst hr
            show RdInv hw t0 (outs ++ [v]) _
            rw [← a4]
            exact h.direct (s' := { s with t := t' }) (Nat.le_of_lt a1) (Or.inr ⟨rfl, rfl, rfl⟩)

theorem RdInv.op {hw : Hw} {t0 : Nat} {outs : List U64} {s : Rdr} (h : RdInv hw t0 outs s) (o : RdOp)
    {r : List U64 × Rdr} (hr : rdOp hw s o = some r) : RdInv hw t0 (outs ++ r.1) r.2 := by
  cases o with
  | draw =>
    simp only [rdOp, Option.map_eq_some_iff] at hr
    obtain ⟨q, hq, rfl⟩ := hr
    exact h.draw hq
  | raw size output => exact h.raw size output hr
  | setRetries k =>
    simp only [rdOp, Option.some.injEq] at hr
    subst hr
    rw [List.append_nil]
    exact h.silent (Nat.le_refl _) (Or.inr (Or.inl ⟨rfl, rfl, rfl⟩))
  | reset =>
    simp only [rdOp, Option.some.injEq] at hr
    subst hr
    rw [List.append_nil]
    unfold rdReset
    split
    · exact h.silent (Nat.le_refl _) (Or.inr (Or.inr ⟨rfl, rfl⟩))
    · exact h

/-- C48 for every program: whatever the processor does and however draws, calls of `random_raw`, assignments of `retries`
(negative ones included) and `_reset` follow each other, every word delivered as random is the result of a successful
attempt made since the object was created, and no attempt is delivered twice, neither as two draws nor as a draw and an
element of `random_raw`. -/
theorem C48_program (hw : Hw) (retries : Int) (t0 : Nat) (os : List RdOp) {outs : List U64} {s : Rdr}
    (h : rdProg hw os (rdInit retries t0) = some (outs, s)) :
    ∃ ix : List Nat, ix.Nodup ∧ (∀ i ∈ ix, t0 ≤ i ∧ i < s.t) ∧ ix.map hw = outs.map some := by
  have gen : ∀ (os : List RdOp) (pre : List U64) (s0 : Rdr) (outs : List U64) (s : Rdr), RdInv hw t0 pre s0 →
      rdProg hw os s0 = some (outs, s) → RdInv hw t0 (pre ++ outs) s := by
    intro os
    induction os with
    | nil =>
      intro pre s0 outs s h0 h
      simp only [rdProg, Option.some.injEq, Prod.mk.injEq] at h
      obtain ⟨rfl, rfl⟩ := h
      rw [List.append_nil]
      exact h0
    | cons o os ih =>
      intro pre s0 outs s h0 h
      rw [rdProg] at h
      cases hq : rdOp hw s0 o with
      | none => rw [hq] at h; simp at h
      | some r =>
        rw [hq] at h
        simp only [Option.bind_eq_bind, Option.bind_some] at h
        cases hp : rdProg hw os r.2 with
        | none => rw [hp] at h; simp at h
        | some p =>
          rw [hp] at h
          simp only [Option.bind_some, Option.pure_def, Option.some.injEq, Prod.mk.injEq] at h
          obtain ⟨rfl, rfl⟩ := h
          rw [← List.append_assoc]
          exact ih _ _ _ _ (h0.op o hq) hp
  have h0 : RdInv hw t0 [] (rdInit retries t0) :=
    ⟨Or.inr rfl, Nat.le_refl _, [], [], List.nodup_nil, by simp, rfl, fun _ => ⟨show (0 : Int) ≤ 256 by decide, show (256 : Int) ≤ 256 by decide, rfl⟩⟩
  obtain ⟨-, -, ix, bx, hn, hb, hm, -⟩ := gen os [] _ _ _ h0 h
  exact ⟨ix, (List.nodup_append.1 hn).1, fun i hi => hb i (List.mem_append_left _ hi), hm⟩

/-- Draws, direct calls, a failure forced by `retries = -1`, and recovery: ten words delivered. -/
example : (rdProg (fun t => if t % 3 = 2 then some (BitVec.ofNat 64 t) else none)
    [.draw, .raw (.tup [2, 2]) true, .draw, .raw (.int 3) false, .setRetries (-1), .raw .none true, .draw, .reset,
      .setRetries 2, .draw, .raw (.int 2) true, .draw] (rdInit 10 0)).map
      (fun p => (p.1.map BitVec.toNat, p.2.status, p.2.err)) =
    some ([2, 770, 773, 776, 779, 5, 791, 1559, 1562, 794], 1, false) := by decide +kernel

end Verif
