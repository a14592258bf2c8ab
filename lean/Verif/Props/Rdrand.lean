import Verif.Model.Rdrand
import Verif.Props.RandomRaw
import Verif.Props.Hc128

/-! C48: RDRAND never returns unflagged non-random data nor reads outside its buffer. -/

namespace Verif

/-- The words delivered by the attempts number `a, …, b - 1`, in order. -/
def hwWords (hw : Hw) (a b : Nat) : List U64 := (List.range' a (b - a)).filterMap hw

/-- Among the attempts `a, …, b - 1` there are no `k` consecutive failures. -/
def NoRun (hw : Hw) (k a b : Nat) : Prop := 0 < k → ∀ x, a ≤ x → x + k ≤ b → ∃ j, j < k ∧ (hw (x + j)).isSome

theorem hwWords_append (hw : Hw) {a b c : Nat} (h1 : a ≤ b) (h2 : b ≤ c) :
    hwWords hw a c = hwWords hw a b ++ hwWords hw b c := by
  unfold hwWords
  rw [← List.filterMap_append]
  have : c - a = (b - a) + (c - b) := by omega
  rw [this, ← List.range'_append]
  congr 3
  omega

theorem hwWords_self (hw : Hw) (a : Nat) : hwWords hw a a = [] := by simp [hwWords]

theorem rdAttempts_spec (hw : Hw) (k t : Nat) :
    (∀ v t', rdAttempts hw k t = (some v, t') →
      t < t' ∧ t' ≤ t + k ∧ hw (t' - 1) = some v ∧ hwWords hw t t' = [v]) ∧
    (∀ t', rdAttempts hw k t = (none, t') → t' = t + k ∧ ∀ j, j < k → hw (t + j) = none) := by
  induction k generalizing t with
  | zero => simp [rdAttempts]
  | succ k ih =>
    simp only [rdAttempts]
    cases hh : hw t with
    | some v =>
      refine ⟨?_, by simp⟩
      rintro v' t' h
      simp only [Prod.mk.injEq, Option.some.injEq] at h
      obtain ⟨rfl, rfl⟩ := h
      refine ⟨by omega, by omega, by simpa using hh, ?_⟩
      simp [hwWords, hh]
    | none =>
      obtain ⟨h1, h2⟩ := ih (t + 1)
      refine ⟨fun v t' h => ?_, fun t' h => ?_⟩
      · obtain ⟨a, b, c, d⟩ := h1 v t' h
        refine ⟨by omega, by omega, c, ?_⟩
        rw [hwWords_append hw (show t ≤ t + 1 by omega) (by omega), d]
        simp [hwWords, hh]
      · obtain ⟨a, b⟩ := h2 t' h
        refine ⟨by omega, fun j hj => ?_⟩
        cases j with
        | zero => simpa using hh
        | succ j => have := b j (by omega); rwa [show t + (j + 1) = t + 1 + j by omega]

/-- Extending a stretch without `k` consecutive failures that ends with a success by a group of at most `k` attempts
that ends with a success. -/
theorem NoRun.extend {hw : Hw} {k a b b' : Nat} (h : NoRun hw k a b) (hab : a ≤ b)
    (he : b = a ∨ (hw (b - 1)).isSome) (hk : b' ≤ b + k) (hs : (hw (b' - 1)).isSome) : NoRun hw k a b' := by
  intro hk0 x hx hxk
  by_cases h1 : x + k ≤ b
  · exact h hk0 x hx h1
  · by_cases h2 : x < b
    · rcases he with rfl | he
      · omega
      · exact ⟨b - 1 - x, by omega, by rwa [show x + (b - 1 - x) = b - 1 by omega]⟩
    · exact ⟨b' - 1 - x, by omega, by rwa [show x + (b' - 1 - x) = b' - 1 by omega]⟩

/-- What is known about a generator whose flag is still 1, `outs` being the values returned since attempt `t0`. -/
structure RdGood (hw : Hw) (k t0 : Nat) (outs : List U64) (s : Rdr) : Prop where
  loc : 0 ≤ s.loc ∧ s.loc ≤ 256
  le : t0 ≤ s.t
  last : s.t = t0 ∨ (hw (s.t - 1)).isSome
  words : outs ++ (List.range' s.loc.toNat (256 - s.loc.toNat)).map s.buffer = hwWords hw t0 s.t
  norun : NoRun hw k t0 s.t

theorem rdFillOne_frame (hw : Hw) (s : Rdr) (i : Nat) :
    (rdFillOne hw s i).loc = s.loc ∧ (rdFillOne hw s i).retries = s.retries ∧ (rdFillOne hw s i).err = s.err ∧
    (∀ j, j ≠ i → (rdFillOne hw s i).buffer j = s.buffer j) ∧
    ((rdFillOne hw s i).status = s.status ∨ (rdFillOne hw s i).status = 0) := by
  unfold rdFillOne
  split
  · exact ⟨rfl, rfl, rfl, fun j hj => by simp [Function.update_of_ne hj], Or.inl rfl⟩
  · exact ⟨rfl, rfl, rfl, fun j hj => by simp [Function.update_of_ne hj], Or.inr rfl⟩

/-- The loop of `rdrand_fill_buffer` after `n` of its iterations. -/
theorem rdFill_loop (hw : Hw) (s : Rdr) (n : Nat) :
    let s' := (List.range n).foldl (rdFillOne hw) s
    s'.retries = s.retries ∧ s'.err = s.err ∧ (s'.status = s.status ∨ s'.status = 0) ∧
    (s.status = 1 → s'.status = 1 →
      s.t ≤ s'.t ∧ (∀ t0, t0 ≤ s.t → (s.t = t0 ∨ (hw (s.t - 1)).isSome) → NoRun hw (rdAllowed s.retries) t0 s.t →
        (s'.t = t0 ∨ (hw (s'.t - 1)).isSome) ∧ NoRun hw (rdAllowed s.retries) t0 s'.t) ∧
      (List.range n).map s'.buffer = hwWords hw s.t s'.t) ∧
    (s'.status ≠ s.status → ∃ a, s.t ≤ a ∧ ∀ j, j < rdAllowed s.retries → hw (a + j) = none) ∧ s.t ≤ s'.t := by
  induction n with
  | zero =>
    show s.retries = s.retries ∧ s.err = s.err ∧ (s.status = s.status ∨ s.status = 0) ∧ _ ∧ (s.status ≠ s.status → _) ∧
      s.t ≤ s.t
    exact ⟨rfl, rfl, Or.inl rfl, fun _ _ => ⟨Nat.le_refl _, fun _ _ a b => ⟨a, b⟩, by simp [hwWords]⟩,
      fun h => absurd rfl h, Nat.le_refl _⟩
  | succ n ih =>
    rw [List.range_succ, List.foldl_append, List.foldl_cons, List.foldl_nil]
    generalize hs' : (List.range n).foldl (rdFillOne hw) s = s' at ih ⊢
    simp only at ih ⊢
    obtain ⟨i1, i2, i3, i4, i5, i6⟩ := ih
    obtain ⟨f1, f2, f3, f4, f5⟩ := rdFillOne_frame hw s' n
    refine ⟨by rw [f2, i1], by rw [f3, i2], ?_, ?_, ?_, ?_⟩
    · rcases f5 with h | h
      · rw [h]; exact i3
      · exact Or.inr h
    · intro hs1 hs2
      have hst : s'.status = 1 := by
        rcases i3 with h | h
        · rw [h, hs1]
        · rcases f5 with h' | h'
          · rw [← h', hs2]
          · rw [h'] at hs2; exact absurd hs2 (by decide)
      obtain ⟨j1, j2, j3⟩ := i4 hs1 hst
      cases ha : rdAttempts hw (rdAllowed s'.retries) s'.t with
      | mk o t' =>
        cases o with
        | none =>
          simp only [rdFillOne, ha] at hs2
          exact absurd hs2 (by decide)
        | some v =>
          obtain ⟨a1, a2, a3, a4⟩ := (rdAttempts_spec hw _ _).1 v t' ha
          simp only [rdFillOne, ha]
          rw [i1] at a2
          refine ⟨by omega, ?_, ?_⟩
          · intro t0 h0 hl hr
            obtain ⟨b1, b2⟩ := j2 t0 h0 hl hr
            exact ⟨Or.inr (by rw [a3]; rfl), b2.extend (by omega) b1 a2 (by rw [a3]; rfl)⟩
          · rw [List.map_append, List.map_cons, List.map_nil, Function.update_self,
              hwWords_append hw j1 (Nat.le_of_lt a1), a4, ← j3]
            congr 1
            apply List.map_congr_left
            intro i hi
            rw [Function.update_of_ne]
            simp only [List.mem_range] at hi
            omega
    · intro hne
      by_cases h : s'.status = s.status
      · cases ha : rdAttempts hw (rdAllowed s'.retries) s'.t with
        | mk o t' =>
          cases o with
          | some v =>
            simp only [rdFillOne, ha] at hne
            exact absurd h hne
          | none =>
            have := ((rdAttempts_spec hw _ _).2 t' ha).2
            rw [i1] at this
            exact ⟨s'.t, i6, this⟩
      · exact i5 h
    · cases ha : rdAttempts hw (rdAllowed s'.retries) s'.t with
      | mk o t' =>
        cases o with
        | some v =>
          have := ((rdAttempts_spec hw _ _).1 v t' ha).1
          simp only [rdFillOne, ha]; omega
        | none =>
          have := ((rdAttempts_spec hw _ _).2 t' ha).1
          simp only [rdFillOne, ha]; omega

theorem rdFill_spec (hw : Hw) (s : Rdr) :
    (rdFill hw s).retries = s.retries ∧ ((rdFill hw s).status = s.status ∨ (rdFill hw s).status = 0) ∧
    (s.status = 1 → (rdFill hw s).status = 1 →
      s.t ≤ (rdFill hw s).t ∧
      (∀ t0, t0 ≤ s.t → (s.t = t0 ∨ (hw (s.t - 1)).isSome) → NoRun hw (rdAllowed s.retries) t0 s.t →
        ((rdFill hw s).t = t0 ∨ (hw ((rdFill hw s).t - 1)).isSome) ∧ NoRun hw (rdAllowed s.retries) t0 (rdFill hw s).t) ∧
      (List.range 256).map (rdFill hw s).buffer = hwWords hw s.t (rdFill hw s).t) ∧
    ((rdFill hw s).status ≠ s.status → ∃ a, s.t ≤ a ∧ ∀ j, j < rdAllowed s.retries → hw (a + j) = none) ∧
    (rdFill hw s).loc = 0 := by
  have h := rdFill_loop hw s 256
  simp only [rdFill]
  generalize List.range 256 = l at h ⊢
  simp only at h
  generalize List.foldl (rdFillOne hw) s l = s' at h ⊢
  exact ⟨h.1, h.2.2.1, h.2.2.2.1, h.2.2.2.2.1, trivial⟩

/-- `runO` together with the values returned. -/
def runOuts {σ α : Type} (nx : σ → Option (α × σ)) : Nat → σ → Option (List α × σ)
  | 0, s => some ([], s)
  | n + 1, s => do
    let r ← nx s
    let rest ← runOuts nx n r.2
    return (r.1 :: rest.1, rest.2)

theorem runOuts_snoc {σ α : Type} (nx : σ → Option (α × σ)) (n : Nat) (s : σ) :
    runOuts nx (n + 1) s = (runOuts nx n s).bind fun p => (nx p.2).map fun r => (p.1 ++ [r.1], r.2) := by
  induction n generalizing s with
  | zero =>
    simp only [runOuts, Option.bind_some]
    cases h : nx s <;> simp
  | succ n ih =>
    rw [runOuts]
    cases h : nx s with
    | none => simp [runOuts, h]
    | some r =>
      rw [runOuts, h]
      simp only [Option.bind_eq_bind, Option.bind_some]
      rw [ih]
      cases h2 : runOuts nx n r.2 with
      | none => rfl
      | some p =>
        simp only [Option.bind_some]
        simp only [Option.pure_def, Option.bind_some]
        cases nx p.2 <;> simp

/-- The status is 0 or 1 and `retries` does not change; a draw that finds the flag at 0 leaves it at 0. -/
theorem rdNext64_status {hw : Hw} {s : Rdr} {r : U64 × Rdr} (h : rdNext64 hw s = some r) :
    r.2.retries = s.retries ∧ (r.2.status = s.status ∨ r.2.status = 0) ∧
    (s.status = 1 → r.2.status = 0 → r.2.err = true) := by
  unfold rdNext64 at h
  split at h
  · unfold rdTake at h
    split at h
    · simp only [Option.some.injEq] at h
      subst h
      rename_i h1 _
      exact ⟨rfl, Or.inl rfl, fun _ h2 => absurd (h1.1.symm.trans h2) (by decide)⟩
    · simp at h
  · split at h
    · rename_i h0 h1
      obtain ⟨e1, e3, -⟩ := rdFill_spec hw s
      generalize hf : rdFill hw s = s' at h e1 e3
      simp only [Option.bind_eq_bind] at h
      unfold rdTake at h
      split at h
      · simp only [Option.bind_some] at h
        split at h
        · rename_i hz
          simp only [Option.pure_def, Option.some.injEq] at h
          subst h
          exact ⟨e1, Or.inr hz, fun _ _ => rfl⟩
        · rename_i hz
          simp only [Option.pure_def, Option.some.injEq] at h
          subst h
          exact ⟨e1, e3, fun _ h2 => absurd h2 hz⟩
      · simp at h
    · unfold rdTake at h
      split at h
      · simp only [Option.some.injEq] at h
        subst h
        rename_i h1 _
        exact ⟨rfl, Or.inl rfl, fun h2 => absurd h2 h1⟩
      · simp at h

/-- A draw from a good state with the flag still at 1 afterwards. -/
theorem RdGood.next {hw : Hw} {t0 : Nat} {outs : List U64} {s : Rdr} (hg : RdGood hw (rdAllowed s.retries) t0 outs s)
    (hs : s.status = 1) {r : U64 × Rdr} (h : rdNext64 hw s = some r) (hr : r.2.status = 1) :
    RdGood hw (rdAllowed s.retries) t0 (outs ++ [r.1]) r.2 := by
  have take : ∀ {s : Rdr} {r : U64 × Rdr}, RdGood hw (rdAllowed s.retries) t0 outs s → rdTake s = some r →
      RdGood hw (rdAllowed s.retries) t0 (outs ++ [r.1]) r.2 := by
    intro s r hg h
    unfold rdTake at h
    split at h
    · rename_i hl
      simp only [Option.some.injEq] at h
      subst h
      refine ⟨⟨by simp only; omega, by simp only; omega⟩, hg.le, hg.last, ?_, hg.norun⟩
      rw [← hg.words, List.append_assoc]
      congr 1
      have e1 : (s.loc + 1).toNat = s.loc.toNat + 1 := by omega
      have e2 : 256 - s.loc.toNat = (256 - (s.loc.toNat + 1)) + 1 := by omega
      simp only [e1]
      rw [e2, List.range'_succ, List.map_cons]
      simp
    · simp at h
  unfold rdNext64 at h
  split at h
  · exact take hg h
  · rename_i hn
    have hfull : s.loc = 256 := by
      have := hg.loc
      have : ¬ s.loc < 256 := fun hh => hn ⟨hs, hh⟩
      omega
    obtain ⟨l1, l3, l4, -, l6⟩ := rdFill_spec hw s
    have key : (rdFill hw s).status = 1 → RdGood hw (rdAllowed (rdFill hw s).retries) t0 outs (rdFill hw s) := by
      intro hf
      obtain ⟨m1, m2, m3⟩ := l4 hs hf
      obtain ⟨m4, m5⟩ := m2 t0 hg.le hg.last hg.norun
      have er : (rdFill hw s).retries = s.retries := l1
      rw [er]
      refine ⟨by rw [l6]; decide, Nat.le_trans hg.le m1, m4, ?_, m5⟩
      have hw0 := hg.words
      rw [hfull] at hw0
      have hout : outs = hwWords hw t0 s.t := by simpa using hw0
      have hr0 : List.range' (rdFill hw s).loc.toNat (256 - (rdFill hw s).loc.toNat) = List.range 256 := by
        rw [l6]; exact List.range_eq_range'.symm
      rw [hr0, m3, hout]
      exact (hwWords_append hw hg.le m1).symm
    have er : (rdFill hw s).retries = s.retries := l1
    generalize rdFill hw s = s' at h key er
    simp only [Option.bind_eq_bind] at h
    cases ht : rdTake s' with
    | none => rw [ht] at h; simp at h
    | some q =>
      rw [ht] at h
      simp only [Option.bind_some, Option.pure_def] at h
      have hqs : q.2.status = s'.status := by
        unfold rdTake at ht
        split at ht
        · simp only [Option.some.injEq] at ht; subst ht; rfl
        · simp at ht
      split at h
      · rename_i hz
        simp only [Option.some.injEq] at h
        subst h
        simp only at hr
        rw [hqs, hz] at hr
        exact absurd hr (by decide)
      · simp only [Option.some.injEq] at h
        subst h
        rw [← er]
        exact take (key (by rw [← hqs]; exact hr)) ht

theorem rdInit_good (hw : Hw) (retries : Int) (t0 : Nat) : RdGood hw (rdAllowed retries) t0 [] (rdInit retries t0) where
  loc := ⟨show (0 : Int) ≤ 256 by decide, show (256 : Int) ≤ 256 by decide⟩
  le := Nat.le_refl _
  last := Or.inl rfl
  words := by
    rw [show (rdInit retries t0).t = t0 from rfl, hwWords_self]; rfl
  norun := by
    intro hk x hx hxk
    have : (rdInit retries t0).t = t0 := rfl
    omega

theorem rdRun (hw : Hw) (retries : Int) (t0 n : Nat) {outs : List U64} {s : Rdr}
    (h : runOuts (rdNext64 hw) n (rdInit retries t0) = some (outs, s)) :
    s.retries = retries ∧ (s.status = 1 ∨ s.status = 0) ∧ outs.length = n ∧
    (s.status = 1 → RdGood hw (rdAllowed retries) t0 outs s) := by
  induction n generalizing outs s with
  | zero =>
    simp only [runOuts, Option.some.injEq, Prod.mk.injEq] at h
    obtain ⟨rfl, rfl⟩ := h
    exact ⟨rfl, Or.inl rfl, rfl, fun _ => rdInit_good hw retries t0⟩
  | succ n ih =>
    rw [runOuts_snoc] at h
    cases hp : runOuts (rdNext64 hw) n (rdInit retries t0) with
    | none => rw [hp] at h; simp at h
    | some p =>
      rw [hp] at h
      simp only [Option.bind_some] at h
      cases hq : rdNext64 hw p.2 with
      | none => rw [hq] at h; simp at h
      | some r =>
        rw [hq] at h
        simp only [Option.map_some, Option.some.injEq, Prod.mk.injEq] at h
        obtain ⟨rfl, rfl⟩ := h
        obtain ⟨i1, i2, i3, i4⟩ := ih (outs := p.1) (s := p.2) hp
        obtain ⟨n1, n2, -⟩ := rdNext64_status hq
        refine ⟨n1.trans i1, ?_, by simp [i3], ?_⟩
        · rcases n2 with e | e
          · rw [e]; exact i2
          · exact Or.inr e
        · intro hr
          have hp1 : p.2.status = 1 := by
            rcases n2 with e | e
            · rw [← e]; exact hr
            · rw [e] at hr; exact absurd hr (by decide)
          have hg := i4 hp1
          rw [← i1] at hg ⊢
          exact hg.next hp1 hq hr

/-- C48, no unflagged substitute: as long as the status flag of a fresh `RDRAND` is 1 after `n` draws, the values returned
are exactly the first `n` words the processor delivered, in order and without omission, whatever the pattern of failed
attempts was; and the processor never failed `retries + 1` times in a row. -/
theorem C48_unflagged (hw : Hw) (retries : Int) (t0 n : Nat) {outs : List U64} {s : Rdr}
    (h : runOuts (rdNext64 hw) n (rdInit retries t0) = some (outs, s)) (hs : s.status = 1) :
    outs = (hwWords hw t0 s.t).take n ∧ outs.length = n ∧ NoRun hw (rdAllowed retries) t0 s.t := by
  obtain ⟨-, -, hl, hg⟩ := rdRun hw retries t0 n h
  have hg := hg hs
  refine ⟨?_, hl, hg.norun⟩
  rw [← hg.words, ← hl, List.take_left]

/-- Every second attempt fails: 300 draws, two refills, flag still 1. -/
example : ((runOuts (rdNext64 fun t => if t % 2 = 0 then none else some (BitVec.ofNat 64 t)) 300 (rdInit 1 0)).map
    fun p => (p.2.status, p.2.t, p.1.getLast?)) = some (1, 1024, some 599) := by decide +kernel

/-- C48, the flag is sticky: once 0 it stays 0 through any number of draws (only `_reset` sets it again), and the call that
lowers it leaves a Python error behind. -/
theorem C48_sticky (hw : Hw) (s : Rdr) (hs : s.status = 0) (n : Nat) {outs : List U64} {s' : Rdr}
    (h : runOuts (rdNext64 hw) n s = some (outs, s')) : s'.status = 0 := by
  induction n generalizing s outs s' with
  | zero => simp only [runOuts, Option.some.injEq, Prod.mk.injEq] at h; rw [← h.2]; exact hs
  | succ n ih =>
    rw [runOuts] at h
    cases hq : rdNext64 hw s with
    | none => rw [hq] at h; simp at h
    | some r =>
      rw [hq] at h
      simp only [Option.bind_eq_bind, Option.bind_some] at h
      cases hp : runOuts (rdNext64 hw) n r.2 with
      | none => rw [hp] at h; simp at h
      | some p =>
        rw [hp] at h
        simp only [Option.bind_some, Option.pure_def, Option.some.injEq, Prod.mk.injEq] at h
        have := ih r.2 (by rcases (rdNext64_status hq).2.1 with e | e <;> simp [e, hs]) hp
        rw [← h.2]
        exact this

theorem C48_error_set {hw : Hw} {s : Rdr} {r : U64 × Rdr} (h : rdNext64 hw s = some r) (h1 : s.status = 1)
    (h0 : r.2.status = 0) : r.2.err = true := (rdNext64_status h).2.2 h1 h0

example : ((runOuts (rdNext64 fun t => if t < 20 then some 7 else none) 100 (rdInit 2 0)).map
    fun p => (p.2.status, p.2.err, p.2.loc, p.1.getLast?)) = some (0, true, 100, some (7 + 80 * phiM1)) := by
  decide +kernel

/-- The position of the cursor when the flag is 0: `n` further draws are defined exactly while they stay inside the
buffer. -/
theorem rdNext_failed_iff (hw : Hw) (n : Nat) (s : Rdr) (hs : s.status = 0) (hl : 0 ≤ s.loc) (hl2 : s.loc ≤ 256) :
    (runOuts (rdNext64 hw) n s).isSome ↔ s.loc + n ≤ 256 := by
  induction n generalizing s with
  | zero => simp [runOuts]; omega
  | succ n ih =>
    rw [runOuts]
    have hne : ¬ s.status = 1 := by rw [hs]; decide
    simp only [rdNext64, hne, false_and, if_false, rdTake]
    by_cases hlt : s.loc < 256
    · rw [if_pos ⟨hl, hlt⟩]
      simp only [Option.bind_eq_bind, Option.bind_some]
      have := ih { s with loc := s.loc + 1 } hs (by simp only; omega) (by simp only; omega)
      simp only at this
      rw [show s.loc + ((n + 1 : Nat) : Int) = s.loc + 1 + (n : Int) by omega, ← this]
      cases runOuts (rdNext64 hw) n { s with loc := s.loc + 1 } <;> simp
    · rw [if_neg (fun h => hlt h.2)]
      simp
      omega

/-- C48, the part about the buffer, fails: after a failure the buffer is never filled again but its cursor keeps moving,
so the draws after the last of the 256 words read outside the buffer. -/
theorem not_C48_bounds : ¬ ∀ (hw : Hw) (n : Nat), (runOuts (rdNext64 hw) n (rdInit 10 0)).isSome := by
  intro h
  have := h (fun _ => none) 257
  revert this
  decide +kernel

/-- C48, buffer, exact: with the flag at 0 and the cursor inside the buffer, `n` more draws stay inside exactly when
`loc + n ≤ 256`. -/
theorem C48_bounds_failed_partial (hw : Hw) (n : Nat) (s : Rdr) (hs : s.status = 0) (hl : 0 ≤ s.loc) (hl2 : s.loc ≤ 256) :
    (runOuts (rdNext64 hw) n s).isSome ↔ s.loc + n ≤ 256 := rdNext_failed_iff hw n s hs hl hl2

/-- C48, buffer, no failure: if the processor never fails `retries + 1` times in a row then every number of draws stays
inside the buffer and the flag stays 1. Missing: nothing protects the buffer otherwise (`not_C48_bounds`). -/
theorem C48_bounds_ok_partial (hw : Hw) (retries : Int) (t0 : Nat)
    (hok : ∀ a, ∃ j, j < rdAllowed retries ∧ (hw (a + j)).isSome) (n : Nat) :
    ∃ outs s, runOuts (rdNext64 hw) n (rdInit retries t0) = some (outs, s) ∧ s.status = 1 := by
  induction n with
  | zero => exact ⟨_, _, rfl, rfl⟩
  | succ n ih =>
    obtain ⟨outs, s, hr, hs⟩ := ih
    obtain ⟨h1, -, -, hg⟩ := rdRun hw retries t0 n hr
    have hg := hg hs
    rw [runOuts_snoc, hr]
    simp only [Option.bind_some]
    unfold rdNext64
    by_cases hlt : s.loc < 256
    · rw [if_pos ⟨hs, hlt⟩]
      unfold rdTake
      rw [if_pos ⟨hg.loc.1, hlt⟩]
      exact ⟨_, _, rfl, hs⟩
    · rw [if_neg (fun h => hlt h.2), if_pos hs]
      obtain ⟨-, -, -, l5, hloc⟩ := rdFill_spec hw s
      have hst : (rdFill hw s).status = 1 := by
        by_cases hh : (rdFill hw s).status = s.status
        · rw [hh, hs]
        · obtain ⟨a, -, ha⟩ := l5 hh
          obtain ⟨j, hj, hj2⟩ := hok a
          rw [← h1] at hj
          rw [ha j hj] at hj2
          simp at hj2
      generalize rdFill hw s = s' at hst hloc
      have ht : rdTake s' = some (s'.buffer s'.loc.toNat, { s' with loc := s'.loc + 1 }) := by
        unfold rdTake
        rw [if_pos (by rw [hloc]; decide)]
      simp only [Option.bind_eq_bind, ht, Option.bind_some, hst, show ¬ ((1 : Int) = 0) by decide, if_false]
      exact ⟨_, _, rfl, rfl⟩

example : ∀ a, ∃ j, j < rdAllowed 1 ∧ ((fun t => if t % 2 = 0 then none else some (BitVec.ofNat 64 t) : Hw) (a + j)).isSome := by
  intro a
  by_cases h : a % 2 = 0
  · exact ⟨1, by decide, by simp [show (a + 1) % 2 ≠ 0 by omega]⟩
  · exact ⟨0, by decide, by simp [h]⟩

/-! `random_raw`, which does not use the buffer. -/

theorem rdLoop_spec (hw : Hw) (n : Nat) (st : Int) (s : Rdr) (hst : st = 0 ∨ st = 1) (hs : s.status = 0 ∨ s.status = 1) :
    let r := rdLoop hw n st s
    r.1.length = n ∧ (r.2.1 = 0 ∨ r.2.1 = 1) ∧ (r.2.2.status = 0 ∨ r.2.2.status = 1) ∧ s.t ≤ r.2.2.t ∧
    (r.2.1 = 1 → 0 < n → s.status = 1) ∧
    (r.2.1 = 1 → st = 1 ∧ r.2.2.status = s.status ∧ r.1 = hwWords hw s.t r.2.2.t) ∧
    (r.2.1 = 0 → st = 1 → s.status = 1 → ∃ a, s.t ≤ a ∧ ∀ j, j < rdAllowed s.retries → hw (a + j) = none) := by
  induction n generalizing st s with
  | zero =>
    refine ⟨rfl, hst, hs, Nat.le_refl _, fun _ h => absurd h (by decide), fun h => ⟨h, rfl, ?_⟩, ?_⟩
    · show [] = hwWords hw s.t s.t
      rw [hwWords_self]
    · intro h h1; rw [show st = 0 from h] at h1; exact absurd h1 (by decide)
  | succ n ih =>
    simp only [rdLoop]
    cases ha : rdAttempts hw (rdAllowed s.retries) s.t with
    | mk o t' =>
      cases o with
      | none =>
        have hsp := (rdAttempts_spec hw _ _).2 t' ha
        have hd : (rdDirect hw 0 s).2 = { s with status := 0, t := t' } := by simp only [rdDirect, ha]
        generalize hv : (rdDirect hw 0 s).1 = v
        rw [hd]
        have := ih 0 { s with status := 0, t := t' } (Or.inl rfl) (Or.inl rfl)
        simp only [show ¬ ((0 : Int) = 1) by decide, and_false, if_false]
        simp only at this
        generalize rdLoop hw n 0 { s with status := 0, t := t' } = r at this
        obtain ⟨i1, i2, i3, i4, i5, i6, i7⟩ := this
        refine ⟨by simp [i1], i2, i3, by omega, fun h => ?_, fun h => ?_, fun _ _ _ => ⟨s.t, Nat.le_refl _, hsp.2⟩⟩
        · exact absurd (i6 h).1 (by decide)
        · exact absurd (i6 h).1 (by decide)
      | some v =>
        obtain ⟨a1, a2, a3, a4⟩ := (rdAttempts_spec hw _ _).1 v t' ha
        have hd : rdDirect hw 0 s = (v, { s with t := t' }) := by simp only [rdDirect, ha]
        rw [hd]
        simp only
        generalize hst' : (if st = 1 ∧ s.status = 1 then (1 : Int) else 0) = st'
        have hst'' : st' = 0 ∨ st' = 1 := by rw [← hst']; split <;> simp
        have := ih st' { s with t := t' } hst'' hs
        simp only at this
        generalize rdLoop hw n st' { s with t := t' } = r at this
        obtain ⟨i1, i2, i3, i4, i5, i6, i7⟩ := this
        have hst1 : r.2.1 = 1 → st = 1 ∧ s.status = 1 := by
          intro h
          have := (i6 h).1
          rw [this] at hst'
          by_contra hc
          rw [if_neg hc] at hst'
          exact absurd hst' (by decide)
        refine ⟨by simp [i1], i2, i3, by omega, fun h _ => (hst1 h).2, fun h => ⟨(hst1 h).1, (i6 h).2.1, ?_⟩, ?_⟩
        · rw [hwWords_append hw (Nat.le_of_lt a1) i4, a4, (i6 h).2.2]; rfl
        · intro h h1 h2
          rw [if_pos ⟨h1, h2⟩] at hst'
          obtain ⟨a, ha1, ha2⟩ := i7 h hst'.symm h2
          exact ⟨a, by omega, ha2⟩

/-- C48 for `random_raw(size)`: an array is returned only if no group of `retries + 1` attempts failed, and then it holds
exactly the words delivered by the processor during the call, one per element, in order; a non-empty array is refused
whenever the flag was already 0. Otherwise `RuntimeError` is raised and the flag is 0. -/
theorem C48_random_raw (hw : Hw) (size : Size) (hsz : size ≠ .none) (n : Nat) (hn : npEmptySize size.dims = .ok n) (s : Rdr)
    (hs : s.status = 0 ∨ s.status = 1) :
    let r := rdRandomRaw hw size true s
    (∃ vs, r.1 = .ok (.array size.dims vs) ∧ vs = hwWords hw s.t r.2.t ∧ vs.length = n ∧ r.2.status = s.status ∧
      (0 < n → s.status = 1)) ∨
    (r.1 = .error .runtime ∧ r.2.status = 0 ∧
      (s.status = 1 → ∃ a, s.t ≤ a ∧ ∀ j, j < rdAllowed s.retries → hw (a + j) = none)) := by
  have key : rdRandomRaw hw size true s =
      (let r := rdLoop hw n 1 s
       let s' := { r.2.2 with status := if r.2.2.status = 1 ∧ r.2.1 = 1 then 1 else 0 }
       if r.2.1 = 0 then (.error .runtime, s') else (.ok (.array size.dims r.1), s')) := by
    unfold rdRandomRaw
    cases size with
    | none => exact absurd rfl hsz
    | int k => simp only [hn]; rfl
    | tup k => simp only [hn]; rfl
  simp only [key]
  have := rdLoop_spec hw n 1 s (Or.inr rfl) hs
  simp only at this
  generalize rdLoop hw n 1 s = r at this
  obtain ⟨i1, i2, i3, i4, i5, i6, i7⟩ := this
  rcases i2 with h | h
  · right
    rw [if_pos h]
    refine ⟨rfl, ?_, fun h1 => i7 h trivial h1⟩
    simp only [h]
    rw [if_neg (fun h => absurd h.2 (by decide))]
  · left
    rw [if_neg (by rw [h]; decide)]
    refine ⟨r.1, rfl, (i6 h).2.2, i1, ?_, fun h0 => i5 h h0⟩
    simp only [h, and_true, (i6 h).2.1]
    rcases hs with e | e <;> simp [e]

example : (rdRandomRaw (fun t => if t % 3 = 2 then some (BitVec.ofNat 64 t) else none) (.tup [2, 2]) true (rdInit 10 0)).1 =
    .ok (.array [2, 2] [2, 5, 8, 11]) := by decide +kernel

/-- C48 for `random_raw(None)`. -/
theorem C48_random_raw_scalar (hw : Hw) (s : Rdr) (hs : s.status = 0 ∨ s.status = 1) :
    let r := rdRandomRaw hw .none true s
    (∃ v, r.1 = .ok (.scalar v) ∧ [v] = hwWords hw s.t r.2.t ∧ s.status = 1 ∧ r.2.status = 1) ∨
    (r.1 = .error .runtime ∧ r.2.status = 0 ∧ (s.status = 1 → ∀ j, j < rdAllowed s.retries → hw (s.t + j) = none)) := by
  have key : rdRandomRaw hw .none true s = (if (rdDirect hw 0 s).2.status = 0
      then (.error .runtime, { (rdDirect hw 0 s).2 with status := 0 })
      else (.ok (.scalar (rdDirect hw 0 s).1), (rdDirect hw 0 s).2)) := rfl
  simp only [key]
  clear key
  cases ha : rdAttempts hw (rdAllowed s.retries) s.t with
  | mk o t' =>
    cases o with
    | none =>
      have hd : (rdDirect hw 0 s).2 = { s with status := 0, t := t' } := by simp only [rdDirect, ha]
      right
      rw [hd, if_pos rfl]
      exact ⟨rfl, rfl, fun _ => ((rdAttempts_spec hw _ _).2 t' ha).2⟩
    | some v =>
      obtain ⟨a1, a2, a3, a4⟩ := (rdAttempts_spec hw _ _).1 v t' ha
      have hd : rdDirect hw 0 s = (v, { s with t := t' }) := by simp only [rdDirect, ha]
      rw [hd]
      rcases hs with h | h
      · right
        rw [if_pos h]
        exact ⟨rfl, rfl, fun h1 => absurd (h.symm.trans h1) (by decide)⟩
      · left
        rw [if_neg (show ¬ s.status = 0 by rw [h]; decide)]
        exact ⟨v, rfl, a4.symm, h, h⟩

end Verif
