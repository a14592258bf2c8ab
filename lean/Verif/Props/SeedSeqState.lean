import Verif.Model.SeedSeqState
import Verif.Props.SeedSeq

/-! C103: a SeedSequence is the one that the constructor makes of its `state` or of its `repr`, whatever was spawned before; the children do not
depend on how the calls of `spawn` are split up or ordered. -/

namespace Verif.SeedSeq

/-- The sequences that a program can have: made by the constructor, spawned, or spawned from. -/
inductive Exists : SeedSeq → Prop
  | made {e : Ent} {key : List Int} {n c : Int} {s : SeedSeq} : mk e key n c = .ok s → Exists s
  | parent {s s' : SeedSeq} {n : Int} {cs : List SeedSeq} : Exists s → spawn s n = .ok (cs, s') → Exists s'
  | child {s s' c : SeedSeq} {n : Int} {cs : List SeedSeq} : Exists s → spawn s n = .ok (cs, s') → c ∈ cs → Exists c

/-- The pool is the one that the constructor makes of the other attributes. -/
def Mixed (s : SeedSeq) : Prop := ∃ run sp : List U32, 4 ≤ s.poolSize ∧ coerce s.entropy = .ok run ∧
  coerce (.seq (s.spawnKey.map .int)) = .ok sp ∧ s.pool = mixEntropy (List.replicate s.poolSize 0) (assemble run sp s.poolSize)

theorem mk_mixed {e : Ent} {key : List Int} {n c : Int} {s : SeedSeq} (h : mk e key n c = .ok s) :
    Mixed s ∧ s.entropy = e ∧ s.spawnKey = key ∧ (s.poolSize : Int) = n ∧ s.nChildren = c := by
  rw [mk] at h
  split at h
  · cases h
  · rename_i hn
    cases h1 : coerce e with
    | error x => rw [h1] at h; cases h
    | ok run =>
      cases h2 : coerce (.seq (key.map .int)) with
      | error x => rw [h1, h2] at h; cases h
      | ok sp =>
        rw [h1, h2] at h
        injection h with h
        subst h
        refine ⟨⟨run, sp, ?_, h1, h2, rfl⟩, rfl, rfl, ?_, rfl⟩
        · show 4 ≤ n.toNat
          omega
        · show (n.toNat : Int) = n
          omega

theorem mk_of_mixed {s : SeedSeq} (h : Mixed s) : mk s.entropy s.spawnKey s.poolSize s.nChildren = .ok s := by
  obtain ⟨run, sp, hn, h1, h2, h3⟩ := h
  rw [mk_ok s.entropy s.spawnKey s.poolSize s.nChildren run sp hn h1 h2, ← h3]

theorem mapM_mem {α β : Type} (f : α → Except PyErr β) : ∀ (l : List α) (r : List β), l.mapM f = .ok r → ∀ b ∈ r, ∃ a ∈ l, f a = .ok b
  | [], r, h, b, hb => by
    simp only [List.mapM_nil, pure, Except.pure, Except.ok.injEq] at h
    subst h; cases hb
  | a :: l, r, h, b, hb => by
    rw [List.mapM_cons] at h
    cases h1 : f a with
    | error x => rw [h1] at h; cases h
    | ok x =>
      cases h2 : l.mapM f with
      | error y => rw [h1, h2] at h; cases h
      | ok xs =>
        rw [h1, h2] at h
        injection h with h
        subst h
        rcases List.mem_cons.1 hb with rfl | hb
        · exact ⟨a, List.mem_cons_self, h1⟩
        · obtain ⟨a', m, e⟩ := mapM_mem f l xs h2 b hb
          exact ⟨a', List.mem_cons_of_mem _ m, e⟩

/-- What `spawn` returns, if it does. -/
theorem spawn_parts {s s' : SeedSeq} {n : Int} {cs : List SeedSeq} (h : spawn s n = .ok (cs, s')) :
    s' = { s with nChildren := s.nChildren + n } ∧ ∀ c ∈ cs, ∃ k : Nat, mk s.entropy (s.spawnKey ++ [s.nChildren + (k : Int)]) s.poolSize 0 = .ok c := by
  rw [spawn] at h
  split at h
  · cases h
  · cases h1 : (List.range n.toNat).mapM (fun k : Nat => mk s.entropy (s.spawnKey ++ [s.nChildren + (k : Int)]) s.poolSize 0) with
    | error x => rw [h1] at h; cases h
    | ok ds =>
      rw [h1] at h
      injection h with h
      injection h with ha hb
      subst ha
      refine ⟨hb.symm, fun c hc => ?_⟩
      obtain ⟨k, _, e⟩ := mapM_mem _ _ _ h1 c hc
      exact ⟨k, e⟩

theorem exists_mixed {s : SeedSeq} (h : Exists s) : Mixed s := by
  induction h with
  | made h => exact (mk_mixed h).1
  | parent _ h ih => rw [(spawn_parts h).1]; exact ih
  | child _ h hc _ =>
    obtain ⟨k, e⟩ := (spawn_parts h).2 _ hc
    exact (mk_mixed e).1

/-- **C103 (state).** `SeedSequence(**s.state)` is `s`: the same pool, so the same words, and the same counter, so that it spawns the same
children from there on; whatever was spawned (with any counts) before. -/
theorem C103_state {s : SeedSeq} (h : Exists s) : ofState (stateOf s) = .ok s := mk_of_mixed (exists_mixed h)

/-- **C103 (repr).** The text of `repr(s)` evaluates to `s` (where the text of the entropy evaluates to the entropy). -/
theorem C103_repr {s : SeedSeq} (h : Exists s) : ofRepr (reprOf s) = .ok s := by
  have a : (reprOf s).spawnKey.getD [] = s.spawnKey := by
    show (if s.spawnKey = [] then none else some s.spawnKey : Option (List Int)).getD [] = _
    split
    · rename_i e; rw [e]; rfl
    · rfl
  have b : (reprOf s).poolSize.getD 4 = s.poolSize := by
    show (if (s.poolSize : Int) ≠ 4 then some (s.poolSize : Int) else none : Option Int).getD 4 = _
    split
    · rfl
    · rename_i e; rw [Option.getD_none]; omega
  have c : (reprOf s).nChildren.getD 0 = s.nChildren := by
    show (if s.nChildren ≠ 0 then some s.nChildren else none : Option Int).getD 0 = _
    split
    · rfl
    · rename_i e; rw [Option.getD_none]; omega
  rw [ofRepr, a, b, c]
  exact mk_of_mixed (exists_mixed h)

/-! ### Splitting up the calls -/

theorem coerceAll_snoc (x : Nat) : ∀ (l : List Ent) (a : List U32), coerceAll l = .ok a → ∃ b, coerceAll (l ++ [.int x]) = .ok b
  | [], a, _ => by
    obtain ⟨w, hw, _⟩ := intToWords_ok x
    rw [List.nil_append, coerceAll, coerce_int, hw, coerceAll]
    exact ⟨_, rfl⟩
  | e :: l, a, h => by
    rw [coerceAll] at h
    cases h1 : coerce e with
    | error y => rw [h1] at h; cases h
    | ok u =>
      cases h2 : coerceAll l with
      | error y => rw [h1, h2] at h; cases h
      | ok v =>
        obtain ⟨b, hb⟩ := coerceAll_snoc x l v h2
        rw [List.cons_append, coerceAll, h1, hb]
        exact ⟨_, rfl⟩

theorem child_ok {s : SeedSeq} (h : Mixed s) (h0 : 0 ≤ s.nChildren) (k : Nat) :
    ∃ c, mk s.entropy (s.spawnKey ++ [s.nChildren + (k : Int)]) s.poolSize 0 = .ok c := by
  obtain ⟨run, sp, hn, h1, h2, _⟩ := h
  obtain ⟨m, hm⟩ := Int.eq_ofNat_of_zero_le h0
  rw [coerce] at h2
  obtain ⟨b, hb⟩ := coerceAll_snoc (m + k) _ sp h2
  refine ⟨_, mk_ok _ _ _ _ run b hn h1 ?_⟩
  rw [coerce, List.map_append, List.map_cons, List.map_nil, hm, ← Int.natCast_add]
  exact hb

theorem mapM_ok {α β : Type} (f : α → Except PyErr β) : ∀ l : List α, (∀ a ∈ l, ∃ b, f a = .ok b) → ∃ r, l.mapM f = .ok r ∧ r.length = l.length
  | [], _ => ⟨[], rfl, rfl⟩
  | a :: l, h => by
    obtain ⟨b, hb⟩ := h a List.mem_cons_self
    obtain ⟨r, hr, hl⟩ := mapM_ok f l (fun x hx => h x (List.mem_cons_of_mem _ hx))
    refine ⟨b :: r, ?_, by rw [List.length_cons, List.length_cons, hl]⟩
    rw [List.mapM_cons, hb, hr]
    rfl

theorem mapM_app {α β : Type} (f : α → Except PyErr β) : ∀ (l m : List α) (r t : List β), l.mapM f = .ok r → m.mapM f = .ok t →
    (l ++ m).mapM f = .ok (r ++ t)
  | [], m, r, t, h, h' => by
    simp only [List.mapM_nil, pure, Except.pure, Except.ok.injEq] at h
    subst h; exact h'
  | a :: l, m, r, t, h, h' => by
    rw [List.mapM_cons] at h
    cases h1 : f a with
    | error x => rw [h1] at h; cases h
    | ok x =>
      cases h2 : l.mapM f with
      | error y => rw [h1, h2] at h; cases h
      | ok xs =>
        rw [h1, h2] at h
        injection h with h
        subst h
        rw [List.cons_append, List.mapM_cons, h1, mapM_app f l m xs t h2 h']
        rfl

theorem mapM_shift {α β γ : Type} (g : γ → α) (f : α → Except PyErr β) : ∀ l : List γ, (l.map g).mapM f = l.mapM (fun x => f (g x))
  | [] => rfl
  | a :: l => by rw [List.map_cons, List.mapM_cons, List.mapM_cons, mapM_shift g f l]

/-- `spawn` succeeds below `2**31`. -/
theorem spawn_some {s : SeedSeq} (h : Mixed s) (h0 : 0 ≤ s.nChildren) (n : Nat) (hn : s.nChildren + n < 2 ^ 31) :
    ∃ cs, (List.range n).mapM (fun k : Nat => mk s.entropy (s.spawnKey ++ [s.nChildren + (k : Int)]) s.poolSize 0) = .ok cs ∧ cs.length = n ∧
      spawn s n = .ok (cs, { s with nChildren := s.nChildren + n }) := by
  obtain ⟨r, hr, hl⟩ := mapM_ok (fun k : Nat => mk s.entropy (s.spawnKey ++ [s.nChildren + (k : Int)]) s.poolSize 0) (List.range n)
    (fun k _ => child_ok h h0 k)
  refine ⟨r, hr, by rw [hl, List.length_range], ?_⟩
  rw [spawn, if_neg (by omega), Int.toNat_natCast, hr]
  rfl

theorem spawn_add {s : SeedSeq} (h : Mixed s) (h0 : 0 ≤ s.nChildren) (a b : Nat) (hn : s.nChildren + (a + b : Nat) < 2 ^ 31) :
    ∃ cs ds s' s'', spawn s a = .ok (cs, s') ∧ spawn s' b = .ok (ds, s'') ∧ spawn s (a + b : Nat) = .ok (cs ++ ds, s'') := by
  obtain ⟨cs, m1, _, e1⟩ := spawn_some h h0 a (by omega)
  have h' : Mixed { s with nChildren := s.nChildren + (a : Int) } := h
  obtain ⟨ds, m2, _, e2⟩ := spawn_some h' (by show 0 ≤ s.nChildren + (a : Int); omega) b (by show s.nChildren + (a : Int) + b < _; omega)
  refine ⟨cs, ds, _, _, e1, e2, ?_⟩
  have m3 := mapM_app _ _ ((List.range b).map (a + ·)) _ ds m1 (by
    rw [mapM_shift, ← m2]
    congr 1
    funext k
    show mk _ (s.spawnKey ++ [s.nChildren + ((a + k : Nat) : Int)]) _ _ = mk _ (s.spawnKey ++ [s.nChildren + (a : Int) + (k : Int)]) _ _
    rw [Int.natCast_add, Int.add_assoc])
  rw [← List.range_add] at m3
  rw [spawn, if_neg (by omega), Int.toNat_natCast, m3]
  show Except.ok (cs ++ ds, { s with nChildren := s.nChildren + ((a + b : Nat) : Int) }) =
    Except.ok (cs ++ ds, { s with nChildren := s.nChildren + (a : Int) + (b : Int) })
  rw [Int.natCast_add, Int.add_assoc]

/-- **C103 (steps).** Spawning in several calls gives the children, and leaves the parent, that one call for all of them does. With a total from
`2**31` on both raise. Partial: not for negative counts (`not_C103_negative_count`). -/
theorem C103_steps_partial {s : SeedSeq} (h : Exists s) (h0 : 0 ≤ s.nChildren) (h1 : s.nChildren < 2 ^ 31) (ns : List Nat) :
    spawnAll s (ns.map (Nat.cast : Nat → Int)) = spawn s (ns.sum : Nat) := by
  have key : ∀ (ns : List Nat) (s : SeedSeq), Mixed s → 0 ≤ s.nChildren → s.nChildren < 2 ^ 31 →
      spawnAll s (ns.map (Nat.cast : Nat → Int)) = spawn s (ns.sum : Nat) := by
    intro ns
    induction ns with
    | nil =>
      intro s g h0 h1
      obtain ⟨cs, _, hl, e⟩ := spawn_some g h0 0 (by omega)
      rw [List.length_eq_zero_iff] at hl
      subst hl
      rw [List.sum_nil, e]
      show Except.ok ([], s) = Except.ok ([], { s with nChildren := s.nChildren + ((0 : Nat) : Int) })
      rw [Int.natCast_zero, Int.add_zero]
    | cons a ns ih =>
      intro s g h0 h1
      rw [List.map_cons, List.sum_cons, spawnAll]
      by_cases ha : s.nChildren + (a : Int) < 2 ^ 31
      · obtain ⟨cs, _, _, e1⟩ := spawn_some g h0 a ha
        have g' : Mixed { s with nChildren := s.nChildren + (a : Int) } := g
        rw [e1]
        show (match spawnAll { s with nChildren := s.nChildren + (a : Int) } (ns.map (Nat.cast : Nat → Int)) with
          | .error e => Except.error e
          | .ok (ds, s'') => .ok (cs ++ ds, s'')) = _
        rw [ih _ g' (by show 0 ≤ s.nChildren + (a : Int); omega) ha]
        by_cases hb : s.nChildren + ((a + ns.sum : Nat) : Int) < 2 ^ 31
        · obtain ⟨cs', ds, s', s'', f1, f2, f3⟩ := spawn_add g h0 a ns.sum hb
          rw [e1] at f1
          injection f1 with f1
          injection f1 with fa fb
          subst fa; subst fb
          rw [f2, f3]
        · have u : spawn { s with nChildren := s.nChildren + (a : Int) } (ns.sum : Nat) = .error .overflowError := by
            rw [spawn, if_pos (Or.inl (by show _ ≤ s.nChildren + (a : Int) + (ns.sum : Nat); omega))]
          rw [u, spawn, if_pos (Or.inl (by omega))]
      · rw [spawn, if_pos (Or.inl (by omega)), spawn, if_pos (Or.inl (by omega))]
  exact key ns s (exists_mixed h) h0 h1

/-- Below `2**31` children in all the calls do return. -/
theorem C103_steps_return_partial {s : SeedSeq} (h : Exists s) (h0 : 0 ≤ s.nChildren) (ns : List Nat) (hn : s.nChildren + (ns.sum : Nat) < 2 ^ 31) :
    ∃ cs s', spawnAll s (ns.map (Nat.cast : Nat → Int)) = .ok (cs, s') ∧ cs.length = ns.sum ∧ s'.nChildren = s.nChildren + (ns.sum : Nat) := by
  obtain ⟨cs, _, hl, e⟩ := spawn_some (exists_mixed h) h0 ns.sum hn
  exact ⟨cs, _, (C103_steps_partial h h0 (by omega) ns).trans e, hl, rfl⟩

/-! ### The order of the calls -/

/-- What all sequences spawned from `root` have in common with it. -/
def Kin (root s : SeedSeq) : Prop := Mixed s ∧ s.entropy = root.entropy ∧ s.poolSize = root.poolSize

theorem kin_op {root : SeedSeq} (objs : List SeedSeq) (op : Nat × Int) (h : ∀ s ∈ objs, Kin root s) : ∀ s ∈ spawnOp objs op, Kin root s := by
  intro q hq
  unfold spawnOp at hq
  split at hq
  · exact h q hq
  · rename_i s hs
    have hk := h s (List.mem_of_getElem? hs)
    split at hq
    · exact h q hq
    · rename_i cs s' e
      rcases List.mem_append.1 hq with hq | hq
      · rcases List.mem_or_eq_of_mem_set hq with hq | rfl
        · exact h q hq
        · rw [(spawn_parts e).1]
          exact hk
      · obtain ⟨k, ek⟩ := (spawn_parts e).2 _ hq
        obtain ⟨g, a, _, b, _⟩ := mk_mixed ek
        exact ⟨g, a.trans hk.2.1, by have := hk.2.2; omega⟩

theorem kin_run {root : SeedSeq} (ops : List (Nat × Int)) : ∀ objs : List SeedSeq, (∀ s ∈ objs, Kin root s) → ∀ s ∈ spawnRun objs ops, Kin root s := by
  induction ops with
  | nil => intro objs h; exact h
  | cons op ops ih =>
    intro objs h
    rw [spawnRun, List.foldl_cons]
    exact ih _ (kin_op objs op h)

/-- **C103 (order).** Two histories of `spawn` calls (any order, any counts) on a sequence and its descendants: the sequences with the same key
in both generate the same words. -/
theorem C103_order {root : SeedSeq} (h : Exists root) (ops ops' : List (Nat × Int)) (s s' : SeedSeq)
    (hs : s ∈ spawnRun [root] ops) (hs' : s' ∈ spawnRun [root] ops') (hk : s.spawnKey = s'.spawnKey) :
    s.entropy = s'.entropy ∧ s.pool = s'.pool ∧ (∀ n, generate32 s.pool n = generate32 s'.pool n) ∧
      ∀ n, generate64 s.pool n = generate64 s'.pool n := by
  have base : ∀ t ∈ [root], Kin root t := by
    intro t ht
    rw [List.mem_singleton] at ht
    subst ht
    exact ⟨exists_mixed h, rfl, rfl⟩
  obtain ⟨⟨r, sp, _, a1, a2, a3⟩, e1, p1⟩ := kin_run ops _ base s hs
  obtain ⟨⟨r', sp', _, b1, b2, b3⟩, e2, p2⟩ := kin_run ops' _ base s' hs'
  have hr : r = r' := by
    rw [e1, ← e2, b1] at a1
    injection a1 with a1; exact a1.symm
  have hsp : sp = sp' := by
    rw [hk, b2] at a2
    injection a2 with a2; exact a2.symm
  have hp : s.pool = s'.pool := by rw [a3, b3, hr, hsp, p1, p2]
  exact ⟨e1.trans e2.symm, hp, fun n => by rw [hp], fun n => by rw [hp]⟩

/-! ### Examples and the violation -/

/-- `SeedSequence(7)`. -/
theorem seven : ∃ s, mk (.int 7) [] 4 0 = .ok s := by
  obtain ⟨w, hw, _⟩ := intToWords_ok 7
  exact ⟨_, mk_ok (.int 7) [] 4 0 w [] (by decide) (by rw [coerce_int]; exact hw) coerce_nil⟩

example : ∃ s : SeedSeq, Exists s ∧ 0 ≤ s.nChildren ∧ s.nChildren + ([2, 0, 3].sum : Nat) < 2 ^ 31 := by
  obtain ⟨s, hs⟩ := seven
  refine ⟨s, .made hs, ?_⟩
  rw [(mk_mixed hs).2.2.2.2]
  decide

/-- Two histories in a different order that have the keys `[0]` and `[0, 1]` in common. -/
example : (spawnRun [demo] [(0, 1), (1, 2), (0, 1)]).map SeedSeq.spawnKey = [[], [0], [0, 0], [0, 1], [1]] ∧
    (spawnRun [demo] [(0, 2), (1, 1), (1, 1)]).map SeedSeq.spawnKey = [[], [0], [1], [0, 0], [0, 1]] := by decide +kernel

/-- **Violation of C103.** `spawn(1)`, `spawn(-1)` and `spawn(1)` return the same child twice, and one call for the sum of the counts one child. -/
theorem not_C103_negative_count : ∃ s : SeedSeq, Exists s ∧ ∃ c p, spawnAll s [1, -1, 1] = .ok ([c, c], p) ∧ spawn s 1 = .ok ([c], p) := by
  obtain ⟨s, hs⟩ := seven
  have g := (mk_mixed hs).1
  have h0 : s.nChildren = 0 := (mk_mixed hs).2.2.2.2
  obtain ⟨cs, _, hl, e⟩ := spawn_some g (by omega) 1 (by rw [h0]; decide)
  obtain ⟨c, rfl⟩ := List.length_eq_one_iff.1 hl
  have back : spawn { s with nChildren := s.nChildren + ((1 : Nat) : Int) } (-1) = .ok ([], s) := by
    rw [spawn, if_neg (by show ¬ (s.nChildren + ((1 : Nat) : Int) + -1 ≥ _ ∨ s.nChildren + ((1 : Nat) : Int) ≥ _); rw [h0]; decide)]
    show Except.ok ([], { s with nChildren := s.nChildren + ((1 : Nat) : Int) + -1 }) = _
    rw [show s.nChildren + ((1 : Nat) : Int) + -1 = s.nChildren by omega]
  have e' : spawn s 1 = .ok ([c], { s with nChildren := s.nChildren + ((1 : Nat) : Int) }) := e
  refine ⟨s, .made hs, c, _, ?_, e'⟩
  rw [spawnAll, e']
  show (match spawnAll { s with nChildren := s.nChildren + ((1 : Nat) : Int) } [-1, 1] with
    | .error e => Except.error e
    | .ok (ds, s'') => .ok ([c] ++ ds, s'')) = _
  rw [spawnAll, back]
  show (match (match spawnAll s [1] with
      | .error e => Except.error e
      | .ok (ds, s'') => .ok ([] ++ ds, s'')) with
    | .error e => Except.error e
    | .ok (ds, s'') => .ok ([c] ++ ds, s'')) = _
  rw [spawnAll, e']
  rfl

end Verif.SeedSeq
