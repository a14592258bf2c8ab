import Verif.Model.Threads

/-! C91: threads that share a bit generator. -/

namespace Verif

open XorLinear

variable {σ L : Type}

/-- One operation alone, from the shared state `m`. -/
def TOp.exec (l0 : L) (o : TOp σ L) (m : σ) : σ × L := o.body.foldl (fun x a => a x) (m, l0)

/-- Operations one after the other: the final state, and what each left. -/
def seqRun (l0 : L) (m : σ) : List (Nat × TOp σ L) → σ × List (Nat × L)
  | [] => (m, [])
  | (t, o) :: os => ((seqRun l0 (o.exec l0 m).1 os).1, (t, (o.exec l0 m).2) :: (seqRun l0 (o.exec l0 m).1 os).2)

theorem seqRun_snoc (l0 : L) (m : σ) (os : List (Nat × TOp σ L)) (t : Nat) (o : TOp σ L) :
    seqRun l0 m (os ++ [(t, o)]) = ((o.exec l0 (seqRun l0 m os).1).1,
      (seqRun l0 m os).2 ++ [(t, (o.exec l0 (seqRun l0 m os).1).2)]) := by
  induction os generalizing m with
  | nil => rfl
  | cons x os ih =>
    obtain ⟨t', o'⟩ := x
    rw [List.cons_append, seqRun, ih]
    rfl

/-- What belongs to thread `t`. -/
def ofThread {β : Type} (t : Nat) (l : List (Nat × β)) : List β := (l.filter fun x => x.1 == t).map (·.2)

theorem ofThread_snoc {β : Type} (t t' : Nat) (l : List (Nat × β)) (b : β) :
    ofThread t (l ++ [(t', b)]) = ofThread t l ++ if t' = t then [b] else [] := by
  rw [ofThread, List.filter_append, List.map_append]
  congr 1
  by_cases h : t' = t
  · simp [h]
  · simp [h]

/-- The operation a thread runs. -/
def Thread.running (x : Thread σ L) : List (TOp σ L) := (x.cur.map (·.1)).toList

/-- The holder of the lock (`b`) or of the GIL. -/
def World.hold (b : Bool) (w : World σ L) : Option Nat := match b with | true => w.lock | false => w.gil

/-- The operation holds the lock (`b`) or the GIL while it runs. -/
def TOp.guarded (b : Bool) (o : TOp σ L) : Prop := match b with | true => o.locked = true | false => o.nogil = false

structure AtomInv (b : Bool) (l0 : L) (m : σ) (progs : Nat → List (TOp σ L)) (w : World σ L) (order : List (Nat × TOp σ L)) : Prop where
  pend : ∀ t, progs t = ofThread t order ++ ((w.th t).running ++ (w.th t).prog)
  done : ∀ t, (w.th t).done = ofThread t (seqRun l0 m order).2
  free : w.hold b = none → (∀ t, (w.th t).cur = none) ∧ w.mem = (seqRun l0 m order).1
  held : ∀ t, w.hold b = some t → (∀ t', t' ≠ t → (w.th t').cur = none) ∧
    ∃ o pre as l, (w.th t).cur = some (o, as, l) ∧ o.body = pre ++ as ∧
      pre.foldl (fun x a => a x) ((seqRun l0 m order).1, l0) = (w.mem, l)

theorem AtomInv.step {b : Bool} {l0 : L} {m : σ} {progs : Nat → List (TOp σ L)} {w : World σ L} {order : List (Nat × TOp σ L)}
    (hl : ∀ t, ∀ o ∈ progs t, o.guarded b) (h : AtomInv b l0 m progs w order) (t : Nat) :
    ∃ order', AtomInv b l0 m progs (w.step l0 t) order' := by
  rw [World.step]
  cases hc : (w.th t).cur with
  | none =>
    simp only
    cases hp : (w.th t).prog with
    | nil => exact ⟨order, h⟩
    | cons o os =>
      simp only
      by_cases hg : w.gil = none ∧ (o.locked = true → w.lock = none)
      · rw [if_pos hg]
        have ho : o.guarded b := hl t o (by rw [h.pend t, hp]; simp)
        have hn : w.hold b = none := by
          cases b
          · exact hg.1
          · exact hg.2 ho
        have hh : (World.mk w.mem (if o.locked then some t else w.lock) (if o.nogil then none else some t)
            (Function.update w.th t ⟨os, some (o, o.body, l0), (w.th t).done⟩)).hold b = some t := by
          cases b
          · exact if_neg (by rw [show o.nogil = false from ho]; decide)
          · exact if_pos ho
        refine ⟨order, ⟨fun t' => ?_, fun t' => ?_, fun e => ?_, fun t' e => ?_⟩⟩
        · dsimp only
          by_cases e : t' = t
          · subst e
            rw [h.pend t', Function.update_self]
            simp [Thread.running, hc, hp]
          · rw [Function.update_of_ne e]
            exact h.pend t'
        · dsimp only
          by_cases e : t' = t
          · subst e
            rw [Function.update_self]
            exact h.done t'
          · rw [Function.update_of_ne e]
            exact h.done t'
        · rw [hh] at e
          cases e
        · rw [hh] at e
          cases e
          refine ⟨fun t' e => ?_, o, [], o.body, l0, ?_, rfl, ?_⟩
          · dsimp only
            rw [Function.update_of_ne e]
            exact (h.free hn).1 t'
          · dsimp only
            rw [Function.update_self]
          · rw [List.foldl_nil, (h.free hn).2]
      · rw [if_neg hg]
        exact ⟨order, h⟩
  | some c =>
    obtain ⟨o, as, l⟩ := c
    have hlk : w.hold b = some t := by
      cases hw : w.hold b with
      | none =>
        have := (h.free hw).1 t
        rw [hc] at this
        cases this
      | some t' =>
        by_contra hne
        have := (h.held t' hw).1 t fun e => hne (by rw [e])
        rw [hc] at this
        cases this
    obtain ⟨hoth, o', pre, as', l', e1, e2, e3⟩ := h.held t hlk
    rw [hc] at e1
    cases e1
    have ho : o.guarded b := hl t o (by rw [h.pend t, Thread.running, hc]; simp)
    cases as with
    | nil =>
      simp only
      by_cases hg : o.nogil = true → w.gil = none
      · rw [if_pos hg]
        have ex : o.exec l0 (seqRun l0 m order).1 = (w.mem, l) := by rw [TOp.exec, e2, List.append_nil, e3]
        refine ⟨order ++ [(t, o)], ⟨fun t' => ?_, fun t' => ?_, fun _ => ⟨fun t' => ?_, ?_⟩, fun t' e => ?_⟩⟩
        · rw [ofThread_snoc]
          dsimp only
          by_cases e : t' = t
          · subst e
            rw [h.pend t', Function.update_self, if_pos rfl]
            simp [Thread.running, hc]
          · rw [Function.update_of_ne e, if_neg (Ne.symm e), List.append_nil]
            exact h.pend t'
        · rw [seqRun_snoc, ofThread_snoc, ex]
          dsimp only
          by_cases e : t' = t
          · subst e
            rw [Function.update_self, if_pos rfl, ← h.done t']
          · rw [Function.update_of_ne e, if_neg (Ne.symm e), List.append_nil]
            exact h.done t'
        · dsimp only
          by_cases e : t' = t
          · subst e
            rw [Function.update_self]
          · rw [Function.update_of_ne e]
            exact hoth t' e
        · rw [seqRun_snoc, ex]
        · have : (World.mk w.mem (if o.locked then none else w.lock) none
              (Function.update w.th t ⟨(w.th t).prog, none, (w.th t).done ++ [l]⟩)).hold b = none := by
            cases b
            · rfl
            · exact if_pos ho
          rw [this] at e
          cases e
      · rw [if_neg hg]
        exact ⟨order, h⟩
    | cons a as =>
      simp only
      refine ⟨order, ⟨fun t' => ?_, fun t' => ?_, fun e => ?_, fun t' e => ?_⟩⟩
      · dsimp only
        by_cases e : t' = t
        · subst e
          rw [h.pend t', Function.update_self]
          simp [Thread.running, hc]
        · rw [Function.update_of_ne e]
          exact h.pend t'
      · dsimp only
        by_cases e : t' = t
        · subst e
          rw [Function.update_self]
          exact h.done t'
        · rw [Function.update_of_ne e]
          exact h.done t'
      · change w.hold b = _ at e
        rw [hlk] at e
        cases e
      · change w.hold b = _ at e
        rw [hlk] at e
        cases e
        refine ⟨fun t' e => ?_, o, pre ++ [a], as, (a (w.mem, l)).2, ?_, by rw [e2, List.append_assoc]; rfl, ?_⟩
        · dsimp only
          rw [Function.update_of_ne e]
          exact hoth t' e
        · dsimp only
          rw [Function.update_self]
        · rw [List.foldl_append, e3]
          rfl

theorem AtomInv.run {b : Bool} {l0 : L} {m : σ} {progs : Nat → List (TOp σ L)}
    (hl : ∀ t, ∀ o ∈ progs t, o.guarded b) (sch : List Nat) {w : World σ L} {order : List (Nat × TOp σ L)}
    (h : AtomInv b l0 m progs w order) : ∃ order', AtomInv b l0 m progs (w.run l0 sch) order' := by
  induction sch generalizing w order with
  | nil => exact ⟨order, h⟩
  | cons t sch ih =>
    obtain ⟨order', h'⟩ := h.step hl t
    exact ih h'

/-- **C91.** However the threads are scheduled, methods that hold the lock behave as if they were called one after the other: there is an
order of the finished operations, each thread's in the order of its program, in which one-at-a-time execution leaves every
operation with the same results; and whenever the lock is free, also the same state. -/
theorem C91_atomic (l0 : L) (m : σ) (progs : Nat → List (TOp σ L)) (hl : ∀ t, ∀ o ∈ progs t, o.locked = true) (sch : List Nat) :
    ∃ order : List (Nat × TOp σ L),
      (∀ t, progs t = ofThread t order ++ ((((World.start m progs).run l0 sch).th t).running ++
        (((World.start m progs).run l0 sch).th t).prog)) ∧
      (∀ t, (((World.start m progs).run l0 sch).th t).done = ofThread t (seqRun l0 m order).2) ∧
      (((World.start m progs).run l0 sch).lock = none → ((World.start m progs).run l0 sch).mem = (seqRun l0 m order).1) := by
  have h0 : AtomInv true l0 m progs (World.start m progs) [] :=
    ⟨fun t => rfl, fun t => rfl, fun _ => ⟨fun t => rfl, rfl⟩, fun t e => by cases e⟩
  obtain ⟨order, h⟩ := h0.run hl sch
  exact ⟨order, h.pend, h.done, fun e => (h.free e).2⟩

/-- C91, the part that holds for methods without the lock: as long as no thread gives up the GIL in its methods (single values only), all
methods, locked or not, behave as if called one after the other. Missing: what the methods without the lock do beside a method that
gives up the GIL; see `not_C91_*`. -/
theorem C91_gil_partial (l0 : L) (m : σ) (progs : Nat → List (TOp σ L)) (hl : ∀ t, ∀ o ∈ progs t, o.nogil = false) (sch : List Nat) :
    ∃ order : List (Nat × TOp σ L),
      (∀ t, progs t = ofThread t order ++ ((((World.start m progs).run l0 sch).th t).running ++
        (((World.start m progs).run l0 sch).th t).prog)) ∧
      (∀ t, (((World.start m progs).run l0 sch).th t).done = ofThread t (seqRun l0 m order).2) ∧
      (((World.start m progs).run l0 sch).gil = none → ((World.start m progs).run l0 sch).mem = (seqRun l0 m order).1) := by
  have h0 : AtomInv false l0 m progs (World.start m progs) [] :=
    ⟨fun t => rfl, fun t => rfl, fun _ => ⟨fun t => rfl, rfl⟩, fun t e => by cases e⟩
  obtain ⟨order, h⟩ := h0.run hl sch
  exact ⟨order, h.pend, h.done, fun e => (h.free e).2⟩

/-- Draws of the kinds `ks` one after the other. -/
def drawKs {κ α : Type} (nx : κ → σ → α × σ) : List κ → σ → List α × σ
  | [], s => ([], s)
  | k :: ks, s => ((nx k s).1 :: (drawKs nx ks (nx k s).2).1, (drawKs nx ks (nx k s).2).2)

theorem drawKs_append {κ α : Type} (nx : κ → σ → α × σ) (ks ks' : List κ) (s : σ) :
    drawKs nx (ks ++ ks') s = ((drawKs nx ks s).1 ++ (drawKs nx ks' (drawKs nx ks s).2).1, (drawKs nx ks' (drawKs nx ks s).2).2) := by
  induction ks generalizing s with
  | nil => rfl
  | cons k ks ih => rw [List.cons_append, drawKs, ih]; rfl

theorem drawKs_length {κ α : Type} (nx : κ → σ → α × σ) (ks : List κ) (s : σ) : (drawKs nx ks s).1.length = ks.length := by
  induction ks generalizing s with
  | nil => rfl
  | cons k ks ih => rw [drawKs, List.length_cons, ih, List.length_cons]

theorem drawOp_exec {κ α : Type} (nx : κ → σ → α × σ) (lk ng : Bool) (ks : List κ) (s : σ) :
    (drawOp nx lk ng ks).exec (none, []) s = ((drawKs nx ks s).2, none, (drawKs nx ks s).1) := by
  have : ∀ (l : List α) (s : σ), (ks.flatMap (drawAcc nx)).foldl (fun x a => a x) (s, none, l) =
      ((drawKs nx ks s).2, none, l ++ (drawKs nx ks s).1) := by
    induction ks with
    | nil => intro l s; simp [drawKs]
    | cons k ks ih =>
      intro l s
      rw [List.flatMap_cons, List.foldl_append]
      show List.foldl _ ((nx k s).2, none, l ++ [(nx k s).1]) _ = _
      rw [ih, drawKs, List.append_assoc]
      rfl
  exact this [] s

theorem ofThread_cons {β : Type} (t t' : Nat) (l : List (Nat × β)) (b : β) :
    ofThread t ((t', b) :: l) = (if t' = t then [b] else []) ++ ofThread t l := by
  by_cases h : t' = t
  · simp [ofThread, h]
  · simp [ofThread, h]

theorem ofThread_map {β γ : Type} (g : β → γ) (t : Nat) (l : List (Nat × β)) :
    ofThread t (l.map fun x => (x.1, g x.2)) = (ofThread t l).map g := by
  induction l with
  | nil => rfl
  | cons x l ih =>
    obtain ⟨t', b⟩ := x
    rw [List.map_cons, ofThread_cons, ofThread_cons, ih, List.map_append]
    congr 1
    split <;> rfl

theorem lift_order {β γ : Type} (g : β → γ) (order : List (Nat × γ)) (cs : Nat → List β) (rest : Nat → List γ)
    (h : ∀ t, (cs t).map g = ofThread t order ++ rest t) :
    ∃ ord : List (Nat × β), ord.map (fun x => (x.1, g x.2)) = order ∧ ∀ t, ∃ r, cs t = ofThread t ord ++ r ∧ r.map g = rest t := by
  induction order generalizing cs with
  | nil => exact ⟨[], rfl, fun t => ⟨cs t, rfl, h t⟩⟩
  | cons x order ih =>
    obtain ⟨t, o⟩ := x
    have ht := h t
    rw [ofThread_cons, if_pos rfl] at ht
    cases hc : cs t with
    | nil => rw [hc] at ht; cases ht
    | cons c cs' =>
      rw [hc, List.map_cons] at ht
      have h1 : g c = o := (List.cons.inj ht).1
      have h2 : cs'.map g = ofThread t order ++ rest t := (List.cons.inj ht).2
      obtain ⟨ord, e1, e2⟩ := ih (Function.update cs t cs') fun t' => by
        by_cases e : t' = t
        · subst e
          rw [Function.update_self, h2]
        · rw [Function.update_of_ne e, h t', ofThread_cons, if_neg (Ne.symm e), List.nil_append]
      refine ⟨(t, c) :: ord, by rw [List.map_cons, e1, h1], fun t' => ?_⟩
      obtain ⟨r, e3, e4⟩ := e2 t'
      refine ⟨r, ?_, e4⟩
      rw [ofThread_cons]
      by_cases e : t' = t
      · subst e
        rw [Function.update_self] at e3
        rw [hc, e3, if_pos rfl]
        rfl
      · rw [Function.update_of_ne e] at e3
        rw [e3, if_neg (Ne.symm e), List.nil_append]

/-- A call of a method that draws: whether it gives up the GIL, and the kinds of its draws. -/
abbrev DrawCall (κ : Type) := Bool × List κ

theorem seqRun_draws {κ α : Type} (nx : κ → σ → α × σ) (m : σ) (calls : List (Nat × DrawCall κ)) :
    ∃ got : List (Nat × DrawCall κ × List α), got.map (fun g => (g.1, g.2.1)) = calls ∧
      (seqRun (none, []) m (calls.map fun c => (c.1, drawOp nx true c.2.1 c.2.2))).2 =
        got.map (fun g => (g.1, ((none, g.2.2) : DrawMem σ α))) ∧
      (∀ g ∈ got, g.2.2.length = g.2.1.2.length) ∧
      (got.flatMap (·.2.2), (seqRun (none, []) m (calls.map fun c => (c.1, drawOp nx true c.2.1 c.2.2))).1) =
        drawKs nx (got.flatMap (·.2.1.2)) m := by
  induction calls generalizing m with
  | nil => exact ⟨[], rfl, rfl, (fun g hg => by cases hg), rfl⟩
  | cons c calls ih =>
    obtain ⟨t, c⟩ := c
    obtain ⟨got, e1, e2, e3, e4⟩ := ih (drawKs nx c.2 m).2
    refine ⟨(t, c, (drawKs nx c.2 m).1) :: got, by rw [List.map_cons, e1], ?_, ?_, ?_⟩
    · rw [List.map_cons, seqRun, drawOp_exec]
      dsimp only
      rw [e2, List.map_cons]
    · intro g hg
      rcases List.mem_cons.mp hg with rfl | hg
      · exact drawKs_length nx c.2 m
      · exact e3 g hg
    · rw [List.map_cons, seqRun, drawOp_exec, List.flatMap_cons, List.flatMap_cons]
      dsimp only
      rw [drawKs_append, ← e4]

/-- **C91.** Whatever the schedule, the calls of all threads share out the stream: in some order that keeps every thread's own order, the
values of the finished calls, put together, are the draws of a single thread that makes the same calls. No value is drawn twice,
none is lost, and a call gets consecutive values. -/
theorem C91_draws {κ α : Type} (nx : κ → σ → α × σ) (m : σ) (calls : Nat → List (DrawCall κ)) (sch : List Nat) (w : World σ (DrawMem σ α))
    (hw : w = (World.start m fun t => (calls t).map fun c => drawOp nx true c.1 c.2).run (none, []) sch) :
    ∃ got : List (Nat × DrawCall κ × List α),
      (∀ t, (w.th t).done.map (·.2) = (ofThread t got).map (·.2)) ∧
      (∀ t, (ofThread t got).map (·.1) <+: calls t) ∧
      (∀ t, (w.th t).cur = none → (w.th t).prog = [] → (ofThread t got).map (·.1) = calls t) ∧
      (∀ g ∈ got, g.2.2.length = g.2.1.2.length) ∧
      got.flatMap (·.2.2) = (drawKs nx (got.flatMap (·.2.1.2)) m).1 ∧
      (w.lock = none → w.mem = (drawKs nx (got.flatMap (·.2.1.2)) m).2) := by
  subst hw
  obtain ⟨order, h1, h2, h3⟩ := C91_atomic (none, []) m (fun t => (calls t).map fun c => drawOp nx true c.1 c.2)
    (fun t o ho => by obtain ⟨c, _, rfl⟩ := List.mem_map.mp ho; rfl) sch
  obtain ⟨ord, e1, e2⟩ := lift_order _ order calls _ h1
  subst e1
  obtain ⟨got, g1, g2, g3, g4⟩ := seqRun_draws nx m ord
  have g5 : ∀ t, (ofThread t got).map (·.1) = ofThread t ord := fun t => by rw [← g1, ofThread_map (fun g : DrawCall κ × List α => g.1)]
  refine ⟨got, fun t => ?_, fun t => ?_, fun t hc hp => ?_, g3, congrArg Prod.fst g4, fun e => ?_⟩
  · rw [h2 t, g2, ofThread_map (fun g : DrawCall κ × List α => ((none, g.2) : DrawMem σ α)), List.map_map]
    rfl
  · obtain ⟨r, e3, -⟩ := e2 t
    rw [g5]
    exact ⟨r, e3.symm⟩
  · obtain ⟨r, e3, e4⟩ := e2 t
    rw [Thread.running, hc, hp] at e4
    have : r = [] := List.map_eq_nil_iff.mp e4
    rw [g5, e3, this, List.append_nil]
  · rw [h3 e]
    exact congrArg Prod.snd g4

theorem drawKs_replicate {α : Type} (nx : σ → α × σ) (n : Nat) (s : σ) :
    (drawKs (fun _ : Unit => nx) (List.replicate n ()) s).1 = drawN nx n s := by
  induction n generalizing s with
  | zero => rfl
  | succ n ih => rw [List.replicate_succ, drawKs, drawN, ih]

/-- C91 for `random_raw(n)` calls: the values of the finished calls are the first values of the stream. -/
theorem C91_stream {α : Type} (nx : σ → α × σ) (m : σ) (calls : Nat → List Nat) (sch : List Nat) (w : World σ (DrawMem σ α))
    (hw : w = (World.start m fun t => (calls t).map fun n => drawOp (fun _ : Unit => nx) true true (List.replicate n ())).run
      (none, []) sch) :
    ∃ got : List (Nat × List α), (∀ t, (w.th t).done.map (·.2) = ofThread t got) ∧
      (∀ t, (ofThread t got).map List.length <+: calls t) ∧
      got.flatMap (·.2) = drawN nx (got.flatMap (·.2)).length m := by
  obtain ⟨got, h1, h2, -, h4, h5, -⟩ := C91_draws (fun _ : Unit => nx) m
    (fun t => (calls t).map fun n => (true, List.replicate n ())) sch w (by rw [hw]; simp [List.map_map, Function.comp_def])
  have hl : ∀ l : List Unit, l = List.replicate l.length () := fun l => List.eq_replicate_of_mem fun _ _ => rfl
  refine ⟨got.map fun g => (g.1, g.2.2), fun t => ?_, fun t => ?_, ?_⟩
  · rw [h1 t, ofThread_map (fun g : DrawCall Unit × List α => g.2)]
  · have h3 : (ofThread t (got.map fun g => (g.1, g.2.2))).map List.length = ((ofThread t got).map (·.1)).map (fun c => c.2.length) := by
      rw [ofThread_map (fun g : DrawCall Unit × List α => g.2), List.map_map, List.map_map]
      refine List.map_congr_left fun g hg => ?_
      obtain ⟨x, hx, rfl⟩ := List.mem_map.mp hg
      exact h4 x (List.mem_filter.mp hx).1
    rw [h3]
    have := (h2 t).map fun c : DrawCall Unit => c.2.length
    simpa [List.map_map, Function.comp_def] using this
  · rw [List.flatMap_map, h5, ← drawKs_replicate, drawKs_length, ← hl]

/-! ### No deadlock -/

/-- The steps a thread has still to make. -/
def Thread.left (x : Thread σ L) : Nat :=
  (x.prog.map fun o => o.body.length + 2).sum + (match x.cur with | none => 0 | some c => c.2.1.length + 1)

/-- The locks are held by threads that run an operation that needs them. -/
structure LockInv (w : World σ L) : Prop where
  lock : ∀ t, w.lock = some t → ∃ c, (w.th t).cur = some c ∧ c.1.locked = true
  gil : ∀ t, w.gil = some t → ∃ c, (w.th t).cur = some c ∧ c.1.nogil = false

theorem LockInv.step {l0 : L} {w : World σ L} (h : LockInv w) (t : Nat) : LockInv (w.step l0 t) := by
  rw [World.step]
  cases hc : (w.th t).cur with
  | none =>
    simp only
    cases hp : (w.th t).prog with
    | nil => exact h
    | cons o os =>
      simp only
      split
      · refine ⟨fun u e => ?_, fun u e => ?_⟩
        · dsimp only at e ⊢
          by_cases hu : u = t
          · subst hu
            rw [Function.update_self]
            by_cases ho : o.locked = true
            · exact ⟨_, rfl, ho⟩
            · rw [if_neg ho] at e
              obtain ⟨c, e1, -⟩ := h.lock u e
              rw [hc] at e1
              cases e1
          · rw [Function.update_of_ne hu]
            by_cases ho : o.locked = true
            · rw [if_pos ho] at e
              exact absurd (Option.some.inj e).symm hu
            · rw [if_neg ho] at e
              exact h.lock u e
        · dsimp only at e ⊢
          by_cases ho : o.nogil = true
          · rw [if_pos ho] at e
            cases e
          · rw [if_neg ho] at e
            cases e
            rw [Function.update_self]
            exact ⟨_, rfl, Bool.not_eq_true _ ▸ ho⟩
      · exact h
  | some c =>
    obtain ⟨o, as, l⟩ := c
    cases as with
    | nil =>
      simp only
      split
      · refine ⟨fun u e => ?_, fun u e => by cases e⟩
        dsimp only at e ⊢
        by_cases ho : o.locked = true
        · rw [if_pos ho] at e
          cases e
        · rw [if_neg ho] at e
          obtain ⟨c, e1, e2⟩ := h.lock u e
          by_cases hu : u = t
          · subst hu
            rw [hc] at e1
            cases e1
            exact absurd e2 ho
          · rw [Function.update_of_ne hu]
            exact ⟨c, e1, e2⟩
      · exact h
    | cons a as =>
      simp only
      refine ⟨fun u e => ?_, fun u e => ?_⟩
      · obtain ⟨c, e1, e2⟩ := h.lock u e
        dsimp only
        by_cases hu : u = t
        · subst hu
          rw [hc] at e1
          cases e1
          rw [Function.update_self]
          exact ⟨_, rfl, e2⟩
        · rw [Function.update_of_ne hu]
          exact ⟨c, e1, e2⟩
      · obtain ⟨c, e1, e2⟩ := h.gil u e
        dsimp only
        by_cases hu : u = t
        · subst hu
          rw [hc] at e1
          cases e1
          rw [Function.update_self]
          exact ⟨_, rfl, e2⟩
        · rw [Function.update_of_ne hu]
          exact ⟨c, e1, e2⟩

theorem LockInv.run {l0 : L} (sch : List Nat) {w : World σ L} (h : LockInv w) : LockInv (w.run l0 sch) := by
  induction sch generalizing w with
  | nil => exact h
  | cons t sch ih => exact ih (h.step t)

/-- A running thread that does not wait for the GIL makes a step. -/
theorem step_left_running {l0 : L} {w : World σ L} {t : Nat} {c : TOp σ L × List (σ × L → σ × L) × L} (hc : (w.th t).cur = some c)
    (hg : c.1.nogil = true → w.gil = none) : ((w.step l0 t).th t).left + 1 = (w.th t).left := by
  obtain ⟨o, as, l⟩ := c
  rw [World.step, hc]
  cases as with
  | nil =>
    simp only
    rw [if_pos hg]
    simp [Thread.left, hc]
  | cons a as =>
    simp only
    simp [Thread.left, hc]
    omega

/-- C91: there is no deadlock. After any schedule of any operations, locked or not: if some thread is not finished, some thread can make
a step towards its end. -/
theorem C91_no_deadlock (l0 : L) (m : σ) (progs : Nat → List (TOp σ L)) (sch : List Nat) (w : World σ L)
    (hw : w = (World.start m progs).run l0 sch) (t : Nat) (ht : (w.th t).left ≠ 0) :
    ∃ u, ((w.step l0 u).th u).left + 1 = (w.th u).left := by
  have h : LockInv w := hw ▸ LockInv.run sch ⟨fun t e => (by cases e), fun t e => (by cases e)⟩
  cases hg : w.gil with
  | some u =>
    obtain ⟨c, e1, e2⟩ := h.gil u hg
    exact ⟨u, step_left_running e1 fun e => by rw [e2] at e; cases e⟩
  | none =>
    cases hl : w.lock with
    | some u =>
      obtain ⟨c, e1, -⟩ := h.lock u hl
      exact ⟨u, step_left_running e1 fun _ => hg⟩
    | none =>
      cases hc : (w.th t).cur with
      | some c => exact ⟨t, step_left_running hc fun _ => hg⟩
      | none =>
        refine ⟨t, ?_⟩
        rw [World.step, hc]
        cases hp : (w.th t).prog with
        | nil => exact absurd (by simp [Thread.left, hc, hp]) ht
        | cons o os =>
          simp only
          rw [if_pos ⟨hg, fun _ => hl⟩]
          simp [Thread.left, hc, hp]
          omega

/-! ### What is not locked -/

/-- C91 fails for `complex_normal()`: it draws (two words or more, here of the kinds `j1`, `j2`) without the lock. While `random_raw(1)` of
another thread is between reading and writing the state it is given words of the same stream, and its draws are then undone: both
threads get words from the same state. -/
theorem not_C91_complex_normal {κ α : Type} (nx : κ → σ → α × σ) (k j1 j2 : κ) (m : σ) : ∃ sch w,
    w = (World.start m fun t => if t = 0 then [drawOp nx true true [k]] else if t = 1 then [drawOp nx false false [j1, j2]] else []).run
      (none, []) sch ∧ (w.th 0).left = 0 ∧ (w.th 1).left = 0 ∧
    (w.th 0).done.map (·.2) = [[(nx k m).1]] ∧ (w.th 1).done.map (·.2) = [[(nx j1 m).1, (nx j2 (nx j1 m).2).1]] ∧
    w.mem = (nx k m).2 :=
  ⟨[0, 0, 1, 1, 1, 1, 1, 1, 0, 0], _, rfl, rfl, rfl, rfl, rfl, rfl⟩

/-- C91 fails for `seed` and the `state` setter: an assignment during a draw of another thread is lost. -/
theorem not_C91_seed {κ α : Type} (nx : κ → σ → α × σ) (k : κ) (m s : σ) : ∃ sch w,
    w = (World.start m fun t => if t = 0 then [drawOp nx true true [k]] else if t = 1 then [assignOp s] else []).run
      (none, []) sch ∧ (w.th 0).left = 0 ∧ (w.th 1).left = 0 ∧ w.mem = (nx k m).2 :=
  ⟨[0, 0, 1, 1, 1, 0, 0], _, rfl, rfl, rfl, rfl⟩

/-- C91 fails for `advance` and `jump`: they can be lost, and can make draws of other threads undone. -/
theorem not_C91_advance {κ α : Type} (nx : κ → σ → α × σ) (k : κ) (f : σ → σ) (m : σ) :
    (∃ sch w, w = (World.start m fun t => if t = 0 then [drawOp nx true true [k]] else if t = 1 then [updateOp f] else []).run
      (none, []) sch ∧ (w.th 0).left = 0 ∧ (w.th 1).left = 0 ∧ w.mem = (nx k m).2) ∧
    ∃ sch w, w = (World.start m fun t => if t = 0 then [drawOp nx true true [k]] else if t = 1 then [updateOp f] else []).run
      (none, []) sch ∧ (w.th 0).left = 0 ∧ (w.th 1).left = 0 ∧ w.mem = f m :=
  ⟨⟨[0, 0, 1, 1, 1, 1, 0, 0], _, rfl, rfl, rfl, rfl⟩, ⟨[0, 1, 1, 0, 0, 1, 1, 0], _, rfl, rfl, rfl, rfl⟩⟩

theorem xoroDrawOp_exec (m : S2) (l : XoroMem) : (xoroDrawOp.exec l m).1 = (xoroPlusNext m).2 := rfl

/-- C91 fails for the `state` getter: during a draw of another thread it returns a state that the generator was never in. -/
theorem not_C91_getter : ∃ sch w, w = (World.start (⟨1, 2⟩ : S2) fun t => if t = 0 then [xoroDrawOp] else if t = 1 then [xoroGetOp] else []).run
      (0, 0) sch ∧ (w.th 0).left = 0 ∧ (w.th 1).left = 0 ∧ ∃ r, (w.th 1).done = [r] ∧
      (⟨r.1, r.2⟩ : S2) ≠ ⟨1, 2⟩ ∧ (⟨r.1, r.2⟩ : S2) ≠ (xoroPlusNext ⟨1, 2⟩).2 :=
  ⟨[0, 0, 0, 1, 0, 1, 1, 1, 0, 0], _, rfl, by decide, by decide, (0x1030003#64, 2#64), by decide, by decide, by decide⟩

/-- C91, C48 fail for RDRAND: the update of the status flag after `random_raw` is not locked. The hardware delivers one word and then
fails. Thread 1 is told so, but thread 0 then writes back the flag it had read before, and its next draw returns twice the golden
ratio constant without an error. -/
theorem not_C91_rdrand : ∃ sch w, w = (World.start (rdInit 0 0) fun t =>
      if t = 0 then [rdRaw1 (fun t => if t = 0 then some 7 else none), rdAnd 1, rdDraw (fun t => if t = 0 then some 7 else none)]
      else if t = 1 then [rdDraw (fun t => if t = 0 then some 7 else none)] else []).run ⟨0, 0, [], false⟩ sch ∧
    (w.th 0).left = 0 ∧ (w.th 1).left = 0 ∧ w.mem.status = 1 ∧
    (w.th 1).done.map (fun r => (r.vals, r.raised)) = [([some phiM1], true)] ∧
    ((w.th 0).done.map (fun r => (r.vals, r.raised))).getLast? = some ([some (phiM1 + phiM1)], false) :=
  ⟨[0, 0, 0, 1, 0, 0, 1, 0, 0, 1, 0, 0, 0], _, rfl, by decide +kernel, by decide +kernel, by decide +kernel, by decide +kernel, by decide +kernel⟩

/-- Two threads in a tangle: thread 1 has to wait for the lock, and takes up the stream where thread 0 left it. -/
example : ∃ w, w = (World.start (⟨1, 2⟩ : S2) fun t => if t = 0 then [drawOp (fun _ : Unit => xoroPlusNext) true true [(), ()]] else
      if t = 1 then [drawOp (fun _ : Unit => xoroPlusNext) true false [()]] else []).run (none, [])
        [0, 1, 0, 1, 0, 0, 1, 0, 1, 0, 1, 1, 1, 1] ∧
    (w.th 0).done.map (·.2) = [(drawN xoroPlusNext 3 ⟨1, 2⟩).take 2] ∧
    (w.th 1).done.map (·.2) = [(drawN xoroPlusNext 3 ⟨1, 2⟩).drop 2] :=
  ⟨_, rfl, by decide +kernel, by decide +kernel⟩

end Verif
