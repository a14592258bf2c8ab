import Verif.Model.ExtRandom
import Verif.Props.RandomRaw
import Mathlib.Tactic.Linarith

/-! Properties C73 (shape of `multivariate_normal`), part of C74 (shapes of `multivariate_complex_normal`) and C75
(`ExtendedGenerator.random`). -/

namespace Verif

/-! ### C75 -/

/-- C75, without `out`: the array holds the next `prod(size)` draws and the generator has moved by exactly that many;
a scalar is one draw; a refused size draws nothing. More than `2^31 - 1` long doubles are undefined behaviour. -/
theorem C75_size {σ α : Type} (nx : σ → α × σ) (dt : FDtype) (s : σ) :
    erandom nx dt .none none s = (.ok (.scalar (nthDraw nx 0 s)), stepOf nx s) ∧
    (∀ size : Size, size ≠ .none → (∀ d ∈ size.dims, 0 ≤ d) → (dt = .ld → (size.dims.map Int.toNat).prod < 2 ^ 31) →
      erandom nx dt size none s = (.ok (.array size.dims false (drawN nx (size.dims.map Int.toNat).prod s)), (stepOf nx)^[(size.dims.map Int.toNat).prod] s)) ∧
    (∀ size : Size, size ≠ .none → (∃ d ∈ size.dims, d < 0) → erandom nx dt size none s = (.error .value, s)) := by
  refine ⟨rfl, fun size h1 h2 h3 => ?_, fun size h1 h2 => ?_⟩
  · simp only [erandom, if_neg h1, npEmptySize_ok h2, fillDt]
    rw [if_neg (by rintro ⟨h4, h5⟩; have := h3 h4; omega)]
    simp only [fillLoop_eq]
  · simp only [erandom, if_neg h1, npEmptySize_err h2]

/-- C75, with `out`: accepted exactly when `out` is an ndarray of the dtype, well-behaved and contiguous in C or Fortran
order, and `size`, if given, is its shape; the draws then go into its memory in order. -/
theorem C75_out {σ α : Type} (nx : σ → α × σ) (dt : FDtype) (size : Size) (o : OutArr) (s : σ) (hld : dt = .ld → o.shape.prod < 2 ^ 31) :
    (∃ r, (erandom nx dt size (some o) s).1 = .ok r) ↔
      o.ndarray = true ∧ (o.carray = true ∨ o.farray = true) ∧ o.dtype = dt ∧ (size = .none ∨ size.dims = o.shape.map Int.ofNat) := by
  simp only [erandom, checkOutput, fillDt]
  rw [if_neg (show ¬ (dt = .ld ∧ o.shape.prod > 2147483647) by rintro ⟨h4, h5⟩; have := hld h4; omega)]
  by_cases h1 : o.ndarray = false
  · simp [h1]
  by_cases h2 : ¬ (o.carray = true ∨ o.farray = true)
  · simp [h1, h2]
  by_cases h3 : o.dtype ≠ dt
  · simp [h1, h2, h3]
  by_cases h4 : size ≠ .none ∧ size.dims ≠ o.shape.map Int.ofNat
  · simp only [if_neg h1, if_neg h2, if_neg h3, if_pos h4]
    refine ⟨fun ⟨r, h⟩ => (nomatch h), fun h => ?_⟩
    rcases h.2.2.2 with h | h
    · exact absurd h h4.1
    · exact absurd h h4.2
  · simp only [if_neg h1, if_neg h2, if_neg h3, if_neg h4]
    refine ⟨fun _ => ⟨by simpa using h1, not_not.1 h2, not_not.1 h3, ?_⟩, fun _ => ⟨_, rfl⟩⟩
    by_cases h5 : size = .none
    · exact .inl h5
    · exact .inr (by_contra fun h6 => h4 ⟨h5, h6⟩)

theorem C75_out_fills {σ α : Type} (nx : σ → α × σ) (dt : FDtype) (size : Size) (o : OutArr) (s : σ) (r : FOut α)
    (h : (erandom nx dt size (some o) s).1 = .ok r) :
    r = .array (o.shape.map Int.ofNat) (!o.carray) (drawN nx o.shape.prod s) ∧ (erandom nx dt size (some o) s).2 = (stepOf nx)^[o.shape.prod] s := by
  simp only [erandom] at h ⊢
  cases hc : checkOutput o dt size with
  | error e => rw [hc] at h; cases h
  | ok v =>
    rw [hc] at h
    simp only [fillDt] at h ⊢
    by_cases hn : dt = .ld ∧ o.shape.prod > 2147483647
    · rw [if_pos hn] at h; cases h
    · rw [if_neg hn] at h ⊢
      simp only [fillLoop_eq, Except.ok.injEq] at h ⊢
      exact ⟨h.symm, trivial⟩

/-- C75: a refused `out` leaves the generator as it was. -/
theorem C75_out_refused {σ α : Type} (nx : σ → α × σ) (dt : FDtype) (size : Size) (out : Option OutArr) (s : σ) (e : RErr)
    (h : (erandom nx dt size out s).1 = .error e) : (erandom nx dt size out s).2 = s := by
  cases out with
  | none =>
    simp only [erandom] at h ⊢
    split at h
    · cases h
    · next h1 =>
      rw [if_neg h1]
      cases hc : npEmptySize size.dims with
      | error e => rfl
      | ok n =>
        rw [hc] at h
        simp only at h ⊢
        cases hf : fillDt nx dt n s with
        | error e => rfl
        | ok v => rw [hf] at h; cases h
  | some o =>
    simp only [erandom] at h ⊢
    cases hc : checkOutput o dt size with
    | error e => rfl
    | ok v =>
      rw [hc] at h
      simp only at h ⊢
      cases hf : fillDt nx dt o.shape.prod s with
      | error e => rfl
      | ok v => rw [hf] at h; cases h

/-- The counter of `random_long_double_fill` overflows exactly for more than `2^31 - 1` elements; the other dtypes have
no such limit. -/
theorem C75_overflow_iff {σ α : Type} (nx : σ → α × σ) (dt : FDtype) (size : Size) (h1 : size ≠ .none) (h2 : ∀ d ∈ size.dims, 0 ≤ d) (s : σ) :
    (erandom nx dt size none s).1 = .error .ub ↔ dt = .ld ∧ 2 ^ 31 ≤ (size.dims.map Int.toNat).prod := by
  simp only [erandom, if_neg h1, npEmptySize_ok h2, fillDt]
  by_cases h : dt = .ld ∧ (size.dims.map Int.toNat).prod > 2147483647
  · rw [if_pos h]
    exact ⟨fun _ => ⟨h.1, by have := h.2; omega⟩, fun _ => rfl⟩
  · rw [if_neg h]
    refine ⟨fun h' => (nomatch h'), fun h' => absurd ⟨h'.1, by have := h'.2; omega⟩ h⟩

/-- `random(size=2**31, dtype=np.longdouble)` and `random(out=[0.0])`. -/
theorem not_C75_undefined : (erandom countGen .ld (.int (2 ^ 31)) none 0).1 = .error .ub ∧
    (erandom countGen .f64 .none (some ⟨false, .f64, [1], true, true⟩) 0).1 = .error .ub :=
  ⟨(C75_overflow_iff _ _ _ (by simp) (by simp [Size.dims]) _).2 ⟨rfl, by decide⟩, by decide⟩

/-- Where the element `(i, j)` of a two-dimensional array comes from: an array in Fortran order does not get the values that
the same call with `size` gives, unless it has one row or one column. -/
theorem C75_order_iff (r c : Nat) : (∀ i < r, ∀ j < c, posF [r, c] [i, j] = posC [r, c] [i, j]) ↔ r ≤ 1 ∨ c ≤ 1 := by
  simp only [posF, posC, List.prod_cons, List.prod_nil, Nat.mul_one, Nat.mul_zero, Nat.add_zero]
  constructor
  · intro h
    by_contra hn
    have h1 := h 1 (by omega) 0 (by omega)
    have h2 := h 0 (by omega) 1 (by omega)
    omega
  · rintro (h | h) i hi j hj
    · obtain rfl : r = 1 := by omega
      obtain rfl : i = 0 := by omega
      omega
    · obtain rfl : c = 1 := by omega
      obtain rfl : j = 0 := by omega
      omega

/-- Witness: a 2 by 2 array in Fortran order gets draw 1 in element `(1, 0)`, the array made by `size=(2, 2)` in `(0, 1)`. -/
theorem not_C75_fortran : ∃ data, (erandom countGen .f64 .none (some ⟨true, .f64, [2, 2], false, true⟩) 0).1 = .ok (.array [2, 2] true data) ∧
    (erandom countGen .f64 (.tup [2, 2]) none 0).1 = .ok (.array [2, 2] false data) ∧ data[posF [2, 2] [1, 0]]? = some 1 ∧ data[posC [2, 2] [1, 0]]? = some 2 :=
  ⟨[0, 1, 2, 3], by decide, by decide, by decide, by decide⟩

example : (erandom countGen .ld (.tup [2, 3]) none 5).1 = .ok (.array [2, 3] false [5, 6, 7, 8, 9, 10]) := by decide

example : (erandom countGen .f32 (.int 2) (some ⟨true, .f32, [2], true, true⟩) 5) = (.ok (.array [2] false [5, 6]), 7) := by decide

/-! ### C73 -/

/-- C73: for a one-dimensional mean and a single covariance the result has the documented shape `size + (n,)` exactly when
`size` is absent or empty, or does not begin with one and does not end with zero. -/
theorem C73_shape_iff (n : Nat) (sz : List Nat) :
    mvnShape n (some sz) = sz ++ [n] ↔ sz = [] ∨ (sz.head? ≠ some 1 ∧ sz.getLast? ≠ some 0) := by
  rcases List.eq_nil_or_concat sz with rfl | ⟨init, l, rfl⟩
  · simp [mvnShape]
  have e1 : ∀ x : List Nat, (x ++ [l]).dropLast = x := fun x => List.dropLast_concat
  have e2 : (init ++ [l]).drop ((init ++ [l]).length - 1) = [l] := by simp
  rw [List.concat_eq_append]
  simp only [mvnShape, e1, e2, List.map_cons, List.map_nil]
  have hne : init ++ [max l 1] ≠ [] := by simp
  rw [if_neg hne]
  cases init with
  | nil =>
    simp only [List.nil_append, List.singleton_append, List.head?_cons, List.tail_cons, List.getLast?_singleton, reduceCtorEq, false_or, Option.some.injEq, ne_eq]
    by_cases hl : max l 1 = 1
    · rw [if_pos hl]
      constructor
      · intro h
        have := congrArg List.length h
        simp at this
      · intro h; omega
    · rw [if_neg hl]
      constructor
      · intro _; omega
      · intro _
        have : max l 1 = l := by omega
        rw [this]
  | cons a t =>
    simp only [List.cons_append, List.head?_cons, Option.some.injEq, List.tail_cons, reduceCtorEq, false_or, ne_eq]
    have e3 : (a :: (t ++ [l])).getLast? = some l := by
      rw [← List.cons_append, List.getLast?_append]; rfl
    rw [e3]
    by_cases ha : a = 1
    · rw [if_pos ha]
      constructor
      · intro h
        have := congrArg List.length h
        simp at this
      · intro h; exact absurd ha h.1
    · rw [if_neg ha]
      simp only [List.cons.injEq, true_and, Option.some.injEq]
      constructor
      · intro h
        refine ⟨ha, ?_⟩
        have : t ++ [max l 1] = t ++ [l] := by
          have := List.append_cancel_right h
          exact this
        have := List.append_cancel_left this
        simp only [List.cons.injEq, and_true] at this
        omega
      · intro h
        rw [show max l 1 = l by omega]

/-- C73: without `size` one sample of shape `(n,)`. -/
theorem C73_default (n : Nat) : mvnShape n none = [n] := rfl

/-- `size=1`, `size=(1, 5)` lose a dimension; `size=0` and `size=(3, 0)` give samples that were not asked for. -/
theorem not_C73_shape : mvnShape 2 (some [1]) = [2] ∧ mvnShape 2 (some [1, 5]) = [5, 2] ∧ mvnShape 2 (some [0]) = [2] ∧ mvnShape 2 (some [3, 0]) = [3, 1, 2] := by
  decide

/-! ### C74: leading dimensions -/

theorem foldlM_unit {α : Type} (f : α → Option Unit) (l : List α) : l.foldlM (fun _ x => f x) () = some () ↔ ∀ x ∈ l, f x = some () := by
  induction l with
  | nil => simp
  | cons a l ih =>
    rw [List.foldlM_cons]
    cases h : f a with
    | none => simp [h]
    | some v => simp [h, ih]

theorem natProd_pos (l : List Nat) (h : ∀ x ∈ l, 0 < x) : 0 < l.prod := by
  induction l with
  | nil => decide
  | cons a l ih =>
    rw [List.prod_cons]
    exact Nat.mul_pos (h a (by simp)) (ih fun x hx => h x (by simp [hx]))

/-- C74: for non-empty parameters with leading dimensions `gl` and `rl`, the loop over all matrices gets through exactly
when all leading dimensions but the first are one. The flat indices of `np.broadcast` take every value. -/
theorem C74_leading_iff (gl rl : List Nat) (hg : ∀ x ∈ gl, 0 < x) (pairs : List (Nat × Nat))
    (h1 : ∀ i, i < gl.prod ↔ ∃ j, (i, j) ∈ pairs) (h2 : ∀ j, j < rl.prod ↔ ∃ i, (i, j) ∈ pairs) :
    mcnLoop gl rl pairs = some () ↔ (∀ x ∈ gl.tail, x = 1) ∧ ∀ x ∈ rl.tail, x = 1 := by
  have pick : ∀ (l : List Nat), (∀ x ∈ l.tail, x = 1) → ∀ i < l.prod, mcnPick l i = some l.tail := by
    intro l hl i hi
    cases l with
    | nil => rw [mcnPick, if_pos (by simpa using hi)]; rfl
    | cons a t =>
      have : t.prod = 1 := List.prod_eq_one (by simpa using hl)
      rw [List.prod_cons, this, Nat.mul_one] at hi
      rw [mcnPick]; simp [hi]
  have pick' : ∀ (l : List Nat) i r, mcnPick l i = some r → r = l.tail := by
    intro l i r h
    cases l with
    | nil => rw [mcnPick] at h; split at h <;> simp_all
    | cons a t => rw [mcnPick] at h; split at h <;> simp_all
  have iter : ∀ i j, mcnIter gl rl (i, j) = some () → (∀ x ∈ gl.tail, x = 1) ∧ ∀ x ∈ rl.tail, x = 1 := by
    intro i j h
    rw [mcnIter] at h
    simp only [Option.bind_eq_bind, Option.bind_eq_some_iff] at h
    obtain ⟨g, hg, r, hr, h⟩ := h
    split at h
    · next hc =>
      rw [pick' _ _ _ hg, pick' _ _ _ hr] at hc
      simpa using hc
    · cases h
  rw [mcnLoop, foldlM_unit]
  constructor
  · intro h
    have hp := natProd_pos gl hg
    obtain ⟨j, hj⟩ := (h1 0).1 hp
    exact iter 0 j (h _ hj)
  · rintro ⟨ha, hb⟩ ⟨i, j⟩ hij
    rw [mcnIter, pick gl ha i ((h1 i).2 ⟨j, hij⟩), pick rl hb j ((h2 j).2 ⟨i, hij⟩)]
    simp only [Option.bind_eq_bind, Option.bind_some]
    rw [if_pos]
    simpa using ⟨ha, hb⟩

/-- A `gamma` of shape `(1, 2, N, N)` with the default relation is refused, though documented. -/
theorem not_C74_leading : mcnLoop [1, 2] [] [(0, 0), (1, 0)] = none ∧ mcnLoop [2] [] [(0, 0), (1, 0)] = some () := by decide

end Verif
