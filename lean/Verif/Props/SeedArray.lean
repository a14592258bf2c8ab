import Verif.Props.Chaotic

/-! Property C53: `seed_by_array`. -/

namespace Verif

/-- Specification: the running value after absorbing the first `i` seed words (missing words count as
zero), by the SplitMix64 increment. -/
def sbaSpec (seed : List U64) : Nat → U64
  | 0 => 0
  | i + 1 => (sbaSpec seed i ^^^ seed.getD i 0) + 0x9e3779b97f4a7c15

theorem sba_invariant (seed : List U64) (n i : Nat) (hi : i ≤ n) (out0 : List U64) (h0 : out0.length = n) :
    let st := (List.range i).foldl (sbaStep n seed) (0, 0, out0)
    st.1 = sbaSpec seed i ∧ st.2.1 = (if i = n then 0 else i) ∧ st.2.2.length = n ∧
      ∀ j < i, st.2.2[j]? = some (splitmixFin (sbaSpec seed (j + 1))) := by
  induction i with
  | zero => simp [sbaSpec, h0]
  | succ i ih =>
    have ih' := ih (by omega)
    intro st
    simp only [st, List.range_succ, List.foldl_append, List.foldl_cons, List.foldl_nil]
    simp only at ih'
    generalize (List.range i).foldl (sbaStep n seed) (0, 0, out0) = p at *
    obtain ⟨x, loc, out⟩ := p
    obtain ⟨h1, h2, h3, h4⟩ := ih'
    simp only at h1 h2 h3 h4
    have hloc : loc = i := by rw [h2, if_neg (by omega)]
    have hx : (if h : i < seed.length then x ^^^ seed[i] else x) = x ^^^ seed.getD i 0 := by
      by_cases h : i < seed.length
      · rw [dif_pos h, List.getD_eq_getElem?_getD, List.getElem?_eq_getElem h]; rfl
      · rw [dif_neg h, List.getD_eq_getElem?_getD, List.getElem?_eq_none (by omega)]; simp
    have hv : (splitmixNext (x ^^^ seed.getD i 0)).2 = sbaSpec seed (i + 1) := by
      rw [h1]; rfl
    have ho : (splitmixNext (x ^^^ seed.getD i 0)).1 = splitmixFin (sbaSpec seed (i + 1)) := by
      rw [h1]; rfl
    subst hloc
    refine ⟨?_, ?_, ?_, ?_⟩
    · simp only [sbaStep, hx]; exact hv
    · simp only [sbaStep]
    · simp only [sbaStep, List.length_set]; exact h3
    · intro j hj
      simp only [sbaStep, hx, List.getElem?_set]
      by_cases hjl : loc = j
      · rw [if_pos hjl, if_pos (by omega), ho, hjl]
      · rw [if_neg hjl]; exact h4 j (by omega)

/-- C53: the result has exactly `n` words. -/
theorem C53_length (seed : List U64) (n : Nat) : (seedByArray seed n).length = n := by
  have : ∀ (l : List Nat) (st : U64 × Nat × List U64), (l.foldl (sbaStep n seed) st).2.2.length = st.2.2.length := by
    intro l
    induction l with
    | nil => intro st; rfl
    | cons a l ih => intro st; rw [List.foldl_cons, ih]; simp [sbaStep]
  rw [seedByArray, this]; simp

/-- The words of the result when the seed is not longer than the state. -/
theorem seedByArray_get (seed : List U64) (n : Nat) (hs : seed.length ≤ n) (j : Nat) (hj : j < n) :
    (seedByArray seed n)[j]? = some (splitmixFin (sbaSpec seed (j + 1))) := by
  rw [seedByArray, Nat.max_eq_left hs]
  exact (sba_invariant seed n n le_rfl _ (by simp)).2.2.2 j hj

theorem sbaSpec_inj (s t : List U64) (n : Nat) (h : ∀ j < n, sbaSpec s (j + 1) = sbaSpec t (j + 1)) :
    ∀ j < n, s.getD j 0 = t.getD j 0 := by
  intro j hj
  have h1 := add_right_cancel (h j hj)
  have h0 : sbaSpec s j = sbaSpec t j := by
    cases j with
    | zero => rfl
    | succ j => exact h j (by omega)
  rw [h0] at h1
  exact xor_left_inj' _ h1

/-- C53: for seeds not longer than the state, two seeds give the same state exactly when they agree word for
word after padding with zeros. In particular changing any one seed word changes the state. -/
theorem C53_array_iff (s t : List U64) (n : Nat) (hs : s.length ≤ n) (ht : t.length ≤ n) :
    seedByArray s n = seedByArray t n ↔ ∀ j < n, s.getD j 0 = t.getD j 0 := by
  constructor
  · intro h
    apply sbaSpec_inj
    intro j hj
    have := congrArg (fun l => l[j]?) h
    simp only [seedByArray_get s n hs j hj, seedByArray_get t n ht j hj] at this
    exact splitmixFin_injective (Option.some.inj this)
  · intro h
    have hsp : ∀ i ≤ n, sbaSpec s i = sbaSpec t i := by
      intro i
      induction i with
      | zero => intro _; rfl
      | succ i ih => intro hi; rw [sbaSpec, sbaSpec, ih (by omega), h i (by omega)]
    apply List.ext_getElem?
    intro j
    by_cases hj : j < n
    · rw [seedByArray_get s n hs j hj, seedByArray_get t n ht j hj, hsp _ (by omega)]
    · rw [List.getElem?_eq_none (by rw [C53_length]; omega), List.getElem?_eq_none (by rw [C53_length]; omega)]

/-- C53: arrays of the same length, not longer than the state, never collide. -/
theorem C53_array_injective (s t : List U64) (n : Nat) (hs : s.length ≤ n) (hst : s.length = t.length)
    (h : seedByArray s n = seedByArray t n) : s = t := by
  have hh := (C53_array_iff s t n hs (by omega)).mp h
  apply List.ext_getElem hst
  intro j h1 h2
  have := hh j (by omega)
  rwa [List.getD_eq_getElem?_getD, List.getD_eq_getElem?_getD, List.getElem?_eq_getElem h1,
    List.getElem?_eq_getElem h2] at this

example : ([1, 2, 3] : List U64).length ≤ 4 ∧ ([1, 2, 3] : List U64).length = ([1, 2, 4] : List U64).length := by decide

/-- C53: exactly the scalars `0 ≤ seed < 2^64` are accepted, and different scalars give states that differ in
every word. -/
theorem C53_scalar (a b : Int) (n : Nat) (hn : 1 ≤ n) :
    ((∃ r, seedByScalar a n = .ok r) ↔ 0 ≤ a ∧ a < 2 ^ 64) ∧
    (∀ r r', seedByScalar a n = .ok r → seedByScalar b n = .ok r' → a ≠ b → ∀ j < n, r[j]? ≠ r'[j]?) := by
  refine ⟨?_, ?_⟩
  · rw [seedByScalar]
    constructor
    · rintro ⟨r, h⟩
      split at h
      · cases h
      · omega
    · intro h
      rw [if_neg (by omega)]
      exact ⟨_, rfl⟩
  · intro r r' hr hr' hab j hj
    rw [seedByScalar] at hr hr'
    split at hr
    · cases hr
    split at hr'
    · cases hr'
    rename_i ha hb
    cases hr; cases hr'
    rw [seedByArray_get _ n (by simpa using hn) j hj, seedByArray_get _ n (by simpa using hn) j hj]
    intro h
    have h1 := splitmixFin_injective (Option.some.inj h)
    have key : ∀ (j : Nat) (x y : U64), sbaSpec [x] (j + 1) = sbaSpec [y] (j + 1) → x = y := by
      intro j
      induction j with
      | zero => intro x y h; simpa [sbaSpec] using h
      | succ j ih =>
        intro x y h
        apply ih
        have := add_right_cancel h
        simpa using this
    have h2 := congrArg BitVec.toNat (key j _ _ h1)
    simp only [BitVec.toNat_ofInt] at h2
    omega

example : seedByScalar 12345 3 ≠ seedByScalar 12346 3 := by decide +kernel

/-- Limits of C53 (outside its statement): a trailing zero word is not seen, and a seed longer than the state
can collide with another of the same length. -/
theorem C53_limits :
    seedByArray [5] 2 = seedByArray [5, 0] 2 ∧
      seedByArray [0, 0] 1 = seedByArray [1, 0x9e3779b97f4a7c15 ^^^ 0x9e3779b97f4a7c16] 1 := by
  constructor
  · exact (C53_array_iff _ _ 2 (by decide) (by decide)).mpr (by decide)
  · decide +kernel

end Verif
