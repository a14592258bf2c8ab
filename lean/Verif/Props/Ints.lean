import Verif.Model.Ints
import Mathlib.Data.Int.ModEq
import Mathlib.Data.Nat.Digits.Lemmas
import Mathlib.Tactic.Positivity

/-! Properties C01 and C02. -/

namespace Verif.Ints

/-! ### C01 -/

/-- C01: the wrapped delta lies in `[0, 2^bits)` and is congruent to the given one. -/
theorem C01_wrap_int_range_congruent (val : Int) (bits : Nat) :
    0 ≤ wrapInt val bits ∧ wrapInt val bits < 2 ^ bits ∧
      wrapInt val bits ≡ val [ZMOD 2 ^ bits] := by
  have hp : (0 : Int) < 2 ^ bits := by positivity
  simp only [wrapInt]
  split
  · have h : val - 2 ^ bits * Int.fdiv val (2 ^ bits) = val % 2 ^ bits := by
      rw [Int.fdiv_eq_ediv_of_nonneg _ hp.le, Int.emod_def]
    simp only [h]
    exact ⟨Int.emod_nonneg _ hp.ne', Int.emod_lt_of_pos _ hp, Int.mod_modEq _ _⟩
  · rename_i h
    have h := not_not.mp h
    exact ⟨h.1, h.2, rfl⟩

/-- C01: deltas that differ by a multiple of `2^bits` are treated identically, and only those. -/
theorem C01_wrap_int_eq_iff (a b : Int) (bits : Nat) :
    wrapInt a bits = wrapInt b bits ↔ ∃ k : Int, a - b = k * 2 ^ bits := by
  obtain ⟨a0, a1, a2⟩ := C01_wrap_int_range_congruent a bits
  obtain ⟨b0, b1, b2⟩ := C01_wrap_int_range_congruent b bits
  constructor
  · intro h
    have : a ≡ b [ZMOD 2 ^ bits] := a2.symm.trans (h ▸ b2)
    obtain ⟨k, hk⟩ := this.symm.dvd
    exact ⟨k, by rw [hk, mul_comm]⟩
  · rintro ⟨k, hk⟩
    have hab : a ≡ b [ZMOD 2 ^ bits] := (Int.modEq_iff_dvd.mpr ⟨k, by rw [hk, mul_comm]⟩).symm
    have h : wrapInt a bits ≡ wrapInt b bits [ZMOD 2 ^ bits] := a2.trans (hab.trans b2.symm)
    have := h
    unfold Int.ModEq at this
    rwa [Int.emod_eq_of_lt a0 a1, Int.emod_eq_of_lt b0 b1] at this

example : wrapInt (-1) 128 = 2 ^ 128 - 1 ∧ wrapInt (2 ^ 130 + 5) 128 = 5 := by decide +kernel

/-! ### C02

The meaning of a little-endian word list is Mathlib's `Nat.ofDigits (2 ^ u)`. -/

theorem splitLoop_ofDigits (u : Nat) (hu : 0 < u) (v : Nat) :
    Nat.ofDigits (2 ^ u) (splitLoop u v) = v := by
  induction v using Nat.strongRecOn with
  | ind v ih =>
    rw [splitLoop]
    split
    · rename_i h
      have hlt : v >>> u < v := by
        rw [Nat.shiftRight_eq_div_pow]
        exact Nat.div_lt_self (Nat.pos_of_ne_zero h.1) (Nat.one_lt_two_pow (by omega))
      rw [Nat.ofDigits_cons, ih _ hlt, Nat.shiftRight_eq_div_pow]
      exact Nat.mod_add_div v (2 ^ u)
    · rename_i h
      have : v = 0 := by
        by_contra hv; exact h ⟨hv, hu⟩
      simp [this]

theorem splitLoop_lt (u v : Nat) : ∀ x ∈ splitLoop u v, x < 2 ^ u := by
  induction v using Nat.strongRecOn with
  | ind v ih =>
    rw [splitLoop]
    split
    · rename_i h
      have hlt : v >>> u < v := by
        rw [Nat.shiftRight_eq_div_pow]
        exact Nat.div_lt_self (Nat.pos_of_ne_zero h.1) (Nat.one_lt_two_pow (by omega))
      intro x hx
      rcases List.mem_cons.mp hx with rfl | hx
      · exact Nat.mod_lt _ (by positivity)
      · exact ih _ hlt x hx
    · simp

theorem splitLoop_length (u : Nat) (v n : Nat) (hv : v < 2 ^ (u * n)) :
    (splitLoop u v).length ≤ n := by
  induction n generalizing v with
  | zero =>
    have : v = 0 := by simpa using hv
    subst this
    rw [splitLoop]; simp
  | succ n ih =>
    rw [splitLoop]
    split
    · simp only [List.length_cons]
      have := ih (v >>> u) (by
        rw [Nat.shiftRight_eq_div_pow, Nat.div_lt_iff_lt_mul (by positivity), ← pow_add]
        have : u * n + u = u * (n + 1) := by ring
        rwa [this])
      omega
    · simp

theorem ofDigits_append_zeros (b k : Nat) (l : List Nat) :
    Nat.ofDigits b (l ++ List.replicate k 0) = Nat.ofDigits b l := by
  rw [Nat.ofDigits_append]
  have : Nat.ofDigits b (List.replicate k 0) = 0 := by
    induction k with
    | zero => simp
    | succ k ih => simp [List.replicate_succ, Nat.ofDigits_cons, ih]
  simp [this]

/-- C02: an integer in `[0, 2^(u*n))` becomes exactly `n` words of `u` bits which denote that
integer. -/
theorem C02_int_to_array_value (v : Int) (u n : Nat) (hu : u = 32 ∨ u = 64)
    (h0 : 0 ≤ v) (h1 : v < 2 ^ (u * n)) :
    ∃ ws, intToArray (.int v) (u * n) u = .ok ws ∧ ws.length = n ∧ (∀ x ∈ ws, x < 2 ^ u) ∧
      ((Nat.ofDigits (2 ^ u) ws : Nat) : Int) = v := by
  have hupos : 0 < u := by omega
  have hlt : v.toNat < 2 ^ (u * n) := by
    zify; rw [Int.toNat_of_nonneg h0]; exact_mod_cast h1
  have hlen := splitLoop_length u v.toNat n hlt
  have hreq : u * n / u = n := Nat.mul_div_cancel_left n hupos
  unfold intToArray
  have hu' : ¬ (u ≠ 32 ∧ u ≠ 64) := by omega
  have hr : ¬ (v < 0 ∨ v ≥ 2 ^ (u * n)) := by push Not; exact ⟨h0, h1⟩
  simp only [hu', hr, if_false, hreq]
  refine ⟨_, rfl, ?_, ?_, ?_⟩
  · split
    · simp; omega
    · omega
  · intro x hx
    split at hx
    · rcases List.mem_append.mp hx with hx | hx
      · exact splitLoop_lt _ _ _ hx
      · rw [(List.mem_replicate.mp hx).2]; positivity
    · exact splitLoop_lt _ _ _ hx
  · have : Nat.ofDigits (2 ^ u) (splitLoop u v.toNat) = v.toNat := splitLoop_ofDigits u hupos _
    split
    · rw [ofDigits_append_zeros, this]; exact Int.toNat_of_nonneg h0
    · rw [this]; exact Int.toNat_of_nonneg h0

/-- C02: integers outside the range are rejected. -/
theorem C02_int_to_array_rejects (v : Int) (bits u : Nat) (h : v < 0 ∨ 2 ^ bits ≤ v) :
    ∃ e, intToArray (.int v) bits u = .error e := by
  unfold intToArray
  by_cases hu : u ≠ 32 ∧ u ≠ 64
  · exact ⟨.valueError, by simp [hu]⟩
  · have hr : v < 0 ∨ v ≥ 2 ^ bits := h
    exact ⟨.valueError, by simp only [hu, hr, if_false, if_true]⟩

/-- C02: the array form is accepted exactly when it has the right number of words, all in range,
and then denotes itself. -/
theorem C02_int_to_array_words (l : List Int) (u n : Nat) (hu : u = 32 ∨ u = 64)
    (ws : List Nat) :
    intToArray (.words l) (u * n) u = .ok ws ↔
      (l.length = n ∧ (∀ x ∈ l, 0 ≤ x ∧ x < 2 ^ u) ∧ ws = l.map Int.toNat) := by
  have hupos : 0 < u := by omega
  have hreq : u * n / u = n := Nat.mul_div_cancel_left n hupos
  have hu' : ¬ (u ≠ 32 ∧ u ≠ 64) := by omega
  unfold intToArray
  simp only [hu', if_false, hreq, List.length_map, List.all_eq_true, decide_eq_true_eq]
  by_cases hr : (∀ x ∈ l, 0 ≤ x) ∧ (∀ x ∈ l, x ≤ 2 ^ u - 1)
  · have hr' : ∀ x ∈ l, 0 ≤ x ∧ x < 2 ^ u := fun x hx => ⟨hr.1 x hx, by have := hr.2 x hx; omega⟩
    rw [if_neg (not_not.mpr hr)]
    by_cases hl : l.length = n
    · simp only [hl, ne_eq, not_true, if_false, true_and]
      simp only [and_iff_right hr', Except.ok.injEq, eq_comm]
    · simp [hl]
  · have hr' : ¬ ∀ x ∈ l, 0 ≤ x ∧ x < 2 ^ u := fun h =>
      hr ⟨fun x hx => (h x hx).1, fun x hx => by have := (h x hx).2; omega⟩
    rw [if_pos hr]
    simp [hr']

theorem wordSum_eq (p : Nat) (l : List Nat) : wordSum p l = Nat.ofDigits (2 ^ p) l := by
  unfold wordSum
  induction l with
  | nil => simp
  | cons a l ih =>
    rw [Nat.ofDigits_cons, ← ih, List.length_cons, List.range_succ_eq_map, List.map_cons,
      List.sum_cons, List.map_map]
    have : (List.map ((fun i => (a :: l).getD i 0 * 2 ^ (p * i)) ∘ Nat.succ)
        (List.range l.length)) =
        (List.map (fun i => 2 ^ p * (l.getD i 0 * 2 ^ (p * i))) (List.range l.length)) := by
      apply List.map_congr_left
      intro i _
      simp only [Function.comp, Nat.succ_eq_add_one, List.getD_cons_succ, Nat.mul_add, pow_add]
      ring
    rw [this, List.sum_map_mul_left]
    simp

/-- C02: `object_to_int` accepts an integer exactly when it is in range and then returns it
unchanged: nothing is ever truncated. -/
theorem C02_object_to_int_int (v : Int) (bits db : Nat) (a64 a32 : Bool) (r : Option Int) :
    objectToInt (.int v) bits db a64 a32 = .ok r ↔ (0 ≤ v ∧ v < 2 ^ bits ∧ r = some v) := by
  unfold objectToInt objRange
  by_cases h : v < 0 ∨ v ≥ 2 ^ bits
  · simp only [h, if_true]
    constructor
    · intro h'; cases h'
    · rintro ⟨h1, h2, _⟩; omega
  · have h' : 0 ≤ v ∧ v < 2 ^ bits := by omega
    simp only [h, if_false, h'.1, h'.2, true_and]
    simp [eq_comm]

/-- C02: splitting an integer into words and giving the words as an array (of either allowed
dtype) or as a list of integers denotes the original integer. -/
theorem C02_array_forms_agree (v : Int) (n : Nat) (ws : List Nat) (hn : 0 < n) :
    (intToArray (.int v) (64 * n) 64 = .ok ws →
      objectToInt (.arr64 (ws.map (BitVec.ofNat 64))) (64 * n) = .ok (some v) ∧
      objectToInt (.seq (ws.map Int.ofNat)) (64 * n) = .ok (some v)) ∧
    (intToArray (.int v) (32 * n) 32 = .ok ws →
      objectToInt (.arr32 (ws.map (BitVec.ofNat 32))) (32 * n) 32 true true = .ok (some v) ∧
      objectToInt (.seq (ws.map Int.ofNat)) (32 * n) 32 true true = .ok (some v)) := by
  have key : ∀ u, u = 32 ∨ u = 64 → intToArray (.int v) (u * n) u = .ok ws →
      0 ≤ v ∧ v < 2 ^ (u * n) ∧ ws.length = n ∧ (∀ x ∈ ws, x < 2 ^ u) ∧
        ((Nat.ofDigits (2 ^ u) ws : Nat) : Int) = v := by
    intro u hu h
    by_cases hr : v < 0 ∨ 2 ^ (u * n) ≤ v
    · obtain ⟨e, he⟩ := C02_int_to_array_rejects v (u * n) u hr
      rw [he] at h; cases h
    · have h0 : 0 ≤ v := by omega
      have h1 : v < 2 ^ (u * n) := by omega
      obtain ⟨ws', e, r⟩ := C02_int_to_array_value v u n hu h0 h1
      rw [e] at h
      cases h
      exact ⟨h0, h1, r⟩
  have toNatMap : ∀ u, (∀ x ∈ ws, x < 2 ^ u) →
      (ws.map (BitVec.ofNat u)).map BitVec.toNat = ws := by
    intro u h
    rw [List.map_map]
    conv_rhs => rw [← List.map_id ws]
    apply List.map_congr_left
    intro x hx
    simp [Nat.mod_eq_of_lt (h x hx)]
  have toNatMap2 : (ws.map Int.ofNat).map Int.toNat = ws := by
    rw [List.map_map]
    conv_rhs => rw [← List.map_id ws]
    apply List.map_congr_left
    intro x _
    simp
  have rng : ∀ u, u = 32 ∨ u = 64 → intToArray (.int v) (u * n) u = .ok ws →
      objRange (u * n) (wordSum u ws) = .ok (some v) := by
    intro u hu h
    obtain ⟨h0, h1, _, _, h2⟩ := key u hu h
    unfold objRange
    rw [wordSum_eq, h2]
    have : ¬ (v < 0 ∨ v ≥ 2 ^ (u * n)) := by omega
    simp only [this, if_false]
  constructor
  · intro h
    obtain ⟨h0, h1, hl, hw, h2⟩ := key 64 (Or.inr rfl) h
    constructor
    · simp only [objectToInt, toNatMap 64 hw, rng 64 (Or.inr rfl) h]
      simp [hl]; omega
    · have a1 : (ws.map Int.ofNat).all (fun x => x ≤ 2 ^ 64 - 1) = true := by
        simp only [List.all_eq_true, List.mem_map, decide_eq_true_eq]
        rintro x ⟨y, hy, rfl⟩
        have := hw y hy
        simp only [Int.ofNat_eq_natCast]; omega
      have a2 : (ws.map Int.ofNat).all (fun x => 0 ≤ x) = true := by
        simp only [List.all_eq_true, List.mem_map, decide_eq_true_eq]
        rintro x ⟨y, hy, rfl⟩
        simp
      simp only [objectToInt, if_true, a1, a2, toNatMap2, rng 64 (Or.inr rfl) h]
      simp [hl]; omega
  · intro h
    obtain ⟨h0, h1, hl, hw, h2⟩ := key 32 (Or.inl rfl) h
    constructor
    · simp only [objectToInt, toNatMap 32 hw, rng 32 (Or.inl rfl) h]
      simp [hl]; omega
    · have a1 : (ws.map Int.ofNat).all (fun x => x ≤ 2 ^ 32 - 1) = true := by
        simp only [List.all_eq_true, List.mem_map, decide_eq_true_eq]
        rintro x ⟨y, hy, rfl⟩
        have := hw y hy
        simp only [Int.ofNat_eq_natCast]; omega
      have a2 : (ws.map Int.ofNat).all (fun x => 0 ≤ x) = true := by
        simp only [List.all_eq_true, List.mem_map, decide_eq_true_eq]
        rintro x ⟨y, hy, rfl⟩
        simp
      have hne : (32 : Nat) ≠ 64 := by decide
      simp only [objectToInt, if_neg hne, a1, a2, toNatMap2, rng 32 (Or.inl rfl) h]
      simp [hl]; omega

/-- C02: an array whose value needs more than `bits` bits is rejected, one that fits is
accepted with exactly its little-endian value. -/
theorem C02_object_to_int_arr64 (l : List U64) (bits : Nat) (r : Option Int) :
    objectToInt (.arr64 l) bits = .ok r ↔
      (l ≠ [] ∧ Nat.ofDigits (2 ^ 64) (l.map BitVec.toNat) < 2 ^ bits ∧
        r = some ((Nat.ofDigits (2 ^ 64) (l.map BitVec.toNat) : Nat) : Int)) := by
  unfold objectToInt objRange
  simp only [wordSum_eq]
  generalize Nat.ofDigits (2 ^ 64) (l.map BitVec.toNat) = x
  have hz : (((x : Int) < 0 ∨ (x : Int) ≥ 2 ^ bits) ↔ ¬ x < 2 ^ bits) := by
    rw [← Int.ofNat_lt (n := x)]; push_cast; omega
  simp only [hz]
  cases l with
  | nil => simp
  | cons a l => by_cases h : x < 2 ^ bits <;> simp [h, eq_comm]

example : intToArray (.int (2 ^ 64 + 7)) 128 64 = .ok [7, 1] := by
  simp [intToArray, splitLoop]
example : objectToInt (.arr64 [7, 1]) 128 = .ok (some (2 ^ 64 + 7)) := by decide +kernel
example : objectToInt (.int (2 ^ 128)) 128 = .error .valueError := by decide +kernel
example : intToArray (.int (-1)) 128 64 = .error .valueError := by decide +kernel

end Verif.Ints
