import Verif.Model.KeySeed
import Verif.Props.Ints

/-! C102 for the keys and counters of SPECK128, AESCounter, ChaCha and HC128. -/

namespace Verif

open Ints

/-- What the documentation of `seed` says a key or a counter of `n` words denotes: an integer in `[0, 2^(64 n))`, or an array (or a list) of `n`
words, `array[i] = (value // 2**(64*i)) % 2**64`. -/
inductive Denotes (n : Nat) : ObjIn → Nat → Prop
  | int (v : Nat) (h : v < 2 ^ (64 * n)) : Denotes n (.int v) v
  | arr (l : List U64) (v : Nat) (hl : l.length = n) (h : v < 2 ^ (64 * n)) (hw : ∀ i (hi : i < l.length), l[i].toNat = v / 2 ^ (64 * i) % 2 ^ 64) :
      Denotes n (.arr64 l) v
  | seq (l : List Int) (v : Nat) (hl : l.length = n) (h : v < 2 ^ (64 * n)) (hw : ∀ i (hi : i < l.length), l[i] = (v / 2 ^ (64 * i) % 2 ^ 64 : Nat)) :
      Denotes n (.seq l) v

theorem ofDigits_words (u : Nat) : ∀ (l : List Nat) (v : Nat), v < 2 ^ (u * l.length) → (∀ i (hi : i < l.length), l[i] = v / 2 ^ (u * i) % 2 ^ u) →
    Nat.ofDigits (2 ^ u) l = v
  | [], v, h, _ => by
    have : v = 0 := by simpa using h
    rw [this, Nat.ofDigits_nil]
  | a :: l, v, h, hw => by
    have ha : a = v % 2 ^ u := by
      have := hw 0 (by simp)
      rwa [Nat.mul_zero, pow_zero, Nat.div_one, List.getElem_cons_zero] at this
    rw [Nat.ofDigits_cons, ofDigits_words u l (v / 2 ^ u) ?_ ?_, ha]
    · exact Nat.mod_add_div v (2 ^ u)
    · rw [Nat.div_lt_iff_lt_mul (by positivity), ← pow_add]
      calc v < _ := h
        _ = _ := by rw [List.length_cons]; ring_nf
    · intro i hi
      have := hw (i + 1) (by simpa using hi)
      rw [List.getElem_cons_succ] at this
      rw [this, Nat.div_div_eq_div_mul, ← pow_add]
      congr 3
      ring

theorem words_ofDigits (u : Nat) : ∀ (l : List Nat), (∀ x ∈ l, x < 2 ^ u) → ∀ i (hi : i < l.length), l[i] = Nat.ofDigits (2 ^ u) l / 2 ^ (u * i) % 2 ^ u
  | a :: l, h, 0, _ => by
    rw [Nat.ofDigits_cons, Nat.mul_zero, pow_zero, Nat.div_one, List.getElem_cons_zero, Nat.add_mul_mod_self_left, Nat.mod_eq_of_lt (h a (by simp))]
  | a :: l, h, i + 1, hi => by
    have ha := h a (by simp)
    rw [List.getElem_cons_succ, words_ofDigits u l (fun x hx => h x (by simp [hx])) i (by simpa using hi), Nat.ofDigits_cons,
      show u * (i + 1) = u + u * i by ring, pow_add, ← Nat.div_div_eq_div_mul, Nat.add_mul_div_left _ _ (by positivity), Nat.div_eq_of_lt ha, Nat.zero_add]

/-- `object_to_int` returns what is denoted. -/
theorem objectToInt_denotes {n : Nat} {o : ObjIn} {v : Nat} (h : Denotes n o v) (hn : 0 < n) : objectToInt o (64 * n) = .ok (some (v : Int)) := by
  have rng : ∀ v : Nat, v < 2 ^ (64 * n) → objRange (64 * n) v = .ok (some (v : Int)) := fun v hv => by
    have : ((v : Nat) : Int) < 2 ^ (64 * n) := by exact_mod_cast hv
    rw [objRange, if_neg (by omega)]
  cases h with
  | int v h => exact rng v h
  | arr l v hl h hw =>
    have e : wordSum 64 (l.map BitVec.toNat) = v := by
      rw [wordSum_eq]
      refine ofDigits_words 64 _ v (by rw [List.length_map, hl]; exact h) fun i hi => ?_
      rw [List.getElem_map]
      exact hw i (by simpa using hi)
    rw [objectToInt, if_neg (by decide), if_neg (by omega), e, rng v h]
  | seq l v hl h hw =>
    have hb : ∀ x ∈ l, 0 ≤ x ∧ x ≤ 2 ^ 64 - 1 := fun x hx => by
      obtain ⟨i, hi, rfl⟩ := List.getElem_of_mem hx
      rw [hw i hi]
      have := Nat.mod_lt (v / 2 ^ (64 * i)) (show 0 < 2 ^ 64 by decide)
      omega
    have e : wordSum 64 (l.map Int.toNat) = v := by
      rw [wordSum_eq]
      refine ofDigits_words 64 _ v (by rw [List.length_map, hl]; exact h) fun i hi => ?_
      rw [List.getElem_map, hw i (by simpa using hi)]
      exact Int.toNat_natCast _
    rw [objectToInt, if_neg (by
      rw [not_not, List.all_eq_true, List.all_eq_true]
      exact ⟨fun x hx => by simpa using (hb x hx).2, fun x hx => by simpa using (hb x hx).1⟩), if_neg (by omega)]
    rw [if_pos rfl, e, rng v h]

/-- The words `int_to_array` makes. -/
theorem intToArray_words {u n v : Nat} (hu : u = 32 ∨ u = 64) (hv : v < 2 ^ (u * n)) :
    intToArray (.int v) (u * n) u = .ok ((List.range n).map fun i => v / 2 ^ (u * i) % 2 ^ u) := by
  obtain ⟨ws, e, hl, hw, hs⟩ := C02_int_to_array_value (v : Int) u n hu (by omega) (by exact_mod_cast hv)
  have hs : Nat.ofDigits (2 ^ u) ws = v := by exact_mod_cast hs
  rw [e]
  congr 1
  refine List.ext_getElem (by rw [hl, List.length_map, List.length_range]) fun i h1 h2 => ?_
  rw [List.getElem_map, List.getElem_range, words_ofDigits u ws hw i h1, hs]

theorem wd_words (w u n v i : Nat) (hi : i < n) : wd w ((List.range n).map fun i => v / 2 ^ (u * i) % 2 ^ u) i = BitVec.ofNat w (v / 2 ^ (u * i) % 2 ^ u) := by
  rw [wd, List.getD_eq_getElem?_getD, List.getElem?_eq_getElem (by simpa using hi), Option.getD_some, List.getElem_map, List.getElem_range]

/-- An array or a list with another number of words. -/
def WrongLength (n : Nat) : ObjIn → Prop
  | .arr64 l => l.length ≠ n
  | .seq l => l.length ≠ n
  | _ => False

/-- Everything else is refused by `object_to_int`. -/
theorem objectToInt_refused {n : Nat} {o : ObjIn} (h0 : o ≠ .none) (hl : ¬ WrongLength n o) (hd : ¬ ∃ v, Denotes n o v) :
    ∃ e, objectToInt o (64 * n) = .error e := by
  cases o with
  | none => exact absurd rfl h0
  | int v =>
    refine ⟨.valueError, ?_⟩
    rw [objectToInt, objRange, if_pos]
    by_contra hc
    refine hd ⟨v.toNat, ?_⟩
    have e : v = (v.toNat : Int) := by omega
    rw [e]
    exact .int v.toNat (by zify; rw [← e]; omega)
  | arr64 l =>
    have hn : l.length = n := by_contra hl
    refine absurd ⟨Nat.ofDigits (2 ^ 64) (l.map BitVec.toNat), .arr l _ hn ?_ fun i hi => ?_⟩ hd
    · have := Nat.ofDigits_lt_base_pow_length (b := 2 ^ 64) (l := l.map BitVec.toNat) (by decide) (by
        intro x hx
        obtain ⟨y, _, rfl⟩ := List.mem_map.mp hx
        exact y.isLt)
      rw [List.length_map, hn, ← pow_mul] at this
      exact this
    · have := words_ofDigits 64 (l.map BitVec.toNat) (by
        intro x hx
        obtain ⟨y, _, rfl⟩ := List.mem_map.mp hx
        exact y.isLt) i (by simpa using hi)
      rw [List.getElem_map] at this
      exact this
  | arr32 l => exact ⟨_, rfl⟩
  | arrOther => exact ⟨_, rfl⟩
  | seq l =>
    have hn : l.length = n := by_contra hl
    refine ⟨.valueError, ?_⟩
    rw [objectToInt, if_pos]
    rw [List.all_eq_true, List.all_eq_true]
    rintro ⟨h1, h2⟩
    have b0 : ∀ x ∈ l, 0 ≤ x := fun x hx => by simpa using h2 x hx
    have b1 : ∀ x ∈ l, x ≤ 2 ^ 64 - 1 := fun x hx => by simpa using h1 x hx
    have b : ∀ x ∈ l.map Int.toNat, x < 2 ^ 64 := fun x hx => by
      obtain ⟨y, hy, rfl⟩ := List.mem_map.mp hx
      have := b0 y hy
      have := b1 y hy
      omega
    refine hd ⟨Nat.ofDigits (2 ^ 64) (l.map Int.toNat), .seq l _ hn ?_ fun i hi => ?_⟩
    · have := Nat.ofDigits_lt_base_pow_length (b := 2 ^ 64) (l := l.map Int.toNat) (by decide) b
      rw [List.length_map, hn, ← pow_mul] at this
      exact this
    · have := words_ofDigits 64 (l.map Int.toNat) b i (by simpa using hi)
      rw [List.getElem_map] at this
      rw [← this]
      exact (Int.toNat_of_nonneg (b0 _ (List.getElem_mem hi))).symm

namespace KeyCls

variable {σ : Type} {K : KeyCls σ} {nk nc m : Nat}

theorem keyed_used (hk : K.kb = 64 * nk) (hm : K.kb = K.ku * m) (hu : K.ku = 32 ∨ K.ku = 64) (hc : K.cb = 64 * nc) {key counter : ObjIn} {k c : Nat}
    (dk : Denotes nk key k) (dc : counter = .none ∧ c = 0 ∨ 0 < nc ∧ Denotes nc counter c) (hnk : 0 < nk) (s : Seeded σ) :
    K.keyed key counter s = (.ok (), ⟨s.seq, K.put ((List.range m).map fun i => k / 2 ^ (K.ku * i) % 2 ^ K.ku)
      ((List.range nc).map fun i => c / 2 ^ (64 * i) % 2 ^ 64) c s.core⟩) := by
  have bound : ∀ {n o v}, Denotes n o v → v < 2 ^ (64 * n) := fun h => by cases h <;> assumption
  have ek : objectToInt key K.kb = .ok (some (k : Int)) := by rw [hk]; exact objectToInt_denotes dk hnk
  have ak := intToArray_words (u := K.ku) (n := m) (v := k) hu (by rw [← hm, hk]; exact bound dk)
  rw [← hm] at ak
  have ec : ∃ o, objectToInt counter K.cb = .ok o ∧ o.getD 0 = (c : Int) ∧ c < 2 ^ (64 * nc) := by
    rcases dc with ⟨rfl, rfl⟩ | ⟨h, d⟩
    · exact ⟨none, rfl, rfl, by positivity⟩
    · exact ⟨some c, by rw [hc]; exact objectToInt_denotes d h, rfl, bound d⟩
  obtain ⟨o, ec, e0, hcb⟩ := ec
  have ac := intToArray_words (u := 64) (n := nc) (v := c) (.inr rfl) hcb
  rw [← hc] at ac
  simp only [keyed, ek, ec, Option.getD_some, e0, ak, ac, Int.toNat_natCast]

/-- The number the words of a seed sequence denote. -/
theorem denotes_words (n : Nat) (gen : Nat → U64) :
    Denotes n (.arr64 ((List.range n).map gen)) (Nat.ofDigits (2 ^ 64) ((List.range n).map fun i => (gen i).toNat)) := by
  have b : ∀ x ∈ (List.range n).map fun i => (gen i).toNat, x < 2 ^ 64 := fun x hx => by
    obtain ⟨y, _, rfl⟩ := List.mem_map.mp hx
    exact (gen y).isLt
  refine .arr _ _ (by rw [List.length_map, List.length_range]) ?_ fun i hi => ?_
  · have := Nat.ofDigits_lt_base_pow_length (b := 2 ^ 64) (by decide) b
    rw [List.length_map, List.length_range, ← pow_mul] at this
    exact this
  · have := words_ofDigits 64 _ b i (by simpa using hi)
    rw [List.getElem_map, List.getElem_range] at this
    rw [← this, List.getElem_map, List.getElem_range]

theorem seedCall_used (hk : K.kb = 64 * nk) (hs : K.sw = nk) (hm : K.kb = K.ku * m) (hu : K.ku = 32 ∨ K.ku = 64) (hc : K.cb = 64 * nc) {given : Bool}
    {gen : Nat → U64} {key counter : ObjIn} {k c : Nat}
    (dk : key = .none ∧ k = Nat.ofDigits (2 ^ 64) ((List.range nk).map fun i => (gen i).toNat) ∨ given = false ∧ Denotes nk key k)
    (dc : counter = .none ∧ c = 0 ∨ 0 < nc ∧ Denotes nc counter c) (hnk : 0 < nk) (s : Seeded σ) :
    K.seedCall given gen key counter s = (.ok (), ⟨if key = .none then gen else s.seq, K.put ((List.range m).map fun i => k / 2 ^ (K.ku * i) % 2 ^ K.ku)
      ((List.range nc).map fun i => c / 2 ^ (64 * i) % 2 ^ 64) c s.core⟩) := by
  rcases dk with ⟨rfl, rfl⟩ | ⟨rfl, d⟩
  · rw [seedCall, if_neg (fun h => h.2 rfl), if_pos rfl, if_pos rfl, hs, keyed_used hk hm hu hc (denotes_words nk gen) dc hnk]
  · have h0 : key ≠ .none := fun h => by subst h; cases d
    rw [seedCall, if_neg (fun h => by cases h.1), if_neg h0, if_neg h0, keyed_used hk hm hu hc d dc hnk]

theorem seedCall_refused (hk : K.kb = 64 * nk) (hs : K.sw = nk) (hc : K.cb = 64 * nc) {given : Bool} {gen : Nat → U64} {key counter : ObjIn}
    (wk : ¬ WrongLength nk key) (wc : ¬ WrongLength nc counter)
    (h : (given = true ∧ key ≠ .none) ∨ (key ≠ .none ∧ ¬ ∃ k, Denotes nk key k) ∨ (counter ≠ .none ∧ ¬ ∃ c, Denotes nc counter c)) (hnk : 0 < nk)
    (s : Seeded σ) : ∃ e, K.seedCall given gen key counter s = (.error e, ⟨if key = .none then gen else s.seq, s.core⟩) := by
  by_cases h1 : given = true ∧ key ≠ .none
  · exact ⟨_, by rw [seedCall, if_pos h1, if_neg h1.2]⟩
  have h := h.resolve_left h1
  rw [seedCall, if_neg h1]
  by_cases h0 : key = .none
  · rw [if_pos h0, if_pos h0, hs]
    have h := h.resolve_left fun h => h.1 h0
    obtain ⟨e, he⟩ := objectToInt_refused h.1 wc h.2
    rw [← hc] at he
    have ek := objectToInt_denotes (denotes_words nk gen) hnk
    rw [← hk] at ek
    exact ⟨e, by simp only [keyed, ek, he]⟩
  · rw [if_neg h0, if_neg h0]
    by_cases hd : ∃ k, Denotes nk key k
    · obtain ⟨k, hd⟩ := hd
      have h := h.resolve_left fun h => h.2 ⟨k, hd⟩
      obtain ⟨e, he⟩ := objectToInt_refused h.1 wc h.2
      rw [← hc] at he
      have ek := objectToInt_denotes hd hnk
      rw [← hk] at ek
      exact ⟨e, by simp only [keyed, ek, he]⟩
    · obtain ⟨e, he⟩ := objectToInt_refused h0 wk hd
      rw [← hk] at he
      exact ⟨e, by simp only [keyed, he]⟩

theorem seedCall_counter (hk : K.kb = 64 * nk) (hs : K.sw = nk) {given : Bool} {gen : Nat → U64} (hnk : 0 < nk) (s : Seeded σ) :
    K.seedCall given gen .none (.int (-1)) s = (.error .valueError, ⟨gen, s.core⟩) := by
  have ek := objectToInt_denotes (denotes_words nk gen) hnk
  rw [← hk] at ek
  have ec : objectToInt (.int (-1)) K.cb = .error .valueError := by rw [objectToInt, objRange, if_pos (.inl (by decide))]
  rw [seedCall, if_neg (fun h => h.2 rfl), if_pos rfl, hs]
  simp only [keyed, ek, ec]

end KeyCls

/-- Word `i` of a number. -/
def word64 (v i : Nat) : U64 := BitVec.ofNat 64 (v / 2 ^ (64 * i))

/-- What `seed` is asked to use as the key: the number denoted by the argument `key`, which excludes `seed`, or the words of the seed sequence. -/
def KeyOf (nk : Nat) (given : Bool) (gen : Nat → U64) (key : ObjIn) (k : Nat) : Prop :=
  key = .none ∧ k = Nat.ofDigits (2 ^ 64) ((List.range nk).map fun i => (gen i).toNat) ∨ given = false ∧ Denotes nk key k

/-- The arguments that `seed` must refuse. -/
def MustRefuse (nk nc : Nat) (given : Bool) (key counter : ObjIn) : Prop :=
  (given = true ∧ key ≠ .none) ∨ (key ≠ .none ∧ ¬ ∃ k, Denotes nk key k) ∨ (counter ≠ .none ∧ ¬ ∃ c, Denotes nc counter c)

theorem ofNat_mod64 (v : Nat) : BitVec.ofNat 64 (v % 2 ^ 64) = BitVec.ofNat 64 v := by
  apply BitVec.eq_of_toNat_eq
  simp

/-- C102 for SPECK128: every valid key and counter is used. -/
theorem C102_speck128 {given : Bool} {gen : Nat → U64} {key counter : ObjIn} {k c : Nat} (dk : KeyOf 4 given gen key k)
    (dc : counter = .none ∧ c = 0 ∨ Denotes 2 counter c) (s : Seeded Speck) :
    speckKey.seedCall given gen key counter s = (.ok (), ⟨if key = .none then gen else s.seq,
      speckSeed s.core (word64 k 0) (word64 k 1) (word64 k 2) (word64 k 3) ⟨word64 c 0, word64 c 1⟩⟩) := by
  rw [KeyCls.seedCall_used (K := speckKey) (nk := 4) (nc := 2) (m := 4) rfl rfl rfl (.inr rfl) rfl dk (dc.imp id fun h => ⟨by decide, h⟩) (by decide)]
  simp only [speckKey]
  rw [wd_words 64 64 4 k 0 (by decide), wd_words 64 64 4 k 1 (by decide), wd_words 64 64 4 k 2 (by decide), wd_words 64 64 4 k 3 (by decide),
    wd_words 64 64 2 c 0 (by decide), wd_words 64 64 2 c 1 (by decide)]
  simp only [ofNat_mod64, word64]

/-- C102 for AESCounter: every valid key and counter is used. -/
theorem C102_aesctr {given : Bool} {gen : Nat → U64} {key counter : ObjIn} {k c : Nat} (dk : KeyOf 2 given gen key k)
    (dc : counter = .none ∧ c = 0 ∨ Denotes 2 counter c) (s : Seeded Aes) :
    aesKey.seedCall given gen key counter s = (.ok (), ⟨if key = .none then gen else s.seq, aesSeed s.core (word64 k 0) (word64 k 1) c⟩) := by
  rw [KeyCls.seedCall_used (K := aesKey) (nk := 2) (nc := 2) (m := 2) rfl rfl rfl (.inr rfl) rfl dk (dc.imp id fun h => ⟨by decide, h⟩) (by decide)]
  simp only [aesKey]
  rw [wd_words 64 64 2 k 0 (by decide), wd_words 64 64 2 k 1 (by decide)]
  simp only [ofNat_mod64, word64]

theorem halves32 (v i : Nat) : BitVec.ofNat 32 (v / 2 ^ (32 * (2 * i + 1)) % 2 ^ 32) ++ BitVec.ofNat 32 (v / 2 ^ (32 * (2 * i)) % 2 ^ 32) = word64 v i := by
  apply BitVec.eq_of_toNat_eq
  rw [BitVec.toNat_append, BitVec.toNat_ofNat, BitVec.toNat_ofNat, word64, BitVec.toNat_ofNat, ← Nat.shiftLeft_add_eq_or_of_lt (by omega), Nat.shiftLeft_eq,
    show 32 * (2 * i + 1) = 32 * (2 * i) + 32 by ring, pow_add, ← Nat.div_div_eq_div_mul, show 64 * i = 32 * (2 * i) by ring]
  generalize v / 2 ^ (32 * (2 * i)) = x
  omega

/-- C102 for ChaCha: every valid key and counter is used. -/
theorem C102_chacha {given : Bool} {gen : Nat → U64} {key counter : ObjIn} {k c : Nat} (dk : KeyOf 4 given gen key k)
    (dc : counter = .none ∧ c = 0 ∨ Denotes 2 counter c) (s : Seeded ChaCha) :
    chachaKey.seedCall given gen key counter s = (.ok (), ⟨if key = .none then gen else s.seq,
      ccSeed s.core (word64 k 0) (word64 k 1) (word64 k 2) (word64 k 3) (word64 c 0) (word64 c 1)⟩) := by
  rw [KeyCls.seedCall_used (K := chachaKey) (nk := 4) (nc := 2) (m := 8) rfl rfl rfl (.inl rfl) rfl dk (dc.imp id fun h => ⟨by decide, h⟩) (by decide)]
  simp only [chachaKey]
  rw [wd_words 32 32 8 k 0 (by decide), wd_words 32 32 8 k 1 (by decide), wd_words 32 32 8 k 2 (by decide), wd_words 32 32 8 k 3 (by decide),
    wd_words 32 32 8 k 4 (by decide), wd_words 32 32 8 k 5 (by decide), wd_words 32 32 8 k 6 (by decide), wd_words 32 32 8 k 7 (by decide),
    wd_words 64 64 2 c 0 (by decide), wd_words 64 64 2 c 1 (by decide)]
  rw [← halves32 k 0, ← halves32 k 1, ← halves32 k 2, ← halves32 k 3]
  simp only [ofNat_mod64, word64]

theorem hcSeed_congr {f g : Nat → U32} (h : ∀ i < 8, f i = g i) (old : Hc) : hcSeed f old = hcSeed g old := by
  have e : hcExpand f = hcExpand g := by
    rw [hcExpand, hcExpand]
    congr 1
    funext i
    split
    · exact h _ (by omega)
    · exact h _ (by omega)
  rw [hcSeed, hcSeed, e]

/-- C102 for HC128: every valid key is used; the seed is its eight words of 32 bits, the key of the cipher first. -/
theorem C102_hc128 {given : Bool} {gen : Nat → U64} {key : ObjIn} {k : Nat} (dk : KeyOf 4 given gen key k) (s : Seeded Hc) :
    hcKey.seedCall given gen key .none s =
      (.ok (), ⟨if key = .none then gen else s.seq, hcSeed (fun i => BitVec.ofNat 32 (k / 2 ^ (32 * i))) s.core⟩) := by
  rw [KeyCls.seedCall_used (K := hcKey) (nk := 4) (nc := 0) (m := 4) rfl rfl rfl (.inr rfl) rfl dk (.inl ⟨rfl, rfl⟩) (by decide)]
  simp only [hcKey]
  rw [hcSeed_congr fun i hi => ?_]
  rw [wd_words 64 64 4 k (i / 2) (by omega)]
  apply BitVec.eq_of_toNat_eq
  rw [BitVec.truncate_eq_setWidth, BitVec.toNat_setWidth, BitVec.toNat_ushiftRight, BitVec.toNat_ofNat, BitVec.toNat_ofNat, Nat.shiftRight_eq_div_pow]
  have e : 32 * i = 64 * (i / 2) + 32 * (i % 2) := by omega
  rw [e, pow_add, ← Nat.div_div_eq_div_mul]
  generalize k / 2 ^ (64 * (i / 2)) = x
  rcases Nat.mod_two_eq_zero_or_one i with h | h <;> rw [h] <;> omega

/-- C102: whatever must be refused is, and nothing has changed, if a key was given; without one the seed sequence has been replaced
(`not_C102_*_counter`). Missing: arrays with another number of words (`not_C102_*_length`). -/
theorem C102_speck128_partial {given : Bool} {gen : Nat → U64} {key counter : ObjIn} (wk : ¬ WrongLength 4 key) (wc : ¬ WrongLength 2 counter)
    (h : MustRefuse 4 2 given key counter) (s : Seeded Speck) :
    ∃ e, speckKey.seedCall given gen key counter s = (.error e, ⟨if key = .none then gen else s.seq, s.core⟩) :=
  KeyCls.seedCall_refused (K := speckKey) rfl rfl rfl wk wc h (by decide) s

/-- The same for AESCounter. -/
theorem C102_aesctr_partial {given : Bool} {gen : Nat → U64} {key counter : ObjIn} (wk : ¬ WrongLength 2 key) (wc : ¬ WrongLength 2 counter)
    (h : MustRefuse 2 2 given key counter) (s : Seeded Aes) :
    ∃ e, aesKey.seedCall given gen key counter s = (.error e, ⟨if key = .none then gen else s.seq, s.core⟩) :=
  KeyCls.seedCall_refused (K := aesKey) rfl rfl rfl wk wc h (by decide) s

/-- The same for ChaCha. -/
theorem C102_chacha_partial {given : Bool} {gen : Nat → U64} {key counter : ObjIn} (wk : ¬ WrongLength 4 key) (wc : ¬ WrongLength 2 counter)
    (h : MustRefuse 4 2 given key counter) (s : Seeded ChaCha) :
    ∃ e, chachaKey.seedCall given gen key counter s = (.error e, ⟨if key = .none then gen else s.seq, s.core⟩) :=
  KeyCls.seedCall_refused (K := chachaKey) rfl rfl rfl wk wc h (by decide) s

/-- The same for HC128, where a refused call changes nothing at all. -/
theorem C102_hc128_partial {given : Bool} {gen : Nat → U64} {key : ObjIn} (wk : ¬ WrongLength 4 key)
    (h : key ≠ .none ∧ (given = true ∨ ¬ ∃ k, Denotes 4 key k)) (s : Seeded Hc) :
    ∃ e, hcKey.seedCall given gen key .none s = (.error e, s) := by
  obtain ⟨e, he⟩ := KeyCls.seedCall_refused (K := hcKey) (nk := 4) (nc := 0) (given := given) (gen := gen) (key := key) (counter := .none) rfl rfl rfl wk
    id (h.2.imp (fun h' => ⟨h', h.1⟩) fun h' => .inl ⟨h.1, h'⟩) (by decide) s
  rw [if_neg h.1] at he
  exact ⟨e, he⟩

/-- The code violates C102, on every instance and for every seed: a refused counter leaves the new seed sequence with the old state. -/
theorem not_C102_speck128_counter (given : Bool) (gen : Nat → U64) (s : Seeded Speck) :
    speckKey.seedCall given gen .none (.int (-1)) s = (.error .valueError, ⟨gen, s.core⟩) :=
  KeyCls.seedCall_counter (K := speckKey) (nk := 4) rfl rfl (by decide) s

theorem not_C102_aesctr_counter (given : Bool) (gen : Nat → U64) (s : Seeded Aes) :
    aesKey.seedCall given gen .none (.int (-1)) s = (.error .valueError, ⟨gen, s.core⟩) :=
  KeyCls.seedCall_counter (K := aesKey) (nk := 2) rfl rfl (by decide) s

theorem not_C102_chacha_counter (given : Bool) (gen : Nat → U64) (s : Seeded ChaCha) :
    chachaKey.seedCall given gen .none (.int (-1)) s = (.error .valueError, ⟨gen, s.core⟩) :=
  KeyCls.seedCall_counter (K := chachaKey) (nk := 4) rfl rfl (by decide) s

/-- The code violates C102: keys of another number of words than documented are not refused; `[x]` is the same as the integer `x`, on every
instance of each of the four classes. -/
theorem not_C102_key_length (gen : Nat → U64) (x : U64) (counter : ObjIn) :
    (∀ s, speckKey.seedCall false gen (.arr64 [x]) counter s = speckKey.seedCall false gen (.int x.toNat) counter s) ∧
    (∀ s, aesKey.seedCall false gen (.arr64 [x]) counter s = aesKey.seedCall false gen (.int x.toNat) counter s) ∧
    (∀ s, chachaKey.seedCall false gen (.arr64 [x]) counter s = chachaKey.seedCall false gen (.int x.toNat) counter s) ∧
    (∀ s, hcKey.seedCall false gen (.arr64 [x]) counter s = hcKey.seedCall false gen (.int x.toNat) counter s) := by
  have e : ∀ b, objectToInt (.arr64 [x]) b = objectToInt (.int x.toNat) b := fun b => by
    simp [objectToInt, wordSum]
  have key : ∀ {σ : Type} (K : KeyCls σ) s, K.seedCall false gen (.arr64 [x]) counter s = K.seedCall false gen (.int x.toNat) counter s := fun K s => by
    simp only [KeyCls.seedCall, KeyCls.keyed, e]
    rfl
  exact ⟨key _, key _, key _, key _⟩

/-- The three forms of one key, and a key that is too large. -/
example : Denotes 2 (.int (2 ^ 64 + 7)) (2 ^ 64 + 7) ∧ Denotes 2 (.arr64 [7, 1]) (2 ^ 64 + 7) ∧ Denotes 2 (.seq [7, 1]) (2 ^ 64 + 7) :=
  ⟨.int (2 ^ 64 + 7) (by decide), .arr _ _ rfl (by decide) (by decide), .seq _ _ rfl (by decide) (by decide)⟩

example (gen : Nat → U64) (s : Seeded Aes) :
    (aesKey.seedCall false gen (.arr64 [7, 1]) (.int 3) s = (.ok (), ⟨s.seq, aesSeed s.core 7 1 3⟩)) ∧
    (∃ e, aesKey.seedCall true gen (.int 7) .none s = (.error e, s)) ∧ ∃ e, aesKey.seedCall false gen (.int (2 ^ 128)) .none s = (.error e, s) := by
  refine ⟨?_, C102_aesctr_partial id id (.inl ⟨rfl, by decide⟩) s, C102_aesctr_partial id id (.inr (.inl ⟨by decide, ?_⟩)) s⟩
  · have h := C102_aesctr (given := false) (gen := gen) (key := .arr64 [7, 1]) (counter := .int ((3 : Nat) : Int)) (k := 2 ^ 64 + 7) (c := 3)
      (.inr ⟨rfl, .arr _ _ rfl (by decide) (by decide)⟩) (.inr (.int 3 (by decide))) s
    rw [if_neg (by decide), show word64 (2 ^ 64 + 7) 0 = 7 by decide +kernel, show word64 (2 ^ 64 + 7) 1 = 1 by decide +kernel] at h
    exact h
  · rintro ⟨k, hk⟩
    generalize ho : ObjIn.int (2 ^ 128) = o at hk
    cases hk with
    | int v h => injection ho with ho; omega
    | arr => cases ho
    | seq => cases ho

end Verif
