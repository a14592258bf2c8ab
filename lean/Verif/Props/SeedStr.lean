import Verif.Model.SeedStr
import Verif.Props.SeedSeq
import Mathlib.Data.Nat.Digits.Defs

/-! C104: a seed given as a string of decimal digits, or of hexadecimal digits after `0x`, is the integer it spells; other strings are refused. -/

namespace Verif.SeedSeq

/-- A decimal digit, and its value. -/
inductive Dec : Char → Nat → Prop
  | mk (i : Nat) (h : i < 10) : Dec (Char.ofNat (48 + i)) i

/-- A hexadecimal digit of either case, and its value. -/
inductive Hex : Char → Nat → Prop
  | dec (i : Nat) (h : i < 10) : Hex (Char.ofNat (48 + i)) i
  | lower (i : Nat) (h : i < 6) : Hex (Char.ofNat (97 + i)) (10 + i)
  | upper (i : Nat) (h : i < 6) : Hex (Char.ofNat (65 + i)) (10 + i)

/-- `s` spells `n` as the documentation says (randomgen/_seed_sequence.pyx:90-91): decimal digits, or `0x` and hexadecimal digits; the first digit is
the most significant. -/
inductive Spells : List Char → Nat → Prop
  | dec (s : List Char) (l : List Nat) (h0 : s ≠ []) (h : List.Forall₂ Dec s l) : Spells s (Nat.ofDigits 10 l.reverse)
  | hex (s : List Char) (l : List Nat) (h0 : s ≠ []) (h : List.Forall₂ Hex s l) : Spells ('0' :: 'x' :: s) (Nat.ofDigits 16 l.reverse)

theorem dec_val {c : Char} {d : Nat} (h : Dec c d) : digitVal 10 c = some d ∧ 48 ≤ c.toNat ∧ c.toNat ≤ 57 ∧ c ≠ '_' ∧ c ≠ 'x' := by
  obtain ⟨_, hi⟩ := h
  have : ∀ i : Fin 10, digitVal 10 (Char.ofNat (48 + i.val)) = some i.val ∧ 48 ≤ (Char.ofNat (48 + i.val)).toNat ∧ (Char.ofNat (48 + i.val)).toNat ≤ 57 ∧
    Char.ofNat (48 + i.val) ≠ '_' ∧ Char.ofNat (48 + i.val) ≠ 'x' := by decide +kernel
  exact this ⟨d, hi⟩

theorem hex_val {c : Char} {d : Nat} (h : Hex c d) : digitVal 16 c = some d ∧ c ≠ '_' := by
  cases h with
  | dec _ h =>
    have : ∀ i : Fin 10, digitVal 16 (Char.ofNat (48 + i.val)) = some i.val ∧ Char.ofNat (48 + i.val) ≠ '_' := by decide +kernel
    exact this ⟨d, h⟩
  | lower i h =>
    have : ∀ i : Fin 6, digitVal 16 (Char.ofNat (97 + i.val)) = some (10 + i.val) ∧ Char.ofNat (97 + i.val) ≠ '_' := by decide +kernel
    exact this ⟨i, h⟩
  | upper i h =>
    have : ∀ i : Fin 6, digitVal 16 (Char.ofNat (65 + i.val)) = some (10 + i.val) ∧ Char.ofNat (65 + i.val) ≠ '_' := by decide +kernel
    exact this ⟨i, h⟩

theorem scan_cons {b : Nat} {c : Char} {d : Nat} (hc : c ≠ '_') (h : digitVal b c = some d) (cs : List Char) :
    scanDigits b (c :: cs) = (scanDigits b cs).map (d :: ·) := by
  rw [scanDigits.eq_3 b c cs (fun c' cs' hcc => absurd hcc hc), h]

theorem scan_all {b : Nat} {R : Char → Nat → Prop} (hR : ∀ c d, R c d → digitVal b c = some d ∧ c ≠ '_') :
    ∀ {s : List Char} {l : List Nat}, List.Forall₂ R s l → scanDigits b s = some l
  | _, _, .nil => by rw [scanDigits]
  | _, _, .cons h t => by
    rw [scan_cons (hR _ _ h).2 (hR _ _ h).1, scan_all hR t]
    rfl

theorem digitsOf_all {b : Nat} {R : Char → Nat → Prop} (hR : ∀ c d, R c d → digitVal b c = some d ∧ c ≠ '_') {s : List Char} {l : List Nat}
    (h0 : s ≠ []) (h : List.Forall₂ R s l) : digitsOf b s = some l := by
  cases h with
  | nil => exact absurd rfl h0
  | cons h t =>
    rw [digitsOf, (hR _ _ h).1, scan_all hR t]
    rfl

theorem digitsNum_eq (b : Nat) (l : List Nat) : digitsNum b l = Nat.ofDigits b l.reverse := by
  have : ∀ (l : List Nat) (a : Nat), l.foldl (fun a d => a * b + d) a = Nat.ofDigits b (l.reverse ++ [a]) := by
    intro l
    induction l with
    | nil => intro a; simp
    | cons d l ih =>
      intro a
      rw [List.foldl_cons, ih, List.reverse_cons, List.append_assoc, Nat.ofDigits_append, Nat.ofDigits_append]
      congr 2
      simp only [List.cons_append, List.nil_append, Nat.ofDigits_cons, Nat.ofDigits_nil, Nat.mul_zero, Nat.add_zero]
      ring
  have h := this l 0
  rw [Nat.ofDigits_append, Nat.ofDigits_singleton, Nat.mul_zero, Nat.add_zero] at h
  exact h

theorem drop_plain {s : List Char} (h : ∀ c ∈ s, c ≠ '_') : dropUnderscore s = s := by
  unfold dropUnderscore
  split
  · exact absurd rfl (h '_' List.mem_cons_self)
  · rfl

/-- **C104 (used).** A string that spells `n` is the seed `n`. Partial: a decimal string must not have more digits than `int` takes (4300 from Python
3.11 on, `not_C104_long`). -/
theorem C104_spells_partial (limit : Option Nat) {s : List Char} {n : Nat} (h : Spells s n)
    (hl : ∀ m ∈ limit, s.length ≤ m ∨ ∃ t, s = '0' :: 'x' :: t) : coerceS limit (.str s) = coerce (.int n) := by
  have key : strToInt limit s = .ok (n : Int) := by
    cases h with
    | hex s l h0 h =>
      rw [strToInt, intHex]
      have e : dropUnderscore s = s := drop_plain fun c hc => by
        obtain ⟨i, hi, rfl⟩ := List.getElem_of_mem hc
        exact (hex_val ((List.forall₂_iff_get.1 h).2 i hi (by rw [← h.length_eq]; exact hi))).2
      rw [e, digitsOf_all (fun c d => hex_val) h0 h]
      dsimp only
      rw [digitsNum_eq]
    | dec s l h0 h =>
      cases h with
      | nil => exact absurd rfl h0
      | @cons c d cs ds h t =>
        have hx : ∀ cs', ¬ (c :: cs = '0' :: 'x' :: cs') := by
          intro cs' e
          injection e with _ e
          subst e
          cases t with
          | cons h' _ => exact (dec_val h').2.2.2.2 rfl
        have hlen : ¬ ∃ m ∈ limit, m < (d :: ds).length := by
          rintro ⟨m, hm, hlt⟩
          rcases hl m hm with h' | ⟨t', e⟩
          · have := t.length_eq
            simp only [List.length_cons] at h' hlt
            omega
          · exact hx t' e
        rw [strToInt.eq_2 limit c cs (fun cs' e1 e2 => hx cs' (by rw [e1, e2])), if_pos ⟨(dec_val h).2.1, (dec_val h).2.2.1⟩, intDec,
          digitsOf_all (fun c d h => ⟨(dec_val h).1, (dec_val h).2.2.2.1⟩) h0 (.cons h t)]
        dsimp only
        rw [if_neg hlen, digitsNum_eq]
  rw [coerceS, key, coerce]

/-- The digits of a number, first digit first. -/
def spellDec (n : Nat) : List Char := if n = 0 then ['0'] else (Nat.digits 10 n).reverse.map fun d => Char.ofNat (48 + d)

/-- `hex(n)`. -/
def spellHex (n : Nat) : List Char :=
  '0' :: 'x' :: if n = 0 then ['0'] else (Nat.digits 16 n).reverse.map fun d => if d < 10 then Char.ofNat (48 + d) else Char.ofNat (87 + d)

theorem forall2_map {R : Char → Nat → Prop} (f : Nat → Char) : ∀ l : List Nat, (∀ d ∈ l, R (f d) d) → List.Forall₂ R (l.map f) l
  | [], _ => .nil
  | d :: l, h => .cons (h d List.mem_cons_self) (forall2_map f l fun x hx => h x (List.mem_cons_of_mem _ hx))

/-- **C104 (round trip).** `SeedSequence(str(n))` and `SeedSequence(hex(n))` are seeded as `SeedSequence(n)`, for every `n` (for decimal strings of
any length, as before Python 3.11). -/
theorem C104_round_trip (n : Nat) : coerceS none (.str (spellDec n)) = coerce (.int n) ∧
    ∀ limit, coerceS limit (.str (spellHex n)) = coerce (.int n) := by
  have dec : Spells (spellDec n) n := by
    rw [spellDec]
    split
    · rename_i h
      subst h
      exact .dec ['0'] [0] (by simp) (.cons (.mk 0 (by decide)) .nil)
    · rename_i h
      have := Spells.dec ((Nat.digits 10 n).reverse.map fun d => Char.ofNat (48 + d)) (Nat.digits 10 n).reverse
        (by simpa [Nat.digits_ne_nil_iff_ne_zero] using h) (forall2_map _ _ fun d hd => .mk d (Nat.digits_lt_base (by decide) (List.mem_reverse.1 hd)))
      rwa [List.reverse_reverse, Nat.ofDigits_digits] at this
  have hex : Spells (spellHex n) n := by
    rw [spellHex]
    split
    · rename_i h
      subst h
      exact .hex ['0'] [0] (by simp) (.cons (.dec 0 (by decide)) .nil)
    · rename_i h
      have := Spells.hex ((Nat.digits 16 n).reverse.map fun d => if d < 10 then Char.ofNat (48 + d) else Char.ofNat (87 + d)) (Nat.digits 16 n).reverse
        (by simpa [Nat.digits_ne_nil_iff_ne_zero] using h) (forall2_map _ _ fun d hd => by
          have hd := Nat.digits_lt_base (by decide) (List.mem_reverse.1 hd)
          split
          · exact .dec d (by assumption)
          · have := Hex.lower (d - 10) (by omega)
            rw [show 97 + (d - 10) = 87 + d by omega, show 10 + (d - 10) = d by omega] at this
            exact this)
      rwa [List.reverse_reverse, Nat.ofDigits_digits] at this
  exact ⟨C104_spells_partial none dec (by simp), fun limit => C104_spells_partial limit hex fun m _ => .inr ⟨_, rfl⟩⟩

/-! ### What is refused -/

theorem digitVal_some {b : Nat} {c : Char} {d : Nat} (h : digitVal b c = some d) : d < b ∧
    ((48 + d = c.toNat ∧ d < 10) ∨ (87 + d = c.toNat ∧ 10 ≤ d ∧ d < 36) ∨ (55 + d = c.toNat ∧ 10 ≤ d ∧ d < 36) ∨ d = 37) := by
  rw [digitVal] at h
  generalize hv : (if 48 ≤ c.toNat ∧ c.toNat ≤ 57 then c.toNat - 48
    else if 97 ≤ c.toNat ∧ c.toNat ≤ 122 then c.toNat - 87
    else if 65 ≤ c.toNat ∧ c.toNat ≤ 90 then c.toNat - 55 else 37) = v at h
  by_cases hb : v < b
  · rw [if_pos hb] at h
    injection h with h
    subst h
    refine ⟨hb, ?_⟩
    split_ifs at hv <;> omega
  · rw [if_neg hb] at h; cases h

theorem digitVal_dec {c : Char} {d : Nat} (h : digitVal 10 c = some d) : Dec c d := by
  obtain ⟨hb, h⟩ := digitVal_some h
  have := Dec.mk d (by omega)
  rwa [show 48 + d = c.toNat by omega, Char.ofNat_toNat] at this

theorem digitVal_hex {c : Char} {d : Nat} (h : digitVal 16 c = some d) : Hex c d := by
  obtain ⟨hb, h | h | h | h⟩ := digitVal_some h
  · have := Hex.dec d h.2
    rwa [h.1, Char.ofNat_toNat] at this
  · have := Hex.lower (d - 10) (by omega)
    rwa [show 97 + (d - 10) = c.toNat by omega, show 10 + (d - 10) = d by omega, Char.ofNat_toNat] at this
  · have := Hex.upper (d - 10) (by omega)
    rwa [show 65 + (d - 10) = c.toNat by omega, show 10 + (d - 10) = d by omega, Char.ofNat_toNat] at this
  · omega

/-- No underscore, no white space. -/
def Plain (s : List Char) : Prop := ∀ c ∈ s, c ≠ '_' ∧ isSpaceChar c = false

theorem scan_plain {b : Nat} : ∀ {s : List Char} {l : List Nat}, Plain s → scanDigits b s = some l → List.Forall₂ (fun c d => digitVal b c = some d) s l
  | [], l, _, h => by
    rw [scanDigits] at h
    injection h with h
    subst h
    exact .nil
  | c :: s, l, hp, h => by
    have hc := hp c List.mem_cons_self
    cases hd : digitVal b c with
    | some d =>
      rw [scan_cons hc.1 hd] at h
      cases hs : scanDigits b s with
      | none => rw [hs] at h; cases h
      | some l' =>
        rw [hs] at h
        injection h with h
        subst h
        exact .cons hd (scan_plain (fun x hx => hp x (List.mem_cons_of_mem _ hx)) hs)
    | none =>
      rw [scanDigits.eq_3 b c s (fun c' cs' hcc => absurd hcc hc.1), hd] at h
      dsimp only at h
      rw [if_neg (by rw [List.all_cons, hc.2]; simp)] at h
      cases h

theorem digitsOf_plain {b : Nat} {s : List Char} {l : List Nat} (hp : Plain s) (h : digitsOf b s = some l) :
    s ≠ [] ∧ List.Forall₂ (fun c d => digitVal b c = some d) s l := by
  cases s with
  | nil => cases h
  | cons c s =>
    refine ⟨by simp, ?_⟩
    rw [digitsOf] at h
    cases hd : digitVal b c with
    | none => rw [hd] at h; cases h
    | some d =>
      rw [hd] at h
      dsimp only at h
      cases hs : scanDigits b s with
      | none => rw [hs] at h; cases h
      | some l' =>
        rw [hs] at h
        injection h with h
        subst h
        exact .cons hd (scan_plain (fun x hx => hp x (List.mem_cons_of_mem _ hx)) hs)

theorem forall2_imp {R S : Char → Nat → Prop} (h : ∀ c d, R c d → S c d) : ∀ {s : List Char} {l : List Nat}, List.Forall₂ R s l → List.Forall₂ S s l
  | _, _, .nil => .nil
  | _, _, .cons a t => .cons (h _ _ a) (forall2_imp h t)

/-- **C104 (refused).** A string that spells nothing raises `ValueError`. Partial: for strings without underscores and white space
(`not_C104_underscore`, `not_C104_space`). -/
theorem C104_refused_partial (limit : Option Nat) {s : List Char} (hp : Plain s) (h : ¬ ∃ n, Spells s n) :
    coerceS limit (.str s) = .error .valueError := by
  have key : strToInt limit s = .error .valueError := by
    unfold strToInt
    split
    · rename_i cs
      have hp' : Plain cs := fun c hc => hp c (List.mem_cons_of_mem _ (List.mem_cons_of_mem _ hc))
      rw [intHex, drop_plain fun c hc => (hp' c hc).1]
      cases hd : digitsOf 16 cs with
      | none => rfl
      | some l =>
        obtain ⟨h0, h2⟩ := digitsOf_plain hp' hd
        exact absurd ⟨_, .hex cs l h0 (forall2_imp (fun c d => digitVal_hex) h2)⟩ h
    · rename_i c cs _
      split
      · rw [intDec]
        cases hd : digitsOf 10 (c :: cs) with
        | none => rfl
        | some l =>
          obtain ⟨h0, h2⟩ := digitsOf_plain hp hd
          exact absurd ⟨_, .dec (c :: cs) l h0 (forall2_imp (fun c d => digitVal_dec) h2)⟩ h
      · rfl
    · rfl
  rw [coerceS, key]

/-! ### Strings in sequences -/

mutual
/-- `e'` is `e` with its strings replaced by the integers they spell. -/
inductive Reads (limit : Option Nat) : EntS → Ent → Prop
  | int (n : Int) : Reads limit (.int n) (.int n)
  | words (l : List U32) : Reads limit (.words l) (.words l)
  | str (s : List Char) (n : Nat) (h : Spells s n) (hl : ∀ m ∈ limit, s.length ≤ m ∨ ∃ t, s = '0' :: 'x' :: t) : Reads limit (.str s) (.int n)
  | seq (l : List EntS) (l' : List Ent) (h : ReadsAll limit l l') : Reads limit (.seq l) (.seq l')
inductive ReadsAll (limit : Option Nat) : List EntS → List Ent → Prop
  | nil : ReadsAll limit [] []
  | cons (e : EntS) (e' : Ent) (l : List EntS) (l' : List Ent) (h : Reads limit e e') (t : ReadsAll limit l l') : ReadsAll limit (e :: l) (e' :: l')
end

mutual
/-- **C104 (sequences).** In nested sequences strings are the integers they spell. Partial as `C104_spells_partial`. -/
theorem C104_sequences_partial (limit : Option Nat) : ∀ {e : EntS} {e' : Ent}, Reads limit e e' → coerceS limit e = coerce e'
  | _, _, .int n => by rw [coerceS, coerce]
  | _, _, .words l => by rw [coerceS, coerce]
  | _, _, .str s n h hl => C104_spells_partial limit h hl
  | _, _, .seq l l' h => by rw [coerceS, coerce, coerceSAll_reads limit h]
theorem coerceSAll_reads (limit : Option Nat) : ∀ {l : List EntS} {l' : List Ent}, ReadsAll limit l l' → coerceSAll limit l = coerceAll l'
  | _, _, .nil => by rw [coerceSAll, coerceAll]
  | _, _, .cons e e' l l' h t => by rw [coerceSAll, coerceAll, C104_sequences_partial limit h, coerceSAll_reads limit t]
end

/-! ### Violations and examples -/

/-- **Violation of C104.** `"1_0"` is not a string of decimal digits, and is the seed 10. -/
theorem not_C104_underscore (limit : Option Nat) (h : ∀ m ∈ limit, 2 ≤ m) : (¬ ∃ n, Spells ['1', '_', '0'] n) ∧
    coerceS limit (.str ['1', '_', '0']) = coerce (.int 10) := by
  constructor
  · rintro ⟨n, hs⟩
    generalize hz : ['1', '_', '0'] = z at hs
    cases hs with
    | hex s l _ _ => injection hz with h1 _; exact absurd h1 (by decide)
    | dec s l _ h =>
      subst hz
      cases h with
      | cons _ t => cases t with
        | cons h2 _ => exact (dec_val h2).2.2.2.1 rfl
  · have : strToInt limit ['1', '_', '0'] = .ok (10 : Int) := by
      have e : digitsOf 10 ['1', '_', '0'] = some [1, 0] := by decide +kernel
      rw [strToInt.eq_2 limit '1' ['_', '0'] (by simp), if_pos (by decide), intDec, e]
      dsimp only
      rw [if_neg]
      · rfl
      · rintro ⟨m, hm, hlt⟩
        have := h m hm
        simp at hlt
        omega
    rw [coerceS, this, coerce]

/-- **Violation of C104.** Neither is `"7 "`, the seed 7. -/
theorem not_C104_space : (¬ ∃ n, Spells ['7', ' '] n) ∧ coerceS none (.str ['7', ' ']) = coerce (.int 7) := by
  constructor
  · rintro ⟨n, hs⟩
    generalize hz : ['7', ' '] = z at hs
    cases hs with
    | hex s l _ _ => injection hz with h1 _; exact absurd h1 (by decide)
    | dec s l _ h =>
      subst hz
      cases h with
      | cons _ t => cases t with
        | cons h2 _ => exact absurd (dec_val h2).2.1 (by decide)
  · have : strToInt none ['7', ' '] = .ok (7 : Int) := by
      have e : digitsOf 10 ['7', ' '] = some [7] := by decide +kernel
      rw [strToInt.eq_2 none '7' [' '] (by simp), if_pos (by decide), intDec, e]
      rfl
    rw [coerceS, this, coerce]

/-- **Violation of C104.** From Python 3.11 on a string of 4301 or more decimal digits is refused. -/
theorem not_C104_long {s : List Char} {l : List Nat} (m : Nat) (hm : m < s.length) (h : List.Forall₂ Dec s l) :
    coerceS (some m) (.str s) = .error .valueError := by
  have h0 : s ≠ [] := by rintro rfl; simp at hm
  have key : strToInt (some m) s = .error .valueError := by
    cases h with
    | nil => exact absurd rfl h0
    | @cons c d cs ds h t =>
      have hx : ∀ cs', ¬ (c :: cs = '0' :: 'x' :: cs') := by
        intro cs' e
        injection e with _ e
        subst e
        cases t with
        | cons h' _ => exact (dec_val h').2.2.2.2 rfl
      rw [strToInt.eq_2 (some m) c cs (fun cs' e1 e2 => hx cs' (by rw [e1, e2])), if_pos ⟨(dec_val h).2.1, (dec_val h).2.2.1⟩, intDec,
        digitsOf_all (fun c d h => ⟨(dec_val h).1, (dec_val h).2.2.2.1⟩) h0 (.cons h t)]
      dsimp only
      rw [if_pos]
      refine ⟨m, rfl, ?_⟩
      have := t.length_eq
      simp only [List.length_cons] at hm ⊢
      omega
  rw [coerceS, key]

/-- `"12345"`, `"0x12345"`, and a string of 4301 digits. -/
example : Spells ['1', '2', '3', '4', '5'] 12345 ∧ Spells ['0', 'x', '1', '2', '3', 'a', 'F'] 0x123af ∧
    ∃ l, List.Forall₂ Dec (List.replicate 4301 '7') l := by
  refine ⟨?_, ?_, ?_⟩
  · exact .dec ['1', '2', '3', '4', '5'] [1, 2, 3, 4, 5] (by simp)
      (.cons (.mk 1 (by decide)) (.cons (.mk 2 (by decide)) (.cons (.mk 3 (by decide)) (.cons (.mk 4 (by decide)) (.cons (.mk 5 (by decide)) .nil)))))
  · exact .hex ['1', '2', '3', 'a', 'F'] [1, 2, 3, 10, 15] (by simp)
      (.cons (.dec 1 (by decide)) (.cons (.dec 2 (by decide)) (.cons (.dec 3 (by decide)) (.cons (.lower 0 (by decide)) (.cons (.upper 5 (by decide)) .nil)))))
  · refine ⟨List.replicate 4301 7, ?_⟩
    have : ∀ n, List.Forall₂ Dec (List.replicate n '7') (List.replicate n 7) := by
      intro n
      induction n with
      | zero => exact .nil
      | succ n ih => exact .cons (.mk 7 (by decide)) ih
    exact this 4301

/-- A string that is refused. -/
example : Plain ['0', 'X', '1'] ∧ ¬ ∃ n, Spells ['0', 'X', '1'] n := by
  refine ⟨by unfold Plain; decide, ?_⟩
  rintro ⟨n, hs⟩
  generalize hz : ['0', 'X', '1'] = z at hs
  cases hs with
  | hex s l _ _ => injection hz with _ h1; injection h1 with h1 _; exact absurd h1 (by decide)
  | dec s l _ h =>
    subst hz
    cases h with
    | cons _ t => cases t with
      | cons h2 _ => exact absurd (dec_val h2).2.2.1 (by decide)

end Verif.SeedSeq
