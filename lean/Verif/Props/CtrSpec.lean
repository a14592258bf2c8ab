import Verif.Common.ThreefishSpec
import Verif.Model.CtrUnrolled
import Verif.Props.CtrMode
import Mathlib.Tactic.FinCases
import Mathlib.Tactic.IntervalCases
import Mathlib.Tactic.NormNum

/-! C87: the unrolled rounds of Philox and ThreeFry are the loops of the model, and the block functions are those of the
papers: Threefry is Threefish with fewer rounds and no tweak, Philox has the Weyl sequence of its key as round keys. -/

namespace Verif

/-! ## The unrolled code -/

/-- What the blocks of round `r` should be, two words. -/
def tf2Gen (r : Nat) : List (Nat × List XStmt) :=
  (r, [.add 0 1, .rot 1 1 (r % 8) 0, .xor 1 0]) ::
    (if (r + 1) % 4 = 0 then [(r, [.key 0 ((r + 1) / 4 % 3), .key 1 (((r + 1) / 4 + 1) % 3), .num 1 ((r + 1) / 4)])] else [])

/-- What the blocks of round `r` should be, four words. -/
def tf4Gen (r : Nat) : List (Nat × List XStmt) :=
  (if r % 2 = 0 then (r, [.add 0 1, .rot 1 1 (r % 8) 0, .xor 1 0, .add 2 3, .rot 3 3 (r % 8) 1, .xor 3 2])
    else (r, [.add 0 3, .rot 3 3 (r % 8) 0, .xor 3 0, .add 2 1, .rot 1 1 (r % 8) 1, .xor 1 2])) ::
    (if (r + 1) % 4 = 0 then [(r, [.key 0 ((r + 1) / 4 % 5), .key 1 (((r + 1) / 4 + 1) % 5), .key 2 (((r + 1) / 4 + 2) % 5),
      .key 3 (((r + 1) / 4 + 3) % 5), .num 3 ((r + 1) / 4)])] else [])

theorem tf2Code_gen : tf2Code = (List.range 32).flatMap tf2Gen := by decide +kernel
theorem tf4Code_gen : tf4Code = (List.range 72).flatMap tf4Gen := by decide +kernel

variable {w : Nat}

theorem threefryR_two (key : List (BitVec w)) (n : Nat) (a b : BitVec w) : ∃ a' b', threefryR key n [a, b] = [a', b'] := by
  induction n with
  | zero => exact ⟨_, _, rfl⟩
  | succ n ih =>
    obtain ⟨a', b', h⟩ := ih
    rw [threefryR, h]
    by_cases h4 : (n + 1) % 4 = 0
    · simp only [h4, if_true]; exact ⟨_, _, rfl⟩
    · simp only [h4, if_false]; exact ⟨_, _, rfl⟩

theorem threefryR_four (key : List (BitVec w)) (n : Nat) (a b c d : BitVec w) :
    ∃ a' b' c' d', threefryR key n [a, b, c, d] = [a', b', c', d'] := by
  induction n with
  | zero => exact ⟨_, _, _, _, rfl⟩
  | succ n ih =>
    obtain ⟨a', b', c', d', h⟩ := ih
    rw [threefryR, h]
    have hr : ∃ a b c d, tfRound n [a', b', c', d'] = [a, b, c, d] := by
      unfold tfRound
      by_cases h2 : n % 2 = 0
      · simp only [h2, if_true]; exact ⟨_, _, _, _, rfl⟩
      · simp only [h2, if_false]; exact ⟨_, _, _, _, rfl⟩
    obtain ⟨e, f, g, i, hr⟩ := hr
    rw [hr]
    by_cases h4 : (n + 1) % 4 = 0
    · simp only [h4, if_true]; exact ⟨_, _, _, _, rfl⟩
    · simp only [h4, if_false]; exact ⟨_, _, _, _, rfl⟩

theorem tf2_round (ks : List (BitVec w)) (r : Nat) (a b : BitVec w) :
    [XStmt.add 0 1, .rot 1 1 (r % 8) 0, .xor 1 0].foldl (xExec 2 ks) [a, b] = tfRound r [a, b] := rfl

theorem tf4_round_even (ks : List (BitVec w)) (r : Nat) (h : r % 2 = 0) (a b c d : BitVec w) :
    [XStmt.add 0 1, .rot 1 1 (r % 8) 0, .xor 1 0, .add 2 3, .rot 3 3 (r % 8) 1, .xor 3 2].foldl (xExec 4 ks) [a, b, c, d] =
      tfRound r [a, b, c, d] := by
  unfold tfRound
  simp only [h, if_true]
  rfl

theorem tf4_round_odd (ks : List (BitVec w)) (r : Nat) (h : ¬r % 2 = 0) (a b c d : BitVec w) :
    [XStmt.add 0 3, .rot 3 3 (r % 8) 0, .xor 3 0, .add 2 1, .rot 1 1 (r % 8) 1, .xor 1 2].foldl (xExec 4 ks) [a, b, c, d] =
      tfRound r [a, b, c, d] := by
  unfold tfRound
  simp only [h, if_false]
  rfl

theorem foldl_skip (N n r : Nat) (ks x : List (BitVec w)) (l : List (Nat × List XStmt)) (h : ∀ b ∈ l, b.1 = r) (hn : n ≤ r) :
    l.foldl (xBlock N n ks) x = x := by
  induction l with
  | nil => rfl
  | cons b l ih =>
    rw [List.foldl_cons, xBlock, if_neg (by have := h b (by simp); omega)]
    exact ih fun b hb => h b (by simp [hb])

/-- One round of the unrolled code with two words. -/
theorem tf2Gen_step (key : List (BitVec w)) (n r : Nat) (a b : BitVec w) :
    (tf2Gen r).foldl (xBlock 2 n (tfKs key)) (threefryR key (min r n) [a, b]) = threefryR key (min (r + 1) n) [a, b] := by
  by_cases hn : n ≤ r
  · rw [Nat.min_eq_right hn, Nat.min_eq_right (by omega)]
    apply foldl_skip _ _ r _ _ _ _ hn
    intro b hb
    unfold tf2Gen at hb
    split at hb <;> simp at hb
    · rcases hb with h | h <;> rw [h]
    · rw [hb]
  · rw [Nat.min_eq_left (by omega), Nat.min_eq_left (by omega)]
    obtain ⟨a', b', h⟩ := threefryR_two key r a b
    rw [h, tf2Gen, List.foldl_cons, xBlock, if_pos (by simpa using hn), tf2_round, threefryR, h]
    obtain ⟨a2, b2, h2⟩ : ∃ a b, tfRound r [a', b'] = [a, b] := ⟨_, _, rfl⟩
    rw [h2]
    by_cases h4 : (r + 1) % 4 = 0
    · rw [if_pos h4, if_pos h4, List.foldl_cons, xBlock, if_pos (by simpa using hn)]
      rfl
    · rw [if_neg h4, if_neg h4]
      rfl

/-- One round of the unrolled code with four words. -/
theorem tf4Gen_step (key : List (BitVec w)) (n r : Nat) (a b c d : BitVec w) :
    (tf4Gen r).foldl (xBlock 4 n (tfKs key)) (threefryR key (min r n) [a, b, c, d]) =
      threefryR key (min (r + 1) n) [a, b, c, d] := by
  by_cases hn : n ≤ r
  · rw [Nat.min_eq_right hn, Nat.min_eq_right (by omega)]
    apply foldl_skip _ _ r _ _ _ _ hn
    intro b hb
    unfold tf4Gen at hb
    rw [List.mem_cons] at hb
    rcases hb with h | h
    · rw [h]; split <;> rfl
    · split at h <;> simp at h
      rw [h]
  · rw [Nat.min_eq_left (by omega), Nat.min_eq_left (by omega)]
    obtain ⟨a', b', c', d', h⟩ := threefryR_four key r a b c d
    have hround : xBlock 4 n (tfKs key) [a', b', c', d']
        (if r % 2 = 0 then (r, [.add 0 1, .rot 1 1 (r % 8) 0, .xor 1 0, .add 2 3, .rot 3 3 (r % 8) 1, .xor 3 2])
          else (r, [.add 0 3, .rot 3 3 (r % 8) 0, .xor 3 0, .add 2 1, .rot 1 1 (r % 8) 1, .xor 1 2])) =
        tfRound r [a', b', c', d'] := by
      by_cases h2 : r % 2 = 0
      · rw [if_pos h2, xBlock, if_pos (by simpa using hn), tf4_round_even _ _ h2]
      · rw [if_neg h2, xBlock, if_pos (by simpa using hn), tf4_round_odd _ _ h2]
    rw [h, tf4Gen, List.foldl_cons, hround, threefryR, h]
    obtain ⟨a2, b2, c2, d2, h2⟩ : ∃ a b c d, tfRound r [a', b', c', d'] = [a, b, c, d] := by
      unfold tfRound
      by_cases h2 : r % 2 = 0
      · simp only [h2, if_true]; exact ⟨_, _, _, _, rfl⟩
      · simp only [h2, if_false]; exact ⟨_, _, _, _, rfl⟩
    rw [h2]
    by_cases h4 : (r + 1) % 4 = 0
    · rw [if_pos h4, if_pos h4, List.foldl_cons, xBlock, if_pos (by simpa using hn)]
      rfl
    · rw [if_neg h4, if_neg h4]
      rfl

/-- C87: the 40 guarded blocks of `threefry2x##W##_R` are the loop "mix; after every fourth round add a subkey", stopped
after `Nrounds` rounds or 32. -/
theorem C87_threefry2_unrolled (n : Nat) (a b : BitVec w) (key : List (BitVec w)) :
    threefry2Code n [a, b] key = threefryR key (min 32 n) [a, b] := by
  have h : ∀ m, ((List.range m).flatMap tf2Gen).foldl (xBlock 2 n (tfKs key)) (tf2Init.foldl (xExec 2 (tfKs key)) [a, b]) =
      threefryR key (min m n) [a, b] := by
    intro m
    induction m with
    | zero =>
      rw [Nat.zero_min]
      show [_, _] = [_, _ + BitVec.ofNat w 0]
      rw [BitVec.add_zero]
      rfl
    | succ m ih =>
      rw [List.range_succ, List.flatMap_append, List.foldl_append, ih, List.flatMap_cons, List.flatMap_nil, List.append_nil,
        tf2Gen_step]
  rw [threefry2Code, tf2Code_gen, h]

/-- C87: the 90 guarded blocks of `threefry4x##W##_R` are the same loop on four words, stopped after `Nrounds` rounds or 72. -/
theorem C87_threefry4_unrolled (n : Nat) (a b c d : BitVec w) (key : List (BitVec w)) :
    threefry4Code n [a, b, c, d] key = threefryR key (min 72 n) [a, b, c, d] := by
  have h : ∀ m, ((List.range m).flatMap tf4Gen).foldl (xBlock 4 n (tfKs key))
      (tf4Init.foldl (xExec 4 (tfKs key)) [a, b, c, d]) = threefryR key (min m n) [a, b, c, d] := by
    intro m
    induction m with
    | zero =>
      rw [Nat.zero_min]
      show [_, _, _, _] = [_, _, _, _ + BitVec.ofNat w 0]
      rw [BitVec.add_zero]
      rfl
    | succ m ih =>
      rw [List.range_succ, List.flatMap_append, List.foldl_append, ih, List.flatMap_cons, List.flatMap_nil, List.append_nil,
        tf4Gen_step]
  rw [threefry4Code, tf4Code_gen, h]

/-- The key of round `r`: bumped `r` times. -/
theorem philoxR_succ (n : Nat) (ctr key : List (BitVec w)) :
    philoxR (n + 1) ctr key = philoxRound (philoxR n ctr key) (philoxBump^[n] key) := by
  induction n generalizing ctr key with
  | zero => rfl
  | succ n ih =>
    rw [philoxR, ih, Function.iterate_succ_apply]
    rfl

/-- C87: the sixteen lines of `philox##N##x##W##_R` are the loop with `R` rounds, or 16. -/
theorem C87_philox_unrolled (R : Nat) (ctr key : List (BitVec w)) : philoxCode R ctr key = philoxR (min 16 R) ctr key := by
  have gen : philoxLines = (List.range 16).map fun i => (i, decide (0 < i)) := by decide
  have h : ∀ m, (((List.range m).map fun i => (i, decide (0 < i))).foldl (philoxLine R) (ctr, key)) =
      (philoxR (min m R) ctr key, philoxBump^[min m R - 1] key) := by
    intro m
    induction m with
    | zero => rw [Nat.zero_min]; rfl
    | succ m ih =>
      rw [List.range_succ, List.map_append, List.foldl_append, ih, List.map_cons, List.map_nil, List.foldl_cons, List.foldl_nil,
        philoxLine]
      by_cases hR : R > m
      · rw [if_pos hR, Nat.min_eq_left (by omega), Nat.min_eq_left (by omega), philoxR_succ, Nat.add_sub_cancel]
        cases m with
        | zero => rfl
        | succ m =>
          simp only [Nat.zero_lt_succ, decide_true, if_true, Nat.add_sub_cancel]
          rw [Function.iterate_succ_apply']
      · rw [if_neg hR, Nat.min_eq_right (by omega), Nat.min_eq_right (by omega)]
  rw [philoxCode, gen, h]

/-! ## The specifications -/

open Threefish

theorem tfRotl_rotateLeft (x : BitVec w) (n : Nat) (h0 : 0 < n) (h : n < w) : tfRotl x n = x.rotateLeft n := by
  rw [tfRotl, BitVec.rotateLeft, BitVec.rotateLeftAux, Nat.mod_eq_of_lt h, Nat.mod_eq_of_lt (by omega)]

/-- A cipher of the family with the constants of the code. -/
structure TfMatch {N : Nat} (c : Cipher N w) : Prop where
  hC : c.C = tfParity w
  h0 : ∀ d < 8, c.R d 0 = ((tfRotTable N w).getD d (0, 0)).1
  h1 : N = 4 → ∀ d < 8, c.R d 1 = ((tfRotTable N w).getD d (0, 0)).2
  pos0 : ∀ d < 8, 0 < c.R d 0 ∧ c.R d 0 < w
  pos1 : N = 4 → ∀ d < 8, 0 < c.R d 1 ∧ c.R d 1 < w

theorem match_4x64 : TfMatch threefish256 := ⟨rfl, by decide, fun _ => by decide, by decide, fun _ => by decide⟩
theorem match_4x32 : TfMatch threefry4x32 := ⟨rfl, by decide, fun _ => by decide, by decide, fun _ => by decide⟩
theorem match_2x64 : TfMatch threefry2x64 := ⟨rfl, by decide, fun h => by omega, by decide, fun h => by omega⟩
theorem match_2x32 : TfMatch threefry2x32 := ⟨rfl, by decide, fun h => by omega, by decide, fun h => by omega⟩

/-- The extended key of the code is that of the specification. -/
theorem tfKs4 (c : Cipher 4 w) (hm : TfMatch c) (k : Fin 4 → BitVec w) (i : Nat) (hi : i < 5) :
    (tfKs [k 0, k 1, k 2, k 3]).getD i 0 = extKey c.C k i := by
  interval_cases i
  · rfl
  · rfl
  · rfl
  · rfl
  · rw [hm.hC]
    show tfParity w ^^^ k 0 ^^^ k 1 ^^^ k 2 ^^^ k 3 = k 0 ^^^ (k 1 ^^^ (k 2 ^^^ (k 3 ^^^ tfParity w)))
    ac_rfl

theorem tfKs2 (c : Cipher 2 w) (hm : TfMatch c) (k : Fin 2 → BitVec w) (i : Nat) (hi : i < 3) :
    (tfKs [k 0, k 1]).getD i 0 = extKey c.C k i := by
  interval_cases i
  · rfl
  · rfl
  · rw [hm.hC]
    show tfParity w ^^^ k 0 ^^^ k 1 = k 0 ^^^ (k 1 ^^^ tfParity w)
    ac_rfl

theorem inject4 (c : Cipher 4 w) (hm : TfMatch c) (k : Fin 4 → BitVec w) (s : Nat) (v : Fin 4 → BitVec w) :
    tfInject (tfKs [k 0, k 1, k 2, k 3]) s [v 0, v 1, v 2, v 3] =
      (let e := fun i => v i + subkey c.C k (noTweak w) s i; [e 0, e 1, e 2, e 3]) := by
  have h := fun i => tfKs4 c hm k ((s + i) % 5) (Nat.mod_lt _ (by decide))
  have z : ∀ x : BitVec w, x + 0 = x := fun x => BitVec.add_zero x
  simp only [tfInject, subkey, noTweak]
  rw [show s % 5 = (s + 0) % 5 by rfl, h 0, h 1, h 2, h 3]
  norm_num [z, BitVec.add_assoc]

theorem inject2 (c : Cipher 2 w) (hm : TfMatch c) (k : Fin 2 → BitVec w) (s : Nat) (v : Fin 2 → BitVec w) :
    tfInject (tfKs [k 0, k 1]) s [v 0, v 1] =
      (let e := fun i => v i + subkey c.C k (noTweak w) s i; [e 0, e 1]) := by
  have h := fun i => tfKs2 c hm k ((s + i) % 3) (Nat.mod_lt _ (by decide))
  have z : ∀ x : BitVec w, x + 0 = x := fun x => BitVec.add_zero x
  simp only [tfInject, subkey, noTweak]
  rw [show s % 3 = (s + 0) % 3 by rfl, h 0, h 1]
  norm_num [z, BitVec.add_assoc]

/-- Two rounds of the specification, the first even, are two rounds of the code: the permutation of the words undoes
itself. -/
theorem two_rounds (c : Cipher 4 w) (hm : TfMatch c) (hp : c.perm = ![0, 3, 2, 1]) (d : Nat) (hd : d % 2 = 0)
    (e : Fin 4 → BitVec w) :
    tfRound (d + 1) (tfRound d [e 0, e 1, e 2, e 3]) =
      (let v := fun i => mixAll c (d + 1) (fun i => mixAll c d e (c.perm i)) (c.perm i); [v 0, v 1, v 2, v 3]) := by
  have r0 : ∀ d x, tfRotl x ((tfRotTable 4 w).getD (d % 8) (0, 0)).1 = x.rotateLeft (c.R (d % 8) 0) := fun d x => by
    have h := hm.pos0 (d % 8) (Nat.mod_lt _ (by decide))
    rw [← hm.h0 _ (Nat.mod_lt _ (by decide)), tfRotl_rotateLeft _ _ h.1 h.2]
  have r1 : ∀ d x, tfRotl x ((tfRotTable 4 w).getD (d % 8) (0, 0)).2 = x.rotateLeft (c.R (d % 8) 1) := fun d x => by
    have h := hm.pos1 rfl (d % 8) (Nat.mod_lt _ (by decide))
    rw [← hm.h1 rfl _ (Nat.mod_lt _ (by decide)), tfRotl_rotateLeft _ _ h.1 h.2]
  unfold tfRound
  have h1 : ¬(d + 1) % 2 = 0 := by omega
  simp only [hd, h1, if_true, if_false, tfMix, r0, r1, hp]
  rfl

theorem one_round2 (c : Cipher 2 w) (hm : TfMatch c) (hp : c.perm = ![0, 1]) (d : Nat) (e : Fin 2 → BitVec w) :
    tfRound d [e 0, e 1] = (let v := fun i => mixAll c d e (c.perm i); [v 0, v 1]) := by
  have r0 : ∀ d x, tfRotl x ((tfRotTable 2 w).getD (d % 8) (0, 0)).1 = x.rotateLeft (c.R (d % 8) 0) := fun d x => by
    have h := hm.pos0 (d % 8) (Nat.mod_lt _ (by decide))
    rw [← hm.h0 _ (Nat.mod_lt _ (by decide)), tfRotl_rotateLeft _ _ h.1 h.2]
  unfold tfRound
  simp only [tfMix, r0, hp]
  rfl

theorem state_mid {N : Nat} (c : Cipher N w) (k : Fin N → BitVec w) (t : Nat → BitVec w) (p : Fin N → BitVec w) (d : Nat)
    (h : ¬d % 4 = 0) : state c k t p (d + 1) = fun i => mixAll c d (state c k t p d) (c.perm i) := by
  rw [state, Threefish.round]
  simp only [h, if_false]

theorem state_first {N : Nat} (c : Cipher N w) (k : Fin N → BitVec w) (t : Nat → BitVec w) (p : Fin N → BitVec w) (m : Nat) :
    state c k t p (4 * m + 1) = fun i => mixAll c (4 * m) (encrypt c k t (4 * m) p) (c.perm i) := by
  rw [state, Threefish.round]
  simp only [Nat.mul_mod_right, if_true]
  rfl

/-- The block function of the code with four words, for every multiple of four rounds. -/
theorem threefry4_spec (c : Cipher 4 w) (hm : TfMatch c) (hp : c.perm = ![0, 3, 2, 1]) (k p : Fin 4 → BitVec w) (m : Nat) :
    threefryR [k 0, k 1, k 2, k 3] (4 * m) [p 0, p 1, p 2, p 3] =
      (let e := encrypt c k (noTweak w) (4 * m) p; [e 0, e 1, e 2, e 3]) := by
  induction m with
  | zero => exact inject4 c hm k 0 p
  | succ m ih =>
    have e4 : (4 * m + 3 + 1) % 4 = 0 := by omega
    have e3 : ¬(4 * m + 2 + 1) % 4 = 0 := by omega
    have e2 : ¬(4 * m + 1 + 1) % 4 = 0 := by omega
    have e1 : ¬(4 * m + 1) % 4 = 0 := by omega
    rw [show 4 * (m + 1) = 4 * m + 3 + 1 by omega, threefryR, threefryR, threefryR, threefryR, ih]
    simp only [e4, e3, e2, e1, if_true, if_false]
    rw [two_rounds c hm hp (4 * m) (by omega)]
    simp only []
    have s2 : (fun i => mixAll c (4 * m + 1) (fun i => mixAll c (4 * m) (encrypt c k (noTweak w) (4 * m) p) (c.perm i)) (c.perm i)) =
        state c k (noTweak w) p (4 * m + 2) := by
      rw [state_mid c k _ p (4 * m + 1) (by omega), state_first]
    rw [congrFun s2 0, congrFun s2 1, congrFun s2 2, congrFun s2 3, two_rounds c hm hp (4 * m + 2) (by omega)]
    have s4 : (fun i => mixAll c (4 * m + 2 + 1) (fun i => mixAll c (4 * m + 2) (state c k (noTweak w) p (4 * m + 2)) (c.perm i))
        (c.perm i)) = state c k (noTweak w) p (4 * m + 3 + 1) := by
      rw [state_mid c k _ p (4 * m + 3) (by omega), state_mid c k _ p (4 * m + 2) (by omega)]
    simp only []
    rw [congrFun s4 0, congrFun s4 1, congrFun s4 2, congrFun s4 3]
    exact inject4 c hm k _ _

/-- The same with two words. -/
theorem threefry2_spec (c : Cipher 2 w) (hm : TfMatch c) (hp : c.perm = ![0, 1]) (k p : Fin 2 → BitVec w) (m : Nat) :
    threefryR [k 0, k 1] (4 * m) [p 0, p 1] = (let e := encrypt c k (noTweak w) (4 * m) p; [e 0, e 1]) := by
  induction m with
  | zero => exact inject2 c hm k 0 p
  | succ m ih =>
    have e4 : (4 * m + 3 + 1) % 4 = 0 := by omega
    have e3 : ¬(4 * m + 2 + 1) % 4 = 0 := by omega
    have e2 : ¬(4 * m + 1 + 1) % 4 = 0 := by omega
    have e1 : ¬(4 * m + 1) % 4 = 0 := by omega
    rw [show 4 * (m + 1) = 4 * m + 3 + 1 by omega, threefryR, threefryR, threefryR, threefryR, ih]
    simp only [e4, e3, e2, e1, if_true, if_false]
    rw [one_round2 c hm hp (4 * m)]
    simp only []
    have s1 := (state_first c k (noTweak w) p m).symm
    rw [congrFun s1 0, congrFun s1 1, one_round2 c hm hp (4 * m + 1)]
    simp only []
    have s2 := (state_mid c k (noTweak w) p (4 * m + 1) (by omega)).symm
    rw [congrFun s2 0, congrFun s2 1, one_round2 c hm hp (4 * m + 1 + 1)]
    simp only []
    have s3 := (state_mid c k (noTweak w) p (4 * m + 1 + 1) (by omega)).symm
    rw [congrFun s3 0, congrFun s3 1, one_round2 c hm hp (4 * m + 3)]
    simp only []
    have s4 := (state_mid c k (noTweak w) p (4 * m + 3) (by omega)).symm
    rw [congrFun s4 0, congrFun s4 1]
    exact inject2 c hm k _ _

/-- The words of a number, least significant first. -/
def wordsOf (N w v : Nat) (i : Fin N) : BitVec w := BitVec.ofNat w (v / 2 ^ (w * i))

theorem toWords2 (v : Nat) : toWords w 2 v = [wordsOf 2 w v 0, wordsOf 2 w v 1] := by
  simp [toWords, wordsOf]

theorem toWords4 (v : Nat) : toWords w 4 v = [wordsOf 4 w v 0, wordsOf 4 w v 1, wordsOf 4 w v 2, wordsOf 4 w v 3] := by
  simp only [toWords, wordsOf, Nat.div_div_eq_div_mul, ← pow_add]
  simp only [Fin.val_zero, Nat.mul_zero, Nat.pow_zero, Nat.div_one, Fin.val_one, Nat.mul_one,
    show ((2 : Fin 4)).val = 2 from rfl, show ((3 : Fin 4)).val = 3 from rfl]
  rw [show w * 2 = w + w by omega, show w * 3 = w + w + w by omega]

theorem toWords1 (v : Nat) : toWords w 1 v = [wordsOf 1 w v 0] := by
  simp [toWords, wordsOf]

theorem getD_two (e : Fin 2 → BitVec w) (i : Nat) (hi : i < 2) : [e 0, e 1].getD i 0 = e ⟨i, hi⟩ := by
  interval_cases i <;> rfl

theorem getD_four (e : Fin 4 → BitVec w) (i : Nat) (hi : i < 4) : [e 0, e 1, e 2, e 3].getD i 0 = e ⟨i, hi⟩ := by
  interval_cases i <;> rfl

/-- Draw `n` after seeding, for any block function. -/
theorem cm_seed_draw {N : Nat} (V : Variant N w) (kN : Nat) (blk : List (BitVec w) → List (BitVec w) → List (BitVec w))
    (old : CtrGen w) (key counter n : Nat) :
    nthO (cmNext N blk) n (cmSeed N kN old key counter) =
      some ((blk (toWords w N (counter + 1 + n / N)) (toWords w kN key)).getD (n % N) 0) := by
  rw [cm_nth V blk _ _ _ (cmSeed_at V blk old key counter) n]
  have h : N * (counter + 1) + n = N * (counter + 1 + n / N) + n % N := by
    rw [Nat.mul_add N (counter + 1), Nat.add_assoc, Nat.div_add_mod]
  rw [h, cmWord_block V blk _ _ _ (Nat.mod_lt _ V.N_pos)]

/-- C87: `threefry4x64_R` with `4 m` rounds, at most 72, is Threefish-256 reduced to `4 m` rounds with the tweak zero; with
72 rounds it is Threefish-256. -/
theorem C87_threefish256 (m : Nat) (hm : m ≤ 18) (k p : Fin 4 → BitVec 64) :
    threefry4Code (4 * m) [p 0, p 1, p 2, p 3] [k 0, k 1, k 2, k 3] =
      (let e := encrypt threefish256 k (noTweak 64) (4 * m) p; [e 0, e 1, e 2, e 3]) := by
  rw [C87_threefry4_unrolled, Nat.min_eq_right (by omega), threefry4_spec _ match_4x64 rfl]

/-- Appendix of the Skein paper: Threefish-256 of zero under the zero key and tweak. -/
example : threefry4Code 72 [0#64, 0, 0, 0] [0, 0, 0, 0] =
    [0x94eeea8b1f2ada84, 0xadf103313eae6670, 0x952419a1f4b16d53, 0xd83f13e63c9f6b11] := by decide +kernel

/-- The vectors of Random123 for zero key and counter. -/
example : threefry [0#64, 0, 0, 0] [0, 0, 0, 0] =
      [0x09218ebde6c85537, 0x55941f5266d86105, 0x4bd25e16282434dc, 0xee29ec846bd2e40b] ∧
    threefry [0#64, 0] [0, 0] = [0xc2b6e3a8c2c69865, 0x6f81ed42f350084d] ∧
    threefry [0#32, 0, 0, 0] [0, 0, 0, 0] = [0x9c6ca96a, 0xe17eae66, 0xfc10ecd4, 0x5256a7d8] ∧
    threefry [0#32, 0] [0, 0] = [0x6b200159, 0x99ba4efe] ∧
    philox [0#64, 0, 0, 0] [0, 0] = [0x16554d9eca36314c, 0xdb20fe9d672d0fdc, 0xd7e772cee186176b, 0x7e68b68aec7ba23b] ∧
    philox [0#64, 0] [0] = [0xca00a0459843d731, 0x66c24222c9a845b5] ∧
    philox [0#32, 0, 0, 0] [0, 0] = [0x6627e8d5, 0xe169c58d, 0xbc57ac4c, 0x9b00dbd8] ∧
    philox [0#32, 0] [0] = [0xff1dae59, 0x6cd10df2] := by decide +kernel

/-- C87: draw `n` of ThreeFry 4x64 after `seed(key, counter)`: word `n mod 4` of Threefish-256 reduced to 20 rounds, of the
block number `counter + 1 + n / 4` (modulo `2^256`). -/
theorem C87_threefry4x64_stream (old : CtrGen 64) (key counter n : Nat) :
    nthO (threefryNext 4) n (cmSeed 4 4 old key counter) =
      some (encrypt threefish256 (wordsOf 4 64 key) (noTweak 64) 20 (wordsOf 4 64 (counter + 1 + n / 4))
        ⟨n % 4, Nat.mod_lt _ (by decide)⟩) := by
  rw [threefryNext, cm_seed_draw ⟨.inr rfl, .inr rfl⟩, threefry, toWords4, toWords4, threefry4_spec _ match_4x64 rfl _ _ 5]
  exact congrArg some (getD_four _ _ _)

/-- C87: the same for ThreeFry 4x32. -/
theorem C87_threefry4x32_stream (old : CtrGen 32) (key counter n : Nat) :
    nthO (threefryNext 4) n (cmSeed 4 4 old key counter) =
      some (encrypt threefry4x32 (wordsOf 4 32 key) (noTweak 32) 20 (wordsOf 4 32 (counter + 1 + n / 4))
        ⟨n % 4, Nat.mod_lt _ (by decide)⟩) := by
  rw [threefryNext, cm_seed_draw ⟨.inr rfl, .inl rfl⟩, threefry, toWords4, toWords4, threefry4_spec _ match_4x32 rfl _ _ 5]
  exact congrArg some (getD_four _ _ _)

/-- C87: the same for ThreeFry 2x64. -/
theorem C87_threefry2x64_stream (old : CtrGen 64) (key counter n : Nat) :
    nthO (threefryNext 2) n (cmSeed 2 2 old key counter) =
      some (encrypt threefry2x64 (wordsOf 2 64 key) (noTweak 64) 20 (wordsOf 2 64 (counter + 1 + n / 2))
        ⟨n % 2, Nat.mod_lt _ (by decide)⟩) := by
  rw [threefryNext, cm_seed_draw ⟨.inl rfl, .inr rfl⟩, threefry, toWords2, toWords2,
    threefry2_spec _ match_2x64 (by funext i; fin_cases i <;> rfl) _ _ 5]
  exact congrArg some (getD_two _ _ _)

/-- C87: the same for ThreeFry 2x32. -/
theorem C87_threefry2x32_stream (old : CtrGen 32) (key counter n : Nat) :
    nthO (threefryNext 2) n (cmSeed 2 2 old key counter) =
      some (encrypt threefry2x32 (wordsOf 2 32 key) (noTweak 32) 20 (wordsOf 2 32 (counter + 1 + n / 2))
        ⟨n % 2, Nat.mod_lt _ (by decide)⟩) := by
  rw [threefryNext, cm_seed_draw ⟨.inl rfl, .inl rfl⟩, threefry, toWords2, toWords2,
    threefry2_spec _ match_2x32 (by funext i; fin_cases i <;> rfl) _ _ 5]
  exact congrArg some (getD_two _ _ _)

/-! ## Philox -/

open PhiloxSpec

theorem sqrt_eq (n r : Nat) (h1 : r * r ≤ n) (h2 : n < (r + 1) * (r + 1)) : Nat.sqrt n = r :=
  (Nat.eq_sqrt.mpr ⟨h1, h2⟩).symm

theorem golden_64 : golden 64 = 0x9E3779B97F4A7C15 := by
  rw [golden, sqrt_eq _ (2 * 0x9E3779B97F4A7C15 + 2 ^ 64 + 1) (by norm_num) (by norm_num)]
  norm_num

theorem golden_32 : golden 32 = 0x9E3779B9 := by
  rw [golden, sqrt_eq _ (2 * 0x9E3779B9 + 2 ^ 32 + 0) (by norm_num) (by norm_num)]
  norm_num

theorem root3_64 : root3 64 = 0xBB67AE8584CAA73B := by
  rw [root3, sqrt_eq _ (0xBB67AE8584CAA73B + 2 ^ 64) (by norm_num) (by norm_num)]
  norm_num

theorem root3_32 : root3 32 = 0xBB67AE85 := by
  rw [root3, sqrt_eq _ (0xBB67AE85 + 2 ^ 32) (by norm_num) (by norm_num)]
  norm_num

/-- C87: the Weyl constants of the code are the golden ratio and the square root of 3, scaled to the word. -/
theorem C87_weyl (hw : w = 32 ∨ w = 64) :
    philoxW0 w = BitVec.ofNat w (golden w) ∧ philoxW1 w = BitVec.ofNat w (root3 w) := by
  rcases hw with rfl | rfl
  · rw [golden_32, root3_32]; exact ⟨rfl, rfl⟩
  · rw [golden_64, root3_64]; exact ⟨rfl, rfl⟩

theorem mulhilo_spec (M : Nat) (hM : M < 2 ^ w) (x : BitVec w) : mulhilo (BitVec.ofNat w M) x = (mulHi M x, mulLo M x) := by
  have hx := x.isLt
  have hp : M * x.toNat < 2 ^ (2 * w) := by
    rw [show 2 * w = w + w by omega, pow_add]
    exact Nat.mul_lt_mul'' hM hx
  have e : ((BitVec.ofNat w M).zeroExtend (2 * w) * x.zeroExtend (2 * w)).toNat = M * x.toNat := by
    rw [BitVec.toNat_mul, BitVec.toNat_setWidth, BitVec.toNat_setWidth, BitVec.toNat_ofNat, Nat.mod_eq_of_lt hM,
      Nat.mod_eq_of_lt (lt_of_lt_of_le hM (Nat.pow_le_pow_right (by decide) (by omega))),
      Nat.mod_eq_of_lt (lt_of_lt_of_le hx (Nat.pow_le_pow_right (by decide) (by omega))), Nat.mod_eq_of_lt hp]
  unfold mulhilo
  refine Prod.ext ?_ ?_
  · apply BitVec.eq_of_toNat_eq
    simp only [mulHi]
    rw [BitVec.toNat_setWidth, BitVec.toNat_ushiftRight, e, BitVec.toNat_ofNat, Nat.shiftRight_eq_div_pow]
  · apply BitVec.eq_of_toNat_eq
    simp only [mulLo]
    rw [BitVec.toNat_setWidth, e, BitVec.toNat_ofNat]

theorem ofNat_mul_succ (n W : Nat) : BitVec.ofNat w (n * W) + BitVec.ofNat w W = BitVec.ofNat w ((n + 1) * W) := by
  rw [← BitVec.ofNat_add, Nat.succ_mul]

theorem bump1 (hw : w = 32 ∨ w = 64) (k : BitVec w) (n : Nat) :
    philoxBump^[n] [k] = [k + BitVec.ofNat w (n * golden w)] := by
  induction n with
  | zero => rw [Nat.zero_mul, BitVec.add_zero]; rfl
  | succ n ih =>
    rw [Function.iterate_succ_apply', ih, philoxBump, (C87_weyl hw).1, BitVec.add_assoc, ofNat_mul_succ]

theorem bump2 (hw : w = 32 ∨ w = 64) (k0 k1 : BitVec w) (n : Nat) :
    philoxBump^[n] [k0, k1] = [k0 + BitVec.ofNat w (n * golden w), k1 + BitVec.ofNat w (n * root3 w)] := by
  induction n with
  | zero => rw [Nat.zero_mul, Nat.zero_mul, BitVec.add_zero, BitVec.add_zero]; rfl
  | succ n ih =>
    rw [Function.iterate_succ_apply', ih, philoxBump, (C87_weyl hw).1, (C87_weyl hw).2, BitVec.add_assoc, BitVec.add_assoc,
      ofNat_mul_succ, ofNat_mul_succ]

theorem philox2_spec (hw : w = 32 ∨ w = 64) (k : BitVec w) (p : Fin 2 → BitVec w) (n : Nat) :
    philoxR n [p 0, p 1] [k] = (let e := iter (round2 (mult2 w) k) n p; [e 0, e 1]) := by
  induction n with
  | zero => rfl
  | succ n ih =>
    have hM : mult2 w < 2 ^ w := by rcases hw with rfl | rfl <;> decide
    have h0 : philoxM0 2 w = BitVec.ofNat w (mult2 w) := by rcases hw with rfl | rfl <;> rfl
    rw [philoxR_succ, ih, bump1 hw]
    simp only [philoxRound]
    rw [h0, mulhilo_spec _ hM]
    rfl

theorem philox4_spec (hw : w = 32 ∨ w = 64) (k : Fin 2 → BitVec w) (p : Fin 4 → BitVec w) (n : Nat) :
    philoxR n [p 0, p 1, p 2, p 3] [k 0, k 1] =
      (let e := iter (round4 (mult4 w).1 (mult4 w).2 k) n p; [e 0, e 1, e 2, e 3]) := by
  induction n with
  | zero => rfl
  | succ n ih =>
    have hM0 : (mult4 w).1 < 2 ^ w := by rcases hw with rfl | rfl <;> decide
    have hM1 : (mult4 w).2 < 2 ^ w := by rcases hw with rfl | rfl <;> decide
    have h0 : philoxM0 4 w = BitVec.ofNat w (mult4 w).1 := by rcases hw with rfl | rfl <;> rfl
    have h1 : philoxM1 w = BitVec.ofNat w (mult4 w).2 := by rcases hw with rfl | rfl <;> rfl
    rw [philoxR_succ, ih, bump2 hw]
    simp only [philoxRound]
    rw [h0, h1, mulhilo_spec _ hM0, mulhilo_spec _ hM1]
    simp only [iter, round4, BitVec.xor_assoc, BitVec.xor_comm (_ + _)]
    rfl

/-- C87: draw `n` of Philox 4xW after `seed(key, counter)`: word `n mod 4` of ten rounds of Philox-4xW of the block number
`counter + 1 + n / 4` (modulo `2^(4 W)`). -/
theorem C87_philox4_stream (hw : w = 32 ∨ w = 64) (old : CtrGen w) (key counter n : Nat) :
    nthO (philoxNext 4) n (cmSeed 4 2 old key counter) =
      some (iter (round4 (mult4 w).1 (mult4 w).2 (wordsOf 2 w key)) 10 (wordsOf 4 w (counter + 1 + n / 4))
        ⟨n % 4, Nat.mod_lt _ (by decide)⟩) := by
  rw [philoxNext, cm_seed_draw ⟨.inr rfl, hw⟩, philox, toWords4, toWords2, philox4_spec hw]
  exact congrArg some (getD_four _ _ _)

/-- C87: the same for Philox 2xW. -/
theorem C87_philox2_stream (hw : w = 32 ∨ w = 64) (old : CtrGen w) (key counter n : Nat) :
    nthO (philoxNext 2) n (cmSeed 2 1 old key counter) =
      some (iter (round2 (mult2 w) (BitVec.ofNat w key)) 10 (wordsOf 2 w (counter + 1 + n / 2))
        ⟨n % 2, Nat.mod_lt _ (by decide)⟩) := by
  rw [philoxNext, cm_seed_draw ⟨.inl rfl, hw⟩, philox, toWords2, toWords, toWords, philox2_spec hw]
  exact congrArg some (getD_two _ _ _)

/-- The hypotheses of `C87_threefish256` and `C87_philox4_stream` are met by the full Threefish and by 64-bit words. -/
example : 18 ≤ 18 ∧ (64 = 32 ∨ 64 = 64) := by decide

end Verif
