import Verif.Model.CtrMode
import Verif.Props.Ints
import Verif.Common.BitInj
import Mathlib.Tactic.Ring
import Mathlib.Tactic.LinearCombination

/-! Positions of the counter-mode generators. -/

namespace Verif

/-- The number a word list stands for. -/
def wval {w : Nat} : List (BitVec w) → Nat
  | [] => 0
  | c :: cs => c.toNat + 2 ^ w * wval cs

theorem wval_lt {w : Nat} (l : List (BitVec w)) : wval l < 2 ^ (w * l.length) := by
  induction l with
  | nil => simp [wval]
  | cons c cs ih =>
    rw [wval, List.length_cons, Nat.mul_succ, Nat.pow_add, Nat.mul_comm (2 ^ (w * cs.length))]
    have := c.isLt
    calc c.toNat + 2 ^ w * wval cs < 2 ^ w + 2 ^ w * wval cs := by omega
      _ = 2 ^ w * (wval cs + 1) := by ring
      _ ≤ 2 ^ w * 2 ^ (w * cs.length) := Nat.mul_le_mul_left _ ih

theorem toWords_length (w n v : Nat) : (toWords w n v).length = n := by
  induction n generalizing v with
  | zero => rfl
  | succ n ih => rw [toWords, List.length_cons, ih]

theorem wval_toWords (w n v : Nat) : wval (toWords w n v) = v % 2 ^ (w * n) := by
  induction n generalizing v with
  | zero => simp [toWords, wval, Nat.mod_one]
  | succ n ih =>
    rw [toWords, wval, ih, BitVec.toNat_ofNat, Nat.mul_succ, Nat.add_comm (w * n), Nat.pow_add, Nat.mod_mul]

theorem toWords_wval {w : Nat} (l : List (BitVec w)) : toWords w l.length (wval l) = l := by
  induction l with
  | nil => rfl
  | cons c cs ih =>
    have hp : 0 < 2 ^ w := Nat.two_pow_pos w
    have hd : (c.toNat + 2 ^ w * wval cs) / 2 ^ w = wval cs := by
      rw [Nat.add_mul_div_left _ _ hp, Nat.div_eq_of_lt c.isLt, Nat.zero_add]
    rw [List.length_cons, toWords, wval, hd, ih]
    congr 1
    apply BitVec.eq_of_toNat_eq
    rw [BitVec.toNat_ofNat, Nat.add_mul_mod_self_left, Nat.mod_eq_of_lt c.isLt]

theorem wval_inj {w : Nat} {l m : List (BitVec w)} (hl : l.length = m.length) (h : wval l = wval m) : l = m := by
  rw [← toWords_wval l, ← toWords_wval m, hl, h]

theorem ctrIncr_length {w : Nat} (l : List (BitVec w)) : (ctrIncr l).length = l.length := by
  induction l with
  | nil => rfl
  | cons c cs ih => rw [ctrIncr]; split <;> simp [ih]

theorem wval_ctrIncr {w : Nat} (hw : 0 < w) (l : List (BitVec w)) : wval (ctrIncr l) = (wval l + 1) % 2 ^ (w * l.length) := by
  induction l with
  | nil => simp [ctrIncr, wval]
  | cons c cs ih =>
    have hp : 1 < 2 ^ w := Nat.one_lt_two_pow (by omega)
    have hc := c.isLt
    have h1 : (c + 1).toNat = (c.toNat + 1) % 2 ^ w := by
      rw [BitVec.toNat_add]; congr 2; exact Nat.mod_eq_of_lt hp
    rw [ctrIncr, List.length_cons, Nat.mul_succ, Nat.add_comm (w * cs.length), Nat.pow_add]
    by_cases h : c + 1 = 0
    · rw [if_pos h, wval, wval, ih, h]
      have h2 : (c.toNat + 1) % 2 ^ w = 0 := by rw [← h1, h]; rfl
      have h3 : c.toNat + 1 = 2 ^ w := by
        by_contra hne
        rw [Nat.mod_eq_of_lt (by omega)] at h2; omega
      have e : c.toNat + 2 ^ w * wval cs + 1 = 2 ^ w * (wval cs + 1) := by rw [Nat.mul_succ]; omega
      rw [e, Nat.mul_mod_mul_left]
      simp
    · rw [if_neg h, wval, wval, h1]
      have h3 : c.toNat + 1 < 2 ^ w := by
        by_contra hge
        have : c.toNat + 1 = 2 ^ w := by omega
        apply h
        apply BitVec.eq_of_toNat_eq
        rw [h1, this, Nat.mod_self]; rfl
      rw [Nat.mod_eq_of_lt h3, Nat.mod_eq_of_lt]
      · ring
      · have := wval_lt cs
        calc c.toNat + 2 ^ w * wval cs + 1 < 2 ^ w + 2 ^ w * wval cs := by omega
          _ = 2 ^ w * (wval cs + 1) := by ring
          _ ≤ 2 ^ w * 2 ^ (w * cs.length) := Nat.mul_le_mul_left _ this

/-! ### The advance loop -/

/-- The variants: `N` words of `w` bits. -/
structure Variant (N w : Nat) : Prop where
  hN : N = 2 ∨ N = 4
  hw : w = 32 ∨ w = 64

namespace Variant
variable {N w : Nat} (V : Variant N w)
include V

theorem N_pos : 0 < N := by rcases V.hN with h | h <;> omega
theorem w_pos : 0 < w := by rcases V.hw with h | h <;> omega

/-- `N` divides `2^w`: the quotient is the shift used in the code. -/
theorem pow_eq : 2 ^ w = N * 2 ^ (w - N / 2) := by
  rcases V.hN with rfl | rfl <;> rcases V.hw with rfl | rfl <;> rfl

theorem N_lt : N < 2 ^ w := by
  rcases V.hN with rfl | rfl <;> rcases V.hw with rfl | rfl <;> norm_num

end Variant

theorem ofNat_N {N w : Nat} (V : Variant N w) : (BitVec.ofNat w N).toNat = N := by
  rw [BitVec.toNat_ofNat, Nat.mod_eq_of_lt V.N_lt]

theorem toNat_shl_rem {N w : Nat} (V : Variant N w) (x : BitVec w) :
    ((x % BitVec.ofNat w N) <<< (w - N / 2)).toNat = x.toNat % N * 2 ^ (w - N / 2) := by
  rw [BitVec.toNat_shiftLeft, BitVec.toNat_umod, ofNat_N V, Nat.shiftLeft_eq, Nat.mod_eq_of_lt]
  rw [V.pow_eq]
  exact Nat.mul_lt_mul_of_pos_right (Nat.mod_lt _ V.N_pos) (Nat.two_pow_pos _)

/-- The adjusted step words: division of the step by `N`. -/
theorem adj_val {N w : Nat} (V : Variant N w) (s : BitVec w) (v : Nat) (y : BitVec w) (hy : y.toNat % N = v % N) :
    (s / BitVec.ofNat w N + ((y % BitVec.ofNat w N) <<< (w - N / 2))).toNat = (s.toNat + 2 ^ w * v) / N % 2 ^ w := by
  have hp := V.pow_eq
  have hs := s.isLt
  have h1 : (s.toNat + 2 ^ w * v) / N = s.toNat / N + 2 ^ (w - N / 2) * v := by
    rw [hp, Nat.mul_assoc, Nat.add_mul_div_left _ _ V.N_pos]
  have hlt : s.toNat / N + v % N * 2 ^ (w - N / 2) < 2 ^ w := by
    have ha : s.toNat / N < 2 ^ (w - N / 2) := by
      apply Nat.div_lt_of_lt_mul; rw [← hp]; exact hs
    have hb : v % N + 1 ≤ N := Nat.mod_lt _ V.N_pos
    calc s.toNat / N + v % N * 2 ^ (w - N / 2) < 2 ^ (w - N / 2) + v % N * 2 ^ (w - N / 2) := by omega
      _ = (v % N + 1) * 2 ^ (w - N / 2) := by ring
      _ ≤ N * 2 ^ (w - N / 2) := Nat.mul_le_mul_right _ hb
      _ = 2 ^ w := hp.symm
  have h2 : s.toNat / N + 2 ^ (w - N / 2) * v = s.toNat / N + v % N * 2 ^ (w - N / 2) + 2 ^ w * (v / N) := by
    conv_lhs => rw [← Nat.div_add_mod v N]
    rw [hp]; ring
  rw [BitVec.toNat_add, toNat_shl_rem V, BitVec.toNat_udiv, ofNat_N V, hy, h1, h2, Nat.add_mul_mod_self_left]

/-- One word of the addition with carry, as the code does it. -/
theorem carry_step {w : Nat} (hw : 0 < w) (c adj carry : BitVec w) (hc : carry.toNat ≤ 1) :
    (c + (adj + carry)).toNat + 2 ^ w * (if c + (adj + carry) < c ∨ (adj + carry = 0 ∧ 0 < adj) then 1 else 0) =
      c.toNat + adj.toNat + carry.toNat := by
  have h1 := c.isLt
  have h2 := adj.isLt
  have hp : 1 < 2 ^ w := Nat.one_lt_two_pow (by omega)
  have hz : ∀ x : BitVec w, x = 0 ↔ x.toNat = 0 := fun x =>
    ⟨fun h => by rw [h]; rfl, fun h => BitVec.eq_of_toNat_eq (by rw [h]; rfl)⟩
  have h0 : (0 : BitVec w).toNat = 0 := rfl
  simp only [BitVec.lt_def, hz, BitVec.toNat_add, h0]
  generalize 2 ^ w = m at *
  generalize c.toNat = x at *
  generalize adj.toNat = y at *
  generalize carry.toNat = z at *
  have e1 : (y + z) % m = if y + z = m then 0 else y + z := by
    split
    · rename_i h; rw [h, Nat.mod_self]
    · rw [Nat.mod_eq_of_lt (by omega)]
  rw [e1]
  by_cases hyz : y + z = m
  · rw [if_pos hyz, Nat.add_zero, Nat.mod_eq_of_lt h1, if_pos (by omega)]; omega
  · rw [if_neg hyz]
    by_cases hov : x + (y + z) < m
    · rw [Nat.mod_eq_of_lt hov, if_neg (by omega)]; omega
    · have : (x + (y + z)) % m = x + (y + z) - m := by
        rw [Nat.mod_eq_sub_mod (by omega), Nat.mod_eq_of_lt (by omega)]
      rw [this, if_pos (by omega)]; omega

theorem cmAdvLoop_length {N w : Nat} (step ctr : List (BitVec w)) (carry : BitVec w) :
    (cmAdvLoop N step ctr carry).length = ctr.length := by
  induction ctr generalizing step carry with
  | nil => cases step <;> rfl
  | cons c cs ih =>
    cases step with
    | nil => rfl
    | cons s ss => rw [cmAdvLoop, List.length_cons, List.length_cons, ih]

theorem wval_mod_N {N w : Nat} (V : Variant N w) (x : BitVec w) (xs : List (BitVec w)) :
    x.toNat % N = wval (x :: xs) % N := by
  rw [wval, V.pow_eq, Nat.mul_assoc, Nat.add_mul_mod_self_left]

/-- The loop adds the step divided by `N`, and the carry. The step words beyond the counter are not used. -/
theorem wval_cmAdvLoop {N w : Nat} (V : Variant N w) (step ctr : List (BitVec w)) (carry : BitVec w)
    (hc : carry.toNat ≤ 1) (hl : ctr.length ≤ step.length) :
    wval (cmAdvLoop N step ctr carry) =
      (wval ctr + wval (step.take ctr.length) / N + carry.toNat) % 2 ^ (w * ctr.length) := by
  induction ctr generalizing step carry with
  | nil => cases step <;> simp [cmAdvLoop, wval, Nat.mod_one]
  | cons c cs ih =>
    cases step with
    | nil => simp at hl
    | cons s ss =>
      have hl' : cs.length ≤ ss.length := by simpa using hl
      have hp : 0 < 2 ^ w := Nat.two_pow_pos w
      -- the adjusted step word
      have hadj : (s / BitVec.ofNat w N + (if cs = [] then 0 else (ss.headD 0 % BitVec.ofNat w N) <<< (w - N / 2))).toNat =
          (s.toNat + 2 ^ w * wval (ss.take cs.length)) / N % 2 ^ w := by
        by_cases hcs : cs = []
        · subst hcs
          have : s.toNat / N < 2 ^ w := lt_of_le_of_lt (Nat.div_le_self _ _) s.isLt
          simp only [if_true, BitVec.add_zero, BitVec.toNat_udiv, ofNat_N V, List.length_nil, List.take_zero, wval,
            Nat.mul_zero, Nat.add_zero, BitVec.ofNat_eq_ofNat, Nat.mod_eq_of_lt this]
        · rw [if_neg hcs]
          apply adj_val V
          cases cs with
          | nil => exact absurd rfl hcs
          | cons _ _ =>
            cases ss with
            | nil => simp at hl'
            | cons y ys => exact wval_mod_N V y _
      rw [cmAdvLoop]
      set adj := s / BitVec.ofNat w N + (if cs = [] then 0 else (ss.headD 0 % BitVec.ofNat w N) <<< (w - N / 2)) with hadjdef
      have hstep := carry_step V.w_pos c adj carry hc
      set b := (if c + (adj + carry) < c ∨ (adj + carry = 0 ∧ 0 < adj) then 1 else 0 : Nat) with hb
      have hb1 : b ≤ 1 := by rw [hb]; split <;> omega
      have hcv : ((if c + (adj + carry) < c ∨ (adj + carry = 0 ∧ 0 < adj) then 1 else 0 : BitVec w)).toNat = b := by
        rw [hb]
        split
        · exact Nat.mod_eq_of_lt (Nat.one_lt_two_pow (by have := V.w_pos; omega))
        · rfl
      show (c + (adj + carry)).toNat + 2 ^ w * wval (cmAdvLoop N ss cs _) = _
      rw [ih ss _ (by rw [hcv]; exact hb1) hl', hcv, List.length_cons, List.take_succ_cons, wval, wval, Nat.mul_succ,
        Nat.add_comm (w * cs.length), Nat.pow_add]
      set V' := wval (ss.take cs.length) with hV'
      -- (s + 2^w V')/N = adj + 2^w (V'/N)
      have hdiv : (s.toNat + 2 ^ w * V') / N = adj.toNat + 2 ^ w * (V' / N) := by
        rw [hadj]
        have e1 : (s.toNat + 2 ^ w * V') / N / 2 ^ w = V' / N := by
          rw [Nat.div_div_eq_div_mul, Nat.mul_comm N, ← Nat.div_div_eq_div_mul, Nat.add_mul_div_left _ _ hp,
            Nat.div_eq_of_lt s.isLt, Nat.zero_add]
        have := Nat.div_add_mod ((s.toNat + 2 ^ w * V') / N) (2 ^ w)
        rw [e1] at this; omega
      rw [hdiv]
      have e2 : c.toNat + 2 ^ w * wval cs + (adj.toNat + 2 ^ w * (V' / N)) + carry.toNat =
          (c + (adj + carry)).toNat + 2 ^ w * (wval cs + V' / N + b) := by
        rw [Nat.mul_add, Nat.mul_add]; omega
      rw [e2, Nat.mod_mul, Nat.add_mul_mod_self_left, Nat.mod_eq_of_lt (c + (adj + carry)).isLt,
        Nat.add_mul_div_left _ _ hp, Nat.div_eq_of_lt (c + (adj + carry)).isLt, Nat.zero_add]

/-! ### Positions -/

/-- Number of words before the stream repeats. -/
def cmPeriod (N w : Nat) : Nat := N * 2 ^ (w * N)

theorem cmPeriod_pos {N w : Nat} (V : Variant N w) : 0 < cmPeriod N w := Nat.mul_pos V.N_pos (Nat.two_pow_pos _)

/-- The word at position `p`: word `p mod N` of the block of counter `p / N`. -/
def cmWord {w : Nat} (N : Nat) (blk : List (BitVec w) → List (BitVec w) → List (BitVec w)) (key : List (BitVec w))
    (p : Nat) : BitVec w := (blk (toWords w N (p / N)) key).getD (p % N) 0

theorem toWords_mod (w n v : Nat) : toWords w n (v % 2 ^ (w * n)) = toWords w n v := by
  apply wval_inj
  · rw [toWords_length, toWords_length]
  · rw [wval_toWords, wval_toWords, Nat.mod_mod]

theorem cmWord_congr {w N : Nat} (blk : List (BitVec w) → List (BitVec w) → List (BitVec w))
    (key : List (BitVec w)) {p q : Nat} (h : p ≡ q [MOD cmPeriod N w]) : cmWord N blk key p = cmWord N blk key q := by
  have key' : ∀ p, cmWord N blk key p = cmWord N blk key (p % cmPeriod N w) := by
    intro p
    unfold cmWord cmPeriod
    rw [Nat.mod_mul_right_mod, Nat.mod_mul_right_div_self, toWords_mod]
  rw [key' p, key' q, h]

/-- The state is at position `p` of the stream of `key`: the next word drawn is word `p`. -/
def CmAt {w : Nat} (N : Nat) (blk : List (BitVec w) → List (BitVec w) → List (BitVec w)) (key : List (BitVec w))
    (s : CtrGen w) (p : Nat) : Prop :=
  s.ctr.length = N ∧ s.key = key ∧ ∃ pos : Nat, s.pos = pos ∧
    (∀ j, pos ≤ j → j < N → s.buf j = (blk s.ctr key).getD j 0) ∧
    p ≡ N * wval s.ctr + min pos N [MOD cmPeriod N w]

section
variable {w N : Nat} (V : Variant N w) (blk : List (BitVec w) → List (BitVec w) → List (BitVec w)) (key : List (BitVec w))
include V

theorem cmWord_of_ctr (c : List (BitVec w)) (hc : c.length = N) (j : Nat) (hj : j < N) :
    cmWord N blk key (N * wval c + j) = (blk c key).getD j 0 := by
  rw [cmWord, Nat.mul_add_mod, Nat.mod_eq_of_lt hj, Nat.mul_add_div V.N_pos, Nat.div_eq_of_lt hj, Nat.add_zero,
    ← hc, toWords_wval]

theorem incr_pos (c : List (BitVec w)) (hc : c.length = N) (j : Nat) :
    N * wval (ctrIncr c) + j ≡ N * wval c + N + j [MOD cmPeriod N w] := by
  apply Nat.ModEq.add_right
  rw [wval_ctrIncr V.w_pos, hc, show N * wval c + N = N * (wval c + 1) by ring]
  exact Nat.ModEq.mul_left' N (Nat.mod_modEq _ _)

theorem cmNext_at (s : CtrGen w) (p : Nat) (h : CmAt N blk key s p) :
    ∃ s', cmNext N blk s = some (cmWord N blk key p, s') ∧ CmAt N blk key s' (p + 1) ∧
      s'.has = s.has ∧ s'.uinteger = s.uinteger := by
  obtain ⟨hl, rfl, pos, hpos, hbuf, hp⟩ := h
  have hk : s.key = s.key := rfl
  by_cases hlt : s.pos < N
  · have hlt' : pos < N := by omega
    rw [Nat.min_eq_left hlt'.le] at hp
    refine ⟨{ s with pos := s.pos + 1 }, ?_, ⟨hl, hk, pos + 1, ?_, ?_, ?_⟩, rfl, rfl⟩
    · rw [cmNext, if_pos hlt, if_pos (by omega), cmWord_congr blk s.key hp, cmWord_of_ctr V blk s.key _ hl pos hlt',
        ← hbuf pos le_rfl hlt', hpos, Int.toNat_natCast]
    · show s.pos + 1 = _
      rw [hpos]; push_cast; rfl
    · exact fun j h1 h2 => hbuf j (by omega) h2
    · rw [Nat.min_eq_left hlt']
      exact hp.add_right 1
  · have hge : N ≤ pos := by omega
    rw [Nat.min_eq_right hge] at hp
    have hl' : (ctrIncr s.ctr).length = N := by rw [ctrIncr_length, hl]
    have hN : 1 < N := by rcases V.hN with h | h <;> omega
    have hinc : ∀ j, p + j ≡ N * wval (ctrIncr s.ctr) + j [MOD cmPeriod N w] := fun j =>
      (hp.add_right j).trans (incr_pos V s.ctr hl j).symm
    refine ⟨{ s with
      ctr := ctrIncr s.ctr
      buf := fun i => if 1 ≤ i ∧ i < N then (blk (ctrIncr s.ctr) s.key).getD i 0 else s.buf i
      pos := 1 }, ?_, ⟨hl', hk, 1, rfl, ?_, ?_⟩, rfl, rfl⟩
    · have e0 := (cmWord_congr blk s.key (hinc 0)).trans (cmWord_of_ctr V blk s.key _ hl' 0 V.N_pos)
      rw [Nat.add_zero] at e0
      rw [cmNext, if_neg hlt, e0]
    · intro j h1 h2
      show (if 1 ≤ j ∧ j < N then _ else _) = _
      rw [if_pos ⟨h1, h2⟩]
    · rw [Nat.min_eq_left hN.le]
      exact hinc 1

/-- The number of draws that the C function really skips. -/
def cmSkip (N w : Nat) (delta : Int) : Nat := (delta % 2 ^ (N * w + N / 2)).toNat % 2 ^ (w * N)

omit V in
theorem wval_ofDigits (ws : List Nat) (h : ∀ x ∈ ws, x < 2 ^ w) :
    wval (ws.map (BitVec.ofNat w)) = Nat.ofDigits (2 ^ w) ws := by
  induction ws with
  | nil => rfl
  | cons a l ih =>
    rw [List.map_cons, wval, ih (fun x hx => h x (List.mem_cons_of_mem _ hx)), Nat.ofDigits_cons, BitVec.toNat_ofNat,
      Nat.mod_eq_of_lt (h a (by simp))]

omit V in
theorem wval_take (l : List (BitVec w)) (n : Nat) (hn : n ≤ l.length) : wval (l.take n) = wval l % 2 ^ (w * n) := by
  induction n generalizing l with
  | zero => simp [wval, Nat.mod_one]
  | succ n ih =>
    cases l with
    | nil => simp at hn
    | cons c cs =>
      rw [List.take_succ_cons, wval, wval, ih cs (by simpa using hn), Nat.mul_succ, Nat.add_comm (w * n), Nat.pow_add,
        Nat.mod_mul, Nat.add_mul_mod_self_left, Nat.mod_eq_of_lt c.isLt, Nat.add_mul_div_left _ _ (Nat.two_pow_pos w),
        Nat.div_eq_of_lt c.isLt, Nat.zero_add]

/-- The words handed to C. -/
theorem step_words (delta : Int) : ∃ ws, Ints.intToArray (.int (Ints.wrapInt delta (N * w + N / 2))) ((N + 1) * w) w = .ok ws ∧
    ws.length = N + 1 ∧ wval (ws.map (BitVec.ofNat w)) = (delta % 2 ^ (N * w + N / 2)).toNat := by
  obtain ⟨h1, h2, h3⟩ := Ints.C01_wrap_int_range_congruent delta (N * w + N / 2)
  have hwrap : Ints.wrapInt delta (N * w + N / 2) = delta % 2 ^ (N * w + N / 2) := by
    rw [← Int.emod_eq_of_lt h1 h2]; exact h3
  have hle : (2 : Int) ^ (N * w + N / 2) ≤ 2 ^ (w * (N + 1)) := by
    apply pow_le_pow_right₀ (by norm_num)
    rcases V.hN with rfl | rfl <;> rcases V.hw with rfl | rfl <;> norm_num
  obtain ⟨ws, hok, hlen, hlt, hval⟩ := Ints.C02_int_to_array_value _ w (N + 1) V.hw h1 (lt_of_lt_of_le h2 hle)
  refine ⟨ws, by rw [Nat.mul_comm (N + 1)]; exact hok, hlen, ?_⟩
  rw [wval_ofDigits ws hlt, ← hwrap, ← hval, Int.toNat_natCast]

/-- `advance` in C with `use_carry`, from a state whose buffer position is at most `N`. -/
theorem cmAdvance_at (s : CtrGen w) (p : Nat) (h : CmAt N blk key s p) (hpos : s.pos ≤ N) (step : List (BitVec w))
    (hstep : step.length = N + 1) :
    CmAt N blk key (cmAdvance N blk s step true) (p + wval step % 2 ^ (w * N)) := by
  obtain ⟨hl, hk, pos, hp0, hbuf, hp⟩ := h
  have hle : pos ≤ N := by omega
  rw [Nat.min_eq_left hle] at hp
  cases step with
  | nil => simp at hstep
  | cons y ys =>
  have hD : wval (List.take N (y :: ys)) = wval (y :: ys) % 2 ^ (w * N) := wval_take _ _ (by rw [hstep]; omega)
  set D := wval (y :: ys) % 2 ^ (w * N) with hDdef
  set rem := y.toNat % N with hrem
  have hremlt : rem < N := Nat.mod_lt _ V.N_pos
  have hDrem : D % N = rem := by
    have hdvd : N ∣ 2 ^ (w * N) := by
      have h1 : N ∣ 2 ^ w := ⟨_, V.pow_eq⟩
      exact h1.trans (pow_dvd_pow 2 (Nat.le_mul_of_pos_right w V.N_pos))
    rw [hDdef, Nat.mod_mod_of_dvd _ hdvd, ← wval_mod_N V]
  have hremv : ((y :: ys).headD 0 % BitVec.ofNat w N).toNat = rem := by
    rw [List.headD_cons, BitVec.toNat_umod, ofNat_N V]
  set cy : BitVec w := if ((s.pos = N ∧ rem = 0) ∨ (pos + rem ≥ N ∧ rem > 0)) ∧ true = true then 1 else 0 with hcy
  have hone : (1 : BitVec w).toNat = 1 := Nat.mod_eq_of_lt (Nat.one_lt_two_pow (by have := V.w_pos; omega))
  have hcyv : cy.toNat = (pos + rem) / N := by
    rw [hcy]
    by_cases hge : N ≤ pos + rem
    · have hdiv : (pos + rem) / N = 1 := by
        have h1 : (pos + rem) / N < 2 := Nat.div_lt_of_lt_mul (by omega)
        have h2 : 1 ≤ (pos + rem) / N := (Nat.le_div_iff_mul_le V.N_pos).mpr (by omega)
        omega
      rw [if_pos ⟨by omega, rfl⟩, hdiv, hone]
    · rw [if_neg (by omega), Nat.div_eq_of_lt (by omega)]; rfl
  have hcy1 : cy.toNat ≤ 1 := by
    rw [hcyv]
    have : (pos + rem) / N < 2 := Nat.div_lt_of_lt_mul (by omega)
    omega
  have hval : wval (cmAdvLoop N (y :: ys) s.ctr cy) = (wval s.ctr + D / N + (pos + rem) / N) % 2 ^ (w * N) := by
    rw [wval_cmAdvLoop V _ _ _ hcy1 (by rw [hl, hstep]; omega), hl, hD, hcyv]
  have hlen : (cmAdvLoop N (y :: ys) s.ctr cy).length = N := by rw [cmAdvLoop_length, hl]
  have hadv : cmAdvance N blk s (y :: ys) true = { s with
      ctr := cmAdvLoop N (y :: ys) s.ctr cy
      pos := ((pos + rem) % N : Nat)
      buf := fun i => if i < N then (blk (cmAdvLoop N (y :: ys) s.ctr cy) s.key).getD i 0 else s.buf i } := by
    have hpn : s.pos.toNat = pos := by omega
    simp only [cmAdvance, hremv, hpn, hcy]
  rw [hadv]
  refine ⟨hlen, hk, (pos + rem) % N, rfl, ?_, ?_⟩
  · intro j _ hj
    show (if j < N then _ else _) = _
    rw [if_pos hj, hk]
  · have hmin : min ((pos + rem) % N) N = (pos + rem) % N := Nat.min_eq_left (Nat.mod_lt _ V.N_pos).le
    rw [hmin]
    show _ ≡ N * wval (cmAdvLoop N (y :: ys) s.ctr cy) + _ [MOD _]
    rw [hval]
    have e1 : N * ((wval s.ctr + D / N + (pos + rem) / N) % 2 ^ (w * N)) + (pos + rem) % N ≡
        N * (wval s.ctr + D / N + (pos + rem) / N) + (pos + rem) % N [MOD cmPeriod N w] :=
      (Nat.ModEq.mul_left' N (Nat.mod_modEq _ _)).add_right _
    have e2 : N * (wval s.ctr + D / N + (pos + rem) / N) + (pos + rem) % N = N * wval s.ctr + pos + D := by
      have a1 := Nat.div_add_mod (pos + rem) N
      have a2 := Nat.div_add_mod D N
      rw [hDrem] at a2
      rw [Nat.mul_add, Nat.mul_add]; omega
    rw [e2] at e1
    exact (hp.add_right D).trans e1.symm

end

end Verif
