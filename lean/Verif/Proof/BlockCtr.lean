import Verif.Model.BlockCtr
import Verif.Common.BitInj
import Verif.Props.Ints

/-! Counter arithmetic and the buffered-block invariant shared by SPECK128 and AESCounter. -/

namespace Verif

namespace Ctr

/-- The 128-bit number stored in a counter. -/
def val (c : Ctr) : U128 := c.hi ++ c.lo

def ofVal (v : U128) : Ctr := ⟨v.extractLsb' 0 64, v.extractLsb' 64 64⟩

theorem toNat_val (c : Ctr) : c.val.toNat = c.hi.toNat * 2 ^ 64 + c.lo.toNat := by
  rw [val, BitVec.toNat_append, ← Nat.shiftLeft_add_eq_or_of_lt c.lo.isLt, Nat.shiftLeft_eq]

theorem ofVal_val (c : Ctr) : ofVal c.val = c := by
  rw [ofVal, val, BitVec.extractLsb'_append_eq_left, BitVec.extractLsb'_append_eq_right]

theorem val_ofVal (v : U128) : (ofVal v).val = v := by
  apply BitVec.eq_of_toNat_eq
  rw [toNat_val]
  simp only [ofVal, BitVec.extractLsb'_toNat, Nat.shiftRight_eq_div_pow]
  have := v.isLt
  omega

theorem eq_ofVal {c : Ctr} {v : U128} (h : c.val = v) : c = ofVal v := by rw [← h, ofVal_val]

theorem val_inj {c d : Ctr} (h : c.val = d.val) : c = d := by rw [← ofVal_val c, h, ofVal_val]

end Ctr

theorem ofNat_toNat_eq {w : Nat} (x : BitVec w) (n : Nat) (h : x.toNat = n % 2 ^ w) : x = BitVec.ofNat w n := by
  apply BitVec.eq_of_toNat_eq; rw [h, BitVec.toNat_ofNat]

theorem lt_iff_toNat {w : Nat} (x y : BitVec w) : x < y ↔ x.toNat < y.toNat := BitVec.lt_def

theorem speckAdd6_val (c : Ctr) : (speckAdd6 c).val = c.val + 6 := by
  apply BitVec.eq_of_toNat_eq
  have h1 := c.lo.isLt
  have h2 := c.hi.isLt
  rw [BitVec.toNat_add, Ctr.toNat_val, Ctr.toNat_val]
  simp only [speckAdd6, lt_iff_toNat, BitVec.toNat_add, BitVec.toNat_ofNat, BitVec.ofNat_eq_ofNat]
  split <;> (try simp only [BitVec.toNat_add, BitVec.toNat_ofNat]) <;> omega

theorem aesAdd4_val (c : Ctr) : (aesAdd4 c).val = c.val + 4 := by
  apply BitVec.eq_of_toNat_eq
  have h1 := c.lo.isLt
  have h2 := c.hi.isLt
  rw [BitVec.toNat_add, Ctr.toNat_val, Ctr.toNat_val]
  simp only [aesAdd4, lt_iff_toNat, BitVec.toNat_add, BitVec.toNat_ofNat, BitVec.ofNat_eq_ofNat]
  split <;> simp only [BitVec.toNat_ofNat] <;> omega

theorem speckSetCtr_val (c : Ctr) (i : Nat) (hi : i < 2 ^ 64) : (speckSetCtr c i).val = c.val + BitVec.ofNat 128 i := by
  apply BitVec.eq_of_toNat_eq
  have h1 := c.lo.isLt
  have h2 := c.hi.isLt
  rw [BitVec.toNat_add, Ctr.toNat_val, Ctr.toNat_val]
  simp only [speckSetCtr, lt_iff_toNat, BitVec.toNat_add, BitVec.toNat_ofNat, BitVec.ofNat_eq_ofNat]
  split <;> simp only [BitVec.toNat_ofNat] <;> omega

theorem speckAdvCtr_val (a0 a1 : U64) (c : Ctr) :
    (speckAdvCtr a0 a1 c).val = c.val + Ctr.val ⟨a0, a1⟩ - 6 := by
  apply BitVec.eq_of_toNat_eq
  have h1 := c.lo.isLt
  have h2 := c.hi.isLt
  have h3 := a0.isLt
  have h4 := a1.isLt
  rw [BitVec.toNat_sub, BitVec.toNat_add, Ctr.toNat_val, Ctr.toNat_val, Ctr.toNat_val]
  simp only [speckAdvCtr, lt_iff_toNat, BitVec.toNat_add, BitVec.toNat_sub, BitVec.toNat_ofNat, BitVec.ofNat_eq_ofNat]
  split <;> split <;> simp only [BitVec.toNat_ofNat] <;> omega

theorem aesAdvAdd_val (a0 a1 : U64) (c : Ctr) : (aesAdvAdd a0 a1 c).val = c.val + Ctr.val ⟨a0, a1⟩ := by
  apply BitVec.eq_of_toNat_eq
  have h1 := c.lo.isLt
  have h2 := c.hi.isLt
  have h3 := a0.isLt
  have h4 := a1.isLt
  rw [BitVec.toNat_add, Ctr.toNat_val, Ctr.toNat_val, Ctr.toNat_val]
  simp only [aesAdvAdd, lt_iff_toNat, BitVec.toNat_add, BitVec.ofNat_eq_ofNat]
  split <;> (try simp only [BitVec.toNat_add, BitVec.toNat_ofNat]) <;> omega

theorem aesAdvSub_val (c : Ctr) : (aesAdvSub c).val = c.val - 4 := by
  apply BitVec.eq_of_toNat_eq
  have h1 := c.lo.isLt
  have h2 := c.hi.isLt
  rw [BitVec.toNat_sub, Ctr.toNat_val, Ctr.toNat_val]
  simp only [aesAdvSub, lt_iff_toNat, BitVec.toNat_sub, BitVec.toNat_ofNat, BitVec.ofNat_eq_ofNat]
  split <;> (try simp only [BitVec.toNat_sub, BitVec.toNat_ofNat]) <;> omega

theorem aesSetCtr_val (n i : Nat) : (aesSetCtr n i).val = BitVec.ofNat 128 n + BitVec.ofNat 128 i := by
  apply BitVec.eq_of_toNat_eq
  rw [BitVec.toNat_add, Ctr.toNat_val]
  simp only [aesSetCtr, BitVec.toNat_ofNat]
  omega

/-! ### Positions -/

/-- Position of the first half of block `x`: blocks give two words each. -/
def dbl (x : U128) : BitVec 129 := BitVec.ofNat 129 (2 * x.toNat)

/-- The 128-bit counter and the half that position `p` refers to. -/
def posCtr (p : BitVec 129) : U128 := (p >>> 1).truncate 128
def half (c : Ctr) (j : Nat) : U64 := if j % 2 = 0 then c.lo else c.hi

/-- The word at position `p` of the stream of block function `enc`: half `p mod 2` of the encryption of counter
`p / 2`. -/
def wordAt (enc : Ctr → Ctr) (p : BitVec 129) : U64 := half (enc (Ctr.ofVal (posCtr p))) p.toNat

theorem dbl_add (x y : U128) : dbl (x + y) = dbl x + dbl y := by
  apply BitVec.eq_of_toNat_eq
  simp only [dbl, BitVec.toNat_add, BitVec.toNat_ofNat]
  omega

theorem dbl_ofNat (n : Nat) : dbl (BitVec.ofNat 128 n) = BitVec.ofNat 129 (2 * n) := by
  apply BitVec.eq_of_toNat_eq
  simp only [dbl, BitVec.toNat_ofNat]
  omega

theorem posCtr_dbl (x : U128) (o : Nat) : posCtr (dbl x + BitVec.ofNat 129 o) = x + BitVec.ofNat 128 (o / 2) := by
  apply BitVec.eq_of_toNat_eq
  have := x.isLt
  simp only [posCtr, dbl, BitVec.truncate_eq_setWidth, BitVec.toNat_setWidth, BitVec.toNat_ushiftRight,
    Nat.shiftRight_eq_div_pow, BitVec.toNat_add, BitVec.toNat_ofNat]
  omega

theorem half_dbl (c : Ctr) (x : U128) (o : Nat) : half c (dbl x + BitVec.ofNat 129 o).toNat = half c o := by
  have : (dbl x + BitVec.ofNat 129 o).toNat % 2 = o % 2 := by
    simp only [dbl, BitVec.toNat_add, BitVec.toNat_ofNat]
    omega
  simp only [half, this]

/-- Invariant of a buffered counter generator with `K` counters at word offset `o`, at position `p` of its
stream: `base` is the counter of the first block in the buffer. -/
def BWF (K : Nat) (enc : Ctr → Ctr) (ctr : Fin K → Ctr) (buf : Nat → U64) (o : Nat) (p : BitVec 129) : Prop :=
  ∃ base : U128, (∀ i : Fin K, (ctr i).val = base + BitVec.ofNat 128 (K + i.val)) ∧ o ≤ 2 * K ∧
    (o < 2 * K → ∀ j < 2 * K, buf j = half (enc (Ctr.ofVal (base + BitVec.ofNat 128 (j / 2)))) j) ∧
    p = dbl base + BitVec.ofNat 129 o

namespace BWF
variable {K : Nat} {enc : Ctr → Ctr} {ctr : Fin K → Ctr} {buf : Nat → U64} {o : Nat} {p : BitVec 129}

theorem read (h : BWF K enc ctr buf o p) (ho : o < 2 * K) : buf o = wordAt enc p := by
  obtain ⟨base, -, -, hb, rfl⟩ := h
  rw [hb ho o ho, wordAt, posCtr_dbl, half_dbl]

theorem succ (h : BWF K enc ctr buf o p) (ho : o < 2 * K) (m : Nat) (hm : o + m ≤ 2 * K) :
    BWF K enc ctr buf (o + m) (p + BitVec.ofNat 129 m) := by
  obtain ⟨base, hc, -, hb, rfl⟩ := h
  refine ⟨base, hc, hm, fun _ => hb ho, ?_⟩
  rw [add_assoc, ← BitVec.ofNat_add]

/-- Refilling an exhausted buffer does not change the position. -/
theorem gen (h : BWF K enc ctr buf (2 * K) p) (hK : 0 < K) (ctr' : Fin K → Ctr) (buf' : Nat → U64)
    (hc' : ∀ i, (ctr' i).val = (ctr i).val + BitVec.ofNat 128 K)
    (hb' : ∀ j (hj : j < 2 * K), buf' j = half (enc (ctr ⟨j / 2, by omega⟩)) j) : BWF K enc ctr' buf' 0 p := by
  obtain ⟨base, hc, -, -, rfl⟩ := h
  refine ⟨base + BitVec.ofNat 128 K, ?_, by omega, ?_, ?_⟩
  · intro i
    rw [hc', hc, add_assoc, add_assoc, ← BitVec.ofNat_add, ← BitVec.ofNat_add]
    congr 2; omega
  · intro _ j hj
    rw [hb' j hj, Ctr.eq_ofVal (hc ⟨j / 2, by omega⟩), BitVec.ofNat_add, add_assoc]
  · rw [dbl_add, dbl_ofNat]; simp

/-- Refilling after the counters were moved by `a` blocks relative to the buffered block. -/
theorem adv (h : BWF K enc ctr buf o p) (a : U128) (ctr' : Fin K → Ctr) (buf' : Nat → U64)
    (hc' : ∀ i, (ctr' i).val = (ctr i).val + a)
    (hb' : ∀ j (hj : j < 2 * K), buf' j = half (enc (Ctr.ofVal ((ctr ⟨j / 2, by omega⟩).val + a - BitVec.ofNat 128 K))) j) :
    BWF K enc ctr' buf' o (p + dbl a) := by
  obtain ⟨base, hc, ho, -, rfl⟩ := h
  refine ⟨base + a, ?_, ho, ?_, ?_⟩
  · intro i
    rw [hc', hc, add_right_comm]
  · intro _ j hj
    rw [hb' j hj, hc ⟨j / 2, by omega⟩]
    have e : base + BitVec.ofNat 128 (K + j / 2) + a - BitVec.ofNat 128 K = base + a + BitVec.ofNat 128 (j / 2) := by
      rw [BitVec.ofNat_add]; ring
    exact congrArg (fun v => half (enc (Ctr.ofVal v)) j) e
  · rw [dbl_add, add_right_comm]

/-- A freshly seeded generator. -/
theorem fresh (c : U128) (hc : ∀ i : Fin K, (ctr i).val = c + BitVec.ofNat 128 i.val) :
    BWF K enc ctr buf (2 * K) (dbl c) := by
  refine ⟨c - BitVec.ofNat 128 K, ?_, le_rfl, fun h => absurd h (by omega), ?_⟩
  · intro i; rw [hc, BitVec.ofNat_add]; ring
  · rw [← dbl_ofNat, ← dbl_add]; congr 1; ring

end BWF

/-- Reading an aligned word inside the array. -/
theorem read8_aligned (m : Nat) (buf : Nat → U64) (o : Nat) (ho : o < m) : read8 m buf (8 * (o : Int)) = some (buf o) := by
  have h1 : (8 * (o : Int)).toNat / 8 = o := by omega
  have h2 : (8 * (o : Int)).toNat % 8 = 0 := by omega
  rw [read8, if_pos (by omega)]
  simp only [h1, h2, if_true]

/-! ### The steps handed to C -/

theorem steps129_spec (delta : Int) : ∃ d0 d1 d2 : U64, steps129 delta = .ok (d0, d1, d2) ∧
    ((d0.toNat + 2 ^ 64 * d1.toNat + 2 ^ 128 * d2.toNat : Nat) : Int) = delta % 2 ^ 129 := by
  have hw := Ints.C01_wrap_int_range_congruent delta 129
  have hm : Ints.wrapInt delta 129 = delta % 2 ^ 129 := by
    obtain ⟨h1, h2, h3⟩ := hw
    have h3' := h3
    rw [Int.ModEq] at h3'
    rw [← Int.emod_eq_of_lt h1 h2]
    exact h3'
  obtain ⟨ws, hok, hlen, hlt, hval⟩ := Ints.C02_int_to_array_value (Ints.wrapInt delta 129) 64 3 (Or.inr rfl) hw.1
    (lt_of_lt_of_le hw.2.1 (by norm_num))
  match ws, hlen with
  | [a, b, c], _ =>
    refine ⟨BitVec.ofNat 64 a, BitVec.ofNat 64 b, BitVec.ofNat 64 c, ?_, ?_⟩
    · rw [steps129, show (64 * 3 : Nat) = 64 * 3 from rfl, hok]
    · have ha := hlt a (by simp)
      have hb := hlt b (by simp)
      have hc := hlt c (by simp)
      rw [← hm, ← hval]
      simp only [BitVec.toNat_ofNat, Nat.mod_eq_of_lt ha, Nat.mod_eq_of_lt hb, Nat.mod_eq_of_lt hc,
        Nat.ofDigits_cons, Nat.ofDigits_nil]
      push_cast
      ring

theorem adj_word (x y : U64) : (x / 2#64 + ((y % 2#64) <<< 63)).toNat = x.toNat / 2 + y.toNat % 2 * 2 ^ 63 := by
  have hx := x.isLt
  have hy : y.toNat % 2 < 2 := Nat.mod_lt _ (by decide)
  simp only [BitVec.toNat_add, BitVec.toNat_udiv, BitVec.toNat_umod, BitVec.toNat_shiftLeft, Nat.shiftLeft_eq,
    BitVec.toNat_ofNat, show 2 % 2 ^ 64 = 2 from rfl]
  generalize y.toNat % 2 = z at *
  rw [Nat.mod_eq_of_lt (a := z * 2 ^ 63) (by omega), Nat.mod_eq_of_lt (by omega)]

/-- The adjusted step computed in C is half the step modulo `2^128`. -/
theorem adj_step (d0 d1 d2 : U64) :
    dbl (Ctr.val ⟨d0 / 2#64 + ((d1 % 2#64) <<< 63), d1 / 2#64 + ((d2 % 2#64) <<< 63)⟩) + BitVec.ofNat 129 (d0 % 2#64).toNat =
      BitVec.ofNat 129 (d0.toNat + 2 ^ 64 * d1.toNat + 2 ^ 128 * d2.toNat) := by
  rw [dbl, ← BitVec.ofNat_add, Ctr.toNat_val]
  apply BitVec.eq_of_toNat_eq
  simp only [adj_word]
  simp only [BitVec.toNat_ofNat, BitVec.toNat_umod, show 2 % 2 ^ 64 = 2 from rfl]
  generalize d0.toNat = x
  generalize d1.toNat = y
  generalize d2.toNat = z
  have e : x + 2 ^ 64 * y + 2 ^ 128 * z =
      2 * ((y / 2 + z % 2 * 2 ^ 63) * 2 ^ 64 + (x / 2 + y % 2 * 2 ^ 63)) + x % 2 + 2 ^ 129 * (z / 2) := by
    have h1 := Nat.div_add_mod x 2
    have h2 := Nat.div_add_mod y 2
    have h3 := Nat.div_add_mod z 2
    omega
  rw [e, Nat.add_mul_mod_self_left]

end Verif
