import Verif.Common.GF2

/-! Fast multiplication of polynomials over GF(2) of large degree, for evaluation by the kernel: the coefficients are
spread to every 16th bit, so that the product of the two numbers holds every coefficient, as an integer, in its own 16
bits, and only the parities are kept. -/

namespace Verif.GF2

/-- Bits `0, 16, 32, ...` of a number, as a number. -/
def uns (a : Nat) : Nat :=
  if h : a = 0 then 0 else a % 2 + 2 * uns (a / 65536)
termination_by a
decreasing_by exact Nat.div_lt_self (Nat.pos_of_ne_zero h) (by decide)

theorem uns_zero : uns 0 = 0 := by rw [uns]; simp

theorem uns_eq (a : Nat) : uns a = a % 2 + 2 * uns (a / 65536) := by
  by_cases h : a = 0
  · subst h; simp [uns_zero]
  · rw [uns, dif_neg h]

theorem uns_one : uns 1 = 1 := by rw [uns_eq]; simp [uns_zero]

theorem testBit_uns (a i : Nat) : (uns a).testBit i = a.testBit (16 * i) := by
  induction i generalizing a with
  | zero =>
    rw [uns_eq, Nat.testBit_zero, Nat.mul_zero, Nat.testBit_zero]
    congr 1
    apply propext
    omega
  | succ i ih =>
    rw [uns_eq, Nat.testBit_succ, show (a % 2 + 2 * uns (a / 65536)) / 2 = uns (a / 65536) by omega, ih,
      show (65536 : Nat) = 2 ^ 16 by norm_num, Nat.testBit_div_two_pow, Nat.mul_succ]

theorem uns_xor (a b : Nat) : uns (a ^^^ b) = uns a ^^^ uns b := by
  apply Nat.eq_of_testBit_eq
  intro i
  rw [testBit_uns, Nat.testBit_xor, Nat.testBit_xor, testBit_uns, testBit_uns]

theorem uns_mul_base (a : Nat) : uns (65536 * a) = 2 * uns a := by
  rw [uns_eq, show 65536 * a % 2 = 0 by omega, Nat.zero_add, Nat.mul_div_cancel_left a (by decide)]

/-- All the base-65536 digits are at most `k`. -/
def Dig (k a : Nat) : Prop := ∀ i, a / 65536 ^ i % 65536 ≤ k

theorem Dig.mod {k a : Nat} (h : Dig k a) : a % 65536 ≤ k := by simpa using h 0

theorem Dig.div {k a : Nat} (h : Dig k a) : Dig k (a / 65536) := by
  intro i
  have := h (i + 1)
  rwa [Nat.div_div_eq_div_mul, ← pow_succ']

theorem dig_of {k a : Nat} (h0 : a % 65536 ≤ k) (h1 : Dig k (a / 65536)) : Dig k a := by
  intro i
  cases i with
  | zero => simpa using h0
  | succ i =>
    have := h1 i
    rwa [Nat.div_div_eq_div_mul, ← pow_succ'] at this

theorem dig_zero (k : Nat) : Dig k 0 := by intro i; simp

theorem Dig.mono {k l a : Nat} (h : Dig k a) (hkl : k ≤ l) : Dig l a := fun i => (h i).trans hkl

/-- Adding numbers with small digits adds the digits; the parities are added modulo two. -/
theorem dig_add {k l : Nat} (hkl : k + l < 65536) (a b : Nat) (ha : Dig k a) (hb : Dig l b) :
    Dig (k + l) (a + b) ∧ uns (a + b) = uns a ^^^ uns b := by
  induction a using Nat.strongRecOn generalizing b with
  | ind a ih =>
    by_cases h : a = 0
    · subst h
      rw [uns_zero, Nat.zero_add, Nat.zero_xor]
      exact ⟨hb.mono (by omega), rfl⟩
    have h0 := ha.mod
    have h1 := hb.mod
    have hm : (a + b) % 65536 = a % 65536 + b % 65536 := by omega
    have hd : (a + b) / 65536 = a / 65536 + b / 65536 := by omega
    obtain ⟨i1, i2⟩ := ih (a / 65536) (by omega) (b / 65536) ha.div hb.div
    refine ⟨dig_of (by omega) (by rw [hd]; exact i1), ?_⟩
    rw [uns_eq (a + b), hd, i2, uns_eq a, uns_eq b]
    apply Nat.eq_of_testBit_eq
    intro i
    cases i with
    | zero =>
      rw [Nat.testBit_xor, Nat.testBit_zero, Nat.testBit_zero, Nat.testBit_zero]
      rcases Nat.mod_two_eq_zero_or_one a with e | e <;> rcases Nat.mod_two_eq_zero_or_one b with f | f <;> simp [Nat.add_mod, e, f]
    | succ i =>
      rw [Nat.testBit_xor, Nat.testBit_succ, Nat.testBit_succ, Nat.testBit_succ,
        show ∀ x y : Nat, (x % 2 + 2 * y) / 2 = y by omega, show ∀ x y : Nat, (x % 2 + 2 * y) / 2 = y by omega,
        show ∀ x y : Nat, (x % 2 + 2 * y) / 2 = y by omega, Nat.testBit_xor]

section
variable {R : Type} [Ring R] (t : R) (h2 : ∀ x : R, x + x = 0)
include h2

/-- The product of two numbers with digits 0 and 1, the first with `K < 65536` digits. -/
theorem dig_mul (K : Nat) (hK : K < 65536) (a b : Nat) (ha : Dig 1 a) (hb : Dig 1 b) (haK : a < 65536 ^ K) :
    Dig K (a * b) ∧ ev t (uns (a * b)) = ev t (uns a) * ev t (uns b) := by
  induction K generalizing a with
  | zero =>
    have : a = 0 := by simpa using haK
    subst this
    simp [uns_zero, ev_zero, dig_zero]
  | succ K ih =>
    obtain ⟨i1, i2⟩ := ih (by omega) (a / 65536) ha.div (by
      rw [Nat.div_lt_iff_lt_mul (by decide)]; rwa [pow_succ] at haK)
    have h0 := ha.mod
    obtain ⟨c, hc, hc1⟩ : ∃ c, c = a % 65536 ∧ c ≤ 1 := ⟨_, rfl, h0⟩
    have e : a * b = c * b + 65536 * (a / 65536 * b) := by
      conv_lhs => rw [← Nat.div_add_mod a 65536]
      rw [← hc]; ring
    have d1 : Dig K (65536 * (a / 65536 * b)) := dig_of (by omega) (by rw [Nat.mul_div_cancel_left _ (by decide)]; exact i1)
    have d0 : Dig 1 (c * b) := by
      rcases (by omega : c = 0 ∨ c = 1) with h | h
      · rw [h, Nat.zero_mul]; exact dig_zero 1
      · rw [h, Nat.one_mul]; exact hb
    obtain ⟨r1, r2⟩ := dig_add (by omega : 1 + K < 65536) _ _ d0 d1
    rw [e]
    refine ⟨r1.mono (by omega), ?_⟩
    rw [r2, ev_xor t h2, uns_mul_base, ev_two_mul, i2, uns_eq a, ← mul_assoc]
    have e2 : a % 2 = c := by omega
    have e3 : ev t (c + 2 * uns (a / 65536)) = ev t c + t * ev t (uns (a / 65536)) := by
      rw [ev_eq, show (c + 2 * uns (a / 65536)) / 2 = uns (a / 65536) by omega, show (c + 2 * uns (a / 65536)) % 2 = c by omega]
      rcases (by omega : c = 0 ∨ c = 1) with h | h <;> simp [h, ev_zero, ev_one]
    rw [e2, e3, add_mul]
    rcases (by omega : c = 0 ∨ c = 1) with h | h <;> simp [h, ev_zero, ev_one, uns_zero]

end

/-- `Σ_{i < 2^k} 65536^i` -/
def ones : Nat → Nat
  | 0 => 1
  | k + 1 => force (ones k) fun o => Nat.lor o (Nat.shiftLeft o (Nat.mul 16 (Nat.pow 2 k)))

theorem testBit_ones (k i : Nat) : (ones k).testBit i = decide (i % 16 = 0 ∧ i < 16 * 2 ^ k) := by
  induction k generalizing i with
  | zero =>
    rw [ones, show (1 : Nat) = 2 ^ 0 from rfl, Nat.testBit_two_pow]
    apply decide_eq_decide.2
    omega
  | succ k ih =>
    rw [ones, force_eq]
    show (ones k ||| ones k <<< (16 * 2 ^ k)).testBit i = _
    rw [Nat.testBit_or, Nat.testBit_shiftLeft, ih, ih, pow_succ]
    generalize 2 ^ k = n
    rw [← Bool.decide_and, ← Bool.decide_or]
    apply decide_eq_decide.2
    omega

theorem uns_and_ones {a k : Nat} (h : a < 65536 ^ 2 ^ k) : uns (a &&& ones k) = uns a := by
  apply Nat.eq_of_testBit_eq
  intro i
  rw [testBit_uns, Nat.testBit_and, testBit_uns, testBit_ones]
  by_cases hi : 16 * i < 16 * 2 ^ k
  · simp [hi]
  · rw [Nat.testBit_lt_two_pow (lt_of_lt_of_le h _), Bool.false_and]
    rw [show (65536 : Nat) = 2 ^ 16 by norm_num, ← pow_mul]
    exact Nat.pow_le_pow_right (by decide) (by omega)

/-- The bits outside the multiples of 16 are clear: the digits are 0 and 1. -/
theorem dig_of_testBit {a : Nat} (h : ∀ i, i % 16 ≠ 0 → a.testBit i = false) : Dig 1 a := by
  intro i
  rw [show (65536 : Nat) = 2 ^ 16 by norm_num, ← pow_mul]
  by_contra hc
  have hlt : a / 2 ^ (16 * i) % 2 ^ 16 < 2 ^ 16 := Nat.mod_lt _ (by decide)
  apply hc
  have : a / 2 ^ (16 * i) % 2 ^ 16 < 2 ^ 1 := by
    apply Nat.lt_pow_two_of_testBit
    intro j hj
    rw [Nat.testBit_mod_two_pow, Nat.testBit_div_two_pow]
    by_cases hj16 : j < 16
    · rw [h (j + 16 * i) (by omega), Bool.and_false]
    · simp [hj16]
  omega

theorem testBit_of_dig {a : Nat} (h : Dig 1 a) (i : Nat) (hi : i % 16 ≠ 0) : a.testBit i = false := by
  have := h (i / 16)
  rw [show (65536 : Nat) = 2 ^ 16 by norm_num, ← pow_mul] at this
  have e : a.testBit i = (a / 2 ^ (16 * (i / 16)) % 2 ^ 16).testBit (i % 16) := by
    rw [Nat.testBit_mod_two_pow, Nat.testBit_div_two_pow]
    have : i % 16 < 16 := Nat.mod_lt _ (by decide)
    simp only [this, decide_true, Bool.true_and]
    congr 1; omega
  rw [e]
  apply Nat.testBit_lt_two_pow
  calc _ < 2 ^ 1 := by omega
    _ ≤ _ := Nat.pow_le_pow_right (by decide) (by omega)

theorem dig_and_ones (a k : Nat) : Dig 1 (a &&& ones k) := by
  apply dig_of_testBit
  intro i hi
  rw [Nat.testBit_and, testBit_ones]
  simp [hi]

theorem dig_xor {a b : Nat} (ha : Dig 1 a) (hb : Dig 1 b) : Dig 1 (a ^^^ b) := by
  apply dig_of_testBit
  intro i hi
  rw [Nat.testBit_xor, testBit_of_dig ha i hi, testBit_of_dig hb i hi]; rfl

theorem dig_shiftRight {a : Nat} (ha : Dig 1 a) (k : Nat) : Dig 1 (a >>> (16 * k)) := by
  apply dig_of_testBit
  intro i hi
  rw [Nat.testBit_shiftRight]
  exact testBit_of_dig ha _ (by omega)

/-! ### Spreading the bits of a number -/

/-- Eight bits. -/
def spread8 (n : Nat) : Nat :=
  force (Nat.land (Nat.lor n (Nat.shiftLeft n 60)) 0xf000000000000000f) fun n =>
  force (Nat.land (Nat.lor n (Nat.shiftLeft n 30)) 0x3000000030000000300000003) fun n =>
  Nat.land (Nat.lor n (Nat.shiftLeft n 15)) 0x10001000100010001000100010001

/-- The low `8 * 2^k` bits, each to 16 times its position. -/
def spread : Nat → Nat → Nat
  | 0, n => spread8 (Nat.mod n 256)
  | k + 1, n =>
    Nat.lor (spread k n)
      (Nat.shiftLeft (spread k (Nat.shiftRight n (Nat.mul 8 (Nat.pow 2 k)))) (Nat.mul 128 (Nat.pow 2 k)))

theorem spread8_spec : ∀ n < 256, ∀ i < 128, (spread8 n).testBit i = (decide (i % 16 = 0) && n.testBit (i / 16)) := by decide +kernel

theorem spread8_lt : ∀ n < 256, spread8 n < 2 ^ 128 := by decide +kernel

theorem testBit_spread (k n i : Nat) : (spread k n).testBit i = (decide (i % 16 = 0 ∧ i < 128 * 2 ^ k) && n.testBit (i / 16)) := by
  induction k generalizing n i with
  | zero =>
    show (spread8 (n % 256)).testBit i = _
    have hn : n % 256 < 256 := Nat.mod_lt _ (by decide)
    by_cases hi : i < 128
    · rw [spread8_spec _ hn i hi, show (256 : Nat) = 2 ^ 8 by norm_num, Nat.testBit_mod_two_pow]
      have : i / 16 < 8 := by omega
      simp [hi, this]
    · rw [Nat.testBit_lt_two_pow (lt_of_lt_of_le (spread8_lt _ hn) (Nat.pow_le_pow_right (by decide) (by omega)))]
      simp [hi]
  | succ k ih =>
    show (spread k n ||| spread k (n >>> (8 * 2 ^ k)) <<< (128 * 2 ^ k)).testBit i = _
    rw [Nat.testBit_or, Nat.testBit_shiftLeft, ih, ih, Nat.testBit_shiftRight, pow_succ]
    generalize 2 ^ k = m
    by_cases h1 : i < 128 * m
    · have h2 : i < 128 * (m * 2) := by omega
      have h3 : ¬ i ≥ 128 * m := by omega
      simp [h1, h2, h3]
    · have h3 : i ≥ 128 * m := by omega
      have h4 : 8 * m + (i - 128 * m) / 16 = i / 16 := by omega
      have h5 : (i - 128 * m) % 16 = 0 ∧ i - 128 * m < 128 * m ↔ i % 16 = 0 ∧ i < 128 * (m * 2) := by omega
      simp only [h1, h3, h4, h5, and_false, decide_false, Bool.false_and, Bool.false_or, decide_true, Bool.true_and]

theorem uns_spread {k n : Nat} (h : n < 2 ^ (8 * 2 ^ k)) : uns (spread k n) = n := by
  apply Nat.eq_of_testBit_eq
  intro i
  rw [testBit_uns, testBit_spread, Nat.mul_div_cancel_left i (by decide)]
  by_cases hi : i < 8 * 2 ^ k
  · have h1 : 16 * i < 128 * 2 ^ k := by omega
    simp [h1]
  · rw [Nat.testBit_lt_two_pow (lt_of_lt_of_le h (Nat.pow_le_pow_right (by decide) (by omega))), Bool.and_false]

theorem dig_spread (k n : Nat) : Dig 1 (spread k n) := by
  apply dig_of_testBit
  intro i hi
  rw [testBit_spread]
  simp [hi]

theorem spread_lt (k n : Nat) : spread k n < 65536 ^ (8 * 2 ^ k) := by
  rw [show (65536 : Nat) = 2 ^ 16 by norm_num, ← pow_mul]
  apply Nat.lt_pow_two_of_testBit
  intro i hi
  rw [testBit_spread]
  have : ¬ i < 128 * 2 ^ k := by omega
  simp [this]

/-! ### Repeated squaring modulo a polynomial -/

/-- The product of two spread polynomials with fewer than 32768 coefficients; `mask` is `ones 16`. -/
def cmul (mask a b : Nat) : Nat := Nat.land (Nat.mul a b) mask

/-- Square of the spread polynomial `a`, reduced by a multiple of the spread polynomial `m`. The quotient comes from
the approximate inverse `mu` of `m`; nothing is assumed about it, but the result must be small: otherwise it is 0.
`sh` is 16 times the degree of `m`. -/
def sqred (mask m mu sh bnd a : Nat) : Nat :=
  force (cmul mask a a) fun f =>
    force (Nat.land (Nat.shiftRight (cmul mask mu (Nat.shiftRight f sh)) sh) (Nat.sub bnd 1)) fun q =>
      force (Nat.xor f (cmul mask m q)) fun r => bif Nat.blt r bnd then r else 0

/-- `2^k` times `sqred` -/
def sqredLoop (mask m mu sh bnd : Nat) : Nat → Nat → Nat
  | 0, a => sqred mask m mu sh bnd a
  | k + 1, a => force (sqredLoop mask m mu sh bnd k a) fun a => sqredLoop mask m mu sh bnd k a

theorem dig_cmul (a b : Nat) : Dig 1 (cmul (ones 16) a b) := dig_and_ones _ _

/-- Spread polynomials with fewer than 32768 coefficients. -/
def Spr (a : Nat) : Prop := Dig 1 a ∧ a < 65536 ^ 32767

theorem Spr.mul_lt {a b : Nat} (ha : Spr a) (hb : Spr b) : a * b < 65536 ^ 2 ^ 16 :=
  calc a * b < 65536 ^ 32767 * 65536 ^ 32767 := Nat.mul_lt_mul'' ha.2 hb.2
    _ = 65536 ^ (32767 + 32767) := (pow_add ..).symm
    _ ≤ _ := Nat.pow_le_pow_right (by decide) (by decide)

section
variable {R : Type} [Ring R] (t : R) (h2 : ∀ x : R, x + x = 0)
include h2

theorem ev_cmul {a b : Nat} (ha : Spr a) (hb : Spr b) : ev t (uns (cmul (ones 16) a b)) = ev t (uns a) * ev t (uns b) := by
  show ev t (uns (a * b &&& ones 16)) = _
  rw [uns_and_ones (ha.mul_lt hb)]
  exact (dig_mul t h2 32767 (by decide) a b ha.1 hb.1 ha.2).2

theorem ev_sqred {m mu sh bnd a : Nat} (hm : Spr m) (hm0 : ev t (uns m) = 0) (hbnd : bnd = 65536 ^ 32767) (hsh : sh % 16 = 0) (ha : Spr a)
    (hne : sqred (ones 16) m mu sh bnd a ≠ 0) :
    Spr (sqred (ones 16) m mu sh bnd a) ∧ ev t (uns (sqred (ones 16) m mu sh bnd a)) = ev t (uns a) ^ 2 := by
  have hq : ∃ q, Spr q ∧ sqred (ones 16) m mu sh bnd a = bif Nat.blt (Nat.xor (cmul (ones 16) a a) (cmul (ones 16) m q)) bnd then
      Nat.xor (cmul (ones 16) a a) (cmul (ones 16) m q) else 0 := by
    refine ⟨_, ⟨?_, ?_⟩, by rw [sqred, force_eq, force_eq, force_eq]⟩
    · apply dig_of_testBit
      intro i hi
      show ((cmul (ones 16) mu (Nat.shiftRight (cmul (ones 16) a a) sh) >>> sh) &&& (bnd - 1)).testBit i = false
      rw [Nat.testBit_and, Nat.testBit_shiftRight, testBit_of_dig (dig_cmul _ _) _ (by omega), Bool.false_and]
    · calc _ ≤ bnd - 1 := Nat.and_le_right
        _ < _ := by rw [hbnd]; exact Nat.sub_lt (Nat.pow_pos (by decide)) (by decide)
  obtain ⟨q, hqs, e⟩ := hq
  rw [e] at hne ⊢
  cases hb : Nat.blt (Nat.xor (cmul (ones 16) a a) (cmul (ones 16) m q)) bnd with
  | false => rw [hb] at hne; exact absurd rfl hne
  | true =>
    simp only [cond_true]
    refine ⟨⟨dig_xor (dig_and_ones _ _) (dig_and_ones _ _), ?_⟩, ?_⟩
    · rw [← hbnd]; exact Nat.le_of_ble_eq_true hb
    · show ev t (uns (cmul (ones 16) a a ^^^ cmul (ones 16) m q)) = _
      rw [uns_xor, ev_xor t h2, ev_cmul t h2 ha ha, ev_cmul t h2 hm hqs, hm0, zero_mul, add_zero, pow_two]

omit t h2 in
theorem sqred_zero (m mu sh bnd : Nat) : sqred (ones 16) m mu sh bnd 0 = 0 := by
  have e : cmul (ones 16) 0 0 = 0 := by
    show 0 * 0 &&& ones 16 = 0
    rw [Nat.zero_mul, Nat.zero_and]
  have e2 : Nat.shiftRight 0 sh = 0 := Nat.zero_shiftRight sh
  have e3 : ∀ x, cmul (ones 16) x 0 = 0 := fun x => by
    show x * 0 &&& ones 16 = 0
    rw [Nat.mul_zero, Nat.zero_and]
  rw [sqred, force_eq, force_eq, force_eq, e, e2, e3, e2]
  have e4 : Nat.land 0 (Nat.sub bnd 1) = 0 := Nat.zero_and _
  rw [e4, e3]
  show (bif Nat.blt 0 bnd then 0 else 0) = 0
  cases Nat.blt 0 bnd <;> rfl

omit t h2 in
theorem sqredLoop_zero (m mu sh bnd k : Nat) : sqredLoop (ones 16) m mu sh bnd k 0 = 0 := by
  induction k with
  | zero => exact sqred_zero m mu sh bnd
  | succ k ih => rw [sqredLoop, force_eq, ih, ih]

theorem ev_sqredLoop {m mu sh bnd : Nat} (hm : Spr m) (hm0 : ev t (uns m) = 0) (hbnd : bnd = 65536 ^ 32767) (hsh : sh % 16 = 0)
    (k a : Nat) (ha : Spr a) (hne : sqredLoop (ones 16) m mu sh bnd k a ≠ 0) :
    Spr (sqredLoop (ones 16) m mu sh bnd k a) ∧ ev t (uns (sqredLoop (ones 16) m mu sh bnd k a)) = ev t (uns a) ^ 2 ^ 2 ^ k := by
  induction k generalizing a with
  | zero => simpa [sqredLoop] using ev_sqred t h2 hm hm0 hbnd hsh ha hne
  | succ k ih =>
    rw [sqredLoop, force_eq] at hne ⊢
    have h1 : sqredLoop (ones 16) m mu sh bnd k a ≠ 0 := by
      intro h; rw [h, sqredLoop_zero] at hne; exact hne rfl
    obtain ⟨i1, i2⟩ := ih a ha h1
    obtain ⟨j1, j2⟩ := ih _ i1 hne
    refine ⟨j1, ?_⟩
    rw [j2, i2, ← pow_mul, ← pow_add, ← Nat.two_mul, pow_succ' 2 k]

/-- The check of a certificate: `2^k` squarings of `a` modulo `m` (of degree `d`) give `b`. -/
def sqCheck (m mu d k a b : Nat) : Bool :=
  force (ones 16) fun mask => force (spread 12 m) fun ms => force (spread 12 mu) fun mus => force (Nat.pow 65536 32767) fun bnd =>
    force (Nat.mul 16 d) fun sh => force (sqredLoop mask ms mus sh bnd k (spread 12 a)) fun r =>
      and (Nat.beq r (spread 12 b)) (not (Nat.beq r 0))

omit t h2 in
theorem spr_spread {n : Nat} (h : n < 2 ^ 32767) : Spr (spread 12 n) := by
  refine ⟨dig_spread 12 n, ?_⟩
  rw [show (65536 : Nat) = 2 ^ 16 by norm_num, ← pow_mul]
  apply Nat.lt_pow_two_of_testBit
  intro i hi
  rw [testBit_spread, Nat.testBit_lt_two_pow (lt_of_lt_of_le h (Nat.pow_le_pow_right (by decide) (by omega))), Bool.and_false]

omit t h2 in
theorem uns_spread' {n : Nat} (h : n < 2 ^ 32767) : uns (spread 12 n) = n :=
  uns_spread (lt_of_lt_of_le h (Nat.pow_le_pow_right (by decide) (by decide)))

theorem ev_of_sqCheck {m mu d k a b : Nat} (hm : m < 2 ^ 32767) (ha : a < 2 ^ 32767) (hb : b < 2 ^ 32767) (hm0 : ev t m = 0)
    (h : sqCheck m mu d k a b = true) : ev t b = ev t a ^ 2 ^ 2 ^ k := by
  simp only [sqCheck, force_eq, Bool.and_eq_true, Bool.not_eq_true'] at h
  obtain ⟨h1, h3⟩ := h
  have h1 := Nat.eq_of_beq_eq_true h1
  have h3 := Nat.ne_of_beq_eq_false h3
  have := (ev_sqredLoop t h2 (mu := spread 12 mu) (sh := Nat.mul 16 d) (bnd := Nat.pow 65536 32767) (spr_spread hm) (by rw [uns_spread' hm]; exact hm0) rfl (Nat.mul_mod_right 16 d) k _ (spr_spread ha) h3).2
  rw [h1, uns_spread' hb, uns_spread' ha] at this
  exact this

end

end Verif.GF2
