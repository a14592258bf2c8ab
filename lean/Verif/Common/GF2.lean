import Verif.Common.Basic
import Mathlib.Algebra.Ring.Basic
import Mathlib.Algebra.Group.Hom.End
import Mathlib.Algebra.Module.NatInt
import Mathlib.Data.Nat.Bits
import Mathlib.Tactic.Ring
import Mathlib.Tactic.NoncommRing
import Mathlib.Tactic.Positivity

/-! Polynomials over GF(2) packed into natural numbers (bit `k` is the coefficient of `x^k`),
their evaluation in a ring of characteristic 2, and kernel-friendly certificate checks. -/

namespace Verif.GF2

/-- Evaluate the packed polynomial `n` at `t`. -/
def ev {R : Type} [Ring R] (t : R) (n : Nat) : R :=
  if h : n = 0 then 0 else (if n % 2 = 1 then 1 else 0) + t * ev t (n / 2)
termination_by n
decreasing_by exact Nat.div_lt_self (Nat.pos_of_ne_zero h) (by decide)

section
variable {R : Type} [Ring R] (t : R)

theorem ev_zero : ev t 0 = 0 := by rw [ev]; simp

theorem ev_eq (n : Nat) : ev t n = (if n % 2 = 1 then 1 else 0) + t * ev t (n / 2) := by
  by_cases h : n = 0
  · subst h; simp [ev_zero]
  · rw [ev, dif_neg h]

theorem ev_one : ev t 1 = 1 := by rw [ev_eq]; simp [ev_zero]

theorem ev_two_mul (n : Nat) : ev t (2 * n) = t * ev t n := by
  rw [ev_eq]; simp

theorem ev_shiftLeft (n k : Nat) : ev t (n <<< k) = t ^ k * ev t n := by
  induction k with
  | zero => simp
  | succ k ih =>
    rw [Nat.shiftLeft_succ, ev_two_mul, ih, pow_succ', mul_assoc]

theorem commute_ev (n : Nat) : Commute t (ev t n) := by
  induction n using Nat.strongRecOn with
  | ind n ih =>
    by_cases h : n = 0
    · subst h; simp [ev_zero]
    · rw [ev_eq]
      apply Commute.add_right
      · split <;> simp
      · exact (Commute.refl t).mul_right (ih _ (Nat.div_lt_self (Nat.pos_of_ne_zero h) (by decide)))

theorem commute_ev_ev (a b : Nat) : Commute (ev t a) (ev t b) := by
  induction a using Nat.strongRecOn with
  | ind n ih =>
    by_cases h : n = 0
    · subst h; simp [ev_zero]
    · rw [ev_eq t n]
      apply Commute.add_left
      · split <;> simp
      · exact (commute_ev t b).mul_left (ih _ (Nat.div_lt_self (Nat.pos_of_ne_zero h) (by decide)))

variable (h2 : ∀ x : R, x + x = 0)
include h2

theorem ev_xor (a b : Nat) : ev t (a ^^^ b) = ev t a + ev t b := by
  induction a using Nat.strongRecOn generalizing b with
  | ind a ih =>
    by_cases h : a = 0
    · subst h; simp [ev_zero]
    · rw [ev_eq t (a ^^^ b), ev_eq t a, ev_eq t b]
      have hx : (a ^^^ b) / 2 = (a / 2) ^^^ (b / 2) := Nat.xor_div_two
      rw [hx, ih _ (Nat.div_lt_self (Nat.pos_of_ne_zero h) (by decide))]
      have hm : (a ^^^ b) % 2 = (a + b) % 2 := by
        have := Nat.xor_mod_two_eq_one (a := a) (b := b)
        omega
      rw [hm, mul_add]
      rcases Nat.mod_two_eq_zero_or_one a with ha | ha <;>
        rcases Nat.mod_two_eq_zero_or_one b with hb | hb
      · have : (a + b) % 2 = 0 := by omega
        simp [ha, hb, this]
      · have : (a + b) % 2 = 1 := by omega
        simp [ha, hb, this]; abel
      · have : (a + b) % 2 = 1 := by omega
        simp [ha, hb, this]; abel
      · have : (a + b) % 2 = 0 := by omega
        simp only [ha, hb, this, if_true]
        have h11 : (1 : R) + 1 = 0 := h2 1
        have : (1 : R) + t * ev t (a / 2) + (1 + t * ev t (b / 2)) =
          (1 + 1) + (t * ev t (a / 2) + t * ev t (b / 2)) := by abel
        rw [this, h11]; simp

end

/-! ### Carry-less multiplication and reduction, for evaluation by the kernel -/

/-- Evaluate `n` before passing it on (the kernel reduces the major premise of a match). -/
@[inline] def force {α : Type} (n : Nat) (f : Nat → α) : α :=
  match n with
  | 0 => f 0
  | k + 1 => f (k + 1)

theorem force_eq {α : Type} (n : Nat) (f : Nat → α) : force n f = f n := by
  cases n <;> rfl

/-- Carry-less product, `k` = number of bits of `b` used. -/
def clmul (a : Nat) : Nat → Nat → Nat → Nat
  | 0, _, acc => acc
  | k + 1, b, acc =>
    force (Nat.xor (Nat.mul acc 2) (Nat.mul a (Nat.mod (Nat.shiftRight b k) 2)))
      (fun acc => clmul a k b acc)

/-- Reduction of `a` by `p` (degree `d`): cancel bits `d + k - 1, ..., d`. -/
def clmod (p d : Nat) : Nat → Nat → Nat
  | 0, a => a
  | k + 1, a =>
    force (Nat.xor a (Nat.mul (Nat.shiftLeft p k) (Nat.mod (Nat.shiftRight a (Nat.add d k)) 2)))
      (fun a => clmod p d k a)

/-- Product modulo `p`, all operands below `2^d`. -/
def mulmod (p d a b : Nat) : Nat := clmod p d d (clmul a d b 0)

/-- `n` squarings modulo `p`. -/
def sqn (p d : Nat) : Nat → Nat → Nat
  | 0, a => a
  | n + 1, a => force (mulmod p d a a) (fun a => sqn p d n a)

/-- `x^e mod p` for the exponent `e` given by its low `n` bits, most significant first. -/
def powmod (p d e : Nat) : Nat → Nat → Nat
  | 0, acc => acc
  | n + 1, acc =>
    force (mulmod p d acc acc) fun sq =>
      force (if Nat.beq (Nat.mod (Nat.shiftRight e n) 2) 1 then clmod p d 1 (Nat.mul sq 2) else sq)
        fun r => powmod p d e n r

section
variable {R : Type} [Ring R] (t : R) (h2 : ∀ x : R, x + x = 0)
include h2

omit h2 in
theorem ev_mul_bit (a c : Nat) (hc : c = 0 ∨ c = 1) :
    ev t (a * c) = if c = 1 then ev t a else 0 := by
  rcases hc with rfl | rfl <;> simp [ev_zero]

theorem ev_clmul (a b : Nat) (k acc : Nat) :
    ev t (clmul a k b acc) = t ^ k * ev t acc + ev t a * ev t (b % 2 ^ k) := by
  induction k generalizing acc with
  | zero => simp [clmul, Nat.mod_one, ev_zero]
  | succ k ih =>
    rw [clmul, force_eq, ih]
    have e1 : Nat.xor (Nat.mul acc 2) (Nat.mul a (Nat.mod (Nat.shiftRight b k) 2)) =
      (2 * acc) ^^^ (a * ((b >>> k) % 2)) := by
      show (acc * 2) ^^^ (a * ((b >>> k) % 2)) = _
      rw [Nat.mul_comm acc 2]
    rw [e1, ev_xor t h2, ev_two_mul, ev_mul_bit t a _ (Nat.mod_two_eq_zero_or_one _)]
    have hb : b % 2 ^ (k + 1) = (b % 2 ^ k) ^^^ (((b >>> k) % 2) <<< k) := by
      rw [Nat.mod_pow_succ, Nat.shiftRight_eq_div_pow, Nat.shiftLeft_eq]
      rcases Nat.mod_two_eq_zero_or_one (b / 2 ^ k) with hz | hz
      · simp [hz]
      · rw [hz, Nat.mul_one, Nat.one_mul, Nat.add_comm, Nat.xor_comm]
        have hlt : b % 2 ^ k < 2 ^ k := Nat.mod_lt _ (by positivity)
        have := Nat.two_pow_add_eq_or_of_lt hlt 1
        rw [Nat.mul_one] at this
        rw [this]
        apply Nat.eq_of_testBit_eq
        intro i
        rw [Nat.testBit_or, Nat.testBit_xor, Nat.testBit_two_pow]
        by_cases hi : k = i
        · subst hi; simp [Nat.testBit_lt_two_pow hlt]
        · simp [hi]
    rw [hb, ev_xor t h2, ev_shiftLeft]
    have hcom : t ^ k * ev t a = ev t a * t ^ k := ((commute_ev t a).pow_left k).eq
    rcases Nat.mod_two_eq_zero_or_one (b >>> k) with hz | hz
    · simp only [hz, ev_zero]; simp [pow_succ, mul_assoc]
    · simp only [hz, ev_one, if_true, mul_add, mul_one]
      rw [pow_succ, mul_assoc, hcom]; abel

theorem ev_clmod (p d k a : Nat) (hp : ev t p = 0) : ev t (clmod p d k a) = ev t a := by
  induction k generalizing a with
  | zero => rfl
  | succ k ih =>
    rw [clmod, force_eq, ih]
    show ev t (a ^^^ ((p <<< k) * ((a >>> (d + k)) % 2))) = _
    rw [ev_xor t h2, ev_mul_bit t _ _ (Nat.mod_two_eq_zero_or_one _), ev_shiftLeft, hp]
    simp

theorem ev_mulmod (p d a b : Nat) (hp : ev t p = 0) (hb : b < 2 ^ d) :
    ev t (mulmod p d a b) = ev t a * ev t b := by
  rw [mulmod, ev_clmod t h2 _ _ _ _ hp, ev_clmul t h2, ev_zero, Nat.mod_eq_of_lt hb]
  simp

/-- The bound needed to iterate `mulmod`: decidable check that an intermediate value is reduced. -/
theorem ev_sqn (p d n a : Nat) (hp : ev t p = 0)
    (hb : ∀ i, i < n → sqn p d i a < 2 ^ d) :
    ev t (sqn p d n a) = ev t a ^ (2 ^ n) := by
  induction n generalizing a with
  | zero => simp [sqn]
  | succ n ih =>
    have h0 : a < 2 ^ d := hb 0 (by omega)
    rw [sqn, force_eq, ih, ev_mulmod t h2 _ _ _ _ hp h0, ← pow_two, ← pow_mul, pow_succ']
    intro i hi
    have := hb (i + 1) (by omega)
    rwa [sqn, force_eq] at this

end

/-! Degree bounds: reduction by a monic polynomial of degree `d` gives a value below `2^d`. -/

theorem clmod_lt (p d : Nat) (hp1 : p < 2 ^ (d + 1)) (hp2 : 2 ^ d ≤ p) (k a : Nat)
    (ha : a < 2 ^ (d + k)) : clmod p d k a < 2 ^ d := by
  induction k generalizing a with
  | zero => simpa [clmod] using ha
  | succ k ih =>
    rw [clmod, force_eq]
    apply ih
    show a ^^^ ((p <<< k) * ((a >>> (d + k)) % 2)) < 2 ^ (d + k)
    have hpd : p.testBit d = true := by
      rw [Nat.testBit_eq_decide_div_mod_eq]
      have : p / 2 ^ d = 1 := by
        apply Nat.div_eq_of_lt_le <;> rw [pow_succ] at * <;> omega
      simp [this]
    have hbit : ∀ i, d + k ≤ i →
        (a ^^^ ((p <<< k) * ((a >>> (d + k)) % 2))).testBit i = false := by
      intro i hi
      rw [Nat.testBit_xor]
      have hs : (a >>> (d + k)) % 2 = (a.testBit (d + k)).toNat := by
        rw [Nat.testBit_eq_decide_div_mod_eq, Nat.shiftRight_eq_div_pow]
        rcases Nat.mod_two_eq_zero_or_one (a / 2 ^ (d + k)) with h | h <;> simp [h]
      rcases Nat.eq_or_lt_of_le hi with rfl | hlt
      · rw [hs]
        cases hb : a.testBit (d + k)
        · simp
        · simp [Nat.testBit_shiftLeft, hpd]
      · have h1 : a.testBit i = false := by
          apply Nat.testBit_lt_two_pow
          exact lt_of_lt_of_le ha (Nat.pow_le_pow_right (by decide) (by omega))
        have h2 : (p <<< k).testBit i = false := by
          rw [Nat.testBit_shiftLeft]
          have : p.testBit (i - k) = false := by
            apply Nat.testBit_lt_two_pow
            exact lt_of_lt_of_le hp1 (Nat.pow_le_pow_right (by decide) (by omega))
          simp [this]
        rw [hs]
        cases a.testBit (d + k) <;> simp [h1, h2]
    apply Nat.lt_pow_two_of_testBit
    intro i hi
    exact hbit i hi

theorem clmul_lt (a d b : Nat) (ha : a < 2 ^ d) : ∀ (k acc : Nat) (j : Nat), acc < 2 ^ (d + j) →
    clmul a k b acc < 2 ^ (d + j + k) := by
  intro k
  induction k with
  | zero => intro acc j h; simpa [clmul] using h
  | succ k ih =>
    intro acc j h
    rw [clmul, force_eq]
    have := ih (Nat.xor (Nat.mul acc 2) (Nat.mul a (Nat.mod (Nat.shiftRight b k) 2))) (j + 1) (by
      show (acc * 2) ^^^ (a * ((b >>> k) % 2)) < 2 ^ (d + (j + 1))
      apply Nat.xor_lt_two_pow
      · rw [← Nat.add_assoc, pow_succ]; omega
      · have : a * ((b >>> k) % 2) ≤ a := by
          have := Nat.mod_two_eq_zero_or_one (b >>> k)
          rcases this with h | h <;> simp [h]
        exact lt_of_le_of_lt this (lt_of_lt_of_le ha (Nat.pow_le_pow_right (by decide) (by omega))))
    rwa [show d + (j + 1) + k = d + j + (k + 1) by omega] at this

theorem mulmod_lt (p d a b : Nat) (hp1 : p < 2 ^ (d + 1)) (hp2 : 2 ^ d ≤ p) (ha : a < 2 ^ d) :
    mulmod p d a b < 2 ^ d := by
  apply clmod_lt p d hp1 hp2
  have := clmul_lt a d b ha d 0 0 (by positivity)
  simpa using this

theorem sqn_lt (p d n a : Nat) (hp1 : p < 2 ^ (d + 1)) (hp2 : 2 ^ d ≤ p) (ha : a < 2 ^ d) :
    sqn p d n a < 2 ^ d := by
  induction n generalizing a with
  | zero => simpa [sqn] using ha
  | succ n ih => rw [sqn, force_eq]; exact ih _ (mulmod_lt p d a a hp1 hp2 ha)

section
variable {R : Type} [Ring R] (t : R) (h2 : ∀ x : R, x + x = 0)
include h2

/-- `n` squarings of `a` modulo the annihilating polynomial `p` give `a(t)^(2^n)`. -/
theorem ev_sqn' (p d n a : Nat) (hp1 : p < 2 ^ (d + 1)) (hp2 : 2 ^ d ≤ p) (ha : a < 2 ^ d)
    (hp : ev t p = 0) : ev t (sqn p d n a) = ev t a ^ (2 ^ n) :=
  ev_sqn t h2 p d n a hp fun i _ => sqn_lt p d i a hp1 hp2 ha

theorem ev_powmod (p d e : Nat) (hp1 : p < 2 ^ (d + 1)) (hp2 : 2 ^ d ≤ p)
    (hp : ev t p = 0) (n acc : Nat) (ha : acc < 2 ^ d) :
    ev t (powmod p d e n acc) = ev t acc ^ (2 ^ n) * t ^ (e % 2 ^ n) := by
  induction n generalizing acc with
  | zero => simp [powmod, Nat.mod_one]
  | succ n ih =>
    rw [powmod, force_eq, force_eq]
    have hsq : mulmod p d acc acc < 2 ^ d := mulmod_lt p d acc acc hp1 hp2 ha
    have hes : ev t (mulmod p d acc acc) = ev t acc ^ 2 := by
      rw [ev_mulmod t h2 _ _ _ _ hp ha, pow_two]
    have hcm : ∀ m k, Commute (ev t acc ^ m) (t ^ k) := fun m k =>
      ((commute_ev t acc).symm.pow_left m).pow_right k
    have hb : e % 2 ^ (n + 1) = e % 2 ^ n + ((e >>> n) % 2) * 2 ^ n := by
      rw [Nat.mod_pow_succ, Nat.shiftRight_eq_div_pow, Nat.mul_comm]
    by_cases hbit : (e >>> n) % 2 = 1
    · have hbeq : Nat.beq (Nat.mod (Nat.shiftRight e n) 2) 1 = true := by
        rw [Nat.beq_eq]; exact hbit
      rw [if_pos hbeq]
      have hlt : clmod p d 1 (Nat.mul (mulmod p d acc acc) 2) < 2 ^ d := by
        apply clmod_lt p d hp1 hp2
        show mulmod p d acc acc * 2 < 2 ^ (d + 1)
        rw [pow_succ]; omega
      have hev : ev t (clmod p d 1 (Nat.mul (mulmod p d acc acc) 2)) = t * ev t acc ^ 2 := by
        rw [ev_clmod t h2 _ _ _ _ hp]
        show ev t (mulmod p d acc acc * 2) = _
        rw [Nat.mul_comm, ev_two_mul, hes]
      rw [ih _ hlt, hev, hb, hbit, one_mul]
      have hc1 : Commute t (ev t acc ^ 2) := by simpa using (hcm 2 1).symm
      rw [hc1.mul_pow, ← pow_mul, pow_succ', pow_add, mul_assoc, mul_comm (2 : Nat)]
      rw [(hcm (2 ^ n * 2) (2 ^ n)).symm.left_comm]
      rw [← pow_add, ← pow_add, Nat.add_comm (e % 2 ^ n)]
    · have h0 : (e >>> n) % 2 = 0 := by
        rcases Nat.mod_two_eq_zero_or_one (e >>> n) with h | h
        · exact h
        · exact absurd h hbit
      have hbeq : ¬ Nat.beq (Nat.mod (Nat.shiftRight e n) 2) 1 = true := by
        rw [Nat.beq_eq]
        show ¬ (e >>> n) % 2 = 1
        omega
      rw [if_neg hbeq, ih _ hsq, hes, hb, h0, ← pow_mul, pow_succ']
      simp

end

/-! ### The same, 16 bits per iteration: fewer recursive calls for the kernel to unfold -/

def bitMod (p d k a : Nat) : Nat :=
  Nat.xor a (Nat.mul (Nat.shiftLeft p k) (Nat.mod (Nat.shiftRight a (Nat.add d k)) 2))

def bitMul (a b k acc : Nat) : Nat :=
  Nat.xor (Nat.mul acc 2) (Nat.mul a (Nat.mod (Nat.shiftRight b k) 2))

def clmodF (p d : Nat) : Nat → Nat → Nat
  | 0, a => a
  | j + 1, a =>
    force (Nat.mul 16 j) fun k =>
      force (bitMod p d (Nat.add k 0) (bitMod p d (Nat.add k 1) (bitMod p d (Nat.add k 2) (bitMod p d (Nat.add k 3) (bitMod p d (Nat.add k 4) (bitMod p d (Nat.add k 5) (bitMod p d (Nat.add k 6) (bitMod p d (Nat.add k 7) (bitMod p d (Nat.add k 8) (bitMod p d (Nat.add k 9) (bitMod p d (Nat.add k 10) (bitMod p d (Nat.add k 11) (bitMod p d (Nat.add k 12) (bitMod p d (Nat.add k 13) (bitMod p d (Nat.add k 14) (bitMod p d (Nat.add k 15) (a)))))))))))))))))
        fun a => clmodF p d j a

def clmulF (a : Nat) : Nat → Nat → Nat → Nat
  | 0, _, acc => acc
  | j + 1, b, acc =>
    force (Nat.mul 16 j) fun k =>
      force (bitMul a b (Nat.add k 0) (bitMul a b (Nat.add k 1) (bitMul a b (Nat.add k 2) (bitMul a b (Nat.add k 3) (bitMul a b (Nat.add k 4) (bitMul a b (Nat.add k 5) (bitMul a b (Nat.add k 6) (bitMul a b (Nat.add k 7) (bitMul a b (Nat.add k 8) (bitMul a b (Nat.add k 9) (bitMul a b (Nat.add k 10) (bitMul a b (Nat.add k 11) (bitMul a b (Nat.add k 12) (bitMul a b (Nat.add k 13) (bitMul a b (Nat.add k 14) (bitMul a b (Nat.add k 15) (acc)))))))))))))))))
        fun acc => clmulF a j b acc

theorem clmod_succ (p d k a : Nat) : clmod p d (k + 1) a = clmod p d k (bitMod p d k a) := by
  rw [clmod, force_eq]; rfl

theorem clmul_succ (a b k acc : Nat) : clmul a (k + 1) b acc = clmul a k b (bitMul a b k acc) := by
  rw [clmul, force_eq]; rfl

theorem clmodF_eq (p d j a : Nat) : clmodF p d j a = clmod p d (16 * j) a := by
  induction j generalizing a with
  | zero => rfl
  | succ j ih =>
    rw [clmodF, force_eq, force_eq, ih, Nat.mul_succ]
    rw [show 16 * j + 16 = (16 * j + 15) + 1 from rfl, clmod_succ, show 16 * j + 15 = (16 * j + 14) + 1 from rfl, clmod_succ, show 16 * j + 14 = (16 * j + 13) + 1 from rfl, clmod_succ, show 16 * j + 13 = (16 * j + 12) + 1 from rfl, clmod_succ, show 16 * j + 12 = (16 * j + 11) + 1 from rfl, clmod_succ, show 16 * j + 11 = (16 * j + 10) + 1 from rfl, clmod_succ, show 16 * j + 10 = (16 * j + 9) + 1 from rfl, clmod_succ, show 16 * j + 9 = (16 * j + 8) + 1 from rfl, clmod_succ, show 16 * j + 8 = (16 * j + 7) + 1 from rfl, clmod_succ, show 16 * j + 7 = (16 * j + 6) + 1 from rfl, clmod_succ, show 16 * j + 6 = (16 * j + 5) + 1 from rfl, clmod_succ, show 16 * j + 5 = (16 * j + 4) + 1 from rfl, clmod_succ, show 16 * j + 4 = (16 * j + 3) + 1 from rfl, clmod_succ, show 16 * j + 3 = (16 * j + 2) + 1 from rfl, clmod_succ, show 16 * j + 2 = (16 * j + 1) + 1 from rfl, clmod_succ, show 16 * j + 1 = (16 * j + 0) + 1 from rfl, clmod_succ]
    rfl

theorem clmulF_eq (a j b acc : Nat) : clmulF a j b acc = clmul a (16 * j) b acc := by
  induction j generalizing acc with
  | zero => rfl
  | succ j ih =>
    rw [clmulF, force_eq, force_eq, ih, Nat.mul_succ]
    rw [show 16 * j + 16 = (16 * j + 15) + 1 from rfl, clmul_succ, show 16 * j + 15 = (16 * j + 14) + 1 from rfl, clmul_succ, show 16 * j + 14 = (16 * j + 13) + 1 from rfl, clmul_succ, show 16 * j + 13 = (16 * j + 12) + 1 from rfl, clmul_succ, show 16 * j + 12 = (16 * j + 11) + 1 from rfl, clmul_succ, show 16 * j + 11 = (16 * j + 10) + 1 from rfl, clmul_succ, show 16 * j + 10 = (16 * j + 9) + 1 from rfl, clmul_succ, show 16 * j + 9 = (16 * j + 8) + 1 from rfl, clmul_succ, show 16 * j + 8 = (16 * j + 7) + 1 from rfl, clmul_succ, show 16 * j + 7 = (16 * j + 6) + 1 from rfl, clmul_succ, show 16 * j + 6 = (16 * j + 5) + 1 from rfl, clmul_succ, show 16 * j + 5 = (16 * j + 4) + 1 from rfl, clmul_succ, show 16 * j + 4 = (16 * j + 3) + 1 from rfl, clmul_succ, show 16 * j + 3 = (16 * j + 2) + 1 from rfl, clmul_succ, show 16 * j + 2 = (16 * j + 1) + 1 from rfl, clmul_succ, show 16 * j + 1 = (16 * j + 0) + 1 from rfl, clmul_succ]
    rfl

/-- `mulmod` for degree `16 j`. -/
def mulmodF (p j a b : Nat) : Nat := clmodF p (Nat.mul 16 j) j (clmulF a j b 0)

theorem mulmodF_eq (p j a b : Nat) : mulmodF p j a b = mulmod p (16 * j) a b := by
  rw [mulmodF, clmodF_eq, clmulF_eq]; rfl

def sqnF (p j : Nat) : Nat → Nat → Nat
  | 0, a => a
  | n + 1, a => force (mulmodF p j a a) (fun a => sqnF p j n a)

theorem sqnF_eq (p j n a : Nat) : sqnF p j n a = sqn p (16 * j) n a := by
  induction n generalizing a with
  | zero => rfl
  | succ n ih => rw [sqnF, sqn, force_eq, force_eq, ih, mulmodF_eq]

def powmodF (p j e : Nat) : Nat → Nat → Nat
  | 0, acc => acc
  | n + 1, acc =>
    force (mulmodF p j acc acc) fun sq =>
      force (if Nat.beq (Nat.mod (Nat.shiftRight e n) 2) 1 then clmod p (Nat.mul 16 j) 1 (Nat.mul sq 2)
        else sq) fun r => powmodF p j e n r

theorem powmodF_eq (p j e n acc : Nat) : powmodF p j e n acc = powmod p (16 * j) e n acc := by
  induction n generalizing acc with
  | zero => rfl
  | succ n ih =>
    rw [powmodF, powmod, force_eq, force_eq, force_eq, force_eq, ih, mulmodF_eq]; rfl

end Verif.GF2
