import Verif.Common.Lanes
import Verif.Model.XorLinear
import Mathlib.Algebra.Group.Hom.Instances
import Mathlib.Dynamics.PeriodicPts.Defs
import Mathlib.Data.Nat.Prime.Basic
import Mathlib.Algebra.BigOperators.Group.List.Basic

/-! Theory of GF(2)-linear generators: jump polynomials and exact periods, from certificates. -/

namespace Verif.Linear
open Verif.GF2 Verif.Lanes Verif.XorLinear

/-- A commutative group of exponent 2 from an XOR-like operation. -/
@[reducible] def xorGroup {V : Type} (z : V) (add : V → V → V)
    (assoc : ∀ a b c, add (add a b) c = add a (add b c)) (comm : ∀ a b, add a b = add b a)
    (zero : ∀ a, add z a = a) (self : ∀ a, add a a = z) : AddCommGroup V :=
  letI : Zero V := ⟨z⟩
  letI : Add V := ⟨add⟩
  letI : Neg V := ⟨id⟩
  { add_assoc := assoc
    add_comm := comm
    zero_add := zero
    add_zero := fun a => (comm a z).trans (zero a)
    neg_add_cancel := self
    nsmul := nsmulRec
    zsmul := zsmulRec }

instance : AddCommGroup S2 := xorGroup S2.zero S2.xor
  (by intro a b c; simp [S2.xor, BitVec.xor_assoc]) (by intro a b; simp [S2.xor, BitVec.xor_comm])
  (by intro a; simp [S2.xor, S2.zero]) (by intro a; simp [S2.xor, S2.zero])

instance : AddCommGroup S4 := xorGroup S4.zero S4.xor
  (by intro a b c; simp [S4.xor, BitVec.xor_assoc]) (by intro a b; simp [S4.xor, BitVec.xor_comm])
  (by intro a; simp [S4.xor, S4.zero]) (by intro a; simp [S4.xor, S4.zero])

instance : AddCommGroup S8 := xorGroup S8.zero S8.xor
  (by intro a b c; simp [S8.xor, BitVec.xor_assoc]) (by intro a b; simp [S8.xor, BitVec.xor_comm])
  (by intro a; simp [S8.xor, S8.zero]) (by intro a; simp [S8.xor, S8.zero])

theorem S2.add_def (a b : S2) : a + b = ⟨a.s0 ^^^ b.s0, a.s1 ^^^ b.s1⟩ := rfl
theorem S2.zero_def : (0 : S2) = ⟨0#64, 0#64⟩ := rfl
theorem S4.add_def (a b : S4) :
    a + b = ⟨a.s0 ^^^ b.s0, a.s1 ^^^ b.s1, a.s2 ^^^ b.s2, a.s3 ^^^ b.s3⟩ := rfl
theorem S4.zero_def : (0 : S4) = ⟨0#64, 0#64, 0#64, 0#64⟩ := rfl
theorem S8.add_def (a b : S8) :
    a + b = ⟨a.s0 ^^^ b.s0, a.s1 ^^^ b.s1, a.s2 ^^^ b.s2, a.s3 ^^^ b.s3,
      a.s4 ^^^ b.s4, a.s5 ^^^ b.s5, a.s6 ^^^ b.s6, a.s7 ^^^ b.s7⟩ := rfl
theorem S8.zero_def : (0 : S8) = ⟨0#64, 0#64, 0#64, 0#64, 0#64, 0#64, 0#64, 0#64⟩ := rfl

theorem S2.add_self (a : S2) : a + a = 0 := by simp [S2.add_def, S2.zero_def]
theorem S4.add_self (a : S4) : a + a = 0 := by simp [S4.add_def, S4.zero_def]
theorem S8.add_self (a : S8) : a + a = 0 := by simp [S8.add_def, S8.zero_def]

/-- The little-endian number written by a list of 64-bit words. -/
def ofWords : List U64 → Nat
  | [] => 0
  | w :: ws => w.toNat + 2 ^ 64 * ofWords ws

section
variable {V : Type} [AddCommGroup V] (hV : ∀ v : V, v + v = 0)

include hV in
theorem end_add_self (f : AddMonoid.End V) : f + f = 0 := by
  ext v; exact hV (f v)

theorem pow_apply (T : AddMonoid.End V) (n : Nat) (v : V) : (T ^ n) v = T^[n] v := by
  rw [AddMonoid.End.coe_pow]

theorem mul_apply (f g : AddMonoid.End V) (v : V) : (f * g) v = f (g v) := rfl

theorem add_apply (f g : AddMonoid.End V) (v : V) : (f + g) v = f v + g v := rfl

include hV in
theorem jumpLoop_eq (T : AddMonoid.End V) (table : List U64) (z s : V) :
    jumpLoop (fun a b => a + b) T table z s =
      (z + ev T (ofWords table) s, T^[64 * table.length] s) := by
  have hinner : ∀ (w : U64) (k : Nat), k ≤ 64 → ∀ (a s : V),
      (List.range k).foldl
        (fun as b => (if w.getLsbD b then as.1 + as.2 else as.1, T as.2)) (a, s) =
      (a + ev T (w.toNat % 2 ^ k) s, T^[k] s) := by
    intro w k
    induction k with
    | zero => intro _ a s; simp [Nat.mod_one, ev_zero]
    | succ k ih =>
      intro hk a s
      rw [List.range_succ, List.foldl_append, ih (by omega)]
      simp only [List.foldl_cons, List.foldl_nil]
      rw [← Function.iterate_succ_apply' T k s]
      congr 1
      have hsplit : w.toNat % 2 ^ (k + 1) =
          (w.toNat % 2 ^ k) ^^^ ((if w.getLsbD k then 1 else 0) <<< k) := by
        have hlt : w.toNat % 2 ^ k < 2 ^ k := Nat.mod_lt _ (by positivity)
        apply Nat.eq_of_testBit_eq
        intro i
        rw [Nat.testBit_mod_two_pow, Nat.testBit_xor, Nat.testBit_mod_two_pow, Nat.testBit_shiftLeft]
        rcases Nat.lt_trichotomy i k with h | h | h
        · have h1 : ¬ i ≥ k := by omega
          have h2 : i < k + 1 := by omega
          simp [h, h1, h2]
        · subst h
          cases hx : w.getLsbD i <;> simp [← BitVec.testBit_toNat] at hx ⊢ <;> simp [hx]
        · have h1 : ¬ i < k + 1 := by omega
          have h2 : ¬ i < k := by omega
          have h3 : i - k ≠ 0 := by omega
          cases hx : w.getLsbD k <;> simp [h1, h2]
          intro _
          exact Nat.testBit_lt_two_pow (lt_of_lt_of_le (by decide : 1 < 2 ^ 1)
            (Nat.pow_le_pow_right (by decide) (by omega)))
      rw [hsplit, ev_xor T (end_add_self hV), ev_shiftLeft]
      cases hx : w.getLsbD k
      · simp [ev_zero]
      · simp only [if_true, ev_one, mul_one, add_apply, pow_apply]
        rw [add_assoc]
  have key : ∀ (table : List U64) (z s : V),
      jumpLoop (fun a b => a + b) T table z s =
      (z + ev T (ofWords table) s, T^[64 * table.length] s) := by
    intro table
    induction table with
    | nil => intro z s; simp [jumpLoop, ofWords, ev_zero]
    | cons w ws ih =>
      intro z s
      have h64 := hinner w 64 (Nat.le_refl _) z s
      rw [Nat.mod_eq_of_lt w.isLt] at h64
      have hstep : jumpLoop (fun a b => a + b) T (w :: ws) z s =
          jumpLoop (fun a b => a + b) T ws (z + ev T w.toNat s) (T^[64] s) := by
        unfold jumpLoop
        rw [List.foldl_cons, h64]
      rw [hstep, ih]
      have hx : ofWords (w :: ws) = w.toNat ^^^ (ofWords ws) <<< 64 := by
        rw [ofWords, Nat.shiftLeft_eq, Nat.mul_comm]
        have h1 := Nat.two_pow_add_eq_or_of_lt w.isLt (ofWords ws)
        rw [Nat.add_comm, Nat.mul_comm, h1]
        apply Nat.eq_of_testBit_eq
        intro i
        rw [Nat.testBit_or, Nat.testBit_xor, Nat.testBit_two_pow_mul]
        by_cases hi : i ≥ 64
        · have : w.toNat.testBit i = false :=
            Nat.testBit_lt_two_pow (lt_of_lt_of_le w.isLt (Nat.pow_le_pow_right (by decide) hi))
          simp [this]
        · simp [hi]
      rw [hx, ev_xor T (end_add_self hV), ev_shiftLeft]
      rw [show 64 * (w :: ws).length = 64 * ws.length + 64 by simp; ring, Function.iterate_add_apply]
      congr 1
      have : (T ^ 64 * ev T (ofWords ws)) s = ev T (ofWords ws) (T^[64] s) := by
        rw [((commute_ev T (ofWords ws)).pow_left 64).eq, mul_apply, pow_apply]
      rw [add_apply, this, add_assoc]
  exact key table z s

/-! ### Checking that a polynomial annihilates `T`, on all basis vectors at once -/

/-- Evaluate all the elements of a list before passing it on. -/
def forceL {α : Type} : List Nat → (List Nat → α) → α
  | [], f => f []
  | x :: xs, f => force x fun x => forceL xs fun xs => f (x :: xs)

theorem forceL_eq {α : Type} (l : List Nat) (f : List Nat → α) : forceL l f = f l := by
  induction l generalizing f with
  | nil => rfl
  | cons x xs ih => rw [forceL, force_eq, ih]

/-- Evaluate the packed polynomial `p` (low `k` bits) on the packed states. -/
def annLoop (stepP : List Nat → List Nat) : Nat → Nat → List Nat → List Nat → List Nat
  | 0, _, _, acc => acc
  | k + 1, p, cur, acc =>
    force (Nat.div p 2) fun p' =>
      forceL (if Nat.beq (Nat.mod p 2) 1 then List.zipWith Nat.xor acc cur else acc) fun acc' =>
        forceL (stepP cur) fun cur' => annLoop stepP k p' cur' acc'

theorem annLoop_eq (T : AddMonoid.End V) (n m : Nat) (unp : List Nat → Nat → V)
    (stepP : List Nat → List Nat)
    (hlen : ∀ l, l.length = n → (stepP l).length = n)
    (hstep : ∀ l i, l.length = n → i < m → unp (stepP l) i = T (unp l i))
    (hxor : ∀ l l' i, l.length = n → l'.length = n →
      unp (List.zipWith Nat.xor l l') i = unp l i + unp l' i)
    (k p : Nat) (cur acc : List Nat) (hc : cur.length = n) (ha : acc.length = n) (i : Nat) (hi : i < m) :
    unp (annLoop stepP k p cur acc) i = unp acc i + ev T (p % 2 ^ k) (unp cur i) := by
  induction k generalizing p cur acc with
  | zero => simp [annLoop, Nat.mod_one, ev_zero]
  | succ k ih =>
    rw [annLoop, force_eq, forceL_eq, forceL_eq]
    have hp : Nat.div p 2 = p / 2 := rfl
    have hpm : (p % 2 ^ (k + 1)) % 2 = p % 2 := by
      rw [pow_succ', Nat.mod_mul_right_mod]
    have hpd : (p % 2 ^ (k + 1)) / 2 = (p / 2) % 2 ^ k := by
      rw [pow_succ', Nat.mod_mul_right_div_self]
    rw [ev_eq T (p % 2 ^ (k + 1)), hpm, hpd]
    by_cases hb : p % 2 = 1
    · have hbb : Nat.beq (Nat.mod p 2) 1 = true := by rw [Nat.beq_eq]; exact hb
      rw [if_pos hbb, hp, ih _ _ _ (hlen _ hc) (by simp [hc, ha]), hxor _ _ _ ha hc, hstep _ _ hc hi,
        if_pos hb]
      rw [add_apply, (commute_ev T _).eq, mul_apply, ← add_assoc]
      rfl
    · have hbb : ¬ Nat.beq (Nat.mod p 2) 1 = true := by rw [Nat.beq_eq]; exact hb
      rw [if_neg hbb, hp, ih _ _ _ (hlen _ hc) ha, hstep _ _ hc hi, if_neg hb]
      rw [add_apply, (commute_ev T _).eq, mul_apply]
      congr 1
      exact (zero_add _).symm

end

/-! ### Packed identity matrix -/

/-- `Σ_{j<64} 2^(65 j)`: lane `j` is the word with only bit `j` set. -/
def diag : Nat → Nat
  | 0 => 0
  | k + 1 => Nat.add (diag k) (Nat.pow 2 (Nat.mul 65 k))

/-- Word `w` of the packed identity: lane `64 w + j` has bit `j` set. -/
def idWord (w : Nat) : Nat := Nat.shiftLeft (diag 64) (Nat.mul 4096 w)

theorem lane_diag (i : Nat) (hi : i < 64) : lane (diag 64) i = BitVec.twoPow 64 i := by
  have h : ∀ i : Fin 64, lane (diag 64) i = BitVec.twoPow 64 i := by decide +kernel
  exact h ⟨i, hi⟩

set_option exponentiation.threshold 5000 in
theorem lane_diag_ge (i : Nat) (hi : 64 ≤ i) : lane (diag 64) i = 0#64 := by
  have hd : diag 64 < 2 ^ 4096 := by decide +kernel
  have h0 : diag 64 >>> (64 * i) = 0 := by
    rw [Nat.shiftRight_eq_div_pow]
    exact Nat.div_eq_of_lt (lt_of_lt_of_le hd (Nat.pow_le_pow_right (by decide) (by omega)))
  rw [lane, h0]

theorem lane_shiftLeft (X k i : Nat) :
    lane (X <<< (64 * k)) i = if i < k then 0#64 else lane X (i - k) := by
  apply BitVec.eq_of_getLsbD_eq
  intro j hj
  rw [lane_bit _ _ _ hj, Nat.testBit_shiftLeft]
  split
  · have : ¬ (64 * i + j ≥ 64 * k) := by omega
    simp [this]
  · have : 64 * i + j ≥ 64 * k := by omega
    rw [lane_bit _ _ _ hj, show 64 * i + j - 64 * k = 64 * (i - k) + j by omega]
    simp [this]

theorem lane_idWord_self (w j : Nat) (hj : j < 64) :
    lane (idWord w) (64 * w + j) = BitVec.twoPow 64 j := by
  have : idWord w = diag 64 <<< (64 * (64 * w)) := by
    show diag 64 <<< (4096 * w) = _
    rw [show 64 * (64 * w) = 4096 * w by omega]
  rw [this, lane_shiftLeft, if_neg (by omega), show 64 * w + j - 64 * w = j by omega, lane_diag j hj]

theorem lane_idWord_ne (w v j : Nat) (hj : j < 64) (hne : v ≠ w) :
    lane (idWord v) (64 * w + j) = 0#64 := by
  have : idWord v = diag 64 <<< (64 * (64 * v)) := by
    show diag 64 <<< (4096 * v) = _
    rw [show 64 * (64 * v) = 4096 * v by omega]
  rw [this, lane_shiftLeft]
  split
  · rfl
  · exact lane_diag_ge _ (by omega)

/-! ### Exact periods -/

section
variable {V : Type} [AddCommGroup V]

/-- If `T^N = 1` and, for every prime `q` dividing `N`, `T^(N/q) - 1` is injective, then every
non-zero vector has period exactly `N`. -/
theorem period_of_cert (T : AddMonoid.End V) (N : Nat) (h1 : T ^ N = 1)
    (hq : ∀ q, q.Prime → q ∣ N → ∀ v, (T ^ (N / q)) v = v → v = 0)
    (v : V) (hv : v ≠ 0) (n : Nat) : T^[n] v = v ↔ N ∣ n := by
  have hper : Function.IsPeriodicPt T N v := by
    show T^[N] v = v
    rw [← pow_apply, h1]; rfl
  constructor
  · intro hn
    have hg : Function.IsPeriodicPt T (N.gcd n) v := hper.gcd hn
    by_contra hnd
    have hgN : N.gcd n ∣ N := Nat.gcd_dvd_left _ _
    have hne : N.gcd n ≠ N := fun h => hnd (h ▸ Nat.gcd_dvd_right N n)
    obtain ⟨c, hc⟩ := hgN
    have hc1 : c ≠ 1 := by
      intro h; rw [h, mul_one] at hc; exact hne hc.symm
    obtain ⟨q, hqp, hqc⟩ := Nat.exists_prime_and_dvd hc1
    have hqN : q ∣ N := hc ▸ Dvd.dvd.mul_left hqc _
    apply hv
    apply hq q hqp hqN
    rw [pow_apply]
    have hdvd : N.gcd n ∣ N / q := by
      obtain ⟨d, hd⟩ := hqc
      refine ⟨d, ?_⟩
      apply Nat.div_eq_of_eq_mul_left hqp.pos
      rw [hd] at hc
      exact hc.trans (by ring)
    obtain ⟨d, hd⟩ := hdvd
    rw [hd]
    exact hg.mul_const d
  · rintro ⟨d, rfl⟩
    exact hper.mul_const d

end

end Verif.Linear
