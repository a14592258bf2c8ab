import Mathlib.NumberTheory.LucasPrimality
import Mathlib.Tactic.NormNum.Prime
import Verif.Common.GF2

/-! Primality certificates (Lucas), evaluated by the kernel. -/

namespace Verif.Prime
open Verif.GF2

/-- `a^e mod p`, `e` read from its `n` low bits, most significant first. -/
def powN (p a e : Nat) : Nat → Nat → Nat
  | 0, acc => acc
  | n + 1, acc =>
    force (Nat.mod (Nat.mul (Nat.mul acc acc) (if Nat.beq (Nat.mod (Nat.shiftRight e n) 2) 1 then a else 1)) p)
      fun r => powN p a e n r

theorem powN_eq (p a e n acc : Nat) :
    ((powN p a e n acc : Nat) : ZMod p) = (acc : ZMod p) ^ (2 ^ n) * (a : ZMod p) ^ (e % 2 ^ n) := by
  induction n generalizing acc with
  | zero => simp [powN, Nat.mod_one]
  | succ n ih =>
    have hb : e % 2 ^ (n + 1) = ((e >>> n) % 2) * 2 ^ n + e % 2 ^ n := by
      rw [Nat.mod_pow_succ, Nat.shiftRight_eq_div_pow, Nat.mul_comm, Nat.add_comm]
    rw [powN, force_eq, ih, hb]
    have hm : ∀ x : Nat, ((Nat.mod x p : Nat) : ZMod p) = (x : ZMod p) := fun x => ZMod.natCast_mod x p
    rw [hm]
    have hmul : ∀ x y, Nat.mul x y = x * y := fun _ _ => rfl
    rw [hmul, hmul]
    by_cases hbit : (e >>> n) % 2 = 1
    · have hbeq : Nat.beq (Nat.mod (Nat.shiftRight e n) 2) 1 = true := by rw [Nat.beq_eq]; exact hbit
      rw [if_pos hbeq, hbit]
      push_cast
      ring
    · have h0 : (e >>> n) % 2 = 0 := by omega
      have hbeq : ¬ Nat.beq (Nat.mod (Nat.shiftRight e n) 2) 1 = true := by rw [Nat.beq_eq]; exact hbit
      rw [if_neg hbeq, h0]
      push_cast
      ring

/-- Lucas certificate for `p`: base `a`, prime factors `qs` of `p - 1` with multiplicity. -/
def cert (p a : Nat) (qs : List Nat) : Bool :=
  Nat.blt 1 p && Nat.beq (qs.prod + 1) p && Nat.blt p (Nat.pow 2 400) &&
    Nat.beq (powN p a (p - 1) 400 1) 1 &&
    qs.all fun q => !Nat.beq (powN p a ((p - 1) / q) 400 1) 1

theorem powN_lt (p a e n acc : Nat) (hp : 1 < p) (ha : acc < p) : powN p a e n acc < p := by
  induction n generalizing acc with
  | zero => simpa [powN] using ha
  | succ n ih => rw [powN, force_eq]; exact ih _ (Nat.mod_lt _ (by omega))

set_option exponentiation.threshold 500 in
theorem prime_of_cert (p a : Nat) (qs : List Nat) (hqs : ∀ q ∈ qs, q.Prime)
    (h : cert p a qs = true) : p.Prime := by
  simp only [cert, Bool.and_eq_true, List.all_eq_true] at h
  obtain ⟨⟨⟨⟨h1, h2⟩, h3⟩, h4⟩, h5⟩ := h
  have hp1 : 1 < p := by simpa [Nat.blt_eq] using h1
  have hprod : p - 1 = qs.prod := by
    rw [Nat.beq_eq] at h2; omega
  have hlt : p < 2 ^ 400 := Nat.le_of_ble_eq_true h3
  have hpow : ∀ e, e < p → (a : ZMod p) ^ e = ((powN p a e 400 1 : Nat) : ZMod p) := by
    intro e he
    rw [powN_eq, Nat.mod_eq_of_lt (lt_trans he hlt)]
    simp
  apply lucas_primality p (a : ZMod p)
  · rw [hpow _ (by omega)]
    rw [Nat.beq_eq] at h4
    rw [h4]; simp
  · intro q hq hqd
    have hmem : q ∈ qs := by
      rw [hprod] at hqd
      rw [Prime.dvd_prod_iff hq.prime] at hqd
      obtain ⟨r, hr, hqr⟩ := hqd
      rwa [(Nat.prime_dvd_prime_iff_eq hq (hqs r hr)).mp hqr]
    have h6 := h5 q hmem
    rw [hpow _ (lt_of_le_of_lt (Nat.div_le_self _ _) (by omega))]
    intro hc
    have hlt2 := powN_lt p a ((p - 1) / q) 400 1 hp1 hp1
    have : powN p a ((p - 1) / q) 400 1 = 1 := by
      have h7 : ((powN p a ((p - 1) / q) 400 1 : Nat) : ZMod p) = ((1 : Nat) : ZMod p) := by
        rw [hc]; simp
      rw [ZMod.natCast_eq_natCast_iff'] at h7
      rwa [Nat.mod_eq_of_lt hlt2, Nat.mod_eq_of_lt hp1] at h7
    rw [this] at h6
    simp at h6

theorem prime_2 : Nat.Prime 2 := by norm_num
theorem prime_3 : Nat.Prime 3 := by norm_num
theorem prime_5 : Nat.Prime 5 := by norm_num
theorem prime_7 : Nat.Prime 7 := by norm_num
theorem prime_11 : Nat.Prime 11 := by norm_num
theorem prime_17 : Nat.Prime 17 := by norm_num
theorem prime_31 : Nat.Prime 31 := by norm_num
theorem prime_47 : Nat.Prime 47 := by norm_num
theorem prime_71 : Nat.Prime 71 := by norm_num
theorem prime_139 : Nat.Prime 139 := by norm_num
theorem prime_157 : Nat.Prime 157 := by norm_num
theorem prime_181 : Nat.Prime 181 := by norm_num
theorem prime_257 : Nat.Prime 257 := by norm_num
theorem prime_347 : Nat.Prime 347 := by norm_num
theorem prime_367 : Nat.Prime 367 := by norm_num
theorem prime_373 : Nat.Prime 373 := by norm_num
theorem prime_449 : Nat.Prime 449 := by norm_num
theorem prime_641 : Nat.Prime 641 := by norm_num
theorem prime_719 : Nat.Prime 719 := by norm_num
theorem prime_727 : Nat.Prime 727 := by norm_num
theorem prime_823 : Nat.Prime 823 := by norm_num
theorem prime_1783 : Nat.Prime 1783 := by norm_num

theorem prime_65537 : Nat.Prime 65537 :=
  prime_of_cert 65537 3 [2, 2, 2, 2, 2, 2, 2, 2, 2, 2, 2, 2, 2, 2, 2, 2]
    (by simp only [List.forall_mem_cons]; exact ⟨prime_2, prime_2, prime_2, prime_2, prime_2, prime_2, prime_2, prime_2, prime_2, prime_2, prime_2, prime_2, prime_2, prime_2, prime_2, prime_2, by simp⟩)
    (by decide +kernel)

theorem prime_17449 : Nat.Prime 17449 :=
  prime_of_cert 17449 14 [2, 2, 2, 3, 727]
    (by simp only [List.forall_mem_cons]; exact ⟨prime_2, prime_2, prime_2, prime_3, prime_727, by simp⟩)
    (by decide +kernel)

theorem prime_6700417 : Nat.Prime 6700417 :=
  prime_of_cert 6700417 5 [2, 2, 2, 2, 2, 2, 2, 3, 17449]
    (by simp only [List.forall_mem_cons]; exact ⟨prime_2, prime_2, prime_2, prime_2, prime_2, prime_2, prime_2, prime_3, prime_17449, by simp⟩)
    (by decide +kernel)

theorem prime_274177 : Nat.Prime 274177 :=
  prime_of_cert 274177 5 [2, 2, 2, 2, 2, 2, 2, 2, 3, 3, 7, 17]
    (by simp only [List.forall_mem_cons]; exact ⟨prime_2, prime_2, prime_2, prime_2, prime_2, prime_2, prime_2, prime_2, prime_3, prime_3, prime_7, prime_17, by simp⟩)
    (by decide +kernel)

theorem prime_16657 : Nat.Prime 16657 :=
  prime_of_cert 16657 5 [2, 2, 2, 2, 3, 347]
    (by simp only [List.forall_mem_cons]; exact ⟨prime_2, prime_2, prime_2, prime_2, prime_3, prime_347, by simp⟩)
    (by decide +kernel)

theorem prime_166571 : Nat.Prime 166571 :=
  prime_of_cert 166571 2 [2, 5, 16657]
    (by simp only [List.forall_mem_cons]; exact ⟨prime_2, prime_5, prime_16657, by simp⟩)
    (by decide +kernel)

theorem prime_2998279 : Nat.Prime 2998279 :=
  prime_of_cert 2998279 3 [2, 3, 3, 166571]
    (by simp only [List.forall_mem_cons]; exact ⟨prime_2, prime_3, prime_3, prime_166571, by simp⟩)
    (by decide +kernel)

theorem prime_67280421310721 : Nat.Prime 67280421310721 :=
  prime_of_cert 67280421310721 3 [2, 2, 2, 2, 2, 2, 2, 2, 5, 47, 373, 2998279]
    (by simp only [List.forall_mem_cons]; exact ⟨prime_2, prime_2, prime_2, prime_2, prime_2, prime_2, prime_2, prime_2, prime_5, prime_47, prime_373, prime_2998279, by simp⟩)
    (by decide +kernel)

theorem prime_52673 : Nat.Prime 52673 :=
  prime_of_cert 52673 3 [2, 2, 2, 2, 2, 2, 823]
    (by simp only [List.forall_mem_cons]; exact ⟨prime_2, prime_2, prime_2, prime_2, prime_2, prime_2, prime_823, by simp⟩)
    (by decide +kernel)

theorem prime_1896229 : Nat.Prime 1896229 :=
  prime_of_cert 1896229 2 [2, 2, 3, 3, 52673]
    (by simp only [List.forall_mem_cons]; exact ⟨prime_2, prime_2, prime_3, prime_3, prime_52673, by simp⟩)
    (by decide +kernel)

theorem prime_18533742247 : Nat.Prime 18533742247 :=
  prime_of_cert 18533742247 6 [2, 3, 3, 3, 181, 1896229]
    (by simp only [List.forall_mem_cons]; exact ⟨prime_2, prime_3, prime_3, prime_3, prime_181, prime_1896229, by simp⟩)
    (by decide +kernel)

theorem prime_116503103764643 : Nat.Prime 116503103764643 :=
  prime_of_cert 116503103764643 2 [2, 7, 449, 18533742247]
    (by simp only [List.forall_mem_cons]; exact ⟨prime_2, prime_7, prime_449, prime_18533742247, by simp⟩)
    (by decide +kernel)

theorem prime_59649589127497217 : Nat.Prime 59649589127497217 :=
  prime_of_cert 59649589127497217 3 [2, 2, 2, 2, 2, 2, 2, 2, 2, 116503103764643]
    (by simp only [List.forall_mem_cons]; exact ⟨prime_2, prime_2, prime_2, prime_2, prime_2, prime_2, prime_2, prime_2, prime_2, prime_116503103764643, by simp⟩)
    (by decide +kernel)

theorem prime_12497 : Nat.Prime 12497 :=
  prime_of_cert 12497 3 [2, 2, 2, 2, 11, 71]
    (by simp only [List.forall_mem_cons]; exact ⟨prime_2, prime_2, prime_2, prime_2, prime_11, prime_71, by simp⟩)
    (by decide +kernel)

theorem prime_6939437 : Nat.Prime 6939437 :=
  prime_of_cert 6939437 2 [2, 2, 7, 139, 1783]
    (by simp only [List.forall_mem_cons]; exact ⟨prime_2, prime_2, prime_7, prime_139, prime_1783, by simp⟩)
    (by decide +kernel)

theorem prime_55515497 : Nat.Prime 55515497 :=
  prime_of_cert 55515497 3 [2, 2, 2, 6939437]
    (by simp only [List.forall_mem_cons]; exact ⟨prime_2, prime_2, prime_2, prime_6939437, by simp⟩)
    (by decide +kernel)

theorem prime_2203 : Nat.Prime 2203 :=
  prime_of_cert 2203 5 [2, 3, 367]
    (by simp only [List.forall_mem_cons]; exact ⟨prime_2, prime_3, prime_367, by simp⟩)
    (by decide +kernel)

theorem prime_733803839347 : Nat.Prime 733803839347 :=
  prime_of_cert 733803839347 2 [2, 3, 2203, 55515497]
    (by simp only [List.forall_mem_cons]; exact ⟨prime_2, prime_3, prime_2203, prime_55515497, by simp⟩)
    (by decide +kernel)

theorem prime_5704689200685129054721 : Nat.Prime 5704689200685129054721 :=
  prime_of_cert 5704689200685129054721 21 [2, 2, 2, 2, 2, 2, 2, 2, 2, 3, 3, 3, 3, 3, 5, 12497, 733803839347]
    (by simp only [List.forall_mem_cons]; exact ⟨prime_2, prime_2, prime_2, prime_2, prime_2, prime_2, prime_2, prime_2, prime_2, prime_3, prime_3, prime_3, prime_3, prime_3, prime_5, prime_12497, prime_733803839347, by simp⟩)
    (by decide +kernel)

theorem prime_2791 : Nat.Prime 2791 :=
  prime_of_cert 2791 6 [2, 3, 3, 5, 31]
    (by simp only [List.forall_mem_cons]; exact ⟨prime_2, prime_3, prime_3, prime_5, prime_31, by simp⟩)
    (by decide +kernel)

theorem prime_16747 : Nat.Prime 16747 :=
  prime_of_cert 16747 2 [2, 3, 2791]
    (by simp only [List.forall_mem_cons]; exact ⟨prime_2, prime_3, prime_2791, by simp⟩)
    (by decide +kernel)

theorem prime_3853149761 : Nat.Prime 3853149761 :=
  prime_of_cert 3853149761 6 [2, 2, 2, 2, 2, 2, 5, 719, 16747]
    (by simp only [List.forall_mem_cons]; exact ⟨prime_2, prime_2, prime_2, prime_2, prime_2, prime_2, prime_5, prime_719, prime_16747, by simp⟩)
    (by decide +kernel)

theorem prime_1238926361552897 : Nat.Prime 1238926361552897 :=
  prime_of_cert 1238926361552897 3 [2, 2, 2, 2, 2, 2, 2, 2, 2, 2, 2, 157, 3853149761]
    (by simp only [List.forall_mem_cons]; exact ⟨prime_2, prime_2, prime_2, prime_2, prime_2, prime_2, prime_2, prime_2, prime_2, prime_2, prime_2, prime_157, prime_3853149761, by simp⟩)
    (by decide +kernel)

end Verif.Prime
