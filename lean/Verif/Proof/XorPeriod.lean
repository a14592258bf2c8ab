import Verif.Proof.XorPeriodCert
import Verif.Proof.Period

/-! The exact periods of the steps of Xoshiro512 and Xorshift1024. -/

namespace Verif.Linear
open Verif.GF2 Verif.XorLinear

set_option exponentiation.threshold 40000 in
theorem xosh512_frob : xosh512End ^ 2 ^ 512 = xosh512End := by
  have h2 := end_add_self S8.add_self
  have lt : ∀ a, a < 2 ^ 600 → a < 2 ^ 32767 := fun a h => lt_of_lt_of_le h (Nat.pow_le_pow_right (by decide) (by decide))
  have := ev_of_sqCheck xosh512End h2 (lt _ (by decide +kernel)) (lt 2 (by decide +kernel)) (lt 2 (by decide +kernel)) xosh512_ann xosh512Sq_check
  rw [ev_two] at this
  exact this.symm

set_option exponentiation.threshold 40000 in
theorem xosh512_period (v : S8) (hv : v ≠ 0) (n : Nat) : xosh512End^[n] v = v ↔ 2 ^ 512 - 1 ∣ n := by
  have lt : ∀ a, a < 2 ^ 600 → a < 2 ^ 32767 := fun a h => lt_of_lt_of_le h (Nat.pow_le_pow_right (by decide) (by decide))
  exact period_of_kron S8.add_self xosh512End xosh512Poly xosh512Mu 32 512 (by decide) (lt _ (by decide +kernel)) (by decide +kernel) xosh512_ann
    xosh512_frob xosh512Ord xosh512Ord_prime xosh512Ord_prod xosh512Ord_check v hv n

set_option exponentiation.threshold 40000 in
theorem xors1024_frob : xorsEnd ^ 2 ^ 1024 = xorsEnd := by
  have h2 := end_add_self N16.add_self
  have lt : ∀ a, a < 2 ^ 1100 → a < 2 ^ 32767 := fun a h => lt_of_lt_of_le h (Nat.pow_le_pow_right (by decide) (by decide))
  have := ev_of_sqCheck xorsEnd h2 (lt _ (by decide +kernel)) (lt 2 (by decide +kernel)) (lt 2 (by decide +kernel)) xors1024_ann xors1024Sq_check
  rw [ev_two] at this
  exact this.symm

set_option exponentiation.threshold 40000 in
theorem xors1024_period (v : N16) (hv : v ≠ 0) (n : Nat) : xorsEnd^[n] v = v ↔ 2 ^ 1024 - 1 ∣ n := by
  have lt : ∀ a, a < 2 ^ 1100 → a < 2 ^ 32767 := fun a h => lt_of_lt_of_le h (Nat.pow_le_pow_right (by decide) (by decide))
  exact period_of_kron N16.add_self xorsEnd xors1024Poly xors1024Mu 64 1024 (by decide) (lt _ (by decide +kernel)) (by decide +kernel) xors1024_ann
    xors1024_frob xors1024Ord xors1024Ord_prime xors1024Ord_prod xors1024Ord_check v hv n

end Verif.Linear
