import Verif.Common.Cyclic
import Mathlib.NumberTheory.LucasLehmer

/-! The Mersenne prime `2^19937 - 1`, and the exact period of a linear map whose polynomial divides `x^(2^p) - x` for a
Mersenne prime `2^p - 1`. -/

namespace Verif.Linear
open Verif.GF2

/-- One step of the test of Lucas and Lehmer. -/
def llStep (q s : Nat) : Nat := Nat.mod (Nat.add (Nat.mul s s) (Nat.sub q 2)) q

theorem ll_iter (q : Nat) (hq : 4 < q) (k : Nat) : LucasLehmer.norm_num_ext.sModNat q k = (llStep q)^[k] 4 := by
  induction k with
  | zero => exact Nat.mod_eq_of_lt hq
  | succ k ih =>
    rw [Function.iterate_succ_apply', ← ih, LucasLehmer.norm_num_ext.sModNat, pow_two]
    rfl

theorem mersenne_prime_of_iter (p : Nat) (hp : 3 ≤ p) (hlt : p < 2 ^ 15) (h : iterBits (llStep (Nat.sub (Nat.pow 2 p) 1)) (p - 2) 15 4 = 0) : (2 ^ p - 1).Prime := by
  have h8 : 2 ^ 3 ≤ 2 ^ p := Nat.pow_le_pow_right (by decide) hp
  apply lucas_lehmer_sufficiency p (by omega)
  show LucasLehmer.lucasLehmerResidue p = 0
  rw [LucasLehmer.residue_eq_zero_iff_sMod_eq_zero p (by omega), ← LucasLehmer.norm_num_ext.sModNat_eq_sMod p _ (by omega), ll_iter _ (by omega)]
  rw [iterBits_eq, Nat.mod_eq_of_lt (by omega)] at h
  exact_mod_cast h

theorem mersenne_19937 : (2 ^ 19937 - 1).Prime :=
  mersenne_prime_of_iter 19937 (by decide) (by decide) (by decide +kernel)

section
variable {V : Type} [AddCommGroup V] (hV : ∀ v : V, v + v = 0) (T : AddMonoid.End V)
include hV

/-- With a polynomial that is not divisible by `x`, the map is injective. -/
theorem inj_of_ann {chi : Nat} (h : ev T chi = 0) (hodd : chi % 2 = 1) : Function.Injective T := by
  have h1 : (1 : AddMonoid.End V) = T * ev T (chi / 2) := by
    rw [ev_eq, if_pos hodd] at h
    have h2 := end_add_self hV (T * ev T (chi / 2))
    exact (add_right_cancel (h.trans h2.symm))
  intro a b hab
  have key : ∀ v, v = ev T (chi / 2) (T v) := fun v => by
    have := DFunLike.congr_fun h1 v
    rw [(commute_ev T _).eq] at this
    exact this
  rw [key a, key b, hab]

/-- With a polynomial that is not divisible by `x + 1`, only zero is fixed. -/
theorem fixed_of_ann {chi q : Nat} (h : ev T chi = 0) (hq : chi = 1 ^^^ q ^^^ (2 * q)) {v : V} (hv : T v = v) : v = 0 := by
  rw [hq, ev_xor T (end_add_self hV), ev_xor T (end_add_self hV), ev_one, ev_two_mul, (commute_ev T _).eq] at h
  have := DFunLike.congr_fun h v
  rw [add_apply, add_apply, mul_apply, hv, add_assoc, hV, add_zero] at this
  exact this

/-- The exact period. -/
theorem period_of_frob (p : Nat) (hp : (2 ^ p - 1).Prime) {chi q : Nat} (h : ev T chi = 0) (hodd : chi % 2 = 1) (hq : chi = 1 ^^^ q ^^^ (2 * q))
    (hf : T ^ 2 ^ p = T) {v : V} (hv : v ≠ 0) (n : Nat) : T^[n] v = v ↔ 2 ^ p - 1 ∣ n := by
  have hinj := inj_of_ann hV T h hodd
  have hM : ∀ u, T^[2 ^ p - 1] u = u := fun u => by
    apply hinj
    have h1 : 2 ^ p = 2 ^ p - 1 + 1 := (Nat.sub_add_cancel (Nat.one_le_two_pow)).symm
    have := DFunLike.congr_fun hf u
    rw [pow_apply, h1, Function.iterate_succ_apply'] at this
    exact this
  constructor
  · intro hn
    by_contra hd
    have hc : Nat.gcd (2 ^ p - 1) n = 1 := (Nat.Prime.coprime_iff_not_dvd hp).2 hd
    have hg := Function.IsPeriodicPt.gcd (f := T) (x := v) (hM v) hn
    rw [hc] at hg
    exact hv (fixed_of_ann hV T h hq hg)
  · rintro ⟨k, rfl⟩
    rw [Function.iterate_mul]
    have : (T^[2 ^ p - 1]) = id := funext hM
    rw [this, Function.iterate_id]
    rfl

end

end Verif.Linear
