import Verif.Proof.Equidist
import Verif.Common.Counts

/-! Half a period of a linear map of full period is its square root: `T^(2^(d-1))`, given by a polynomial whose square is `x`. -/

set_option exponentiation.threshold 600

namespace Verif.Linear
open Verif.GF2 Verif.XorLinear Verif.Orbit

section
variable {R : Type} [_root_.Ring R] (t : R) (h2 : ∀ r : R, r + r = 0)
include h2

/-- Squaring a polynomial over GF(2). -/
theorem ev_sq (n : Nat) : ev t n * ev t n = ev (t * t) n := by
  induction n using Nat.strongRecOn with
  | _ n ih =>
    by_cases h : n = 0
    · subst h; rw [ev_zero, ev_zero, mul_zero]
    · have ih' := ih (n / 2) (by omega)
      have hc : ev t (n / 2) * t = t * ev t (n / 2) := (commute_ev t (n / 2)).eq.symm
      have e : t * ev t (n / 2) * (t * ev t (n / 2)) = t * t * ev (t * t) (n / 2) := by
        rw [← ih', mul_assoc, ← mul_assoc (ev t (n / 2)) t, hc]
        simp only [mul_assoc]
      rw [ev_eq t n, ev_eq (t * t) n]
      split
      · rw [add_mul, mul_add, mul_add, one_mul, one_mul, mul_one, e, add_assoc, ← add_assoc (t * ev t (n / 2)) (t * ev t (n / 2)), h2, zero_add]
      · rw [zero_add, zero_add, e]

theorem ev_frob (n k : Nat) : ev t n ^ 2 ^ k = ev (t ^ 2 ^ k) n := by
  induction k with
  | zero => rw [pow_zero, pow_one, pow_one]
  | succ k ih => rw [pow_succ, pow_mul, ih, pow_two, ev_sq _ h2, pow_mul, pow_two]

/-- The square root of `t` among its polynomials, when `t^(2^d) = t`. -/
theorem root_eq (d : Nat) (hd : 0 < d) (ht : t ^ 2 ^ d = t) (r : Nat) (hr : ev t r * ev t r = t) : t ^ 2 ^ (d - 1) = ev t r := by
  have h := ev_frob t h2 r d
  rw [ht] at h
  obtain ⟨e, rfl⟩ : ∃ e, d = e + 1 := ⟨d - 1, by omega⟩
  rw [← h, pow_succ', pow_mul, pow_two, hr, Nat.add_sub_cancel]

end

section
variable {V : Type} [AddCommGroup V] (hV : ∀ v : V, v + v = 0) {T : AddMonoid.End V} {d : Nat}

/-- From any non-zero state, the states half a period apart are `T w` and `T^(2^(d-1)) w`, for any `w`. -/
theorem half_shift (hd : 0 < d) (hc : Nat.card V = 2 ^ d) (hp : ∀ v : V, v ≠ 0 → ∀ n, T^[n] v = v ↔ 2 ^ d - 1 ∣ n) {v w : V} (hv : v ≠ 0) (hw : w ≠ 0) :
    ∃ k, T^[k] v = T w ∧ T^[k + (2 ^ d - 1) / 2] v = T^[2 ^ (d - 1)] w := by
  obtain ⟨k, ⟨_, hk⟩, _⟩ := unique_of_period hd hc hp hv (ne_zero_of_period hd hp hw)
  refine ⟨k, hk, ?_⟩
  rw [Nat.add_comm, Function.iterate_add_apply, hk, ← Function.iterate_succ_apply]
  congr 2
  obtain ⟨e, rfl⟩ : ∃ e, d = e + 1 := ⟨d - 1, by omega⟩
  have := Nat.two_pow_pos e
  rw [pow_succ, Nat.add_sub_cancel]
  omega

include hV in
/-- The second of them, computed. -/
theorem half_eval (p : Nat) (table : List U64) (hd : 1 < d) (hp1 : p < 2 ^ (d + 1)) (hp2 : 2 ^ d ≤ p) (hp : ev T p = 0) (hT : T ^ 2 ^ d = T)
    (ht : ofWords table < 2 ^ d) (hr : sqn p d 1 (ofWords table) = 2) (w : V) :
    T^[2 ^ (d - 1)] w = (jumpLoop (fun a b => a + b) T table 0 w).1 := by
  have h2 := end_add_self hV
  have h := ev_sqn' T h2 p d 1 _ hp1 hp2 ht hp
  rw [hr, ev_two, pow_one, pow_two] at h
  rw [jumpLoop_eq hV, zero_add, ← root_eq T h2 d (by omega) hT _ h.symm, pow_apply]

theorem frob_of_period (hp : ∀ v : V, v ≠ 0 → ∀ n, T^[n] v = v ↔ 2 ^ d - 1 ∣ n) : T ^ 2 ^ d = T := by
  ext v
  rw [pow_apply]
  by_cases hv : v = 0
  · rw [hv, iterate_map_zero, map_zero]
  · have h := (hp v hv (2 ^ d - 1)).2 (dvd_refl _)
    obtain ⟨m, hm⟩ : ∃ m, 2 ^ d = m + 1 := ⟨2 ^ d - 1, by have := Nat.two_pow_pos d; omega⟩
    rw [hm, Nat.add_sub_cancel] at h
    rw [hm, Function.iterate_succ_apply', h]

end

/-! ### The square roots -/

def xoroPlusRoot : List U64 := [0x25aa87f3c2704c69#64, 0xa9495c12936ad0fd#64]
def xoroPPRoot : List U64 := [0x3a4c5cfa6d09d808#64, 0x657233c775462435#64]
def xosh256Root : List U64 := [0x5b7b491f49ccffcc#64, 0xae7f8689b0bbd6a0#64, 0x13865b737d9739bc#64, 0x6c132e0c5374c916#64]
def xosh512Root : List U64 := [0xdc6b0693a55d9269#64, 0xa3ddbd6209431ac7#64, 0xd095dc4a364562cb#64, 0x8bba1b57cbf6a35e#64, 0xd69780d8948387ff#64,
  0x6195208d9ba82e03#64, 0x5617cfefc0a55e92#64, 0x12d0995390709605#64]

theorem xoroPlus_half (w : S2) : xoroPlusEnd^[2 ^ 127] w = (jumpLoop (fun a b => a + b) xoroPlusEnd xoroPlusRoot 0 w).1 :=
  half_eval S2.add_self xoroPlusPoly xoroPlusRoot (d := 128) (by decide) (by decide +kernel) (by decide +kernel) xoroPlus_ann
    (frob_of_period xoroPlus_period) (by decide +kernel) (by decide +kernel) w

theorem xoroPP_half (w : S2) : xoroPPEnd^[2 ^ 127] w = (jumpLoop (fun a b => a + b) xoroPPEnd xoroPPRoot 0 w).1 :=
  half_eval S2.add_self xoroPPPoly xoroPPRoot (d := 128) (by decide) (by decide +kernel) (by decide +kernel) xoroPP_ann
    (frob_of_period xoroPP_period) (by decide +kernel) (by decide +kernel) w

theorem xosh256_half (w : S4) : xosh256End^[2 ^ 255] w = (jumpLoop (fun a b => a + b) xosh256End xosh256Root 0 w).1 :=
  half_eval S4.add_self xosh256Poly xosh256Root (d := 256) (by decide) (by decide +kernel) (by decide +kernel) xosh256_ann
    (frob_of_period xosh256_period) (by decide +kernel) (by decide +kernel) w

theorem xosh512_half (w : S8) : xosh512End^[2 ^ 511] w = (jumpLoop (fun a b => a + b) xosh512End xosh512Root 0 w).1 :=
  half_eval S8.add_self xosh512Poly xosh512Root (d := 512) (by decide) (by decide +kernel) (by decide +kernel) xosh512_ann
    (frob_of_period xosh512_period) (by decide +kernel) (by decide +kernel) w

end Verif.Linear
