import Verif.Proof.Xoro
import Verif.Proof.Xosh256
import Verif.Proof.Xosh512
import Verif.Proof.Xors1024

/-! Certificates for the jump tables: `x^(2^e)` modulo the annihilating polynomial. -/

namespace Verif.Linear
open Verif.GF2 Verif.Lanes Verif.XorLinear

section
variable {V : Type} [AddCommGroup V] (hV : ∀ v : V, v + v = 0)

theorem ev_two (T : AddMonoid.End V) : ev T 2 = T := by
  have := ev_two_mul T 1
  rw [ev_one, mul_one] at this
  exact this

include hV in
theorem jump_of_cert (T : AddMonoid.End V) (p d e : Nat) (table : List U64) (hd : 1 < d)
    (hp1 : p < 2 ^ (d + 1)) (hp2 : 2 ^ d ≤ p) (hp : ev T p = 0)
    (hc : sqn p d e 2 = ofWords table) (s : V) :
    (jumpLoop (fun a b => a + b) T table 0 s).1 = T^[2 ^ e] s := by
  have h2d : 2 < 2 ^ d := lt_of_lt_of_le (by decide : 2 < 2 ^ 2) (Nat.pow_le_pow_right (by decide) hd)
  rw [jumpLoop_eq hV, ← hc, ev_sqn' T (end_add_self hV) p d e 2 hp1 hp2 h2d hp, ev_two, pow_apply,
    zero_add]

include hV in
/-- The same, for a step function and accumulation written differently. -/
theorem jump_of_cert' (T : AddMonoid.End V) (f : V → V) (hf : ∀ v, f v = T v) (xor : V → V → V)
    (hxor : ∀ a b, xor a b = a + b) (z : V) (hz : z = 0) (p d e : Nat) (table : List U64) (hd : 1 < d)
    (hp1 : p < 2 ^ (d + 1)) (hp2 : 2 ^ d ≤ p) (hp : ev T p = 0)
    (hc : sqn p d e 2 = ofWords table) (s : V) :
    (jumpLoop xor f table z s).1 = f^[2 ^ e] s := by
  have h1 : f = T := funext hf
  have h2 : xor = fun a b => a + b := by funext a b; exact hxor a b
  rw [h1, h2, hz]
  exact jump_of_cert hV T p d e table hd hp1 hp2 hp hc s

include hV in
/-- An annihilating polynomial with constant term 1 makes the map invertible. -/
theorem injective_of_ann (T : AddMonoid.End V) (p : Nat) (hodd : p % 2 = 1) (hp : ev T p = 0) :
    Function.Injective T := by
  have h1 : ev T (p / 2) * T = 1 := by
    have h := ev_eq T p
    rw [hp, if_pos hodd, (commute_ev T _).eq] at h
    have h3 : (1 : AddMonoid.End V) + (1 + ev T (p / 2) * T) = 1 := by rw [← h, add_zero]
    rwa [← add_assoc, end_add_self hV, zero_add] at h3
  intro a b hab
  have := congrArg (fun f => f (T a)) h1
  calc a = (1 : AddMonoid.End V) a := rfl
    _ = (ev T (p / 2)) (T a) := by rw [← h1]; rfl
    _ = (ev T (p / 2)) (T b) := by rw [hab]
    _ = (1 : AddMonoid.End V) b := by rw [← h1]; rfl
    _ = b := rfl

include hV in
theorem surjective_of_ann (T : AddMonoid.End V) (p : Nat) (hodd : p % 2 = 1) (hp : ev T p = 0) :
    Function.Surjective T := by
  have h1 : T * ev T (p / 2) = 1 := by
    have h := ev_eq T p
    rw [hp, if_pos hodd] at h
    have h3 : (1 : AddMonoid.End V) + (1 + T * ev T (p / 2)) = 1 := by rw [← h, add_zero]
    rwa [← add_assoc, end_add_self hV, zero_add] at h3
  intro b
  refine ⟨ev T (p / 2) b, ?_⟩
  calc T (ev T (p / 2) b) = (T * ev T (p / 2)) b := rfl
    _ = b := by rw [h1]; rfl

end

theorem xoroPlus_cert : sqn xoroPlusPoly 128 64 2 = ofWords xoroPlusTable := by
  have h : sqnF xoroPlusPoly 8 64 2 = ofWords xoroPlusTable := by decide +kernel
  rw [sqnF_eq] at h; exact h

theorem xoroPP_cert : sqn xoroPPPoly 128 64 2 = ofWords xoroPPTable := by
  have h : sqnF xoroPPPoly 8 64 2 = ofWords xoroPPTable := by decide +kernel
  rw [sqnF_eq] at h; exact h

theorem xosh256_cert : sqn xosh256Poly 256 128 2 = ofWords xosh256Table := by
  have h : sqnF xosh256Poly 16 128 2 = ofWords xosh256Table := by decide +kernel
  rw [sqnF_eq] at h; exact h

theorem xosh512_cert : sqn xosh512Poly 512 256 2 = ofWords xosh512Table := by
  have h : sqnF xosh512Poly 32 256 2 = ofWords xosh512Table := by decide +kernel
  rw [sqnF_eq] at h; exact h

theorem xors1024_cert : sqn xors1024Poly 1024 512 2 = ofWords xors1024Table := by
  have h : sqnF xors1024Poly 64 512 2 = ofWords xors1024Table := by decide +kernel
  rw [sqnF_eq] at h; exact h

end Verif.Linear
