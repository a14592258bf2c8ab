import Verif.Proof.Mersenne
import Mathlib.Algebra.Group.Subgroup.Defs

/-! A linear map whose polynomial is the product of two coprime factors `φ` and `ψ`: the space splits into the kernels of
`φ(T)` and `ψ(T)`. If `2^p - 1` is a Mersenne prime and `φ` divides `x^(2^p) - x`, then `2^p - 1` divides every period of
a vector outside of the kernel of `ψ(T)`. -/

namespace Verif.Linear
open Verif.GF2

section
variable {V : Type} [AddCommGroup V] (hV : ∀ v : V, v + v = 0) (T : AddMonoid.End V)

theorem ev_comm (a b : Nat) (v : V) : ev T a (ev T b v) = ev T b (ev T a v) := by
  rw [← mul_apply, (commute_ev_ev T a b).eq, mul_apply]

theorem ev_iter_comm (a n : Nat) (v : V) : ev T a (T^[n] v) = T^[n] (ev T a v) := by
  rw [← pow_apply, ← pow_apply, ← mul_apply, ← ((commute_ev T a).pow_left n).eq, mul_apply]

/-- The kernel of `c(T)`. -/
def evKer (c : Nat) : AddSubgroup V where
  carrier := {v | ev T c v = 0}
  zero_mem' := map_zero (ev T c)
  add_mem' {a b} ha hb := by
    show ev T c (a + b) = 0
    rw [map_add, show ev T c a = 0 from ha, show ev T c b = 0 from hb, add_zero]
  neg_mem' {a} ha := by
    show ev T c (-a) = 0
    rw [map_neg, show ev T c a = 0 from ha, neg_zero]

/-- The map on the kernel of `c(T)`. -/
def kerT (c : Nat) : AddMonoid.End (evKer T c) where
  toFun v := ⟨T v.1, by
    have h : ev T c v.1 = 0 := v.2
    show ev T c (T v.1) = 0
    have := ev_iter_comm T c 1 v.1
    rw [Function.iterate_one] at this
    rw [this, h, map_zero]⟩
  map_zero' := Subtype.ext (map_zero T)
  map_add' a b := Subtype.ext (map_add T a.1 b.1)

theorem kerT_iter (c n : Nat) (v : evKer T c) : ((kerT T c)^[n] v).1 = T^[n] v.1 := by
  induction n generalizing v with
  | zero => rfl
  | succ n ih => rw [Function.iterate_succ_apply, ih, Function.iterate_succ_apply]; rfl

theorem ev_kerT (c b : Nat) (v : evKer T c) : (ev (kerT T c) b v).1 = ev T b v.1 := by
  induction b using Nat.strong_induction_on generalizing v with
  | _ b ih =>
    by_cases hb : b = 0
    · subst hb; rw [ev_zero, ev_zero]; rfl
    · rw [ev_eq (kerT T c), ev_eq T, add_apply, add_apply, mul_apply, mul_apply, ← ih (b / 2) (by omega) v]
      show ((if b % 2 = 1 then (1 : AddMonoid.End (evKer T c)) else 0) v).1 + T (ev (kerT T c) (b / 2) v).1 = _
      congr 1
      split_ifs <;> rfl

theorem ev_kerT_self (c : Nat) : ev (kerT T c) c = 0 := by
  ext v
  rw [ev_kerT]
  exact v.2

include hV in
theorem kerT_add_self (c : Nat) (v : evKer T c) : v + v = 0 := Subtype.ext (hV v.1)

/-- What a polynomial says about every map it annihilates. -/
def PolyPow (phi a b : Nat) : Prop := ∀ {R : Type} [_root_.Ring R] (t : R), (∀ x : R, x + x = 0) → ev t phi = 0 → t ^ a = t ^ b

include hV in
theorem ker_period (p : Nat) (hp : (2 ^ p - 1).Prime) {phi q : Nat} (hodd : phi % 2 = 1) (hq : phi = 1 ^^^ q ^^^ (2 * q)) (hf : PolyPow phi (2 ^ p) 1)
    {u : V} (hu : ev T phi u = 0) (hu0 : u ≠ 0) (n : Nat) : T^[n] u = u ↔ 2 ^ p - 1 ∣ n := by
  have h2 := kerT_add_self hV T phi
  have hf' := hf (kerT T phi) (end_add_self h2) (ev_kerT_self T phi)
  rw [pow_one] at hf'
  rw [← period_of_frob h2 (kerT T phi) p hp (ev_kerT_self T phi) hodd hq hf' (v := ⟨u, hu⟩) (fun h => hu0 (congrArg Subtype.val h)) n, Subtype.ext_iff, kerT_iter]

include hV in
theorem split_dvd (p : Nat) (hp : (2 ^ p - 1).Prime) {phi psi q : Nat} (hz : ev T phi * ev T psi = 0) (hodd : phi % 2 = 1) (hq : phi = 1 ^^^ q ^^^ (2 * q))
    (hf : PolyPow phi (2 ^ p) 1) {v : V} (hv : ev T psi v ≠ 0) {n : Nat} (hn : T^[n] v = v) : 2 ^ p - 1 ∣ n := by
  rw [← ker_period hV T p hp hodd hq hf (u := ev T psi v) (DFunLike.congr_fun hz v) hv n, ← ev_iter_comm, hn]

include hV in
theorem split_period (p : Nat) (hp : (2 ^ p - 1).Prime) {phi psi q u w : Nat} (hz : ev T phi * ev T psi = 0) (hodd : phi % 2 = 1)
    (hq : phi = 1 ^^^ q ^^^ (2 * q)) (hf : PolyPow phi (2 ^ p) 1) (hb : ev T u * ev T psi + ev T w * ev T phi = 1) {r : Nat} (hr : PolyPow psi r 0) (v : V) :
    T^[(2 ^ p - 1) * r] v = v := by
  have hv : ev T u (ev T psi v) + ev T w (ev T phi v) = v := DFunLike.congr_fun hb v
  have h1 : T^[(2 ^ p - 1) * r] (ev T psi v) = ev T psi v := by
    by_cases h0 : ev T psi v = 0
    · rw [h0, ← pow_apply, map_zero]
    · exact (ker_period hV T p hp hodd hq hf (DFunLike.congr_fun hz v) h0 _).2 (Nat.dvd_mul_right _ _)
  have h2 : T^[(2 ^ p - 1) * r] (ev T phi v) = ev T phi v := by
    have hk : ev T psi (ev T phi v) = 0 := by rw [ev_comm]; exact DFunLike.congr_fun hz v
    have hr' := hr (kerT T psi) (end_add_self (kerT_add_self hV T psi)) (ev_kerT_self T psi)
    rw [pow_zero] at hr'
    have e : T^[r] (ev T phi v) = ev T phi v := by
      have := congrArg Subtype.val (DFunLike.congr_fun hr' ⟨ev T phi v, hk⟩)
      rw [pow_apply, kerT_iter] at this
      exact this
    rw [Nat.mul_comm, Function.iterate_mul]
    exact Function.iterate_fixed e _
  conv_lhs => rw [← hv]
  rw [← pow_apply, map_add, pow_apply, pow_apply, ← ev_iter_comm T u, ← ev_iter_comm T w, h1, h2, hv]

variable (lam : V → Bool) (hlam : ∀ a b, lam (a + b) = (lam a ^^ lam b))

include hV hlam in
/-- If `lam` vanishes on the first images of `u0`, as many as the degree of a polynomial that annihilates `u0`, then on all. -/
theorem lam_all (e : Nat) {psi : Nat} (h1 : 2 ^ e ≤ psi) (h2 : psi < 2 ^ (e + 1)) (u0 : V) (hu : ev T psi u0 = 0) (h0 : ∀ k < e, lam (T^[k] u0) = false) (k : Nat) :
    lam (T^[k] u0) = false := by
  induction k using Nat.strong_induction_on with
  | _ k ih =>
    by_cases hk : k < e
    · exact h0 k hk
    · have hx : psi = (psi - 2 ^ e) ^^^ (1 <<< e) := by
        rw [Nat.shiftLeft_eq, Nat.one_mul]
        have hlt' : psi - 2 ^ e < 2 ^ e := by rw [pow_succ] at h2; omega
        have := Nat.two_pow_add_eq_or_of_lt hlt' 1
        rw [Nat.mul_one] at this
        apply Nat.eq_of_testBit_eq
        intro i
        conv_lhs => rw [show psi = 2 ^ e + (psi - 2 ^ e) by omega, this]
        rw [Nat.testBit_or, Nat.testBit_xor, Nat.testBit_two_pow]
        by_cases hi : e = i
        · subst hi; simp [Nat.testBit_lt_two_pow hlt']
        · simp [hi]
      have hs := ev_iter_comm T psi (k - e) u0
      rw [hu] at hs
      have hs0 : T^[k - e] (0 : V) = 0 := by rw [← pow_apply, map_zero]
      rw [hs0] at hs
      generalize hw : psi - 2 ^ e = psi' at hx
      rw [hx, ev_xor T (end_add_self hV), ev_shiftLeft, ev_one, mul_one, add_apply, pow_apply, ← Function.iterate_add_apply, show e + (k - e) = k by omega] at hs
      have := congrArg lam hs
      rw [hlam, lam_ev T lam hlam e _ (fun j hj => by rw [← Function.iterate_add_apply]; exact ih _ (by omega)) psi' (by rw [pow_succ] at h2; omega)] at this
      have hz : lam 0 = false := by
        have := hlam 0 0
        rw [add_zero, Bool.xor_self] at this; exact this
      rw [hz, Bool.false_xor] at this
      exact this

include hV hlam in
/-- The kernel of `ψ(T)` is invisible to `lam`. -/
theorem lam_ker (e : Nat) {phi psi u w : Nat} (h1 : 2 ^ e ≤ psi) (h2 : psi < 2 ^ (e + 1)) (hz : ev T phi * ev T psi = 0)
    (hb : ev T u * ev T psi + ev T w * ev T phi = 1) (v0 : V) (hc : ∀ v, ∃ c, v = ev T c v0) (h0 : ∀ k < e, lam (T^[k] (ev T phi v0)) = false)
    {v : V} (hv : ev T psi v = 0) : lam v = false := by
  have hu : ev T psi (ev T phi v0) = 0 := by rw [ev_comm]; exact DFunLike.congr_fun hz v0
  have hall := lam_all hV T lam hlam e h1 h2 _ hu h0
  have hvb : ev T u (ev T psi v) + ev T w (ev T phi v) = v := DFunLike.congr_fun hb v
  rw [hv, map_zero, zero_add, ev_comm] at hvb
  obtain ⟨c, hc⟩ := hc (ev T w v)
  rw [hc, ev_comm] at hvb
  rw [← hvb]
  exact lam_ev T lam hlam c _ (fun k _ => hall k) c Nat.lt_two_pow_self

end

end Verif.Linear
