import Verif.Common.Kron
import Verif.Proof.JumpCert
import Verif.Common.Prime

/-! Powers of `x` modulo a polynomial over GF(2) by the squarings of `Verif.Common.Kron`, and a certificate for the exact
order of a linear map. -/

namespace Verif.GF2

/-- `x` times the spread polynomial `a`, reduced by the spread polynomial `m` of degree `sh / 16`; 0 if the result is not small. -/
def mulx (m sh bnd a : Nat) : Nat :=
  force (Nat.mul 65536 a) fun b => force (bif Nat.testBit b sh then Nat.xor b m else b) fun r => bif Nat.blt r bnd then r else 0

/-- `a^(2^n) x^e`, `e` read from its `n` low bits, most significant first. -/
def powRed (mask m mu sh bnd e : Nat) : Nat → Nat → Nat
  | 0, a => a
  | n + 1, a => force (sqred mask m mu sh bnd a) fun s =>
      force (bif Nat.beq (Nat.mod (Nat.shiftRight e n) 2) 1 then mulx m sh bnd s else s) fun r => powRed mask m mu sh bnd e n r

theorem mulx_zero (m sh bnd : Nat) : mulx m sh bnd 0 = 0 := by
  have e : Nat.mul 65536 0 = 0 := rfl
  rw [mulx, force_eq, force_eq, e, Nat.zero_testBit]
  show (bif Nat.blt 0 bnd then 0 else 0) = 0
  cases Nat.blt 0 bnd <;> rfl

theorem powRed_zero (m mu sh bnd e n : Nat) : powRed (ones 16) m mu sh bnd e n 0 = 0 := by
  induction n with
  | zero => rfl
  | succ n ih =>
    rw [powRed, force_eq, force_eq, sqred_zero, mulx_zero]
    cases Nat.beq (Nat.mod (Nat.shiftRight e n) 2) 1 <;> exact ih

section
variable {R : Type} [Ring R] (t : R) (h2 : ∀ x : R, x + x = 0)
include h2

omit t h2 in
theorem dig_mul_base {a : Nat} (h : Dig 1 a) : Dig 1 (65536 * a) :=
  dig_of (by rw [Nat.mul_mod_right]; omega) (by rw [Nat.mul_div_cancel_left _ (by decide)]; exact h)

theorem ev_mulx {m sh bnd a : Nat} (hm : Spr m) (hm0 : ev t (uns m) = 0) (hbnd : bnd = 65536 ^ 32767) (ha : Spr a)
    (hne : mulx m sh bnd a ≠ 0) : Spr (mulx m sh bnd a) ∧ ev t (uns (mulx m sh bnd a)) = ev t (uns a) * t := by
  rw [mulx, force_eq, force_eq] at hne ⊢
  have key : ∀ c, (Dig 1 c ∧ ev t (uns c) = ev t (uns a) * t) → (bif Nat.blt c bnd then c else 0) ≠ 0 →
      Spr (bif Nat.blt c bnd then c else 0) ∧ ev t (uns (bif Nat.blt c bnd then c else 0)) = ev t (uns a) * t := by
    intro c hc hne
    cases hb : Nat.blt c bnd with
    | false => rw [hb] at hne; exact absurd rfl hne
    | true => exact ⟨⟨hc.1, by rw [← hbnd]; exact Nat.le_of_ble_eq_true hb⟩, hc.2⟩
  have h1 : Dig 1 (65536 * a) ∧ ev t (uns (65536 * a)) = ev t (uns a) * t := by
    refine ⟨dig_mul_base ha.1, ?_⟩
    rw [uns_mul_base, ev_two_mul, (commute_ev t (uns a)).eq]
  apply key _ _ hne
  cases Nat.testBit (Nat.mul 65536 a) sh with
  | false => exact h1
  | true =>
    refine ⟨dig_xor h1.1 hm.1, ?_⟩
    show ev t (uns (65536 * a ^^^ m)) = _
    rw [uns_xor, ev_xor t h2, hm0, add_zero, h1.2]

theorem ev_powRed {m mu sh bnd e : Nat} (hm : Spr m) (hm0 : ev t (uns m) = 0) (hbnd : bnd = 65536 ^ 32767) (hsh : sh % 16 = 0)
    (n a : Nat) (ha : Spr a) (hne : powRed (ones 16) m mu sh bnd e n a ≠ 0) :
    ev t (uns (powRed (ones 16) m mu sh bnd e n a)) = ev t (uns a) ^ 2 ^ n * t ^ (e % 2 ^ n) := by
  induction n generalizing a with
  | zero => rw [powRed, pow_zero, pow_one, Nat.mod_one, pow_zero, mul_one]
  | succ n ih =>
    have hb : e % 2 ^ (n + 1) = ((e >>> n) % 2) * 2 ^ n + e % 2 ^ n := by
      rw [Nat.mod_pow_succ, Nat.shiftRight_eq_div_pow, Nat.mul_comm, Nat.add_comm]
    rw [powRed, force_eq, force_eq] at hne ⊢
    have h1 : sqred (ones 16) m mu sh bnd a ≠ 0 := by
      intro h
      rw [h, mulx_zero] at hne
      cases hbit : Nat.beq (Nat.mod (Nat.shiftRight e n) 2) 1 <;> rw [hbit] at hne <;> exact hne (powRed_zero m mu sh bnd e n)
    obtain ⟨i1, i2⟩ := ev_sqred t h2 (mu := mu) hm hm0 hbnd hsh ha h1
    cases hbit : Nat.beq (Nat.mod (Nat.shiftRight e n) 2) 1 with
    | true =>
      rw [hbit] at hne
      have hbit : (e >>> n) % 2 = 1 := Nat.eq_of_beq_eq_true hbit
      have h3 : mulx m sh bnd (sqred (ones 16) m mu sh bnd a) ≠ 0 := by
        intro h
        rw [cond_true, h] at hne
        exact hne (powRed_zero m mu sh bnd e n)
      obtain ⟨j1, j2⟩ := ev_mulx t h2 (sh := sh) hm hm0 hbnd i1 h3
      have := ih _ j1 hne
      have hc : Commute (ev t (uns a) ^ 2) t := ((commute_ev t (uns a)).pow_right 2).symm
      rw [cond_true, this, j2, i2, hb, hbit, hc.mul_pow, ← pow_mul, ← pow_succ', mul_assoc, ← pow_add, Nat.one_mul]
    | false =>
      rw [hbit] at hne
      have hbit : (e >>> n) % 2 = 0 := by
        have : ¬ (e >>> n) % 2 = 1 := Nat.ne_of_beq_eq_false hbit
        omega
      have := ih _ i1 hne
      rw [cond_false, this, i2, hb, hbit, Nat.zero_mul, Nat.zero_add, ← pow_mul, pow_succ']

/-- The check of a certificate: `x^e = r` modulo `m` (of degree `d`), `e < 2^n`. -/
def powCheck (m mu d e n r : Nat) : Bool :=
  force (ones 16) fun mask => force (spread 12 m) fun ms => force (spread 12 mu) fun mus => force (Nat.pow 65536 32767) fun bnd =>
    force (Nat.mul 16 d) fun sh => force (powRed mask ms mus sh bnd e n (spread 12 1)) fun a =>
      and (Nat.beq a (spread 12 r)) (not (Nat.beq a 0))

theorem ev_of_powCheck {m mu d e n r : Nat} (hm : m < 2 ^ 32767) (hr : r < 2 ^ 32767) (he : e < 2 ^ n) (hm0 : ev t m = 0)
    (h : powCheck m mu d e n r = true) : ev t r = t ^ e := by
  simp only [powCheck, force_eq, Bool.and_eq_true, Bool.not_eq_true'] at h
  obtain ⟨h1, h3⟩ := h
  have h1 := Nat.eq_of_beq_eq_true h1
  have h3 := Nat.ne_of_beq_eq_false h3
  have o : 1 < 2 ^ 32767 := Nat.one_lt_two_pow (by decide)
  have := ev_powRed t h2 (mu := spread 12 mu) (sh := Nat.mul 16 d) (bnd := Nat.pow 65536 32767) (spr_spread hm) (by rw [uns_spread' hm]; exact hm0) rfl
    (Nat.mul_mod_right 16 d) n _ (spr_spread o) h3
  rw [h1, uns_spread' hr, uns_spread' o, ev_one, one_pow, one_mul, Nat.mod_eq_of_lt he] at this
  exact this

end
end Verif.GF2

namespace Verif.Linear
open Verif.GF2

/-- The certificate for one prime factor `q` of `2^e - 1`: `x^((2^e - 1)/q) = r` modulo `p` of degree `16 j`, and `r - 1` has the inverse `u`. -/
def ordCheck (p mu j e q r u : Nat) : Bool :=
  force (Nat.div (Nat.sub (Nat.pow 2 e) 1) q) fun m =>
    powCheck p mu (Nat.mul 16 j) m e r && Nat.blt r (Nat.pow 2 (Nat.mul 16 j)) && Nat.blt u (Nat.pow 2 (Nat.mul 16 j)) &&
      Nat.beq (mulmodF p j (Nat.xor r 1) u) 1

/-- The order of a linear map annihilated by `p`, from the certificates. -/
theorem period_of_kron {V : Type} [AddCommGroup V] (hV : ∀ v : V, v + v = 0) (T : AddMonoid.End V) (p mu j e : Nat) (hj : 16 * j < 32767)
    (hp1 : p < 2 ^ 32767) (hodd : p % 2 = 1) (hp : ev T p = 0) (hf : T ^ 2 ^ e = T) (cs : List (Nat × Nat × Nat)) (hq : ∀ c ∈ cs, c.1.Prime)
    (hN : (cs.map Prod.fst).prod = 2 ^ e - 1) (hc : ∀ c ∈ cs, ordCheck p mu j e c.1 c.2.1 c.2.2 = true) (v : V) (hv : v ≠ 0) (n : Nat) : T^[n] v = v ↔ 2 ^ e - 1 ∣ n := by
  have h2 := end_add_self hV
  have hinj := injective_of_ann hV T p hodd hp
  have h1 : T ^ (2 ^ e - 1) = 1 := by
    ext v
    apply hinj
    calc T ((T ^ (2 ^ e - 1)) v) = (T * T ^ (2 ^ e - 1)) v := rfl
      _ = (T ^ (2 ^ e)) v := by rw [← pow_succ', Nat.sub_add_cancel (Nat.two_pow_pos e)]
      _ = T v := by rw [hf]
  refine period_of_cert T (2 ^ e - 1) h1 ?_ v hv n
  intro q hq' hqd w hw
  rw [← hN, Prime.dvd_prod_iff hq'.prime] at hqd
  obtain ⟨r, hr, hqr⟩ := hqd
  obtain ⟨c, hcm, rfl⟩ := List.mem_map.1 hr
  rw [(Nat.prime_dvd_prime_iff_eq hq' (hq c hcm)).mp hqr] at hw
  have := hc c hcm
  simp only [ordCheck, force_eq, Bool.and_eq_true] at this
  obtain ⟨⟨⟨c1, c2⟩, c3⟩, c4⟩ := this
  have c2 : c.2.1 < 2 ^ (16 * j) := Nat.le_of_ble_eq_true c2
  have c3 : c.2.2 < 2 ^ (16 * j) := Nat.le_of_ble_eq_true c3
  have c4 := Nat.eq_of_beq_eq_true c4
  rw [mulmodF_eq] at c4
  have hlt : (2 ^ e - 1) / c.1 < 2 ^ e := lt_of_le_of_lt (Nat.div_le_self _ _) (Nat.sub_lt (Nat.two_pow_pos e) (by decide))
  have hpow : ev T c.2.1 = T ^ ((2 ^ e - 1) / c.1) :=
    ev_of_powCheck T h2 hp1 (lt_of_lt_of_le c2 (Nat.pow_le_pow_right (by decide) (le_of_lt hj))) hlt hp c1
  have hmul := ev_mulmod T h2 p (16 * j) (Nat.xor c.2.1 1) c.2.2 hp c3
  rw [c4, ev_one, show Nat.xor c.2.1 1 = c.2.1 ^^^ 1 from rfl, (commute_ev_ev T _ _).eq, ev_xor T h2, hpow, ev_one] at hmul
  have hz : (T ^ ((2 ^ e - 1) / c.1) + 1) w = 0 := by rw [add_apply, hw]; exact hV w
  calc w = (ev T c.2.2 * (T ^ ((2 ^ e - 1) / c.1) + 1)) w := by rw [← hmul]; rfl
    _ = ev T c.2.2 ((T ^ ((2 ^ e - 1) / c.1) + 1) w) := rfl
    _ = 0 := by rw [hz, map_zero]

end Verif.Linear
