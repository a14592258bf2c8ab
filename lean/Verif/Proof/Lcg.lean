import Verif.Model.Pcg64
import Mathlib.Data.BitVec
import Mathlib.Tactic.Ring
import Mathlib.Tactic.LinearCombination
import Mathlib.Algebra.Ring.GeomSum
import Mathlib.Data.Nat.ModEq
import Mathlib.Data.Int.ModEq

/-! Generic theory of affine maps `x ↦ a x + c` on `BitVec w`. -/

namespace Verif.Pcg

variable {w : Nat}

/-- Iterated affine map. -/
theorem affine_iterate_two (a c : BitVec w) (n : Nat) (x : BitVec w) :
    (fun x => a * x + c)^[2 * n] x = (fun x => (a * a) * x + (a + 1) * c)^[n] x := by
  induction n generalizing x with
  | zero => rfl
  | succ n ih =>
    rw [Nat.mul_add, Function.iterate_add_apply, ih]
    conv_rhs => rw [Function.iterate_succ_apply]
    congr 1
    show a * (a * x + c) + c = _
    ring

theorem affine_iterate_sub (a c x y : BitVec w) (n : Nat) :
    (fun x => a * x + c)^[n] x - (fun x => a * x + c)^[n] y = a ^ n * (x - y) := by
  induction n with
  | zero => simp
  | succ n ih =>
    rw [Function.iterate_succ_apply', Function.iterate_succ_apply', pow_succ', mul_assoc, ← ih]
    ring

theorem toNat_two (hw : 2 ≤ w) : (2#w).toNat = 2 := by
  rw [BitVec.toNat_ofNat]
  apply Nat.mod_eq_of_lt
  calc 2 < 2 ^ 2 := by decide
    _ ≤ 2 ^ w := Nat.pow_le_pow_right (by decide) hw

theorem odd_test (hw : 2 ≤ w) (d : BitVec w) : d &&& 1#w ≠ 0#w ↔ d.toNat % 2 = 1 := by
  have h1 : (1#w).toNat = 1 := by
    rw [BitVec.toNat_ofNat]
    exact Nat.mod_eq_of_lt (Nat.one_lt_two_pow (by omega))
  rw [ne_eq, ← BitVec.toNat_inj, BitVec.toNat_and, h1, Nat.and_one_is_mod]
  simp

/-- Loop invariant of Brown's algorithm. -/
theorem advLoop_spec (hw : 2 ≤ w) (n : Nat) : ∀ (d cm cp am ap s : BitVec w), d.toNat = n →
    (advLoop d cm cp am ap).1 * s + (advLoop d cm cp am ap).2 =
      (fun x => cm * x + cp)^[n] (am * s + ap) := by
  induction n using Nat.strongRecOn with
  | ind n ih =>
    intro d cm cp am ap s hd
    rw [advLoop]
    by_cases h : d.toNat > 0
    · rw [dif_pos h]
      have hdiv : (d / 2#w).toNat = n / 2 := by rw [BitVec.toNat_udiv, toNat_two hw, hd]
      have hlt : n / 2 < n := Nat.div_lt_self (by omega) (by decide)
      rw [ih (n / 2) hlt _ _ _ _ _ _ hdiv]
      rw [← affine_iterate_two]
      by_cases ho : d &&& 1#w ≠ 0#w
      · have := (odd_test hw d).mp ho
        rw [if_pos ho]
        conv_rhs => rw [show n = 2 * (n / 2) + 1 by omega, Function.iterate_succ_apply]
        congr 1
        ring
      · have : ¬ d.toNat % 2 = 1 := fun h' => ho ((odd_test hw d).mpr h')
        rw [if_neg ho]
        conv_rhs => rw [show n = 2 * (n / 2) by omega]
    · rw [dif_neg h]
      have : n = 0 := by omega
      simp [this]

/-- Brown's advance equals that many steps. -/
theorem advanceLcg_eq (hw : 2 ≤ w) (s d m c : BitVec w) :
    advanceLcg s d m c = (lcgStep m c)^[d.toNat] s := by
  have h := advLoop_spec hw d.toNat d m c 1 0 s rfl
  have e : (lcgStep m c) = (fun x => m * x + c) := by
    funext x; unfold lcgStep; ring
  rw [e]
  simpa [advanceLcg] using h

/-! ### Powers of two -/

/-- Every affine map with odd multiplier has order dividing `2^w`. -/
theorem geom_two_pow_dvd (a : Nat) (ha : a % 2 = 1) (k : Nat) :
    2 ^ k ∣ ∑ i ∈ Finset.range (2 ^ k), a ^ i := by
  induction k with
  | zero => simp
  | succ k ih =>
    have hs : ∑ i ∈ Finset.range (2 ^ (k + 1)), a ^ i =
        (∑ i ∈ Finset.range (2 ^ k), a ^ i) * (1 + a ^ (2 ^ k)) := by
      rw [show 2 ^ (k + 1) = 2 ^ k + 2 ^ k by ring, Finset.sum_range_add, mul_add, mul_one,
        Finset.sum_mul]
      congr 1
      apply Finset.sum_congr rfl
      intro i _; ring
    rw [hs, pow_succ]
    apply Nat.mul_dvd_mul ih
    have : a ^ (2 ^ k) % 2 = 1 := by rw [Nat.pow_mod, ha]; simp
    omega

/-- For `a ≡ 1 (mod 4)` the geometric sum has the same 2-adic valuation as its length. -/
theorem geom_dvd_iff (a : Nat) (ha : a % 4 = 1) (k : Nat) : ∀ n : Nat,
    2 ^ k ∣ (∑ i ∈ Finset.range n, a ^ i) ↔ 2 ^ k ∣ n := by
  induction k with
  | zero => simp
  | succ k ih =>
    intro n
    have hpar : ∀ n, (∑ i ∈ Finset.range n, a ^ i) % 2 = n % 2 := by
      intro n
      induction n with
      | zero => simp
      | succ n ihn =>
        rw [Finset.sum_range_succ]
        have : a ^ n % 2 = 1 := by
          rw [Nat.pow_mod, show a % 2 = 1 by omega]; simp
        omega
    rcases Nat.even_or_odd' n with ⟨m, hm | hm⟩
    · have hs : ∑ i ∈ Finset.range n, a ^ i = (∑ i ∈ Finset.range m, a ^ i) * (1 + a ^ m) := by
        rw [hm, two_mul, Finset.sum_range_add, mul_add, mul_one, Finset.sum_mul]
        congr 1
        apply Finset.sum_congr rfl
        intro i _; ring
      have h4 : a ^ m % 4 = 1 := by rw [Nat.pow_mod, ha]; simp
      obtain ⟨q, hq⟩ : ∃ q, 1 + a ^ m = 2 * (2 * q + 1) := ⟨a ^ m / 4, by omega⟩
      rw [hs, hq, hm, pow_succ, mul_comm (2 ^ k) 2]
      rw [show (∑ i ∈ Finset.range m, a ^ i) * (2 * (2 * q + 1)) =
        2 * ((∑ i ∈ Finset.range m, a ^ i) * (2 * q + 1)) by ring]
      rw [Nat.mul_dvd_mul_iff_left (by decide), Nat.mul_dvd_mul_iff_left (by decide)]
      rw [← ih m]
      have hc : Nat.Coprime (2 ^ k) (2 * q + 1) := by
        apply Nat.Coprime.pow_left
        rw [Nat.coprime_iff_gcd_eq_one, Nat.gcd_rec]
        simp [Nat.add_mod]
      exact ⟨fun h => hc.dvd_of_dvd_mul_right h, fun h => Dvd.dvd.mul_right h _⟩
    · have h1 := hpar n
      constructor
      · intro h
        have : 2 ∣ ∑ i ∈ Finset.range n, a ^ i := (dvd_pow_self 2 (by omega)).trans h
        omega
      · intro h
        have : 2 ∣ n := (dvd_pow_self 2 (by omega)).trans h
        omega

/-- `n` affine steps in closed form. -/
theorem affine_iterate_closed (a c s : BitVec w) (n : Nat) :
    (lcgStep a c)^[n] s =
      a ^ n * s + c * ((∑ i ∈ Finset.range n, a.toNat ^ i : Nat) : BitVec w) := by
  induction n with
  | zero => simp
  | succ n ih =>
    rw [Function.iterate_succ_apply', ih, lcgStep, Finset.sum_range_succ_comm]
    have hcast : ((a.toNat : Nat) : BitVec w) = a := by simp
    have hg : (a - 1) * ((∑ i ∈ Finset.range n, a.toNat ^ i : Nat) : BitVec w) = a ^ n - 1 := by
      have := mul_geom_sum a n
      rw [← this]; push_cast; rw [hcast]
    push_cast
    rw [hcast]
    push_cast [hcast] at hg
    linear_combination c * hg

theorem natCast_eq_zero_iff (n : Nat) : ((n : Nat) : BitVec w) = 0 ↔ 2 ^ w ∣ n := by
  rw [← BitVec.toNat_inj]
  simp [Nat.dvd_iff_mod_eq_zero]

/-- An affine map with odd multiplier returns after `2^w` steps. -/
theorem lcg_iterate_two_pow (a c s : BitVec w) (ha : a.toNat % 2 = 1) :
    (lcgStep a c)^[2 ^ w] s = s := by
  have hg := geom_two_pow_dvd a.toNat ha w
  have hz : ((∑ i ∈ Finset.range (2 ^ w), a.toNat ^ i : Nat) : BitVec w) = 0 :=
    (natCast_eq_zero_iff _).mpr hg
  have hp : a ^ (2 ^ w) = 1 := by
    have := mul_geom_sum a (2 ^ w)
    have hcast : ((a.toNat : Nat) : BitVec w) = a := by simp
    push_cast [hcast] at hz
    rw [hz, mul_zero] at this
    exact (sub_eq_zero.mp this.symm)
  rw [affine_iterate_closed, hz, hp]; simp

theorem isUnit_of_odd (a : BitVec w) (ha : a.toNat % 2 = 1) : ∃ b, b * a = 1 := by
  have : a ^ (2 ^ w) = 1 := by
    have hg := geom_two_pow_dvd a.toNat ha w
    have hz : ((∑ i ∈ Finset.range (2 ^ w), a.toNat ^ i : Nat) : BitVec w) = 0 :=
      (natCast_eq_zero_iff _).mpr hg
    have := mul_geom_sum a (2 ^ w)
    have hcast : ((a.toNat : Nat) : BitVec w) = a := by simp
    push_cast [hcast] at hz
    rw [hz, mul_zero] at this
    exact (sub_eq_zero.mp this.symm)
  refine ⟨a ^ (2 ^ w - 1), ?_⟩
  rw [← pow_succ, Nat.sub_add_cancel Nat.one_le_two_pow, this]

/-- Full period: for `a ≡ 1 (mod 4)` and odd `c`, `n` steps return to the start exactly when
`2^w ∣ n`. -/
theorem lcg_full_period (hw : 2 ≤ w) (a c s : BitVec w) (ha : a.toNat % 4 = 1)
    (hc : c.toNat % 2 = 1) (n : Nat) :
    (lcgStep a c)^[n] s = s ↔ 2 ^ w ∣ n := by
  rw [← geom_dvd_iff a.toNat ha w n, ← natCast_eq_zero_iff (w := w), affine_iterate_closed]
  have hcast : ((a.toNat : Nat) : BitVec w) = a := by simp
  have hgeom := mul_geom_sum a n
  set g : BitVec w := ((∑ i ∈ Finset.range n, a.toNat ^ i : Nat) : BitVec w) with hg
  have hge : (∑ i ∈ Finset.range n, a ^ i) = g := by
    rw [hg]; push_cast; rw [hcast]
  rw [hge] at hgeom
  have hd : a ^ n * s + c * g - s = ((a - 1) * s + c) * g := by linear_combination s * (-hgeom)
  -- (a-1) s + c is odd
  have hodd : ((a - 1) * s + c).toNat % 2 = 1 := by
    have h2 : 2 ∣ 2 ^ w := dvd_pow_self 2 (by omega)
    have hsub : (a - 1).toNat % 2 = 0 := by
      rw [BitVec.toNat_sub]
      have : ((1 : BitVec w)).toNat = 1 := by
        rw [show (1 : BitVec w) = 1#w from rfl, BitVec.toNat_ofNat]
        exact Nat.mod_eq_of_lt (Nat.one_lt_two_pow (by omega))
      rw [this, Nat.mod_mod_of_dvd _ h2]
      have := Nat.one_le_two_pow (n := w)
      obtain ⟨q, hq⟩ := h2
      omega
    rw [BitVec.toNat_add, BitVec.toNat_mul, Nat.mod_mod_of_dvd _ h2, Nat.add_mod,
      Nat.mod_mod_of_dvd _ h2, Nat.mul_mod, hsub, hc]
    simp
  obtain ⟨b, hb⟩ := isUnit_of_odd _ hodd
  constructor
  · intro h
    have : ((a - 1) * s + c) * g = 0 := by rw [← hd, h]; ring
    calc g = b * ((a - 1) * s + c) * g := by rw [hb, one_mul]
      _ = b * (((a - 1) * s + c) * g) := by ring
      _ = 0 := by rw [this, mul_zero]
  · intro h
    have : a ^ n * s + c * g - s = 0 := by rw [hd, h, mul_zero]
    exact sub_eq_zero.mp this

/-- Wrapping an integer delta and iterating: only the delta modulo `2^w` matters. -/
theorem lcg_iterate_mod (a c s : BitVec w) (ha : a.toNat % 2 = 1) (n : Nat) :
    (lcgStep a c)^[n % 2 ^ w] s = (lcgStep a c)^[n] s := by
  conv_rhs => rw [← Nat.mod_add_div n (2 ^ w)]
  rw [Function.iterate_add_apply, Function.iterate_mul]
  congr 1
  have : (lcgStep a c)^[2 ^ w] = id := by funext x; exact lcg_iterate_two_pow a c x ha
  rw [this]; simp

end Verif.Pcg
