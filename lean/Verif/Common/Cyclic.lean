import Verif.Common.Linear
import Verif.Common.Kron
import Mathlib.Data.Fintype.Card
import Mathlib.Data.Fintype.EquivFin
import Mathlib.Logic.Function.Iterate

/-! Linear maps on long bit vectors, packed into one number: a certificate that a polynomial annihilates the map.

The certificate is a vector `v` whose images under the map have bit `l` clear, except the one after `d - 1` steps. Then
the first `d` images are linearly independent, every vector is `c(T) v` for some polynomial `c`, and a polynomial that
annihilates `v` annihilates everything. -/

namespace Verif.Linear
open Verif.GF2

/-- Numbers below `2^d`, with bitwise exclusive or as addition. -/
structure PV (d : Nat) where
  val : Nat
  lt : val < 2 ^ d

theorem PV.ext' {d : Nat} {a b : PV d} (h : a.val = b.val) : a = b := by
  cases a; cases b; cases h; rfl

instance (d : Nat) : AddCommGroup (PV d) := xorGroup ⟨0, Nat.pow_pos (by decide)⟩ (fun a b => ⟨a.val ^^^ b.val, Nat.xor_lt_two_pow a.lt b.lt⟩)
  (fun a b c => PV.ext' (Nat.xor_assoc ..)) (fun a b => PV.ext' (Nat.xor_comm ..)) (fun a => PV.ext' (Nat.zero_xor _))
  (fun a => PV.ext' (Nat.xor_self _))

theorem PV.add_val {d : Nat} (a b : PV d) : (a + b).val = a.val ^^^ b.val := rfl
theorem PV.zero_val {d : Nat} : (0 : PV d).val = 0 := rfl
theorem PV.add_self {d : Nat} (a : PV d) : a + a = 0 := PV.ext' (Nat.xor_self _)

/-- The endomorphism given by a function on packed vectors. -/
def PV.endo {d : Nat} (f : Nat → Nat) (hlt : ∀ n < 2 ^ d, f n < 2 ^ d) (hx : ∀ a b, f (a ^^^ b) = f a ^^^ f b) : AddMonoid.End (PV d) where
  toFun a := ⟨f a.val, hlt _ a.lt⟩
  map_zero' := PV.ext' (by
    have := hx 0 0
    rw [Nat.zero_xor, Nat.xor_self] at this
    exact this)
  map_add' a b := PV.ext' (hx _ _)

theorem PV.endo_val {d : Nat} (f : Nat → Nat) (hlt : ∀ n < 2 ^ d, f n < 2 ^ d) (hx : ∀ a b, f (a ^^^ b) = f a ^^^ f b) (a : PV d) :
    (PV.endo f hlt hx a).val = f a.val := rfl

theorem PV.endo_iter {d : Nat} (f : Nat → Nat) (hlt : ∀ n < 2 ^ d, f n < 2 ^ d) (hx : ∀ a b, f (a ^^^ b) = f a ^^^ f b) (k : Nat) (a : PV d) :
    ((PV.endo f hlt hx)^[k] a).val = f^[k] a.val := by
  induction k generalizing a with
  | zero => rfl
  | succ k ih => rw [Function.iterate_succ_apply, ih, Function.iterate_succ_apply]; rfl

section
variable {V : Type} [AddCommGroup V] (hV : ∀ v : V, v + v = 0) (T : AddMonoid.End V) (lam : V → Bool)
  (hlam : ∀ a b, lam (a + b) = (lam a ^^ lam b))

include hlam in
/-- Below the leading term nothing is visible through `lam` after the shift; the leading term is. -/
theorem lam_ev (d : Nat) (v : V) (h0 : ∀ k < d, lam (T^[k] v) = false) (c : Nat) (hc : c < 2 ^ d) : lam (ev T c v) = false := by
  induction d generalizing c v with
  | zero =>
    have : c = 0 := by simpa using hc
    subst this
    have hz : lam 0 = false := by
      have := hlam 0 0
      rw [add_zero, Bool.xor_self] at this; exact this
    rw [ev_zero]; exact hz
  | succ d ih =>
    rw [ev_eq, add_apply, hlam, (commute_ev T _).eq, mul_apply,
      ih (T v) (fun k hk => by rw [← Function.iterate_succ_apply]; exact h0 (k + 1) (by omega)) (c / 2) (by rw [pow_succ] at hc; omega), Bool.xor_false]
    split
    · exact h0 0 (by omega)
    · have := hlam 0 0
      rw [add_zero, Bool.xor_self] at this; exact this

include hV hlam in
/-- What is never visible through `lam` is zero. -/
theorem ev_obs (d : Nat) (v : V) (h0 : ∀ k, k + 1 < d → lam (T^[k] v) = false) (h1 : lam (T^[d - 1] v) = true) (c : Nat) (hc : c < 2 ^ d)
    (hz : ∀ k, lam (T^[k] (ev T c v)) = false) : c = 0 := by
  by_contra hne
  obtain ⟨h, hh⟩ : ∃ h, h = c.log2 := ⟨_, rfl⟩
  have hle : 2 ^ h ≤ c := hh ▸ Nat.log2_self_le hne
  have hlt : c < 2 ^ (h + 1) := hh ▸ Nat.lt_log2_self
  have hhd : h < d := (Nat.pow_lt_pow_iff_right (by decide)).1 (lt_of_le_of_lt hle hc)
  have hx : c = (c - 2 ^ h) ^^^ (1 <<< h) := by
    rw [Nat.shiftLeft_eq, Nat.one_mul]
    have hlt' : c - 2 ^ h < 2 ^ h := by rw [pow_succ] at hlt; omega
    have := Nat.two_pow_add_eq_or_of_lt hlt' 1
    rw [Nat.mul_one] at this
    apply Nat.eq_of_testBit_eq
    intro i
    conv_lhs => rw [show c = 2 ^ h + (c - 2 ^ h) by omega, this]
    rw [Nat.testBit_or, Nat.testBit_xor, Nat.testBit_two_pow]
    by_cases hi : h = i
    · subst hi; simp [Nat.testBit_lt_two_pow hlt']
    · simp [hi]
  have e : lam (ev T c (T^[d - 1 - h] v)) = true := by
    rw [hx, ev_xor T (end_add_self hV), ev_shiftLeft, ev_one, mul_one, add_apply, hlam, pow_apply, ← Function.iterate_add_apply,
      show h + (d - 1 - h) = d - 1 by omega, h1,
      lam_ev T lam hlam h _ (fun k hk => by rw [← Function.iterate_add_apply]; exact h0 _ (by omega)) _ (by rw [pow_succ] at hlt; omega)]
    rfl
  have e2 := hz (d - 1 - h)
  rw [← pow_apply, ← mul_apply, ((commute_ev T c).pow_left _).eq, mul_apply, pow_apply, e] at e2
  exact absurd e2 (by decide)

include hV hlam in
theorem ev_injOn (d : Nat) (v : V) (h0 : ∀ k, k + 1 < d → lam (T^[k] v) = false) (h1 : lam (T^[d - 1] v) = true) (c : Nat) (hc : c < 2 ^ d)
    (hz : ev T c v = 0) : c = 0 := by
  have hl : lam 0 = false := by
    have := hlam 0 0
    rw [add_zero, Bool.xor_self] at this; exact this
  refine ev_obs hV T lam hlam d v h0 h1 c hc (fun k => ?_)
  rw [hz, ← pow_apply, map_zero, hl]

end

section
variable {d : Nat}

instance : Fintype (PV d) := Fintype.ofEquiv (Fin (2 ^ d)) ⟨fun n => ⟨n.1, n.2⟩, fun a => ⟨a.val, a.lt⟩, fun _ => rfl, fun _ => rfl⟩

theorem PV.card : Fintype.card (PV d) = 2 ^ d := by
  rw [Fintype.ofEquiv_card, Fintype.card_fin]

/-- Every vector is a polynomial in `T` applied to `v`. -/
theorem PV.cyclic (T : AddMonoid.End (PV d)) (lam : PV d → Bool) (hlam : ∀ a b, lam (a + b) = (lam a ^^ lam b)) (v : PV d)
    (h0 : ∀ k, k + 1 < d → lam (T^[k] v) = false) (h1 : lam (T^[d - 1] v) = true) (w : PV d) : ∃ c < 2 ^ d, w = ev T c v := by
  have hinj : Function.Injective (fun c : Fin (2 ^ d) => ev T c.1 v) := by
    intro a b hab
    have : ev T (a.1 ^^^ b.1) v = 0 := by
      rw [ev_xor T (end_add_self PV.add_self), add_apply]
      show ev T a.1 v + ev T b.1 v = 0
      rw [show ev T a.1 v = ev T b.1 v from hab, PV.add_self]
    have := ev_injOn PV.add_self T lam hlam d v h0 h1 _ (Nat.xor_lt_two_pow a.2 b.2) this
    apply Fin.ext
    rw [← Nat.xor_zero a.1, ← Nat.xor_self b.1, ← Nat.xor_assoc, this, Nat.zero_xor]
  have hb := (Fintype.bijective_iff_injective_and_card _).2 ⟨hinj, by rw [PV.card, Fintype.card_fin]⟩
  obtain ⟨c, hc⟩ := hb.2 w
  exact ⟨c.1, c.2, hc.symm⟩

theorem PV.ann (T : AddMonoid.End (PV d)) (lam : PV d → Bool) (hlam : ∀ a b, lam (a + b) = (lam a ^^ lam b)) (v : PV d)
    (h0 : ∀ k, k + 1 < d → lam (T^[k] v) = false) (h1 : lam (T^[d - 1] v) = true) (m : Nat) (hm : ev T m v = 0) : ev T m = 0 := by
  ext w
  obtain ⟨c, _, rfl⟩ := PV.cyclic T lam hlam v h0 h1 w
  rw [← mul_apply, (commute_ev_ev T m c).eq, mul_apply, hm, map_zero]
  rfl

end

/-! ### The checks, for evaluation by the kernel -/

/-- `f` applied `2^k` times. -/
def iterPow (f : Nat → Nat) : Nat → Nat → Nat
  | 0, s => f s
  | k + 1, s => force (iterPow f k s) fun s => iterPow f k s

theorem iterPow_eq (f : Nat → Nat) (k s : Nat) : iterPow f k s = f^[2 ^ k] s := by
  induction k generalizing s with
  | zero => rfl
  | succ k ih => rw [iterPow, force_eq, ih, ih, ← Function.iterate_add_apply, pow_succ, Nat.mul_two]

/-- `f` applied `n` times, for `n < 2^k`. -/
def iterBits (f : Nat → Nat) (n : Nat) : Nat → Nat → Nat
  | 0, s => s
  | k + 1, s => force (bif Nat.testBit n k then iterPow f k s else s) fun s => iterBits f n k s

theorem iterBits_eq (f : Nat → Nat) (n k s : Nat) : iterBits f n k s = f^[n % 2 ^ k] s := by
  induction k generalizing s with
  | zero => simp [iterBits, Nat.mod_one]
  | succ k ih =>
    rw [iterBits, force_eq, ih, Nat.mod_pow_succ, Function.iterate_add_apply]
    rcases Nat.mod_two_eq_zero_or_one (n / 2 ^ k) with h | h
    · have : n.testBit k = false := by rw [Nat.testBit_eq_decide_div_mod_eq, h]; rfl
      rw [this, h]; rfl
    · have : n.testBit k = true := by rw [Nat.testBit_eq_decide_div_mod_eq, h]; rfl
      rw [this, h, Nat.mul_one, cond_true, iterPow_eq]

/-- One step, but the result is 0 if bit `l` is set. -/
def seenStep (f : Nat → Nat) (l s : Nat) : Nat :=
  bif Nat.beq (Nat.land (Nat.shiftRight s l) 1) 1 then 0 else f s

/-- Horner's rule: the bits `base + 2^k - 1, ..., base` of the polynomial `m` at `f` on `v`. -/
def hornerPow (f : Nat → Nat) (m v : Nat) : Nat → Nat → Nat → Nat
  | 0, base, s => Nat.xor (f s) (Nat.mul v (Nat.mod (Nat.shiftRight m base) 2))
  | k + 1, base, s => force (hornerPow f m v k (Nat.add base (Nat.pow 2 k)) s) fun s => hornerPow f m v k base s

/-- Horner's rule for the low `n % 2^k` bits of `m`. -/
def hornerBits (f : Nat → Nat) (m v n : Nat) : Nat → Nat → Nat
  | 0, s => s
  | k + 1, s => force (bif Nat.testBit n k then hornerPow f m v k (Nat.mod n (Nat.pow 2 k)) s else s) fun s => hornerBits f m v n k s

section
variable {d : Nat} (f : Nat → Nat) (hlt : ∀ n < 2 ^ d, f n < 2 ^ d) (hx : ∀ a b, f (a ^^^ b) = f a ^^^ f b)

theorem seen_iter (f0 : f 0 = 0) (l n v : Nat) (h : (seenStep f l)^[n] v ≠ 0) :
    (seenStep f l)^[n] v = f^[n] v ∧ ∀ j < n, (f^[j] v).testBit l = false := by
  induction n with
  | zero => exact ⟨rfl, fun j hj => by omega⟩
  | succ n ih =>
    rw [Function.iterate_succ_apply'] at h ⊢
    have h1 : (seenStep f l)^[n] v ≠ 0 := by
      intro h0
      apply h
      rw [h0, seenStep, f0]
      cases Nat.beq (Nat.land (Nat.shiftRight 0 l) 1) 1 <;> rfl
    obtain ⟨i1, i2⟩ := ih h1
    rw [i1] at h ⊢
    have hb : Nat.beq (Nat.land (Nat.shiftRight (f^[n] v) l) 1) 1 = false := by
      cases hc : Nat.beq (Nat.land (Nat.shiftRight (f^[n] v) l) 1) 1 with
      | false => rfl
      | true => rw [seenStep, hc] at h; exact absurd rfl h
    refine ⟨by rw [seenStep, hb, cond_false, Function.iterate_succ_apply'], fun j hj => ?_⟩
    rcases Nat.lt_succ_iff_lt_or_eq.1 hj with hj | rfl
    · exact i2 j hj
    · have := Nat.ne_of_beq_eq_false hb
      have e : Nat.land (Nat.shiftRight (f^[j] v) l) 1 = (f^[j] v) >>> l % 2 := Nat.and_one_is_mod _
      rw [e] at this
      rw [Nat.testBit_eq_decide_div_mod_eq, ← Nat.shiftRight_eq_div_pow]
      exact decide_eq_false this

theorem ev_split (T : AddMonoid.End (PV d)) (a k : Nat) : ev T a = ev T (a % 2 ^ k) + T ^ k * ev T (a >>> k) := by
  rw [← ev_shiftLeft, ← ev_xor T (end_add_self PV.add_self)]
  congr 1
  apply Nat.eq_of_testBit_eq
  intro i
  rw [Nat.testBit_xor, Nat.testBit_mod_two_pow, Nat.testBit_shiftLeft, Nat.testBit_shiftRight]
  by_cases h : i < k
  · have : ¬ i ≥ k := by omega
    simp [h, this]
  · have h' : i ≥ k := by omega
    rw [show k + (i - k) = i by omega]
    simp [h, h']

theorem hornerPow_eq (m : Nat) (v : PV d) (k base : Nat) (s : PV d) :
    hornerPow f m v.val k base s.val = (ev (PV.endo f hlt hx) ((m >>> base) % 2 ^ 2 ^ k) v + (PV.endo f hlt hx)^[2 ^ k] s).val := by
  induction k generalizing base s with
  | zero =>
    show f s.val ^^^ v.val * ((m >>> base) % 2) = _
    rw [PV.add_val, Nat.xor_comm]
    congr 1
    rw [pow_zero, pow_one, ev_eq, Nat.mod_mod, show (m >>> base) % 2 / 2 = 0 by omega, ev_zero, mul_zero, add_zero]
    rcases Nat.mod_two_eq_zero_or_one (m >>> base) with h | h <;> rw [h]
    · rfl
    · rw [if_pos rfl, Nat.mul_one]; rfl
  | succ k ih =>
    rw [hornerPow, force_eq, ih, ih]
    have e : (m >>> base) % 2 ^ 2 ^ (k + 1) % 2 ^ 2 ^ k = (m >>> base) % 2 ^ 2 ^ k :=
      Nat.mod_mod_of_dvd _ (Nat.pow_dvd_pow 2 (Nat.pow_le_pow_right (by decide) (by omega)))
    have e2 : ((m >>> base) % 2 ^ 2 ^ (k + 1)) >>> 2 ^ k = (m >>> (base + 2 ^ k)) % 2 ^ 2 ^ k := by
      apply Nat.eq_of_testBit_eq
      intro i
      rw [Nat.testBit_shiftRight, Nat.testBit_mod_two_pow, Nat.testBit_mod_two_pow, Nat.testBit_shiftRight, Nat.testBit_shiftRight, ← Nat.add_assoc]
      congr 1
      apply decide_eq_decide.2
      rw [pow_succ]; omega
    rw [ev_split (PV.endo f hlt hx) ((m >>> base) % 2 ^ 2 ^ (k + 1)) (2 ^ k), e, e2]
    congr 1
    show _ + (PV.endo f hlt hx)^[2 ^ k] (ev (PV.endo f hlt hx) ((m >>> (base + 2 ^ k)) % 2 ^ 2 ^ k) v + (PV.endo f hlt hx)^[2 ^ k] s) = _
    rw [← pow_apply, map_add, add_apply, mul_apply, ← add_assoc]
    congr 1
    rw [pow_apply, ← Function.iterate_add_apply, pow_succ, Nat.mul_two]

theorem hornerBits_eq (m : Nat) (v : PV d) (n k : Nat) (s : PV d) :
    hornerBits f m v.val n k s.val = (ev (PV.endo f hlt hx) (m % 2 ^ (n % 2 ^ k)) v + (PV.endo f hlt hx)^[n % 2 ^ k] s).val := by
  induction k generalizing s with
  | zero => rw [pow_zero, Nat.mod_one, pow_zero, Nat.mod_one, ev_zero]; exact (congrArg PV.val (zero_add s)).symm
  | succ k ih =>
    rw [hornerBits, force_eq]
    have hmod : n % 2 ^ (k + 1) = n % 2 ^ k + 2 ^ k * (n / 2 ^ k % 2) := Nat.mod_pow_succ
    rcases Nat.mod_two_eq_zero_or_one (n / 2 ^ k) with h | h
    · have hb : n.testBit k = false := by rw [Nat.testBit_eq_decide_div_mod_eq, h]; rfl
      rw [hb, cond_false, ih, hmod, h, Nat.mul_zero, Nat.add_zero]
    · have hb : n.testBit k = true := by rw [Nat.testBit_eq_decide_div_mod_eq, h]; rfl
      have hp : hornerPow f m v.val k (Nat.mod n (Nat.pow 2 k)) s.val =
        (ev (PV.endo f hlt hx) ((m >>> (n % 2 ^ k)) % 2 ^ 2 ^ k) v + (PV.endo f hlt hx)^[2 ^ k] s).val := hornerPow_eq f hlt hx m v k _ s
      rw [hb, cond_true, hp, ih, hmod, h, Nat.mul_one]
      have e : m % 2 ^ (n % 2 ^ k + 2 ^ k) % 2 ^ (n % 2 ^ k) = m % 2 ^ (n % 2 ^ k) := Nat.mod_mod_of_dvd _ (Nat.pow_dvd_pow 2 (by omega))
      have e2 : (m % 2 ^ (n % 2 ^ k + 2 ^ k)) >>> (n % 2 ^ k) = (m >>> (n % 2 ^ k)) % 2 ^ 2 ^ k := by
        apply Nat.eq_of_testBit_eq
        intro i
        rw [Nat.testBit_shiftRight, Nat.testBit_mod_two_pow, Nat.testBit_mod_two_pow, Nat.testBit_shiftRight]
        congr 1
        apply decide_eq_decide.2
        omega
      rw [ev_split (PV.endo f hlt hx) (m % 2 ^ (n % 2 ^ k + 2 ^ k)) (n % 2 ^ k), e, e2]
      congr 1
      rw [← pow_apply, map_add, add_apply, mul_apply, ← add_assoc]
      congr 1
      rw [← pow_apply, ← mul_apply, ← pow_add, pow_apply]

/-- What the checks prove. -/
theorem PV.of_checks (hd : 0 < d) (hd' : d < 2 ^ 15) (l : Nat) (v m n : Nat) (hv : v < 2 ^ d) (hn : n < 2 ^ 15) (hm : m < 2 ^ n)
    (c1 : Nat.testBit (iterBits (seenStep f l) (d - 1) 15 v) l = true) (c2 : hornerBits f m v n 15 0 = 0) :
    ev (PV.endo f hlt hx) m = 0 ∧ (∀ w, ∃ c < 2 ^ d, w = ev (PV.endo f hlt hx) c ⟨v, hv⟩) ∧
      ∀ c < 2 ^ d, ev (PV.endo f hlt hx) c = 0 → c = 0 := by
  have f0 : f 0 = 0 := by
    have := hx 0 0
    rwa [Nat.zero_xor, Nat.xor_self] at this
  rw [iterBits_eq, Nat.mod_eq_of_lt (by omega)] at c1
  obtain ⟨s1, s2⟩ := seen_iter f f0 l (d - 1) v (by intro h; rw [h, Nat.zero_testBit] at c1; exact absurd c1 (by decide))
  rw [s1] at c1
  have hlam : ∀ a b : PV d, (a + b).val.testBit l = (a.val.testBit l ^^ b.val.testBit l) := fun a b => Nat.testBit_xor ..
  have h0 : ∀ k, k + 1 < d → ((PV.endo f hlt hx)^[k] ⟨v, hv⟩).val.testBit l = false := fun k hk => by
    rw [PV.endo_iter]; exact s2 k (by omega)
  have h1 : ((PV.endo f hlt hx)^[d - 1] ⟨v, hv⟩).val.testBit l = true := by rw [PV.endo_iter]; exact c1
  refine ⟨PV.ann _ (fun a => a.val.testBit l) hlam ⟨v, hv⟩ h0 h1 m ?_, PV.cyclic _ (fun a => a.val.testBit l) hlam ⟨v, hv⟩ h0 h1,
    fun c hc hz => ev_injOn PV.add_self _ (fun a => a.val.testBit l) hlam d ⟨v, hv⟩ h0 h1 c hc (by rw [hz]; rfl)⟩
  have := hornerBits_eq f hlt hx m ⟨v, hv⟩ n 15 0
  rw [Nat.mod_eq_of_lt hn, Nat.mod_eq_of_lt hm] at this
  have hz : (PV.endo f hlt hx)^[n] (0 : PV d) = 0 := by rw [← pow_apply, map_zero]
  rw [hz, add_zero] at this
  apply PV.ext'
  rw [← this]
  exact c2

/-- What never shows in bit `l` is zero. -/
theorem PV.obs_of_check (hd : 0 < d) (hd' : d < 2 ^ 15) (l : Nat) (v : Nat) (hv : v < 2 ^ d)
    (c1 : Nat.testBit (iterBits (seenStep f l) (d - 1) 15 v) l = true) (w : PV d) (hw : ∀ k, (((PV.endo f hlt hx)^[k] w).val).testBit l = false) : w = 0 := by
  have f0 : f 0 = 0 := by
    have := hx 0 0
    rwa [Nat.zero_xor, Nat.xor_self] at this
  rw [iterBits_eq, Nat.mod_eq_of_lt (by omega)] at c1
  obtain ⟨s1, s2⟩ := seen_iter f f0 l (d - 1) v (by intro h; rw [h, Nat.zero_testBit] at c1; exact absurd c1 (by decide))
  rw [s1] at c1
  have hlam : ∀ a b : PV d, (a + b).val.testBit l = (a.val.testBit l ^^ b.val.testBit l) := fun a b => Nat.testBit_xor ..
  have h0 : ∀ k, k + 1 < d → ((PV.endo f hlt hx)^[k] ⟨v, hv⟩).val.testBit l = false := fun k hk => by
    rw [PV.endo_iter]; exact s2 k (by omega)
  have h1 : ((PV.endo f hlt hx)^[d - 1] ⟨v, hv⟩).val.testBit l = true := by rw [PV.endo_iter]; exact c1
  obtain ⟨c, hc, rfl⟩ := PV.cyclic _ (fun a => a.val.testBit l) hlam ⟨v, hv⟩ h0 h1 w
  rw [ev_obs PV.add_self _ (fun a => a.val.testBit l) hlam d ⟨v, hv⟩ h0 h1 c hc hw, ev_zero]
  rfl

end

/-! ### Checks on tagged states

The kernel caches what it evaluates under a hash that depends on the low 64 bits of a number. States with many zeros
therefore get a tag in 64 further low bits, which the map `f'` changes in some way. -/

section
variable (f f' : Nat → Nat) (hf : ∀ n, f' n >>> 64 = f (n >>> 64))
include hf

theorem iterBits_tag (n k s : Nat) : iterBits f' n k s >>> 64 = iterBits f n k (s >>> 64) := by
  rw [iterBits_eq, iterBits_eq]
  generalize n % 2 ^ k = j
  induction j generalizing s with
  | zero => rfl
  | succ j ih => rw [Function.iterate_succ_apply, Function.iterate_succ_apply, ih, hf]

theorem seenStep_tag (l n : Nat) : seenStep f' (l + 64) n >>> 64 = seenStep f l (n >>> 64) := by
  have e : Nat.shiftRight n (l + 64) = Nat.shiftRight (n >>> 64) l := by
    show n >>> (l + 64) = (n >>> 64) >>> l
    rw [← Nat.shiftRight_add, Nat.add_comm]
  rw [seenStep, seenStep, e]
  cases Nat.beq (Nat.land (Nat.shiftRight (n >>> 64) l) 1) 1
  · exact hf n
  · exact Nat.zero_shiftRight 64

theorem hornerPow_tag (m v k base s : Nat) : hornerPow f' m (v <<< 64) k base s >>> 64 = hornerPow f m v k base (s >>> 64) := by
  induction k generalizing base s with
  | zero =>
    show (f' s ^^^ (v <<< 64) * ((m >>> base) % 2)) >>> 64 = f (s >>> 64) ^^^ v * ((m >>> base) % 2)
    rw [Nat.shiftRight_xor_distrib, hf]
    congr 1
    rw [Nat.shiftLeft_eq, Nat.mul_right_comm, ← Nat.shiftLeft_eq, Nat.shiftLeft_shiftRight]
  | succ k ih => rw [hornerPow, force_eq, ih, ih, hornerPow, force_eq]

theorem hornerBits_tag (m v n k s : Nat) : hornerBits f' m (v <<< 64) n k s >>> 64 = hornerBits f m v n k (s >>> 64) := by
  induction k generalizing s with
  | zero => rfl
  | succ k ih =>
    rw [hornerBits, force_eq, ih, hornerBits, force_eq]
    cases Nat.testBit n k
    · rfl
    · rw [cond_true, cond_true, hornerPow_tag f f' hf]

theorem checks_tag (l d v m n : Nat) (c1 : Nat.testBit (iterBits (seenStep f' (l + 64)) d 15 (Nat.shiftLeft v 64)) (l + 64) = true)
    (c2 : Nat.shiftRight (hornerBits f' m (Nat.shiftLeft v 64) n 15 0) 64 = 0) :
    Nat.testBit (iterBits (seenStep f l) d 15 v) l = true ∧ hornerBits f m v n 15 0 = 0 := by
  have e : (v <<< 64) >>> 64 = v := Nat.shiftLeft_shiftRight _ _
  constructor
  · have h := iterBits_tag (seenStep f l) (seenStep f' (l + 64)) (seenStep_tag f f' hf l) d 15 (v <<< 64)
    rw [e] at h
    rw [← h, Nat.testBit_shiftRight, show 64 + l = l + 64 by omega]
    exact c1
  · have h := hornerBits_tag f f' hf m v n 15 0
    rw [Nat.zero_shiftRight] at h
    rw [← h]
    exact c2

end

end Verif.Linear
