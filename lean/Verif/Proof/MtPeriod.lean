import Verif.Proof.MtPower
import Verif.Proof.Mersenne
import Verif.Proof.MtFrob32
import Verif.Proof.MtFrob64

/-! The exact period of the solutions of the recurrences of MT19937 and MT64. -/

namespace Verif.Linear
open Verif.GF2 Verif

/-! ### MT64 -/

/-- The linear map of MT64. -/
def mt64T : AddMonoid.End (PV 19937) := PV.endo (mtG 33 64 9953 19873 0xb5026f5aa96619e9)
  (fun _ h => mtG_lt rfl (by decide) (show 19937 = 64 + 19873 from rfl) h) (mtG_xor _ _ _ _ _)

theorem mt64_ann : ev mt64T mt64Chi = 0 ∧ (∀ v, ∃ c < 2 ^ 19937, v = ev mt64T c ⟨mt64Vec, by decide +kernel⟩) ∧
    ∀ c < 2 ^ 19937, ev mt64T c = 0 → c = 0 := by
  have hv : mt64Vec < 2 ^ 19937 := by decide +kernel
  have hm : mt64Chi < 2 ^ 19938 := by decide +kernel
  obtain ⟨c1, c2⟩ := checks_tag (mtG 33 64 9953 19873 0xb5026f5aa96619e9) mt64F
    (mtF_tag 33 0x1ffffffff 64 0xffffffffffffffff 9953 19873 0xb5026f5aa96619e9 (by decide) (by decide)) 19873 19936 mt64Vec mt64Chi 19938 mt64Checks.1 mt64Checks.2
  exact PV.of_checks (mtG 33 64 9953 19873 0xb5026f5aa96619e9) _ _ (by decide) (by decide) 19873 mt64Vec mt64Chi 19938 hv (by decide) hm c1 c2

theorem mt64Phi_step (x : MSol mt64) : mtPhi mt64 (mtS mt64 x) = mt64T (mtPhi mt64 x) := by
  apply PV.ext'
  have := mtWin_succ x 0
  show (mtWin mt64 (mtS mt64 x).val 0).val = mtG 33 64 9953 19873 0xb5026f5aa96619e9 (mtWin mt64 x.val 0).val
  rw [show 64 * mt64.M - 31 = 9953 by decide, show 64 * (mt64.N - 1) - 31 = 19873 by decide, show mt64.a.toNat = 0xb5026f5aa96619e9 by decide] at this
  rw [mtWin_shift, this]

/-! ### Periods -/

theorem mt32_period (v : PV 19937) (hv : v ≠ 0) (n : Nat) : mt32T^[n] v = v ↔ 2 ^ 19937 - 1 ∣ n :=
  period_of_frob PV.add_self mt32T 19937 mersenne_19937 mt32_ann.1 (by decide +kernel) mt32Q1_eq
    (mt32_frob mt32T (end_add_self PV.add_self) mt32_ann.1) hv n

theorem mt64_period (v : PV 19937) (hv : v ≠ 0) (n : Nat) : mt64T^[n] v = v ↔ 2 ^ 19937 - 1 ∣ n :=
  period_of_frob PV.add_self mt64T 19937 mersenne_19937 mt64_ann.1 (by decide +kernel) mt64Q1_eq
    (mt64_frob mt64T (end_add_self PV.add_self) mt64_ann.1) hv n

variable {w : Nat} {P : MtPar w} [MtPk P]

theorem mtPhi_pow {T : AddMonoid.End (PV 19937)} (hs : ∀ x, mtPhi P (mtS P x) = T (mtPhi P x)) (n : Nat) (x : MSol P) :
    mtPhi P ((mtS P ^ n) x) = T^[n] (mtPhi P x) := by
  induction n with
  | zero => rfl
  | succ n ih => rw [pow_succ', mul_apply, hs, ih, Function.iterate_succ_apply']

/-- The period of the terms of a solution from `b ≥ 1` on. -/
theorem mt_terms_period {T : AddMonoid.End (PV 19937)} (hs : ∀ x, mtPhi P (mtS P x) = T (mtPhi P x)) (hi : Function.Injective T) {M : Nat}
    (hT : ∀ v, v ≠ 0 → ∀ n, T^[n] v = v ↔ M ∣ n) (x : MSol P) (hx : mtPhi P x ≠ 0) (b : Nat) (hb : 1 ≤ b) (n : Nat) :
    (∀ k, x.val (b + (k + n)) = x.val (b + k)) ↔ M ∣ n := by
  rw [← hT _ hx n]
  constructor
  · intro h
    have e : (mtS P ^ b) ((mtS P ^ n) x) = (mtS P ^ b) x := MSol.ext' fun k => by
      rw [mtS_pow, mtS_pow, mtS_pow, ← h k]
      congr 1; omega
    have := congrArg (mtPhi P) e
    rw [mtPhi_pow hs, mtPhi_pow hs b] at this
    have := hi.iterate b this
    rwa [mtPhi_pow hs] at this
  · intro h k
    rw [← mtPhi_pow hs] at h
    have := (mtPhi_eq h).1 (b - 1 + k)
    rw [mtS_pow] at this
    rw [show b + (k + n) = n + (b - 1 + k + 1) by omega, this]
    congr 1; omega

/-- The window of a solution is zero only if the words of the array are, as far as they matter. -/
theorem mtPhi_ne_zero (x : MSol P) (h : (x.val 0).toNat >>> 31 ≠ 0 ∨ ∃ i, x.val (i + 1) ≠ 0) : mtPhi P x ≠ 0 := by
  intro hz
  obtain ⟨h1, h2⟩ := mtPhi_eq (x := x) (y := 0) (by rw [hz, map_zero])
  rcases h with h | ⟨i, h⟩
  · apply h
    rw [h2, MSol.zero_val]
    simp
  · exact h (h1 i)

end Verif.Linear
