import Verif.Proof.Split
import Verif.Proof.SfmtFrob
import Verif.Proof.DsfmtPower
import Verif.Props.SimdPower
import Verif.Props.SfmtSeed

/-! The period of the linear map of SFMT, and what the period certification has to do with it. -/

namespace Verif.Linear
open Verif.GF2 Verif

/-- The parity of the bits of a packed state under a mask of 128 bits. -/
def maskPar (mask : U128) (s : Nat) : Bool := ones (BitVec.ofNat 128 s &&& mask) 128

theorem maskPar_xor (mask : U128) (a b : Nat) : maskPar mask (a ^^^ b) = (maskPar mask a ^^ maskPar mask b) := by
  rw [maskPar, ofNat_nxor, band_xor, ones_xor]; rfl

/-- The first `n` images of `s` have parity 0. -/
def maskLoop (f : Nat → Nat) (mask : U128) : Nat → Nat → Bool
  | 0, _ => true
  | n + 1, s => force s fun s => !maskPar mask s && maskLoop f mask n (f s)

theorem maskLoop_spec (f : Nat → Nat) (mask : U128) (n s : Nat) (h : maskLoop f mask n s = true) (k : Nat) (hk : k < n) : maskPar mask (f^[k] s) = false := by
  induction n generalizing s k with
  | zero => omega
  | succ n ih =>
    rw [maskLoop, force_eq, Bool.and_eq_true, Bool.not_eq_true'] at h
    rcases k with _ | k
    · exact h.1
    · rw [Function.iterate_succ_apply]
      exact ih _ h.2 k (by omega)

theorem clmul_ev {R : Type} [_root_.Ring R] (t : R) (h2 : ∀ x : R, x + x = 0) (a b k : Nat) (hb : b < 2 ^ k) : ev t (clmul a k b 0) = ev t a * ev t b := by
  rw [ev_clmul t h2, ev_zero, mul_zero, zero_add, Nat.mod_eq_of_lt hb]

theorem polyPow_of {psi d r n : Nat} (h1 : psi < 2 ^ (d + 1)) (h2 : 2 ^ d ≤ psi) (hd : 0 < d) (hr : r < 2 ^ n) (h : powmod psi d r n 1 = 1) : PolyPow psi r 0 := by
  intro R _ t ht hp
  have := ev_powmod t ht psi d r h1 h2 hp n 1 (by
    have : 2 ^ 1 ≤ 2 ^ d := Nat.pow_le_pow_right (by decide) hd
    omega)
  rw [h, ev_one, one_pow, one_mul, Nat.mod_eq_of_lt hr] at this
  rw [← this, pow_zero]

/-! ### SFMT -/

theorem sfmt_phi_psi : ev sfmtT sfmtPhi * ev sfmtT sfmtPsi = 0 := by
  rw [← clmul_ev sfmtT (end_add_self PV.add_self) sfmtPhi sfmtPsi 32 (by decide +kernel), sfmtPhi_mul, sfmt_ann.1]

theorem sfmt_bezout : ev sfmtT sfmtBu * ev sfmtT sfmtPsi + ev sfmtT sfmtBw * ev sfmtT sfmtPhi = 1 := by
  have h2 := end_add_self (PV.add_self (d := 19968))
  have := congrArg (ev sfmtT) sfmtBezout
  rw [show ∀ a b, Nat.xor a b = a ^^^ b from fun _ _ => rfl, ev_xor sfmtT h2, clmul_ev sfmtT h2 _ _ 32 (by decide +kernel), clmul_ev sfmtT h2 _ _ 31 (by decide +kernel),
    ev_one, (commute_ev_ev sfmtT sfmtPhi sfmtBw).eq] at this
  exact this

/-- The mask of the period certification of SFMT. -/
def sfmtMask : U128 := 0x13c9e684000000000000000000000001

theorem sfmt_lam {v : PV 19968} (hv : maskPar sfmtMask v.val = true) : ev sfmtT sfmtPsi v ≠ 0 := by
  intro h
  have hvec : sfmtVec < 2 ^ 19968 := by decide +kernel
  have hu0 : (ev sfmtT sfmtPhi ⟨sfmtVec, hvec⟩).val = sfmtU0 := by
    have := hornerBits_eq sfmtF sfmtF_lt sfmtF_xor sfmtPhi ⟨sfmtVec, hvec⟩ 19938 15 0
    rw [Nat.mod_eq_of_lt (show 19938 < 2 ^ 15 by decide), Nat.mod_eq_of_lt (show sfmtPhi < 2 ^ 19938 by decide +kernel)] at this
    have hz : (PV.endo sfmtF sfmtF_lt sfmtF_xor)^[19938] (0 : PV 19968) = 0 := by rw [← pow_apply, map_zero]
    rw [hz, add_zero] at this
    exact this.symm.trans sfmtU0_eq
  have hl : maskLoop sfmtF sfmtMask 31 sfmtU0 = true := by decide +kernel
  have := lam_ker PV.add_self sfmtT (fun s => maskPar sfmtMask s.val) (fun a b => maskPar_xor _ _ _) 31 (by decide +kernel) (by decide +kernel)
    sfmt_phi_psi sfmt_bezout ⟨sfmtVec, hvec⟩ (fun w => (sfmt_ann.2.1 w).imp fun c hc => hc.2) (fun k hk => by
      show maskPar sfmtMask (((PV.endo sfmtF sfmtF_lt sfmtF_xor)^[k] (ev sfmtT sfmtPhi ⟨sfmtVec, hvec⟩)).val) = false
      rw [PV.endo_iter, hu0]
      exact maskLoop_spec _ _ 31 _ hl k hk) h
  rw [hv] at this
  exact absurd this (by decide)

theorem sfmt_poly : PolyPow sfmtPhi (2 ^ 19937) 1 := fun t h2 h => (sfmt_frob t h2 h).trans (pow_one t).symm

theorem sfmt_dvd {v : PV 19968} (hv : ev sfmtT sfmtPsi v ≠ 0) {n : Nat} (hn : sfmtT^[n] v = v) : 2 ^ 19937 - 1 ∣ n :=
  split_dvd PV.add_self sfmtT 19937 mersenne_19937 sfmt_phi_psi (by decide +kernel) sfmtQ1_eq sfmt_poly hv hn

theorem sfmt_period (v : PV 19968) : sfmtT^[(2 ^ 19937 - 1) * 268394497] v = v :=
  split_period PV.add_self sfmtT 19937 mersenne_19937 sfmt_phi_psi (by decide +kernel) sfmtQ1_eq sfmt_poly sfmt_bezout
    (polyPow_of (d := 31) (n := 28) (by decide +kernel) (by decide +kernel) (by decide) (by decide) sfmtPsi_pow) v

end Verif.Linear
