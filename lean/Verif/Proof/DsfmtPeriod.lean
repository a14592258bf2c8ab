import Verif.Proof.SfmtPeriod
import Verif.Proof.DsfmtFix
import Verif.Props.DsfmtPower

/-! The period of the step of dSFMT, and what the period certification has to do with it. On the states whose words are
doubles in `[1, 2)` the step is affine. `dsfmtFix` is a fixed point of it up to the kernel of the small factor of the
characteristic polynomial, and its lung is the constant of the certification. -/

namespace Verif.Linear
open Verif.GF2 Verif

theorem dsfmt_phi_psi : ev dsfmtT dsfmtPhi * ev dsfmtT dsfmtPsi = 0 := by
  rw [← clmul_ev dsfmtT (end_add_self PV.add_self) dsfmtPhi dsfmtPsi 56 (by decide +kernel), dsfmtPhi_mul, dsfmt_ann.1]

theorem dsfmt_bezout : ev dsfmtT dsfmtBu * ev dsfmtT dsfmtPsi + ev dsfmtT dsfmtBw * ev dsfmtT dsfmtPhi = 1 := by
  have h2 := end_add_self (PV.add_self (d := 19992))
  have := congrArg (ev dsfmtT) dsfmtBezout
  rw [show ∀ a b, Nat.xor a b = a ^^^ b from fun _ _ => rfl, ev_xor dsfmtT h2, clmul_ev dsfmtT h2 _ _ 56 (by decide +kernel), clmul_ev dsfmtT h2 _ _ 55 (by decide +kernel),
    ev_one, (commute_ev_ev dsfmtT dsfmtPhi dsfmtBw).eq] at this
  exact this

/-- The mask of the period certification of dSFMT. -/
def dsfmtMask : U128 := 0x00000000000000013d84e1ac0dc82880

theorem dsfmt_lam {v : PV 19992} (hv : maskPar dsfmtMask v.val = true) : ev dsfmtT dsfmtPsi v ≠ 0 := by
  intro h
  have hvec : dsfmtVec < 2 ^ 19992 := by decide +kernel
  have hu0 : (ev dsfmtT dsfmtPhi ⟨dsfmtVec, hvec⟩).val = dsfmtU0 := by
    have := hornerBits_eq dsfmtF dsfmtF_lt dsfmtF_xor dsfmtPhi ⟨dsfmtVec, hvec⟩ 19938 15 0
    rw [Nat.mod_eq_of_lt (show 19938 < 2 ^ 15 by decide), Nat.mod_eq_of_lt (show dsfmtPhi < 2 ^ 19938 by decide +kernel)] at this
    have hz : (PV.endo dsfmtF dsfmtF_lt dsfmtF_xor)^[19938] (0 : PV 19992) = 0 := by rw [← pow_apply, map_zero]
    rw [hz, add_zero] at this
    exact this.symm.trans dsfmtU0_eq
  have hl : maskLoop dsfmtF dsfmtMask 55 dsfmtU0 = true := by decide +kernel
  have := lam_ker PV.add_self dsfmtT (fun s => maskPar dsfmtMask s.val) (fun a b => maskPar_xor _ _ _) 55 (by decide +kernel) (by decide +kernel)
    dsfmt_phi_psi dsfmt_bezout ⟨dsfmtVec, hvec⟩ (fun w => (dsfmt_ann.2.1 w).imp fun c hc => hc.2) (fun k hk => by
      show maskPar dsfmtMask (((PV.endo dsfmtF dsfmtF_lt dsfmtF_xor)^[k] (ev dsfmtT dsfmtPhi ⟨dsfmtVec, hvec⟩)).val) = false
      rw [PV.endo_iter, hu0]
      exact maskLoop_spec _ _ 55 _ hl k hk) h
  rw [hv] at this
  exact absurd this (by decide)

theorem dsfmt_poly : PolyPow dsfmtPhi (2 ^ 19937) 1 := fun t h2 h => (dsfmt_frob t h2 h).trans (pow_one t).symm

theorem dsfmt_dvd {v : PV 19992} (hv : ev dsfmtT dsfmtPsi v ≠ 0) {n : Nat} (hn : dsfmtT^[n] v = v) : 2 ^ 19937 - 1 ∣ n :=
  split_dvd PV.add_self dsfmtT 19937 mersenne_19937 dsfmt_phi_psi (by decide +kernel) dsfmtQ1_eq dsfmt_poly hv hn

theorem dsfmt_period (v : PV 19992) : dsfmtT^[(2 ^ 19937 - 1) * 8778913150980] v = v :=
  split_period PV.add_self dsfmtT 19937 mersenne_19937 dsfmt_phi_psi (by decide +kernel) dsfmtQ1_eq dsfmt_poly dsfmt_bezout
    (polyPow_of (d := 55) (n := 43) (by decide +kernel) (by decide +kernel) (by decide) (by decide) dsfmtPsi_pow) v

/-! ### The fixed point -/

/-- The words of the state `dsfmtFix`. -/
def dfixSt (i : Nat) : D128 :=
  ⟨BitVec.ofNat 64 (dsfmtFix >>> (128 + 104 * i) % 2 ^ 52 + 0x3ff0000000000000), BitVec.ofNat 64 (dsfmtFix >>> (180 + 104 * i) % 2 ^ 52 + 0x3ff0000000000000)⟩

/-- Its lung, the constant of the period certification. -/
def dfixLung : D128 := ⟨0x90014964b32f4329, 0x3b8d12ac548a7c7a⟩

/-- The words of the next state. -/
def dfixSt1 (i : Nat) : D128 := if i < 190 then dfixSt (i + 1) else (dsfmtStep dfixLung (dfixSt 0) (dfixSt 117)).1

theorem dfix_ok (i : Nat) : DOk (dfixSt i) := by
  have lane : ∀ n : Nat, BitVec.ofNat 64 (n % 2 ^ 52 + 0x3ff0000000000000) >>> 52 = 0x3ff#64 := by
    intro n
    apply BitVec.eq_of_toNat_eq
    rw [BitVec.toNat_ushiftRight, BitVec.toNat_ofNat, Nat.shiftRight_eq_div_pow]
    have : n % 2 ^ 52 < 2 ^ 52 := Nat.mod_lt _ (by decide)
    rw [BitVec.toNat_ofNat]
    omega
  exact ⟨lane _, lane _⟩

theorem dfix_diff : ((dfixLung.u0.toNat ^^^ dfixLung.u1.toNat <<< 64) ^^^ pk 191 (fun i => dsfmtC (dfixSt i)) <<< 128) ^^^
    (((dsfmtStep dfixLung (dfixSt 0) (dfixSt 117)).2.u0.toNat ^^^ (dsfmtStep dfixLung (dfixSt 0) (dfixSt 117)).2.u1.toNat <<< 64) ^^^
      pk 191 (fun i => dsfmtC (dfixSt1 i)) <<< 128) = dsfmtFixD := by decide +kernel

theorem xor_mid (a b c d : Nat) : (a ^^^ b) ^^^ (c ^^^ d) = (a ^^^ c) ^^^ (b ^^^ d) := by ac_rfl

theorem pk_xor {w : Nat} (N : Nat) (x y : Nat → BitVec w) : pk N (fun i => x i ^^^ y i) = pk N x ^^^ pk N y := by
  induction N generalizing x y with
  | zero => rw [pk, pk, pk, Nat.xor_self]
  | succ N ih => rw [pk, pk, pk, ih (fun i => x (i + 1)) (fun i => y (i + 1)), BitVec.toNat_xor, nshl_xor, xor_mid]

theorem dsfmtC_add (a b : D128) : dsfmtC (a + b) = dsfmtC a ^^^ dsfmtC b := by
  apply BitVec.eq_of_toNat_eq
  rw [BitVec.toNat_xor, dsfmtC_toNat, dsfmtC_toNat, dsfmtC_toNat]
  show (a.u0 ^^^ b.u0).toNat % _ ^^^ ((a.u1 ^^^ b.u1).toNat % _) <<< 52 = _
  rw [BitVec.toNat_xor, BitVec.toNat_xor, nmod_xor, nmod_xor, nshl_xor, xor_mid]

theorem dsfmtWin_add (y z : DSol) (k : Nat) : dsfmtWin (y + z).1 k = dsfmtWin y.1 k + dsfmtWin z.1 k := by
  apply PV.ext'
  rw [PV.add_val]
  show (((y.1 k).2.u0 ^^^ (z.1 k).2.u0).toNat ^^^ ((y.1 k).2.u1 ^^^ (z.1 k).2.u1).toNat <<< 64) ^^^
    pk 191 (fun i => dsfmtC ((y.1 (k + i)).1 + (z.1 (k + i)).1)) <<< 128 =
    ((y.1 k).2.u0.toNat ^^^ (y.1 k).2.u1.toNat <<< 64 ^^^ pk 191 (fun i => dsfmtC (y.1 (k + i)).1) <<< 128) ^^^
    ((z.1 k).2.u0.toNat ^^^ (z.1 k).2.u1.toNat <<< 64 ^^^ pk 191 (fun i => dsfmtC (z.1 (k + i)).1) <<< 128)
  have e : pk 191 (fun i => dsfmtC ((y.1 (k + i)).1 + (z.1 (k + i)).1)) =
      pk 191 (fun i => dsfmtC (y.1 (k + i)).1) ^^^ pk 191 (fun i => dsfmtC (z.1 (k + i)).1) := by
    rw [← pk_xor]
    exact pk_congr _ _ _ (fun i _ => dsfmtC_add _ _)
  rw [e, BitVec.toNat_xor, BitVec.toNat_xor, nshl_xor, nshl_xor, xor_mid (BitVec.toNat _), xor_mid]

/-- The solution through the fixed point. -/
theorem dfix_sol : ∃ f : DSol, (∀ k, DOk (f.1 k).1) ∧ (f.1 0).2 = dfixLung ∧ ev dsfmtT dsfmtPsi (dsfmtWin f.1 0 + dsfmtWin f.1 1) = 0 := by
  obtain ⟨hr, hx0⟩ := simdSeq_rec dsfmtStep (N := 191) (P := 117) (by omega) dfixSt dfixLung
  have ok := simdSeq_ok dfixSt dfixLung (fun i _ => dfix_ok i)
  have l0 : (simdSeq dsfmtStep 191 117 dfixSt dfixLung 0).2 = dfixLung := rfl
  generalize simdSeq dsfmtStep 191 117 dfixSt dfixLung = q at hr hx0 ok l0
  obtain ⟨f, hf⟩ : ∃ f : DSol, f = ⟨fun n => ((q n).1 0, (q n).2), hr⟩ := ⟨_, rfl⟩
  have ok : ∀ k, DOk (f.1 k).1 := by rw [hf]; exact ok
  have x0 : ∀ i < 191, (f.1 i).1 = dfixSt i := by rw [hf]; exact hx0
  have l0 : (f.1 0).2 = dfixLung := by rw [hf]; exact l0
  refine ⟨f, ok, l0, ?_⟩
  have hs := f.2 0
  rw [Nat.zero_add, Nat.zero_add, Nat.zero_add, l0, x0 0 (by omega), x0 117 (by omega)] at hs
  have e0 : (dsfmtWin f.1 0).val = (dfixLung.u0.toNat ^^^ dfixLung.u1.toNat <<< 64) ^^^ pk 191 (fun i => dsfmtC (dfixSt i)) <<< 128 := by
    show ((f.1 0).2.u0.toNat ^^^ (f.1 0).2.u1.toNat <<< 64) ^^^ pk 191 (fun i => dsfmtC (f.1 (0 + i)).1) <<< 128 = _
    rw [l0, pk_congr 191 _ (fun i => dsfmtC (dfixSt i)) (fun i hi => by rw [Nat.zero_add, x0 i hi])]
  have e1 : (dsfmtWin f.1 1).val = ((dsfmtStep dfixLung (dfixSt 0) (dfixSt 117)).2.u0.toNat ^^^ (dsfmtStep dfixLung (dfixSt 0) (dfixSt 117)).2.u1.toNat <<< 64) ^^^
      pk 191 (fun i => dsfmtC (dfixSt1 i)) <<< 128 := by
    show ((f.1 1).2.u0.toNat ^^^ (f.1 1).2.u1.toNat <<< 64) ^^^ pk 191 (fun i => dsfmtC (f.1 (1 + i)).1) <<< 128 = _
    rw [hs, pk_congr 191 _ (fun i => dsfmtC (dfixSt1 i)) (fun i hi => by
      rw [dfixSt1, hs]
      split
      · rw [Nat.add_comm, x0 (i + 1) (by omega)]
      · rw [show 1 + i = 191 by omega])]
  have hv : dsfmtFixD < 2 ^ 19992 := by decide +kernel
  have ez : dsfmtWin f.1 0 + dsfmtWin f.1 1 = ⟨dsfmtFixD, hv⟩ := by
    apply PV.ext'
    rw [PV.add_val, e0, e1]
    exact dfix_diff
  rw [ez]
  apply PV.ext'
  have := hornerBits_eq dsfmtF dsfmtF_lt dsfmtF_xor dsfmtPsi ⟨dsfmtFixD, hv⟩ 56 6 0
  rw [Nat.mod_eq_of_lt (show 56 < 2 ^ 6 by decide), Nat.mod_eq_of_lt (show dsfmtPsi < 2 ^ 56 by decide +kernel)] at this
  have hz : (PV.endo dsfmtF dsfmtF_lt dsfmtF_xor)^[56] (0 : PV 19992) = 0 := by rw [← pow_apply, map_zero]
  rw [hz, add_zero, PV.zero_val] at this
  rw [PV.zero_val]
  exact this.symm.trans dsfmtFixD_psi

/-- A solution minus itself one place on. -/
def dsfmtD (y : DSol) : DSol := y + dsfmtS y

theorem dsfmtD_low (y : DSol) (hy : ∀ k, DOk (y.1 k).1) (k : Nat) : DLow ((dsfmtD y).1 k).1 := dok_low _ _ (hy k) (hy (k + 1))

theorem dsfmtWin_D (y : DSol) : dsfmtWin (dsfmtD y).1 0 = dsfmtWin y.1 0 + dsfmtWin y.1 1 := by
  have h : dsfmtWin (dsfmtS y).1 0 = dsfmtWin y.1 1 := by
    apply PV.ext'
    show ((y.1 1).2.u0.toNat ^^^ (y.1 1).2.u1.toNat <<< 64) ^^^ pk 191 (fun i => dsfmtC (y.1 (0 + i + 1)).1) <<< 128 =
      ((y.1 1).2.u0.toNat ^^^ (y.1 1).2.u1.toNat <<< 64) ^^^ pk 191 (fun i => dsfmtC (y.1 (1 + i)).1) <<< 128
    have : (fun i => dsfmtC (y.1 (0 + i + 1)).1) = fun i => dsfmtC (y.1 (1 + i)).1 := by
      funext i; rw [Nat.zero_add, Nat.add_comm]
    rw [this]
  rw [dsfmtD, dsfmtWin_add, h]

theorem shl_or {a n : Nat} (b : Nat) (h : a < 2 ^ n) : b <<< n ||| a = a ^^^ b <<< n := by
  apply Nat.eq_of_testBit_eq
  intro i
  rw [Nat.testBit_or, Nat.testBit_xor, Nat.testBit_shiftLeft]
  by_cases hi : n ≤ i
  · rw [Nat.testBit_lt_two_pow (lt_of_lt_of_le h (Nat.pow_le_pow_right (by decide) hi)), Bool.or_false, Bool.false_xor]
  · rw [decide_eq_false hi, Bool.false_and, Bool.false_or, Bool.xor_false]

theorem maskPar_win (mask : U128) (y : DSol) : maskPar mask (dsfmtWin y.1 0).val = ones ((y.1 0).2.pack &&& mask) 128 := by
  rw [maskPar]
  congr 2
  apply BitVec.eq_of_toNat_eq
  rw [BitVec.toNat_ofNat]
  have e := cat_mod (pk 191 (fun i => dsfmtC (y.1 (0 + i)).1)) (lung_lt (y.1 0).2)
  have e : (dsfmtWin y.1 0).val % 2 ^ 128 = _ := e
  rw [e]
  show _ = ((y.1 0).2.u1 ++ (y.1 0).2.u0 : BitVec (64 + 64)).toNat
  rw [BitVec.toNat_append]
  exact (shl_or _ (y.1 0).2.u0.isLt).symm

/-- The certified lungs are those of states off the small kernel. -/
theorem dsfmt_cert_lam (y : DSol) (hy : ∀ k, DOk (y.1 k).1)
    (hc : ones (((y.1 0).2.pack ^^^ 0x3b8d12ac548a7c7a90014964b32f4329) &&& 0x00000000000000013d84e1ac0dc82880) 128 = true) :
    ev dsfmtT dsfmtPsi (dsfmtWin (dsfmtD y).1 0) ≠ 0 := by
  intro h
  obtain ⟨f, hf, fl, fz⟩ := dfix_sol
  have hl : ∀ k, DLow ((y + f).1 k).1 := fun k => dok_low _ _ (hy k) (hf k)
  have hw := dsfmtWin_succ (y + f) hl 0
  obtain ⟨r, hr⟩ : ∃ r, r = ev dsfmtT dsfmtPsi (dsfmtWin (y + f).1 0) := ⟨_, rfl⟩
  have h1 : r + dsfmtT r = 0 := by
    have : dsfmtT r = ev dsfmtT dsfmtPsi (dsfmtWin (y + f).1 1) := by
      rw [hw, hr]
      exact (ev_iter_comm dsfmtT dsfmtPsi 1 _).symm
    rw [this, hr, ← map_add, dsfmtWin_add, dsfmtWin_add, add_add_add_comm, map_add, fz, add_zero, ← dsfmtWin_D, h]
  have h2 : ev dsfmtT dsfmtPhi r = 0 := by
    rw [hr, ← mul_apply, dsfmt_phi_psi]; rfl
  have h3 : r = 0 := by
    by_contra hne
    have := (ker_period PV.add_self dsfmtT 19937 mersenne_19937 (by decide +kernel) dsfmtQ1_eq dsfmt_poly h2 hne 1).1 (pv_eq h1).symm
    have := Nat.le_of_dvd (by decide) this
    have h4 : 2 ^ 2 ≤ 2 ^ 19937 := Nat.pow_le_pow_right (by decide) (by decide)
    omega
  refine dsfmt_lam (v := dsfmtWin (y + f).1 0) ?_ (hr.symm.trans h3)
  have e : ((y + f).1 0).2.pack = (y.1 0).2.pack ^^^ 0x3b8d12ac548a7c7a90014964b32f4329 := by
    show ((y.1 0).2 + (f.1 0).2).pack = _
    rw [fl]
    exact (packD_xor (y.1 0).2 dfixLung).symm
  rw [maskPar_win, e]
  exact hc

end Verif.Linear
