import Verif.Proof.SfmtCert
import Verif.Props.Dsfmt

/-! The jump tables of SFMT are powers of its linear map. -/

namespace Verif.Linear
open Verif.GF2 Verif

theorem nand_xor_right (a b c : Nat) : (a ^^^ b) &&& c = (a &&& c) ^^^ (b &&& c) := by
  apply Nat.eq_of_testBit_eq
  intro i
  simp only [Nat.testBit_and, Nat.testBit_xor]
  cases a.testBit i <;> cases b.testBit i <;> cases c.testBit i <;> rfl

theorem nshr_xor (a b k : Nat) : (a ^^^ b) >>> k = (a >>> k) ^^^ (b >>> k) := Nat.shiftRight_xor_distrib

theorem nshl_xor (a b k : Nat) : (a ^^^ b) <<< k = (a <<< k) ^^^ (b <<< k) := Nat.shiftLeft_xor_distrib

theorem and_m128 (a : Nat) : a &&& m128 = a % 2 ^ 128 := by
  rw [show m128 = 2 ^ 128 - 1 by rfl, Nat.and_two_pow_sub_one_eq_mod]

theorem sfmtRecN_xor (a b c d a' b' c' d' : Nat) :
    sfmtRecN (a ^^^ a') (b ^^^ b') (c ^^^ c') (d ^^^ d') = sfmtRecN a b c d ^^^ sfmtRecN a' b' c' d' := by
  show (((a ^^^ a') ^^^ (((a ^^^ a') <<< 8) &&& m128)) ^^^ ((((b ^^^ b') >>> 11) &&& _) ^^^ ((c ^^^ c') >>> 8))) ^^^ (((d ^^^ d') <<< 18) &&& _) =
    ((a ^^^ ((a <<< 8) &&& m128)) ^^^ (((b >>> 11) &&& _) ^^^ (c >>> 8)) ^^^ ((d <<< 18) &&& _)) ^^^
    ((a' ^^^ ((a' <<< 8) &&& m128)) ^^^ (((b' >>> 11) &&& _) ^^^ (c' >>> 8)) ^^^ ((d' <<< 18) &&& _))
  simp only [nand_xor_right, nshr_xor, nshl_xor]
  ac_rfl

/-- `sfmtF` with its shifts as parameters. -/
def sfmtG (k0 k1 k2 k3 s : Nat) : Nat :=
  (s >>> k0) ^^^ (sfmtRecN (s % 2 ^ k0) ((s >>> k1) % 2 ^ k0) ((s >>> k2) % 2 ^ k0) ((s >>> k3) % 2 ^ k0)) <<< k3

theorem nmod_xor (a b k : Nat) : (a ^^^ b) % 2 ^ k = (a % 2 ^ k) ^^^ (b % 2 ^ k) := Nat.xor_mod_two_pow

theorem sfmtG_xor (k0 k1 k2 k3 s t : Nat) : sfmtG k0 k1 k2 k3 (s ^^^ t) = sfmtG k0 k1 k2 k3 s ^^^ sfmtG k0 k1 k2 k3 t := by
  simp only [sfmtG, nmod_xor, nshr_xor, sfmtRecN_xor, nshl_xor]
  ac_rfl

theorem sfmtF_eq (s : Nat) : sfmtF s = sfmtG 128 15616 19712 19840 s := by
  rw [sfmtF, force_eq, sfmtG, ← and_m128, ← and_m128, ← and_m128, ← and_m128]
  exact id rfl

theorem sfmtF_xor (s t : Nat) : sfmtF (s ^^^ t) = sfmtF s ^^^ sfmtF t := by
  rw [sfmtF_eq, sfmtF_eq, sfmtF_eq, sfmtG_xor]

theorem sfmtSpec_toNat (a b c d : U128) : (sfmtSpec a b c d).toNat = sfmtRecN a.toNat b.toNat c.toNat d.toNat := by
  have e0 : sfmtSpec a b c d = a ^^^ (a <<< 8) ^^^ ((b >>> 11) &&& 0x1ffff6001affff001ecb7f001fffef#128) ^^^ (c >>> 8) ^^^
      ((d <<< 18) &&& 0xfffc0000fffc0000fffc0000fffc0000#128) := by
    rw [sfmtSpec, BitVec.and_assoc]; rfl
  rw [e0]
  simp only [BitVec.toNat_xor, BitVec.toNat_and, BitVec.toNat_shiftLeft, BitVec.toNat_ushiftRight, BitVec.toNat_ofNat]
  rw [← and_m128 (a.toNat <<< 8), ← and_m128 (d.toNat <<< 18), Nat.and_assoc (d.toNat <<< 18)]
  show _ = ((a.toNat ^^^ ((a.toNat <<< 8) &&& m128)) ^^^ (((b.toNat >>> 11) &&& _) ^^^ (c.toNat >>> 8))) ^^^ ((d.toNat <<< 18) &&& _)
  rw [show m128 &&& 0xfffc0000fffc0000fffc0000fffc0000 % 2 ^ 128 = 0xfffc0000fffc0000fffc0000fffc0000 by decide,
    show 0x1ffff6001affff001ecb7f001fffef % 2 ^ 128 = 0x1ffff6001affff001ecb7f001fffef by decide]
  ac_rfl

theorem sfmtRecN_lt {a b c d : Nat} (ha : a < 2 ^ 128) (hb : b < 2 ^ 128) (hc : c < 2 ^ 128) (hd : d < 2 ^ 128) : sfmtRecN a b c d < 2 ^ 128 := by
  have := sfmtSpec_toNat (BitVec.ofNat 128 a) (BitVec.ofNat 128 b) (BitVec.ofNat 128 c) (BitVec.ofNat 128 d)
  rw [BitVec.toNat_ofNat, BitVec.toNat_ofNat, BitVec.toNat_ofNat, BitVec.toNat_ofNat, Nat.mod_eq_of_lt ha, Nat.mod_eq_of_lt hb, Nat.mod_eq_of_lt hc,
    Nat.mod_eq_of_lt hd] at this
  rw [← this]
  exact BitVec.isLt _

theorem sfmtG_lt (k1 k2 k3 s : Nat) (hs : s < 2 ^ (128 + k3)) : sfmtG 128 k1 k2 k3 s < 2 ^ (128 + k3) := by
  rw [sfmtG]
  apply Nat.xor_lt_two_pow
  · exact lt_of_le_of_lt (Nat.shiftRight_le _ _) hs
  · have := sfmtRecN_lt (a := s % 2 ^ 128) (b := (s >>> k1) % 2 ^ 128) (c := (s >>> k2) % 2 ^ 128) (d := (s >>> k3) % 2 ^ 128)
      (Nat.mod_lt _ (by decide)) (Nat.mod_lt _ (by decide)) (Nat.mod_lt _ (by decide)) (Nat.mod_lt _ (by decide))
    rw [Nat.shiftLeft_eq, pow_add]
    exact Nat.mul_lt_mul_of_pos_right this (Nat.pow_pos (by decide))

theorem sfmtF_lt (s : Nat) (hs : s < 2 ^ 19968) : sfmtF s < 2 ^ 19968 := by
  rw [sfmtF_eq]
  exact sfmtG_lt 15616 19712 19840 s hs

/-- The linear map of SFMT. -/
def sfmtT : AddMonoid.End (PV 19968) := PV.endo sfmtF sfmtF_lt sfmtF_xor

theorem sfmt_ann : ev sfmtT sfmtChi = 0 ∧ (∀ w, ∃ c < 2 ^ 19968, w = ev sfmtT c ⟨sfmtVec, by decide +kernel⟩) ∧
    ∀ c < 2 ^ 19968, ev sfmtT c = 0 → c = 0 := by
  have hv : sfmtVec < 2 ^ 19968 := by decide +kernel
  have hm : sfmtChi < 2 ^ 19969 := by decide +kernel
  exact (PV.of_checks sfmtF sfmtF_lt sfmtF_xor (by decide) (by decide) 19840 sfmtVec sfmtChi 19969 hv (by decide) hm sfmtChecks.1 sfmtChecks.2)

theorem sfmt_powers : ev sfmtT sfmtPoly128 = sfmtT ^ 2 ^ 128 ∧ ev sfmtT sfmtPoly132 = sfmtT ^ 2 ^ 132 ∧ ev sfmtT sfmtPoly136 = sfmtT ^ 2 ^ 136 ∧
    ev sfmtT sfmtPoly140 = sfmtT ^ 2 ^ 140 ∧ ev sfmtT sfmtPoly144 = sfmtT ^ 2 ^ 144 := by
  obtain ⟨t1, t2, t3, t4, t5⟩ := sfmtTables
  have hm : sfmtChi < 2 ^ 32767 := by decide +kernel
  have h2 : 2 < 2 ^ 32767 := by decide +kernel
  have p1 : sfmtPoly128 < 2 ^ 32767 := by decide +kernel
  have p2 : sfmtPoly132 < 2 ^ 32767 := by decide +kernel
  have p3 : sfmtPoly136 < 2 ^ 32767 := by decide +kernel
  have p4 : sfmtPoly140 < 2 ^ 32767 := by decide +kernel
  have p5 : sfmtPoly144 < 2 ^ 32767 := by decide +kernel
  have hs := end_add_self (PV.add_self (d := 19968))
  have e1 := ev_of_sqCheck sfmtT hs hm h2 p1 sfmt_ann.1 t1
  have e2 := ev_of_sqCheck sfmtT hs hm p1 p2 sfmt_ann.1 t2
  have e3 := ev_of_sqCheck sfmtT hs hm p2 p3 sfmt_ann.1 t3
  have e4 := ev_of_sqCheck sfmtT hs hm p3 p4 sfmt_ann.1 t4
  have e5 := ev_of_sqCheck sfmtT hs hm p4 p5 sfmt_ann.1 t5
  have f1 : ev sfmtT 2 = sfmtT := by
    have := ev_two_mul sfmtT 1
    rw [ev_one, mul_one] at this
    exact this
  rw [f1] at e1
  rw [e1, ← pow_mul] at e2
  rw [e2, ← pow_mul] at e3
  rw [e3, ← pow_mul] at e4
  rw [e4, ← pow_mul] at e5
  exact ⟨e1, e2, e3, e4, e5⟩

/-- The window of the sequence from `k` on. -/
def sfmtWin (x : Nat → U128) (k : Nat) : PV 19968 := ⟨pk 156 (fun i => x (k + i)), pk_lt (by decide) 156 _⟩

theorem sfmtWin_succ (x : Nat → U128) (hx : ∀ k, x (k + 156) = sfmtSpec (x k) (x (k + 122)) (x (k + 154)) (x (k + 155))) (k : Nat) :
    sfmtWin x (k + 1) = sfmtT (sfmtWin x k) := by
  apply PV.ext'
  show pk 156 (fun i => x (k + 1 + i)) = sfmtF (pk 156 (fun i => x (k + i)))
  have h := pk_next (w := 128) (by decide) 156 (by decide) (fun i => x (k + i))
  have e : (fun i => x (k + 1 + i)) = fun i => x (k + (i + 1)) := by
    funext i; congr 1; omega
  have w0 := pk_word (w := 128) (by decide) 156 (fun i => x (k + i)) 0 (by decide)
  have w1 := pk_word (w := 128) (by decide) 156 (fun i => x (k + i)) 122 (by decide)
  have w2 := pk_word (w := 128) (by decide) 156 (fun i => x (k + i)) 154 (by decide)
  have w3 := pk_word (w := 128) (by decide) 156 (fun i => x (k + i)) 155 (by decide)
  rw [e, h, sfmtF_eq]
  generalize pk 156 (fun i => x (k + i)) = s at w0 w1 w2 w3 ⊢
  have e0 : s % 2 ^ 128 = (x k).toNat := w0
  have e1 : (s >>> 15616) % 2 ^ 128 = (x (k + 122)).toNat := w1
  have e2 : (s >>> 19712) % 2 ^ 128 = (x (k + 154)).toNat := w2
  have e3 : (s >>> 19840) % 2 ^ 128 = (x (k + 155)).toNat := w3
  rw [sfmtG, e0, e1, e2, e3, ← sfmtSpec_toNat, ← hx]

theorem sfmtWin_iter (x : Nat → U128) (hx : ∀ k, x (k + 156) = sfmtSpec (x k) (x (k + 122)) (x (k + 154)) (x (k + 155))) (k : Nat) :
    sfmtWin x k = sfmtT^[k] (sfmtWin x 0) := by
  induction k with
  | zero => rfl
  | succ k ih => rw [sfmtWin_succ x hx, ih, ← Function.iterate_succ_apply' sfmtT]

/-- Word `i` of a packed state. -/
def sfmtWord (i : Nat) (s : PV 19968) : U128 := BitVec.ofNat 128 (s.val >>> (128 * i))

theorem sfmtWord_win (x : Nat → U128) (k i : Nat) (hi : i < 156) : sfmtWord i (sfmtWin x k) = x (k + i) := by
  apply BitVec.eq_of_toNat_eq
  rw [sfmtWord, BitVec.toNat_ofNat]
  exact pk_word (by decide) 156 (fun i => x (k + i)) i hi

theorem sfmtWord_add (i : Nat) (a b : PV 19968) : sfmtWord i (a + b) = sfmtWord i a ^^^ sfmtWord i b := by
  rw [sfmtWord, sfmtWord, sfmtWord, PV.add_val, nshr_xor]
  apply BitVec.eq_of_toNat_eq
  rw [BitVec.toNat_xor, BitVec.toNat_ofNat, BitVec.toNat_ofNat, BitVec.toNat_ofNat, nmod_xor]

end Verif.Linear
