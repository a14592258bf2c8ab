import Verif.Proof.DsfmtCert
import Verif.Proof.SfmtPower
import Mathlib.Algebra.Group.Subgroup.Defs

/-! The jump tables of dSFMT are powers of its linear map. The high 12 bits of every lane only repeat with period 191;
on the other bits the map has the characteristic polynomial `dsfmtChi`. -/

namespace Verif.Linear
open Verif.GF2 Verif

/-! ### The packed map -/

/-- The step with its shifts as parameters. -/
def dsfmtG (k1 k2 k3 s : Nat) : Nat :=
  let w := s >>> 128
  let l0 := dsfmtLungN (w % 2 ^ 52) ((w >>> k1) % 2 ^ 52) ((s >>> 64) % 2 ^ 64)
  let l1 := dsfmtLungN ((w >>> 52) % 2 ^ 52) ((w >>> k2) % 2 ^ 52) (s % 2 ^ 64)
  (((w >>> 104) ^^^ (dsfmtOutN 0x000ffafffffffb3f l0 (w % 2 ^ 52) ^^^ (dsfmtOutN 0x000ffdfffc90fffd l1 ((w >>> 52) % 2 ^ 52)) <<< 52) <<< k3) <<< 128) ^^^
    (l0 ^^^ l1 <<< 64)

theorem dsfmtF_eq (s : Nat) : dsfmtF s = dsfmtG 12168 12220 19760 s := by
  rw [dsfmtF, force_eq, force_eq, force_eq, force_eq, force_eq]
  exact id rfl

theorem dsfmtLungN_eq (x y u : Nat) : dsfmtLungN x y u = ((x <<< 19) % 2 ^ 64) ^^^ (((u >>> 32) ^^^ ((u <<< 32) % 2 ^ 64)) ^^^ y) := rfl
theorem dsfmtOutN_eq (m l x : Nat) : dsfmtOutN m l x = ((l >>> 12) ^^^ (l &&& m)) ^^^ x := rfl

theorem dsfmtLungN_xor (x y u x' y' u' : Nat) : dsfmtLungN (x ^^^ x') (y ^^^ y') (u ^^^ u') = dsfmtLungN x y u ^^^ dsfmtLungN x' y' u' := by
  rw [dsfmtLungN_eq, dsfmtLungN_eq, dsfmtLungN_eq, nshl_xor x x', nshl_xor u u', nshr_xor u u', nmod_xor, nmod_xor]
  generalize x <<< 19 % 2 ^ 64 = a
  generalize x' <<< 19 % 2 ^ 64 = a'
  generalize u <<< 32 % 2 ^ 64 = b
  generalize u' <<< 32 % 2 ^ 64 = b'
  generalize u >>> 32 = c
  generalize u' >>> 32 = c'
  ac_rfl

theorem dsfmtOutN_xor (m l x l' x' : Nat) : dsfmtOutN m (l ^^^ l') (x ^^^ x') = dsfmtOutN m l x ^^^ dsfmtOutN m l' x' := by
  rw [dsfmtOutN_eq, dsfmtOutN_eq, dsfmtOutN_eq, nshr_xor, nand_xor_right]
  generalize l >>> 12 = a
  generalize l' >>> 12 = a'
  ac_rfl

theorem asm_xor (j1 j2 j3 j4 j5 w p q l0 l1 w' p' q' l0' l1' : Nat) :
    ((((w ^^^ w') >>> j1) ^^^ ((p ^^^ p') ^^^ (q ^^^ q') <<< j2) <<< j3) <<< j4) ^^^ ((l0 ^^^ l0') ^^^ (l1 ^^^ l1') <<< j5) =
    ((((w >>> j1) ^^^ (p ^^^ q <<< j2) <<< j3) <<< j4) ^^^ (l0 ^^^ l1 <<< j5)) ^^^ ((((w' >>> j1) ^^^ (p' ^^^ q' <<< j2) <<< j3) <<< j4) ^^^ (l0' ^^^ l1' <<< j5)) := by
  simp only [nshr_xor, nshl_xor]
  ac_rfl

set_option simprocs false in
theorem dsfmtG_xor (k1 k2 k3 s t : Nat) : dsfmtG k1 k2 k3 (s ^^^ t) = dsfmtG k1 k2 k3 s ^^^ dsfmtG k1 k2 k3 t := by
  have e := asm_xor 104 52 k3 128 64
  simp only [dsfmtG]
  rw [← e]
  simp only [nshr_xor, nmod_xor, dsfmtLungN_xor, dsfmtOutN_xor]

theorem dsfmtF_xor (s t : Nat) : dsfmtF (s ^^^ t) = dsfmtF s ^^^ dsfmtF t := by
  rw [dsfmtF_eq, dsfmtF_eq, dsfmtF_eq, dsfmtG_xor]

theorem dsfmtLungN_lt {x y u : Nat} (hy : y < 2 ^ 64) (hu : u < 2 ^ 64) : dsfmtLungN x y u < 2 ^ 64 := by
  rw [dsfmtLungN_eq]
  exact Nat.xor_lt_two_pow (Nat.mod_lt _ (by decide)) (Nat.xor_lt_two_pow (Nat.xor_lt_two_pow
    (lt_of_le_of_lt (Nat.shiftRight_le _ _) hu) (Nat.mod_lt _ (by decide))) hy)

theorem dsfmtOutN_lt {m l x : Nat} (hm : m < 2 ^ 52) (hl : l < 2 ^ 64) (hx : x < 2 ^ 52) : dsfmtOutN m l x < 2 ^ 52 := by
  rw [dsfmtOutN_eq]
  exact Nat.xor_lt_two_pow (Nat.xor_lt_two_pow (by rw [Nat.shiftRight_eq_div_pow]; omega) (lt_of_le_of_lt Nat.and_le_right hm)) hx

theorem nshl_lt {a n k : Nat} (h : a < 2 ^ n) : a <<< k < 2 ^ (n + k) := by
  rw [Nat.shiftLeft_eq, pow_add]
  exact Nat.mul_lt_mul_of_pos_right h (Nat.pow_pos (by decide))

theorem nlt_of_le {a m n : Nat} (h : a < 2 ^ m) (hmn : m ≤ n) : a < 2 ^ n := lt_of_lt_of_le h (Nat.pow_le_pow_right (by decide) hmn)

theorem dsfmtG_lt (k1 k2 k3 s : Nat) (hs : s < 2 ^ (104 + k3 + 128)) : dsfmtG k1 k2 k3 s < 2 ^ (104 + k3 + 128) := by
  rw [dsfmtG]
  have h52 : ∀ a, a % 2 ^ 52 < 2 ^ 52 := fun a => Nat.mod_lt _ (by decide)
  have h64 : ∀ a, a % 2 ^ 64 < 2 ^ 64 := fun a => Nat.mod_lt _ (by decide)
  have l0 := dsfmtLungN_lt (x := s >>> 128 % 2 ^ 52) (nlt_of_le (h52 (s >>> 128 >>> k1)) (by decide : 52 ≤ 64)) (h64 (s >>> 64))
  have l1 := dsfmtLungN_lt (x := s >>> 128 >>> 52 % 2 ^ 52) (nlt_of_le (h52 (s >>> 128 >>> k2)) (by decide : 52 ≤ 64)) (h64 s)
  have hw : s >>> 128 < 2 ^ (104 + k3) := by
    rw [Nat.shiftRight_eq_div_pow]
    exact Nat.div_lt_of_lt_mul (by rw [Nat.mul_comm, ← pow_add]; exact hs)
  refine Nat.xor_lt_two_pow (nshl_lt (Nat.xor_lt_two_pow (lt_of_le_of_lt (Nat.shiftRight_le _ _) hw) (nshl_lt (Nat.xor_lt_two_pow
    (nlt_of_le (dsfmtOutN_lt (by decide) l0 (h52 _)) (by decide)) (nlt_of_le (nshl_lt (k := 52) (dsfmtOutN_lt (by decide) l1 (h52 _))) (by decide))))))
    (Nat.xor_lt_two_pow (nlt_of_le l0 (by omega)) (nlt_of_le (nshl_lt (k := 64) l1) (by omega)))

theorem dsfmtF_lt (s : Nat) (hs : s < 2 ^ 19992) : dsfmtF s < 2 ^ 19992 := by
  rw [dsfmtF_eq]
  exact dsfmtG_lt 12168 12220 19760 s hs

/-- The linear map of dSFMT on the bits that change. -/
def dsfmtT : AddMonoid.End (PV 19992) := PV.endo dsfmtF dsfmtF_lt dsfmtF_xor

theorem dsfmt_ann : ev dsfmtT dsfmtChi = 0 ∧ (∀ w, ∃ c < 2 ^ 19992, w = ev dsfmtT c ⟨dsfmtVec, by decide +kernel⟩) ∧
    ∀ c < 2 ^ 19992, ev dsfmtT c = 0 → c = 0 := by
  have hv : dsfmtVec < 2 ^ 19992 := by decide +kernel
  have hm : dsfmtChi < 2 ^ 19993 := by decide +kernel
  exact (PV.of_checks dsfmtF dsfmtF_lt dsfmtF_xor (by decide) (by decide) 19940 dsfmtVec dsfmtChi 19993 hv (by decide) hm dsfmtChecks.1 dsfmtChecks.2)

/-! ### Solutions of the recurrence -/

instance : AddCommGroup D128 := xorGroup ⟨0, 0⟩ xorD
  (by intro a b c; simp [xorD, BitVec.xor_assoc]) (by intro a b; simp [xorD, BitVec.xor_comm])
  (by intro a; simp [xorD]) (by intro a; simp [xorD])

theorem D128.add_def (a b : D128) : a + b = ⟨a.u0 ^^^ b.u0, a.u1 ^^^ b.u1⟩ := rfl
theorem D128.zero_def : (0 : D128) = ⟨0#64, 0#64⟩ := rfl
theorem D128.add_self (a : D128) : a + a = 0 := by simp [D128.add_def, D128.zero_def]

theorem bshl_xor {w : Nat} (a b : BitVec w) (k : Nat) : (a ^^^ b) <<< k = (a <<< k) ^^^ (b <<< k) := BitVec.shiftLeft_xor_distrib ..
theorem bshr_xor {w : Nat} (a b : BitVec w) (k : Nat) : (a ^^^ b) >>> k = (a >>> k) ^^^ (b >>> k) := BitVec.ushiftRight_xor_distrib ..
theorem band_xor {w : Nat} (a b c : BitVec w) : (a ^^^ b) &&& c = (a &&& c) ^^^ (b &&& c) := by
  apply BitVec.eq_of_getLsbD_eq
  intro i hi
  simp only [BitVec.getLsbD_and, BitVec.getLsbD_xor]
  cases a.getLsbD i <;> cases b.getLsbD i <;> cases c.getLsbD i <;> rfl

theorem lung_add (a b l a' b' l' : U64) : ((a ^^^ a') <<< 19) ^^^ ((l ^^^ l') >>> 32) ^^^ ((l ^^^ l') <<< 32) ^^^ (b ^^^ b') =
    ((a <<< 19) ^^^ (l >>> 32) ^^^ (l <<< 32) ^^^ b) ^^^ ((a' <<< 19) ^^^ (l' >>> 32) ^^^ (l' <<< 32) ^^^ b') := by
  rw [bshl_xor, bshr_xor, bshl_xor]
  generalize a <<< 19 = p0
  generalize a' <<< 19 = p1
  generalize l >>> 32 = p2
  generalize l' >>> 32 = p3
  generalize l <<< 32 = p4
  generalize l' <<< 32 = p5
  ac_rfl

theorem out_add (l m a l' a' : U64) : ((l ^^^ l') >>> 12) ^^^ ((l ^^^ l') &&& m) ^^^ (a ^^^ a') =
    ((l >>> 12) ^^^ (l &&& m) ^^^ a) ^^^ ((l' >>> 12) ^^^ (l' &&& m) ^^^ a') := by
  rw [bshr_xor, band_xor]
  generalize l >>> 12 = p0
  generalize l' >>> 12 = p1
  ac_rfl

theorem dsfmtStep_add (l a b l' a' b' : D128) : dsfmtStep (l + l') (a + a') (b + b') = dsfmtStep l a b + dsfmtStep l' a' b' := by
  have e0 := lung_add a.u0 b.u0 l.u1 a'.u0 b'.u0 l'.u1
  have e1 := lung_add a.u1 b.u1 l.u0 a'.u1 b'.u1 l'.u0
  rw [dsfmtStep]
  simp only [D128.add_def, e0, e1, out_add]
  rfl

/-- The sequences of words and lungs that follow the recurrence. -/
def DSol : AddSubgroup (Nat → D128 × D128) where
  carrier := {y | ∀ k, dsfmtStep (y k).2 (y k).1 (y (k + 117)).1 = ((y (k + 191)).1, (y (k + 1)).2)}
  zero_mem' k := by
    show dsfmtStep ⟨0, 0⟩ ⟨0, 0⟩ ⟨0, 0⟩ = (⟨0, 0⟩, ⟨0, 0⟩)
    decide
  add_mem' {a b} ha hb k := by
    have := dsfmtStep_add (a k).2 (a k).1 (a (k + 117)).1 (b k).2 (b k).1 (b (k + 117)).1
    rw [ha k, hb k] at this
    exact this
  neg_mem' {a} ha k := ha k

/-- The shift. -/
def dsfmtS : AddMonoid.End DSol where
  toFun y := ⟨fun k => y.1 (k + 1), fun k => by
    have := y.2 (k + 1)
    rw [Nat.add_right_comm k 1 117, Nat.add_right_comm k 1 191] at this
    exact this⟩
  map_zero' := rfl
  map_add' _ _ := rfl

theorem dsfmtS_pow (n : Nat) (y : DSol) (k : Nat) : ((dsfmtS ^ n) y).1 k = y.1 (n + k) := by
  rw [pow_apply]
  induction n generalizing y k with
  | zero => rw [Nat.zero_add]; rfl
  | succ n ih =>
    rw [Function.iterate_succ_apply, ih]
    show y.1 (n + k + 1) = _
    rw [Nat.add_right_comm n 1 k]

theorem DSol.add_self (y : DSol) : y + y = 0 := by
  apply Subtype.ext
  funext k
  exact Prod.ext (D128.add_self _) (D128.add_self _)

/-! ### Reading and packing -/

/-- The oldest word and the lung of a packed state. -/
def dsfmtRd (s : PV 19992) : D128 × D128 :=
  (⟨BitVec.ofNat 64 ((s.val >>> 128) % 2 ^ 52), BitVec.ofNat 64 ((s.val >>> 128 >>> 52) % 2 ^ 52)⟩,
    ⟨BitVec.ofNat 64 s.val, BitVec.ofNat 64 (s.val >>> 64)⟩)

theorem ofNat_nxor (w a b : Nat) : BitVec.ofNat w (a ^^^ b) = BitVec.ofNat w a ^^^ BitVec.ofNat w b := by
  apply BitVec.eq_of_toNat_eq
  rw [BitVec.toNat_xor, BitVec.toNat_ofNat, BitVec.toNat_ofNat, BitVec.toNat_ofNat, nmod_xor]

set_option simprocs false in
theorem dsfmtRd_add (a b : PV 19992) : dsfmtRd (a + b) = dsfmtRd a + dsfmtRd b := by
  rw [dsfmtRd, PV.add_val]
  simp only [nshr_xor, nmod_xor, ofNat_nxor]
  rfl

theorem dsfmtRd_zero : dsfmtRd 0 = 0 := by
  rw [dsfmtRd, PV.zero_val]; rfl

/-- A polynomial in the shift acts on the sequence read off a packed state as the polynomial in the packed map. -/
theorem ev_dsfmtRd (c : Nat) (y : DSol) (w : PV 19992) (h : ∀ k, y.1 k = dsfmtRd (dsfmtT^[k] w)) (k : Nat) :
    (ev dsfmtS c y).1 k = dsfmtRd (dsfmtT^[k] (ev dsfmtT c w)) := by
  induction c using Nat.strong_induction_on generalizing k with
  | _ c ih =>
    by_cases hc : c = 0
    · subst hc
      rw [ev_zero, ev_zero]
      have : dsfmtT^[k] ((0 : AddMonoid.End (PV 19992)) w) = 0 := by rw [← pow_apply]; exact map_zero _
      rw [this, dsfmtRd_zero]; rfl
    · have i1 := ih (c / 2) (by omega) (k + 1)
      rw [ev_eq dsfmtS, ev_eq dsfmtT, add_apply, add_apply, mul_apply, mul_apply, ← pow_apply, map_add, dsfmtRd_add]
      have e1 : dsfmtRd ((dsfmtT ^ k) (dsfmtT (ev dsfmtT (c / 2) w))) = (dsfmtS (ev dsfmtS (c / 2) y)).1 k := by
        rw [pow_apply, ← Function.iterate_succ_apply, ← i1]; rfl
      rw [e1]
      have e2 : dsfmtRd ((dsfmtT ^ k) ((if c % 2 = 1 then (1 : AddMonoid.End (PV 19992)) else 0) w)) =
          ((if c % 2 = 1 then (1 : AddMonoid.End DSol) else 0) y).1 k := by
        split
        · rw [pow_apply]; exact (h k).symm
        · have : (dsfmtT ^ k) ((0 : AddMonoid.End (PV 19992)) w) = 0 := map_zero _
          rw [this, dsfmtRd_zero]; rfl
      rw [e2]; rfl

/-- The bits of a word that change. -/
def dsfmtC (x : D128) : BitVec 104 := BitVec.ofNat 104 ((x.u0.toNat % 2 ^ 52) ^^^ (x.u1.toNat % 2 ^ 52) <<< 52)

theorem dsfmtC_toNat (x : D128) : (dsfmtC x).toNat = (x.u0.toNat % 2 ^ 52) ^^^ (x.u1.toNat % 2 ^ 52) <<< 52 := by
  rw [dsfmtC, BitVec.toNat_ofNat]
  apply Nat.mod_eq_of_lt
  exact Nat.xor_lt_two_pow (nlt_of_le (Nat.mod_lt _ (by decide)) (by decide : 52 ≤ 104)) (nshl_lt (n := 52) (k := 52) (Nat.mod_lt _ (by decide)))

/-- `a` below `b`. -/
theorem cat_mod {a n : Nat} (b : Nat) (h : a < 2 ^ n) : (a ^^^ b <<< n) % 2 ^ n = a := by
  have : (b <<< n) % 2 ^ n = 0 := by rw [Nat.shiftLeft_eq, Nat.mul_mod_left]
  rw [nmod_xor, this, Nat.xor_zero, Nat.mod_eq_of_lt h]

theorem cat_shr {a n : Nat} (b : Nat) (h : a < 2 ^ n) : (a ^^^ b <<< n) >>> n = b := by
  rw [nshr_xor, Nat.shiftRight_eq_div_pow, Nat.div_eq_of_lt h, Nat.zero_xor, Nat.shiftLeft_shiftRight]

/-- The packed state at place `k` of a sequence. -/
def dsfmtWin (y : Nat → D128 × D128) (k : Nat) : PV 19992 :=
  ⟨((y k).2.u0.toNat ^^^ (y k).2.u1.toNat <<< 64) ^^^ pk 191 (fun i => dsfmtC (y (k + i)).1) <<< 128,
    Nat.xor_lt_two_pow (nlt_of_le (Nat.xor_lt_two_pow (nlt_of_le (y k).2.u0.isLt (by decide : 64 ≤ 128)) (nshl_lt (n := 64) (k := 64) (y k).2.u1.isLt)) (by decide))
      (nshl_lt (n := 19864) (k := 128) (pk_lt (w := 104) (by decide) 191 _))⟩

theorem lung_lt (l : D128) : l.u0.toNat ^^^ l.u1.toNat <<< 64 < 2 ^ 128 :=
  Nat.xor_lt_two_pow (nlt_of_le l.u0.isLt (by decide : 64 ≤ 128)) (nshl_lt (n := 64) (k := 64) l.u1.isLt)

theorem cat3 (a b w : Nat) (h0 : a < 2 ^ 64) (h1 : b < 2 ^ 64) : (a ^^^ b <<< 64 ^^^ w <<< 128) % 2 ^ 64 = a ∧
    ((a ^^^ b <<< 64 ^^^ w <<< 128) >>> 64) % 2 ^ 64 = b ∧ (a ^^^ b <<< 64 ^^^ w <<< 128) >>> 128 = w := by
  have hl : a ^^^ b <<< 64 < 2 ^ 128 := Nat.xor_lt_two_pow (nlt_of_le h0 (by decide : 64 ≤ 128)) (nshl_lt (n := 64) (k := 64) h1)
  have e := cat_mod w hl
  refine ⟨?_, ?_, cat_shr w hl⟩
  · rw [← Nat.mod_mod_of_dvd _ (Nat.pow_dvd_pow 2 (by decide : 64 ≤ 128)), e, cat_mod b h0]
  · have e3 : w <<< 128 = (w <<< 64) <<< 64 := by rw [← Nat.shiftLeft_add]
    rw [nshr_xor, cat_shr b h0, e3, Nat.shiftLeft_shiftRight, cat_mod w h1]

theorem dsfmtWin_lo (y : Nat → D128 × D128) (k : Nat) : (dsfmtWin y k).val % 2 ^ 64 = (y k).2.u0.toNat ∧
    ((dsfmtWin y k).val >>> 64) % 2 ^ 64 = (y k).2.u1.toNat ∧ (dsfmtWin y k).val >>> 128 = pk 191 (fun i => dsfmtC (y (k + i)).1) :=
  cat3 _ _ _ (y k).2.u0.isLt (y k).2.u1.isLt

theorem dsfmtWin_word (y : Nat → D128 × D128) (k i : Nat) (hi : i < 191) : (((dsfmtWin y k).val >>> 128) >>> (104 * i)) % 2 ^ 52 = (y (k + i)).1.u0.toNat % 2 ^ 52 ∧
    (((dsfmtWin y k).val >>> 128) >>> (104 * i + 52)) % 2 ^ 52 = (y (k + i)).1.u1.toNat % 2 ^ 52 := by
  rw [(dsfmtWin_lo y k).2.2]
  have h := pk_word (w := 104) (by decide) 191 (fun i => dsfmtC (y (k + i)).1) i hi
  rw [dsfmtC_toNat] at h
  rw [Nat.shiftRight_add]
  generalize pk 191 (fun i => dsfmtC (y (k + i)).1) >>> (104 * i) = w at h ⊢
  have h0 : (y (k + i)).1.u0.toNat % 2 ^ 52 < 2 ^ 52 := Nat.mod_lt _ (by decide)
  have h1 : (y (k + i)).1.u1.toNat % 2 ^ 52 < 2 ^ 52 := Nat.mod_lt _ (by decide)
  generalize (y (k + i)).1.u0.toNat % 2 ^ 52 = a at *
  generalize (y (k + i)).1.u1.toNat % 2 ^ 52 = b at *
  refine ⟨?_, ?_⟩
  · rw [← Nat.mod_mod_of_dvd w (Nat.pow_dvd_pow 2 (by decide : 52 ≤ 104)), h, cat_mod b h0]
  · have : (w >>> 52) % 2 ^ 52 = (w % 2 ^ 104) >>> 52 := by
      apply Nat.eq_of_testBit_eq
      intro j
      rw [Nat.testBit_mod_two_pow, Nat.testBit_shiftRight, Nat.testBit_shiftRight, Nat.testBit_mod_two_pow]
      congr 1
      apply decide_eq_decide.2
      omega
    rw [this, h, cat_shr b h0]

/-- A word without its high bits. -/
def DLow (x : D128) : Prop := x.u0.toNat < 2 ^ 52 ∧ x.u1.toNat < 2 ^ 52

theorem dsfmtRd_win (y : Nat → D128 × D128) (hy : ∀ k, DLow (y k).1) (k : Nat) : dsfmtRd (dsfmtWin y k) = y k := by
  obtain ⟨h0, h1, _⟩ := dsfmtWin_lo y k
  obtain ⟨w0, w1⟩ := dsfmtWin_word y k 0 (by decide)
  rw [Nat.mul_zero, Nat.shiftRight_zero, Nat.add_zero, Nat.mod_eq_of_lt (hy k).1] at w0
  rw [Nat.mul_zero, Nat.zero_add, Nat.add_zero, Nat.mod_eq_of_lt (hy k).2] at w1
  rw [dsfmtRd, w0, w1]
  have e0 : BitVec.ofNat 64 (dsfmtWin y k).val = (y k).2.u0 := by
    apply BitVec.eq_of_toNat_eq; rw [BitVec.toNat_ofNat, h0]
  have e1 : BitVec.ofNat 64 ((dsfmtWin y k).val >>> 64) = (y k).2.u1 := by
    apply BitVec.eq_of_toNat_eq; rw [BitVec.toNat_ofNat, h1]
  rw [e0, e1, BitVec.ofNat_toNat, BitVec.ofNat_toNat, BitVec.setWidth_eq, BitVec.setWidth_eq]

/-- The recursion on numbers. -/
theorem dsfmtStep_toNat (l a b : D128) :
    (dsfmtStep l a b).2.u0.toNat = dsfmtLungN a.u0.toNat b.u0.toNat l.u1.toNat ∧ (dsfmtStep l a b).2.u1.toNat = dsfmtLungN a.u1.toNat b.u1.toNat l.u0.toNat ∧
    (dsfmtStep l a b).1.u0.toNat = dsfmtOutN 0x000ffafffffffb3f (dsfmtLungN a.u0.toNat b.u0.toNat l.u1.toNat) a.u0.toNat ∧
    (dsfmtStep l a b).1.u1.toNat = dsfmtOutN 0x000ffdfffc90fffd (dsfmtLungN a.u1.toNat b.u1.toNat l.u0.toNat) a.u1.toNat := by
  have c0 : (dsfmtStep l a b).2.u0.toNat = dsfmtLungN a.u0.toNat b.u0.toNat l.u1.toNat := by
    rw [dsfmtLungN_eq]
    show ((a.u0 <<< 19) ^^^ (l.u1 >>> 32) ^^^ (l.u1 <<< 32) ^^^ b.u0).toNat = _
    rw [BitVec.toNat_xor, BitVec.toNat_xor, BitVec.toNat_xor, BitVec.toNat_shiftLeft, BitVec.toNat_shiftLeft, BitVec.toNat_ushiftRight, Nat.xor_assoc,
      Nat.xor_assoc, Nat.xor_assoc]
  have c1 : (dsfmtStep l a b).2.u1.toNat = dsfmtLungN a.u1.toNat b.u1.toNat l.u0.toNat := by
    rw [dsfmtLungN_eq]
    show ((a.u1 <<< 19) ^^^ (l.u0 >>> 32) ^^^ (l.u0 <<< 32) ^^^ b.u1).toNat = _
    rw [BitVec.toNat_xor, BitVec.toNat_xor, BitVec.toNat_xor, BitVec.toNat_shiftLeft, BitVec.toNat_shiftLeft, BitVec.toNat_ushiftRight, Nat.xor_assoc,
      Nat.xor_assoc, Nat.xor_assoc]
  refine ⟨c0, c1, ?_, ?_⟩
  · rw [← c0, dsfmtOutN_eq]
    show (((dsfmtStep l a b).2.u0 >>> 12) ^^^ ((dsfmtStep l a b).2.u0 &&& 0x000ffafffffffb3f#64) ^^^ a.u0).toNat = _
    simp only [BitVec.toNat_xor, BitVec.toNat_and, BitVec.toNat_ushiftRight, BitVec.toNat_ofNat]
  · rw [← c1, dsfmtOutN_eq]
    show (((dsfmtStep l a b).2.u1 >>> 12) ^^^ ((dsfmtStep l a b).2.u1 &&& 0x000ffdfffc90fffd#64) ^^^ a.u1).toNat = _
    simp only [BitVec.toNat_xor, BitVec.toNat_and, BitVec.toNat_ushiftRight, BitVec.toNat_ofNat]

theorem dsfmtWin_succ (y : DSol) (hy : ∀ k, DLow (y.1 k).1) (k : Nat) : dsfmtWin y.1 (k + 1) = dsfmtT (dsfmtWin y.1 k) := by
  apply PV.ext'
  show _ = dsfmtF (dsfmtWin y.1 k).val
  obtain ⟨h0, h1, h2⟩ := dsfmtWin_lo y.1 k
  obtain ⟨a0, a1⟩ := dsfmtWin_word y.1 k 0 (by decide)
  obtain ⟨b0, b1⟩ := dsfmtWin_word y.1 k 117 (by decide)
  have hn := pk_next (w := 104) (by decide) 191 (by decide) (fun i => dsfmtC (y.1 (k + i)).1)
  rw [dsfmtF_eq]
  obtain ⟨s, hs⟩ : ∃ s, s = (dsfmtWin y.1 k).val := ⟨_, rfl⟩
  rw [← hs] at h0 h1 h2 a0 a1 b0 b1 ⊢
  rw [← h2] at hn
  have a0' : (s >>> 128) % 2 ^ 52 = (y.1 k).1.u0.toNat := a0.trans (Nat.mod_eq_of_lt (hy k).1)
  have a1' : ((s >>> 128) >>> 52) % 2 ^ 52 = (y.1 k).1.u1.toNat := a1.trans (Nat.mod_eq_of_lt (hy k).2)
  have b0' : ((s >>> 128) >>> 12168) % 2 ^ 52 = (y.1 (k + 117)).1.u0.toNat := b0.trans (Nat.mod_eq_of_lt (hy _).1)
  have b1' : ((s >>> 128) >>> 12220) % 2 ^ 52 = (y.1 (k + 117)).1.u1.toNat := b1.trans (Nat.mod_eq_of_lt (hy _).2)
  obtain ⟨t1, t2, t3, t4⟩ := dsfmtStep_toNat (y.1 k).2 (y.1 k).1 (y.1 (k + 117)).1
  rw [y.2 k] at t1 t2 t3 t4
  show ((y.1 (k + 1)).2.u0.toNat ^^^ (y.1 (k + 1)).2.u1.toNat <<< 64) ^^^ pk 191 (fun i => dsfmtC (y.1 (k + 1 + i)).1) <<< 128 = _
  have e : (fun i => dsfmtC (y.1 (k + 1 + i)).1) = fun i => dsfmtC (y.1 (k + (i + 1))).1 := by
    funext i; rw [Nat.add_assoc, Nat.add_comm 1 i]
  rw [e, hn, dsfmtC_toNat, Nat.mod_eq_of_lt (hy _).1, Nat.mod_eq_of_lt (hy _).2, dsfmtG]
  simp only [a0', a1', b0', b1', h0, h1]
  have t1 : (y.1 (k + 1)).2.u0.toNat = _ := t1
  have t2 : (y.1 (k + 1)).2.u1.toNat = _ := t2
  have t3 : (y.1 (k + 191)).1.u0.toNat = _ := t3
  have t4 : (y.1 (k + 191)).1.u1.toNat = _ := t4
  rw [← t3, ← t4, ← t1, ← t2, Nat.xor_comm]

theorem dsfmtWin_iter (y : DSol) (hy : ∀ k, DLow (y.1 k).1) (k : Nat) : dsfmtWin y.1 k = dsfmtT^[k] (dsfmtWin y.1 0) := by
  induction k with
  | zero => rfl
  | succ k ih => rw [dsfmtWin_succ y hy, ih, ← Function.iterate_succ_apply' dsfmtT]

/-! ### The annihilating polynomial -/

theorem lane_high (a l m : U64) (hm : m.toNat < 2 ^ 52) : (a ^^^ ((l >>> 12) ^^^ (l &&& m) ^^^ a)).toNat < 2 ^ 52 := by
  rw [BitVec.xor_comm, BitVec.xor_assoc, BitVec.xor_self, BitVec.xor_zero, BitVec.toNat_xor, BitVec.toNat_and, BitVec.toNat_ushiftRight]
  refine Nat.xor_lt_two_pow ?_ (lt_of_le_of_lt Nat.and_le_right hm)
  rw [Nat.shiftRight_eq_div_pow]
  have := l.isLt
  omega

/-- The high bits repeat after 191 words. -/
theorem DSol.high (y : DSol) (k : Nat) : DLow ((((1 + dsfmtS ^ 191 : AddMonoid.End DSol) y)).1 k).1 := by
  have e : ((((1 + dsfmtS ^ 191 : AddMonoid.End DSol) y)).1 k).1 = (y.1 k).1 + (y.1 (k + 191)).1 := by
    rw [add_apply]
    show (y.1 k).1 + (((dsfmtS ^ 191) y).1 k).1 = _
    rw [dsfmtS_pow, Nat.add_comm 191 k]
  have h : (dsfmtStep (y.1 k).2 (y.1 k).1 (y.1 (k + 117)).1).1 = (y.1 (k + 191)).1 := by rw [y.2 k]
  rw [e, ← h]
  exact ⟨lane_high _ _ 0x000ffafffffffb3f#64 (by decide), lane_high _ _ 0x000ffdfffc90fffd#64 (by decide)⟩

theorem ev_big (c j : Nat) : ev dsfmtS (Nat.xor c (Nat.shiftLeft c j)) = ev dsfmtS c * (1 + dsfmtS ^ j) := by
  show ev dsfmtS (c ^^^ c <<< j) = _
  rw [ev_xor _ (end_add_self DSol.add_self), ev_shiftLeft, mul_add, mul_one, ((commute_ev dsfmtS c).pow_left j).eq]

theorem ev_big_zero (c : Nat) (hc : ev dsfmtT c = 0) : ev dsfmtS (Nat.xor c (Nat.shiftLeft c 191)) = 0 := by
  rw [ev_big]
  apply AddMonoidHom.ext
  intro y
  show ev dsfmtS c ((1 + dsfmtS ^ 191 : AddMonoid.End DSol) y) = 0
  apply Subtype.ext
  funext k
  have hy := DSol.high y
  generalize ((1 + dsfmtS ^ 191 : AddMonoid.End DSol) y) = z at hy ⊢
  rw [ev_dsfmtRd c z (dsfmtWin z.1 0) (fun k => by rw [← dsfmtWin_iter z hy, dsfmtRd_win z.1 hy]), hc]
  have : dsfmtT^[k] ((0 : AddMonoid.End (PV 19992)) (dsfmtWin z.1 0)) = 0 := by rw [← pow_apply]; exact map_zero _
  rw [this, dsfmtRd_zero]; rfl

theorem dsfmt_big : ev dsfmtS dsfmtBig = 0 := by
  rw [dsfmtBig]
  exact ev_big_zero _ dsfmt_ann.1

theorem dsfmt_powers : ev dsfmtS dsfmtPoly128 = dsfmtS ^ 2 ^ 128 ∧ ev dsfmtS dsfmtPoly132 = dsfmtS ^ 2 ^ 132 ∧ ev dsfmtS dsfmtPoly136 = dsfmtS ^ 2 ^ 136 ∧
    ev dsfmtS dsfmtPoly140 = dsfmtS ^ 2 ^ 140 ∧ ev dsfmtS dsfmtPoly144 = dsfmtS ^ 2 ^ 144 := by
  obtain ⟨t1, t2, t3, t4, t5⟩ := dsfmtTables
  have hm : dsfmtBig < 2 ^ 32767 := by decide +kernel
  have h2 : 2 < 2 ^ 32767 := by decide +kernel
  have p1 : dsfmtPoly128 < 2 ^ 32767 := by decide +kernel
  have p2 : dsfmtPoly132 < 2 ^ 32767 := by decide +kernel
  have p3 : dsfmtPoly136 < 2 ^ 32767 := by decide +kernel
  have p4 : dsfmtPoly140 < 2 ^ 32767 := by decide +kernel
  have p5 : dsfmtPoly144 < 2 ^ 32767 := by decide +kernel
  have hs := end_add_self DSol.add_self
  have e1 := ev_of_sqCheck dsfmtS hs hm h2 p1 dsfmt_big t1
  have e2 := ev_of_sqCheck dsfmtS hs hm p1 p2 dsfmt_big t2
  have e3 := ev_of_sqCheck dsfmtS hs hm p2 p3 dsfmt_big t3
  have e4 := ev_of_sqCheck dsfmtS hs hm p3 p4 dsfmt_big t4
  have e5 := ev_of_sqCheck dsfmtS hs hm p4 p5 dsfmt_big t5
  have f1 : ev dsfmtS 2 = dsfmtS := by
    have := ev_two_mul dsfmtS 1
    rw [ev_one, mul_one] at this
    exact this
  rw [f1] at e1
  rw [e1, ← pow_mul] at e2
  rw [e2, ← pow_mul] at e3
  rw [e3, ← pow_mul] at e4
  rw [e4, ← pow_mul] at e5
  exact ⟨e1, e2, e3, e4, e5⟩

end Verif.Linear
