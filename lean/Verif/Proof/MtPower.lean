import Verif.Proof.MtCert
import Verif.Proof.MtJump
import Verif.Proof.JumpCert

/-! The linear maps of MT19937 and MT64 are annihilated by their characteristic polynomials; the jump tables of MT19937
are powers of the map. -/

namespace Verif.Linear
open Verif.GF2 Verif

/-- Polynomials pass through maps that commute with the step. -/
theorem ev_hom {A B : Type} [AddCommGroup A] [AddCommGroup B] (S : AddMonoid.End A) (T : AddMonoid.End B) (φ : A →+ B) (h : ∀ a, φ (S a) = T (φ a))
    (c : Nat) (a : A) : φ (ev S c a) = ev T c (φ a) := by
  induction c using Nat.strong_induction_on with
  | _ c ih =>
    by_cases hc : c = 0
    · subst hc
      rw [ev_zero, ev_zero]
      exact map_zero φ
    · rw [ev_eq S, ev_eq T, add_apply, add_apply, mul_apply, mul_apply, map_add, h, ih (c / 2) (by omega)]
      congr 1
      split
      · rfl
      · exact map_zero φ

theorem mxor_mul (a y z : Nat) : a * ((y ^^^ z) % 2) = (a * (y % 2)) ^^^ (a * (z % 2)) := by
  have : (y ^^^ z) % 2 = (y % 2 + z % 2) % 2 := by
    have := Nat.xor_mod_two_pow (a := y) (b := z) (n := 1)
    rw [pow_one] at this
    rw [this]
    rcases Nat.mod_two_eq_zero_or_one y with h | h <;> rcases Nat.mod_two_eq_zero_or_one z with h' | h' <;> rw [h, h'] <;> rfl
  rw [this]
  rcases Nat.mod_two_eq_zero_or_one y with h | h <;> rcases Nat.mod_two_eq_zero_or_one z with h' | h' <;> rw [h, h'] <;> simp

theorem mand_xor (a b c : Nat) : (a ^^^ b) % 2 ^ c = (a % 2 ^ c) ^^^ (b % 2 ^ c) := Nat.xor_mod_two_pow
theorem mshr_xor (a b k : Nat) : (a ^^^ b) >>> k = (a >>> k) ^^^ (b >>> k) := Nat.shiftRight_xor_distrib
theorem mshl_xor (a b k : Nat) : (a ^^^ b) <<< k = (a <<< k) ^^^ (b <<< k) := Nat.shiftLeft_xor_distrib

theorem nxor4 (a b c d : Nat) : (a ^^^ b) ^^^ (c ^^^ d) = (a ^^^ c) ^^^ (b ^^^ d) := by ac_rfl

/-- The two parts that make `y`. -/
def mtY (h s : Nat) : Nat := ((s % 2 ^ h) <<< 31) ^^^ ((s >>> h) % 2 ^ 31)

/-- The new word. -/
def mtNew (h w km a s : Nat) : Nat := ((s >>> km) % 2 ^ w) ^^^ (mtY h s >>> 1) ^^^ (a * (mtY h s % 2))

/-- The step on packed states. -/
def mtG (h w km kt a s : Nat) : Nat := (s >>> w) ^^^ (mtNew h w km a s <<< kt)

theorem mtY_xor (h s t : Nat) : mtY h (s ^^^ t) = mtY h s ^^^ mtY h t := by
  rw [mtY, mtY, mtY, mand_xor, mshr_xor, mand_xor, mshl_xor]
  exact nxor4 _ _ _ _

theorem mtNew_xor (h w km a s t : Nat) : mtNew h w km a (s ^^^ t) = mtNew h w km a s ^^^ mtNew h w km a t := by
  rw [mtNew, mtNew, mtNew, mtY_xor, mshr_xor, mand_xor, mshr_xor, mxor_mul, nxor4 ((s >>> km) % 2 ^ w), nxor4]

theorem mtG_xor (h w km kt a s t : Nat) : mtG h w km kt a (s ^^^ t) = mtG h w km kt a s ^^^ mtG h w km kt a t := by
  rw [mtG, mtG, mtG, mtNew_xor, mshr_xor, mshl_xor]
  exact nxor4 _ _ _ _

theorem mtY_lt (h s : Nat) : mtY h s < 2 ^ (h + 31) := by
  apply Nat.xor_lt_two_pow
  · rw [Nat.shiftLeft_eq, pow_add]
    exact Nat.mul_lt_mul_of_pos_right (Nat.mod_lt _ (Nat.pow_pos (by decide))) (Nat.pow_pos (by decide))
  · exact lt_of_lt_of_le (Nat.mod_lt _ (Nat.pow_pos (by decide))) (Nat.pow_le_pow_right (by decide) (by omega))

theorem mtNew_lt {h w km a s : Nat} (hw : h + 31 = w) (ha : a < 2 ^ w) : mtNew h w km a s < 2 ^ w := by
  apply Nat.xor_lt_two_pow
  · apply Nat.xor_lt_two_pow
    · exact Nat.mod_lt _ (Nat.pow_pos (by decide))
    · exact lt_of_le_of_lt (Nat.shiftRight_le _ _) (hw ▸ mtY_lt h s)
  · rcases Nat.mod_two_eq_zero_or_one (mtY h s) with e | e <;> rw [e]
    · rw [Nat.mul_zero]; exact Nat.pow_pos (by decide)
    · rw [Nat.mul_one]; exact ha

theorem mtG_lt {h w km kt a d s : Nat} (hw : h + 31 = w) (ha : a < 2 ^ w) (hd : d = w + kt) (hs : s < 2 ^ d) : mtG h w km kt a s < 2 ^ d := by
  apply Nat.xor_lt_two_pow
  · exact lt_of_le_of_lt (Nat.shiftRight_le _ _) hs
  · rw [hd, Nat.shiftLeft_eq, pow_add]
    exact Nat.mul_lt_mul_of_pos_right (mtNew_lt hw ha) (Nat.pow_pos (by decide))

/-- The function evaluated by the kernel is the step on the state above the tag. -/
theorem mtF_tag (h mh w mw km kt a : Nat) (e1 : mh = 2 ^ h - 1) (e2 : mw = 2 ^ w - 1) (n : Nat) :
    mtF h mh w mw km kt a n >>> 64 = mtG h w km kt a (n >>> 64) := by
  have e3 : (0x7fffffff : Nat) = 2 ^ 31 - 1 := by decide
  have e4 : (0xffffffffffffffff : Nat) = 2 ^ 64 - 1 := by decide
  rw [mtF, force_eq, e1, e2, e3, e4]
  have y : Nat.xor (Nat.shiftLeft (Nat.land (Nat.shiftRight n 64) (2 ^ h - 1)) 31) (Nat.land (Nat.shiftRight n (Nat.add 64 h)) (2 ^ 31 - 1)) =
      mtY h (n >>> 64) := by
    show (((n >>> 64) &&& (2 ^ h - 1)) <<< 31) ^^^ ((n >>> (64 + h)) &&& (2 ^ 31 - 1)) = _
    rw [Nat.and_two_pow_sub_one_eq_mod, Nat.and_two_pow_sub_one_eq_mod, Nat.shiftRight_add, mtY]
  rw [y]
  generalize (Nat.mul (Nat.land n (2 ^ 64 - 1)) 6364136223846793005).add 1442695040888963407 = c
  show ((((n >>> (64 + w)) ^^^ ((((n >>> (64 + km)) &&& (2 ^ w - 1)) ^^^ (mtY h (n >>> 64) >>> 1)) ^^^ (a * (mtY h (n >>> 64) &&& 1))) <<< kt) <<< 64) ^^^
    (c &&& (2 ^ 64 - 1))) >>> 64 = _
  rw [mshr_xor, Nat.shiftLeft_shiftRight, Nat.and_two_pow_sub_one_eq_mod c, Nat.shiftRight_eq_div_pow (c % 2 ^ 64), Nat.div_eq_of_lt (Nat.mod_lt _ (Nat.pow_pos (by decide))),
    Nat.xor_zero, Nat.and_two_pow_sub_one_eq_mod, Nat.and_one_is_mod, Nat.shiftRight_add, Nat.shiftRight_add]
  rfl

/-! ### Windows -/

/-- What the packing needs to know about the parameters. -/
class MtPk {w : Nat} (P : MtPar w) : Prop extends MtOk P where
  hw : 32 ≤ w
  hd : w * P.N = 19968
  hu : ∀ i < w, P.upper.getLsbD i = decide (31 ≤ i)
  hl : ∀ i < w, P.lower.getLsbD i = decide (i < 31)

instance : MtPk mt32 := ⟨by decide, by decide, by decide, by decide⟩
instance : MtPk mt64 := ⟨by decide, by decide, by decide, by decide⟩

section
variable {w : Nat} (P : MtPar w) [MtPk P]

theorem mtY_toNat (x0 x1 : BitVec w) :
    ((x0 &&& P.upper) ||| (x1 &&& P.lower)).toNat = ((x0.toNat >>> 31) <<< 31) ^^^ (x1.toNat % 2 ^ 31) := by
  apply Nat.eq_of_testBit_eq
  intro i
  rw [BitVec.testBit_toNat, BitVec.getLsbD_or, BitVec.getLsbD_and, BitVec.getLsbD_and, Nat.testBit_xor, Nat.testBit_shiftLeft, Nat.testBit_shiftRight,
    Nat.testBit_mod_two_pow, BitVec.testBit_toNat, BitVec.testBit_toNat]
  by_cases hi : i < w
  · rw [MtPk.hu i hi, MtPk.hl i hi]
    by_cases h31 : 31 ≤ i
    · have e : ¬ i < 31 := by omega
      rw [show 31 + (i - 31) = i by omega]
      simp [h31, e]
    · have e : i < 31 := by omega
      simp [h31, e]
  · rw [BitVec.getLsbD_of_ge x0 i (by omega), BitVec.getLsbD_of_ge x1 i (by omega), BitVec.getLsbD_of_ge x0 _ (by have := MtPk.hw (P := P); omega)]
    simp

theorem mtWord_toNat (x0 x1 xm : BitVec w) : (mtWord P x0 x1 xm).toNat =
    xm.toNat ^^^ ((((x0.toNat >>> 31) <<< 31) ^^^ (x1.toNat % 2 ^ 31)) >>> 1) ^^^ (P.a.toNat * ((((x0.toNat >>> 31) <<< 31) ^^^ (x1.toNat % 2 ^ 31)) % 2)) := by
  rw [mtWord]
  simp only [BitVec.toNat_xor, BitVec.toNat_ushiftRight]
  rw [mtY_toNat P]
  congr 1
  rw [← BitVec.testBit_toNat, mtY_toNat P]
  generalize ((x0.toNat >>> 31) <<< 31) ^^^ (x1.toNat % 2 ^ 31) = y
  rw [Nat.testBit_zero]
  rcases Nat.mod_two_eq_zero_or_one y with e | e <;> rw [e]
  · simp
  · simp

/-- The packed window from `k` on. -/
def mtWin (x : Nat → BitVec w) (k : Nat) : PV 19937 := ⟨pk P.N (fun i => x (k + i)) >>> 31, by
  have h1 := pk_lt (w := w) (by have := MtPk.hw (P := P); omega) P.N (fun i => x (k + i))
  rw [MtPk.hd (P := P)] at h1
  rw [Nat.shiftRight_eq_div_pow]
  apply Nat.div_lt_of_lt_mul
  rw [← pow_add]
  exact h1⟩

variable {P}

theorem mtWin_top (x : Nat → BitVec w) (k : Nat) : (mtWin P x k).val % 2 ^ (w - 31) = (x k).toNat >>> 31 := by
  have hw := MtPk.hw (P := P)
  have h := pk_word (w := w) (by omega) P.N (fun i => x (k + i)) 0 (by have := P.hM; omega)
  show (pk P.N (fun i => x (k + i)) >>> 31) % 2 ^ (w - 31) = _
  rw [Nat.mul_zero, Nat.shiftRight_zero, Nat.add_zero] at h
  rw [← h]
  apply Nat.eq_of_testBit_eq
  intro i
  rw [Nat.testBit_mod_two_pow, Nat.testBit_shiftRight, Nat.testBit_shiftRight, Nat.testBit_mod_two_pow]
  congr 1
  exact decide_eq_decide.2 (by omega)

theorem mtWin_shr (x : Nat → BitVec w) (k j : Nat) (hj : 31 ≤ j) : (mtWin P x k).val >>> (j - 31) = pk P.N (fun i => x (k + i)) >>> j := by
  show (pk P.N (fun i => x (k + i)) >>> 31) >>> (j - 31) = _
  rw [← Nat.shiftRight_add, show 31 + (j - 31) = j by omega]

theorem mtWin_word (x : Nat → BitVec w) (k i : Nat) (h0 : 0 < i) (hi : i < P.N) : ((mtWin P x k).val >>> (w * i - 31)) % 2 ^ w = (x (k + i)).toNat := by
  have hw := MtPk.hw (P := P)
  have : w ≤ w * i := Nat.le_mul_of_pos_right w h0
  rw [mtWin_shr x k (w * i) (by omega)]
  exact pk_word (by omega) P.N (fun i => x (k + i)) i hi

theorem mtWin_y (x : Nat → BitVec w) (k : Nat) : mtY (w - 31) (mtWin P x k).val = (((x k).toNat >>> 31) <<< 31) ^^^ ((x (k + 1)).toNat % 2 ^ 31) := by
  have hw := MtPk.hw (P := P)
  have h := mtWin_word (P := P) x k 1 (by omega) (by have := P.hM; omega)
  rw [Nat.mul_one] at h
  rw [mtY, mtWin_top, ← h]
  congr 1
  rw [Nat.mod_mod_of_dvd _ (Nat.pow_dvd_pow 2 (by omega))]

theorem mtWin_succ (x : MSol P) (k : Nat) :
    (mtWin P x.val (k + 1)).val = mtG (w - 31) w (w * P.M - 31) (w * (P.N - 1) - 31) P.a.toNat (mtWin P x.val k).val := by
  have hw := MtPk.hw (P := P)
  have hM := P.hM
  have e1 : w ≤ w * P.M := Nat.le_mul_of_pos_right w hM.1
  have e2 : w ≤ w * (P.N - 1) := Nat.le_mul_of_pos_right w (by omega)
  have h := pk_next (w := w) (by omega) P.N (by omega) (fun i => x.val (k + i))
  have hn : mtNew (w - 31) w (w * P.M - 31) P.a.toNat (mtWin P x.val k).val = (x.val (k + P.N)).toNat := by
    rw [mtNew, mtWin_word x.val k P.M hM.1 (by omega), mtWin_y, x.sol k, mtWord_toNat]
  rw [mtG, hn]
  show pk P.N (fun i => x.val (k + 1 + i)) >>> 31 = _
  have e : (fun i => x.val (k + 1 + i)) = fun i => x.val (k + (i + 1)) := by
    funext i; congr 1; omega
  rw [e, h, mshr_xor]
  congr 1
  · show _ = (pk P.N (fun i => x.val (k + i)) >>> 31) >>> w
    rw [← Nat.shiftRight_add, ← Nat.shiftRight_add, Nat.add_comm]
  · generalize (x.val (k + P.N)).toNat = z
    have e3 : w * (P.N - 1) = (w * (P.N - 1) - 31) + 31 := by omega
    conv_lhs => rw [e3]
    rw [Nat.shiftLeft_add, Nat.shiftLeft_shiftRight]

theorem mtWin_shift (x : MSol P) : mtWin P (mtS P x).val 0 = mtWin P x.val (0 + 1) := by
  apply PV.ext'
  show pk P.N (fun i => x.val (0 + i + 1)) >>> 31 = pk P.N (fun i => x.val (0 + 1 + i)) >>> 31
  rw [pk_congr P.N (fun i => x.val (0 + i + 1)) (fun i => x.val (0 + 1 + i)) (fun i _ => by congr 1; omega)]

/-- Packing the first window is additive. -/
def mtPhi (P : MtPar w) [MtPk P] : MSol P →+ PV 19937 where
  toFun x := mtWin P x.val 0
  map_zero' := by
    apply PV.ext'
    apply Nat.eq_of_testBit_eq
    intro j
    show (pk P.N (fun i => (0 : BitVec w)) >>> 31).testBit j = _
    rw [Nat.testBit_shiftRight, testBit_pk (by have := MtPk.hw (P := P); omega), PV.zero_val]
    simp
  map_add' x y := by
    apply PV.ext'
    apply Nat.eq_of_testBit_eq
    intro j
    have hw := MtPk.hw (P := P)
    show (pk P.N (fun i => x.val (0 + i) ^^^ y.val (0 + i)) >>> 31).testBit j = ((pk P.N (fun i => x.val (0 + i)) >>> 31) ^^^ (pk P.N (fun i => y.val (0 + i)) >>> 31)).testBit j
    rw [Nat.testBit_xor, Nat.testBit_shiftRight, Nat.testBit_shiftRight, Nat.testBit_shiftRight, testBit_pk (by omega), testBit_pk (by omega), testBit_pk (by omega),
      BitVec.getLsbD_xor]
    cases decide ((31 + j) / w < P.N) <;> simp

theorem mtPhi_val (x : MSol P) : mtPhi P x = mtWin P x.val 0 := rfl

/-- Solutions with the same packed window agree from term 1 on, and in the upper bits of term 0. -/
theorem mtPhi_eq {x y : MSol P} (h : mtPhi P x = mtPhi P y) : (∀ k, x.val (k + 1) = y.val (k + 1)) ∧ (x.val 0).toNat >>> 31 = (y.val 0).toNat >>> 31 := by
  have hM := P.hM
  have hw := MtPk.hw (P := P)
  have e0 : (x.val 0).toNat >>> 31 = (y.val 0).toNat >>> 31 := by rw [← mtWin_top (P := P), ← mtWin_top (P := P), ← mtPhi_val, ← mtPhi_val, h]
  have ei : ∀ i, 0 < i → i < P.N → x.val i = y.val i := fun i h0 hi => by
    apply BitVec.eq_of_toNat_eq
    have := mtWin_word (P := P) x.val 0 i h0 hi
    rw [Nat.zero_add] at this
    rw [← this, ← mtPhi_val, h, mtPhi_val, mtWin_word y.val 0 i h0 hi, Nat.zero_add]
  refine ⟨fun k => ?_, e0⟩
  have hx := x.sol.shift 1
  have hy := y.sol.shift 1
  have := MtRec.unique hx hy (fun i hi => ?_) k
  · rwa [Nat.add_comm 1 k] at this
  · rcases Nat.lt_or_ge (1 + i) P.N with h1 | h1
    · exact ei _ (by omega) h1
    · have : 1 + i = 0 + P.N := by omega
      show x.val (1 + i) = y.val (1 + i)
      rw [this, x.sol 0, y.sol 0]
      apply BitVec.eq_of_toNat_eq
      rw [mtWord_toNat, mtWord_toNat, e0, ei (0 + 1) (by omega) (by omega), ei (0 + P.M) (by omega) (by omega)]

end

/-! ### MT19937 -/

/-- The linear map of MT19937. -/
def mt32T : AddMonoid.End (PV 19937) := PV.endo (mtG 1 32 12673 19905 0x9908b0df)
  (fun _ h => mtG_lt rfl (by decide) (show 19937 = 32 + 19905 from rfl) h) (mtG_xor _ _ _ _ _)

theorem mt32_ann : ev mt32T mt32Chi = 0 ∧ (∀ v, ∃ c < 2 ^ 19937, v = ev mt32T c ⟨mt32Vec, by decide +kernel⟩) ∧
    ∀ c < 2 ^ 19937, ev mt32T c = 0 → c = 0 := by
  have hv : mt32Vec < 2 ^ 19937 := by decide +kernel
  have hm : mt32Chi < 2 ^ 19938 := by decide +kernel
  obtain ⟨c1, c2⟩ := checks_tag (mtG 1 32 12673 19905 0x9908b0df) mt32F (mtF_tag 1 1 32 0xffffffff 12673 19905 0x9908b0df (by decide) (by decide))
    19905 19936 mt32Vec mt32Chi 19938 mt32Checks.1 mt32Checks.2
  exact PV.of_checks (mtG 1 32 12673 19905 0x9908b0df) _ _ (by decide) (by decide) 19905 mt32Vec mt32Chi 19938 hv (by decide) hm c1 c2

theorem mt32Phi_step (x : MSol mt32) : mtPhi mt32 (mtS mt32 x) = mt32T (mtPhi mt32 x) := by
  apply PV.ext'
  have := mtWin_succ x 0
  show (mtWin mt32 (mtS mt32 x).val 0).val = mtG 1 32 12673 19905 0x9908b0df (mtWin mt32 x.val 0).val
  rw [show 32 * mt32.M - 31 = 12673 by decide, show 32 * (mt32.N - 1) - 31 = 19905 by decide, show mt32.a.toNat = 0x9908b0df by decide] at this
  rw [mtWin_shift, this]

theorem mt32_powers (e : Nat) (he : e ∈ [128, 132, 136, 140, 144]) : ev mt32T (mtPoly e) = mt32T ^ 2 ^ e := by
  obtain ⟨t1, t2, t3, t4, t5⟩ := mt32Tables
  have hm : mt32Chi < 2 ^ 32767 := by decide +kernel
  have h2 : 2 < 2 ^ 32767 := by decide +kernel
  have p1 : mtPoly128 < 2 ^ 32767 := by decide +kernel
  have p2 : mtPoly132 < 2 ^ 32767 := by decide +kernel
  have p3 : mtPoly136 < 2 ^ 32767 := by decide +kernel
  have p4 : mtPoly140 < 2 ^ 32767 := by decide +kernel
  have p5 : mtPoly144 < 2 ^ 32767 := by decide +kernel
  have hs := end_add_self (PV.add_self (d := 19937))
  have e1 := ev_of_sqCheck mt32T hs hm h2 p1 mt32_ann.1 t1
  have e2 := ev_of_sqCheck mt32T hs hm p1 p2 mt32_ann.1 t2
  have e3 := ev_of_sqCheck mt32T hs hm p2 p3 mt32_ann.1 t3
  have e4 := ev_of_sqCheck mt32T hs hm p3 p4 mt32_ann.1 t4
  have e5 := ev_of_sqCheck mt32T hs hm p4 p5 mt32_ann.1 t5
  have f1 : ev mt32T 2 = mt32T := by
    have := ev_two_mul mt32T 1
    rw [ev_one, mul_one] at this
    exact this
  rw [f1] at e1
  rw [e1, ← pow_mul] at e2
  rw [e2, ← pow_mul] at e3
  rw [e3, ← pow_mul] at e4
  rw [e4, ← pow_mul] at e5
  simp only [List.mem_cons, List.not_mem_nil, or_false] at he
  rcases he with rfl | rfl | rfl | rfl | rfl
  exacts [e1, e2, e3, e4, e5]

end Verif.Linear
