import Verif.Props.SfmtSeed
import Verif.Proof.SfmtJump
import Verif.Model.SimdPoly

/-! dSFMT: C18, C38 and the jumps of SFMT and dSFMT as sums of terms of the recurrence (C66). -/

namespace Verif

/-! ### C18 -/

theorem packD_bit (x : D128) (i : Nat) : x.pack.getLsbD i = if i < 64 then x.u0.getLsbD i else x.u1.getLsbD (i - 64) := by
  show (x.u1 ++ x.u0 : BitVec (64 + 64)).getLsbD i = _
  rw [BitVec.getLsbD_append]

theorem mmSlli64_pack (x : D128) (k : Nat) : mmSlli64 x.pack k = D128.pack ⟨x.u0 <<< k, x.u1 <<< k⟩ := by
  have h0 : x.pack.extractLsb' 0 64 = x.u0 := by
    apply BitVec.eq_of_getLsbD_eq; intro i hi
    rw [BitVec.getLsbD_extractLsb', packD_bit, Nat.zero_add, if_pos hi, decide_eq_true hi, Bool.true_and]
  have h1 : x.pack.extractLsb' 64 64 = x.u1 := by
    apply BitVec.eq_of_getLsbD_eq; intro i hi
    rw [BitVec.getLsbD_extractLsb', packD_bit, if_neg (by omega), decide_eq_true hi, Bool.true_and, Nat.add_sub_cancel_left]
  rw [mmSlli64, h0, h1]; rfl

theorem mmSrli64_pack (x : D128) (k : Nat) : mmSrli64 x.pack k = D128.pack ⟨x.u0 >>> k, x.u1 >>> k⟩ := by
  have h0 : x.pack.extractLsb' 0 64 = x.u0 := by
    apply BitVec.eq_of_getLsbD_eq; intro i hi
    rw [BitVec.getLsbD_extractLsb', packD_bit, Nat.zero_add, if_pos hi, decide_eq_true hi, Bool.true_and]
  have h1 : x.pack.extractLsb' 64 64 = x.u1 := by
    apply BitVec.eq_of_getLsbD_eq; intro i hi
    rw [BitVec.getLsbD_extractLsb', packD_bit, if_neg (by omega), decide_eq_true hi, Bool.true_and, Nat.add_sub_cancel_left]
  rw [mmSrli64, h0, h1]; rfl

theorem mmShuf1b_pack (x : D128) : mmShuf1b x.pack = D128.pack ⟨(x.u1 >>> 32) ^^^ (x.u1 <<< 32), (x.u0 >>> 32) ^^^ (x.u0 <<< 32)⟩ := by
  apply BitVec.eq_of_getLsbD_eq
  intro i hi
  rw [mmShuf1b, append4_bit, packD_bit]
  simp only [BitVec.getLsbD_extractLsb', packD_bit, BitVec.getLsbD_xor, BitVec.getLsbD_ushiftRight, BitVec.getLsbD_shiftLeft]
  interval_cases i <;> simp

/-- C18 for dSFMT: the SSE2 recursion is the portable one, for all operands. -/
theorem C18_dsfmt_sse (u a b : D128) :
    dsfmtStepSse u.pack a.pack b.pack = ((dsfmtStep u a b).1.pack, (dsfmtStep u a b).2.pack) := by
  have e1 : ∀ s t p q : U64, (s ^^^ t) ^^^ (p ^^^ q) = p ^^^ s ^^^ t ^^^ q := by intro s t p q; ac_rfl
  have e2 : ∀ s t p : U64, (s ^^^ t) ^^^ p = s ^^^ p ^^^ t := by intro s t p; ac_rfl
  simp only [dsfmtStepSse, dsfmtStep, mmSlli64_pack, mmShuf1b_pack, packD_xor, mmSrli64_pack, packD_and, e1]
  rw [Prod.mk.injEq]
  refine ⟨?_, rfl⟩
  rw [e2 _ a.u0, e2 _ a.u1]

/-! ### C38 -/

/-- Both halves have the sign and exponent bits of a number in `[1, 2)`. -/
def DOk (x : D128) : Prop := x.u0 >>> 52 = 0x3ff ∧ x.u1 >>> 52 = 0x3ff

theorem dsfmtStep_ok (l a b : D128) (h : DOk a) : DOk (dsfmtStep l a b).1 := by
  have e : ∀ x t m : U64, m >>> 52 = 0#64 → ((x >>> 12) ^^^ (x &&& m) ^^^ t) >>> 52 = t >>> 52 := by
    intro x t m hm
    rw [BitVec.ushiftRight_xor_distrib, BitVec.ushiftRight_xor_distrib, BitVec.ushiftRight_and_distrib, hm, BitVec.and_zero, BitVec.xor_zero,
      ← BitVec.shiftRight_add, BitVec.ushiftRight_eq_zero (by omega), BitVec.zero_xor]
  exact ⟨(e _ _ _ (by decide)).trans h.1, (e _ _ _ (by decide)).trans h.2⟩

theorem simdSeq_ok (st : Nat → D128) (l : D128) (h : ∀ i < 191, DOk (st i)) (k : Nat) : DOk ((simdSeq dsfmtStep 191 117 st l k).1 0) := by
  obtain ⟨hr, h0⟩ := simdSeq_rec dsfmtStep (N := 191) (P := 117) (by omega) st l
  induction k using Nat.strong_induction_on with
  | _ k ih =>
    by_cases hk : k < 191
    · rw [h0 k hk]; exact h k hk
    · have := hr (k - 191)
      rw [show k - 191 + 191 = k by omega] at this
      have e := congrArg Prod.fst this
      simp only at e
      rw [← e]
      exact dsfmtStep_ok _ _ _ (ih _ (by omega))

theorem dsfmtFill_def (s : Dsfmt) : ∃ f, f = genArray dsfmtStep 191 117 191 (fun _ => ⟨0, 0⟩) s.lung s.st ∧
    dsfmtFill s = { s with st := f.st, lung := f.reg, buf := wordsD f.arr } := by
  refine ⟨_, rfl, ?_⟩
  simp only [dsfmtFill, dsfmtN, dsfmtPos1, Nat.reduceDiv]

/-- Generator invariant: all words to come, and the buffered ones still to be read, are numbers in `[1, 2)`. -/
def DInv (s : Dsfmt) : Prop := 0 ≤ s.loc ∧ (∀ i < 191, DOk (s.st i)) ∧ ∀ j : Nat, s.loc ≤ j → j < 382 → s.buf j >>> 52 = 0x3ff

theorem dsfmtNext_inv (s : Dsfmt) (h : DInv s) : ∃ r s', dsfmtNext s = some (r, s') ∧ r >>> 52 = 0x3ff ∧ DInv s' := by
  obtain ⟨h0, h1, h2⟩ := h
  by_cases hl : s.loc < 382
  · refine ⟨s.buf s.loc.toNat, { s with loc := s.loc + 1 }, ?_, ?_, ?_⟩
    · rw [dsfmtNext, if_pos hl, if_pos h0]
    · exact h2 _ (by omega) (by omega)
    · exact ⟨by show 0 ≤ s.loc + 1; omega, h1, fun j hj hj2 => h2 j (by have : s.loc + 1 ≤ j := hj; omega) hj2⟩
  · obtain ⟨f, hf, hfill⟩ := dsfmtFill_def s
    obtain ⟨hr, hx0⟩ := simdSeq_rec dsfmtStep (N := 191) (P := 117) (by omega) s.st s.lung
    obtain ⟨g1, g2, g3⟩ := genArray_spec (by omega) hr 0 191 le_rfl (fun _ => ⟨0, 0⟩) s.lung s.st (fun j hj => by rw [Nat.zero_add]; exact (hx0 j hj).symm) rfl
    rw [← hf] at g1 g2 g3
    have hbuf : ∀ j < 382, wordsD f.arr j >>> 52 = 0x3ff := by
      intro j hj
      have hd := simdSeq_ok s.st s.lung h1 (0 + 191 + j / 2)
      rw [← g1 (j / 2) (by omega)] at hd
      rw [wordsD]
      split
      · exact hd.1
      · exact hd.2
    refine ⟨wordsD f.arr 0, { s with st := f.st, lung := f.reg, buf := wordsD f.arr, loc := 1 }, ?_, hbuf 0 (by omega), ?_⟩
    · rw [dsfmtNext, if_neg hl, hfill]
    · refine ⟨by show (0 : Int) ≤ 1; omega, fun i hi => ?_, fun j _ hj => hbuf j hj⟩
      show DOk (f.st i)
      rw [g2 i hi]
      exact simdSeq_ok s.st s.lung h1 _

/-! ### C65 and C13 for dSFMT -/

/-- C65 for dSFMT: first what is left in the buffer, then the halves of the words `191, 192, …` of the recurrence started
by the array and the lung; no draw from a location `0..382` is undefined. -/
theorem C65_dsfmt (s : Dsfmt) (h0 : 0 ≤ s.loc) (h1 : s.loc ≤ 382) (x ρ : Nat → D128)
    (hx : ∀ k, dsfmtStep (ρ k) (x k) (x (k + 117)) = (x (k + 191), ρ (k + 1))) (hk : ∀ i < 191, s.st i = x i) (hl0 : s.lung = ρ 0) (n : Nat) :
    nthO dsfmtNext n s = some (if s.loc.toNat + n < 382 then s.buf (s.loc.toNat + n)
      else if (s.loc.toNat + n) % 2 = 0 then (x (191 + (s.loc.toNat + n - 382) / 2)).u0 else (x (191 + (s.loc.toNat + n - 382) / 2)).u1) := by
  obtain ⟨V, hV⟩ : ∃ V : Nat → U64, V = fun p => if p < 382 then s.buf p else if p % 2 = 0 then (x (191 + (p - 382) / 2)).u0 else (x (191 + (p - 382) / 2)).u1 :=
    ⟨_, rfl⟩
  have hn := nthO_of_inv dsfmtNext (fun t p => ∃ c j, p = 382 * c + j ∧ t.loc = (j : Nat) ∧ j ≤ 382 ∧ (∀ i < 191, t.st i = x (191 * c + i)) ∧
      t.lung = ρ (191 * c) ∧ ∀ q < 382, t.buf q = V (382 * c + q)) V (fun t p ht => ?_) s s.loc.toNat
      ⟨0, s.loc.toNat, by omega, by omega, by omega, fun i hi => ?_, hl0, fun q hq => ?_⟩ n
  · rw [hn, hV]
  · obtain ⟨c, j, hp, hl, hj, hst, hlu, hb⟩ := ht
    rw [dsfmtNext]
    by_cases hlt : j < 382
    · rw [if_pos (by omega), if_pos (by omega)]
      refine ⟨{ t with loc := t.loc + 1 }, by rw [hb _ (by omega), hl, Int.toNat_natCast, ← hp], c, j + 1, by omega, ?_, by omega, hst, hlu, hb⟩
      show t.loc + 1 = _
      omega
    · rw [if_neg (by omega)]
      have hj2 : j = 382 := by omega
      obtain ⟨f, hf, hF⟩ := dsfmtFill_def t
      have hg := genArray_spec (N := 191) (P := 117) (by decide) hx (191 * c) 191 (le_refl _) (fun _ => ⟨0, 0⟩) t.lung t.st hst hlu
      rw [← hf] at hg
      obtain ⟨g1, g2, g3⟩ := hg
      simp only [hF]
      have hbuf : ∀ q < 382, wordsD f.arr q = V (382 * (c + 1) + q) := by
        intro q hq
        rw [wordsD, g1 _ (by omega), hV]
        simp only [if_neg (show ¬ 382 * (c + 1) + q < 382 by omega)]
        rw [show 191 + (382 * (c + 1) + q - 382) / 2 = 191 * c + 191 + q / 2 by omega, show (382 * (c + 1) + q) % 2 = q % 2 by omega]
      refine ⟨⟨f.st, f.reg, wordsD f.arr, 1⟩, ?_, c + 1, 1, by omega, rfl, by decide, fun i hi => ?_, ?_, hbuf⟩
      · rw [hbuf 0 (by decide), hp, hj2, Nat.mul_succ, Nat.add_zero]
      · show f.st i = _
        rw [g2 i hi, Nat.mul_succ]
      · show f.reg = _
        rw [g3, Nat.mul_succ]
  · show _ = x (191 * 0 + i)
    rw [Nat.mul_zero, Nat.zero_add, hk i hi]
  · rw [hV]; simp [hq]

/-- C13 for dSFMT (partial): locations `0..382` never lead outside the buffer. Missing: the setter takes any integer. -/
theorem C13_dsfmt_partial (s : Dsfmt) (h0 : 0 ≤ s.loc) (h1 : s.loc ≤ 382) (n : Nat) : (nthO dsfmtNext n s).isSome := by
  obtain ⟨hr, hx0⟩ := simdSeq_rec dsfmtStep (N := 191) (P := 117) (by omega) s.st s.lung
  rw [C65_dsfmt s h0 h1 _ _ hr (fun i hi => (hx0 i hi).symm) rfl n]; rfl

/-- C13 fails for dSFMT: an accepted negative `buffer_loc` is read outside the buffer. -/
theorem not_C13_dsfmt (s : Dsfmt) (h : s.loc < 0) : nthO dsfmtNext 0 s = none := by
  have : dsfmtNext s = none := by rw [dsfmtNext, if_pos (by omega), if_neg (by omega)]
  rw [nthO, runO, Option.bind_some, this]; rfl

/-! Jumps -/

def xorD (a b : D128) : D128 := ⟨a.u0 ^^^ b.u0, a.u1 ^^^ b.u1⟩

/-- C66 for dSFMT: a jump replaces every word by the sum of the terms of the recurrence selected by the polynomial's
coefficients. -/
theorem C66_dsfmt (cs : List Bool) (st : Nat → D128) (lung : D128) (x : Nat → D128) (ρ : Nat → D128)
    (hx : ∀ k, dsfmtStep (ρ k) (x k) (x (k + 117)) = (x (k + 191), ρ (k + 1))) (h0 : ∀ i < 191, st i = x i) (hl : lung = ρ 0) :
    (∀ i < 191, (dsfmtJump cs st lung).1 i = pick xorD ⟨0, 0⟩ cs (fun k => x (k + i))) ∧
    (dsfmtJump cs st lung).2 = pick xorD ⟨0, 0⟩ cs ρ := by
  have hn := ringNext_at (load := fun _ (l : D128) _ => l) (keep := fun l _ => l) (N := 191) (P := 117) (by omega) hx (fun k r => r = ρ k)
    (fun _ _ _ h => h) (fun k r _ => rfl)
  have := ringJump_spec (addW := xorD) (addR := xorD) (N := 191) (by omega) (regs := ρ) (fun k r => r = ρ k) (fun _ _ h => h) hn cs ⟨st, lung, 191⟩
    ⟨rfl, fun i hi => by rw [Nat.zero_add, Nat.mod_eq_of_lt hi]; exact h0 i hi⟩ hl ⟨fun _ => ⟨0, 0⟩, ⟨0, 0⟩, 0⟩ rfl
  exact this

/-- C66 for SFMT. -/
theorem C66_sfmt (cs : List Bool) (st : Nat → W128) (x : Nat → W128)
    (hx : ∀ k, x (k + 156) = sfmtRec (x k) (x (k + 122)) (x (k + 154)) (x (k + 155))) (h0 : ∀ i < 156, st i = x i) :
    ∀ i < 156, sfmtJump cs st i = pick W128.xor ⟨0, 0, 0, 0⟩ cs (fun k => x (k + i)) := by
  have hx' : SimdRec sfmtStep 156 122 x (fun k => (x (k + 154), x (k + 155))) := by
    intro k
    show (sfmtRec (x k) (x (k + 122)) (x (k + 154)) (x (k + 155)), (x (k + 155), sfmtRec (x k) (x (k + 122)) (x (k + 154)) (x (k + 155)))) = _
    rw [← hx, show k + 1 + 154 = k + 155 by omega, show k + 1 + 155 = k + 156 by omega]
  have hn := ringNext_at (R := Unit) (load := fun st _ i => (st ((i + 156 - 2) % 156), st ((i + 156 - 1) % 156))) (keep := fun _ _ => ()) (N := 156) (P := 122)
    (by omega) hx' (fun _ _ => True) (fun s k h _ => by
      have a := h.2 154 (by omega)
      have b := h.2 155 (by omega)
      rw [show (k % 156 + 156 - 2) % 156 = (k + 154) % 156 by omega, show (k % 156 + 156 - 1) % 156 = (k + 155) % 156 by omega, a, b]) (fun _ _ _ => trivial)
  have := ringJump_spec (addW := W128.xor) (addR := fun _ _ => ()) (N := 156) (by omega) (regs := fun _ => ()) (fun _ _ => True) (fun _ _ _ => rfl) hn cs ⟨st, (), 156⟩
    ⟨rfl, fun i hi => by rw [Nat.zero_add, Nat.mod_eq_of_lt hi]; exact h0 i hi⟩ trivial ⟨fun _ => ⟨0, 0, 0, 0⟩, (), 0⟩ rfl
  exact this.1

/-! Jumps keep the numbers in `[1, 2)`: the polynomials have an odd number of terms. -/

/-- Halving used to count the terms of a polynomial modulo 2. -/
def parityFold (k a : Nat) : Nat := (a % 2 ^ k) ^^^ (a >>> k)

open Verif.GF2 Verif.Linear in
theorem ev_parityFold {R : Type} [_root_.Ring R] (h2 : ∀ x : R, x + x = 0) (k a : Nat) : ev (1 : R) (parityFold k a) = ev 1 a := by
  have : a = (a % 2 ^ k) ^^^ ((a >>> k) <<< k) := by
    apply Nat.eq_of_testBit_eq
    intro i
    rw [Nat.testBit_xor, Nat.testBit_mod_two_pow, Nat.testBit_shiftLeft, Nat.testBit_shiftRight]
    by_cases h : i < k
    · simp [h, show ¬ k ≤ i by omega]
    · simp [h, show k ≤ i by omega]
  conv_rhs => rw [this, ev_xor 1 h2, ev_shiftLeft, one_pow, one_mul, ← ev_xor 1 h2]
  rfl

/-- Parity of the number of terms of a polynomial of degree below `2^15`. -/
def parity15 (a : Nat) : Nat :=
  parityFold 1 (parityFold 2 (parityFold 4 (parityFold 8 (parityFold 16 (parityFold 32 (parityFold 64 (parityFold 128 (parityFold 256 (parityFold 512 (parityFold 1024
    (parityFold 2048 (parityFold 4096 (parityFold 8192 (parityFold 16384 a))))))))))))))

/-- 12-bit words under xor. -/
def X12 := BitVec 12
instance : AddCommGroup X12 := Linear.xorGroup (0#12) (fun a b => BitVec.xor a b) (fun a b c => BitVec.xor_assoc a b c) (fun a b => BitVec.xor_comm a b)
  (fun _ => BitVec.zero_xor) (fun _ => BitVec.xor_self)

theorem dsfmtPoly_odd : ∀ e ∈ [128, 132, 136, 140, 144], parity15 ((dsfmtPoly e).1 % 2 ^ (4 * (dsfmtPoly e).2)) = 1 := by decide +kernel

/-- The coefficients of the jump polynomial `poly_e` of dSFMT. -/
def dsfmtCoeffs (e : Nat) : List Bool := jumpCoeffs (dsfmtPoly e).1 (dsfmtPoly e).2

open Verif.GF2 Verif.Linear in
theorem pick_const (e : Nat) (he : e ∈ [128, 132, 136, 140, 144]) (c : X12) : pick (· + ·) (0 : X12) (dsfmtCoeffs e) (fun _ => c) = c := by
  have hV : ∀ v : X12, v + v = 0 := fun v => BitVec.xor_self (x := v)
  have h := pick_eq_ev hV (1 : AddMonoid.End X12) (dsfmtPoly e).1 0 c (4 * (dsfmtPoly e).2)
  have e1 : (fun k => (1 : AddMonoid.End X12)^[k] c) = fun _ => c := by
    funext k
    show (id : X12 → X12)^[k] c = c
    rw [Function.iterate_id]; rfl
  rw [e1] at h
  have h2 := end_add_self hV
  have o := dsfmtPoly_odd e he
  have : ev (1 : AddMonoid.End X12) ((dsfmtPoly e).1 % 2 ^ (4 * (dsfmtPoly e).2)) = 1 := by
    have p : ∀ a, ev (1 : AddMonoid.End X12) (parity15 a) = ev 1 a := by
      intro a
      simp only [parity15, ev_parityFold h2]
    rw [← p, o, ev_one]
  rw [this] at h
  rw [dsfmtCoeffs, jumpCoeffs, h]
  exact zero_add c

theorem dsfmtJump_ok (e : Nat) (he : e ∈ [128, 132, 136, 140, 144]) (st : Nat → D128) (lung : D128) (h : ∀ i < 191, DOk (st i)) :
    ∀ i < 191, DOk ((dsfmtJump (dsfmtCoeffs e) st lung).1 i) := by
  intro i hi
  obtain ⟨hr, hx0⟩ := simdSeq_rec dsfmtStep (N := 191) (P := 117) (by omega) st lung
  rw [(C66_dsfmt (dsfmtCoeffs e) st lung _ _ hr (fun i hi => (hx0 i hi).symm) rfl).1 i hi]
  have ok := simdSeq_ok st lung h
  have top : ∀ a : U64, a >>> 52 = 0x3ff ↔ a.extractLsb' 52 12 = (0x3ff : BitVec 12) := by
    intro a
    constructor
    · intro h
      apply BitVec.eq_of_getLsbD_eq
      intro j hj
      have := congrArg (fun b : U64 => b.getLsbD j) h
      simp only [BitVec.getLsbD_ushiftRight] at this
      rw [BitVec.getLsbD_extractLsb', decide_eq_true hj, Bool.true_and, this]
      interval_cases j <;> rfl
    · intro h
      apply BitVec.eq_of_getLsbD_eq
      intro j hj
      rw [BitVec.getLsbD_ushiftRight]
      by_cases hj2 : j < 12
      · have := congrArg (fun b : BitVec 12 => b.getLsbD j) h
        simp only [BitVec.getLsbD_extractLsb', decide_eq_true hj2, Bool.true_and] at this
        rw [this]
        interval_cases j <;> rfl
      · rw [BitVec.getLsbD_of_ge _ _ (by omega)]
        interval_cases j <;> rfl
  have e0 := pick_map (B := X12) (fun x : D128 => (x.u0.extractLsb' 52 12 : X12)) xorD (· + ·) (fun a b => BitVec.extractLsb'_xor) ⟨0, 0⟩ (dsfmtCoeffs e)
    (fun k => (simdSeq dsfmtStep 191 117 st lung (k + i)).1 0)
  have e1 := pick_map (B := X12) (fun x : D128 => (x.u1.extractLsb' 52 12 : X12)) xorD (· + ·) (fun a b => BitVec.extractLsb'_xor) ⟨0, 0⟩ (dsfmtCoeffs e)
    (fun k => (simdSeq dsfmtStep 191 117 st lung (k + i)).1 0)
  have f0 : (fun k => ((((simdSeq dsfmtStep 191 117 st lung (k + i)).1 0).u0.extractLsb' 52 12 : BitVec 12) : X12)) = fun _ => (0x3ff : BitVec 12) := by
    funext k; exact (top _).1 (ok (k + i)).1
  have f1 : (fun k => ((((simdSeq dsfmtStep 191 117 st lung (k + i)).1 0).u1.extractLsb' 52 12 : BitVec 12) : X12)) = fun _ => (0x3ff : BitVec 12) := by
    funext k; exact (top _).1 (ok (k + i)).2
  refine ⟨(top _).2 ?_, (top _).2 ?_⟩
  · refine Eq.trans e0 ?_
    rw [f0]
    exact pick_const e he _
  · refine Eq.trans e1 ?_
    rw [f1]
    exact pick_const e he _

/-- `dsfmt_jump_n` (dsfmt.c:635-656) on array and lung. -/
def dsfmtJumps (count : Nat) (s : Dsfmt) : Dsfmt :=
  let r := jumpN (fun e (p : (Nat → D128) × D128) => dsfmtJump (dsfmtCoeffs e) p.1 p.2) count (s.st, s.lung)
  { s with st := r.1, lung := r.2, loc := 382 }

/-- The states a `DSFMT` instance can reach by seeding, drawing (`next_double`, `next_raw`, `next32`, `next64` are all
made of `dsfmt_next_buffer`) and jumping (dsfmt.pyx:173-188). -/
inductive DReach : Dsfmt → Prop
  | seed (old : Dsfmt) (key : List U32) : DReach (dsfmtSeed old key)
  | next (s s' : Dsfmt) (r : U64) : DReach s → dsfmtNext s = some (r, s') → DReach s'
  | jump (s : Dsfmt) (count : Nat) : DReach s → DReach (dsfmtJumps count s)

theorem DReach.inv {s : Dsfmt} (h : DReach s) : DInv s := by
  induction h with
  | seed old key =>
    refine ⟨by show (0 : Int) ≤ 382; omega, fun i _ => ?_, fun j hj hj2 => ?_⟩
    · have e : ∀ x : U64, ((x &&& 0x000FFFFFFFFFFFFF) ||| 0x3FF0000000000000) >>> 52 = 0x3ff := by
        intro x
        rw [BitVec.ushiftRight_or_distrib, BitVec.ushiftRight_and_distrib, show (0x000FFFFFFFFFFFFF : U64) >>> 52 = 0#64 by decide, BitVec.and_zero,
          BitVec.zero_or]
        decide
      exact ⟨e _, e _⟩
    · have : (382 : Int) ≤ j := hj
      omega
  | next s s' r _ hn ih =>
    obtain ⟨r', s'', h1, _, h3⟩ := dsfmtNext_inv s ih
    rw [h1] at hn
    obtain ⟨_, rfl⟩ := Prod.mk.inj (Option.some.inj hn)
    exact h3
  | jump s count _ ih =>
    refine ⟨by show (0 : Int) ≤ 382; omega, ?_, fun j hj hj2 => ?_⟩
    · show ∀ i < 191, DOk ((jumpN (fun e (p : (Nat → D128) × D128) => dsfmtJump (dsfmtCoeffs e) p.1 p.2) count (s.st, s.lung)).1 i)
      rw [jumpN]
      have h2 := (C36_strides count).2
      generalize jumpPlan count = plan at h2 ⊢
      have : ∀ (p : (Nat → D128) × D128), (∀ i < 191, DOk (p.1 i)) → ∀ i < 191,
          DOk ((plan.foldl (fun (p : (Nat → D128) × D128) e => dsfmtJump (dsfmtCoeffs e) p.1 p.2) p).1 i) := by
        induction plan with
        | nil => exact fun p hp => hp
        | cons e es ih2 =>
          intro p hp
          rw [List.foldl_cons]
          exact ih2 (fun e' he' => h2 e' (List.mem_cons_of_mem _ he')) _ (dsfmtJump_ok e (h2 e List.mem_cons_self) p.1 p.2 hp)
      exact this (s.st, s.lung) ih.2.1
    · have : (382 : Int) ≤ j := hj
      omega

/-- C38: in every reachable state the next number drawn exists and is `1 + m / 2^52` with `m < 2^52`. Hence
`next_double`, which subtracts `1.0`, returns exactly `m / 2^52`, a number in `[0, 1)`: the difference is representable,
so the subtraction does not round. -/
theorem C38_dsfmt (s : Dsfmt) (h : DReach s) : ∃ r s' m, dsfmtNext s = some (r, s') ∧ m < 2 ^ 52 ∧
    dblVal r = some (((2 ^ 52 + m) * 2 ^ 1022 : Nat) : Int) := by
  obtain ⟨r, s', h1, h2, _⟩ := dsfmtNext_inv s h.inv
  have hm : (r &&& 0xfffffffffffff).toNat < 2 ^ 52 := by
    rw [BitVec.toNat_and]
    exact lt_of_le_of_lt Nat.and_le_right (by decide)
  refine ⟨r, s', (r &&& 0xfffffffffffff).toNat, h1, hm, ?_⟩
  have hs : r.getLsbD 63 = false := by
    have := congrArg (fun b : U64 => b.getLsbD 11) h2
    simpa [BitVec.getLsbD_ushiftRight] using this
  rw [dblVal, h2, show ((0x3ff : U64) &&& 0x7ff).toNat = 1023 by decide]
  simp only [hs]
  rw [if_neg (by omega), Nat.add_comm]
  rfl

/-- The numbers are not all equal. -/
example : (dsfmtNext ⟨fun i => ⟨0x3ff0000000000000 + BitVec.ofNat 64 i, 0x3ff0000000000001⟩, ⟨5, 7⟩, fun _ => 0, 382⟩).map (·.1) = some 4608307249267343413 := by
  decide +kernel

end Verif
