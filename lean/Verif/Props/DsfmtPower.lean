import Verif.Proof.DsfmtPower
import Verif.Props.SimdPower

/-! The jump tables of dSFMT advance by `2^e` words (C66), for every state; a jump of DSFMT is therefore `2^129` doubles,
not `2^128` (C68). -/

namespace Verif
open Verif.Linear Verif.GF2

theorem dsfmt_pow (e : Nat) (he : e ∈ [128, 132, 136, 140, 144]) :
    ev dsfmtS ((dsfmtPoly e).1 % 2 ^ (4 * (dsfmtPoly e).2)) = dsfmtS ^ 2 ^ e := by
  obtain ⟨h1, h2, h3, h4, h5⟩ := dsfmt_powers
  have hm : ∀ e ∈ [128, 132, 136, 140, 144], (dsfmtPoly e).1 < 2 ^ (4 * (dsfmtPoly e).2) := by decide +kernel
  rw [Nat.mod_eq_of_lt (hm e he)]
  clear hm
  simp only [List.mem_cons, List.not_mem_nil, or_false] at he
  rcases he with rfl | rfl | rfl | rfl | rfl
  exacts [h1, h2, h3, h4, h5]

/-- C66 for the tables of dSFMT: for every state (also those no seed leads to) the jump with `poly_e` gives the words and
the lung `2^e` places further on. -/
theorem C66_dsfmt_tables (e : Nat) (he : e ∈ [128, 132, 136, 140, 144]) (st : Nat → D128) (lung : D128) (x ρ : Nat → D128)
    (hx : ∀ k, dsfmtStep (ρ k) (x k) (x (k + 117)) = (x (k + 191), ρ (k + 1))) (h0 : ∀ i < 191, st i = x i) (hl : lung = ρ 0) :
    (∀ i < 191, (dsfmtJump (dsfmtCoeffs e) st lung).1 i = x (2 ^ e + i)) ∧ (dsfmtJump (dsfmtCoeffs e) st lung).2 = ρ (2 ^ e) := by
  obtain ⟨c1, c2⟩ := C66_dsfmt (dsfmtCoeffs e) st lung x ρ hx h0 hl
  obtain ⟨y, hy⟩ : ∃ y : DSol, y.1 = fun k => (x k, ρ k) := ⟨⟨fun k => (x k, ρ k), hx⟩, rfl⟩
  have key : ∀ i, pick (· + ·) (0 : DSol) (dsfmtCoeffs e) (fun k => dsfmtS^[k] ((dsfmtS ^ i) y)) = (dsfmtS ^ (2 ^ e + i)) y := by
    intro i
    rw [dsfmtCoeffs, jumpCoeffs, pick_eq_ev DSol.add_self, dsfmt_pow e he, zero_add, pow_add dsfmtS, mul_apply]
  have at0 : ∀ k i, ((dsfmtS^[k] ((dsfmtS ^ i) y)).1 0) = (x (k + i), ρ (k + i)) := by
    intro k i
    rw [← pow_apply, ← mul_apply, ← pow_add, dsfmtS_pow, hy, Nat.add_zero]
  have at1 : ∀ k, ((dsfmtS ^ k) y).1 0 = (x k, ρ k) := fun k => by rw [dsfmtS_pow, hy, Nat.add_zero]
  constructor
  · intro i hi
    rw [c1 i hi]
    have m := pick_map (fun z : DSol => (z.1 0).1) (· + ·) xorD (fun a b => rfl) 0 (dsfmtCoeffs e) (fun k => dsfmtS^[k] ((dsfmtS ^ i) y))
    rw [key i] at m
    simp only [at0, at1] at m
    exact m.symm
  · rw [c2]
    have m := pick_map (fun z : DSol => (z.1 0).2) (· + ·) xorD (fun a b => rfl) 0 (dsfmtCoeffs e) (fun k => dsfmtS^[k] ((dsfmtS ^ 0) y))
    rw [key 0] at m
    simp only [at0, at1, Nat.add_zero] at m
    exact m.symm

theorem dplan_words (plan : List Nat) (hp : ∀ e ∈ plan, e ∈ [128, 132, 136, 140, 144]) (x ρ : Nat → D128)
    (hx : ∀ k, dsfmtStep (ρ k) (x k) (x (k + 117)) = (x (k + 191), ρ (k + 1))) (p : (Nat → D128) × D128) (o : Nat) (h0 : ∀ i < 191, p.1 i = x (o + i))
    (hl : p.2 = ρ o) :
    (∀ i < 191, (plan.foldl (fun (p : (Nat → D128) × D128) e => dsfmtJump (dsfmtCoeffs e) p.1 p.2) p).1 i = x (o + (plan.map (2 ^ ·)).sum + i)) ∧
    (plan.foldl (fun (p : (Nat → D128) × D128) e => dsfmtJump (dsfmtCoeffs e) p.1 p.2) p).2 = ρ (o + (plan.map (2 ^ ·)).sum) := by
  induction plan generalizing p o with
  | nil => exact ⟨by simpa using h0, by simpa using hl⟩
  | cons e es ih =>
    rw [List.foldl_cons, List.map_cons, List.sum_cons, ← Nat.add_assoc o]
    obtain ⟨t1, t2⟩ := C66_dsfmt_tables e (hp e List.mem_cons_self) p.1 p.2 (fun k => x (o + k)) (fun k => ρ (o + k)) (fun k => by
      rw [← Nat.add_assoc, ← Nat.add_assoc, ← Nat.add_assoc, hx]) h0 hl
    exact ih (fun e' he' => hp e' (List.mem_cons_of_mem _ he')) _ (o + 2 ^ e) (fun j hj => by rw [t1 j hj, ← Nat.add_assoc]) t2

/-- C36 for dSFMT: `count` jumps advance array and lung by exactly `count * 2^128` words. -/
theorem C36_dsfmt (count : Nat) (st : Nat → D128) (lung : D128) (x ρ : Nat → D128)
    (hx : ∀ k, dsfmtStep (ρ k) (x k) (x (k + 117)) = (x (k + 191), ρ (k + 1))) (h0 : ∀ i < 191, st i = x i) (hl : lung = ρ 0) :
    (∀ i < 191, (jumpN (fun e (p : (Nat → D128) × D128) => dsfmtJump (dsfmtCoeffs e) p.1 p.2) count (st, lung)).1 i = x (count * 2 ^ 128 + i)) ∧
    (jumpN (fun e (p : (Nat → D128) × D128) => dsfmtJump (dsfmtCoeffs e) p.1 p.2) count (st, lung)).2 = ρ (count * 2 ^ 128) := by
  obtain ⟨h1, h2⟩ := C36_strides count
  rw [jumpN, ← h1]
  have := dplan_words (jumpPlan count) h2 x ρ hx (st, lung) 0 (by simpa using h0) hl
  rwa [Nat.zero_add] at this

/-- C68 for DSFMT, the true distance: `count` jumps skip what is left of the current block of 382 doubles and then exactly
`count * 2^129` doubles, from every state and for all following draws. Missing: the documented distance `count * 2^128`. -/
theorem C68_dsfmt_partial (s : Dsfmt) (h0 : 0 ≤ s.loc) (h1 : s.loc ≤ 382) (count n : Nat) :
    nthO dsfmtNext n (dsfmtJumps count s) = nthO dsfmtNext (n + count * 2 ^ 129 + (382 - s.loc.toNat)) s := by
  obtain ⟨hr, hx0⟩ := simdSeq_rec dsfmtStep (N := 191) (P := 117) (by omega) s.st s.lung
  obtain ⟨x, hx⟩ : ∃ x : Nat → D128, x = fun n => (simdSeq dsfmtStep 191 117 s.st s.lung n).1 0 := ⟨_, rfl⟩
  obtain ⟨ρ, hρ⟩ : ∃ ρ : Nat → D128, ρ = fun n => (simdSeq dsfmtStep 191 117 s.st s.lung n).2 := ⟨_, rfl⟩
  rw [← hx, ← hρ] at hr
  have hx0 : ∀ i < 191, s.st i = x i := fun i hi => by rw [hx]; exact (hx0 i hi).symm
  have hl0 : s.lung = ρ 0 := by rw [hρ]; rfl
  have hr : ∀ k, dsfmtStep (ρ k) (x k) (x (k + 117)) = (x (k + 191), ρ (k + 1)) := hr
  clear hx hρ
  obtain ⟨hj1, hj2⟩ := C36_dsfmt count s.st s.lung x ρ hr hx0 hl0
  obtain ⟨o, ho⟩ : ∃ o, o = count * 2 ^ 128 := ⟨_, rfl⟩
  rw [← ho] at hj1 hj2
  rw [C65_dsfmt s h0 h1 x ρ hr hx0 hl0, C65_dsfmt (dsfmtJumps count s) (by decide : (0 : Int) ≤ 382) (by decide : (382 : Int) ≤ 382) (fun k => x (o + k))
    (fun k => ρ (o + k)) (fun k => by rw [← Nat.add_assoc, ← Nat.add_assoc, ← Nat.add_assoc, hr]) hj1 hj2]
  have hl : (dsfmtJumps count s).loc.toNat = 382 := rfl
  have e2 : count * 2 ^ 129 = 2 * o := by rw [ho]; ring
  rw [hl, e2, if_neg (show ¬ 382 + n < 382 by omega), if_neg (show ¬ s.loc.toNat + (n + 2 * o + (382 - s.loc.toNat)) < 382 by omega)]
  have e3 : o + (191 + (382 + n - 382) / 2) = 191 + (s.loc.toNat + (n + 2 * o + (382 - s.loc.toNat)) - 382) / 2 := by omega
  have e4 : (382 + n) % 2 = (s.loc.toNat + (n + 2 * o + (382 - s.loc.toNat))) % 2 := by omega
  rw [e3, e4]

/-- Two doubles make one 64-bit number. -/
theorem runO_dsfmt64 (n : Nat) (s : Dsfmt) : runO dsfmtNext64 n s = runO dsfmtNext (2 * n) s := by
  induction n generalizing s with
  | zero => rfl
  | succ n ih =>
    rw [show 2 * (n + 1) = 2 * n + 1 + 1 by omega]
    simp only [runO, dsfmtNext64]
    cases h1 : dsfmtNext s with
    | none => rfl
    | some p =>
      obtain ⟨a, s1⟩ := p
      show ((dsfmtNext s1).bind fun q => some ((((a >>> 16) <<< 32) ||| ((q.1 >>> 16) &&& 0xffffffff)), q.2)).bind (fun r => runO dsfmtNext64 n r.2) =
        (dsfmtNext s1).bind fun r => runO dsfmtNext (2 * n) r.2
      cases h2 : dsfmtNext s1 with
      | none => rfl
      | some q => exact ih q.2

theorem nthO_dsfmt64 (n : Nat) (s : Dsfmt) : nthO dsfmtNext64 n s =
    (nthO dsfmtNext (2 * n) s).bind fun (a : U64) => (nthO dsfmtNext (2 * n + 1) s).map fun (b : U64) => ((a >>> 16) <<< 32) ||| ((b >>> 16) &&& 0xffffffff) := by
  have hr : ∀ m t, runO dsfmtNext (m + 1) t = (runO dsfmtNext m t).bind fun u => (dsfmtNext u).map Prod.snd := by
    intro m
    induction m with
    | zero => intro t; show (dsfmtNext t).bind _ = (dsfmtNext t).map _; cases dsfmtNext t <;> rfl
    | succ m ih =>
      intro t
      rw [runO.eq_2, runO.eq_2]
      cases h : dsfmtNext t with
      | none => rfl
      | some p => exact ih p.2
  rw [nthO, nthO, nthO, runO_dsfmt64, hr]
  cases h : runO dsfmtNext (2 * n) s with
  | none => rfl
  | some t =>
    show (dsfmtNext64 t).map Prod.fst = ((dsfmtNext t).map Prod.fst).bind fun (a : U64) =>
      (((dsfmtNext t).map Prod.snd).bind fun u => (dsfmtNext u).map Prod.fst).map fun (b : U64) => ((a >>> 16) <<< 32) ||| ((b >>> 16) &&& 0xffffffff)
    rw [dsfmtNext64]
    cases h1 : dsfmtNext t with
    | none => rfl
    | some p =>
      show ((dsfmtNext p.2).bind fun q => some ((((p.1 >>> 16) <<< 32) ||| ((q.1 >>> 16) &&& 0xffffffff)), q.2)).map Prod.fst =
        ((dsfmtNext p.2).map Prod.fst).map fun (b : U64) => ((p.1 >>> 16) <<< 32) ||| ((b >>> 16) &&& 0xffffffff)
      cases dsfmtNext p.2 <;> rfl

/-- C68 for DSFMT in 64-bit draws, which take two doubles: the documented distance, after the rest of the current block if
that is an even number of doubles. -/
theorem C68_dsfmt64_partial (s : Dsfmt) (h0 : 0 ≤ s.loc) (h1 : s.loc ≤ 382) (hev : s.loc % 2 = 0) (count n : Nat) :
    nthO dsfmtNext64 n (dsfmtJumps count s) = nthO dsfmtNext64 (n + count * 2 ^ 128 + (382 - s.loc.toNat) / 2) s := by
  rw [nthO_dsfmt64, nthO_dsfmt64, C68_dsfmt_partial s h0 h1, C68_dsfmt_partial s h0 h1]
  have e : 2 * n + count * 2 ^ 129 + (382 - s.loc.toNat) = 2 * (n + count * 2 ^ 128 + (382 - s.loc.toNat) / 2) := by
    have : count * 2 ^ 129 = 2 * (count * 2 ^ 128) := by ring
    omega
  have e2 : 2 * n + 1 + count * 2 ^ 129 + (382 - s.loc.toNat) = 2 * (n + count * 2 ^ 128 + (382 - s.loc.toNat) / 2) + 1 := by omega
  rw [e, e2]

/-- A state in the middle of a block, to which the theorems apply. -/
example (s : Dsfmt) (h : s = ⟨fun i => ⟨BitVec.ofNat 64 (i + 0x3ff0000000000000), 0x3ff0000000000007⟩, ⟨1, 2⟩, fun _ => 0, 300⟩) :
    nthO dsfmtNext 5 (dsfmtJumps 3 s) = nthO dsfmtNext (5 + 3 * 2 ^ 129 + 82) s ∧ nthO dsfmtNext64 5 (dsfmtJumps 3 s) = nthO dsfmtNext64 (5 + 3 * 2 ^ 128 + 41) s := by
  have hl : s.loc = 300 := by rw [h]
  have h1 := C68_dsfmt_partial s (by omega) (by omega) 3 5
  have h2 := C68_dsfmt64_partial s (by omega) (by omega) (by omega) 3 5
  rw [hl] at h1 h2
  exact ⟨h1, h2⟩

/-! ### The documented distance in doubles -/

theorem dsfmtT_pow_inj (k : Nat) {a b : PV 19992} (h : (dsfmtT ^ k) a = (dsfmtT ^ k) b) : a = b := by
  have hi := injective_of_ann PV.add_self dsfmtT dsfmtChi (by decide +kernel) dsfmt_ann.1
  rw [pow_apply, pow_apply] at h
  exact hi.iterate k h

theorem dsfmtT_pow_ne : dsfmtT ^ 2 ^ 128 ≠ 1 := by
  intro h
  have hs := end_add_self (PV.add_self (d := 19992))
  have e := ev_of_sqCheck dsfmtT hs (by decide +kernel) (by decide +kernel) (by decide +kernel) dsfmt_ann.1 dsfmtRem_check
  have e : ev dsfmtT dsfmtRem = ev dsfmtT 2 ^ 2 ^ 128 := e
  rw [ev_two, h] at e
  have e2 : ev dsfmtT (dsfmtRem ^^^ 1) = 0 := by
    rw [ev_xor dsfmtT hs, e, ev_one]
    exact hs 1
  have := dsfmt_ann.2.2 (dsfmtRem ^^^ 1) (by decide +kernel) e2
  exact absurd this (by decide +kernel)

theorem dsfmtT_obs (w : PV 19992) (hw : ∀ k, ((dsfmtT^[k] w).val).testBit 19940 = false) : w = 0 :=
  PV.obs_of_check dsfmtF dsfmtF_lt dsfmtF_xor (by decide) (by decide) 19940 dsfmtVec (by decide +kernel) dsfmtChecks.1 w hw

theorem dok_low (a b : D128) (ha : DOk a) (hb : DOk b) : DLow (a + b) := by
  have lane : ∀ u v : U64, u >>> 52 = 0x3ff → v >>> 52 = 0x3ff → (u ^^^ v).toNat < 2 ^ 52 := by
    intro u v hu hv
    have h : (u ^^^ v) >>> 52 = 0 := by rw [bshr_xor, hu, hv]; rfl
    have h := congrArg BitVec.toNat h
    rw [BitVec.toNat_ushiftRight, Nat.shiftRight_eq_div_pow] at h
    have h : (u ^^^ v).toNat / 2 ^ 52 = 0 := h
    omega
  exact ⟨lane _ _ ha.1 hb.1, lane _ _ ha.2 hb.2⟩

theorem low_ok (n : Nat) (hn : n < 2 ^ 52) : (BitVec.ofNat 64 n ^^^ 0x3ff0000000000000#64) >>> 52 = 0x3ff := by
  rw [bshr_xor]
  have : BitVec.ofNat 64 n >>> 52 = 0#64 := by
    apply BitVec.eq_of_toNat_eq
    rw [BitVec.toNat_ushiftRight, BitVec.toNat_ofNat, Nat.mod_eq_of_lt (nlt_of_le hn (by decide)), Nat.shiftRight_eq_div_pow, Nat.div_eq_of_lt hn]
    rfl
  rw [this]; decide

theorem split_cat (n m q : Nat) : (q % 2 ^ n) ^^^ (q >>> n % 2 ^ m) <<< n = q % 2 ^ (n + m) := by
  apply Nat.eq_of_testBit_eq
  intro j
  simp only [Nat.testBit_xor, Nat.testBit_mod_two_pow, Nat.testBit_shiftLeft, Nat.testBit_shiftRight]
  by_cases h : j < n
  · simp [h, show ¬ n ≤ j by omega, show j < n + m by omega]
  · by_cases h2 : j < n + m
    · simp [h, show n ≤ j by omega, show j - n < m by omega, h2, show n + (j - n) = j by omega]
    · simp [h, show ¬ j - n < m by omega, h2]

theorem split_top (n q : Nat) : (q % 2 ^ n) ^^^ (q >>> n) <<< n = q := by
  apply Nat.eq_of_testBit_eq
  intro j
  simp only [Nat.testBit_xor, Nat.testBit_mod_two_pow, Nat.testBit_shiftLeft, Nat.testBit_shiftRight]
  by_cases h : j < n
  · simp [h, show ¬ n ≤ j by omega]
  · simp [h, show n ≤ j by omega, show n + (j - n) = j by omega]

theorem pv_eq {d : Nat} {a b : PV d} (h : a + b = 0) : a = b := by
  rw [← add_zero a, ← PV.add_self b, ← add_assoc, h, zero_add]

/-- Every packed state is the difference of two states whose words are doubles in `[1, 2)`. -/
theorem dsfmt_diff (w : PV 19992) : ∃ y z : DSol, (∀ k, DOk (y.1 k).1) ∧ (∀ k, DOk (z.1 k).1) ∧ dsfmtWin (y + z).1 0 = w := by
  obtain ⟨B, hB⟩ : ∃ B : U64, B = 0x3ff0000000000000#64 := ⟨_, rfl⟩
  obtain ⟨g, hg⟩ : ∃ g : Nat → D128, g = fun i => ⟨BitVec.ofNat 64 ((w.val >>> 128 >>> (104 * i)) % 2 ^ 52), BitVec.ofNat 64 ((w.val >>> 128 >>> (104 * i) >>> 52) % 2 ^ 52)⟩ :=
    ⟨_, rfl⟩
  obtain ⟨l, hl⟩ : ∃ l : D128, l = ⟨BitVec.ofNat 64 w.val, BitVec.ofNat 64 (w.val >>> 64)⟩ := ⟨_, rfl⟩
  have mk : ∀ (st : Nat → D128) (lung : D128), (∀ i < 191, DOk (st i)) → ∃ y : DSol, (∀ k, DOk (y.1 k).1) ∧ (∀ i < 191, (y.1 i).1 = st i) ∧ (y.1 0).2 = lung := by
    intro st lung h
    obtain ⟨hr, hx0⟩ := simdSeq_rec dsfmtStep (N := 191) (P := 117) (by omega) st lung
    have ok := simdSeq_ok st lung h
    have l0 : (simdSeq dsfmtStep 191 117 st lung 0).2 = lung := rfl
    generalize simdSeq dsfmtStep 191 117 st lung = q at hr hx0 ok l0
    exact ⟨⟨fun n => ((q n).1 0, (q n).2), hr⟩, ok, hx0, l0⟩
  obtain ⟨y, hy, hy1, hy2⟩ := mk (fun i => g i + ⟨B, B⟩) l (fun i hi => by
    rw [hg, hB]
    exact ⟨low_ok _ (Nat.mod_lt _ (by decide)), low_ok _ (Nat.mod_lt _ (by decide))⟩)
  obtain ⟨z, hz, hz1, hz2⟩ := mk (fun i => ⟨B, B⟩) 0 (fun i hi => by rw [hB]; exact ⟨by decide, by decide⟩)
  refine ⟨y, z, hy, hz, ?_⟩
  have w1 : ∀ i < 191, ((y + z).1 i).1 = g i := by
    intro i hi
    show (y.1 i).1 + (z.1 i).1 = _
    rw [hy1 i hi, hz1 i hi, add_assoc, D128.add_self, add_zero]
  have w2 : ((y + z).1 0).2 = l := by
    show (y.1 0).2 + (z.1 0).2 = _
    rw [hy2, hz2, add_zero]
  apply PV.ext'
  show (((y + z).1 0).2.u0.toNat ^^^ ((y + z).1 0).2.u1.toNat <<< 64) ^^^ pk 191 (fun i => dsfmtC ((y + z).1 (0 + i)).1) <<< 128 = w.val
  have hp : pk 191 (fun i => dsfmtC ((y + z).1 (0 + i)).1) = w.val >>> 128 := by
    have h1 : pk 191 (fun i => dsfmtC ((y + z).1 (0 + i)).1) = pk 191 (fun i => BitVec.ofNat 104 ((w.val >>> 128) >>> (104 * i))) := by
      apply pk_congr
      intro i hi
      rw [Nat.zero_add, w1 i hi, hg]
      apply BitVec.eq_of_toNat_eq
      rw [dsfmtC_toNat]
      show (BitVec.ofNat 64 _).toNat % _ ^^^ ((BitVec.ofNat 64 _).toNat % _) <<< 52 = _
      generalize (w.val >>> 128) >>> (104 * i) = q
      have hm : ∀ r, (BitVec.ofNat 64 (r % 2 ^ 52)).toNat % 2 ^ 52 = r % 2 ^ 52 := fun r => by
        rw [BitVec.toNat_ofNat, Nat.mod_eq_of_lt (nlt_of_le (Nat.mod_lt r (Nat.two_pow_pos 52)) (by decide : 52 ≤ 64)), Nat.mod_mod]
      rw [hm, hm, split_cat, BitVec.toNat_ofNat]
    rw [h1]
    have := w.lt
    generalize w.val = n at this ⊢
    apply pk_words (by decide)
    rw [Nat.shiftRight_eq_div_pow]
    exact Nat.div_lt_of_lt_mul (by rw [Nat.mul_comm, ← pow_add]; exact this)
  rw [hp, w2, hl]
  show ((BitVec.ofNat 64 _).toNat ^^^ (BitVec.ofNat 64 _).toNat <<< 64) ^^^ _ = _
  generalize w.val = n
  rw [BitVec.toNat_ofNat, BitVec.toNat_ofNat, split_cat, split_top]

/-- C68 fails for DSFMT in doubles: the generator returned by `jumped()` does not continue `2^128` doubles further on; not
even on the states with doubles in `[1, 2)`. -/
theorem not_C68_dsfmt : ¬ ∀ s : Dsfmt, s.loc = 382 → (∀ i < 191, DOk (s.st i)) →
    ∀ n, nthO dsfmtNext n (dsfmtJumps 1 s) = nthO dsfmtNext (n + 2 ^ 128) s := by
  intro H
  apply dsfmtT_pow_ne
  have words : ∀ y : DSol, (∀ k, DOk (y.1 k).1) → ∀ j, (y.1 (191 + 2 ^ 128 + j)).1 = (y.1 (191 + 2 ^ 127 + j)).1 := by
    intro y hy j
    obtain ⟨s, hs1, hs2, hs3⟩ : ∃ s : Dsfmt, s.loc = 382 ∧ (∀ i < 191, s.st i = (y.1 i).1) ∧ s.lung = (y.1 0).2 :=
      ⟨⟨fun i => (y.1 i).1, (y.1 0).2, fun _ => 0, 382⟩, rfl, fun i _ => rfl, rfl⟩
    have hh : ∀ n, (if n % 2 = 0 then (y.1 (191 + (n + 2 ^ 129) / 2)).1.u0 else (y.1 (191 + (n + 2 ^ 129) / 2)).1.u1) =
        if n % 2 = 0 then (y.1 (191 + (n + 2 ^ 128) / 2)).1.u0 else (y.1 (191 + (n + 2 ^ 128) / 2)).1.u1 := by
      intro n
      have h := H s hs1 (fun i hi => by rw [hs2 i hi]; exact hy i) n
      rw [C68_dsfmt_partial s (by omega) (by omega), C65_dsfmt s (by omega) (by omega) (fun k => (y.1 k).1) (fun k => (y.1 k).2) y.2 hs2 hs3,
        C65_dsfmt s (by omega) (by omega) (fun k => (y.1 k).1) (fun k => (y.1 k).2) y.2 hs2 hs3, hs1] at h
      have hl : (382 : Int).toNat = 382 := rfl
      rw [hl, if_neg (show ¬ 382 + (n + 1 * 2 ^ 129 + (382 - 382)) < 382 by omega), if_neg (show ¬ 382 + (n + 2 ^ 128) < 382 by omega)] at h
      have h := Option.some.inj h
      rw [show 382 + (n + 1 * 2 ^ 129 + (382 - 382)) - 382 = n + 2 ^ 129 by omega, show (382 + (n + 1 * 2 ^ 129 + (382 - 382))) % 2 = n % 2 by omega,
        show 382 + (n + 2 ^ 128) - 382 = n + 2 ^ 128 by omega, show (382 + (n + 2 ^ 128)) % 2 = n % 2 by omega] at h
      exact h
    have a := hh (2 * j)
    have b := hh (2 * j + 1)
    rw [show (2 * j + 2 ^ 129) / 2 = 2 ^ 128 + j by omega, show (2 * j + 2 ^ 128) / 2 = 2 ^ 127 + j by omega, if_pos (by omega), if_pos (by omega), ← Nat.add_assoc,
      ← Nat.add_assoc] at a
    rw [show (2 * j + 1 + 2 ^ 129) / 2 = 2 ^ 128 + j by omega, show (2 * j + 1 + 2 ^ 128) / 2 = 2 ^ 127 + j by omega, if_neg (by omega), if_neg (by omega),
      ← Nat.add_assoc, ← Nat.add_assoc] at b
    generalize (y.1 (191 + 2 ^ 128 + j)).1 = u at a b ⊢
    generalize (y.1 (191 + 2 ^ 127 + j)).1 = v at a b ⊢
    cases u; cases v
    simp only at a b
    rw [a, b]
  have key : ∀ w : PV 19992, (dsfmtT ^ 2 ^ 127) w = w := by
    intro w
    obtain ⟨y, z, hy, hz, rfl⟩ := dsfmt_diff w
    have hlow : ∀ k, DLow ((y + z).1 k).1 := fun k => dok_low _ _ (hy k) (hz k)
    have hw : ∀ j, ((y + z).1 (191 + 2 ^ 128 + j)).1 = ((y + z).1 (191 + 2 ^ 127 + j)).1 := by
      intro j
      show (y.1 _).1 + (z.1 _).1 = (y.1 _).1 + (z.1 _).1
      rw [words y hy, words z hz]
    have hbit : ∀ k, (dsfmtWin (y + z).1 k).val.testBit 19940 = ((y + z).1 (k + 190)).1.u1.getLsbD 0 := by
      intro k
      have := (dsfmtWin_word (y + z).1 k 190 (by decide)).2
      have := congrArg (fun n => n.testBit 0) this
      simp only [Nat.testBit_mod_two_pow, Nat.testBit_shiftRight, BitVec.testBit_toNat] at this
      exact this
    have h0 : (dsfmtT ^ (191 + 2 ^ 128)) (dsfmtWin (y + z).1 0) + (dsfmtT ^ (191 + 2 ^ 127)) (dsfmtWin (y + z).1 0) = 0 := by
      apply dsfmtT_obs
      intro k
      rw [← pow_apply, map_add, ← mul_apply, ← mul_apply, ← pow_add, ← pow_add, pow_apply, pow_apply, ← dsfmtWin_iter _ hlow, ← dsfmtWin_iter _ hlow, PV.add_val,
        Nat.testBit_xor, hbit, hbit, show k + (191 + 2 ^ 128) + 190 = 191 + 2 ^ 128 + (k + 190) by omega,
        show k + (191 + 2 ^ 127) + 190 = 191 + 2 ^ 127 + (k + 190) by omega, hw, Bool.xor_self]
    have h1 := pv_eq h0
    rw [show 191 + 2 ^ 128 = (191 + 2 ^ 127) + 2 ^ 127 by norm_num, pow_add dsfmtT, mul_apply] at h1
    generalize 191 + 2 ^ 127 = o at h1
    exact dsfmtT_pow_inj o h1
  have h1 := end_eq_one _ key
  rw [show 2 ^ 128 = 2 ^ 127 * 2 by norm_num, pow_mul, h1, one_pow]

end Verif
