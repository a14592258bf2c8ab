import Verif.Model.Hc128
import Verif.Proof.Mt
import Verif.Proof.CtrStream

/-! The unrolled HC128 code against the one-step reference. -/

namespace Verif.HC

open Verif

/-- Equal on the 512 words of a table. -/
def Agree (a b : Nat → U32) : Prop := ∀ i < 512, a i = b i

theorem Agree.update {a b : Nat → U32} (h : Agree a b) (i : Nat) {x y : U32} (hxy : x = y) :
    Agree (Function.update a i x) (Function.update b i y) := by
  intro j hj
  by_cases hji : j = i
  · subst hji; simp [hxy]
  · simp [Function.update_of_ne hji, h j hj]

theorem g1_eq : hcG1 = refG1 := by
  funext x y z
  simp only [hcG1, refG1, hcRotl, refRotr]
  rw [BitVec.or_comm (x <<< 22), BitVec.or_comm (z <<< 9), BitVec.or_comm (y <<< 24)]

theorem f1_eq : hcF1 = refF1 := by
  funext x
  simp only [hcF1, refF1, hcRotl, refRotr]
  rw [BitVec.or_comm (x <<< 25), BitVec.or_comm (x <<< 14)]

theorem f2_eq : hcF2 = refF2 := by
  funext x
  simp only [hcF2, refF2, hcRotl, refRotr]
  rw [BitVec.or_comm (x <<< 15), BitVec.or_comm (x <<< 13)]

theorem refIx_lt (i k : Nat) : refIx i k < 512 := by
  rw [refIx, BitVec.toNat_and]
  exact Nat.lt_of_le_of_lt Nat.and_le_right (by decide)

theorem refIx_succ : ∀ i < 512, refIx i 511 = (i + 1) % 512 := by decide +kernel

theorem low8 (x : U32) : (x &&& 0xFF#32).toNat = (x.truncate 8).toNat := by
  rw [BitVec.toNat_and, BitVec.truncate_eq_setWidth, BitVec.toNat_setWidth]
  exact Nat.and_two_pow_sub_one_eq_mod x.toNat 8

theorem h_eq {a b : Nat → U32} (h : Agree a b) (x : U32) : hcH a x = refH b x := by
  have l : ∀ y : U32, (y.truncate 8).toNat < 256 := fun y => (y.truncate 8).isLt
  rw [hcH, refH, low8, low8, h _ (by have := l x; omega), h _ (by have := l (x >>> 16); omega)]

/-- One line of the code against one update of the reference. -/
theorem round_eq {g : U32 → U32 → U32 → U32} {a A b B : Nat → U32} (ha : Agree a A) (hb : Agree b B) (i : Nat) (hi : i < 512) :
    (hcRound g a b i).1 = refH B (refUpd g A i (refIx i 12)) ^^^ refUpd g A i i ∧ Agree (hcRound g a b i).2 (refUpd g A i) := by
  have key : Agree (hcRound g a b i).2 (refUpd g A i) := by
    refine ha.update i ?_
    rw [refIx_succ i hi, ha i hi, show m512 i 3 = refIx i 3 from rfl, show m512 i 10 = refIx i 10 from rfl, ha _ (refIx_lt i 3),
      ha _ (refIx_lt i 10), ha _ (Nat.mod_lt _ (by decide))]
  refine ⟨?_, key⟩
  show (hcRound g a b i).2 i ^^^ hcH b ((hcRound g a b i).2 (m512 i 12)) = _
  rw [key i hi, show m512 i 12 = refIx i 12 from rfl, key _ (refIx_lt i 12), h_eq hb, BitVec.xor_comm]

theorem ref_c (r : HcRef) (k : Nat) (h : r.c < 1024) : ((stepOf refStep)^[k] r).c = (r.c + k) % 1024 := by
  induction k with
  | zero => simp [Nat.mod_eq_of_lt h]
  | succ k ih =>
    rw [Function.iterate_succ_apply']
    have : ∀ s : HcRef, (stepOf refStep s).c = (s.c + 1) % 1024 := by
      intro s; simp only [stepOf, refStep]; split <;> rfl
    rw [this, ih, Nat.mod_add_mod, Nat.add_assoc]

theorem step_low {s : HcRef} (h : s.c < 512) :
    refStep s = (refH s.Q (refUpd refG1 s.P (s.c % 512) (refIx (s.c % 512) 12)) ^^^ refUpd refG1 s.P (s.c % 512) (s.c % 512),
      ⟨refUpd refG1 s.P (s.c % 512), s.Q, (s.c + 1) % 1024⟩) := by
  rw [refStep]; exact if_pos h

theorem step_high {s : HcRef} (h : ¬ s.c < 512) :
    refStep s = (refH s.P (refUpd refG2 s.Q (s.c % 512) (refIx (s.c % 512) 12)) ^^^ refUpd refG2 s.Q (s.c % 512) (s.c % 512),
      ⟨s.P, refUpd refG2 s.Q (s.c % 512), (s.c + 1) % 1024⟩) := by
  rw [refStep]; exact if_neg h

/-- The sixteen lines of either branch are sixteen steps of the reference. -/
theorem extract_spec (s : Hc) (r : HcRef) (hp : Agree s.p r.P) (hq : Agree s.q r.Q) (hi : s.hcIdx = r.c) (hr : r.c < 1024)
    (h16 : r.c % 16 = 0) :
    ∃ s', hcExtract s = some s' ∧ Agree s'.p ((stepOf refStep)^[16] r).P ∧ Agree s'.q ((stepOf refStep)^[16] r).Q ∧
      s'.hcIdx = ((stepOf refStep)^[16] r).c ∧ s'.bufIdx = 0 ∧ ∀ j < 16, s'.buffer j = nthDraw refStep j r := by
  have hidx : (s.hcIdx + 16) % 1024 = (((r.c + 16) % 1024 : Nat) : Int) := by rw [hi]; omega
  have hi16 : (s.hcIdx % 65536).toNat = r.c := by rw [hi]; omega
  by_cases hlow : r.c < 512
  · have inv := foldl_range_inv (hcLine hcG1 s.q r.c)
      (fun k (t : (Nat → U32) × (Nat → U32)) => Agree t.1 ((stepOf refStep)^[k] r).P ∧ Agree s.q ((stepOf refStep)^[k] r).Q ∧
        ∀ j < k, t.2 j = nthDraw refStep j r) 16 (s.p, s.buffer) ⟨hp, hq, fun _ h => absurd h (Nat.not_lt_zero _)⟩
      (by
        rintro m ⟨a, bf⟩ hm ⟨h1, h2, h3⟩
        have hc := ref_c r m hr
        have hlt : ((stepOf refStep)^[m] r).c < 512 := by rw [hc]; omega
        have hcm : ((stepOf refStep)^[m] r).c % 512 = (r.c + m) % 512 := by rw [hc]; omega
        obtain ⟨e1, e2⟩ := round_eq (g := hcG1) h1 h2 ((r.c + m) % 512) (Nat.mod_lt _ (by decide))
        have st := step_low hlt
        rw [hcm, ← g1_eq] at st
        rw [Function.iterate_succ_apply', stepOf, st]
        refine ⟨e2, h2, fun j hj => ?_⟩
        show Function.update bf m (hcRound hcG1 a s.q ((r.c + m) % 512)).1 j = _
        by_cases hjm : j = m
        · subst hjm
          rw [Function.update_self, e1, nthDraw, st]
        · rw [Function.update_of_ne hjm]; exact h3 j (by omega))
    refine ⟨{ s with
      p := ((List.range 16).foldl (hcLine hcG1 s.q r.c) (s.p, s.buffer)).1
      buffer := ((List.range 16).foldl (hcLine hcG1 s.q r.c) (s.p, s.buffer)).2
      bufIdx := 0
      hcIdx := (s.hcIdx + 16) % 1024 }, by simp only [hcExtract]; rw [hi16, if_pos hlow, if_pos (by omega)], inv.1, inv.2.1, ?_, rfl, inv.2.2⟩
    rw [ref_c r 16 hr]; exact hidx
  · have inv := foldl_range_inv (hcLine hcG2 s.p r.c)
      (fun k (t : (Nat → U32) × (Nat → U32)) => Agree t.1 ((stepOf refStep)^[k] r).Q ∧ Agree s.p ((stepOf refStep)^[k] r).P ∧
        ∀ j < k, t.2 j = nthDraw refStep j r) 16 (s.q, s.buffer) ⟨hq, hp, fun _ h => absurd h (Nat.not_lt_zero _)⟩
      (by
        rintro m ⟨a, bf⟩ hm ⟨h1, h2, h3⟩
        have hc := ref_c r m hr
        have hlt : ¬ ((stepOf refStep)^[m] r).c < 512 := by rw [hc]; omega
        have hcm : ((stepOf refStep)^[m] r).c % 512 = (r.c + m) % 512 := by rw [hc]; omega
        obtain ⟨e1, e2⟩ := round_eq (g := hcG2) h1 h2 ((r.c + m) % 512) (Nat.mod_lt _ (by decide))
        have st := step_high hlt
        rw [hcm, show refG2 = hcG2 from rfl] at st
        rw [Function.iterate_succ_apply', stepOf, st]
        refine ⟨e2, h2, fun j hj => ?_⟩
        show Function.update bf m (hcRound hcG2 a s.p ((r.c + m) % 512)).1 j = _
        by_cases hjm : j = m
        · subst hjm
          rw [Function.update_self, e1, nthDraw, st]
        · rw [Function.update_of_ne hjm]; exact h3 j (by omega))
    refine ⟨{ s with
      q := ((List.range 16).foldl (hcLine hcG2 s.p r.c) (s.q, s.buffer)).1
      buffer := ((List.range 16).foldl (hcLine hcG2 s.p r.c) (s.q, s.buffer)).2
      bufIdx := 0
      hcIdx := (s.hcIdx + 16) % 1024 }, by simp only [hcExtract]; rw [hi16, if_neg hlow], inv.2.1, inv.1, ?_, rfl, inv.2.2⟩
    rw [ref_c r 16 hr]; exact hidx

/-- The generator stands before word `n` of the reference stream starting at `r`. -/
def At (r : HcRef) (s : Hc) (n : Nat) : Prop :=
  ∃ m, Agree s.p ((stepOf refStep)^[16 * m] r).P ∧ Agree s.q ((stepOf refStep)^[16 * m] r).Q ∧
    s.hcIdx = ((stepOf refStep)^[16 * m] r).c ∧
    ((s.bufIdx % 16 = 0 ∧ n = 16 * m) ∨
      ∃ k : Nat, 0 < k ∧ k < 16 ∧ s.bufIdx = k ∧ n + 16 = 16 * m + k ∧ ∀ j < 16, s.buffer j = nthDraw refStep (16 * (m - 1) + j) r)

theorem nthDraw_add {σ α : Type} (nx : σ → α × σ) (a b : Nat) (s : σ) : nthDraw nx b ((stepOf nx)^[a] s) = nthDraw nx (a + b) s := by
  rw [nthDraw, nthDraw, ← Function.iterate_add_apply, Nat.add_comm]

theorem at_step (r : HcRef) (hr : r.c < 1024) (h16 : r.c % 16 = 0) (s : Hc) (n : Nat) (h : At r s n) :
    ∃ s', hcNext32 s = some (nthDraw refStep n r, s') ∧ At r s' (n + 1) := by
  obtain ⟨m, hp, hq, hi, ⟨hb, rfl⟩ | ⟨k, hk0, hk, hb, hn, hbuf⟩⟩ := h
  · have hc := ref_c r (16 * m) hr
    obtain ⟨s', e, hp', hq', hi', hb', hbuf⟩ := extract_spec s _ hp hq hi (by rw [hc]; exact Nat.mod_lt _ (by decide)) (by rw [hc]; omega)
    have e0 : s'.buffer 0 = nthDraw refStep (16 * m) r := by rw [hbuf 0 (by decide), nthDraw_add, Nat.add_zero]
    refine ⟨{ s' with bufIdx := s'.bufIdx + 1 }, ?_, m + 1, ?_, ?_, ?_, Or.inr ⟨1, by decide, by decide, by rw [hb']; rfl, by omega, ?_⟩⟩
    · rw [hcNext32, if_pos hb, e]
      show (if 0 ≤ s'.bufIdx ∧ s'.bufIdx < 16 then some (s'.buffer s'.bufIdx.toNat, _) else none) = _
      rw [hb', if_pos (by decide)]; exact congrArg some (Prod.ext e0 rfl)
    · rw [show 16 * (m + 1) = 16 + 16 * m by ring, Function.iterate_add_apply]; exact hp'
    · rw [show 16 * (m + 1) = 16 + 16 * m by ring, Function.iterate_add_apply]; exact hq'
    · rw [show 16 * (m + 1) = 16 + 16 * m by ring, Function.iterate_add_apply]; exact hi'
    · intro j hj
      rw [Nat.add_sub_cancel]
      show s'.buffer j = _
      rw [hbuf j hj, nthDraw_add]
  · have hw : s.buffer k = nthDraw refStep n r := by rw [hbuf k hk]; congr 1; omega
    refine ⟨{ s with bufIdx := s.bufIdx + 1 }, ?_, m, hp, hq, hi, ?_⟩
    · rw [hcNext32, if_neg (by rw [hb]; omega)]
      show (if 0 ≤ s.bufIdx ∧ s.bufIdx < 16 then some (s.buffer s.bufIdx.toNat, _) else none) = _
      rw [if_pos (by rw [hb]; omega), hb, Int.toNat_natCast, hw]
    · by_cases h15 : k = 15
      · exact Or.inl ⟨by show (s.bufIdx + 1) % 16 = 0; rw [hb, h15]; rfl, by omega⟩
      · exact Or.inr ⟨k + 1, by omega, by omega, by show s.bufIdx + 1 = _; rw [hb]; rfl, by omega, hbuf⟩

theorem stream (r : HcRef) (hr : r.c < 1024) (h16 : r.c % 16 = 0) (s : Hc) (p : Nat) (h : At r s p) (n : Nat) :
    nthO hcNext32 n s = some (nthDraw refStep (p + n) r) :=
  nthO_of_inv hcNext32 (At r) (fun p => nthDraw refStep p r) (fun s p h => at_step r hr h16 s p h) s p h n

/-! ### Initialisation -/

attribute [local irreducible] Nat.iterate

theorem initStep_low {s : HcRef} (h : s.c < 512) :
    refInitStep s = ⟨Function.update (refUpd refG1 s.P (s.c % 512)) (s.c % 512)
        (refH s.Q (refUpd refG1 s.P (s.c % 512) (refIx (s.c % 512) 12)) ^^^ refUpd refG1 s.P (s.c % 512) (s.c % 512)),
      s.Q, (s.c + 1) % 1024⟩ := by
  simp only [refInitStep]; rw [step_low h]; exact if_pos h

theorem initStep_high {s : HcRef} (h : ¬ s.c < 512) :
    refInitStep s = ⟨s.P, Function.update (refUpd refG2 s.Q (s.c % 512)) (s.c % 512)
        (refH s.P (refUpd refG2 s.Q (s.c % 512) (refIx (s.c % 512) 12)) ^^^ refUpd refG2 s.Q (s.c % 512) (s.c % 512)),
      (s.c + 1) % 1024⟩ := by
  simp only [refInitStep]; rw [step_high h]; exact if_neg h

theorem init_c (r : HcRef) (k : Nat) (h : r.c < 1024) : (refInitStep^[k] r).c = (r.c + k) % 1024 := by
  induction k with
  | zero => simp [Nat.mod_eq_of_lt h]
  | succ k ih =>
    rw [Function.iterate_succ_apply']
    have : ∀ s : HcRef, (refInitStep s).c = (s.c + 1) % 1024 := by
      intro s
      by_cases h : s.c < 512
      · rw [initStep_low h]
      · rw [initStep_high h]
    rw [this, ih, Nat.mod_add_mod, Nat.add_assoc]

/-- The two loops of `hc128_init` over the tables are the 1024 initialisation steps of the reference. -/
theorem init_loops (r : HcRef) (hr : r.c = 0) (p q : Nat → U32) (hp : Agree p r.P) (hq : Agree q r.Q) :
    let p' := (List.range 512).foldl (fun p i => let r := hcRound hcG1 p q i; Function.update r.2 i r.1) p
    let q' := (List.range 512).foldl (fun q i => let r := hcRound hcG2 q p' i; Function.update r.2 i r.1) q
    Agree p' (refInitStep^[1024] r).P ∧ Agree q' (refInitStep^[1024] r).Q ∧ (refInitStep^[1024] r).c = 0 := by
  intro p' q'
  have i1 := foldl_range_inv (fun p i => let r := hcRound hcG1 p q i; Function.update r.2 i r.1)
      (fun k (t : Nat → U32) => Agree t (refInitStep^[k] r).P ∧ Agree q (refInitStep^[k] r).Q) 512 p (by rw [Function.iterate_zero_apply]; exact ⟨hp, hq⟩)
      (by
        rintro m a hm ⟨h1, h2⟩
        have hc : (refInitStep^[m] r).c = m := by rw [init_c r m (by omega)]; omega
        obtain ⟨e1, e2⟩ := round_eq (g := hcG1) h1 h2 m hm
        have st := initStep_low (s := refInitStep^[m] r) (by omega)
        rw [hc, Nat.mod_eq_of_lt hm, ← g1_eq] at st
        rw [Function.iterate_succ_apply', st]
        exact ⟨e2.update m e1, h2⟩)
  have i2 := foldl_range_inv (fun q i => let r := hcRound hcG2 q p' i; Function.update r.2 i r.1)
      (fun k (t : Nat → U32) => Agree t (refInitStep^[k + 512] r).Q ∧ Agree p' (refInitStep^[k + 512] r).P) 512 q
      ⟨by rw [Nat.zero_add]; exact i1.2, by rw [Nat.zero_add]; exact i1.1⟩
      (by
        rintro m a hm ⟨h1, h2⟩
        have hc : (refInitStep^[m + 512] r).c = m + 512 := by rw [init_c r _ (by omega)]; omega
        obtain ⟨e1, e2⟩ := round_eq (g := hcG2) h1 h2 m hm
        have st := initStep_high (s := refInitStep^[m + 512] r) (by omega)
        rw [hc, show (m + 512) % 512 = m by omega, show refG2 = hcG2 from rfl] at st
        rw [show m + 1 + 512 = m + 512 + 1 by ring, Function.iterate_succ_apply', st]
        exact ⟨e2.update m e1, h2⟩)
  rw [show (1024 : Nat) = 512 + 512 from rfl]
  exact ⟨i2.2, i2.1, by rw [init_c r _ (by omega), hr]⟩

/-- Copying the expanded key into the tables. -/
theorem copy_spec (w p q : Nat → U32) :
    let t := (List.range 512).foldl
      (fun (s : (Nat → U32) × (Nat → U32)) i => (Function.update s.1 i (w (i + 256)), Function.update s.2 i (w (i + 768)))) (p, q)
    Agree t.1 (fun i => w (i + 256)) ∧ Agree t.2 (fun i => w (i + 256 + 512)) := by
  have := foldl_range_inv (fun (s : (Nat → U32) × (Nat → U32)) i => (Function.update s.1 i (w (i + 256)), Function.update s.2 i (w (i + 768))))
    (fun k t => ∀ j < k, t.1 j = w (j + 256) ∧ t.2 j = w (j + 256 + 512)) 512 (p, q) (fun _ h => absurd h (Nat.not_lt_zero _))
    (by
      intro m t _ ih j hj
      by_cases hjm : j = m
      · subst hjm; simp
      · simp only [Function.update_of_ne hjm]; exact ih j (by omega))
  exact ⟨fun i hi => (this i hi).1, fun i hi => (this i hi).2⟩

/-- Both expansions start from the same sixteen words. -/
theorem expand_eq (seed : Nat → U32) (j : Nat) (hj : j < 1280) :
    hcExpand seed j = (List.range' 16 1264).foldl
      (fun w i => Function.update w i (refF2 (w (i - 2)) + w (i - 7) + refF1 (w (i - 15)) + w (i - 16) + BitVec.ofNat 32 i))
      (fun i => if i < 4 then seed i else if i < 8 then seed (i - 4) else if i < 12 then seed (4 + (i - 8)) else seed (4 + (i - 12))) j := by
  have key : ∀ n, n ≤ 1264 → ∀ j < 16 + n,
      (List.range' 16 n).foldl
        (fun w i => Function.update w i (hcF2 (w (i - 2)) + w (i - 7) + hcF1 (w (i - 15)) + w (i - 16) + BitVec.ofNat 32 i))
        (fun i => if i < 8 then seed (i % 4) else seed (4 + i % 4)) j =
      (List.range' 16 n).foldl
        (fun w i => Function.update w i (refF2 (w (i - 2)) + w (i - 7) + refF1 (w (i - 15)) + w (i - 16) + BitVec.ofNat 32 i))
        (fun i => if i < 4 then seed i else if i < 8 then seed (i - 4) else if i < 12 then seed (4 + (i - 8)) else seed (4 + (i - 12))) j := by
    intro n hn
    induction n with
    | zero =>
      intro j hj
      show (if j < 8 then seed (j % 4) else seed (4 + j % 4)) =
        if j < 4 then seed j else if j < 8 then seed (j - 4) else if j < 12 then seed (4 + (j - 8)) else seed (4 + (j - 12))
      split_ifs <;> first | omega | (congr 1; omega)
    | succ n ih =>
      intro j hj
      have ih := ih (by omega)
      rw [List.range'_concat, List.foldl_append, List.foldl_append]
      simp only [List.foldl_cons, List.foldl_nil, Nat.one_mul]
      by_cases h : j = 16 + n
      · subst h
        rw [Function.update_self, Function.update_self, ih _ (by omega), ih _ (by omega), ih _ (by omega), ih _ (by omega), f1_eq, f2_eq]
      · rw [Function.update_of_ne h, Function.update_of_ne h]; exact ih j (by omega)
  exact key 1264 (le_refl _) j (by omega)

/-- After seeding the tables are those of the reference, whatever was there before. -/
theorem seed_tables (seed : Nat → U32) (old : Hc) :
    Agree (hcSeed seed old).p (refInit seed (fun i => seed (4 + i))).P ∧ Agree (hcSeed seed old).q (refInit seed (fun i => seed (4 + i))).Q ∧
      (refInit seed (fun i => seed (4 + i))).c = 0 := by
  obtain ⟨h1, h2⟩ := copy_spec (hcExpand seed) old.p old.q
  simp only [hcSeed, refInit]
  generalize hT : (List.range 512).foldl
      (fun (s : (Nat → U32) × (Nat → U32)) i => (Function.update s.1 i (hcExpand seed (i + 256)), Function.update s.2 i (hcExpand seed (i + 768))))
      (old.p, old.q) = T at h1 h2 ⊢
  have e := expand_eq seed
  generalize (List.range' 16 1264).foldl _ _ = W at e ⊢
  refine init_loops ⟨_, _, 0⟩ rfl _ _ (fun i hi => ?_) (fun i hi => ?_)
  · rw [h1 i hi]; exact e _ (by omega)
  · rw [h2 i hi]; exact e _ (by omega)

/-- What seeding leaves alone. -/
theorem seed_hcIdx (seed : Nat → U32) (old : Hc) : (hcSeed seed old).hcIdx = 0 := rfl
theorem seed_bufIdx (seed : Nat → U32) (old : Hc) : (hcSeed seed old).bufIdx = old.bufIdx := by simp only [hcSeed]
theorem seed_buffer (seed : Nat → U32) (old : Hc) : (hcSeed seed old).buffer = old.buffer := by simp only [hcSeed]
theorem seed_setBuf (seed : Nat → U32) (old : Hc) (k : Int) : hcSeed seed { old with bufIdx := k } = { hcSeed seed old with bufIdx := k } := by simp only [hcSeed]

/-- A seeded generator at a block boundary stands at the start of the reference stream. -/
theorem seed_at (seed : Nat → U32) (old : Hc) (hb : old.bufIdx % 16 = 0) :
    At (refInit seed fun i => seed (4 + i)) (hcSeed seed old) 0 := by
  obtain ⟨h1, h2, h3⟩ := seed_tables seed old
  generalize refInit seed (fun i => seed (4 + i)) = r at h1 h2 h3 ⊢
  refine ⟨0, ?_, ?_, ?_, .inl ⟨by rw [seed_bufIdx]; exact hb, rfl⟩⟩
  · rw [Function.iterate_zero_apply]; exact h1
  · rw [Function.iterate_zero_apply]; exact h2
  · rw [Function.iterate_zero_apply, h3, seed_hcIdx]; rfl

theorem seed_stream (seed : Nat → U32) (old : Hc) (hb : old.bufIdx % 16 = 0) (n : Nat) :
    nthO hcNext32 n (hcSeed seed old) = some (nthDraw refStep n (refInit seed fun i => seed (4 + i))) := by
  have h := seed_at seed old hb
  obtain ⟨_, _, h3⟩ := seed_tables seed old
  generalize refInit seed (fun i => seed (4 + i)) = r at h h3 ⊢
  have := stream r (by rw [h3]; decide) (by rw [h3]) (hcSeed seed old) 0 h n
  rwa [Nat.zero_add] at this

end Verif.HC
