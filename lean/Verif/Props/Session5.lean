import Verif.Props.Session4
import Verif.Props.Hc128
import Verif.Proof.HcPack

/-! C95 for HC128. -/

namespace Verif

open HC

/-- A stream of HC128: words left over from an earlier stream, then the keystream of the key and initial vector made of four words. -/
structure HcOrg where
  left : List U32
  seed : Nat → U64

/-- The reference HC-128, initialised with the lower four 32-bit words as key and the upper four as initial vector. -/
def hcStart (gen : Nat → U64) : HcRef :=
  refInit (fun i => BitVec.ofNat 32 ((gen (i / 2)).toNat / 2 ^ (32 * (i % 2)))) fun i => BitVec.ofNat 32 ((gen ((4 + i) / 2)).toNat / 2 ^ (32 * ((4 + i) % 2)))

/-- Word `n` of a stream. -/
def hcWord (o : HcOrg) (n : Nat) : U32 :=
  if h : n < o.left.length then o.left[n] else nthDraw refStep (n - o.left.length) (hcStart o.seed)

/-- Number of words the generator still has in its buffer at word `n`. -/
def hcLeft (o : HcOrg) (n : Nat) : Nat := if n < o.left.length then o.left.length - n else (16 - (n - o.left.length) % 16) % 16

/-- The promise for HC128. `seed` starts the stream of the new key (`keep = false`); in the code, the words still in the buffer come first
(`keep = true`). -/
def hc128Spec (keep hiFirst : Bool) : SSpec Unit (Nat → U64) HcOrg where
  start _ gen := .ok ⟨[], gen⟩
  restart _ o n gen := .ok ⟨if keep then (List.range (hcLeft o n)).map fun i => hcWord o (n + i) else [], gen⟩
  draw o := draw32JoinAt hiFirst (hcWord o)
  jump := none
  jumped := none
  advance := none

theorem hcStart_eq (gen : Nat → U64) : refInit (hcSeedWords gen) (fun i => hcSeedWords gen (4 + i)) = hcStart gen := by
  have : hcSeedWords gen = fun i => BitVec.ofNat 32 ((gen (i / 2)).toNat / 2 ^ (32 * (i % 2))) := by
    funext i
    apply BitVec.eq_of_toNat_eq
    simp [hcSeedWords, Nat.shiftRight_eq_div_pow]
  rw [hcStart, this]

theorem hcStart_c (gen : Nat → U64) : (hcStart gen).c = 0 := by
  rw [← hcStart_eq]
  exact (seed_tables (hcSeedWords gen) hcZero).2.2

attribute [local irreducible] hcStart

/-- The core is before word `n` of the stream. -/
def HcI (o : HcOrg) (c : Hc) (n : Nat) : Prop :=
  o.left.length < 16 ∧
  ((n < o.left.length ∧ c.bufIdx = (16 - o.left.length + n : Nat) ∧ (∀ i (h : i < o.left.length), c.buffer (16 - o.left.length + i) = o.left[i]) ∧
      Agree c.p (hcStart o.seed).P ∧ Agree c.q (hcStart o.seed).Q ∧ c.hcIdx = 0) ∨
    (o.left.length ≤ n ∧ At (hcStart o.seed) c (n - o.left.length)))

/-- `HcI` about a list and a starting point of the reference. -/
def HcJ (left : List U32) (X : HcRef) (c : Hc) (n : Nat) : Prop :=
  left.length < 16 ∧
  ((n < left.length ∧ c.bufIdx = (16 - left.length + n : Nat) ∧ (∀ i (h : i < left.length), c.buffer (16 - left.length + i) = left[i]) ∧
      Agree c.p X.P ∧ Agree c.q X.Q ∧ c.hcIdx = 0) ∨
    (left.length ≤ n ∧ At X c (n - left.length)))

theorem HcJ.next {left : List U32} {X : HcRef} (h0 : X.c = 0) {c : Hc} {n : Nat} (h : HcJ left X c n) :
    ∃ c', hcNext32 c = some (if h : n < left.length then left[n] else nthDraw refStep (n - left.length) X, c') ∧ HcJ left X c' (n + 1) := by
  obtain ⟨hl, ⟨hn, hb, hbuf, hp, hq, hi⟩ | ⟨hn, hat⟩⟩ := h
  · refine ⟨{ c with bufIdx := c.bufIdx + 1 }, ?_, hl, ?_⟩
    · have h1 : ¬ c.bufIdx % 16 = 0 := by rw [hb]; omega
      have h2 : 0 ≤ c.bufIdx ∧ c.bufIdx < 16 := by rw [hb]; omega
      have h3 : c.buffer c.bufIdx.toNat = left[n] := by rw [hb, Int.toNat_natCast, hbuf n hn]
      rw [dif_pos hn, hcNext32, if_neg h1, Option.bind_eq_bind, Option.bind_some]
      show (if 0 ≤ c.bufIdx ∧ c.bufIdx < 16 then some (c.buffer c.bufIdx.toNat, _) else none) = _
      rw [if_pos h2, h3]
    · by_cases h1 : n + 1 < left.length
      · refine .inl ⟨h1, ?_, hbuf, hp, hq, hi⟩
        show c.bufIdx + 1 = _
        rw [hb]; omega
      · refine .inr ⟨by omega, 0, hp, hq, ?_, .inl ⟨?_, by omega⟩⟩
        · show c.hcIdx = _
          rw [hi, Nat.mul_zero, Function.iterate_zero_apply, h0]; rfl
        · show (c.bufIdx + 1) % 16 = 0
          rw [hb]; omega
  · obtain ⟨c', e, h'⟩ := at_step X (by rw [h0]; decide) (by rw [h0]) c _ hat
    refine ⟨c', ?_, hl, .inr ⟨by omega, by rwa [show n + 1 - left.length = n - left.length + 1 by omega]⟩⟩
    rw [e, dif_neg (by omega)]

theorem HcI.next {o : HcOrg} {c : Hc} {n : Nat} (h : HcI o c n) : ∃ c', hcNext32 c = some (hcWord o n, c') ∧ HcI o c' (n + 1) :=
  HcJ.next (hcStart_c o.seed) h

theorem int32_mod16 (b : Int) : (BitVec.ofInt 32 b).toInt % 16 = b % 16 := by
  rw [BitVec.toInt_ofInt, Int.bmod_def]
  omega

theorem int32_small (b : Int) (h : 0 ≤ b ∧ b < 2048) : (BitVec.ofInt 32 b).toInt = b := by
  rw [BitVec.toInt_ofInt, Int.bmod_def]
  omega

theorem agree_view {f : Nat → U32} {T : Nat → U32} (h : Agree f T) :
    Agree (fun i => if h : i < 512 then (Vector.ofFn fun i : Fin 512 => f i.val)[i] else 0) T := fun i hi => by
  show (if h : i < 512 then (Vector.ofFn fun i : Fin 512 => f i.val)[i] else 0) = T i
  rw [dif_pos hi, Vector.getElem_ofFn]
  exact h i hi

theorem HcI.put {o : HcOrg} {c : Hc} {n : Nat} (h : HcI o c n) : HcI o (hcView (hcPut c)) n := by
  obtain ⟨hl, ⟨hn, hb, hbuf, hp, hq, hi⟩ | ⟨hn, m, hp, hq, hi, hw⟩⟩ := h
  · refine ⟨hl, .inl ⟨hn, ?_, fun i h => ?_, agree_view hp, agree_view hq, ?_⟩⟩
    · exact (int32_small _ (by rw [hb]; omega)).trans hb
    · rw [← hbuf i h]
      simp [hcView, hcPut, show 16 - o.left.length + i < 16 by omega]
    · exact (int32_small _ (by rw [hi]; decide)).trans hi
  · refine ⟨hl, .inr ⟨hn, m, agree_view hp, agree_view hq, ?_, ?_⟩⟩
    · refine (int32_small _ ?_).trans hi
      rw [hi, ref_c _ _ (by rw [hcStart_c]; decide)]
      omega
    · rcases hw with ⟨hb, e⟩ | ⟨k, hk0, hk, hb, e, hbuf⟩
      · exact .inl ⟨(int32_mod16 _).trans hb, e⟩
      · refine .inr ⟨k, hk0, hk, (int32_small _ (by rw [hb]; omega)).trans hb, e, fun j hj => ?_⟩
        rw [← hbuf j hj]
        simp [hcView, hcPut, hj]

theorem HcI.seed {o : HcOrg} {c : Hc} {n : Nat} (h : HcI o c n) (gen : Nat → U64) :
    HcI ⟨(List.range (hcLeft o n)).map fun i => hcWord o (n + i), gen⟩ (hcSeed (hcSeedWords gen) c) 0 := by
  obtain ⟨t1, t2, t3⟩ := seed_tables (hcSeedWords gen) c
  rw [hcStart_eq] at t1 t2 t3
  have fresh : c.bufIdx % 16 = 0 → hcLeft o n = 0 → HcI ⟨(List.range (hcLeft o n)).map fun i => hcWord o (n + i), gen⟩ (hcSeed (hcSeedWords gen) c) 0 := by
    intro hb h0
    rw [h0]
    refine ⟨show (0 : Nat) < 16 by decide, .inr ⟨le_refl _, ?_⟩⟩
    have := seed_at (hcSeedWords gen) c hb
    rw [hcStart_eq] at this
    exact this
  have rest : ∀ k : Nat, 0 < k → k < 16 → c.bufIdx = (16 - k : Nat) → hcLeft o n = k → (∀ i < k, c.buffer (16 - k + i) = hcWord o (n + i)) →
      HcI ⟨(List.range (hcLeft o n)).map fun i => hcWord o (n + i), gen⟩ (hcSeed (hcSeedWords gen) c) 0 := by
    intro k k0 k1 hb hk hbuf
    have e : ((List.range (hcLeft o n)).map fun i => hcWord o (n + i)).length = k := by rw [List.length_map, List.length_range, hk]
    refine ⟨by show List.length _ < 16; rw [e]; exact k1, .inl ⟨by show 0 < List.length _; rw [e]; exact k0, ?_, fun i hi => ?_, t1, t2, seed_hcIdx _ _⟩⟩
    · rw [seed_bufIdx, hb]
      show _ = ((16 - List.length _ + 0 : Nat) : Int)
      rw [e]; rfl
    · rw [seed_buffer]
      have hi' : i < k := by rwa [← e]
      have : (16 - List.length ((List.range (hcLeft o n)).map fun i => hcWord o (n + i)) + i) = 16 - k + i := by rw [e]
      show c.buffer (16 - List.length ((List.range (hcLeft o n)).map fun i => hcWord o (n + i)) + i) = _
      rw [this, hbuf i hi']
      simp
  obtain ⟨hl, ⟨hn, hb, hbuf, hp, hq, hi⟩ | ⟨hn, m, hp, hq, hi, hw⟩⟩ := h
  · refine rest (o.left.length - n) (by omega) (by omega) (by rw [hb]; congr 1; omega) (by rw [hcLeft, if_pos hn]) fun i hi' => ?_
    rw [hcWord, dif_pos (show n + i < o.left.length by omega), ← hbuf (n + i) (by omega)]
    congr 1; omega
  · rcases hw with ⟨hb, e⟩ | ⟨k, hk0, hk, hb, e, hbuf⟩
    · exact fresh hb (by rw [hcLeft, if_neg (by omega), e]; omega)
    · refine rest (16 - k) (by omega) (by omega) (by rw [hb]; congr 1; omega) (by rw [hcLeft, if_neg (by omega)]; omega) fun i hi' => ?_
      rw [hbuf _ (by omega), hcWord, dif_neg (show ¬ n + i < o.left.length by omega)]
      congr 1; omega

theorem hc128_refines (b : Bool) : Refines (hc128Cls b) (hc128Spec true b) (fun _ => True)
    (fun _ o a s => CallsInv (HcI o) a (hcView s)) where
  start _ gen _ := by
    refine ⟨HcI.put ⟨show (0 : Nat) < 16 by decide, .inr ⟨le_refl _, ?_⟩⟩, rfl⟩
    have := seed_at (hcSeedWords gen) (hcView ⟨Vector.replicate 512 0, Vector.replicate 512 0, Vector.replicate 16 0, 0, 0⟩) (by decide)
    rw [hcStart_eq] at this
    exact this
  restart _ o a s gen h := ⟨HcI.put (h.1.seed gen), rfl⟩
  draw _ o a s k h := by
    obtain ⟨c', h1, h2⟩ := h.draw (nx := hcNext32) (w := hcWord o) (fun c n hc => hc.next) b k
    refine ⟨hcPut c', ?_, h2.1.put, h2.2⟩
    show (calls32 hcNext32 b k (hcView s)).map _ = _
    rw [h1]
    rfl
  load _ o a s _ _ _ t h _ := by
    refine ⟨s, ?_, h⟩
    rw [show (hc128Cls b).set = hc128Set from rfl, show (hc128Cls b).get = hc128Get from rfl]
    exact C11_hc128 s t
  inplace f hf := by simp [hc128Cls] at hf
  noInplace _ := ⟨rfl, rfl⟩
  clone c f hc := by simp [hc128Cls] at hc
  advance := Or.inr ⟨rfl, rfl⟩

/-- C95 for HC128 as the code has it. What is missing: a stream after `seed` that does not begin with words of the stream before
(`not_C95_hc128`). -/
theorem C95_hc128_partial (hiFirst : Bool) (os : List (SOp Unit (Nat → U64))) : (hc128Cls hiFirst).program os = (hc128Spec true hiFirst).program os :=
  (hc128_refines hiFirst).program_all os

/-- The first words of the keystream of the all-zero key and initial vector. -/
theorem hc_zero_words : (List.range 2).map (fun i => (nthDraw refStep i (hcStart fun _ => 0)).toNat) = [0x73150082, 0x3bfd03a0] := by
  have e : hcStart (fun _ => 0) = refInit (fun _ => 0) (fun _ => 0) := by
    unfold hcStart
    congr 1 <;> funext i <;> simp
  rw [e, words_eq _ _ _ (by decide)]
  decide +kernel

example (hiFirst : Bool) : (hc128Cls hiFirst).program [.new () fun _ => 0, .draw 0 .u32, .save 0, .draw 0 .u32, .load 0 0, .draw 0 .u32] =
    [.done, .val (.o32 0x73150082#32), .done, .val (.o32 0x3bfd03a0#32), .done, .val (.o32 0x3bfd03a0#32)] := by
  have w := hc_zero_words
  simp only [List.range_succ, List.range_zero, List.nil_append, List.cons_append, List.map_cons, List.map_nil, List.cons.injEq, and_true] at w
  have h1 : ∀ n, hcWord ⟨[], fun _ => 0⟩ n = nthDraw refStep n (hcStart fun _ => 0) := fun n => by
    rw [hcWord]
    generalize hcStart (fun _ => 0) = X
    exact dif_neg (Nat.not_lt_zero n)
  have e0 : hcWord ⟨[], fun _ => 0⟩ 0 = 0x73150082#32 := by rw [h1]; exact BitVec.eq_of_toNat_eq w.1
  have e1 : hcWord ⟨[], fun _ => 0⟩ 1 = 0x3bfd03a0#32 := by rw [h1]; exact BitVec.eq_of_toNat_eq w.2
  rw [C95_hc128_partial, ← e0, ← e1]
  unfold hc128Spec
  generalize hcWord = W
  rfl

/-- C95 fails for HC128: after `seed` the generator first delivers what is left of the old stream. For all seeds: after one draw of 32 bits and
`seed`, the next draw gives word 1 of the old stream, where the promise says word 0 of the new one. With the all-zero seed these differ. -/
theorem not_C95_hc128 (hiFirst : Bool) :
    (¬ ∀ os, (hc128Cls hiFirst).program os = (hc128Spec false hiFirst).program os) ∧
    ∀ g g' : Nat → U64, (hc128Cls hiFirst).program [.new () g, .draw 0 .u32, .seed 0 g', .draw 0 .u32] =
        [.done, .val (.o32 (hcWord ⟨[], g⟩ 0)), .done, .val (.o32 (hcWord ⟨[], g⟩ 1))] ∧
      (hc128Spec false hiFirst).program [.new () g, .draw 0 .u32, .seed 0 g', .draw 0 .u32] =
        [.done, .val (.o32 (hcWord ⟨[], g⟩ 0)), .done, .val (.o32 (hcWord ⟨[], g'⟩ 0))] := by
  have key : ∀ g g' : Nat → U64, (hc128Cls hiFirst).program [.new () g, .draw 0 .u32, .seed 0 g', .draw 0 .u32] =
        [.done, .val (.o32 (hcWord ⟨[], g⟩ 0)), .done, .val (.o32 (hcWord ⟨[], g⟩ 1))] ∧
      (hc128Spec false hiFirst).program [.new () g, .draw 0 .u32, .seed 0 g', .draw 0 .u32] =
        [.done, .val (.o32 (hcWord ⟨[], g⟩ 0)), .done, .val (.o32 (hcWord ⟨[], g'⟩ 0))] := by
    intro g g'
    rw [C95_hc128_partial]
    have e : hcWord ⟨(List.range 15).map fun i => hcWord ⟨[], g⟩ (1 + i), g'⟩ 0 = hcWord ⟨[], g⟩ 1 := by
      generalize hcWord ⟨[], g⟩ = w
      rw [hcWord, dif_pos (show 0 < List.length ((List.range 15).map fun i => w (1 + i)) by rw [List.length_map, List.length_range]; decide), List.getElem_map,
        List.getElem_range]
    rw [← e]
    unfold hc128Spec
    generalize hcWord = W
    exact ⟨rfl, rfl⟩
  refine ⟨fun h => ?_, key⟩
  have k := key (fun _ => 0) (fun _ => 0)
  have := h [.new () (fun _ => 0), .draw 0 .u32, .seed 0 (fun _ => 0), .draw 0 .u32]
  rw [k.1, k.2] at this
  have w := hc_zero_words
  simp only [List.range_succ, List.range_zero, List.nil_append, List.cons_append, List.map_cons, List.map_nil, List.cons.injEq] at w
  simp only [List.cons.injEq, SRes.val.injEq, Out.o32.injEq, true_and, and_true] at this
  have h1 : ∀ n, hcWord ⟨[], fun _ => 0⟩ n = nthDraw refStep n (hcStart fun _ => 0) := fun n => by
    rw [hcWord]
    generalize hcStart (fun _ => 0) = X
    exact dif_neg (Nat.not_lt_zero n)
  rw [h1, h1] at this
  rw [← this, w.2.1] at w
  exact absurd w.1 (by decide)

end Verif
