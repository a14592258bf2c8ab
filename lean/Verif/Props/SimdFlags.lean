import Verif.Model.SimdFlags
import Verif.Props.SpeckSse
import Verif.Props.Simd

/-! C89: the process-wide SIMD flags of SPECK128 and ChaCha. -/

namespace Verif

/-! ## Detection -/

/-- C89: `feature_flags` reports bit `i` of the register asked for, and zeros where `cpuid` cannot be asked. -/
theorem C89_feature_flags (c : Cpu) (m : Fin 4) (i : Nat) :
    c.featureFlag m.val i = if c.haveCpuid = true ∧ 1 ≤ c.numIds ∧ (c.leaf1 m).getLsbD i = true then 1 else 0 := by
  have hbit : ∀ x : U32, (((x >>> i) &&& 1#32).toNat : Int) = if x.getLsbD i = true then 1 else 0 := by
    intro x
    rw [BitVec.toNat_and, BitVec.toNat_ushiftRight, show (1#32).toNat = 1 from rfl, Nat.and_one_is_mod,
      BitVec.getLsbD, Nat.testBit_eq_decide_div_mod_eq, Nat.shiftRight_eq_div_pow]
    rcases Nat.mod_two_eq_zero_or_one (x.toNat / 2 ^ i) with h | h <;> simp [h]
  rw [Cpu.featureFlag, hbit, Cpu.reg]
  by_cases h : c.haveCpuid = true ∧ 1 ≤ c.numIds
  · rw [if_pos h]
    have : (if (m.val : Int) = 0 then c.leaf1 0 else if (m.val : Int) = 1 then c.leaf1 1 else if (m.val : Int) = 2 then c.leaf1 2
        else if (m.val : Int) = 3 then c.leaf1 3 else 0) = c.leaf1 m := by
      match m with
      | 0 => rfl
      | 1 => rfl
      | 2 => rfl
      | 3 => rfl
    simp only [this, h, true_and]
  · rw [if_neg h]
    simp only [ite_self]
    rw [if_neg (by simp), if_neg (fun e => h ⟨e.1, e.2.1⟩)]

example : (Cpu.mk true 1 fun _ => 0x80000#32).featureFlag 2 19 = 1 ∧ (Cpu.mk true 0 fun _ => 0x80000#32).featureFlag 2 19 = 0 := by
  decide

theorem sse41Capable_eq (h : Host) : h.sse41Capable = if h.ssse3 = true ∧ h.cpu.haveCpuid = true ∧ 1 ≤ h.cpu.numIds ∧
    h.cpu.hasSse41 = true then 1 else 0 := by
  rw [Host.sse41Capable, show h.cpu.featureFlag 2 19 = _ from C89_feature_flags h.cpu 2 19]
  by_cases hs : h.ssse3 = true
  · simp only [hs, if_true, true_and]; rfl
  · simp only [hs]; rfl

theorem simdCapable_eq (h : Host) : h.simdCapable = if h.sse2 = true ∧ h.cpu.haveCpuid = true ∧ 1 ≤ h.cpu.numIds ∧
    (if h.ssse3 then h.cpu.hasSsse3 else h.cpu.hasSse2) = true then 1 else 0 := by
  rw [Host.simdCapable, show h.cpu.featureFlag 2 9 = _ from C89_feature_flags h.cpu 2 9,
    show h.cpu.featureFlag 3 26 = _ from C89_feature_flags h.cpu 3 26]
  by_cases h2 : h.sse2 = true
  · by_cases hs : h.ssse3 = true
    · simp only [h2, hs, if_true, true_and]; rfl
    · simp only [h2, hs, if_true, true_and]; rfl
  · simp only [h2]; rfl

theorem sse41Capable_ne (h : Host) (hc : h.sse41Capable ≠ 0) : h.ssse3 = true ∧ h.cpu.hasSse41 = true := by
  rw [sse41Capable_eq] at hc
  by_contra hn
  exact hc (if_neg fun e => hn ⟨e.1, e.2.2.2⟩)

theorem simdCapable_ne (h : Host) (hc : h.simdCapable ≠ 0) :
    h.sse2 = true ∧ (if h.ssse3 then h.cpu.hasSsse3 else h.cpu.hasSse2) = true := by
  rw [simdCapable_eq] at hc
  by_contra hn
  exact hc (if_neg fun e => hn ⟨e.1, e.2.2.2⟩)

/-! ## Programs of any class -/

/-- A program on a class without a flag. -/
def softProg {G C V : Type} (soft : G → C → Option (Option V × G)) (gens : Nat → G) : List (SimdOp C) →
    Option (List V × (Nat → G))
  | [] => some ([], gens)
  | .toggle _ :: os => softProg soft gens os
  | .cmd g c :: os => do
    let r ← soft (gens g) c
    let t ← softProg soft (Function.update gens g r.2) os
    some (r.1.toList ++ t.1, t.2)

theorem prog_soft {G C V : Type} (S : SimdClass G C V) (soft : G → C → Option (Option V × G)) (ok : Int → Prop)
    (hcap : ok S.capable) (hset : ∀ v, ok (S.set v).1) (hrun : ∀ f g c, ok f → S.run f g c = soft g c)
    (os : List (SimdOp C)) (f : Int) (gens : Nat → G) (hf : ok f) :
    (S.prog (f, gens) os).map (fun r => (r.1, r.2.2)) = softProg soft gens os ∧ ∀ r ∈ S.prog (f, gens) os, ok r.2.1 := by
  induction os generalizing f gens with
  | nil => exact ⟨rfl, fun r hr => by cases hr; exact hf⟩
  | cons o os ih =>
    cases o with
    | toggle v =>
      obtain ⟨e1, e2⟩ := ih (S.set v).1 gens (hset v)
      refine ⟨?_, fun r hr => ?_⟩
      · rw [softProg, ← e1]
        simp only [SimdClass.prog, SimdClass.op, Option.bind_eq_bind, Option.bind_some]
        cases S.prog ((S.set v).1, gens) os <;> rfl
      · simp only [SimdClass.prog, SimdClass.op, Option.bind_eq_bind, Option.bind_some, Option.mem_def] at hr
        rw [Option.bind_eq_some_iff] at hr
        obtain ⟨t, ht, hr⟩ := hr
        cases hr
        exact e2 t ht
    | cmd g c =>
      obtain ⟨f', ef⟩ : ∃ f', f' = if S.resets c = true then S.capable else f := ⟨_, rfl⟩
      have hf' : ok f' := by rw [ef]; split <;> assumption
      simp only [SimdClass.prog, SimdClass.op, softProg, ← ef, hrun f' (gens g) c hf', Option.bind_eq_bind]
      cases hs : soft (gens g) c with
      | none => exact ⟨rfl, fun r hr => by cases hr⟩
      | some x =>
        obtain ⟨e1, e2⟩ := ih f' (Function.update gens g x.2) hf'
        refine ⟨?_, fun r hr => ?_⟩
        · simp only [Option.map_some, Option.bind_some]
          rw [← e1]
          cases S.prog (f', Function.update gens g x.2) os <;> rfl
        · simp only [Option.map_some, Option.bind_some, Option.mem_def] at hr
          rw [Option.bind_eq_some_iff] at hr
          obtain ⟨t, ht, hr⟩ := hr
          cases hr
          exact e2 t ht

/-! ## SPECK128 -/

/-- A flag for which the code selected can run on the host. -/
def Host.sse41Ok (h : Host) (flag : Int) : Prop := flag = 1 → h.ssse3 = true → h.cpu.hasSsse3 = true

theorem speckGenF_eq (h : Host) (flag : Int) (hf : h.sse41Ok flag) (s : Speck) : speckGenF h flag s = some (speckGen s) := by
  rw [speckGenF]
  split
  · rename_i hc
    rw [if_pos (hf hc.2 hc.1), C18_speck_block]
  · rfl

theorem speckNextF_eq (h : Host) (flag : Int) (hf : h.sse41Ok flag) (s : Speck) : speckNextF h flag s = speckNext s := by
  rw [speckNextF, speckNext, speckGenF_eq h flag hf]
  split <;> rfl

theorem speckAdvanceF_eq (h : Host) (flag : Int) (hf : h.sse41Ok flag) (s : Speck) (d0 d1 d2 : U64) :
    speckAdvanceF h flag s d0 d1 d2 = speckAdvance s d0 d1 d2 := by
  rw [speckAdvanceF, speckAdvance, speckForce]
  simp only [speckNextF_eq h flag hf]
  split <;> rfl

/-- The commands of the portable code. -/
def speckSoft (s : Speck) : SpeckCmd → Option (Option U64 × Speck)
  | .seed k0 k1 k2 k3 c => some (none, speckSeed s k0 k1 k2 k3 c)
  | .next => (speckNext s).map fun r => (some r.1, r.2)
  | .advance d0 d1 d2 => (speckAdvance s d0 d1 d2).map fun s => (none, s)

theorem sse41Ok_capable (h : Host) (hs : h.cpu.sane) : h.sse41Ok h.sse41Capable := by
  intro h1 _
  exact hs (sse41Capable_ne h (by rw [h1]; decide)).2

theorem sse41Ok_set (h : Host) (hs : h.cpu.sane) (v : Int) : h.sse41Ok (h.useSse41 v).1 := by
  rw [Host.useSse41]
  split
  · exact sse41Ok_capable h hs
  · rename_i hv
    split
    · exact sse41Ok_capable h hs
    · rintro rfl -
      have hc : h.sse41Capable ≠ 0 := fun e => hv ⟨by decide, e⟩
      exact hs (sse41Capable_ne h hc).2

/-- **C89, SPECK128.** On every host, however a program interleaves seeding, drawing, advancing and assignments (of any
integers) to `use_sse41` on any number of generators, the draws and generators are those of the portable code; no
instruction is executed that the CPU lacks. -/
theorem C89_speck_program (h : Host) (hs : h.cpu.sane) (flag : Int) (hf : h.sse41Ok flag) (gens : Nat → Speck)
    (os : List (SimdOp SpeckCmd)) :
    ((speckClass h).prog (flag, gens) os).map (fun r => (r.1, r.2.2)) = softProg speckSoft gens os :=
  (prog_soft (speckClass h) speckSoft h.sse41Ok (sse41Ok_capable h hs) (sse41Ok_set h hs)
    (fun f g c hf => by
      cases c with
      | seed k0 k1 k2 k3 c => rfl
      | next => exact congrArg (Option.map _) (speckNextF_eq h f hf g)
      | advance d0 d1 d2 => exact congrArg (Option.map _) (speckAdvanceF_eq h f hf g d0 d1 d2)) os flag gens hf).1

/-- A CPU with everything, as the leaf reports it. -/
def cpuFull : Cpu := ⟨true, 13, fun _ => 0xffffffff#32⟩

/-- The hypotheses hold on a host with everything, for the flag 0 a process starts with. -/
example : cpuFull.sane ∧ Host.sse41Ok ⟨cpuFull, true, true⟩ 0 := by
  refine ⟨fun _ => by decide, fun h => by cases h⟩

/-- A program that mixes the paths is defined and draws. -/
example (gens : Nat → Speck) : ∃ r, (speckClass ⟨cpuFull, true, true⟩).prog (0, gens)
    [.cmd 0 (.seed 1 2 3 4 ⟨0, 0⟩), .cmd 1 (.seed 1 2 3 4 ⟨0, 0⟩), .cmd 0 .next, .toggle 0, .cmd 1 .next] = some r ∧
      r.1.length = 2 := ⟨_, rfl, rfl⟩

/-- C89, the report of `use_sse41`: after an accepted assignment of 0 or 1 (or a boolean) the property reports whether the
SSE code runs, on every build. Missing: other integers, see `not_C89_speck_report`. -/
theorem C89_speck_report_partial (h : Host) (v : Int) (hv : v = 0 ∨ v = 1) (ha : (h.useSse41 v).2 = none) :
    (sse41Reported (h.useSse41 v).1 = true ↔ h.ssse3 = true ∧ (h.useSse41 v).1 = 1) ∧ (h.useSse41 v).1 = v := by
  rw [Host.useSse41] at ha ⊢
  split at ha
  · cases ha
  · rename_i hn
    rw [if_neg hn]
    rw [if_neg (by omega)]
    refine ⟨?_, rfl⟩
    rcases hv with rfl | rfl
    · simp [sse41Reported]
    · have hc : h.sse41Capable ≠ 0 := fun e => hn ⟨by decide, e⟩
      simp [sse41Reported, (sse41Capable_ne h hc).1]

/-- C89 fails: `use_sse41 = 2` is accepted and reported as `True`, and the portable code runs. -/
theorem not_C89_speck_report (s : Speck) : let h : Host := ⟨cpuFull, true, true⟩
    h.useSse41 2 = (2, none) ∧ sse41Reported (h.useSse41 2).1 = true ∧
      ¬(h.ssse3 = true ∧ (h.useSse41 2).1 = 1) ∧ speckGenF h (h.useSse41 2).1 s = some (speckGen s) := by
  refine ⟨by decide, by decide, by decide, rfl⟩

/-- C89 fails: seeding any generator, the constructor included, undoes `use_sse41 = False` for all. -/
theorem not_C89_speck_toggle (gens : Nat → Speck) (g : Nat) (k0 k1 k2 k3 : U64) (c : Ctr) :
    ∃ r, (speckClass ⟨cpuFull, true, true⟩).prog (1, gens) [.toggle 0, .cmd g (.seed k0 k1 k2 k3 c)] = some r ∧
      r.2.1 = 1 := by
  refine ⟨_, rfl, ?_⟩
  show Host.sse41Capable ⟨cpuFull, true, true⟩ = 1
  decide

/-! ## ChaCha -/

def Host.simdOk (h : Host) (flag : Int) : Prop :=
  0 < flag → h.sse2 = true → (if h.ssse3 then h.cpu.hasSsse3 else h.cpu.hasSse2) = true

theorem ccGenF_eq (h : Host) (flag : Int) (hf : h.simdOk flag) (s : ChaCha) : ccGenF h flag s = some (ccGen s) := by
  rw [ccGenF]
  split
  · rename_i hc
    rw [if_pos (hf hc.2 hc.1), ccGen, ccGenWith, ccGenWith, C18_chacha_core]
  · rfl

theorem ccNextF_eq (h : Host) (flag : Int) (hf : h.simdOk flag) (s : ChaCha) : ccNextF h flag s = some (ccNext s) := by
  rw [ccNextF, ccNext, ccNextWith, ccGenF_eq h flag hf]
  by_cases hi : (s.ctr0 % 16#64).toNat = 0
  · simp only [hi, if_true]; rfl
  · simp only [hi, if_false]; rfl

theorem ccSeedF_eq (h : Host) (flag : Int) (hf : h.simdOk flag) (old : ChaCha) (s0 s1 t0 t1 c0 c1 : U64) :
    ccSeedF h flag old s0 s1 t0 t1 c0 c1 = some (ccSeed old s0 s1 t0 t1 c0 c1) := by
  rw [ccSeedF, ccGenF_eq h flag hf]; rfl

theorem ccAdvanceF_eq (h : Host) (flag : Int) (hf : h.simdOk flag) (s : ChaCha) (d0 d1 : U64) :
    ccAdvanceF h flag s d0 d1 = some (ccAdvance s d0 d1) := by
  rw [ccAdvanceF, ccAdvance]
  simp only [ccGenF_eq h flag hf]
  split <;> rfl

/-- The commands of the portable code: always defined. -/
def chachaSoft (s : ChaCha) : ChaChaCmd → Option (Option U32 × ChaCha)
  | .seed s0 s1 t0 t1 c0 c1 => some (none, ccSeed s s0 s1 t0 t1 c0 c1)
  | .next => some (some (ccNext s).1, (ccNext s).2)
  | .advance d0 d1 => some (none, ccAdvance s d0 d1)

theorem simdOk_capable (h : Host) : h.simdOk h.simdCapable := by
  intro h1 _
  exact (simdCapable_ne h (by omega)).2

theorem simdOk_set (h : Host) (v : Int) : h.simdOk (h.useSimd v).1 := by
  rw [Host.useSimd]
  split
  · exact simdOk_capable h
  · rename_i hn
    intro hp _
    have hc : h.simdCapable ≠ 0 := fun e => by
      refine hn ⟨?_, e⟩
      rintro rfl
      cases hp
    exact (simdCapable_ne h hc).2

/-- **C89, ChaCha.** On every host and build, whatever the program does with `use_simd`, the draws and generators are those of the
portable code, and no instruction is executed that the CPU lacks: no run is undefined. -/
theorem C89_chacha_program (h : Host) (flag : Int) (hf : h.simdOk flag) (gens : Nat → ChaCha) (os : List (SimdOp ChaChaCmd)) :
    ((chachaClass h).prog (flag, gens) os).map (fun r => (r.1, r.2.2)) = softProg chachaSoft gens os ∧
      (softProg chachaSoft gens os).isSome = true := by
  constructor
  · refine (prog_soft (chachaClass h) chachaSoft h.simdOk (simdOk_capable h) (simdOk_set h)
      (fun f g c hf => ?_) os flag gens hf).1
    cases c with
    | seed s0 s1 t0 t1 c0 c1 => exact congrArg (Option.map _) (ccSeedF_eq h f hf g s0 s1 t0 t1 c0 c1)
    | next => exact congrArg (Option.map _) (ccNextF_eq h f hf g)
    | advance d0 d1 => exact congrArg (Option.map _) (ccAdvanceF_eq h f hf g d0 d1)
  · clear hf flag h
    induction os generalizing gens with
    | nil => rfl
    | cons o os ih =>
      cases o with
      | toggle v => exact ih gens
      | cmd g c =>
        have : ∃ x, chachaSoft (gens g) c = some x := by cases c <;> exact ⟨_, rfl⟩
        obtain ⟨x, hx⟩ := this
        rw [softProg, hx]
        have := ih (Function.update gens g x.2)
        simp only [Option.bind_eq_bind, Option.bind_some]
        rw [Option.isSome_iff_exists] at this ⊢
        obtain ⟨y, hy⟩ := this
        rw [hy]
        exact ⟨_, rfl⟩

example : Host.simdOk ⟨cpuFull, true, false⟩ 0 := fun h => by cases h

/-- C89: for ChaCha every accepted assignment is reported as given, and reported is what runs. -/
theorem C89_chacha_report (h : Host) (v : Int) (ha : (h.useSimd v).2 = none) :
    ((h.useSimd v).1 = if v = 0 then 0 else 1) ∧ ((h.useSimd v).1 = 1 ↔ h.sse2 = true ∧ 0 < (h.useSimd v).1) := by
  rw [Host.useSimd] at ha ⊢
  split at ha
  · cases ha
  · rename_i hn
    rw [if_neg hn]
    refine ⟨rfl, ?_⟩
    by_cases hv : v = 0
    · simp [hv]
    · have hc : h.simdCapable ≠ 0 := fun e => hn ⟨hv, e⟩
      simp [hv, (simdCapable_ne h hc).1]

/-- C89 fails: seeding any generator undoes `use_simd = False` for all. -/
theorem not_C89_chacha_toggle (gens : Nat → ChaCha) (g : Nat) (s0 s1 t0 t1 c0 c1 : U64) :
    ∃ r, (chachaClass ⟨cpuFull, true, true⟩).prog (1, gens) [.toggle 0, .cmd g (.seed s0 s1 t0 t1 c0 c1)] = some r ∧
      r.2.1 = 1 := by
  refine ⟨_, rfl, ?_⟩
  show Host.simdCapable ⟨cpuFull, true, true⟩ = 1
  decide

end Verif
