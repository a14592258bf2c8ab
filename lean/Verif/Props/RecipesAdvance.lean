import Verif.Props.Recipes

/-! C98 for the recipe with `advance` (parallel.rst:93-112), for the generators other than the block ciphers. -/

namespace Verif

open XorLinear Orbit

theorem skip_fresh (P k : Nat) : skipAt ((k : Int) % (P : Int)).toNat (0, none) = (k % P, none) := by
  rw [skipAt, Nat.zero_add, ← Int.natCast_mod, Int.toNat_natCast]

theorem mem_advanceFan {Par Seed : Type} {p q : Par} {sd sd' : Seed} {step : Int} {m : Nat} {r : List (Nat × Op)}
    (h : .new q sd' ∈ advanceFan p sd step m ++ r.map fun r => .draw r.1 r.2) : q = p ∧ sd' = sd := by
  simp only [advanceFan, List.cons_append, List.mem_cons, List.mem_append, List.mem_map, List.mem_flatMap, reduceCtorEq, and_false, exists_false, or_false,
    SOp.new.injEq, List.not_mem_nil] at h
  rcases h with h | ⟨_, _, h⟩ <;> exact h

theorem mem_alone {Par Seed : Type} {p q : Par} {sd sd' : Seed} {r : List (Nat × Op)}
    (h : .new q sd' ∈ (.new p sd :: r.map fun r => .draw r.1 r.2 : List (SOp Par Seed))) : q = p ∧ sd' = sd := by
  simpa only [List.mem_cons, List.mem_map, reduceCtorEq, and_false, exists_false, or_false, SOp.new.injEq] using h

/-- C98 for PCG64, all variants, both modes, and `advance(i * step)`: `step` words of each stream. -/
theorem C98_pcg64_advance (np : Bool) (v : Pcg.Variant) (g : Nat → U64) (inc : Option U128) (hv : np = true → v = .xslRr ∧ inc = none) (step m : Nat)
    (hm : (m + 1) * step ≤ 2 ^ 128) :
    ShareOut pcg64Cls (np, v) (g, inc) (advanceFan (np, v) (g, inc) step m) .u64 m step (2 ^ 128) := by
  have hs : pcg64Spec.start (np, v) (g, inc) = .ok (v, g, inc) := by
    show (if _ then _ else _) = _
    rw [if_neg]
    rintro ⟨h1, h2⟩
    obtain ⟨rfl, rfl⟩ := hv h1
    simp at h2
  exact shareOut_at (S := pcg64Spec) (o := (v, g, inc)) (fun r => C95_pcg64_partial np _ fun p sd h => by rw [(mem_advanceFan h).1])
    (fun r => C95_pcg64_partial np _ fun p sd h => by rw [(mem_alone h).1]) hs (fun _ => rfl) (pl := fun i => i * step % 2 ^ 128) (by simp)
    (advanceFan_makes hs rfl (fun _ => rfl) (by simp) (fun i => skip_fresh (2 ^ 128) ((i + 1) * step)) m)
    (tail_zero ((Pcg.C79_pcg64_seeded v _ _).2 0) _ o64_inj) (apart_mod (apart_strides hm (le_refl _)))

/-- C98 for PCG64DXSM and `advance`. -/
theorem C98_pcg64dxsm_advance (sd : (Nat → U64) × Option U128) (step m : Nat) (hm : (m + 1) * step ≤ 2 ^ 128) :
    ShareOut pcg64DxsmCls () sd (advanceFan () sd step m) .u64 m step (2 ^ 128) :=
  shareOut_at (S := pcg64DxsmSpec) (o := sd) (fun _ => C95_pcg64dxsm _) (fun _ => C95_pcg64dxsm _) rfl (fun _ => rfl) (pl := fun i => i * step % 2 ^ 128) (by simp)
    (advanceFan_makes rfl rfl (fun _ => rfl) (by simp) (fun i => skip_fresh (2 ^ 128) ((i + 1) * step)) m)
    (tail_zero ((Pcg.C79_pcg64_seeded .cmDxsm _ _).2 0) _ o64_inj) (apart_mod (apart_strides hm (le_refl _)))

/-- C98 for PCG32 and `advance`. -/
theorem C98_pcg32_advance (hiFirst : Bool) (sd : (Nat → U64) × Option U64) (step m : Nat) (hm : (m + 1) * step ≤ 2 ^ 64) :
    ShareOut (pcg32Cls hiFirst) () sd (advanceFan () sd step m) .u32 m step (2 ^ 64) :=
  shareOut_at (S := pcg32Spec hiFirst) (o := sd) (fun _ => C95_pcg32 _ _) (fun _ => C95_pcg32 _ _) rfl (fun _ => rfl) (pl := fun i => i * step % 2 ^ 64) (by simp)
    (advanceFan_makes rfl rfl (fun _ => rfl) (by simp) (fun i => skip_fresh (2 ^ 64) ((i + 1) * step)) m)
    (tail_zero ((Pcg32.C79_pcg32_seeded _ _).2 0) _ o32_inj) (apart_mod (apart_strides hm (le_refl _)))

/-- C98 for LCG128Mix and `advance`, with the default multiplier and any built-in output function but `lower`. -/
theorem C98_lcg128mix_advance (ext : Nat → U64 → U64 → U64) (p : LcgArgs) (hp : p.mult = 47026247687942121848144207491837523525)
    (ho : p.out ∈ ["xsl-rr", "dxsm", "murmur3", "upper"]) (hd : 0 < p.dxsm ∧ p.dxsm < 2 ^ 64 ∧ p.dxsm % 2 = 1)
    (sd : (Nat → U64) × Option U128) (step m : Nat) (hm : (m + 1) * step ≤ 2 ^ 128) :
    ShareOut (lcgCls ext) p sd (advanceFan p sd step m) .u64 m step (2 ^ 128) := by
  have hs : lcgSpec.start p sd = .ok ⟨BitVec.ofInt 128 p.mult, BitVec.ofInt 64 p.dxsm, p.post, p.out, sd⟩ := by
    show (if _ then _ else _) = _
    rw [if_pos]
    refine ⟨?_, by rw [hp]; decide, hd⟩
    simp only [List.mem_cons, List.not_mem_nil, or_false] at ho ⊢
    tauto
  have hP : ∀ d, TailPeriod (lcgWord ⟨BitVec.ofInt 128 p.mult, BitVec.ofInt 64 p.dxsm, p.post, p.out, sd⟩) 0 d ↔ 2 ^ 128 ∣ d := fun d => by
    have h := Lcg128.C79_lcg128_period (lcgCore ⟨BitVec.ofInt 128 p.mult, BitVec.ofInt 64 p.dxsm, p.post, p.out, sd⟩) (by
        show (BitVec.ofInt 128 p.mult).toNat % 4 = 1
        rw [hp]; decide) (or_one_odd (by decide) _) (by
        show (BitVec.ofInt 64 p.dxsm).toNat % 2 = 1
        rw [BitVec.toNat_ofInt]
        omega) (fun f => by
        show lcgOutput p.out ≠ _
        unfold lcgOutput
        split_ifs <;> simp) (by
        show lcgOutput p.out ≠ _
        simp only [List.mem_cons, List.not_mem_nil, or_false] at ho
        rcases ho with h | h | h | h <;> rw [h] <;> simp [lcgOutput]) 0 d
    simpa only [lcgWord_eq] using h
  exact shareOut_at (S := lcgSpec) (fun r => C95_lcg128mix_partial ext p.mult _ (fun p' sd h => by rw [(mem_advanceFan h).1]) (.inl hp))
    (fun r => C95_lcg128mix_partial ext p.mult _ (fun p' sd h => by rw [(mem_alone h).1]) (.inl hp)) hs (fun _ => rfl) (pl := fun i => i * step % 2 ^ 128) (by simp)
    (advanceFan_makes hs rfl (fun _ => rfl) (by simp) (fun i => skip_fresh (2 ^ 128) ((i + 1) * step)) m)
    (tail_zero hP _ o64_inj) (apart_mod (apart_strides hm (le_refl _)))

example (g : Nat → U64) : ShareOut pcg64Cls (false, .cmDxsm) (g, some 5) (advanceFan (false, .cmDxsm) (g, some 5) (2 ^ 96 : Nat) 8195) .u64 8195 (2 ^ 96) (2 ^ 128) :=
  C98_pcg64_advance _ _ _ _ (by decide) _ _ (by decide)
example (sd : (Nat → U64) × Option U64) : ShareOut (pcg32Cls true) () sd (advanceFan () sd (2 ^ 50 : Nat) 8195) .u32 8195 (2 ^ 50) (2 ^ 64) :=
  C98_pcg32_advance _ _ _ _ (by decide)

/-! ### Philox and ThreeFry -/

theorem no_jump_fan {Par Seed : Type} (p : Par) (sd : Seed) (step : Int) (m : Nat) (r : List (Nat × Op)) (i : Nat) (n : Int) :
    .jump i n ∉ advanceFan p sd step m ++ r.map (fun r => .draw r.1 r.2) ∧ .jumped i n ∉ advanceFan p sd step m ++ r.map (fun r => .draw r.1 r.2) := by
  simp [advanceFan]

theorem no_jump_alone {Par Seed : Type} (p : Par) (sd : Seed) (r : List (Nat × Op)) (i : Nat) (n : Int) :
    .jump i n ∉ (.new p sd :: r.map fun r => .draw r.1 r.2 : List (SOp Par Seed)) ∧ .jumped i n ∉ (.new p sd :: r.map fun r => .draw r.1 r.2 : List (SOp Par Seed)) := by
  simp

theorem wordSkip_fresh (N w k : Nat) : wordSkip N w (k : Int) (0, none) = (k % 2 ^ (w * N), none) := by
  rw [wordSkip]
  split
  · next h =>
    rw [show k = 0 by omega, Nat.zero_mod]
  · have := skip_fresh (2 ^ (w * N)) k
    rwa [Nat.cast_pow, Nat.cast_ofNat] at this

theorem blockSkip_fresh {N : Nat} (hN : N = 2 ∨ N = 4) (w k : Nat) : blockSkip N w (k : Int) (0, none) = (N * (k % 2 ^ (w * N - N / 2)), none) := by
  rw [blockSkip]
  split
  · next h =>
    rw [show k = 0 by omega, Nat.zero_mod, Nat.mul_zero]
  · have e : ((0 : Nat) + N - 1) / N = 0 := by rcases hN with rfl | rfl <;> rfl
    have e2 : ((k : Int) % 2 ^ (w * N - N / 2)).toNat = k % 2 ^ (w * N - N / 2) := by
      rw [show (2 ^ (w * N - N / 2) : Int) = ((2 ^ (w * N - N / 2) : Nat) : Int) by norm_num, ← Int.natCast_mod, Int.toNat_natCast]
    rw [e, e2, Nat.zero_add]

theorem ctr_start (F : CtrFam) (hiFirst counter : Bool) (N w : Nat) (p : CtrArgs) (sd : CtrSeed)
    (h : (p.number = 2 ∨ p.number = 4) ∧ (p.width = 32 ∨ p.width = 64)) : (ctrSpec F hiFirst counter N w).start p sd = ctrOrg N w (F.keys N) sd := if_pos h

/-- Steps of `N * step` words that are not reduced. -/
theorem apart_blocks {N step m B P : Nat} (hm : (m + 1) * step ≤ B) (hP : N * B ≤ P) (i j a b : Nat) (hi : i ≤ m) (hj : j ≤ m) (ha : a < N * step)
    (hb : b < N * step) (h : N * (i * step % B) + a ≡ N * (j * step % B) + b [MOD P]) : i = j ∧ a = b := by
  have hst : 0 < step := Nat.pos_of_ne_zero fun h => by rw [h] at ha; omega
  have lt : ∀ i ≤ m, i * step < B := fun i hi => lt_of_lt_of_le (by nlinarith) hm
  rw [Nat.mod_eq_of_lt (lt i hi), Nat.mod_eq_of_lt (lt j hj), show N * (i * step) = i * (N * step) by ring, show N * (j * step) = j * (N * step) by ring] at h
  refine apart_strides (J := N * step) (P := P) (m := m) ?_ le_rfl i j a b hi hj ha hb h
  calc (m + 1) * (N * step) = N * ((m + 1) * step) := by ring
    _ ≤ N * B := Nat.mul_le_mul_left _ hm
    _ ≤ P := hP

theorem apart_words {step m B P : Nat} (hm : (m + 1) * step ≤ B) (hP : B ≤ P) (i j a b : Nat) (hi : i ≤ m) (hj : j ≤ m) (ha : a < step)
    (hb : b < step) (h : i * step % B + a ≡ j * step % B + b [MOD P]) : i = j ∧ a = b := by
  have := apart_blocks (N := 1) hm (by omega : 1 * B ≤ P) i j a b hi hj (by omega) (by omega)
  rw [Nat.one_mul, Nat.one_mul] at this
  exact this h

/-- C98 for Philox with words of 64 bits and `advance(i * step, counter=True)`: `N * step` words of each stream. The amounts are not reduced as long
as they fit in `64 N - N / 2` bits. -/
theorem C98_philox64_blocks (N : Nat) (hN : N = 2 ∨ N = 4) (hiFirst : Bool) (sd : CtrSeed) (hsd : CtrSeedOk N 64 (N / 2) sd) (step m : Nat)
    (hm : (m + 1) * step ≤ 2 ^ (64 * N - N / 2)) :
    ShareOut (ctrCls philoxFam hiFirst true) ⟨N, 64, false⟩ sd (advanceFan ⟨N, 64, false⟩ sd step m) .u64 m (N * step) (N * 2 ^ (64 * N)) := by
  have hw : 64 = 32 ∨ 64 = 64 := .inr rfl
  have ha : ArgsOk N 64 ⟨N, 64, false⟩ := ⟨rfl, .inl ⟨rfl, rfl⟩⟩
  have hs : (ctrSpec philoxFam hiFirst true N 64).start ⟨N, 64, false⟩ sd =
      .ok ((sd.key.map Int.toNat).getD (seqKey (N / 2 * 64) sd.words), (sd.counter.map Int.toNat).getD 0) := by
    show (if _ then ctrOrg N 64 (N / 2) sd else _) = _
    rw [if_pos ⟨show (N : Int) = 2 ∨ (N : Int) = 4 by omega, .inr rfl⟩, ctrOrg]
    exact if_pos hsd
  exact shareOut_at (fun r => C95_philox_counter_partial hN hw hiFirst _ fun q sd' h => by rw [(mem_advanceFan h).1]; exact ha)
    (fun r => C95_philox_counter_partial hN hw hiFirst _ fun q sd' h => by rw [(mem_alone h).1]; exact ha) hs (fun _ => rfl)
    (pl := fun i => N * (i * step % 2 ^ (64 * N - N / 2))) (by simp)
    (advanceFan_makes (step := (step : Int)) (at0 := fun i => (N * (i * step % 2 ^ (64 * N - N / 2)), none)) hs rfl (fun _ => rfl) (by simp)
      (fun i => blockSkip_fresh hN 64 ((i + 1) * step)) m)
    (tail_zero (ctrStream_period ⟨hN, hw⟩ philox _ (philox_perm ⟨hN, hw⟩ _ (toWords_length _ _ _))) _ o64_inj)
    (apart_blocks hm (Nat.mul_le_mul_left _ (Nat.pow_le_pow_right (by decide) (by omega))))

/-- C98 for Philox with four words of 64 bits and `advance(i * step, counter=False)`: `step` words of each stream. -/
theorem C98_philox64_words (hiFirst : Bool) (sd : CtrSeed) (hsd : CtrSeedOk 4 64 (4 / 2) sd) (step m : Nat)
    (hm : (m + 1) * step ≤ 2 ^ (64 * 4)) :
    ShareOut (ctrCls philoxFam hiFirst false) ⟨4, 64, false⟩ sd (advanceFan ⟨4, 64, false⟩ sd step m) .u64 m step (4 * 2 ^ (64 * 4)) := by
  have hN : 4 = 2 ∨ 4 = 4 := .inr rfl
  have hw : 64 = 32 ∨ 64 = 64 := .inr rfl
  have ha : ArgsOk 4 64 ⟨4, 64, false⟩ := ⟨rfl, .inl ⟨rfl, rfl⟩⟩
  have hs : (ctrSpec philoxFam hiFirst false 4 64).start ⟨4, 64, false⟩ sd =
      .ok ((sd.key.map Int.toNat).getD (seqKey (4 / 2 * 64) sd.words), (sd.counter.map Int.toNat).getD 0) := by
    have h1 : (ctrSpec philoxFam hiFirst false 4 64).start ⟨4, 64, false⟩ sd = ctrOrg 4 64 (4 / 2) sd := ctr_start _ _ _ _ _ _ _ ⟨.inr rfl, .inr rfl⟩
    rw [h1, ctrOrg]
    exact if_pos hsd
  exact shareOut_at (fun r => C95_philox_draws_partial hw hiFirst _ (fun q sd' h => by rw [(mem_advanceFan h).1]; exact ha) (no_jump_fan _ _ _ _ _))
    (fun r => C95_philox_draws_partial hw hiFirst _ (fun q sd' h => by rw [(mem_alone h).1]; exact ha) (no_jump_alone _ _ _)) hs (fun _ => rfl)
    (pl := fun i => i * step % 2 ^ (64 * 4)) (by simp)
    (advanceFan_makes (step := (step : Int)) (at0 := fun i => (i * step % 2 ^ (64 * 4), none)) hs rfl (fun _ => rfl) (by simp)
      (fun i => wordSkip_fresh 4 64 ((i + 1) * step)) m)
    (tail_zero (ctrStream_period ⟨hN, hw⟩ philox _ (philox_perm ⟨hN, hw⟩ _ (toWords_length _ _ _))) _ o64_inj)
    (apart_words hm (Nat.le_mul_of_pos_left _ (by decide)))

/-- C98 for Philox with words of 32 bits and `advance(i * step, counter=True)`: `N * step` words of each stream. The amounts are not reduced as long
as they fit in `32 N - N / 2` bits. -/
theorem C98_philox32_blocks (N : Nat) (hN : N = 2 ∨ N = 4) (hiFirst : Bool) (sd : CtrSeed) (hsd : CtrSeedOk N 32 (N / 2) sd) (step m : Nat)
    (hm : (m + 1) * step ≤ 2 ^ (32 * N - N / 2)) :
    ShareOut (ctrCls philoxFam hiFirst true) ⟨N, 32, false⟩ sd (advanceFan ⟨N, 32, false⟩ sd step m) .u32 m (N * step) (N * 2 ^ (32 * N)) := by
  have hw : 32 = 32 ∨ 32 = 64 := .inl rfl
  have ha : ArgsOk N 32 ⟨N, 32, false⟩ := ⟨rfl, .inl ⟨rfl, rfl⟩⟩
  have hs : (ctrSpec philoxFam hiFirst true N 32).start ⟨N, 32, false⟩ sd =
      .ok ((sd.key.map Int.toNat).getD (seqKey (N / 2 * 32) sd.words), (sd.counter.map Int.toNat).getD 0) := by
    show (if _ then ctrOrg N 32 (N / 2) sd else _) = _
    rw [if_pos ⟨show (N : Int) = 2 ∨ (N : Int) = 4 by omega, .inl rfl⟩, ctrOrg]
    exact if_pos hsd
  exact shareOut_at (fun r => C95_philox_counter_partial hN hw hiFirst _ fun q sd' h => by rw [(mem_advanceFan h).1]; exact ha)
    (fun r => C95_philox_counter_partial hN hw hiFirst _ fun q sd' h => by rw [(mem_alone h).1]; exact ha) hs (fun _ => rfl)
    (pl := fun i => N * (i * step % 2 ^ (32 * N - N / 2))) (by simp)
    (advanceFan_makes (step := (step : Int)) (at0 := fun i => (N * (i * step % 2 ^ (32 * N - N / 2)), none)) hs rfl (fun _ => rfl) (by simp)
      (fun i => blockSkip_fresh hN 32 ((i + 1) * step)) m)
    (tail_zero (ctrStream_period ⟨hN, hw⟩ philox _ (philox_perm ⟨hN, hw⟩ _ (toWords_length _ _ _))) _ o32_inj)
    (apart_blocks hm (Nat.mul_le_mul_left _ (Nat.pow_le_pow_right (by decide) (by omega))))

/-- C98 for Philox with four words of 32 bits and `advance(i * step, counter=False)`: `step` words of each stream. -/
theorem C98_philox32_words (hiFirst : Bool) (sd : CtrSeed) (hsd : CtrSeedOk 4 32 (4 / 2) sd) (step m : Nat)
    (hm : (m + 1) * step ≤ 2 ^ (32 * 4)) :
    ShareOut (ctrCls philoxFam hiFirst false) ⟨4, 32, false⟩ sd (advanceFan ⟨4, 32, false⟩ sd step m) .u32 m step (4 * 2 ^ (32 * 4)) := by
  have hN : 4 = 2 ∨ 4 = 4 := .inr rfl
  have hw : 32 = 32 ∨ 32 = 64 := .inl rfl
  have ha : ArgsOk 4 32 ⟨4, 32, false⟩ := ⟨rfl, .inl ⟨rfl, rfl⟩⟩
  have hs : (ctrSpec philoxFam hiFirst false 4 32).start ⟨4, 32, false⟩ sd =
      .ok ((sd.key.map Int.toNat).getD (seqKey (4 / 2 * 32) sd.words), (sd.counter.map Int.toNat).getD 0) := by
    have h1 : (ctrSpec philoxFam hiFirst false 4 32).start ⟨4, 32, false⟩ sd = ctrOrg 4 32 (4 / 2) sd := ctr_start _ _ _ _ _ _ _ ⟨.inr rfl, .inl rfl⟩
    rw [h1, ctrOrg]
    exact if_pos hsd
  exact shareOut_at (fun r => C95_philox_draws_partial hw hiFirst _ (fun q sd' h => by rw [(mem_advanceFan h).1]; exact ha) (no_jump_fan _ _ _ _ _))
    (fun r => C95_philox_draws_partial hw hiFirst _ (fun q sd' h => by rw [(mem_alone h).1]; exact ha) (no_jump_alone _ _ _)) hs (fun _ => rfl)
    (pl := fun i => i * step % 2 ^ (32 * 4)) (by simp)
    (advanceFan_makes (step := (step : Int)) (at0 := fun i => (i * step % 2 ^ (32 * 4), none)) hs rfl (fun _ => rfl) (by simp)
      (fun i => wordSkip_fresh 4 32 ((i + 1) * step)) m)
    (tail_zero (ctrStream_period ⟨hN, hw⟩ philox _ (philox_perm ⟨hN, hw⟩ _ (toWords_length _ _ _))) _ o32_inj)
    (apart_words hm (Nat.le_mul_of_pos_left _ (by decide)))

/-- C98 for ThreeFry with words of 64 bits and `advance(i * step, counter=True)`: `N * step` words of each stream. The amounts are not reduced as long
as they fit in `64 N - N / 2` bits. -/
theorem C98_threefry64_blocks (N : Nat) (hN : N = 2 ∨ N = 4) (hiFirst : Bool) (sd : CtrSeed) (hsd : CtrSeedOk N 64 (N) sd) (step m : Nat)
    (hm : (m + 1) * step ≤ 2 ^ (64 * N - N / 2)) :
    ShareOut (ctrCls threefryFam hiFirst true) ⟨N, 64, false⟩ sd (advanceFan ⟨N, 64, false⟩ sd step m) .u64 m (N * step) (N * 2 ^ (64 * N)) := by
  have hw : 64 = 32 ∨ 64 = 64 := .inr rfl
  have ha : ArgsOk N 64 ⟨N, 64, false⟩ := ⟨rfl, .inl ⟨rfl, rfl⟩⟩
  have hs : (ctrSpec threefryFam hiFirst true N 64).start ⟨N, 64, false⟩ sd =
      .ok ((sd.key.map Int.toNat).getD (seqKey (N * 64) sd.words), (sd.counter.map Int.toNat).getD 0) := by
    show (if _ then ctrOrg N 64 (N) sd else _) = _
    rw [if_pos ⟨show (N : Int) = 2 ∨ (N : Int) = 4 by omega, .inr rfl⟩, ctrOrg]
    exact if_pos hsd
  exact shareOut_at (fun r => C95_threefry_counter_partial hN hw hiFirst _ fun q sd' h => by rw [(mem_advanceFan h).1]; exact ha)
    (fun r => C95_threefry_counter_partial hN hw hiFirst _ fun q sd' h => by rw [(mem_alone h).1]; exact ha) hs (fun _ => rfl)
    (pl := fun i => N * (i * step % 2 ^ (64 * N - N / 2))) (by simp)
    (advanceFan_makes (step := (step : Int)) (at0 := fun i => (N * (i * step % 2 ^ (64 * N - N / 2)), none)) hs rfl (fun _ => rfl) (by simp)
      (fun i => blockSkip_fresh hN 64 ((i + 1) * step)) m)
    (tail_zero (ctrStream_period ⟨hN, hw⟩ threefry _ (threefry_perm ⟨hN, hw⟩ _)) _ o64_inj)
    (apart_blocks hm (Nat.mul_le_mul_left _ (Nat.pow_le_pow_right (by decide) (by omega))))

/-- C98 for ThreeFry with four words of 64 bits and `advance(i * step, counter=False)`: `step` words of each stream. -/
theorem C98_threefry64_words (hiFirst : Bool) (sd : CtrSeed) (hsd : CtrSeedOk 4 64 (4) sd) (step m : Nat)
    (hm : (m + 1) * step ≤ 2 ^ (64 * 4)) :
    ShareOut (ctrCls threefryFam hiFirst false) ⟨4, 64, false⟩ sd (advanceFan ⟨4, 64, false⟩ sd step m) .u64 m step (4 * 2 ^ (64 * 4)) := by
  have hN : 4 = 2 ∨ 4 = 4 := .inr rfl
  have hw : 64 = 32 ∨ 64 = 64 := .inr rfl
  have ha : ArgsOk 4 64 ⟨4, 64, false⟩ := ⟨rfl, .inl ⟨rfl, rfl⟩⟩
  have hs : (ctrSpec threefryFam hiFirst false 4 64).start ⟨4, 64, false⟩ sd =
      .ok ((sd.key.map Int.toNat).getD (seqKey (4 * 64) sd.words), (sd.counter.map Int.toNat).getD 0) := by
    have h1 : (ctrSpec threefryFam hiFirst false 4 64).start ⟨4, 64, false⟩ sd = ctrOrg 4 64 (4) sd := ctr_start _ _ _ _ _ _ _ ⟨.inr rfl, .inr rfl⟩
    rw [h1, ctrOrg]
    exact if_pos hsd
  exact shareOut_at (fun r => C95_threefry_draws_partial hw hiFirst _ (fun q sd' h => by rw [(mem_advanceFan h).1]; exact ha) (no_jump_fan _ _ _ _ _))
    (fun r => C95_threefry_draws_partial hw hiFirst _ (fun q sd' h => by rw [(mem_alone h).1]; exact ha) (no_jump_alone _ _ _)) hs (fun _ => rfl)
    (pl := fun i => i * step % 2 ^ (64 * 4)) (by simp)
    (advanceFan_makes (step := (step : Int)) (at0 := fun i => (i * step % 2 ^ (64 * 4), none)) hs rfl (fun _ => rfl) (by simp)
      (fun i => wordSkip_fresh 4 64 ((i + 1) * step)) m)
    (tail_zero (ctrStream_period ⟨hN, hw⟩ threefry _ (threefry_perm ⟨hN, hw⟩ _)) _ o64_inj)
    (apart_words hm (Nat.le_mul_of_pos_left _ (by decide)))

/-- C98 for ThreeFry with words of 32 bits and `advance(i * step, counter=True)`: `N * step` words of each stream. The amounts are not reduced as long
as they fit in `32 N - N / 2` bits. -/
theorem C98_threefry32_blocks (N : Nat) (hN : N = 2 ∨ N = 4) (hiFirst : Bool) (sd : CtrSeed) (hsd : CtrSeedOk N 32 (N) sd) (step m : Nat)
    (hm : (m + 1) * step ≤ 2 ^ (32 * N - N / 2)) :
    ShareOut (ctrCls threefryFam hiFirst true) ⟨N, 32, false⟩ sd (advanceFan ⟨N, 32, false⟩ sd step m) .u32 m (N * step) (N * 2 ^ (32 * N)) := by
  have hw : 32 = 32 ∨ 32 = 64 := .inl rfl
  have ha : ArgsOk N 32 ⟨N, 32, false⟩ := ⟨rfl, .inl ⟨rfl, rfl⟩⟩
  have hs : (ctrSpec threefryFam hiFirst true N 32).start ⟨N, 32, false⟩ sd =
      .ok ((sd.key.map Int.toNat).getD (seqKey (N * 32) sd.words), (sd.counter.map Int.toNat).getD 0) := by
    show (if _ then ctrOrg N 32 (N) sd else _) = _
    rw [if_pos ⟨show (N : Int) = 2 ∨ (N : Int) = 4 by omega, .inl rfl⟩, ctrOrg]
    exact if_pos hsd
  exact shareOut_at (fun r => C95_threefry_counter_partial hN hw hiFirst _ fun q sd' h => by rw [(mem_advanceFan h).1]; exact ha)
    (fun r => C95_threefry_counter_partial hN hw hiFirst _ fun q sd' h => by rw [(mem_alone h).1]; exact ha) hs (fun _ => rfl)
    (pl := fun i => N * (i * step % 2 ^ (32 * N - N / 2))) (by simp)
    (advanceFan_makes (step := (step : Int)) (at0 := fun i => (N * (i * step % 2 ^ (32 * N - N / 2)), none)) hs rfl (fun _ => rfl) (by simp)
      (fun i => blockSkip_fresh hN 32 ((i + 1) * step)) m)
    (tail_zero (ctrStream_period ⟨hN, hw⟩ threefry _ (threefry_perm ⟨hN, hw⟩ _)) _ o32_inj)
    (apart_blocks hm (Nat.mul_le_mul_left _ (Nat.pow_le_pow_right (by decide) (by omega))))

/-- C98 for ThreeFry with four words of 32 bits and `advance(i * step, counter=False)`: `step` words of each stream. -/
theorem C98_threefry32_words (hiFirst : Bool) (sd : CtrSeed) (hsd : CtrSeedOk 4 32 (4) sd) (step m : Nat)
    (hm : (m + 1) * step ≤ 2 ^ (32 * 4)) :
    ShareOut (ctrCls threefryFam hiFirst false) ⟨4, 32, false⟩ sd (advanceFan ⟨4, 32, false⟩ sd step m) .u32 m step (4 * 2 ^ (32 * 4)) := by
  have hN : 4 = 2 ∨ 4 = 4 := .inr rfl
  have hw : 32 = 32 ∨ 32 = 64 := .inl rfl
  have ha : ArgsOk 4 32 ⟨4, 32, false⟩ := ⟨rfl, .inl ⟨rfl, rfl⟩⟩
  have hs : (ctrSpec threefryFam hiFirst false 4 32).start ⟨4, 32, false⟩ sd =
      .ok ((sd.key.map Int.toNat).getD (seqKey (4 * 32) sd.words), (sd.counter.map Int.toNat).getD 0) := by
    have h1 : (ctrSpec threefryFam hiFirst false 4 32).start ⟨4, 32, false⟩ sd = ctrOrg 4 32 (4) sd := ctr_start _ _ _ _ _ _ _ ⟨.inr rfl, .inl rfl⟩
    rw [h1, ctrOrg]
    exact if_pos hsd
  exact shareOut_at (fun r => C95_threefry_draws_partial hw hiFirst _ (fun q sd' h => by rw [(mem_advanceFan h).1]; exact ha) (no_jump_fan _ _ _ _ _))
    (fun r => C95_threefry_draws_partial hw hiFirst _ (fun q sd' h => by rw [(mem_alone h).1]; exact ha) (no_jump_alone _ _ _)) hs (fun _ => rfl)
    (pl := fun i => i * step % 2 ^ (32 * 4)) (by simp)
    (advanceFan_makes (step := (step : Int)) (at0 := fun i => (i * step % 2 ^ (32 * 4), none)) hs rfl (fun _ => rfl) (by simp)
      (fun i => wordSkip_fresh 4 32 ((i + 1) * step)) m)
    (tail_zero (ctrStream_period ⟨hN, hw⟩ threefry _ (threefry_perm ⟨hN, hw⟩ _)) _ o32_inj)
    (apart_words hm (Nat.le_mul_of_pos_left _ (by decide)))

example (g : Nat → U64) : ShareOut (ctrCls philoxFam true true) ⟨4, 64, false⟩ ⟨g, none, none⟩ (advanceFan ⟨4, 64, false⟩ ⟨g, none, none⟩ (2 ^ 200 : Nat) 8195) .u64
    8195 (4 * 2 ^ 200) (4 * 2 ^ 256) :=
  C98_philox64_blocks 4 (.inr rfl) _ _ ⟨by simp, by simp⟩ _ _ (by decide)
example (g : Nat → U64) : ShareOut (ctrCls threefryFam true false) ⟨4, 32, false⟩ ⟨g, none, some 3⟩ (advanceFan ⟨4, 32, false⟩ ⟨g, none, some 3⟩ (1001 : Nat) 8195) .u32
    8195 1001 (4 * 2 ^ 128) :=
  C98_threefry32_words _ _ ⟨by simp, by simp⟩ _ _ (by decide)

end Verif
