import Verif.Common.DocTable
import Verif.Props.RecipesAdvance

/-! C101: the periods and jump sizes of the table in parallel.rst. -/

namespace Verif

open XorLinear Orbit

section
variable {Par Seed St Org : Type} {C : GCls Par Seed St} {S : SSpec Par Seed Org} {p : Par} {sd : Seed} {o : Org} {op : Op} {w : Nat → Out}

/-- What the jumped generator draws, through the worlds of places. -/
theorem afterJump_val {pl : Nat → Nat} {st : Nat → Nat → Nat × Option U32}
    (hC : ∀ rest : List (Nat × Op), C.program (jumpChain p sd 1 ++ rest.map fun r => .draw r.1 r.2) = S.program (jumpChain p sd 1 ++ rest.map fun r => .draw r.1 r.2))
    (hd : ∀ i ≤ 1, ∀ k, S.draw o op (st i k) = (w (pl i + k), st i (k + 1))) (hm : Makes S p sd o (jumpChain p sd 1) 1 fun i => st i 0) (n : Nat) :
    C.afterJump p sd op n = some (.val (w (n + pl 1))) := by
  have h1 := hC (List.replicate (n + 1) (1, op))
  rw [List.map_replicate] at h1
  have h2 : C.afterJump p sd op n = (C.program (jumpChain p sd 1 ++ List.replicate (n + 1) (.draw 1 op)))[n + 2]? := rfl
  have h3 := fan_draws (p := p) (sd := sd) hd (fun _ => 0) (List.replicate (n + 1) 1) (by simp)
  rw [List.map_replicate] at h3
  rw [h2, h1, hm, h3, List.getElem?_append_right (by simp [jumpChain]), List.getElem?_map,
    show n + 2 - (List.replicate (jumpChain p sd 1).length SRes.done).length = n by simp [jumpChain], placesOf_get _ _ n (by simp)]
  simp [Nat.add_comm]

/-- A row from the world of places. -/
theorem periodJump_at {P J : Nat} {pl : Nat → Nat}
    (hC : ∀ rest : List (Nat × Op), C.program (jumpChain p sd 1 ++ rest.map fun r => .draw r.1 r.2) = S.program (jumpChain p sd 1 ++ rest.map fun r => .draw r.1 r.2))
    (hA : ∀ rest : List (Nat × Op), C.program (.new p sd :: rest.map fun r => .draw r.1 r.2) = S.program (.new p sd :: rest.map fun r => .draw r.1 r.2))
    (hs : S.start p sd = .ok o) (hd : ∀ n, S.draw o op (n, none) = (w n, n + 1, none))
    (hm : Makes S p sd o (jumpChain p sd 1) 1 fun i => (pl i, none)) (hP : ∀ d, (∀ n, w (n + d) = w n) ↔ P ∣ d) (hJ : pl 1 = J) :
    PeriodJump C p sd op P J := by
  refine ⟨fun d => (Iff.trans (forall_congr' fun n => ?_) (hP d)), fun n => ?_⟩
  · rw [alone_val hA hs hd, alone_val hA hs hd]
    exact ⟨fun h => SRes.val.inj (Option.some.inj h), fun h => by rw [h]⟩
  · rw [afterJump_val (st := fun i k => (pl i + k, none)) hC (fun i _ k => hd (pl i + k)) hm, alone_val hA hs hd, hJ]

end

/-- A generator has one period: a row with another period is wrong. -/
theorem PeriodJump.period_unique {Par Seed St : Type} {C : GCls Par Seed St} {p : Par} {sd : Seed} {o : Op} {P J Q K : Nat} (h : PeriodJump C p sd o P J)
    (h' : PeriodJump C p sd o Q K) : P = Q :=
  Nat.dvd_antisymm ((h.1 Q).1 ((h'.1 Q).2 (dvd_refl _))) ((h'.1 P).1 ((h.1 P).2 (dvd_refl _)))

theorem PeriodJump.not_row {Par Seed St : Type} {C : GCls Par Seed St} {p : Par} {sd : Seed} {o : Op} {P J T K : Nat} (h : PeriodJump C p sd o P J)
    (h1 : P ≠ T) (h2 : P + 1 ≠ T) : ¬ TableRow C p sd o T K := by
  rintro ⟨Q, hQ, h'⟩
  obtain rfl := h.period_unique h'
  rcases hQ with hQ | hQ
  · exact h1 hQ
  · exact h2 hQ

/-! ### Rows that are right -/

/-- C101 for Xoshiro256: period `2^256` (less one), jumps of `2^128`. -/
theorem C101_xoshiro256 (g : Nat → U64) (hg : ∃ i < 4, g i ≠ 0) : TableRow xo256Cls () g .u64 (2 ^ 256) (2 ^ 128) := by
  have hz : (⟨g 0, g 1, g 2, g 3⟩ : S4) ≠ ⟨0, 0, 0, 0⟩ := by
    intro h
    injection h with h0 h1 h2 h3
    obtain ⟨i, hi, h⟩ := hg
    interval_cases i <;> exact h ‹_›
  exact ⟨2 ^ 256 - 1, .inr (by decide), periodJump_at (S := xo256Spec) (fun _ => C95_xoshiro256 _) (fun _ => C95_xoshiro256 _) rfl (fun _ => rfl)
    (jumpChain_makes rfl rfl rfl (by rw [Nat.zero_mul]) (stride_step _) 1) (tail_zero (C78_xoshiro256_period _ hz 0) _ o64_inj) (Nat.one_mul _)⟩

/-- C101 for Xoshiro512: period `2^512`, jumps of `2^256`. -/
theorem C101_xoshiro512 (g : Nat → U64) (hg : ∃ i < 8, g i ≠ 0) : TableRow xo512Cls () g .u64 (2 ^ 512) (2 ^ 256) := by
  have hz : (⟨g 0, g 1, g 2, g 3, g 4, g 5, g 6, g 7⟩ : S8) ≠ ⟨0, 0, 0, 0, 0, 0, 0, 0⟩ := by
    intro h
    injection h with h0 h1 h2 h3 h4 h5 h6 h7
    obtain ⟨i, hi, h⟩ := hg
    interval_cases i <;> exact h ‹_›
  exact ⟨2 ^ 512 - 1, .inr (by decide +kernel), periodJump_at (S := xo512Spec) (fun _ => C95_xoshiro512 _) (fun _ => C95_xoshiro512 _) rfl (fun _ => rfl)
    (jumpChain_makes rfl rfl rfl (by rw [Nat.zero_mul]) (stride_step _) 1) (tail_zero (C78_xoshiro512_period _ hz 0) _ o64_inj) (Nat.one_mul _)⟩

/-- C101 for Xoroshiro128, both variants: period `2^128`, jumps of `2^64`. -/
theorem C101_xoroshiro128 (pp : Bool) (g : Nat → U64) (hg : ∃ i < 2, g i ≠ 0) : TableRow xoroCls pp g .u64 (2 ^ 128) (2 ^ 64) := by
  have hz : (⟨g 0, g 1⟩ : S2) ≠ ⟨0, 0⟩ := by
    intro h
    injection h with h0 h1
    obtain ⟨i, hi, h⟩ := hg
    interval_cases i <;> exact h ‹_›
  exact ⟨2 ^ 128 - 1, .inr (by decide), periodJump_at (S := xoroSpec) (o := (pp, g)) (fun _ => C95_xoroshiro128 _) (fun _ => C95_xoroshiro128 _) rfl (fun _ => rfl)
    (jumpChain_makes rfl rfl rfl (by rw [Nat.zero_mul]) (stride_step _) 1) (tail_zero (C78_xoroshiro128_period pp _ hz 0) _ o64_inj) (Nat.one_mul _)⟩

/-- C101 for Xorshift1024: period `2^1024`, jumps of `2^512`. -/
theorem C101_xorshift1024 (g : Nat → U64) (hg : ∃ i < 16, g i ≠ 0) : TableRow xs1024Cls () g .u64 (2 ^ 1024) (2 ^ 512) := by
  obtain ⟨i, hi, h⟩ := hg
  exact ⟨2 ^ 1024 - 1, .inr (by decide +kernel), periodJump_at (S := xs1024Spec) (o := (0, g)) (fun _ => C95_xorshift1024_partial _)
    (fun _ => C95_xorshift1024_partial _) rfl (fun _ => rfl) (jumpChain_makes rfl rfl rfl (by rw [Nat.zero_mul]) (stride_step _) 1)
    (tail_zero (C78_xorshift1024_period _ ⟨⟨i, hi⟩, h⟩ 0) _ o64_inj) (Nat.one_mul _)⟩

theorem golden128 : GoldenJump (2 ^ 128) 210306068529402873165736369884012333108 := by constructor <;> decide +kernel
theorem golden64 : GoldenJump (2 ^ 64) 11400714819323198486 := by constructor <;> decide +kernel

/-- C101 for PCG64, all variants, both modes: period `2^128`, jumps by the golden section. -/
theorem C101_pcg64 (np : Bool) (v : Pcg.Variant) (g : Nat → U64) (inc : Option U128) (hv : np = true → v = .xslRr ∧ inc = none) :
    ∃ J, GoldenJump (2 ^ 128) J ∧ TableRow pcg64Cls (np, v) (g, inc) .u64 (2 ^ 128) J := by
  have hs : pcg64Spec.start (np, v) (g, inc) = .ok (v, g, inc) := by
    show (if _ then _ else _) = _
    rw [if_neg]
    rintro ⟨h1, h2⟩
    obtain ⟨rfl, rfl⟩ := hv h1
    simp at h2
  refine ⟨_, golden128, _, .inl rfl, periodJump_at (S := pcg64Spec) (o := (v, g, inc)) (fun r => C95_pcg64_partial np _ fun p sd h => ?_)
    (fun r => C95_pcg64_partial np _ fun p sd h => by rw [(mem_alone h).1]) hs (fun _ => rfl)
    (jumpChain_makes hs rfl rfl (by rw [Nat.zero_mul]) golden128_step 1) (tail_zero ((Pcg.C79_pcg64_seeded v _ _).2 0) _ o64_inj) (Nat.one_mul _)⟩
  simp only [jumpChain, List.cons_append, List.mem_cons, List.mem_append, List.mem_map, reduceCtorEq, and_false, exists_false, or_false, SOp.new.injEq] at h
  rw [h.1]

/-- C101 for PCG64DXSM, which the table does not list: as PCG64. -/
theorem C101_pcg64dxsm (sd : (Nat → U64) × Option U128) : ∃ J, GoldenJump (2 ^ 128) J ∧ TableRow pcg64DxsmCls () sd .u64 (2 ^ 128) J :=
  ⟨_, golden128, _, .inl rfl, periodJump_at (S := pcg64DxsmSpec) (o := sd) (fun _ => C95_pcg64dxsm _) (fun _ => C95_pcg64dxsm _) rfl (fun _ => rfl)
    (jumpChain_makes rfl rfl rfl (by rw [Nat.zero_mul]) golden128_step 1) (tail_zero ((Pcg.C79_pcg64_seeded .cmDxsm _ _).2 0) _ o64_inj) (Nat.one_mul _)⟩

/-- C101 for PCG32: period `2^64`, jumps by the golden section, words of 32 bits. -/
theorem C101_pcg32 (hiFirst : Bool) (sd : (Nat → U64) × Option U64) : ∃ J, GoldenJump (2 ^ 64) J ∧ TableRow (pcg32Cls hiFirst) () sd .u32 (2 ^ 64) J :=
  ⟨_, golden64, _, .inl rfl, periodJump_at (S := pcg32Spec hiFirst) (o := sd) (fun _ => C95_pcg32 _ _) (fun _ => C95_pcg32 _ _) rfl (fun _ => rfl)
    (jumpChain_makes rfl rfl rfl (by rw [Nat.zero_mul]) golden64_step 1) (tail_zero ((Pcg32.C79_pcg32_seeded _ _).2 0) _ o32_inj) (Nat.one_mul _)⟩

/-- C101 for LCG128Mix with the default multiplier and any built-in output function but `lower`: period `2^128`, jumps by the golden section. -/
theorem C101_lcg128mix (ext : Nat → U64 → U64 → U64) (p : LcgArgs) (hp : p.mult = 47026247687942121848144207491837523525)
    (ho : p.out ∈ ["xsl-rr", "dxsm", "murmur3", "upper"]) (hd : 0 < p.dxsm ∧ p.dxsm < 2 ^ 64 ∧ p.dxsm % 2 = 1)
    (sd : (Nat → U64) × Option U128) :
    ∃ J, GoldenJump (2 ^ 128) J ∧ TableRow (lcgCls ext) p sd .u64 (2 ^ 128) J := by
  have hs : lcgSpec.start p sd = .ok ⟨BitVec.ofInt 128 p.mult, BitVec.ofInt 64 p.dxsm, p.post, p.out, sd⟩ := by
    show (if _ then _ else _) = _
    rw [if_pos]
    refine ⟨?_, by rw [hp]; decide, hd⟩
    simp only [List.mem_cons, List.not_mem_nil, or_false] at ho ⊢
    tauto
  have hP : ∀ d, TailPeriod (lcgWord ⟨BitVec.ofInt 128 p.mult, BitVec.ofInt 64 p.dxsm, p.post, p.out, sd⟩) 0 d ↔ 2 ^ 128 ∣ d := fun d => by
    have h := Lcg128.C79_lcg128_period (lcgCore ⟨BitVec.ofInt 128 p.mult, BitVec.ofInt 64 p.dxsm, p.post, p.out, sd⟩) (by
        show (BitVec.ofInt 128 p.mult).toNat % 4 = 1
        rw [hp]; decide) (or_one_odd (by decide) _) (by
        show (BitVec.ofInt 64 p.dxsm).toNat % 2 = 1
        rw [BitVec.toNat_ofInt]
        omega) (fun f => by
        show lcgOutput p.out ≠ _
        unfold lcgOutput
        split_ifs <;> simp) (by
        show lcgOutput p.out ≠ _
        simp only [List.mem_cons, List.not_mem_nil, or_false] at ho
        rcases ho with h | h | h | h <;> rw [h] <;> simp [lcgOutput]) 0 d
    simpa only [lcgWord_eq] using h
  refine ⟨_, golden128, _, .inl rfl, periodJump_at (S := lcgSpec) (fun r => C95_lcg128mix_partial ext p.mult _ (fun p' sd h => ?_) (.inl hp))
    (fun r => C95_lcg128mix_partial ext p.mult _ (fun p' sd h => by rw [(mem_alone h).1]) (.inl hp)) hs (fun _ => rfl)
    (jumpChain_makes hs rfl rfl (by rw [Nat.zero_mul]) golden128_step 1) (tail_zero hP _ o64_inj) (Nat.one_mul _)⟩
  simp only [jumpChain, List.cons_append, List.mem_cons, List.mem_append, List.mem_map, reduceCtorEq, and_false, exists_false, or_false, SOp.new.injEq] at h
  rw [h.1]

/-! ### Rows that are wrong -/

/-- The truth for LXM: the period is `2^64 (2^256 - 1)`. -/
theorem C101_lxm_partial (b : U64) (g : Nat → U64) (hg : ∃ i < 4, g i ≠ 0) : PeriodJump lxmCls b g .u64 ((2 ^ 256 - 1) * 2 ^ 64) (2 ^ 128) := by
  have hz : (⟨g 0, g 1, g 2, g 3⟩ : S4) ≠ ⟨0, 0, 0, 0⟩ := by
    intro h
    injection h with h0 h1 h2 h3
    obtain ⟨i, hi, h⟩ := hg
    interval_cases i <;> exact h ‹_›
  have hs : lxmSpec.start b g = .ok (b ||| 1, g) := by
    show (if _ then _ else _) = _
    rw [if_neg]
    rintro ⟨h0, h1, h2, h3⟩
    exact hz (by rw [h0, h1, h2, h3])
  exact periodJump_at (S := lxmSpec) (o := (b ||| 1, g)) (fun _ => C95_lxm _) (fun _ => C95_lxm _) hs (fun _ => rfl)
    (jumpChain_makes hs rfl rfl (by rw [Nat.zero_mul]) (stride_step _) 1) (tail_zero (C78_lxm_period ⟨⟨g 0, g 1, g 2, g 3⟩, g 4, b ||| 1⟩ hz (Pcg.or_one_odd' b) 0) _ o64_inj)
    (Nat.one_mul _)

/-- C101 fails for LXM: its period is not `2^256`. -/
theorem not_C101_lxm (b : U64) (g : Nat → U64) (hg : ∃ i < 4, g i ≠ 0) : ¬ TableRow lxmCls b g .u64 (2 ^ 256) (2 ^ 128) :=
  (C101_lxm_partial b g hg).not_row (by decide) (by decide)

/-- The truth for SPECK128: the period is `2^129`. -/
theorem C101_speck128_partial (r : Int) (hr : 1 ≤ r ∧ r ≤ 34) (sd : (Nat → U64) × Option Int) (hsd : ∀ i ∈ sd.2, 0 ≤ i ∧ i < 2 ^ 128) :
    PeriodJump speckCls r sd .u64 (2 ^ 129) (2 ^ 64) := by
  have hs : (speckSpec true).start r sd = .ok (r, sd) := if_pos ⟨hr, hsd⟩
  exact periodJump_at (S := speckSpec true) (o := (r, sd)) (fun _ => C95_speck128_partial _) (fun _ => C95_speck128_partial _) hs (fun _ => rfl)
    (jumpChain_makes hs rfl rfl (by rw [Nat.zero_mul]) cipher_step 1) (tail_zero (cipherWord_period (speckEnc_injective _ _) _) _ o64_inj) (Nat.one_mul _)

/-- C101 fails for SPECK128: its period is not `2^128`. -/
theorem not_C101_speck128 (r : Int) (hr : 1 ≤ r ∧ r ≤ 34) (sd : (Nat → U64) × Option Int) (hsd : ∀ i ∈ sd.2, 0 ≤ i ∧ i < 2 ^ 128) :
    ¬ TableRow speckCls r sd .u64 (2 ^ 128) (2 ^ 64) := (C101_speck128_partial r hr sd hsd).not_row (by decide) (by decide)

/-- The truth for AESCounter: the period is `2^129`. -/
theorem C101_aesctr_partial (sd : (Nat → U64) × Option Int) (hsd : ∀ i ∈ sd.2, 0 ≤ i ∧ i < 2 ^ 128) : PeriodJump aesCls () sd .u64 (2 ^ 129) (2 ^ 64) := by
  have hs : (aesSpec true).start () sd = .ok sd := if_pos hsd
  exact periodJump_at (S := aesSpec true) (o := sd) (fun _ => C95_aesctr_partial _) (fun _ => C95_aesctr_partial _) hs (fun _ => rfl)
    (jumpChain_makes hs rfl rfl (by rw [Nat.zero_mul]) cipher_step 1) (tail_zero (cipherWord_period (aesEnc_injective _) _) _ o64_inj) (Nat.one_mul _)

/-- C101 fails for AESCounter: its period is not `2^128`. -/
theorem not_C101_aesctr (sd : (Nat → U64) × Option Int) (hsd : ∀ i ∈ sd.2, 0 ≤ i ∧ i < 2 ^ 128) : ¬ TableRow aesCls () sd .u64 (2 ^ 128) (2 ^ 64) :=
  (C101_aesctr_partial sd hsd).not_row (by decide) (by decide)

/-- The truth for Philox with words of 64 bits: `N` words for each counter, jumps of `2^(32 N)` blocks. The row is about `N = 4`. -/
theorem C101_philox_partial (N : Nat) (hN : N = 2 ∨ N = 4) (hiFirst : Bool) (sd : CtrSeed) (hsd : CtrSeedOk N 64 (N / 2) sd) :
    PeriodJump (ctrCls philoxFam hiFirst true) ⟨N, 64, false⟩ sd .u64 (N * 2 ^ (64 * N)) (N * 2 ^ (64 * N / 2)) := by
  have hw : 64 = 32 ∨ 64 = 64 := .inr rfl
  have ha : ArgsOk N 64 ⟨N, 64, false⟩ := ⟨rfl, .inl ⟨rfl, rfl⟩⟩
  have hs : (ctrSpec philoxFam hiFirst true N 64).start ⟨N, 64, false⟩ sd =
      .ok ((sd.key.map Int.toNat).getD (seqKey (N / 2 * 64) sd.words), (sd.counter.map Int.toNat).getD 0) := by
    show (if _ then ctrOrg N 64 (N / 2) sd else _) = _
    rw [if_pos ⟨show (N : Int) = 2 ∨ (N : Int) = 4 by omega, .inr rfl⟩, ctrOrg]
    exact if_pos hsd
  exact periodJump_at (fun r => C95_philox_counter_partial hN hw hiFirst _ (ctr_argsOk _ ha sd 1 r).1)
    (fun r => C95_philox_counter_partial hN hw hiFirst _ (ctr_argsOk _ ha sd 1 r).2) hs (fun _ => rfl)
    (jumpChain_makes hs rfl (if_pos (by decide)) (by rw [Nat.zero_mul]) (block_step ⟨hN, hw⟩) 1)
    (tail_zero (ctrStream_period ⟨hN, hw⟩ philox _ (philox_perm ⟨hN, hw⟩ _ (toWords_length _ _ _))) _ o64_inj) (Nat.one_mul _)

/-- C101 fails for Philox with its default words: the period is `2^258`, not `2^256`. -/
theorem not_C101_philox (hiFirst : Bool) (sd : CtrSeed) (hsd : CtrSeedOk 4 64 2 sd) :
    ¬ TableRow (ctrCls philoxFam hiFirst true) ⟨4, 64, false⟩ sd .u64 (2 ^ 256) (2 ^ 128) :=
  (C101_philox_partial 4 (.inr rfl) hiFirst sd hsd).not_row (by decide) (by decide)

/-- The truth for ThreeFry with words of 64 bits. -/
theorem C101_threefry_partial (N : Nat) (hN : N = 2 ∨ N = 4) (hiFirst : Bool) (sd : CtrSeed) (hsd : CtrSeedOk N 64 N sd) :
    PeriodJump (ctrCls threefryFam hiFirst true) ⟨N, 64, false⟩ sd .u64 (N * 2 ^ (64 * N)) (N * 2 ^ (64 * N / 2)) := by
  have hw : 64 = 32 ∨ 64 = 64 := .inr rfl
  have ha : ArgsOk N 64 ⟨N, 64, false⟩ := ⟨rfl, .inl ⟨rfl, rfl⟩⟩
  have hs : (ctrSpec threefryFam hiFirst true N 64).start ⟨N, 64, false⟩ sd =
      .ok ((sd.key.map Int.toNat).getD (seqKey (N * 64) sd.words), (sd.counter.map Int.toNat).getD 0) := by
    show (if _ then ctrOrg N 64 N sd else _) = _
    rw [if_pos ⟨show (N : Int) = 2 ∨ (N : Int) = 4 by omega, .inr rfl⟩, ctrOrg]
    exact if_pos hsd
  exact periodJump_at (fun r => C95_threefry_counter_partial hN hw hiFirst _ (ctr_argsOk _ ha sd 1 r).1)
    (fun r => C95_threefry_counter_partial hN hw hiFirst _ (ctr_argsOk _ ha sd 1 r).2) hs (fun _ => rfl)
    (jumpChain_makes hs rfl (if_pos (by decide)) (by rw [Nat.zero_mul]) (block_step ⟨hN, hw⟩) 1)
    (tail_zero (ctrStream_period ⟨hN, hw⟩ threefry _ (threefry_perm ⟨hN, hw⟩ _)) _ o64_inj) (Nat.one_mul _)

/-- C101 fails for ThreeFry with its default words: the period is `2^258`, not `2^256`. -/
theorem not_C101_threefry (hiFirst : Bool) (sd : CtrSeed) (hsd : CtrSeedOk 4 64 4 sd) :
    ¬ TableRow (ctrCls threefryFam hiFirst true) ⟨4, 64, false⟩ sd .u64 (2 ^ 256) (2 ^ 128) :=
  (C101_threefry_partial 4 (.inr rfl) hiFirst sd hsd).not_row (by decide) (by decide)

/-- A generator that jumps by `J` numbers and has no period `J - K` or `K - J` does not jump by `K`. -/
theorem jump_unique {Par Seed St : Type} {C : GCls Par Seed St} {p : Par} {sd : Seed} {o : Op} {P J K : Nat}
    (hP : ∀ d a, (∀ n, C.alone p sd o (n + a + d) = C.alone p sd o (n + a)) → P ∣ d) (hJ : ∀ n, C.afterJump p sd o n = C.alone p sd o (n + (K + J)))
    (hJP : ¬ P ∣ J) : ¬ ∀ n, C.afterJump p sd o n = C.alone p sd o (n + K) := by
  intro h
  refine hJP (hP J K fun n => ?_)
  rw [← h, Nat.add_assoc, ← hJ]

/-- The truth about the jumps of SFMT: `2^129` words of 64 bits. -/
theorem C101_sfmt_partial (gen : Nat → U32) (n : Nat) : sfmtCls.afterJump () gen .u64 n = sfmtCls.alone () gen .u64 (n + 2 ^ 129) := by
  rw [GCls.alone, C95_sfmt_partial, spec_alone (S := sfmtPlaces) (o := gen) (st := fun n => (Nat.pair 0 n, none)) (w := fun n => .o64 (sfmtStream gen n)) rfl (by decide)
    (fun n => by
      have := drawJump_u64 (2 ^ 129) (sfmtStream gen) 0 n
      rw [Nat.zero_mul, Nat.zero_add] at this
      exact this)]
  exact afterJump_val (S := sfmtPlaces) (o := gen) (st := fun i k => (Nat.pair i k, none)) (pl := fun i => i * 2 ^ 129) (w := fun n => .o64 (sfmtStream gen n))
    (fun _ => C95_sfmt_partial _) (fun i _ k => drawJump_u64 _ _ i k)
    (jumpChain_makes rfl rfl (simdJumps_some _ 1 (by decide)) (by decide) (fun i => simd_step 312 i (by decide)) 1) n

/-- C101 fails for SFMT: it does not jump by `2^128` words, from any seed. -/
theorem not_C101_sfmt (gen : Nat → U32) (period : Nat) : ¬ TableRow sfmtCls () gen .u64 period (2 ^ 128) := by
  rintro ⟨_, -, -, h⟩
  have hal : ∀ n, sfmtCls.alone () gen .u64 n = some (.val (.o64 (sfmtStream gen n))) := fun n => by
    rw [GCls.alone, C95_sfmt_partial, spec_alone (S := sfmtPlaces) (o := gen) (st := fun n => (Nat.pair 0 n, none)) (w := fun n => .o64 (sfmtStream gen n)) rfl (by decide)
      (fun n => by
        have := drawJump_u64 (2 ^ 129) (sfmtStream gen) 0 n
        rw [Nat.zero_mul, Nat.zero_add] at this
        exact this)]
  refine jump_unique (P := 2 ^ 19937 - 1) (J := 2 ^ 128) (K := 2 ^ 128) (fun d a h => (C77_sfmt_seeded _ _).2 a d (period_of_shift (sfmt_words gen) a d fun i => ?_))
    (fun n => (C101_sfmt_partial gen n).trans (by rw [show 2 ^ 128 + 2 ^ 128 = 2 ^ 129 by decide])) (not_dvd_small (by decide) (by decide)) h
  have := h i
  rw [hal, hal] at this
  rw [show a + d + i = i + a + d by omega, Nat.add_comm a i]
  exact o64_inj (SRes.val.inj (Option.some.inj this))

/-- The truth about the jumps of DSFMT: `2^129` doubles. -/
theorem C101_dsfmt_partial (gen : Nat → U32) (n : Nat) : dsfmtCls.afterJump () gen .dbl n = dsfmtCls.alone () gen .dbl (n + 2 ^ 129) := by
  rw [GCls.alone, C95_dsfmt_partial, spec_alone (S := dsfmtPlaces) (o := gen) (st := fun n => (Nat.pair 0 n, none))
    (w := fun n => .odbl ((dsfmtStream gen n).toNat % 2 ^ 52 * 2)) rfl (by decide)
    (fun n => by
      have := drawJump_dbl (2 ^ 129) (dsfmtStream gen) 0 n
      rw [Nat.zero_mul, Nat.zero_add] at this
      exact this)]
  exact afterJump_val (S := dsfmtPlaces) (o := gen) (st := fun i k => (Nat.pair i k, none)) (pl := fun i => i * 2 ^ 129)
    (w := fun n => .odbl ((dsfmtStream gen n).toNat % 2 ^ 52 * 2)) (fun _ => C95_dsfmt_partial _) (fun i _ k => drawJump_dbl _ _ i k)
    (jumpChain_makes rfl rfl (simdJumps_some _ 1 (by decide)) (by decide) (fun i => simd_step 382 i (by decide)) 1) n

/-- C101 fails for DSFMT: it does not jump by `2^128` doubles, from any seed. -/
theorem not_C101_dsfmt (gen : Nat → U32) (period : Nat) : ¬ TableRow dsfmtCls () gen .dbl period (2 ^ 128) := by
  rintro ⟨_, -, -, h⟩
  have hal : ∀ n, dsfmtCls.alone () gen .dbl n = some (.val (.odbl ((dsfmtStream gen n).toNat % 2 ^ 52 * 2))) := fun n => by
    rw [GCls.alone, C95_dsfmt_partial, spec_alone (S := dsfmtPlaces) (o := gen) (st := fun n => (Nat.pair 0 n, none))
      (w := fun n => .odbl ((dsfmtStream gen n).toNat % 2 ^ 52 * 2)) rfl (by decide)
      (fun n => by
        have := drawJump_dbl (2 ^ 129) (dsfmtStream gen) 0 n
        rw [Nat.zero_mul, Nat.zero_add] at this
        exact this)]
  refine jump_unique (P := 2 ^ 19937 - 1) (J := 2 ^ 128) (K := 2 ^ 128)
    (fun d a h => (C77_dsfmt_seeded _ _).2 a d (period_of_shift (dsfmt_seed_words gen) a d fun i => ?_))
    (fun n => (C101_dsfmt_partial gen n).trans (by rw [show 2 ^ 128 + 2 ^ 128 = 2 ^ 129 by decide])) (not_dvd_small (by decide) (by decide)) h
  rw [show a + d + i = i + a + d by omega, Nat.add_comm a i]
  refine doubles_agree (u := fun i => dsfmtStream gen (i + a + d)) (v := fun i => dsfmtStream gen (i + a)) (fun i => dsfmtStream_top gen _)
    (fun i => dsfmtStream_top gen _) (fun n => List.map_congr_left fun j _ => ?_) i
  have := h j
  rw [hal, hal] at this
  exact Option.some.inj this

theorem draws_isVal {Par Seed Org : Type} (S : SSpec Par Seed Org) (op : Op) (g : SInst Par Seed Org) (n : Nat) :
    ∃ x, (S.run ⟨[g], []⟩ (List.replicate (n + 1) (.draw 0 op)))[n]? = some (.val x) := by
  induction n generalizing g with
  | zero => exact ⟨_, rfl⟩
  | succ n ih => exact ih { g with at_ := (S.draw g.org op g.at_).2 }

/-- C101 fails for ChaCha: it has no method `jumped`. -/
theorem not_C101_chacha (hiFirst : Bool) (r : Int) (hr : r % 2 = 0 ∧ 0 < r ∧ r < 2 ^ 31) (sd : (Nat → U64) × Option Int)
    (hsd : ∀ i ∈ sd.2, 0 ≤ i ∧ i < 2 ^ 128) (o : Op) (period jump : Nat) : ¬ TableRow (chachaCls hiFirst) r sd o period jump := by
  rintro ⟨_, -, -, h⟩
  have h1 := h 0
  have hs : (chachaSpec false hiFirst).start r sd = .ok (r, sd) := by
    show (if _ then _ else if _ then _ else if _ then _ else _) = _
    rw [if_neg (by omega), if_neg (by omega), if_pos hsd]
  rw [GCls.afterJump, GCls.alone, C95_chacha_partial, C95_chacha_partial, SSpec.program, SSpec.program, SSpec.run, SSpec.run, SSpec.step, hs] at h1
  obtain ⟨x, hx⟩ := draws_isVal (chachaSpec false hiFirst) o ⟨r, sd, (r, sd), 0, none⟩ (0 + jump)
  rw [List.getElem?_cons_succ, List.getElem?_cons_succ] at h1
  have h2 := h1.trans hx
  exact absurd h2 (by
    show ¬ some SRes.noObject = _
    simp)

/-! ### Seeds -/

example : TableRow xo256Cls () (fun i => BitVec.ofNat 64 i) .u64 (2 ^ 256) (2 ^ 128) := C101_xoshiro256 _ ⟨1, by decide, by decide⟩
example : TableRow xo512Cls () (fun i => BitVec.ofNat 64 i) .u64 (2 ^ 512) (2 ^ 256) := C101_xoshiro512 _ ⟨1, by decide, by decide⟩
example : TableRow xoroCls true (fun i => BitVec.ofNat 64 i) .u64 (2 ^ 128) (2 ^ 64) := C101_xoroshiro128 _ _ ⟨1, by decide, by decide⟩
example : TableRow xs1024Cls () (fun i => BitVec.ofNat 64 i) .u64 (2 ^ 1024) (2 ^ 512) := C101_xorshift1024 _ ⟨1, by decide, by decide⟩
example (g : Nat → U64) : ∃ J, GoldenJump (2 ^ 128) J ∧ TableRow pcg64Cls (true, .xslRr) (g, none) .u64 (2 ^ 128) J := C101_pcg64 _ _ _ _ (by decide)
example (ext : Nat → U64 → U64 → U64) (p : LcgArgs) (h1 : p.mult = 47026247687942121848144207491837523525) (h2 : p.out = "xsl-rr")
    (h3 : p.dxsm = 0xda942042e4dd58b5) (sd : (Nat → U64) × Option U128) : ∃ J, GoldenJump (2 ^ 128) J ∧ TableRow (lcgCls ext) p sd .u64 (2 ^ 128) J :=
  C101_lcg128mix ext p h1 (by rw [h2]; simp) (by rw [h3]; decide) _
example : ¬ TableRow lxmCls 3 (fun i => BitVec.ofNat 64 i) .u64 (2 ^ 256) (2 ^ 128) := not_C101_lxm _ _ ⟨1, by decide, by decide⟩
example (g : Nat → U64) : ¬ TableRow aesCls () (g, some 5) .u64 (2 ^ 128) (2 ^ 64) := not_C101_aesctr _ (by intro k hk; cases hk; decide)
example (g : Nat → U64) : ¬ TableRow speckCls 34 (g, some 5) .u64 (2 ^ 128) (2 ^ 64) := not_C101_speck128 34 (by decide) _ (by intro k hk; cases hk; decide)
example (g : Nat → U64) : ¬ TableRow (chachaCls true) 20 (g, some 5) .u64 (2 ^ 128) (2 ^ 64) :=
  not_C101_chacha _ 20 (by decide) _ (by intro k hk; cases hk; decide) _ _ _
example (g : Nat → U64) : ¬ TableRow (ctrCls philoxFam true true) ⟨4, 64, false⟩ ⟨g, none, some 7⟩ .u64 (2 ^ 256) (2 ^ 128) :=
  not_C101_philox _ _ ⟨(by intro k hk; cases hk; decide), (by intro k hk; cases hk)⟩
example (g : Nat → U64) : ¬ TableRow (ctrCls threefryFam true true) ⟨4, 64, false⟩ ⟨g, some 5, none⟩ .u64 (2 ^ 256) (2 ^ 128) :=
  not_C101_threefry _ _ ⟨(by intro k hk; cases hk), (by intro k hk; cases hk; decide)⟩

/-- The nearest integer is meant: rounding down would give an odd number for 64 bits. -/
example : ¬ GoldenJump (2 ^ 64) 11400714819323198485 := by rintro ⟨-, h⟩; exact absurd h (by decide +kernel)

end Verif
