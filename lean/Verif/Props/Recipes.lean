import Verif.Proof.Recipes
import Verif.Props.Session
import Verif.Props.Session3
import Verif.Props.Session4
import Verif.Props.Session6
import Verif.Props.Session7
import Verif.Props.Session9
import Verif.Props.OutputPeriod
import Verif.Props.PcgOutput
import Verif.Props.CtrEquidist

/-! C98: the recipes of parallel.rst make streams that share out the cycle of the generator. -/

namespace Verif

open XorLinear Orbit

theorem tail_zero {γ : Type} {u : Nat → γ} {P : Nat} (h : ∀ d, TailPeriod u 0 d ↔ P ∣ d) (g : γ → Out) (hg : Function.Injective g) (d : Nat) :
    (∀ n, g (u (n + d)) = g (u n)) ↔ P ∣ d := by
  rw [← h d]
  exact ⟨fun h n _ => hg (h n), fun h n => congrArg g (h n (Nat.zero_le _))⟩

theorem o64_inj : Function.Injective Out.o64 := fun _ _ h => by injection h
theorem o32_inj : Function.Injective Out.o32 := fun _ _ h => by injection h

theorem stride_step (J i : Nat) : skipAt ((1 : Int).toNat * J) (i * J, none) = ((i + 1) * J, none) := by
  simp [skipAt, Nat.add_mul]

/-- C98 for Xoshiro256: `jumped()` over and over, up to `2^128` words of each stream. -/
theorem C98_xoshiro256 (g : Nat → U64) (hg : ∃ i < 4, g i ≠ 0) (m : Nat) (hm : (m + 1) * 2 ^ 128 ≤ 2 ^ 256 - 1) :
    ShareOut xo256Cls () g (jumpChain () g m) .u64 m (2 ^ 128) (2 ^ 256 - 1) := by
  have hz : (⟨g 0, g 1, g 2, g 3⟩ : S4) ≠ ⟨0, 0, 0, 0⟩ := by
    intro h
    injection h with h0 h1 h2 h3
    obtain ⟨i, hi, h⟩ := hg
    interval_cases i <;> exact h ‹_›
  exact shareOut_at (S := xo256Spec) (fun _ => C95_xoshiro256 _) (fun _ => C95_xoshiro256 _) rfl (fun _ => rfl) (by rw [Nat.zero_mul])
    (jumpChain_makes rfl rfl rfl (by rw [Nat.zero_mul]) (stride_step _) m) (tail_zero (C78_xoshiro256_period _ hz 0) _ o64_inj) (apart_strides hm (le_refl _))


/-- C98 for Xoshiro512. -/
theorem C98_xoshiro512 (g : Nat → U64) (hg : ∃ i < 8, g i ≠ 0) (m : Nat) (hm : (m + 1) * 2 ^ 256 ≤ 2 ^ 512 - 1) :
    ShareOut xo512Cls () g (jumpChain () g m) .u64 m (2 ^ 256) (2 ^ 512 - 1) := by
  have hz : (⟨g 0, g 1, g 2, g 3, g 4, g 5, g 6, g 7⟩ : S8) ≠ ⟨0, 0, 0, 0, 0, 0, 0, 0⟩ := by
    intro h
    injection h with h0 h1 h2 h3 h4 h5 h6 h7
    obtain ⟨i, hi, h⟩ := hg
    interval_cases i <;> exact h ‹_›
  exact shareOut_at (S := xo512Spec) (fun _ => C95_xoshiro512 _) (fun _ => C95_xoshiro512 _) rfl (fun _ => rfl) (by rw [Nat.zero_mul])
    (jumpChain_makes rfl rfl rfl (by rw [Nat.zero_mul]) (stride_step _) m) (tail_zero (C78_xoshiro512_period _ hz 0) _ o64_inj) (apart_strides hm (le_refl _))

/-- The documented example (parallel.rst:177-183): 8196 streams of Xoshiro512. -/
example : ShareOut xo512Cls () (fun i => BitVec.ofNat 64 i) (jumpChain () (fun i => BitVec.ofNat 64 i) 8195) .u64 8195 (2 ^ 256) (2 ^ 512 - 1) :=
  C98_xoshiro512 _ ⟨1, by decide, by decide⟩ _ (by decide +kernel)

/-- C98 for Xoroshiro128, both variants. -/
theorem C98_xoroshiro128 (pp : Bool) (g : Nat → U64) (hg : ∃ i < 2, g i ≠ 0) (m : Nat) (hm : (m + 1) * 2 ^ 64 ≤ 2 ^ 128 - 1) :
    ShareOut xoroCls pp g (jumpChain pp g m) .u64 m (2 ^ 64) (2 ^ 128 - 1) := by
  have hz : (⟨g 0, g 1⟩ : S2) ≠ ⟨0, 0⟩ := by
    intro h
    injection h with h0 h1
    obtain ⟨i, hi, h⟩ := hg
    interval_cases i <;> exact h ‹_›
  exact shareOut_at (S := xoroSpec) (o := (pp, g)) (fun _ => C95_xoroshiro128 _) (fun _ => C95_xoroshiro128 _) rfl (fun _ => rfl) (by rw [Nat.zero_mul])
    (jumpChain_makes rfl rfl rfl (by rw [Nat.zero_mul]) (stride_step _) m) (tail_zero (C78_xoroshiro128_period pp _ hz 0) _ o64_inj) (apart_strides hm (le_refl _))

/-- C98 for Xorshift1024. -/
theorem C98_xorshift1024 (g : Nat → U64) (hg : ∃ i < 16, g i ≠ 0) (m : Nat) (hm : (m + 1) * 2 ^ 512 ≤ 2 ^ 1024 - 1) :
    ShareOut xs1024Cls () g (jumpChain () g m) .u64 m (2 ^ 512) (2 ^ 1024 - 1) := by
  obtain ⟨i, hi, h⟩ := hg
  exact shareOut_at (S := xs1024Spec) (o := (0, g)) (fun _ => C95_xorshift1024_partial _) (fun _ => C95_xorshift1024_partial _) rfl (fun _ => rfl) (by rw [Nat.zero_mul])
    (jumpChain_makes rfl rfl rfl (by rw [Nat.zero_mul]) (stride_step _) m) (tail_zero (C78_xorshift1024_period _ ⟨⟨i, hi⟩, h⟩ 0) _ o64_inj) (apart_strides hm (le_refl _))

/-- C98 for LXM: the cycle is `2^64` times that of its linear part, and can be shared out whole. -/
theorem C98_lxm (b : U64) (g : Nat → U64) (hg : ∃ i < 4, g i ≠ 0) (m : Nat) (hm : (m + 1) * 2 ^ 128 ≤ (2 ^ 256 - 1) * 2 ^ 64) :
    ShareOut lxmCls b g (jumpChain b g m) .u64 m (2 ^ 128) ((2 ^ 256 - 1) * 2 ^ 64) := by
  have hz : (⟨g 0, g 1, g 2, g 3⟩ : S4) ≠ ⟨0, 0, 0, 0⟩ := by
    intro h
    injection h with h0 h1 h2 h3
    obtain ⟨i, hi, h⟩ := hg
    interval_cases i <;> exact h ‹_›
  have hs : lxmSpec.start b g = .ok (b ||| 1, g) := by
    show (if _ then _ else _) = _
    rw [if_neg]
    rintro ⟨h0, h1, h2, h3⟩
    exact hz (by rw [h0, h1, h2, h3])
  exact shareOut_at (S := lxmSpec) (o := (b ||| 1, g)) (fun _ => C95_lxm _) (fun _ => C95_lxm _) hs (fun _ => rfl) (by rw [Nat.zero_mul])
    (jumpChain_makes hs rfl rfl (by rw [Nat.zero_mul]) (stride_step _) m) (tail_zero (C78_lxm_period ⟨⟨g 0, g 1, g 2, g 3⟩, g 4, b ||| 1⟩ hz (Pcg.or_one_odd' b) 0) _ o64_inj)
    (apart_strides hm (le_refl _))

example : ShareOut xo256Cls () (fun i => BitVec.ofNat 64 i) (jumpChain () (fun i => BitVec.ofNat 64 i) 8195) .u64 8195 (2 ^ 128) (2 ^ 256 - 1) :=
  C98_xoshiro256 _ ⟨1, by decide, by decide⟩ _ (by decide)
example : ShareOut xoroCls true (fun i => BitVec.ofNat 64 i) (jumpChain true (fun i => BitVec.ofNat 64 i) 8195) .u64 8195 (2 ^ 64) (2 ^ 128 - 1) :=
  C98_xoroshiro128 _ _ ⟨1, by decide, by decide⟩ _ (by decide)
example : ShareOut xs1024Cls () (fun i => BitVec.ofNat 64 i) (jumpChain () (fun i => BitVec.ofNat 64 i) 8195) .u64 8195 (2 ^ 512) (2 ^ 1024 - 1) :=
  C98_xorshift1024 _ ⟨1, by decide, by decide⟩ _ (by decide +kernel)
example : ShareOut lxmCls 3 (fun i => BitVec.ofNat 64 i) (jumpChain 3 (fun i => BitVec.ofNat 64 i) 8195) .u64 8195 (2 ^ 128) ((2 ^ 256 - 1) * 2 ^ 64) :=
  C98_lxm _ _ ⟨1, by decide, by decide⟩ _ (by decide)

/-! ### SFMT and DSFMT -/

theorem simd_step (b i : Nat) (hb : 0 < b) : blockJumpAt b 1 (Nat.pair i 0, none) = (Nat.pair (i + 1) 0, none) := by
  rw [blockJumpAt, Nat.unpair_pair, Nat.zero_add, Nat.div_eq_of_lt (by omega), Nat.mul_zero]

/-- C98 for SFMT: `2^129` words of each stream. -/
theorem C98_sfmt (gen : Nat → U32) (m : Nat) (hm : (m + 1) * 2 ^ 129 ≤ 2 ^ 19937 - 1) :
    ShareOut sfmtCls () gen (jumpChain () gen m) .u64 m (2 ^ 129) (2 ^ 19937 - 1) := by
  have h2 : ∀ d, (∀ n, Out.o64 (sfmtStream gen (n + d)) = .o64 (sfmtStream gen n)) → 2 ^ 19937 - 1 ∣ d := fun d h =>
    (C77_sfmt_seeded _ _).2 0 d (period_of_shift (sfmt_words gen) 0 d fun i => by
      rw [Nat.zero_add, Nat.zero_add, Nat.add_comm]; exact o64_inj (h i))
  generalize 2 ^ 19937 - 1 = P at hm h2 ⊢
  exact shareOut_of (S := sfmtPlaces) (o := gen) (st := fun i k => (Nat.pair i k, none)) (pl := fun i => i * 2 ^ 129) (w := fun n => .o64 (sfmtStream gen n))
    (fun _ => C95_sfmt_partial _) (fun _ => C95_sfmt_partial _) rfl (by decide) (Nat.zero_mul _) (fun i _ k => drawJump_u64 _ _ i k)
    (jumpChain_makes rfl rfl (simdJumps_some _ 1 (by decide)) (by decide) (fun i => simd_step 312 i (by decide)) m) h2 (apart_strides hm (le_refl _))

/-- C98 for DSFMT: `2^129` doubles of each stream. -/
theorem C98_dsfmt (gen : Nat → U32) (m : Nat) (hm : (m + 1) * 2 ^ 129 ≤ 2 ^ 19937 - 1) :
    ShareOut dsfmtCls () gen (jumpChain () gen m) .dbl m (2 ^ 129) (2 ^ 19937 - 1) := by
  have h2 : ∀ d, (∀ n, Out.odbl ((dsfmtStream gen (n + d)).toNat % 2 ^ 52 * 2) = .odbl ((dsfmtStream gen n).toNat % 2 ^ 52 * 2)) →
      2 ^ 19937 - 1 ∣ d := fun d h =>
    (C77_dsfmt_seeded _ _).2 0 d (period_of_shift (dsfmt_seed_words gen) 0 d fun i => by
      rw [Nat.zero_add, Nat.zero_add, Nat.add_comm]
      exact doubles_agree (u := fun i => dsfmtStream gen (i + d)) (v := dsfmtStream gen) (fun i => dsfmtStream_top gen _)
        (fun i => dsfmtStream_top gen _) (fun n => List.map_congr_left fun j _ => congrArg SRes.val (h j)) i)
  generalize 2 ^ 19937 - 1 = P at hm h2 ⊢
  exact shareOut_of (S := dsfmtPlaces) (o := gen) (st := fun i k => (Nat.pair i k, none)) (pl := fun i => i * 2 ^ 129)
    (w := fun n => .odbl ((dsfmtStream gen n).toNat % 2 ^ 52 * 2))
    (fun _ => C95_dsfmt_partial _) (fun _ => C95_dsfmt_partial _) rfl (by decide) (Nat.zero_mul _) (fun i _ k => drawJump_dbl _ _ i k)
    (jumpChain_makes rfl rfl (simdJumps_some _ 1 (by decide)) (by decide) (fun i => simd_step 382 i (by decide)) m) h2 (apart_strides hm (le_refl _))

theorem simd_room (m : Nat) (h : m < 2 ^ 64) : (m + 1) * 2 ^ 129 ≤ 2 ^ 19937 - 1 := by
  have h3 : 2 ^ 200 ≤ 2 ^ 19937 := Nat.pow_le_pow_right (by decide) (by decide)
  generalize 2 ^ 19937 = x at h3 ⊢
  omega

example (gen : Nat → U32) : ShareOut sfmtCls () gen (jumpChain () gen 8195) .u64 8195 (2 ^ 129) (2 ^ 19937 - 1) :=
  C98_sfmt gen 8195 (simd_room _ (by decide))
example (gen : Nat → U32) : ShareOut dsfmtCls () gen (jumpChain () gen 8195) .dbl 8195 (2 ^ 129) (2 ^ 19937 - 1) :=
  C98_dsfmt gen 8195 (simd_room _ (by decide))

/-! ### ChaCha -/

/-- C98 fails for ChaCha, which the table lists with jumps of `2^64` (parallel.rst:137): it has no method `jumped`. -/
theorem not_C98_chacha (hiFirst : Bool) (r : Int) (sd : (Nat → U64) × Option Int) (o : Op) (m L P : Nat) (hm : 0 < m) :
    ¬ ShareOut (chachaCls hiFirst) r sd (jumpChain r sd m) o m L P := by
  rintro ⟨-, start, h, -⟩
  have h1 := h [] (by simp)
  obtain ⟨m, rfl⟩ := Nat.exists_eq_add_of_lt hm
  have h2 := congrArg (fun l : List (Option SRes) => (l[0]?, l[1]?)) h1
  rw [C95_chacha_partial, jumpChain, show 0 + m + 1 = m + 1 by omega, List.range_succ_eq_map] at h2
  simp only [List.map_cons, List.cons_append, SSpec.program, SSpec.run, SSpec.step] at h2
  rw [show (chachaSpec false hiFirst).jumped = none from rfl] at h2
  generalize (chachaSpec false hiFirst).start r sd = x at h2
  rcases x with o' | e | _ | _ <;> simp [List.replicate_succ] at h2

/-! ### Jumps by the golden section -/

theorem golden128_step (i : Nat) : skipAt (210306068529402873165736369884012333108 * 1 % 2 ^ 128 : Int).toNat
    (i * 210306068529402873165736369884012333108, none) = ((i + 1) * 210306068529402873165736369884012333108, none) := by
  rw [skipAt, show (210306068529402873165736369884012333108 * 1 % 2 ^ 128 : Int).toNat = 210306068529402873165736369884012333108 by decide, Nat.succ_mul]

theorem golden64_step (i : Nat) : skipAt (11400714819323198486 * 1 % 2 ^ 64 : Int).toNat
    (i * 11400714819323198486, none) = ((i + 1) * 11400714819323198486, none) := by
  rw [skipAt, show (11400714819323198486 * 1 % 2 ^ 64 : Int).toNat = 11400714819323198486 by decide, Nat.succ_mul]

theorem apart_golden128 {m L : Nat} (hm : m ≤ 2 ^ 60) (hL : 3 * (m * L) ≤ 2 ^ 128) (hLN : L ≤ 2 ^ 128) (i j a b : Nat) (hi : i ≤ m) (hj : j ≤ m)
    (ha : a < L) (hb : b < L) (h : i * 210306068529402873165736369884012333108 + a ≡ j * 210306068529402873165736369884012333108 + b [MOD 2 ^ 128]) :
    i = j ∧ a = b :=
  apart_golden (M := 2 ^ 60) (2 ^ 126) (by decide) (by decide) (by decide) (by decide) hm hL hLN i j a b hi hj ha hb h

theorem apart_golden64 {m L : Nat} (hm : m ≤ 2 ^ 31) (hL : 3 * (m * L) ≤ 2 ^ 64) (hLN : L ≤ 2 ^ 64) (i j a b : Nat) (hi : i ≤ m) (hj : j ≤ m)
    (ha : a < L) (hb : b < L) (h : i * 11400714819323198486 + a ≡ j * 11400714819323198486 + b [MOD 2 ^ 64]) : i = j ∧ a = b :=
  apart_golden (M := 2 ^ 31) 1995974887614534116 (by decide) (by decide) (by decide) (by decide) hm hL hLN i j a b hi hj ha hb h

/-- C98 for PCG64, all variants, both modes: `m + 1 ≤ 2^60` streams made by `jumped()` have `2^128 / (3 m)` words each to themselves. -/
theorem C98_pcg64 (np : Bool) (v : Pcg.Variant) (g : Nat → U64) (inc : Option U128) (hv : np = true → v = .xslRr ∧ inc = none) (m L : Nat)
    (hm : m ≤ 2 ^ 60) (hL : 3 * (m * L) ≤ 2 ^ 128) (hLN : L ≤ 2 ^ 128) :
    ShareOut pcg64Cls (np, v) (g, inc) (jumpChain (np, v) (g, inc) m) .u64 m L (2 ^ 128) := by
  have hs : pcg64Spec.start (np, v) (g, inc) = .ok (v, g, inc) := by
    show (if _ then _ else _) = _
    rw [if_neg]
    rintro ⟨h1, h2⟩
    obtain ⟨rfl, rfl⟩ := hv h1
    simp at h2
  refine shareOut_at (S := pcg64Spec) (o := (v, g, inc)) (fun r => C95_pcg64_partial np _ ?_) (fun r => C95_pcg64_partial np _ ?_) hs (fun _ => rfl) (by rw [Nat.zero_mul])
    (jumpChain_makes hs rfl rfl (by rw [Nat.zero_mul]) golden128_step m) (tail_zero ((Pcg.C79_pcg64_seeded v _ _).2 0) _ o64_inj) (apart_golden128 hm hL hLN)
  · intro p sd h
    simp only [jumpChain, List.cons_append, List.mem_cons, List.mem_append, List.mem_map, reduceCtorEq, and_false, exists_false, or_false,
      SOp.new.injEq] at h
    rw [h.1]
  · intro p sd h
    simp only [List.mem_cons, List.mem_map, reduceCtorEq, and_false, exists_false, or_false, SOp.new.injEq] at h
    rw [h.1]

/-- C98 for PCG64DXSM. -/
theorem C98_pcg64dxsm (sd : (Nat → U64) × Option U128) (m L : Nat) (hm : m ≤ 2 ^ 60) (hL : 3 * (m * L) ≤ 2 ^ 128) (hLN : L ≤ 2 ^ 128) :
    ShareOut pcg64DxsmCls () sd (jumpChain () sd m) .u64 m L (2 ^ 128) :=
  shareOut_at (S := pcg64DxsmSpec) (o := sd) (fun _ => C95_pcg64dxsm _) (fun _ => C95_pcg64dxsm _) rfl (fun _ => rfl) (by rw [Nat.zero_mul])
    (jumpChain_makes rfl rfl rfl (by rw [Nat.zero_mul]) golden128_step m) (tail_zero ((Pcg.C79_pcg64_seeded .cmDxsm _ _).2 0) _ o64_inj) (apart_golden128 hm hL hLN)

/-- C98 for PCG32: its words have 32 bits. -/
theorem C98_pcg32 (hiFirst : Bool) (sd : (Nat → U64) × Option U64) (m L : Nat) (hm : m ≤ 2 ^ 31) (hL : 3 * (m * L) ≤ 2 ^ 64) (hLN : L ≤ 2 ^ 64) :
    ShareOut (pcg32Cls hiFirst) () sd (jumpChain () sd m) .u32 m L (2 ^ 64) :=
  shareOut_at (S := pcg32Spec hiFirst) (o := sd) (fun _ => C95_pcg32 _ _) (fun _ => C95_pcg32 _ _) rfl (fun _ => rfl) (by rw [Nat.zero_mul])
    (jumpChain_makes rfl rfl rfl (by rw [Nat.zero_mul]) golden64_step m) (tail_zero ((Pcg32.C79_pcg32_seeded _ _).2 0) _ o32_inj) (apart_golden64 hm hL hLN)

/-- C98 for LCG128Mix with the default multiplier and any built-in output function but `lower`, whose words repeat after `2^64` draws
(C79). -/
theorem C98_lcg128mix (ext : Nat → U64 → U64 → U64) (p : LcgArgs) (hp : p.mult = 47026247687942121848144207491837523525)
    (ho : p.out ∈ ["xsl-rr", "dxsm", "murmur3", "upper"]) (hd : 0 < p.dxsm ∧ p.dxsm < 2 ^ 64 ∧ p.dxsm % 2 = 1)
    (sd : (Nat → U64) × Option U128) (m L : Nat) (hm : m ≤ 2 ^ 60) (hL : 3 * (m * L) ≤ 2 ^ 128) (hLN : L ≤ 2 ^ 128) :
    ShareOut (lcgCls ext) p sd (jumpChain p sd m) .u64 m L (2 ^ 128) := by
  have hs : lcgSpec.start p sd = .ok ⟨BitVec.ofInt 128 p.mult, BitVec.ofInt 64 p.dxsm, p.post, p.out, sd⟩ := by
    show (if _ then _ else _) = _
    rw [if_pos]
    refine ⟨?_, by rw [hp]; decide, hd⟩
    simp only [List.mem_cons, List.not_mem_nil, or_false] at ho ⊢
    tauto
  have hP : ∀ d, TailPeriod (lcgWord ⟨BitVec.ofInt 128 p.mult, BitVec.ofInt 64 p.dxsm, p.post, p.out, sd⟩) 0 d ↔ 2 ^ 128 ∣ d := fun d => by
    have h := Lcg128.C79_lcg128_period (lcgCore ⟨BitVec.ofInt 128 p.mult, BitVec.ofInt 64 p.dxsm, p.post, p.out, sd⟩) (by
        show (BitVec.ofInt 128 p.mult).toNat % 4 = 1
        rw [hp]; decide) (or_one_odd (by decide) _) (by
        show (BitVec.ofInt 64 p.dxsm).toNat % 2 = 1
        rw [BitVec.toNat_ofInt]
        omega) (fun f => by
        show lcgOutput p.out ≠ _
        unfold lcgOutput
        split_ifs <;> simp) (by
        show lcgOutput p.out ≠ _
        simp only [List.mem_cons, List.not_mem_nil, or_false] at ho
        rcases ho with h | h | h | h <;> rw [h] <;> simp [lcgOutput]) 0 d
    simpa only [lcgWord_eq] using h
  refine shareOut_at (S := lcgSpec) (fun r => C95_lcg128mix_partial ext p.mult _ ?_ (.inl hp)) (fun r => C95_lcg128mix_partial ext p.mult _ ?_ (.inl hp)) hs (fun _ => rfl) (by rw [Nat.zero_mul])
    (jumpChain_makes hs rfl rfl (by rw [Nat.zero_mul]) golden128_step m) (tail_zero hP _ o64_inj) (apart_golden128 hm hL hLN)
  · intro p' sd h
    simp only [jumpChain, List.cons_append, List.mem_cons, List.mem_append, List.mem_map, reduceCtorEq, and_false, exists_false, or_false,
      SOp.new.injEq] at h
    rw [h.1]
  · intro p' sd h
    simp only [List.mem_cons, List.mem_map, reduceCtorEq, and_false, exists_false, or_false, SOp.new.injEq] at h
    rw [h.1]

/-- 8196 streams of PCG64 have more than `2^113` words each, those of PCG32 more than `2^49`. -/
example (g : Nat → U64) : ShareOut pcg64Cls (false, .cmDxsm) (g, some 5) (jumpChain (false, .cmDxsm) (g, some 5) 8195) .u64 8195 (2 ^ 113) (2 ^ 128) :=
  C98_pcg64 _ _ _ _ (by decide) _ _ (by decide) (by decide) (by decide)
example (g : Nat → U64) : ShareOut pcg64Cls (true, .xslRr) (g, none) (jumpChain (true, .xslRr) (g, none) 8195) .u64 8195 (2 ^ 113) (2 ^ 128) :=
  C98_pcg64 _ _ _ _ (by decide) _ _ (by decide) (by decide) (by decide)
example (sd : (Nat → U64) × Option U128) : ShareOut pcg64DxsmCls () sd (jumpChain () sd 8195) .u64 8195 (2 ^ 113) (2 ^ 128) :=
  C98_pcg64dxsm _ _ _ (by decide) (by decide) (by decide)
example (sd : (Nat → U64) × Option U64) : ShareOut (pcg32Cls true) () sd (jumpChain () sd 8195) .u32 8195 (2 ^ 49) (2 ^ 64) :=
  C98_pcg32 _ _ _ _ (by decide) (by decide) (by decide)
example (ext : Nat → U64 → U64 → U64) (p : LcgArgs) (h1 : p.mult = 47026247687942121848144207491837523525) (h2 : p.out = "xsl-rr")
    (h3 : p.dxsm = 0xda942042e4dd58b5) (sd : (Nat → U64) × Option U128) :
    ShareOut (lcgCls ext) p sd (jumpChain p sd 8195) .u64 8195 (2 ^ 113) (2 ^ 128) :=
  C98_lcg128mix ext p h1 (by rw [h2]; simp) (by rw [h3]; decide) _ _ _ (by decide) (by decide) (by decide)

/-! ### Block ciphers -/

theorem cipherWord_ctrWord (enc : Ctr → Ctr) (c n : Nat) : cipherWord enc c n = ctrWord enc ((dbl (BitVec.ofNat 128 c)).toNat + n) := by
  rw [← wordAt_cipherWord, ctrWord, BitVec.ofNat_add, BitVec.ofNat_toNat, BitVec.setWidth_eq]

theorem cipherWord_period {enc : Ctr → Ctr} (henc : Function.Injective enc) (c d : Nat) : TailPeriod (cipherWord enc c) 0 d ↔ 2 ^ 129 ∣ d := by
  have h := Blocks.period (N := 2) (M := 2 ^ 128) (by decide) (by decide) (by decide) (ctrWord_period enc) (ctrWord_inj henc)
    ((dbl (BitVec.ofNat 128 c)).toNat) d
  rw [show 2 * 2 ^ 128 = 2 ^ 129 by norm_num] at h
  rw [← h]
  simp only [TailPeriod, cipherWord_ctrWord]
  constructor
  · intro h1 k hk
    have := h1 (k - (dbl (BitVec.ofNat 128 c)).toNat) (Nat.zero_le _)
    rwa [show (dbl (BitVec.ofNat 128 c)).toNat + (k - (dbl (BitVec.ofNat 128 c)).toNat + d) = k + d by omega,
      show (dbl (BitVec.ofNat 128 c)).toNat + (k - (dbl (BitVec.ofNat 128 c)).toNat) = k by omega] at this
  · intro h1 k _
    rw [← Nat.add_assoc]
    exact h1 _ (by omega)

theorem cipher_step (i : Nat) : skip129 true (1 * 2 ^ 64) (i * 2 ^ 64, none) = ((i + 1) * 2 ^ 64, none) := by
  have e : ((1 * 2 ^ 64 : Int) % 2 ^ 129).toNat = 2 ^ 64 := by decide
  rw [skip129, if_neg (by decide), skipAt, e, Nat.succ_mul]

theorem skip129_fresh (k : Nat) : skip129 true (k : Int) (0, none) = (k % 2 ^ 129, none) := by
  have e : ((k : Int) % 2 ^ 129).toNat = k % 2 ^ 129 := by omega
  rw [skip129, skipAt, e, Nat.zero_add]
  split
  · next h =>
    have : (k : Int) % 2 ^ 129 = 0 := by simpa using h
    rw [show k % 2 ^ 129 = 0 by omega]
  · rfl

theorem apart_mod {P m L : Nat} {pl : Nat → Nat}
    (h : ∀ i j a b, i ≤ m → j ≤ m → a < L → b < L → pl i + a ≡ pl j + b [MOD P] → i = j ∧ a = b) (i j a b : Nat) (hi : i ≤ m) (hj : j ≤ m)
    (ha : a < L) (hb : b < L) (e : pl i % P + a ≡ pl j % P + b [MOD P]) : i = j ∧ a = b :=
  h i j a b hi hj ha hb (((Nat.mod_modEq _ _).symm.add_right a).trans (e.trans ((Nat.mod_modEq _ _).add_right b)))

/-- C98 for SPECK128 and `jumped()`: `2^64` words of each stream. -/
theorem C98_speck128 (r : Int) (hr : 1 ≤ r ∧ r ≤ 34) (sd : (Nat → U64) × Option Int) (hsd : ∀ i ∈ sd.2, 0 ≤ i ∧ i < 2 ^ 128) (m : Nat)
    (hm : m + 1 ≤ 2 ^ 65) : ShareOut speckCls r sd (jumpChain r sd m) .u64 m (2 ^ 64) (2 ^ 129) := by
  have hs : (speckSpec true).start r sd = .ok (r, sd) := if_pos ⟨hr, hsd⟩
  exact shareOut_at (S := speckSpec true) (o := (r, sd)) (fun _ => C95_speck128_partial _) (fun _ => C95_speck128_partial _) hs (fun _ => rfl) (by rw [Nat.zero_mul])
    (jumpChain_makes hs rfl rfl (by rw [Nat.zero_mul]) cipher_step m) (tail_zero (cipherWord_period (speckEnc_injective _ _) _) _ o64_inj) (apart_strides (by omega) (le_refl _))

/-- C98 for AESCounter and `jumped()`. -/
theorem C98_aesctr (sd : (Nat → U64) × Option Int) (hsd : ∀ i ∈ sd.2, 0 ≤ i ∧ i < 2 ^ 128) (m : Nat)
    (hm : m + 1 ≤ 2 ^ 65) : ShareOut aesCls () sd (jumpChain () sd m) .u64 m (2 ^ 64) (2 ^ 129) := by
  have hs : (aesSpec true).start () sd = .ok sd := if_pos hsd
  exact shareOut_at (S := aesSpec true) (o := sd) (fun _ => C95_aesctr_partial _) (fun _ => C95_aesctr_partial _) hs (fun _ => rfl) (by rw [Nat.zero_mul])
    (jumpChain_makes hs rfl rfl (by rw [Nat.zero_mul]) cipher_step m) (tail_zero (cipherWord_period (aesEnc_injective _) _) _ o64_inj) (apart_strides (by omega) (le_refl _))

example (sd : (Nat → U64) × Option Int) (hsd : ∀ i ∈ sd.2, 0 ≤ i ∧ i < 2 ^ 128) : ShareOut speckCls 34 sd (jumpChain 34 sd 8195) .u64 8195 (2 ^ 64) (2 ^ 129) :=
  C98_speck128 34 (by decide) sd hsd 8195 (by decide)
example (g : Nat → U64) : ShareOut aesCls () (g, some 3) (jumpChain () (g, some 3) 8195) .u64 8195 (2 ^ 64) (2 ^ 129) :=
  C98_aesctr _ (by simp) 8195 (by decide)

/-- C98 for SPECK128 and `advance(i * step)`, any step: `step` words of each stream. -/
theorem C98_speck128_advance (r : Int) (hr : 1 ≤ r ∧ r ≤ 34) (sd : (Nat → U64) × Option Int) (hsd : ∀ i ∈ sd.2, 0 ≤ i ∧ i < 2 ^ 128) (step m : Nat)
    (hm : (m + 1) * step ≤ 2 ^ 129) : ShareOut speckCls r sd (advanceFan r sd step m) .u64 m step (2 ^ 129) := by
  have hs : (speckSpec true).start r sd = .ok (r, sd) := if_pos ⟨hr, hsd⟩
  exact shareOut_at (S := speckSpec true) (o := (r, sd)) (fun _ => C95_speck128_partial _) (fun _ => C95_speck128_partial _) hs (fun _ => rfl) (pl := fun i => i * step % 2 ^ 129) (by simp)
    (advanceFan_makes hs rfl (fun _ => rfl) (by simp) (fun i => skip129_fresh ((i + 1) * step)) m)
    (tail_zero (cipherWord_period (speckEnc_injective _ _) _) _ o64_inj) (apart_mod (apart_strides hm (le_refl _)))

/-- C98 for AESCounter and `advance(i * step)`. -/
theorem C98_aesctr_advance (sd : (Nat → U64) × Option Int) (hsd : ∀ i ∈ sd.2, 0 ≤ i ∧ i < 2 ^ 128) (step m : Nat)
    (hm : (m + 1) * step ≤ 2 ^ 129) : ShareOut aesCls () sd (advanceFan () sd step m) .u64 m step (2 ^ 129) := by
  have hs : (aesSpec true).start () sd = .ok sd := if_pos hsd
  exact shareOut_at (S := aesSpec true) (o := sd) (fun _ => C95_aesctr_partial _) (fun _ => C95_aesctr_partial _) hs (fun _ => rfl) (pl := fun i => i * step % 2 ^ 129) (by simp)
    (advanceFan_makes hs rfl (fun _ => rfl) (by simp) (fun i => skip129_fresh ((i + 1) * step)) m)
    (tail_zero (cipherWord_period (aesEnc_injective _) _) _ o64_inj) (apart_mod (apart_strides hm (le_refl _)))

example (g : Nat → U64) : ShareOut aesCls () (g, none) (advanceFan () (g, none) (1000 : Nat) 8195) .u64 8195 1000 (2 ^ 129) :=
  C98_aesctr_advance _ (by simp) 1000 8195 (by decide)

/-- The documented example, `int(PHI * 2**96)` and 8196 streams: each has as many words to itself as the step. -/
example (sd : (Nat → U64) × Option Int) (hsd : ∀ i ∈ sd.2, 0 ≤ i ∧ i < 2 ^ 128) : ShareOut speckCls 34 sd
    (advanceFan 34 sd 48965697300015690655043944448 8195) .u64 8195 48965697300015690655043944448 (2 ^ 129) :=
  C98_speck128_advance 34 (by decide) sd hsd 48965697300015690655043944448 8195 (by decide)

/-! ### Philox and ThreeFry -/

section
variable {w N kN : Nat} (V : Variant N w) (blk : List (BitVec w) → List (BitVec w) → List (BitVec w))
include V

theorem ctrStream_period (o : Nat × Nat) (hb : PermN N (fun c => blk c (toWords w kN o.1))) (d : Nat) :
    TailPeriod (ctrStream N kN blk o) 0 d ↔ N * 2 ^ (w * N) ∣ d := by
  have hN : N ∣ 2 ^ (w * N) :=
    (Dvd.intro _ V.pow_eq.symm).trans (pow_dvd_pow 2 (Nat.le_mul_of_pos_right w V.N_pos))
  rw [← Blocks.period V.N_pos (Nat.two_pow_pos _) hN (cmWord_period blk (toWords w kN o.1)) (cmWord_blocks V blk hb) (N * (o.2 + 1)) d]
  simp only [TailPeriod, ← cmWord_eq V (blk := blk) (kN := kN)]
  constructor
  · intro h1 k hk
    have := h1 (k - N * (o.2 + 1)) (Nat.zero_le _)
    rwa [show N * (o.2 + 1) + (k - N * (o.2 + 1) + d) = k + d by omega, show N * (o.2 + 1) + (k - N * (o.2 + 1)) = k by omega] at this
  · intro h1 k hk
    rw [← Nat.add_assoc]
    exact h1 _ (by omega)

omit blk in
theorem block_step (i : Nat) : blockSkip N w (1 * 2 ^ (w * N / 2)) (i * (N * 2 ^ (w * N / 2)), none) = ((i + 1) * (N * 2 ^ (w * N / 2)), none) := by
  rw [blockSkip, if_neg (by positivity)]
  have hN := V.N_pos
  have h1 : (i * (N * 2 ^ (w * N / 2)) + N - 1) / N = i * 2 ^ (w * N / 2) := by
    rw [show i * (N * 2 ^ (w * N / 2)) + N - 1 = N * (i * 2 ^ (w * N / 2)) + (N - 1) by rw [Nat.add_sub_assoc hN]; ring,
      Nat.mul_add_div hN, Nat.div_eq_of_lt (show N - 1 < N by omega), Nat.add_zero]
  have h2 : (1 * 2 ^ (w * N / 2) % 2 ^ (w * N - N / 2) : Int).toNat = 2 ^ (w * N / 2) := by
    rcases V.hN with rfl | rfl <;> rcases V.hw with rfl | rfl <;> decide
  rw [h1, h2]
  simp only [Prod.mk.injEq, and_true]
  ring

end

theorem ctr_argsOk {N w : Nat} (p : CtrArgs) (hp : ArgsOk N w p) (sd : CtrSeed) (m : Nat) (r : List (Nat × Op)) :
    (∀ q sd', .new q sd' ∈ jumpChain p sd m ++ r.map (fun r => .draw r.1 r.2) → ArgsOk N w q) ∧
      ∀ q sd', .new q sd' ∈ (.new p sd :: r.map fun r => .draw r.1 r.2 : List (SOp CtrArgs CtrSeed)) → ArgsOk N w q := by
  constructor
  · intro q sd' h
    simp only [jumpChain, List.cons_append, List.mem_cons, List.mem_append, List.mem_map, reduceCtorEq, and_false, exists_false, or_false,
      SOp.new.injEq] at h
    rwa [h.1]
  · intro q sd' h
    simp only [List.mem_cons, List.mem_map, reduceCtorEq, and_false, exists_false, or_false, SOp.new.injEq] at h
    rwa [h.1]

theorem room (N w m : Nat) (hN : N = 2 ∨ N = 4) (hm : m + 1 ≤ 2 ^ (w * N / 2)) : (m + 1) * (N * 2 ^ (w * N / 2)) ≤ N * 2 ^ (w * N) := by
  have e : w * N = w * N / 2 + w * N / 2 := by rcases hN with rfl | rfl <;> omega
  calc (m + 1) * (N * 2 ^ (w * N / 2)) ≤ 2 ^ (w * N / 2) * (N * 2 ^ (w * N / 2)) := Nat.mul_le_mul_right _ hm
    _ = N * 2 ^ (w * N / 2 + w * N / 2) := by rw [pow_add]; ring
    _ = _ := by rw [← e]

/-- The keys and counters the constructors accept. -/
def CtrSeedOk (N w kN : Nat) (sd : CtrSeed) : Prop := (∀ k ∈ sd.key, 0 ≤ k ∧ k < 2 ^ (kN * w)) ∧ (∀ c ∈ sd.counter, 0 ≤ c ∧ c < 2 ^ (N * w))

/-- C98 for Philox with words of 64 bits: `N * 2^(32 N)` words of each of up to `2^(32 N)` streams. -/
theorem C98_philox64 (N : Nat) (hN : N = 2 ∨ N = 4) (hiFirst : Bool) (sd : CtrSeed) (hsd : CtrSeedOk N 64 (N / 2) sd) (m : Nat)
    (hm : m + 1 ≤ 2 ^ (64 * N / 2)) :
    ShareOut (ctrCls philoxFam hiFirst true) ⟨N, 64, false⟩ sd (jumpChain ⟨N, 64, false⟩ sd m) .u64 m (N * 2 ^ (64 * N / 2)) (N * 2 ^ (64 * N)) := by
  have hw : 64 = 32 ∨ 64 = 64 := .inr rfl
  have ha : ArgsOk N 64 ⟨N, 64, false⟩ := ⟨rfl, .inl ⟨rfl, rfl⟩⟩
  have hs : (ctrSpec philoxFam hiFirst true N 64).start ⟨N, 64, false⟩ sd =
      .ok ((sd.key.map Int.toNat).getD (seqKey (N / 2 * 64) sd.words), (sd.counter.map Int.toNat).getD 0) := by
    show (if _ then ctrOrg N 64 (N / 2) sd else _) = _
    rw [if_pos ⟨show (N : Int) = 2 ∨ (N : Int) = 4 by omega, .inr rfl⟩, ctrOrg]
    exact if_pos hsd
  exact shareOut_at (fun r => C95_philox_counter_partial hN hw hiFirst _ (ctr_argsOk _ ha sd m r).1)
    (fun r => C95_philox_counter_partial hN hw hiFirst _ (ctr_argsOk _ ha sd m r).2) hs (fun _ => rfl) (by rw [Nat.zero_mul])
    (jumpChain_makes hs rfl (if_pos (by decide)) (by rw [Nat.zero_mul]) (block_step ⟨hN, hw⟩) m)
    (tail_zero (ctrStream_period ⟨hN, hw⟩ philox _ (philox_perm ⟨hN, hw⟩ _ (toWords_length _ _ _))) _ o64_inj) (apart_strides (room N 64 m hN hm) (le_refl _))

/-- C98 for Philox with words of 32 bits. -/
theorem C98_philox32 (N : Nat) (hN : N = 2 ∨ N = 4) (hiFirst : Bool) (sd : CtrSeed) (hsd : CtrSeedOk N 32 (N / 2) sd) (m : Nat)
    (hm : m + 1 ≤ 2 ^ (32 * N / 2)) :
    ShareOut (ctrCls philoxFam hiFirst true) ⟨N, 32, false⟩ sd (jumpChain ⟨N, 32, false⟩ sd m) .u32 m (N * 2 ^ (32 * N / 2)) (N * 2 ^ (32 * N)) := by
  have hw : 32 = 32 ∨ 32 = 64 := .inl rfl
  have ha : ArgsOk N 32 ⟨N, 32, false⟩ := ⟨rfl, .inl ⟨rfl, rfl⟩⟩
  have hs : (ctrSpec philoxFam hiFirst true N 32).start ⟨N, 32, false⟩ sd =
      .ok ((sd.key.map Int.toNat).getD (seqKey (N / 2 * 32) sd.words), (sd.counter.map Int.toNat).getD 0) := by
    show (if _ then ctrOrg N 32 (N / 2) sd else _) = _
    rw [if_pos ⟨show (N : Int) = 2 ∨ (N : Int) = 4 by omega, .inl rfl⟩, ctrOrg]
    exact if_pos hsd
  exact shareOut_at (fun r => C95_philox_counter_partial hN hw hiFirst _ (ctr_argsOk _ ha sd m r).1)
    (fun r => C95_philox_counter_partial hN hw hiFirst _ (ctr_argsOk _ ha sd m r).2) hs (fun _ => rfl) (by rw [Nat.zero_mul])
    (jumpChain_makes hs rfl (if_pos (by decide)) (by rw [Nat.zero_mul]) (block_step ⟨hN, hw⟩) m)
    (tail_zero (ctrStream_period ⟨hN, hw⟩ philox _ (philox_perm ⟨hN, hw⟩ _ (toWords_length _ _ _))) _ o32_inj) (apart_strides (room N 32 m hN hm) (le_refl _))

/-- C98 for ThreeFry with words of 64 bits. -/
theorem C98_threefry64 (N : Nat) (hN : N = 2 ∨ N = 4) (hiFirst : Bool) (sd : CtrSeed) (hsd : CtrSeedOk N 64 N sd) (m : Nat)
    (hm : m + 1 ≤ 2 ^ (64 * N / 2)) :
    ShareOut (ctrCls threefryFam hiFirst true) ⟨N, 64, false⟩ sd (jumpChain ⟨N, 64, false⟩ sd m) .u64 m (N * 2 ^ (64 * N / 2)) (N * 2 ^ (64 * N)) := by
  have hw : 64 = 32 ∨ 64 = 64 := .inr rfl
  have ha : ArgsOk N 64 ⟨N, 64, false⟩ := ⟨rfl, .inl ⟨rfl, rfl⟩⟩
  have hs : (ctrSpec threefryFam hiFirst true N 64).start ⟨N, 64, false⟩ sd =
      .ok ((sd.key.map Int.toNat).getD (seqKey (N * 64) sd.words), (sd.counter.map Int.toNat).getD 0) := by
    show (if _ then ctrOrg N 64 N sd else _) = _
    rw [if_pos ⟨show (N : Int) = 2 ∨ (N : Int) = 4 by omega, .inr rfl⟩, ctrOrg]
    exact if_pos hsd
  exact shareOut_at (fun r => C95_threefry_counter_partial hN hw hiFirst _ (ctr_argsOk _ ha sd m r).1)
    (fun r => C95_threefry_counter_partial hN hw hiFirst _ (ctr_argsOk _ ha sd m r).2) hs (fun _ => rfl) (by rw [Nat.zero_mul])
    (jumpChain_makes hs rfl (if_pos (by decide)) (by rw [Nat.zero_mul]) (block_step ⟨hN, hw⟩) m)
    (tail_zero (ctrStream_period ⟨hN, hw⟩ threefry _ (threefry_perm ⟨hN, hw⟩ _)) _ o64_inj) (apart_strides (room N 64 m hN hm) (le_refl _))

/-- C98 for ThreeFry with words of 32 bits. -/
theorem C98_threefry32 (N : Nat) (hN : N = 2 ∨ N = 4) (hiFirst : Bool) (sd : CtrSeed) (hsd : CtrSeedOk N 32 N sd) (m : Nat)
    (hm : m + 1 ≤ 2 ^ (32 * N / 2)) :
    ShareOut (ctrCls threefryFam hiFirst true) ⟨N, 32, false⟩ sd (jumpChain ⟨N, 32, false⟩ sd m) .u32 m (N * 2 ^ (32 * N / 2)) (N * 2 ^ (32 * N)) := by
  have hw : 32 = 32 ∨ 32 = 64 := .inl rfl
  have ha : ArgsOk N 32 ⟨N, 32, false⟩ := ⟨rfl, .inl ⟨rfl, rfl⟩⟩
  have hs : (ctrSpec threefryFam hiFirst true N 32).start ⟨N, 32, false⟩ sd =
      .ok ((sd.key.map Int.toNat).getD (seqKey (N * 32) sd.words), (sd.counter.map Int.toNat).getD 0) := by
    show (if _ then ctrOrg N 32 N sd else _) = _
    rw [if_pos ⟨show (N : Int) = 2 ∨ (N : Int) = 4 by omega, .inl rfl⟩, ctrOrg]
    exact if_pos hsd
  exact shareOut_at (fun r => C95_threefry_counter_partial hN hw hiFirst _ (ctr_argsOk _ ha sd m r).1)
    (fun r => C95_threefry_counter_partial hN hw hiFirst _ (ctr_argsOk _ ha sd m r).2) hs (fun _ => rfl) (by rw [Nat.zero_mul])
    (jumpChain_makes hs rfl (if_pos (by decide)) (by rw [Nat.zero_mul]) (block_step ⟨hN, hw⟩) m)
    (tail_zero (ctrStream_period ⟨hN, hw⟩ threefry _ (threefry_perm ⟨hN, hw⟩ _)) _ o32_inj) (apart_strides (room N 32 m hN hm) (le_refl _))

example (g : Nat → U64) : ShareOut (ctrCls philoxFam true true) ⟨4, 64, false⟩ ⟨g, none, none⟩ (jumpChain ⟨4, 64, false⟩ ⟨g, none, none⟩ 8195) .u64
    8195 (4 * 2 ^ 128) (4 * 2 ^ 256) :=
  C98_philox64 4 (.inr rfl) _ _ ⟨by simp, by simp⟩ _ (by decide)
example (g : Nat → U64) : ShareOut (ctrCls philoxFam true true) ⟨2, 32, false⟩ ⟨g, some 7, some 9⟩ (jumpChain ⟨2, 32, false⟩ ⟨g, some 7, some 9⟩ 8195) .u32
    8195 (2 * 2 ^ 32) (2 * 2 ^ 64) :=
  C98_philox32 2 (.inl rfl) _ _ ⟨by simp, by simp⟩ _ (by decide)
example (g : Nat → U64) : ShareOut (ctrCls threefryFam true true) ⟨4, 64, false⟩ ⟨g, none, some 1⟩ (jumpChain ⟨4, 64, false⟩ ⟨g, none, some 1⟩ 8195) .u64
    8195 (4 * 2 ^ 128) (4 * 2 ^ 256) :=
  C98_threefry64 4 (.inr rfl) _ _ ⟨by simp, by simp⟩ _ (by decide)
example (g : Nat → U64) : ShareOut (ctrCls threefryFam true true) ⟨4, 32, false⟩ ⟨g, none, none⟩ (jumpChain ⟨4, 32, false⟩ ⟨g, none, none⟩ 8195) .u32
    8195 (4 * 2 ^ 64) (4 * 2 ^ 128) :=
  C98_threefry32 4 (.inr rfl) _ _ ⟨by simp, by simp⟩ _ (by decide)

end Verif
