import Verif.Props.Recipes
import Verif.Props.SeedSeq
import Verif.Props.ZeroSeeds
import Verif.Props.Chaotic

/-! C99: different seeds give different streams. -/

namespace Verif

open XorLinear Orbit Linear

/-- Two points of one cycle whose outputs have the period of the cycle give the same outputs only if they are the same. -/
theorem same_outputs {α γ : Type} {f : α → α} {N : Nat} (hN : 0 < N) {A : Set α} (hA : Nat.card A = N) (hf : ∀ s ∈ A, f s ∈ A) {x y : α} (hx : x ∈ A)
    (hy : y ∈ A) (hp : ∀ n, f^[n] x = x ↔ N ∣ n) {u : α → γ} (ho : ∀ d, TailPeriod (fun k => u (f^[k] x)) 0 d ↔ N ∣ d)
    (h : ∀ n, u (f^[n] x) = u (f^[n] y)) : x = y := by
  obtain ⟨k, _, rfl⟩ := orbit_bij hN hA hf hx hp y hy
  refine ((hp k).2 ((ho k).1 fun n _ => ?_)).symm
  show u (f^[n + k] x) = u (f^[n] x)
  rw [Function.iterate_add_apply, h]

section
variable {Par Seed St Org : Type} {C : GCls Par Seed St} {S : SSpec Par Seed Org} {p : Par} {sd sd' : Seed} {o o' : Org} {op : Op}

/-- What two lone generators draw, through the worlds of places. -/
theorem alone_iff {γ : Type} {v v' : Nat → γ} {g : γ → Out} (hg : Function.Injective g)
    (hA : ∀ sd (rest : List (Nat × Op)), C.program (.new p sd :: rest.map fun r => .draw r.1 r.2) = S.program (.new p sd :: rest.map fun r => .draw r.1 r.2))
    (hs : S.start p sd = .ok o) (hs' : S.start p sd' = .ok o') (hd : ∀ n, S.draw o op (n, none) = (g (v n), n + 1, none))
    (hd' : ∀ n, S.draw o' op (n, none) = (g (v' n), n + 1, none)) (n : Nat) :
    C.alone p sd op n = C.alone p sd' op n ↔ v n = v' n := by
  rw [alone_val (hA sd) hs hd, alone_val (hA sd') hs' hd']
  constructor
  · intro h
    exact hg (SRes.val.inj (Option.some.inj h))
  · intro h
    rw [h]

end

/-! ### Seeds as the state -/

/-- C99 for Xoshiro256: the first four draws determine the four words of the seed. -/
theorem C99_xoshiro256 (g h : Nat → U64) :
    (∀ n < 4, xo256Cls.alone () g .u64 n = xo256Cls.alone () h .u64 n) ↔ ∀ i < 4, g i = h i := by
  have key := fun n => alone_iff (C := xo256Cls) (S := xo256Spec) (p := ()) (sd := g) (sd' := h) (op := .u64) o64_inj (fun _ _ => C95_xoshiro256 _) rfl rfl (fun _ => rfl)
    (fun _ => rfl) n
  simp only [key]
  constructor
  · intro e
    have := xosh256_inj (a₁ := ⟨g 0, g 1, g 2, g 3⟩) (a₂ := ⟨h 0, h 1, h 2, h 3⟩) (funext fun i => e i i.isLt)
    injection this with h0 h1 h2 h3
    intro i hi
    interval_cases i <;> assumption
  · intro e n _
    rw [e 0 (by decide), e 1 (by decide), e 2 (by decide), e 3 (by decide)]

/-- C99 for Xoshiro512: eight draws. -/
theorem C99_xoshiro512 (g h : Nat → U64) :
    (∀ n < 8, xo512Cls.alone () g .u64 n = xo512Cls.alone () h .u64 n) ↔ ∀ i < 8, g i = h i := by
  have key := fun n => alone_iff (C := xo512Cls) (S := xo512Spec) (p := ()) (sd := g) (sd' := h) (op := .u64) o64_inj (fun _ _ => C95_xoshiro512 _) rfl rfl (fun _ => rfl)
    (fun _ => rfl) n
  simp only [key]
  constructor
  · intro e
    have := xosh512_inj (a₁ := ⟨g 0, g 1, g 2, g 3, g 4, g 5, g 6, g 7⟩) (a₂ := ⟨h 0, h 1, h 2, h 3, h 4, h 5, h 6, h 7⟩) (funext fun i => e i i.isLt)
    injection this with h0 h1 h2 h3 h4 h5 h6 h7
    intro i hi
    interval_cases i <;> assumption
  · intro e n _
    rw [e 0 (by decide), e 1 (by decide), e 2 (by decide), e 3 (by decide), e 4 (by decide), e 5 (by decide), e 6 (by decide), e 7 (by decide)]

/-- C99 for Xorshift1024: sixteen draws. -/
theorem C99_xorshift1024 (g h : Nat → U64) :
    (∀ n < 16, xs1024Cls.alone () g .u64 n = xs1024Cls.alone () h .u64 n) ↔ ∀ i < 16, g i = h i := by
  have key := fun n => alone_iff (C := xs1024Cls) (S := xs1024Spec) (p := ()) (sd := g) (sd' := h) (o := (0, g)) (o' := (0, h)) (op := .u64) o64_inj
    (fun _ _ => C95_xorshift1024_partial _) rfl rfl (fun _ => rfl) (fun _ => rfl) n
  simp only [key]
  have hst : (∀ i < 16, g i = h i) ↔ (⟨fun i => g i, 0⟩ : X16) = ⟨fun i => h i, 0⟩ := by
    constructor
    · intro e
      congr 1
      funext i
      exact e i i.isLt
    · intro e i hi
      injection e with e
      exact congrFun e ⟨i, hi⟩
  rw [hst]
  constructor
  · intro e
    have := xors_inj (a₁ := Linear.norm ⟨fun i => g i, 0⟩) (a₂ := Linear.norm ⟨fun i => h i, 0⟩) (funext fun i => by
      have := e i i.isLt
      rw [xors_nth, xors_nth] at this
      exact this)
    exact norm_eq this rfl
  · intro e n _
    rw [e]

/-- C99 for Xoroshiro128, both variants. -/
theorem C99_xoroshiro128 (pp : Bool) (g h : Nat → U64) :
    (∀ n, xoroCls.alone pp g .u64 n = xoroCls.alone pp h .u64 n) ↔ ∀ i < 2, g i = h i := by
  have key := fun n => alone_iff (C := xoroCls) (S := xoroSpec) (p := pp) (sd := g) (sd' := h) (o := (pp, g)) (o' := (pp, h)) (op := .u64) o64_inj
    (fun _ _ => C95_xoroshiro128 _) rfl rfl (fun _ => rfl) (fun _ => rfl) n
  simp only [key]
  have main : ∀ x y : S2, (∀ n, nthDraw (xoroNext pp) n x = nthDraw (xoroNext pp) n y) → x ≠ 0 → x = y := fun x y e hx => by
    by_cases hy : y = 0
    · have h1 : TailPeriod (fun k => nthDraw (xoroNext pp) k x) 0 1 := fun n _ => by
        have h0 : ∀ n, nthDraw (xoroNext pp) n y = nthDraw (xoroNext pp) 0 y := fun n => by
          rw [nthDraw, nthDraw, xoro_iter, xoro_iter, hy, iterate_map_zero, iterate_map_zero]
        show nthDraw _ _ x = nthDraw _ _ x
        rw [e, e, h0, h0 n]
      exact absurd ((C78_xoroshiro128_period pp x hx 0 1).1 h1) (by decide)
    · exact same_outputs (f := stepOf (xoroNext pp)) (N := 2 ^ 128 - 1) (A := {s | s ≠ 0}) (by decide) (card_nonzero card_S2)
        (fun s hs => by
          have := ne_zero_of_period (T := bif pp then xoroPPEnd else xoroPlusEnd) (d := 128) (by decide)
            (fun v hv n => by cases pp; exacts [xoroPlus_period v hv n, xoroPP_period v hv n]) hs
          have e1 := xoro_iter pp s 1
          rw [Function.iterate_one, Function.iterate_one] at e1
          show stepOf (xoroNext pp) s ≠ 0
          rw [e1]; exact this) hx hy (C32_xoroshiro128_period pp x hx)
        (u := fun s => (xoroNext pp s).1) (fun d => C78_xoroshiro128_period pp x hx 0 d) e
  constructor
  · intro e
    have : (⟨g 0, g 1⟩ : S2) = ⟨h 0, h 1⟩ := by
      by_cases hg : (⟨g 0, g 1⟩ : S2) = 0
      · by_cases hh : (⟨h 0, h 1⟩ : S2) = 0
        · rw [hg, hh]
        · exact (main _ _ (fun n => (e n).symm) hh).symm
      · exact main _ _ e hg
    injection this with h0 h1
    intro i hi
    interval_cases i <;> assumption
  · intro e n
    rw [e 0 (by decide), e 1 (by decide)]

/-- C99 for LXM, for seeds it does not hang on. -/
theorem C99_lxm (b : U64) (g h : Nat → U64) (hg : ∃ i < 4, g i ≠ 0) (hh : ∃ i < 4, h i ≠ 0) :
    (∀ n, lxmCls.alone b g .u64 n = lxmCls.alone b h .u64 n) ↔ ∀ i < 5, g i = h i := by
  have hz : ∀ g : Nat → U64, (∃ i < 4, g i ≠ 0) → (⟨g 0, g 1, g 2, g 3⟩ : S4) ≠ ⟨0, 0, 0, 0⟩ := by
    intro g hg e
    injection e with h0 h1 h2 h3
    obtain ⟨i, hi, h⟩ := hg
    interval_cases i <;> exact h ‹_›
  have hs : ∀ g : Nat → U64, (∃ i < 4, g i ≠ 0) → lxmSpec.start b g = .ok (b ||| 1, g) := fun g hg => by
    show (if _ then _ else _) = _
    rw [if_neg]
    rintro ⟨h0, h1, h2, h3⟩
    exact hz g hg (by rw [h0, h1, h2, h3])
  have key := fun n => alone_iff (C := lxmCls) (S := lxmSpec) (p := b) (op := .u64) o64_inj
    (fun _ _ => C95_lxm _) (hs g hg) (hs h hh) (fun _ => rfl) (fun _ => rfl) n
  simp only [key]
  constructor
  · intro e
    have := same_outputs (f := stepOf lxmNext) (N := (2 ^ 256 - 1) * 2 ^ 64) (A := lxmStates (b ||| 1)) (by decide) (card_lxmStates _)
      (fun s hs => ⟨ne_zero_of_period (by decide) xosh256_period hs.1, hs.2⟩) (x := ⟨⟨g 0, g 1, g 2, g 3⟩, g 4, b ||| 1⟩) (y := ⟨⟨h 0, h 1, h 2, h 3⟩, h 4, b ||| 1⟩)
      ⟨hz g hg, rfl⟩ ⟨hz h hh, rfl⟩ (C32_lxm_period _ (hz g hg) (Pcg.or_one_odd' b)) (u := fun s => (lxmNext s).1)
      (fun d => C78_lxm_period _ (hz g hg) (Pcg.or_one_odd' b) 0 d) e
    injection this with h1 h2 _
    injection h1 with h0 h1 h2 h3
    intro i hi
    interval_cases i <;> assumption
  · intro e n
    rw [e 0 (by decide), e 1 (by decide), e 2 (by decide), e 3 (by decide), e 4 (by decide)]

/-! ### Congruential generators with a given increment -/

theorem words_inj {a b c d : U64} (h : a ++ b = c ++ d) : a = c ∧ b = d := by
  have h1 := congrArg (BitVec.extractLsb' 64 64) h
  have h2 := congrArg (BitVec.extractLsb' 0 64) h
  rw [BitVec.extractLsb'_append_eq_left, BitVec.extractLsb'_append_eq_left] at h1
  rw [BitVec.extractLsb'_append_eq_right, BitVec.extractLsb'_append_eq_right] at h2
  exact ⟨h1, h2⟩

theorem pcg64_card (v : Pcg.Variant) (i : U128) : Nat.card {c : Pcg.Core | c.inc = i ∧ c.variant = v} = 2 ^ 128 := by
  rw [← card_bitVec 128]
  exact Nat.card_congr ⟨fun c => c.val.state, fun s => ⟨⟨s, i, v⟩, rfl, rfl⟩, by rintro ⟨⟨s, i, v⟩, rfl, rfl⟩; rfl, fun _ => rfl⟩

theorem pcg64_same (v : Pcg.Variant) (s s' q : U128) : (∀ n, nthDraw Pcg.next n (Pcg.seedCore v s q) = nthDraw Pcg.next n (Pcg.seedCore v s' q)) ↔ s = s' := by
  refine ⟨fun e => ?_, fun e n => by rw [e]⟩
  have := same_outputs (f := stepOf Pcg.next) (A := {c : Pcg.Core | c.inc = (q <<< 1) ||| 1 ∧ c.variant = v}) (by decide) (pcg64_card v _)
    (fun c hc => by
      have := Pcg.step_iterate c 1
      rw [Function.iterate_one] at this
      rw [this]; exact hc) ⟨rfl, rfl⟩ ⟨rfl, rfl⟩
    (C07_pcg64_full_period v s q) (u := fun c => (Pcg.next c).1) ((Pcg.C79_pcg64_seeded v s q).2 0) e
  exact ((C08_pcg64_seedCore_eq_iff v s s' q q).1 this).1

/-- C99 for PCG64 of any variant with a given increment. -/
theorem C99_pcg64 (v : Pcg.Variant) (inc : U128) (g h : Nat → U64) :
    (∀ n, pcg64Cls.alone (false, v) (g, some inc) .u64 n = pcg64Cls.alone (false, v) (h, some inc) .u64 n) ↔ ∀ i < 2, g i = h i := by
  have key := fun n => alone_iff (C := pcg64Cls) (S := pcg64Spec) (p := (false, v)) (sd := (g, some inc)) (sd' := (h, some inc)) (o := (v, g, some inc)) (o' := (v, h, some inc)) (op := .u64) o64_inj
    (fun sd r => C95_pcg64_partial false _ (by
      intro p sd h
      simp only [List.mem_cons, List.mem_map, reduceCtorEq, and_false, exists_false, or_false, SOp.new.injEq] at h
      rw [h.1])) rfl rfl (fun _ => rfl) (fun _ => rfl) n
  simp only [key]
  show (∀ n, nthDraw Pcg.next n (Pcg.seedCore v (g 0 ++ g 1) inc) = nthDraw Pcg.next n (Pcg.seedCore v (h 0 ++ h 1) inc)) ↔ _
  rw [pcg64_same]
  constructor
  · intro e i hi
    obtain ⟨h0, h1⟩ := words_inj e
    interval_cases i <;> assumption
  · intro e
    rw [e 0 (by decide), e 1 (by decide)]

/-- C99 for PCG64DXSM with a given increment. -/
theorem C99_pcg64dxsm (inc : U128) (g h : Nat → U64) :
    (∀ n, pcg64DxsmCls.alone () (g, some inc) .u64 n = pcg64DxsmCls.alone () (h, some inc) .u64 n) ↔ ∀ i < 2, g i = h i := by
  have key := fun n => alone_iff (C := pcg64DxsmCls) (S := pcg64DxsmSpec) (p := ()) (sd := (g, some inc)) (sd' := (h, some inc)) (op := .u64) o64_inj
    (fun _ _ => C95_pcg64dxsm _) rfl rfl (fun _ => rfl) (fun _ => rfl) n
  simp only [key]
  show (∀ n, nthDraw Pcg.next n (Pcg.seedCore .cmDxsm (g 0 ++ g 1) inc) = nthDraw Pcg.next n (Pcg.seedCore .cmDxsm (h 0 ++ h 1) inc)) ↔ _
  rw [pcg64_same]
  constructor
  · intro e i hi
    obtain ⟨h0, h1⟩ := words_inj e
    interval_cases i <;> assumption
  · intro e
    rw [e 0 (by decide), e 1 (by decide)]

theorem pcg32_card (i : U64) : Nat.card {c : Pcg32.Core | c.inc = i} = 2 ^ 64 := by
  rw [← card_bitVec 64]
  exact Nat.card_congr ⟨fun c => c.val.state, fun s => ⟨⟨s, i⟩, rfl⟩, by rintro ⟨⟨s, i⟩, rfl⟩; rfl, fun _ => rfl⟩

theorem pcg32_stays (i : U64) (c : Pcg32.Core) (hc : c.inc = i) : (stepOf Pcg32.next c).inc = i := by
  have := Pcg32.step_iterate c 1
  rw [Function.iterate_one] at this
  rw [this]; exact hc

theorem pcg32_same (s s' q : U64) : (∀ n, nthDraw Pcg32.next n (Pcg32.seed s q) = nthDraw Pcg32.next n (Pcg32.seed s' q)) ↔ s = s' := by
  refine ⟨fun e => ?_, fun e n => by rw [e]⟩
  have := same_outputs (f := stepOf Pcg32.next) (A := {c : Pcg32.Core | c.inc = (q <<< 1) ||| 1#64}) (Nat.two_pow_pos 64) (pcg32_card _) (pcg32_stays _) rfl rfl
    (C07_pcg32_full_period s q) (u := fun c => (Pcg32.next c).1) ((Pcg32.C79_pcg32_seeded s q).2 0) e
  exact ((C08_pcg32_seed_eq_iff s s' q q).1 this).1

/-- C99 for PCG32 with a given increment: 32-bit draws, one word of the seed. -/
theorem C99_pcg32 (hiFirst : Bool) (inc : U64) (g h : Nat → U64) :
    (∀ n, (pcg32Cls hiFirst).alone () (g, some inc) .u32 n = (pcg32Cls hiFirst).alone () (h, some inc) .u32 n) ↔ g 0 = h 0 := by
  rw [← pcg32_same (g 0) (h 0) inc]
  exact forall_congr' fun n => alone_iff (C := pcg32Cls hiFirst) (S := pcg32Spec hiFirst) (p := ()) (sd := (g, some inc)) (sd' := (h, some inc)) (op := .u32)
    o32_inj (fun _ _ => C95_pcg32 _ _) rfl rfl (fun _ => rfl) (fun _ => rfl) n

theorem lcg128_card (c : Lcg128.Core) : Nat.card {d : Lcg128.Core | ∃ s, d = { c with state := s }} = 2 ^ 128 := by
  rw [← card_bitVec 128]
  exact Nat.card_congr ⟨fun d => d.val.state, fun s => ⟨{ c with state := s }, s, rfl⟩, by rintro ⟨d, s, rfl⟩; rfl, fun _ => rfl⟩

/-- C99 for LCG128Mix with a given increment, the default multiplier, and any built-in output function but `lower`. -/
theorem C99_lcg128mix (ext : Nat → U64 → U64 → U64) (p : LcgArgs) (hp : p.mult = 47026247687942121848144207491837523525)
    (ho : p.out ∈ ["xsl-rr", "dxsm", "murmur3", "upper"]) (hd : 0 < p.dxsm ∧ p.dxsm < 2 ^ 64 ∧ p.dxsm % 2 = 1) (inc : U128) (g h : Nat → U64) :
    (∀ n, (lcgCls ext).alone p (g, some inc) .u64 n = (lcgCls ext).alone p (h, some inc) .u64 n) ↔ ∀ i < 2, g i = h i := by
  have hs : ∀ sd, lcgSpec.start p sd = .ok ⟨BitVec.ofInt 128 p.mult, BitVec.ofInt 64 p.dxsm, p.post, p.out, sd⟩ := fun sd => by
    show (if _ then _ else _) = _
    rw [if_pos]
    refine ⟨?_, by rw [hp]; decide, hd⟩
    simp only [List.mem_cons, List.not_mem_nil, or_false] at ho ⊢
    tauto
  have key := fun n => alone_iff (C := lcgCls ext) (S := lcgSpec) (p := p) (sd := (g, some inc)) (sd' := (h, some inc)) (op := .u64) o64_inj
    (fun sd r => C95_lcg128mix_partial ext p.mult _ (by
      intro p' sd h
      simp only [List.mem_cons, List.mem_map, reduceCtorEq, and_false, exists_false, or_false, SOp.new.injEq] at h
      rw [h.1]) (.inl hp)) (hs _) (hs _) (fun _ => rfl) (fun _ => rfl) n
  simp only [key, ← lcgWord_eq]
  constructor
  · intro e
    have hm : (BitVec.ofInt 128 p.mult).toNat % 4 = 1 := by rw [hp]; decide
    have e1 : ∀ sd : (Nat → U64) × Option U128, sd.2 = some inc → lcgCore ⟨BitVec.ofInt 128 p.mult, BitVec.ofInt 64 p.dxsm, p.post, p.out, sd⟩ =
        ⟨(((inc <<< 1) ||| 1#128) + (sd.1 0 ++ sd.1 1)) * BitVec.ofInt 128 p.mult + ((inc <<< 1) ||| 1#128), (inc <<< 1) ||| 1#128, BitVec.ofInt 128 p.mult,
          BitVec.ofInt 64 p.dxsm, p.post, lcgOutput p.out⟩ := fun sd h => by
      simp [lcgCore, Pcg.initPcg, Pcg.lcgStep, h]
    have hP := Lcg128.C79_lcg128_period (lcgCore ⟨BitVec.ofInt 128 p.mult, BitVec.ofInt 64 p.dxsm, p.post, p.out, (g, some inc)⟩) hm
      (or_one_odd (by decide) _) (by
        show (BitVec.ofInt 64 p.dxsm).toNat % 2 = 1
        rw [BitVec.toNat_ofInt]
        omega) (fun f => by
        show lcgOutput p.out ≠ _
        unfold lcgOutput
        split_ifs <;> simp) (by
        show lcgOutput p.out ≠ _
        simp only [List.mem_cons, List.not_mem_nil, or_false] at ho
        rcases ho with h | h | h | h <;> rw [h] <;> simp [lcgOutput]) 0
    have hF := (Lcg128.C79_lcg128_full_iff (lcgCore ⟨BitVec.ofInt 128 p.mult, BitVec.ofInt 64 p.dxsm, p.post, p.out, (g, some inc)⟩)
      (by show (BitVec.ofInt 128 p.mult).toNat % 2 = 1; omega) (or_one_odd (by decide) _)).2 hm
    rw [e1 _ rfl] at e hP hF
    rw [e1 _ rfl] at e
    generalize BitVec.ofInt 128 p.mult = a at hm e hP hF
    generalize (inc <<< 1) ||| 1#128 = c at e hP hF
    have := same_outputs (f := stepOf Lcg128.next) (Nat.two_pow_pos 128) (lcg128_card ⟨(c + (g 0 ++ g 1)) * a + c, c, a, BitVec.ofInt 64 p.dxsm, p.post, lcgOutput p.out⟩) (fun d hd => by
        obtain ⟨s, rfl⟩ := hd
        have := Lcg128.step_iterate { (⟨(c + (g 0 ++ g 1)) * a + c, c, a, BitVec.ofInt 64 p.dxsm, p.post, lcgOutput p.out⟩ : Lcg128.Core) with state := s } 1
        rw [Function.iterate_one] at this
        exact ⟨_, this⟩) (x := ⟨(c + (g 0 ++ g 1)) * a + c, c, a, BitVec.ofInt 64 p.dxsm, p.post, lcgOutput p.out⟩)
      (y := ⟨(c + (h 0 ++ h 1)) * a + c, c, a, BitVec.ofInt 64 p.dxsm, p.post, lcgOutput p.out⟩) ⟨_, rfl⟩ ⟨_, rfl⟩ hF (u := fun c => (Lcg128.next c).1) hP e
    injection this with h1
    obtain ⟨b, hb⟩ := Pcg.isUnit_of_odd a (by omega)
    have h2 := congrArg (b * ·) (add_right_cancel h1)
    simp only [mul_comm _ a] at h2
    rw [← mul_assoc, hb, one_mul, ← mul_assoc, hb, one_mul] at h2
    obtain ⟨h0, h1⟩ := words_inj (add_left_cancel h2)
    intro i hi
    interval_cases i <;> assumption
  · intro e n
    have : ∀ n, lcgWord ⟨BitVec.ofInt 128 p.mult, BitVec.ofInt 64 p.dxsm, p.post, p.out, (g, some inc)⟩ n =
        lcgWord ⟨BitVec.ofInt 128 p.mult, BitVec.ofInt 64 p.dxsm, p.post, p.out, (h, some inc)⟩ n := fun n => by
      simp only [lcgWord, lcgInc, Option.getD_some, e 0 (by decide), e 1 (by decide)]
    simpa only [lcgWord_eq] using this n

/-! ### Seed sequences -/

section
open SeedSeq

/-- Generators seeded with `s` and with `t` give different streams: the first words drawn tell them apart for the generators whose
words are their state, some word does for the others. PCG64, PCG64DXSM and LCG128Mix take their increment from the caller. -/
def StreamsDiffer (s t : SeedSeq.SeedSeq) : Prop :=
  (∃ n < 4, xo256Cls.alone () (s.words 4) .u64 n ≠ xo256Cls.alone () (t.words 4) .u64 n) ∧
  (∃ n < 8, xo512Cls.alone () (s.words 8) .u64 n ≠ xo512Cls.alone () (t.words 8) .u64 n) ∧
  (∃ n < 16, xs1024Cls.alone () (s.words 16) .u64 n ≠ xs1024Cls.alone () (t.words 16) .u64 n) ∧
  (∀ pp, ∃ n, xoroCls.alone pp (s.words 2) .u64 n ≠ xoroCls.alone pp (t.words 2) .u64 n) ∧
  (∀ v inc, ∃ n, pcg64Cls.alone (false, v) (s.words 2, some inc) .u64 n ≠ pcg64Cls.alone (false, v) (t.words 2, some inc) .u64 n) ∧
  (∀ inc, ∃ n, pcg64DxsmCls.alone () (s.words 2, some inc) .u64 n ≠ pcg64DxsmCls.alone () (t.words 2, some inc) .u64 n)

theorem streamsDiffer {s t : SeedSeq.SeedSeq} (h : ∀ k ≥ 2, ∃ i < k, s.words k i ≠ t.words k i) : StreamsDiffer s t := by
  have lift : ∀ {P : Prop} {k : Nat}, 2 ≤ k → (P ↔ ∀ i < k, s.words k i = t.words k i) → ¬P := fun hk e p => by
    obtain ⟨i, hi, hne⟩ := h _ hk
    exact hne (e.1 p i hi)
  refine ⟨?_, ?_, ?_, fun pp => ?_, fun v inc => ?_, fun inc => ?_⟩
  · have := lift (by decide) (C99_xoshiro256 (s.words 4) (t.words 4))
    push Not at this; exact this
  · have := lift (by decide) (C99_xoshiro512 (s.words 8) (t.words 8))
    push Not at this; exact this
  · have := lift (by decide) (C99_xorshift1024 (s.words 16) (t.words 16))
    push Not at this; exact this
  · have := lift (by decide) (C99_xoroshiro128 pp (s.words 2) (t.words 2))
    push Not at this; exact this
  · have := lift (by decide) (C99_pcg64 v inc (s.words 2) (t.words 2))
    push Not at this; exact this
  · have := lift (by decide) (C99_pcg64dxsm inc (s.words 2) (t.words 2))
    push Not at this; exact this

theorem int_words_differ {a b : Nat} (ha : a < 2 ^ 128) (hb : b < 2 ^ 128) (hab : a ≠ b) {s t : SeedSeq.SeedSeq}
    (hs : mk (.int a) [] (4 : Nat) 0 = .ok s) (ht : mk (.int b) [] (4 : Nat) 0 = .ok t) (k : Nat) (hk : 2 ≤ k) : ∃ i < k, s.words k i ≠ t.words k i := by
  by_contra hc
  refine (C42_generated_words_differ 4 a b (by simpa using ha) (by simpa using hb) hab s t hs ht).2 k (by omega) ?_
  have l1 := (C45_pairs s.pool k 0 (by omega)).1
  have l2 := (C45_pairs t.pool k 0 (by omega)).1
  refine List.ext_getElem? fun i => ?_
  by_cases hi : i < k
  · have e : s.words k i = t.words k i := by
      by_contra h3; exact hc ⟨i, hi, h3⟩
    rw [SeedSeq.SeedSeq.words, SeedSeq.SeedSeq.words, List.getD_eq_getElem?_getD, List.getD_eq_getElem?_getD, List.getElem?_eq_getElem (by omega),
      List.getElem?_eq_getElem (by omega)] at e
    rw [List.getElem?_eq_getElem (by omega), List.getElem?_eq_getElem (by omega)]
    exact congrArg some e
  · rw [List.getElem?_eq_none (by omega), List.getElem?_eq_none (by omega)]

theorem sibling_words_differ {e : Ent} {key : List Int} {n : Nat} {i j : Int}
    (hkey : ∀ x ∈ key, 0 ≤ x ∧ x < 2 ^ 32) (hi : 0 ≤ i ∧ i < 2 ^ 32) (hj : 0 ≤ j ∧ j < 2 ^ 32) (hij : i ≠ j)
    {s t : SeedSeq.SeedSeq} (hs : mk e (key ++ [i]) n 0 = .ok s) (ht : mk e (key ++ [j]) n 0 = .ok t) (k l : Nat) (hl : l < k) : s.words k l ≠ t.words k l := by
  rw [SeedSeq.SeedSeq.words, SeedSeq.SeedSeq.words, (C45_pairs _ k l hl).2, (C45_pairs _ k l hl).2]
  intro h
  have h2 := congrArg (BitVec.extractLsb' 0 32) h
  rw [BitVec.extractLsb'_append_eq_right, BitVec.extractLsb'_append_eq_right] at h2
  exact C54_siblings_words_differ e key n i j hkey hi hj hij s t hs ht (2 * k) (2 * l) (by omega) h2

/-- C99 for integer seeds below `2 ** 128` and the default pool. -/
theorem C99_integer_seeds (a b : Nat) (ha : a < 2 ^ 128) (hb : b < 2 ^ 128) (hab : a ≠ b) (s t : SeedSeq.SeedSeq)
    (hs : mk (.int a) [] (4 : Nat) 0 = .ok s) (ht : mk (.int b) [] (4 : Nat) 0 = .ok t) :
    StreamsDiffer s t ∧ ∀ c, ∃ n, lxmCls.alone c (s.words 5) .u64 n ≠ lxmCls.alone c (t.words 5) .u64 n := by
  refine ⟨streamsDiffer (int_words_differ ha hb hab hs ht), fun c => ?_⟩
  obtain ⟨i, hi, _, hw⟩ := words_not_zero hs 5 0 4 (by decide) (by decide) (by decide)
  obtain ⟨j, hj, _, hw'⟩ := words_not_zero ht 5 0 4 (by decide) (by decide) (by decide)
  obtain ⟨l, hl, hne⟩ := int_words_differ ha hb hab hs ht 5 (by decide)
  by_contra hc
  push Not at hc
  exact hne ((C99_lxm c (s.words 5) (t.words 5) ⟨i, hi, hw⟩ ⟨j, hj, hw'⟩).1 hc l hl)

example : ∃ s t, mk (.int (0 : Nat)) [] (4 : Nat) 0 = .ok s ∧ mk (.int (1 : Nat)) [] (4 : Nat) 0 = .ok t := by
  obtain ⟨s, hs⟩ := C42_accepts 4 0 (by decide)
  obtain ⟨t, ht⟩ := C42_accepts 4 1 (by decide)
  exact ⟨s, t, hs, ht⟩

/-- C99 for spawned siblings, whatever the entropy, the spawn key of the parent and the size of the pool. PCG32, whose seed is one
word, and SFC64, of which the states are compared: two siblings share no state at places less than `2 ** 64` apart (doc/source/parallel.rst:27-36). -/
theorem C99_siblings (e : Ent) (key : List Int) (n : Nat) (i j : Int)
    (hkey : ∀ x ∈ key, 0 ≤ x ∧ x < 2 ^ 32) (hi : 0 ≤ i ∧ i < 2 ^ 32) (hj : 0 ≤ j ∧ j < 2 ^ 32) (hij : i ≠ j)
    (s t : SeedSeq.SeedSeq) (hs : mk e (key ++ [i]) n 0 = .ok s) (ht : mk e (key ++ [j]) n 0 = .ok t) :
    StreamsDiffer s t ∧
    (n < 8 → ∀ c, ∃ n, lxmCls.alone c (s.words 5) .u64 n ≠ lxmCls.alone c (t.words 5) .u64 n) ∧
    (∀ hiFirst inc, ∃ n, (pcg32Cls hiFirst).alone () (s.words 2, some inc) .u32 n ≠ (pcg32Cls hiFirst).alone () (t.words 2, some inc) .u32 n) ∧
    ∀ (w k : U64) (a b : Nat), k.toNat % 2 = 1 → a < b + 2 ^ 64 → b < a + 2 ^ 64 →
      (stepOf sfcNext)^[a] (sfcFromSeq (s.words 3) (some w) (some k)) ≠ (stepOf sfcNext)^[b] (sfcFromSeq (t.words 3) (some w) (some k)) := by
  have hne := sibling_words_differ hkey hi hj hij hs ht
  refine ⟨streamsDiffer fun k hk => ⟨0, by omega, hne k 0 (by omega)⟩, fun hn c => ?_, fun hf inc => ?_, fun w k a b hk ha hb => ?_⟩
  · obtain ⟨i, hi, _, hw⟩ := words_not_zero hs 5 0 4 (by decide) (by omega) (by omega)
    obtain ⟨j, hj, _, hw'⟩ := words_not_zero ht 5 0 4 (by decide) (by omega) (by omega)
    by_contra hc
    push Not at hc
    exact hne 5 0 (by decide) ((C99_lxm c (s.words 5) (t.words 5) ⟨i, hi, hw⟩ ⟨j, hj, hw'⟩).1 hc 0 (by decide))
  · by_contra hc
    push Not at hc
    exact hne 2 0 (by decide) ((C99_pcg32 hf inc (s.words 2) (t.words 2)).1 hc)
  · exact C58_sfc64_streams (s.words 3) (t.words 3) w k hk ⟨0, by decide, hne 3 0 (by decide)⟩ a b ha hb

example : ∃ s t, mk (.int 603484028490308141) ([] ++ [0]) (4 : Nat) 0 = .ok s ∧ mk (.int 603484028490308141) ([] ++ [8195]) (4 : Nat) 0 = .ok t :=
  ⟨_, _, mk_ok _ _ 4 _ [3385416237, 140509574] _ (by decide) (by rw [coerce_int]; decide +kernel) (coerceAll_small _ (by decide)),
    mk_ok _ _ 4 _ [3385416237, 140509574] _ (by decide) (by rw [coerce_int]; decide +kernel) (coerceAll_small _ (by decide))⟩

end

end Verif
