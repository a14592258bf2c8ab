import Verif.Proof.Sfmt
import Mathlib.Tactic.IntervalCases
import Mathlib.Tactic.Ring
import Mathlib.Logic.Function.Iterate

/-! Properties C65 (SFMT recurrence), C18 (SSE2 builds of SFMT and dSFMT), C36 (several jumps) and C37 (period
certification). -/

namespace Verif

/-! ### The recursion as an operation on 128-bit integers -/

theorem pack_bit (x : W128) (i : Nat) : x.pack.getLsbD i =
    if i < 32 then x.u0.getLsbD i else if i < 64 then x.u1.getLsbD (i - 32) else if i < 96 then x.u2.getLsbD (i - 64)
    else x.u3.getLsbD (i - 96) := by
  show (x.u3 ++ x.u2 ++ x.u1 ++ x.u0 : BitVec (32 + 32 + 32 + 32)).getLsbD i = _
  simp only [BitVec.getLsbD_append]
  by_cases h1 : i < 32
  · simp [h1]
  · by_cases h2 : i < 64
    · simp [h1, h2, show i - 32 < 32 by omega]
    · by_cases h3 : i < 96
      · simp [h1, h2, h3, show ¬ i - 32 < 32 by omega, show i - 64 < 32 by omega, show i - 32 - 32 = i - 64 by omega]
      · simp [h1, h2, h3, show ¬ i - 32 < 32 by omega, show ¬ i - 64 < 32 by omega, show i - 32 - 32 = i - 64 by omega, show i - 64 - 32 = i - 96 by omega]

/-- The recursion of the SFMT paper on 128-bit integers: `a ⊕ (a << 8) ⊕ ((b >>32 11) & mask) ⊕ (c >> 8) ⊕ (d <<32 18)`,
where `>>32` and `<<32` act on the four 32-bit lanes (the two last masks say so). -/
def sfmtSpec (a b c d : U128) : U128 :=
  a ^^^ (a <<< 8) ^^^ ((b >>> 11) &&& 0xbffffff6bffaffffddfecb7fdfffffef &&& 0x001fffff001fffff001fffff001fffff) ^^^ (c >>> 8) ^^^
    ((d <<< 18) &&& 0xfffc0000fffc0000fffc0000fffc0000)

theorem sfmtRec_pack (a b c d : W128) : (sfmtRec a b c d).pack = sfmtSpec a.pack b.pack c.pack d.pack := by
  apply BitVec.eq_of_getLsbD_eq
  intro i hi
  rw [pack_bit, sfmtSpec]
  simp only [sfmtRec, lshift128, rshift128, join32, BitVec.getLsbD_xor, BitVec.getLsbD_and, BitVec.getLsbD_or, BitVec.getLsbD_shiftLeft,
    BitVec.getLsbD_ushiftRight, BitVec.truncate_eq_setWidth, BitVec.getLsbD_setWidth, pack_bit]
  interval_cases i <;> simp

theorem append4_bit (x3 x2 x1 x0 : U32) (i : Nat) : (x3 ++ x2 ++ x1 ++ x0 : BitVec (32 + 32 + 32 + 32)).getLsbD i =
    if i < 32 then x0.getLsbD i else if i < 64 then x1.getLsbD (i - 32) else if i < 96 then x2.getLsbD (i - 64)
    else x3.getLsbD (i - 96) := pack_bit ⟨x0, x1, x2, x3⟩ i

theorem mmSrli32_eq (x : U128) : mmSrli32 x 11 = (x >>> 11) &&& 0x001fffff001fffff001fffff001fffff#128 := by
  apply BitVec.eq_of_getLsbD_eq
  intro i hi
  rw [mmSrli32, append4_bit]
  simp only [BitVec.getLsbD_extractLsb', BitVec.getLsbD_and, BitVec.getLsbD_ushiftRight]
  interval_cases i <;> simp

theorem mmSlli32_eq (x : U128) : mmSlli32 x 18 = (x <<< 18) &&& 0xfffc0000fffc0000fffc0000fffc0000#128 := by
  apply BitVec.eq_of_getLsbD_eq
  intro i hi
  rw [mmSlli32, append4_bit]
  simp only [BitVec.getLsbD_extractLsb', BitVec.getLsbD_and, BitVec.getLsbD_shiftLeft]
  interval_cases i <;> simp

/-- C18: the SSE2 recursion is the recursion of the paper, for every register content. -/
theorem C18_sfmt_sse (a b c d : U128) : mmRec a b c d = sfmtSpec a b c d := by
  rw [mmRec, sfmtSpec, mmSrli32_eq, mmSlli32_eq]
  have h : W128.pack ⟨0xdfffffef, 0xddfecb7f, 0xbffaffff, 0xbffffff6⟩ = 0xbffffff6bffaffffddfecb7fdfffffef#128 := by decide
  rw [h]
  show c >>> 8 ^^^ a ^^^ (d <<< 18 &&& 0xfffc0000fffc0000fffc0000fffc0000#128) ^^^ a <<< 8 ^^^
    (b >>> 11 &&& 0x001fffff001fffff001fffff001fffff#128 &&& 0xbffffff6bffaffffddfecb7fdfffffef#128) =
    a ^^^ a <<< 8 ^^^ (b >>> 11 &&& 0xbffffff6bffaffffddfecb7fdfffffef#128 &&& 0x001fffff001fffff001fffff001fffff#128) ^^^ c >>> 8 ^^^
    (d <<< 18 &&& 0xfffc0000fffc0000fffc0000fffc0000#128)
  rw [BitVec.and_assoc (b >>> 11), BitVec.and_assoc (b >>> 11), BitVec.and_comm 0x001fffff001fffff001fffff001fffff#128]
  generalize b >>> 11 &&& (0xbffffff6bffaffffddfecb7fdfffffef#128 &&& 0x001fffff001fffff001fffff001fffff#128) = B
  generalize d <<< 18 &&& 0xfffc0000fffc0000fffc0000fffc0000#128 = D
  generalize c >>> 8 = C
  generalize a <<< 8 = A
  ac_rfl

/-- C18: SSE2 and portable recursion agree on every register content. -/
theorem C18_sfmt_recursion (a b c d : W128) : mmRec a.pack b.pack c.pack d.pack = (sfmtRec a b c d).pack := by
  rw [C18_sfmt_sse, sfmtRec_pack]

/-- The loops do not look inside words: they commute with any translation of words and registers. -/
theorem genArray_map {W R W' R' : Type} (step : R → W → W → W × R) (step' : R' → W' → W' → W' × R') (g : W → W') (gr : R → R')
    (h : ∀ r a b, step' (gr r) (g a) (g b) = (g (step r a b).1, gr (step r a b).2)) (N P size : Nat) (arr : Nat → W) (reg : R) (st : Nat → W) :
    let f := genArray step N P size arr reg st
    genArray step' N P size (fun i => g (arr i)) (gr reg) (fun i => g (st i)) = ⟨fun i => g (f.arr i), gr f.reg, fun i => g (f.st i)⟩ := by
  intro f
  have hput : ∀ (f : Fill W R) i a b, Fill.put step' ⟨fun i => g (f.arr i), gr f.reg, fun i => g (f.st i)⟩ i (g a) (g b) =
      ⟨fun j => g ((f.put step i a b).arr j), gr (f.put step i a b).reg, fun j => g ((f.put step i a b).st j)⟩ := by
    intro f i a b
    simp only [Fill.put, h, Fill.mk.injEq, and_true]
    funext j
    by_cases hj : j = i
    · subst hj; rw [Function.update_self, Function.update_self]
    · rw [Function.update_of_ne hj, Function.update_of_ne hj]
  let G : Fill W R → Fill W' R' := fun f => ⟨fun i => g (f.arr i), gr f.reg, fun i => g (f.st i)⟩
  have hup : ∀ (k : Nat → W) i v, (fun j => g (Function.update k i v j)) = Function.update (fun j => g (k j)) i (g v) := by
    intro k i v
    funext j
    by_cases hj : j = i
    · subst hj; rw [Function.update_self, Function.update_self]
    · rw [Function.update_of_ne hj, Function.update_of_ne hj]
  show _ = G f
  have h0 : (⟨fun i => g (arr i), gr reg, fun i => g (st i)⟩ : Fill W' R') = G ⟨arr, reg, st⟩ := rfl
  simp only [f, genArray, h0]
  rw [List.foldl_hom G (g₁ := fun f i => f.put step i (f.st i) (f.st (i + P))) (H := fun f i => hput f i _ _),
    List.foldl_hom G (g₁ := fun f i => f.put step i (f.st i) (f.arr (i + P - N))) (H := fun f i => hput f i _ _),
    List.foldl_hom G (g₁ := fun f i => f.put step i (f.arr (i - N)) (f.arr (i + P - N))) (H := fun f i => hput f i _ _),
    List.foldl_hom G (g₁ := fun f j => { f with st := Function.update f.st j (f.arr (j + size - N)) }) (H := fun f i => by
      show Fill.mk _ _ _ = Fill.mk _ _ _
      simp only [hup]; rfl)]
  refine List.foldl_hom G (g₁ := fun f i => _) (H := fun f i => ?_)
  have := hput f i (f.arr (i - N)) (f.arr (i + P - N))
  simp only [G] at this ⊢
  rw [this]
  simp only [hup]

theorem unpack_pack (x : W128) :
    (⟨x.pack.extractLsb' 0 32, x.pack.extractLsb' 32 32, x.pack.extractLsb' 64 32, x.pack.extractLsb' 96 32⟩ : W128) = x := by
  obtain ⟨u0, u1, u2, u3⟩ := x
  rw [W128.mk.injEq]
  refine ⟨?_, ?_, ?_, ?_⟩ <;> (
    apply BitVec.eq_of_getLsbD_eq
    intro i hi
    rw [BitVec.getLsbD_extractLsb', pack_bit])
  · simp [hi]
  · simp [hi, show 32 + i < 64 by omega]
  · simp [hi, show ¬ 64 + i < 32 by omega, show ¬ 64 + i < 64 by omega, show 64 + i < 96 by omega]
  · simp [hi, show ¬ 96 + i < 32 by omega, show ¬ 96 + i < 64 by omega, show ¬ 96 + i < 96 by omega]

/-- C18: the SSE2 and portable builds of SFMT produce the same stream from every state, and neither is undefined where
the other is not. -/
theorem C18_sfmt_stream (s : Sfmt) (n : Nat) : nthO sfmtNext64Sse n s = nthO sfmtNext64 n s := by
  have hfill : ∀ s, sfmtFillSse s = sfmtFill s := by
    intro s
    have := genArray_map sfmtStep mmStep W128.pack (fun r => (r.1.pack, r.2.pack)) (fun r a b => by
      simp only [mmStep, sfmtStep, C18_sfmt_recursion]) sfmtN sfmtPos1 (312 / 2) (fun _ => ⟨0, 0, 0, 0⟩) (s.st (sfmtN - 2), s.st (sfmtN - 1)) s.st
    have h0 : W128.pack ⟨0, 0, 0, 0⟩ = 0 := by decide
    simp only [h0] at this
    rw [sfmtFillSse, sfmtFill]
    simp only [this, unpack_pack]
  have : sfmtNext64Sse = sfmtNext64 := by
    funext s
    rw [sfmtNext64Sse, sfmtNext64, hfill]
  rw [this]

/-- C18 at work on a state: the recursion is not trivial. -/
example : mmRec 1 2 3 4 ≠ 1 ∧ mmRec (W128.pack ⟨1, 2, 3, 4⟩) (W128.pack ⟨0x12345678, 6, 7, 8⟩) 9 10 = (sfmtRec ⟨1, 2, 3, 4⟩ ⟨0x12345678, 6, 7, 8⟩ ⟨9, 0, 0, 0⟩ ⟨10, 0, 0, 0⟩).pack := by
  decide +kernel

/-! ### C65 -/

def W128.unpack (x : U128) : W128 := ⟨x.extractLsb' 0 32, x.extractLsb' 32 32, x.extractLsb' 64 32, x.extractLsb' 96 32⟩

theorem pack_unpack (x : U128) : (W128.unpack x).pack = x := by
  apply BitVec.eq_of_getLsbD_eq
  intro i hi
  rw [pack_bit, W128.unpack]
  simp only [BitVec.getLsbD_extractLsb']
  by_cases h1 : i < 32
  · simp [h1]
  · by_cases h2 : i < 64
    · simp [h1, h2, show i - 32 < 32 by omega, show 32 + (i - 32) = i by omega]
    · by_cases h3 : i < 96
      · simp [h1, h2, h3, show i - 64 < 32 by omega, show 64 + (i - 64) = i by omega]
      · simp [h1, h2, h3, show i - 96 < 32 by omega, show 96 + (i - 96) = i by omega]

theorem words64_unpack (x : Nat → U128) (i : Nat) :
    words64 (fun k => W128.unpack (x k)) i = (x (i / 2)).extractLsb' (64 * (i % 2)) 64 := by
  have hj : ∀ u v : U32, ∀ j < 64, (join32 u v).getLsbD j = if j < 32 then v.getLsbD j else u.getLsbD (j - 32) := by
    intro u v j hj
    simp only [join32, BitVec.getLsbD_or, BitVec.getLsbD_shiftLeft, BitVec.truncate_eq_setWidth, BitVec.getLsbD_setWidth]
    by_cases h : j < 32
    · simp [h, hj]
    · have : v.getLsbD j = false := BitVec.getLsbD_of_ge _ _ (by omega)
      simp [h, hj, this, show j - 32 < 64 by omega]
  apply BitVec.eq_of_getLsbD_eq
  intro j hj'
  rw [words64, BitVec.getLsbD_extractLsb']
  rcases Nat.mod_two_eq_zero_or_one i with h | h
  · rw [if_pos h, hj _ _ _ hj', W128.unpack, h]
    simp only [BitVec.getLsbD_extractLsb']
    by_cases h2 : j < 32
    · simp [h2, hj']
    · simp [h2, hj', show j - 32 < 32 by omega, show 32 + (j - 32) = j by omega]
  · rw [if_neg (by omega), hj _ _ _ hj', W128.unpack, h]
    simp only [BitVec.getLsbD_extractLsb']
    by_cases h2 : j < 32
    · simp [h2, hj']
    · simp [h2, hj', show j - 32 < 32 by omega, show 96 + (j - 32) = 64 + j by omega]

theorem sfmtFill_def (t : Sfmt) : ∃ f, f = genArray sfmtStep 156 122 156 (fun _ => ⟨0, 0, 0, 0⟩) (t.st 154, t.st 155) t.st ∧
    sfmtFill t = { t with st := f.st, buf := words64 f.arr } := by
  refine ⟨_, rfl, ?_⟩
  simp only [sfmtFill, sfmtN, sfmtPos1, Nat.reduceDiv, Nat.reduceSub]

/-- C65: SFMT produces first what is left in its buffer and then, two halves at a time, the words `156, 157, …` of the
recurrence started by its array; no draw from a location `0..312` is undefined. -/
theorem C65_sfmt (s : Sfmt) (h0 : 0 ≤ s.loc) (h1 : s.loc ≤ 312) (x : Nat → U128)
    (hx : ∀ k, x (k + 156) = sfmtSpec (x k) (x (k + 122)) (x (k + 154)) (x (k + 155))) (hk : ∀ i < 156, x i = (s.st i).pack) (n : Nat) :
    nthO sfmtNext64 n s = some (if s.loc.toNat + n < 312 then s.buf (s.loc.toNat + n)
      else (x (156 + (s.loc.toNat + n - 312) / 2)).extractLsb' (64 * ((s.loc.toNat + n) % 2)) 64) := by
  have hy : SimdRec sfmtStep 156 122 (fun k => W128.unpack (x k)) (fun k => (W128.unpack (x (k + 154)), W128.unpack (x (k + 155)))) := by
    intro k
    have : sfmtRec (W128.unpack (x k)) (W128.unpack (x (k + 122))) (W128.unpack (x (k + 154))) (W128.unpack (x (k + 155))) = W128.unpack (x (k + 156)) := by
      have h := sfmtRec_pack (W128.unpack (x k)) (W128.unpack (x (k + 122))) (W128.unpack (x (k + 154))) (W128.unpack (x (k + 155)))
      rw [pack_unpack, pack_unpack, pack_unpack, pack_unpack, ← hx] at h
      rw [← h]; exact (unpack_pack _).symm
    simp only [sfmtStep, this]
  obtain ⟨V, hV⟩ : ∃ V : Nat → U64, V = fun p => if p < 312 then s.buf p else (x (156 + (p - 312) / 2)).extractLsb' (64 * (p % 2)) 64 := ⟨_, rfl⟩
  have hn := nthO_of_inv sfmtNext64 (fun t p => ∃ c j, p = 312 * c + j ∧ t.loc = (j : Nat) ∧ j ≤ 312 ∧ (∀ i < 156, t.st i = W128.unpack (x (156 * c + i))) ∧
      ∀ q < 312, t.buf q = V (312 * c + q)) V (fun t p ht => ?_) s s.loc.toNat ⟨0, s.loc.toNat, by omega, by omega, by omega, fun i hi => ?_, fun q hq => ?_⟩ n
  · rw [hn, hV]
  · obtain ⟨c, j, hp, hl, hj, hst, hb⟩ := ht
    rw [sfmtNext64]
    by_cases hlt : j < 312
    · rw [if_pos (by omega), if_pos (by omega)]
      refine ⟨{ t with loc := t.loc + 1 }, by rw [hb _ (by omega), hl, Int.toNat_natCast, ← hp], c, j + 1, by omega, ?_, by omega, hst, hb⟩
      show t.loc + 1 = _
      omega
    · rw [if_neg (by omega)]
      have hj2 : j = 312 := by omega
      obtain ⟨f, hf, hF⟩ := sfmtFill_def t
      have hg := genArray_spec (N := 156) (P := 122) (by decide) hy (156 * c) 156 (le_refl _) (fun _ => ⟨0, 0, 0, 0⟩)
        (t.st 154, t.st 155) t.st hst (by rw [hst 154 (by decide), hst 155 (by decide)])
      rw [← hf] at hg
      obtain ⟨g1, g2, -⟩ := hg
      simp only [hF]
      have hbuf : ∀ q < 312, words64 f.arr q = V (312 * (c + 1) + q) := by
        intro q hq
        have : words64 f.arr q = words64 (fun k => W128.unpack (x (156 * c + 156 + k))) q := by
          rw [words64, words64, g1 _ (by omega)]
        rw [this, words64_unpack (fun k => x (156 * c + 156 + k)), hV]
        simp only [if_neg (show ¬ 312 * (c + 1) + q < 312 by omega)]
        rw [show 156 + (312 * (c + 1) + q - 312) / 2 = 156 * c + 156 + q / 2 by omega, show (312 * (c + 1) + q) % 2 = q % 2 by omega]
      refine ⟨⟨f.st, words64 f.arr, 1⟩, ?_, c + 1, 1, by omega, rfl, by decide, fun i hi => ?_, hbuf⟩
      · rw [hbuf 0 (by decide), hp, hj2, Nat.mul_succ, Nat.add_zero]
      · show f.st i = _
        rw [g2 i hi, Nat.mul_succ]
  · show _ = W128.unpack (x (156 * 0 + i))
    rw [Nat.mul_zero, Nat.zero_add, hk i hi]; exact (unpack_pack _).symm
  · rw [hV]; simp [hq]

/-- The sequence started by an array; it exists for every array. -/
def sfmtSeq (st : Nat → U128) (n : Nat) : U128 :=
  if n < 156 then st n
  else sfmtSpec (sfmtSeq st (n - 156)) (sfmtSeq st (n - 156 + 122)) (sfmtSeq st (n - 156 + 154)) (sfmtSeq st (n - 156 + 155))
termination_by n
decreasing_by all_goals omega

theorem sfmt_solution (st : Nat → U128) : ∃ x : Nat → U128,
    (∀ k, x (k + 156) = sfmtSpec (x k) (x (k + 122)) (x (k + 154)) (x (k + 155))) ∧ ∀ i < 156, x i = st i := by
  refine ⟨sfmtSeq st, fun k => ?_, fun i hi => ?_⟩
  · rw [sfmtSeq, if_neg (by omega), Nat.add_sub_cancel]
  · rw [sfmtSeq, if_pos hi]

/-- C13 for SFMT (partial): locations `0..312` never lead outside the buffer. Missing: the setter takes any integer. -/
theorem C13_sfmt_partial (s : Sfmt) (h0 : 0 ≤ s.loc) (h1 : s.loc ≤ 312) (n : Nat) : (nthO sfmtNext64 n s).isSome := by
  obtain ⟨x, hx, hk⟩ := sfmt_solution (fun i => (s.st i).pack)
  rw [C65_sfmt s h0 h1 x hx hk n]; rfl

/-- C13 fails for SFMT: an accepted negative `buffer_loc` is read outside the buffer. -/
theorem not_C13_sfmt (s : Sfmt) (h : s.loc < 0) : nthO sfmtNext64 0 s = none := by
  have : sfmtNext64 s = none := by rw [sfmtNext64, if_pos (by omega), if_neg (by omega)]
  rw [nthO, runO, Option.bind_some, this]; rfl

/-- A state to which the theorems apply, and an output beyond the buffer. -/
example : nthO sfmtNext64 1 ⟨fun i => ⟨BitVec.ofNat 32 (i + 1), 0, 0, BitVec.ofNat 32 (i * i)⟩, fun _ => 0, 311⟩ = some 40894721 := by
  decide +kernel

/-! ### C36 -/

/-- C36: the strides of the table jumps applied by `jump_n` add up to `count * 2^128`, and only the five existing tables
are used. -/
theorem C36_strides (count : Nat) : ((jumpPlan count).map (2 ^ ·)).sum = count * 2 ^ 128 ∧
    ∀ e ∈ jumpPlan count, e ∈ [128, 132, 136, 140, 144] := by
  induction count using Nat.strong_induction_on with
  | _ n ih =>
    rw [jumpPlan]
    split
    · rename_i h; subst h; simp
    split
    · obtain ⟨h1, h2⟩ := ih (n - 65536) (by omega)
      refine ⟨by rw [List.map_cons, List.sum_cons, h1]; omega, fun e he => ?_⟩
      rcases List.mem_cons.1 he with rfl | he
      · simp
      · exact h2 e he
    split
    · obtain ⟨h1, h2⟩ := ih (n - 4096) (by omega)
      refine ⟨by rw [List.map_cons, List.sum_cons, h1]; omega, fun e he => ?_⟩
      rcases List.mem_cons.1 he with rfl | he
      · simp
      · exact h2 e he
    split
    · obtain ⟨h1, h2⟩ := ih (n - 256) (by omega)
      refine ⟨by rw [List.map_cons, List.sum_cons, h1]; omega, fun e he => ?_⟩
      rcases List.mem_cons.1 he with rfl | he
      · simp
      · exact h2 e he
    split
    · obtain ⟨h1, h2⟩ := ih (n - 16) (by omega)
      refine ⟨by rw [List.map_cons, List.sum_cons, h1]; omega, fun e he => ?_⟩
      rcases List.mem_cons.1 he with rfl | he
      · simp
      · exact h2 e he
    · obtain ⟨h1, h2⟩ := ih (n - 1) (by omega)
      refine ⟨by rw [List.map_cons, List.sum_cons, h1]; omega, fun e he => ?_⟩
      rcases List.mem_cons.1 he with rfl | he
      · simp
      · exact h2 e he

/-- C36: if the table jumps are `2^e` steps of the generator, `jump_n` is `count * 2^128` steps. -/
theorem C36_steps {σ : Type} (T : σ → σ) (J : Nat → σ → σ) (hJ : ∀ e ∈ [128, 132, 136, 140, 144], ∀ s, J e s = T^[2 ^ e] s) (count : Nat) (s : σ) :
    jumpN J count s = T^[count * 2 ^ 128] s := by
  obtain ⟨h1, h2⟩ := C36_strides count
  rw [← h1, jumpN]
  clear h1
  generalize jumpPlan count = plan at h2 ⊢
  induction plan generalizing s with
  | nil => rfl
  | cons e es ih =>
    rw [List.foldl_cons, ih _ (fun e' he => h2 e' (List.mem_cons_of_mem _ he)), hJ e (h2 e List.mem_cons_self), List.map_cons, List.sum_cons,
      Nat.add_comm, Function.iterate_add_apply]

/-- C36: exactly the numbers `0 ≤ iter < 2^31` are accepted, and `k` and `l` jumps make `k + l` jumps. -/
theorem C36_accepted {σ : Type} (T : σ → σ) (J : Nat → σ → σ) (hJ : ∀ e ∈ [128, 132, 136, 140, 144], ∀ s, J e s = T^[2 ^ e] s) (iter : Int) (s : σ) :
    (0 ≤ iter ∧ iter < 2 ^ 31 → jumpInplace J iter s = .ok (T^[iter.toNat * 2 ^ 128] s)) ∧
    (¬ (0 ≤ iter ∧ iter < 2 ^ 31) → ∃ e, jumpInplace J iter s = .error e) := by
  constructor
  · intro h
    rw [jumpInplace, if_neg (by omega), if_neg (by omega), C36_steps T J hJ]
  · intro h
    rw [jumpInplace]
    split
    · exact ⟨_, rfl⟩
    · rw [if_pos (by omega)]; exact ⟨_, rfl⟩

example : jumpPlan 70001 = [144, 140, 136, 132, 132, 132, 132, 132, 132, 132, 128] := by decide +kernel

/-- The hypotheses can be met: steps of a counter. -/
example : ∃ J : Nat → U64 → U64, ∀ e ∈ [128, 132, 136, 140, 144], ∀ s, J e s = (· + 1)^[2 ^ e] s := ⟨fun e s => (· + 1)^[2 ^ e] s, fun _ _ _ => rfl⟩

end Verif
