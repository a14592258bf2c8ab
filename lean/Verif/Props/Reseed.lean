import Verif.Model.Reseed
import Verif.Model.BlockCtr
import Verif.Model.CtrMode
import Verif.Model.ChaCha
import Verif.Proof.Mt
import Verif.Props.Mt
import Verif.Props.StateRoundTrip

/-! C14: re-seeding forgets all history. For every class: two instances with the same construction attributes, whatever
words, positions and buffered halves their histories have left behind, are equal after seeding with the same words - or,
where the code leaves an old buffer in place, deliver the same draws from then on. A new instance is one of the two. -/

namespace Verif

attribute [local irreducible] jsfSeed jsfNext simdInit sfmtFill dsfmtFill Nat.iterate

/-- Two states that take the same next step deliver the same draws. -/
theorem nthO_of_next {σ α : Type} (nx : σ → Option (α × σ)) {s t : σ} (h : nx s = nx t) (n : Nat) : nthO nx n s = nthO nx n t := by
  cases n with
  | zero => simp only [nthO, runO]; show (nx s).map Prod.fst = (nx t).map Prod.fst; rw [h]
  | succ n => simp only [nthO, runO, h]

/-! ### Generators whose words are all assigned -/

theorem C14_xoshiro256_512 {n : Nat} (gen : Nat → U64) (s t : XoshI n) : xoshReseed gen s = xoshReseed gen t := rfl

theorem C14_xoroshiro128 (gen : Nat → U64) (s t : XoroI) (h : s.plusplus = t.plusplus) (ha : s.actPlusplus = t.actPlusplus) :
    xoroReseed gen s = xoroReseed gen t := by
  rw [xoroReseed, xoroReseed, h, ha]

theorem C14_lxm (gen : Nat → U64) (s t : LxmI) (h : s.b = t.b) : lxmReseed gen s = lxmReseed gen t := by
  rw [lxmReseed, lxmReseed, h]

theorem C14_sfc64 (w k : Option U64) (gen : Nat → U64) (s t : SfcI) : sfcReseed w k gen s = sfcReseed w k gen t := rfl

theorem C14_romu (gen : Nat → U64) (s t : RomuI) (h : s.variant = t.variant) : romuReseed gen s = romuReseed gen t := by
  rw [romuReseed, romuReseed, h]

theorem C14_tyche (gen : Nat → U32) (idx : Option Int) (s t : TycheI) (h : s.original = t.original) (ha : s.actOriginal = t.actOriginal) :
    tycheReseed gen idx s = tycheReseed gen idx t := by
  cases idx <;> simp only [tycheReseed, h, ha]

theorem C14_pcg32 (gen : Nat → U64) (inc : Option U64) (s t : Pcg32I) : pcg32Reseed gen inc s = pcg32Reseed gen inc t := rfl

theorem C14_pcg64 (gen : Nat → U64) (inc : Option U128) (s t : Pcg64I) (hv : s.variant = t.variant) (hu : s.useDxsm = t.useDxsm)
    (hc : s.cheap = t.cheap) (ha : s.actCheap = t.actCheap) : pcg64Reseed gen inc s = pcg64Reseed gen inc t := by
  rw [pcg64Reseed, pcg64Reseed, hv, hu, hc, ha]

theorem C14_lcg128mix (mult : U128) (gen : Nat → U64) (inc : Option U128) (s t : LcgMixI) (hd : s.dxsm = t.dxsm) (hp : s.post = t.post)
    (hi : s.outputIdx = t.outputIdx) (hf : s.outputFunc = t.outputFunc) (hc : s.cfunc = t.cfunc) :
    lcgMixReseed mult gen inc s = lcgMixReseed mult gen inc t := by
  rw [lcgMixReseed, lcgMixReseed, hd, hp, hi, hf, hc]

theorem C14_squares (gen : U64) (counter key : Option Int) (s t : SquaresI) (hv : s.variant = t.variant) (hu : s.use64 = t.use64)
    (ha : s.act64 = t.act64) : squaresReseed gen counter key s = squaresReseed gen counter key t := by
  simp only [squaresReseed, hv, hu, ha]

example : ∃ s t : Pcg64I, s.variant = t.variant ∧ s.useDxsm = t.useDxsm ∧ s.cheap = t.cheap ∧ s.actCheap = t.actCheap ∧ s.state ≠ t.state ∧ s.has ≠ t.has :=
  ⟨⟨17, 3, 1, 1, 77, "dxsm", true, true, true⟩, ⟨0, 0, 0, 0, 0, "dxsm", true, true, true⟩, rfl, rfl, rfl, rfl, by decide, by decide⟩

example : ∃ s t : LcgMixI, s.dxsm = t.dxsm ∧ s.post = t.post ∧ s.outputIdx = t.outputIdx ∧ s.outputFunc = t.outputFunc ∧ s.cfunc = t.cfunc ∧
    s.mult ≠ t.mult ∧ s.uint ≠ t.uint :=
  ⟨⟨17, 3, 5, 9, 1, 2, 2, 1, 77, none⟩, ⟨0, 0, 0, 9, 1, 2, 2, 0, 0, none⟩, rfl, rfl, rfl, rfl, rfl, by decide, by decide⟩

example : ∃ s t : TycheI, s.original = t.original ∧ s.actOriginal = t.actOriginal ∧ s ≠ t := ⟨⟨1, 2, 3, 4, true, true⟩, ⟨0, 0, 0, 0, true, true⟩, rfl, rfl, by decide⟩

example : ∃ s t : SquaresI, s.variant = t.variant ∧ s.use64 = t.use64 ∧ s.act64 = t.act64 ∧ s ≠ t :=
  ⟨⟨3, 12, 1, 5, 64, true, true⟩, ⟨0, 0, 0, 0, 64, true, true⟩, rfl, rfl, rfl, by decide⟩

/-! ### JSF -/

theorem trunc_setLow (x : U64) (y : U32) : (setLow x y).truncate 32 = y := by
  rw [setLow]
  apply BitVec.eq_of_getLsbD_eq
  intro i hi
  simp [hi]

/-- The words the installed functions work on. -/
def jsfCore32 (s : JsfI) : Jsf 32 := ⟨s.a.truncate 32, s.b.truncate 32, s.c.truncate 32, s.d.truncate 32⟩
def jsfCore64 (s : JsfI) : Jsf 64 := ⟨s.a, s.b, s.c, s.d⟩

/-- C14 for JSF, 64-bit words. -/
theorem C14_jsf64 (g64 : Nat → U64) (g32 : Nat → U32) (s t : JsfI) (h64 : s.size = 64) (hz : s.size = t.size) (hn : s.seedSize = t.seedSize)
    (hp : s.p = t.p) (hq : s.q = t.q) (hr : s.r = t.r) (ha : s.act64 = t.act64) : jsfReseed g64 g32 s = jsfReseed g64 g32 t := by
  rw [jsfReseed, jsfReseed, ← hz, if_pos h64, if_pos h64, hn, hp, hq, hr, ha]

/-- C14 for JSF, 32-bit words: the upper halves of the words survive, but nothing of what is drawn or saved. -/
theorem C14_jsf32 (g64 : Nat → U64) (g32 : Nat → U32) (s t : JsfI) (h32 : s.size ≠ 64) (hz : s.size = t.size) (hn : s.seedSize = t.seedSize)
    (hp : s.p = t.p) (hq : s.q = t.q) (hr : s.r = t.r) :
    (jsfReseed g64 g32 s).map (fun u => (jsfCore32 u, u.has, u.uint, u.p, u.q, u.r, jsfGet u)) =
      (jsfReseed g64 g32 t).map (fun u => (jsfCore32 u, u.has, u.uint, u.p, u.q, u.r, jsfGet u)) := by
  simp only [jsfReseed, ← hz, if_neg h32, ← hn, ← hp, ← hq, ← hr]
  generalize jsfSeed _ g32 _ = o
  cases o with
  | none => simp only [Option.map_none]
  | some r => simp only [Option.map_some, jsfCore32, jsfGet, trunc_setLow, if_neg h32]

example : ∃ s t : JsfI, s.size ≠ 64 ∧ s.size = t.size ∧ s.seedSize = t.seedSize ∧ s.p = t.p ∧ s.a ≠ t.a ∧ s.has ≠ t.has :=
  ⟨⟨5 <<< 40, 1, 2, 3, 27, 17, 0, 1, 9, 32, 3, false⟩, ⟨0, 0, 0, 0, 27, 17, 0, 0, 0, 32, 3, false⟩, by decide, rfl, rfl, rfl, by decide, by decide⟩

/-! ### EFIIX64 -/

theorem arbeeFill_indep {n : Nat} (idx : Nat → Fin n) (m : Nat) (t t' : Fin n → U64) (sd : Arbee) :
    (arbeeFill idx (fun _ v => v) m (t, sd)).2 = (arbeeFill idx (fun _ v => v) m (t', sd)).2 ∧
      ∀ w < m, (arbeeFill idx (fun _ v => v) m (t, sd)).1 (idx w) = (arbeeFill idx (fun _ v => v) m (t', sd)).1 (idx w) := by
  induction m with
  | zero => exact ⟨rfl, fun _ h => absurd h (Nat.not_lt_zero _)⟩
  | succ m ih =>
    obtain ⟨h1, h2⟩ := ih
    refine ⟨by simp only [arbeeFill]; rw [h1], fun w hw => ?_⟩
    simp only [arbeeFill, upd, h1]
    by_cases e : idx w = idx m
    · rw [if_pos e, if_pos e]
    · rw [if_neg e, if_neg e]
      have : w ≠ m := fun h => e (by rw [h])
      exact h2 w (by omega)

theorem arbeeFill_cover {n : Nat} (idx : Nat → Fin n) (m : Nat) (hc : ∀ j, ∃ w < m, idx w = j) (t t' : Fin n → U64) (sd : Arbee) :
    arbeeFill idx (fun _ v => v) m (t, sd) = arbeeFill idx (fun _ v => v) m (t', sd) := by
  obtain ⟨h1, h2⟩ := arbeeFill_indep idx m t t' sd
  refine Prod.ext (funext fun j => ?_) h1
  obtain ⟨w, hw, rfl⟩ := hc j
  exact h2 w hw

theorem efiixSeed_indep (s t : Efiix) (s1 s2 s3 s4 : U64) : efiixSeed s s1 s2 s3 s4 = efiixSeed t s1 s2 s3 s4 := by
  have e1 : ∀ sd, arbeeFill (fun w => (⟨w % 16, Nat.mod_lt _ (by decide)⟩ : Fin 16)) (fun _ v => v) 16 (s.ind, sd) =
      arbeeFill (fun w => (⟨w % 16, Nat.mod_lt _ (by decide)⟩ : Fin 16)) (fun _ v => v) 16 (t.ind, sd) := fun sd =>
    arbeeFill_cover _ 16 (fun j => ⟨j.val, j.isLt, Fin.ext (Nat.mod_eq_of_lt j.isLt)⟩) _ _ sd
  have e2 : ∀ (r : U64) sd, arbeeFill (fun w => ix32 (BitVec.ofNat 64 w + r)) (fun _ v => v) 32 (s.itr, sd) =
      arbeeFill (fun w => ix32 (BitVec.ofNat 64 w + r)) (fun _ v => v) 32 (t.itr, sd) := fun r sd =>
    arbeeFill_cover _ 32 (fun j => ⟨(j.val + 32 - r.toNat % 32) % 32, Nat.mod_lt _ (by decide), Fin.ext (by
      show (BitVec.ofNat 64 ((j.val + 32 - r.toNat % 32) % 32) + r).toNat % 32 = j.val
      rw [BitVec.toNat_add, BitVec.toNat_ofNat]
      have := j.isLt
      omega)⟩) _ _ sd
  simp only [efiixSeed]
  rw [e1]
  simp only [e2]

/-- C14 for EFIIX64: both tables are overwritten completely, wherever the seeder lets the second one start. -/
theorem C14_efiix64 (gen : Nat → U64) (s t : EfiixI) : efiixReseed gen s = efiixReseed gen t := by
  simp only [efiixReseed]
  rw [efiixSeed_indep _ ⟨fun j => t.ind[j], fun j => t.itr[j], t.i, t.a, t.b, t.c⟩]

/-! ### Counter-based generators -/

/-- C14 for Philox and ThreeFry: everything the generator holds (four buffer slots) is equal. -/
theorem C14_philox_threefry {w : Nat} (N kN : Nat) (s t : CtrGen w) (key counter : Nat) :
    (cmSeed N kN s key counter).ctr = (cmSeed N kN t key counter).ctr ∧ (cmSeed N kN s key counter).key = (cmSeed N kN t key counter).key ∧
    (cmSeed N kN s key counter).pos = (cmSeed N kN t key counter).pos ∧ (cmSeed N kN s key counter).has = (cmSeed N kN t key counter).has ∧
    (cmSeed N kN s key counter).uinteger = (cmSeed N kN t key counter).uinteger ∧
    ∀ i < 4, (cmSeed N kN s key counter).buf i = (cmSeed N kN t key counter).buf i := by
  refine ⟨rfl, rfl, rfl, rfl, rfl, fun i hi => ?_⟩
  show (if i < 4 then (0 : BitVec w) else s.buf i) = if i < 4 then 0 else t.buf i
  rw [if_pos hi, if_pos hi]

/-- C14 for SPECK128: the old buffer stays but is never read. -/
theorem C14_speck128 (s t : Speck) (h : s.rounds = t.rounds) (k0 k1 k2 k3 : U64) (c : Ctr) (n : Nat) :
    nthO speckNext n (speckSeed s k0 k1 k2 k3 c) = nthO speckNext n (speckSeed t k0 k1 k2 k3 c) ∧
      (speckSeed s k0 k1 k2 k3 c).has = false ∧ (speckSeed s k0 k1 k2 k3 c).uinteger = 0 := by
  refine ⟨nthO_of_next _ ?_ n, rfl, rfl⟩
  have e : speckGen (speckSeed s k0 k1 k2 k3 c) = speckGen (speckSeed t k0 k1 k2 k3 c) := by
    simp only [speckGen, speckSeed, h]
  rw [speckNext, speckNext, if_pos (show (speckSeed s k0 k1 k2 k3 c).offset = 96 from rfl),
    if_pos (show (speckSeed t k0 k1 k2 k3 c).offset = 96 from rfl), e]

/-- C14 for AESCounter. -/
theorem C14_aes (s t : Aes) (k0 k1 : U64) (counter : Nat) (n : Nat) :
    nthO aesNext n (aesSeed s k0 k1 counter) = nthO aesNext n (aesSeed t k0 k1 counter) ∧ (aesSeed s k0 k1 counter).has = false ∧
      (aesSeed s k0 k1 counter).uinteger = 0 := by
  refine ⟨nthO_of_next _ ?_ n, rfl, rfl⟩
  have e : aesGen (aesSeed s k0 k1 counter) = aesGen (aesSeed t k0 k1 counter) := by simp only [aesGen, aesSeed]
  rw [aesNext, aesNext, if_pos (show (aesSeed s k0 k1 counter).offset ≥ 64 from le_refl 64),
    if_pos (show (aesSeed t k0 k1 counter).offset ≥ 64 from le_refl 64), e]

theorem ccGen_congr (core : Int → Rows → Rows) (b b' : Rows) (k0 k1 : V4) (c0 c1 : U64) (r : Int) :
    ccGenWith core ⟨b, k0, k1, c0, c1, r⟩ = ccGenWith core ⟨b', k0, k1, c0, c1, r⟩ := rfl

/-- C14 for ChaCha: the block is computed anew. -/
theorem C14_chacha (s t : ChaCha) (h : s.rounds = t.rounds) (s0 s1 t0 t1 c0 c1 : U64) :
    ccSeed s s0 s1 t0 t1 c0 c1 = ccSeed t s0 s1 t0 t1 c0 c1 := by
  simp only [ccSeed, ccGen]
  generalize ccCore = core
  rw [h, ccGen_congr core s.block t.block]

/-! ### SFMT and dSFMT -/

/-- C14 for SFMT: the old buffer stays but is never read. -/
theorem C14_sfmt (s t : Sfmt) (key : List U32) (n : Nat) : nthO sfmtNext64 n (sfmtSeed s key) = nthO sfmtNext64 n (sfmtSeed t key) := by
  refine nthO_of_next _ ?_ n
  rw [sfmtNext64, sfmtNext64, if_neg (show ¬ (sfmtSeed s key).loc < 312 by show ¬ (312 : Int) < 312; decide),
    if_neg (show ¬ (sfmtSeed t key).loc < 312 by show ¬ (312 : Int) < 312; decide)]
  have e : sfmtFill (sfmtSeed s key) = sfmtFill (sfmtSeed t key) := by unfold sfmtFill sfmtSeed; simp only
  simp only [e]

/-- C14 for dSFMT. -/
theorem C14_dsfmt (s t : Dsfmt) (key : List U32) (n : Nat) : nthO dsfmtNext n (dsfmtSeed s key) = nthO dsfmtNext n (dsfmtSeed t key) := by
  refine nthO_of_next _ ?_ n
  rw [dsfmtNext, dsfmtNext, if_neg (show ¬ (dsfmtSeed s key).loc < 382 by show ¬ (382 : Int) < 382; decide),
    if_neg (show ¬ (dsfmtSeed t key).loc < 382 by show ¬ (382 : Int) < 382; decide)]
  have e : dsfmtFill (dsfmtSeed s key) = dsfmtFill (dsfmtSeed t key) := by unfold dsfmtFill dsfmtSeed; simp only
  simp only [e]

/-! ### MT19937 and MT64 -/

section
variable {w : Nat}

/-- Two runs of the seeding loops that agree on the array; the second component of the comparison is the memory behind
the array, which is left alone. -/
structure InitAgree (P : MtPar w) (os ot : Nat → BitVec w) (s t : MtInit w) : Prop where
  i : s.i = t.i
  j : s.j = t.j
  lo : 1 ≤ s.i
  hi : s.i < P.N
  inside : ∀ n < P.N, s.k n = t.k n
  outS : ∀ n, P.N ≤ n → s.k n = os n
  outT : ∀ n, P.N ≤ n → t.k n = ot n

theorem InitAgree.put {P : MtPar w} {os ot : Nat → BitVec w} {s t : MtInit w} (h : InitAgree P os ot s t) (v : BitVec w) :
    InitAgree P os ot (mtWrap P { s with k := Function.update s.k s.i v }) (mtWrap P { t with k := Function.update t.k t.i v }) := by
  obtain ⟨i, j, lo, hi, ins, outS, outT⟩ := h
  have hN : 1 < P.N := by have := P.hM; omega
  have u : ∀ n < P.N, Function.update s.k s.i v n = Function.update t.k t.i v n := fun n hn => by
    rw [← i]
    by_cases e : n = s.i
    · rw [e, Function.update_self, Function.update_self]
    · rw [Function.update_of_ne e, Function.update_of_ne e, ins n hn]
  have oS : ∀ n, P.N ≤ n → Function.update s.k s.i v n = os n := fun n hn => by
    rw [Function.update_of_ne (by omega), outS n hn]
  have oT : ∀ n, P.N ≤ n → Function.update t.k t.i v n = ot n := fun n hn => by
    rw [Function.update_of_ne (by omega), outT n hn]
  by_cases hw : P.N ≤ s.i + 1
  · rw [mtWrap, mtWrap, if_pos hw, if_pos (show P.N ≤ t.i + 1 by omega)]
    refine ⟨rfl, j, le_refl 1, hN, fun n hn => ?_, fun n hn => ?_, fun n hn => ?_⟩
    · by_cases e : n = 0
      · subst e
        simp only [Function.update_self]
        exact u (P.N - 1) (by omega)
      · dsimp only
        rw [Function.update_of_ne e, Function.update_of_ne e]
        exact u n hn
    · dsimp only
      rw [Function.update_of_ne (by omega)]; exact oS n hn
    · dsimp only
      rw [Function.update_of_ne (by omega)]; exact oT n hn
  · rw [mtWrap, mtWrap, if_neg hw, if_neg (show ¬ P.N ≤ t.i + 1 by omega)]
    exact ⟨by show s.i + 1 = t.i + 1; omega, j, by show 1 ≤ s.i + 1; omega, by show s.i + 1 < P.N; omega, u, oS, oT⟩

theorem InitAgree.init1 {P : MtPar w} {os ot : Nat → BitVec w} {s t : MtInit w} (h : InitAgree P os ot s t) (c : BitVec w) (sh : Nat) (key : List (BitVec w)) :
    InitAgree P os ot (mtInit1 P c sh key s) (mtInit1 P c sh key t) := by
  obtain ⟨sk, si, sj⟩ := s
  obtain ⟨tk, ti, tj⟩ := t
  obtain rfl : si = ti := h.i
  obtain rfl : sj = tj := h.j
  have a : sk si = tk si := h.inside si h.hi
  have b : sk (si - 1) = tk (si - 1) := h.inside (si - 1) (by have := h.hi; simp only at this; omega)
  have g := h.put ((tk si ^^^ ((tk (si - 1) ^^^ (tk (si - 1) >>> sh)) * c)) + key.getD sj 0 + BitVec.ofNat w sj)
  simp only [mtInit1, a, b]
  exact ⟨g.i, by rw [g.j], g.lo, g.hi, g.inside, g.outS, g.outT⟩

theorem InitAgree.init2 {P : MtPar w} {os ot : Nat → BitVec w} {s t : MtInit w} (h : InitAgree P os ot s t) (c : BitVec w) (sh : Nat) :
    InitAgree P os ot (mtInit2 P c sh s) (mtInit2 P c sh t) := by
  obtain ⟨sk, si, sj⟩ := s
  obtain ⟨tk, ti, tj⟩ := t
  obtain rfl : si = ti := h.i
  have a : sk si = tk si := h.inside si h.hi
  have b : sk (si - 1) = tk (si - 1) := h.inside (si - 1) (by have := h.hi; simp only at this; omega)
  have g := h.put ((tk si ^^^ ((tk (si - 1) ^^^ (tk (si - 1) >>> sh)) * c)) - BitVec.ofNat w si)
  simp only [mtInit2, a, b]
  exact g

theorem InitAgree.iterate {P : MtPar w} {os ot : Nat → BitVec w} (f : MtInit w → MtInit w)
    (hf : ∀ s t, InitAgree P os ot s t → InitAgree P os ot (f s) (f t)) (n : Nat) {s t : MtInit w} (h : InitAgree P os ot s t) :
    InitAgree P os ot (f^[n] s) (f^[n] t) := by
  induction n generalizing s t with
  | zero => rwa [Function.iterate_zero_apply, Function.iterate_zero_apply]
  | succ n ih => rw [Function.iterate_succ_apply, Function.iterate_succ_apply]; exact ih (hf s t h)

theorem mtKnuth_agree (P : MtPar w) (mult : BitVec w) (sh : Nat) (seed : BitVec w) (os ot : Nat → BitVec w) :
    (∀ n < P.N, (mtKnuth P mult sh seed os).key n = (mtKnuth P mult sh seed ot).key n) ∧
      ∀ n, P.N ≤ n → (mtKnuth P mult sh seed os).key n = os n := by
  have hN := P.hM
  constructor
  · have key : ∀ m, m + 1 ≤ P.N → ∀ n ≤ m,
        (List.range' 1 m).foldl (fun k i => Function.update k i (mult * (k (i - 1) ^^^ (k (i - 1) >>> sh)) + BitVec.ofNat w i)) (Function.update os 0 seed) n =
        (List.range' 1 m).foldl (fun k i => Function.update k i (mult * (k (i - 1) ^^^ (k (i - 1) >>> sh)) + BitVec.ofNat w i)) (Function.update ot 0 seed) n := by
      intro m
      induction m with
      | zero =>
        intro _ n hn
        obtain rfl : n = 0 := by omega
        show Function.update os 0 seed 0 = Function.update ot 0 seed 0
        rw [Function.update_self, Function.update_self]
      | succ m ih =>
        intro hm n hn
        rw [List.range'_concat, List.foldl_append, List.foldl_append]
        simp only [List.foldl_cons, List.foldl_nil]
        rw [show 1 + 1 * m - 1 = m by omega, ih (by omega) m (le_refl m)]
        by_cases e : n = 1 + 1 * m
        · rw [e, Function.update_self, Function.update_self]
        · rw [Function.update_of_ne e, Function.update_of_ne e, ih (by omega) n (by omega)]
    intro n hn
    exact key (P.N - 1) (by omega) n (by omega)
  · have := foldl_range'_inv (fun (k : Nat → BitVec w) i => Function.update k i (mult * (k (i - 1) ^^^ (k (i - 1) >>> sh)) + BitVec.ofNat w i))
      (fun _ k => ∀ n, P.N ≤ n → k n = os n) 1 (P.N - 1) (Function.update os 0 seed)
      (fun n hn => Function.update_of_ne (by omega) _ _)
      (fun m k h1 h2 ih n hn => by
        show Function.update k m _ n = os n
        rw [Function.update_of_ne (by omega)]; exact ih n hn)
    exact this

/-- Seeding by array depends on nothing that was in the array, and writes nothing outside it. -/
theorem mtInitArray_agree (P : MtPar w) (knuth c1 c2 : BitVec w) (sh : Nat) (msb : BitVec w) (key : List (BitVec w)) (os ot : Nat → BitVec w) :
    (∀ n < P.N, (mtInitArray P knuth c1 c2 sh msb key os).key n = (mtInitArray P knuth c1 c2 sh msb key ot).key n) ∧
      (∀ n, P.N ≤ n → (mtInitArray P knuth c1 c2 sh msb key os).key n = os n) ∧
      (mtInitArray P knuth c1 c2 sh msb key os).pos = P.N := by
  have hN := P.hM
  obtain ⟨k1, k2⟩ := mtKnuth_agree P knuth sh 19650218 os ot
  have k3 := (mtKnuth_agree P knuth sh 19650218 ot os).2
  have h0 : InitAgree P os ot ⟨(mtKnuth P knuth sh 19650218 os).key, 1, 0⟩ ⟨(mtKnuth P knuth sh 19650218 ot).key, 1, 0⟩ :=
    ⟨rfl, rfl, le_refl 1, by show 1 < P.N; omega, k1, k2, k3⟩
  have h1 := InitAgree.iterate _ (fun s t h => h.init1 c1 sh key) (max P.N key.length) h0
  have h2 := InitAgree.iterate _ (fun s t h => h.init2 c2 sh) (P.N - 1) h1
  refine ⟨fun n hn => ?_, fun n hn => ?_, rfl⟩
  · simp only [mtInitArray]
    by_cases e : n = 0
    · rw [e, Function.update_self, Function.update_self]
    · rw [Function.update_of_ne e, Function.update_of_ne e]; exact h2.inside n hn
  · simp only [mtInitArray]
    rw [Function.update_of_ne (by omega)]; exact h2.outS n hn

end

/-- Draws of MT19937 depend on the 624 words and the position only. -/
theorem mt32_draws (s t : Mt 32) (hp : s.pos = t.pos) (h0 : 0 ≤ s.pos) (h1 : s.pos ≤ 624) (h : ∀ i < 624, s.key i = t.key i) (n : Nat) :
    nthO mtNext32 n s = nthO mtNext32 n t := by
  obtain ⟨x, hx, hk⟩ := mt32_solution s.key
  rw [C34_mt19937 s h0 h1 x hx hk n, C34_mt19937 t (by omega) (by omega) x hx (fun i hi => by rw [hk i hi, h i hi]) n, hp]

theorem mt64_draws (s t : Mt 64) (hp : s.pos = t.pos) (h0 : 0 ≤ s.pos) (h1 : s.pos ≤ 312) (h : ∀ i < 312, s.key i = t.key i) (n : Nat) :
    nthO mtNext64 n s = nthO mtNext64 n t := by
  have hb : ∀ u v : U64, ((u &&& 0xFFFFFFFF80000000#64) ||| (v &&& 0x7fffffff#64)).getLsbD 0 = v.getLsbD 0 := fun u v => by
    rw [BitVec.getLsbD_or, BitVec.getLsbD_and, BitVec.getLsbD_and, show (0xFFFFFFFF80000000#64).getLsbD 0 = false from rfl,
      show (0x7fffffff#64).getLsbD 0 = true from rfl]; simp
  have hx : ∀ k, mtSeq mt64 s.key (k + 312) = mtSeq mt64 s.key (k + 156) ^^^
      (((mtSeq mt64 s.key k &&& 0xFFFFFFFF80000000) ||| (mtSeq mt64 s.key (k + 1) &&& 0x7fffffff)) >>> 1) ^^^
      (if (mtSeq mt64 s.key (k + 1)).getLsbD 0 then 0xB5026F5AA96619E9 else 0) := fun k => by
    have := mtSeq_rec mt64 s.key k
    rw [mtWord] at this
    simp only [show mt64.upper = 0xFFFFFFFF80000000#64 from rfl, show mt64.lower = 0x7fffffff#64 from rfl, show mt64.a = 0xB5026F5AA96619E9#64 from rfl,
      show mt64.N = 312 from rfl, show mt64.M = 156 from rfl, hb] at this
    exact this
  have hk : ∀ i < 312, mtSeq mt64 s.key i = s.key i := fun i hi => mtSeq_init mt64 s.key hi
  rw [C34_mt64 s h0 h1 _ hx hk n, C34_mt64 t (by omega) (by omega) _ hx (fun i hi => by rw [hk i hi, h i hi]) n, hp]

/-- C14 for MT19937: all later draws are those of a new generator, and the words behind the array are not written. -/
theorem C14_mt19937 (key : List U32) (os ot : Nat → U32) :
    (∀ n, nthO mtNext32 n (mtSeed32 key os) = nthO mtNext32 n (mtSeed32 key ot)) ∧ ∀ n, 624 ≤ n → (mtSeed32 key os).key n = os n := by
  obtain ⟨h1, h2, h3⟩ := mtInitArray_agree mt32 1812433253 1664525 1566083941 30 0x80000000 key os ot
  have h4 := (mtInitArray_agree mt32 1812433253 1664525 1566083941 30 0x80000000 key ot os).2.2
  refine ⟨fun n => mt32_draws _ _ (h3.trans h4.symm) (h3.trans_ge ?_) (le_of_eq h3) h1 n, h2⟩
  show (0 : Int) ≤ 624
  decide

/-- The array that NumPy's way of seeding leaves. -/
theorem mtSeedNumpy_key (val : List U32) (o : Nat → U32) : (∀ n < 624, (mtSeedNumpy val o).key n = if n = 0 then 0x80000000 else val.getD n 0) ∧
    ∀ n, 624 ≤ n → (mtSeedNumpy val o).key n = o n := by
  have := foldl_range'_inv (fun (k : Nat → U32) i => Function.update k i (val.getD i 0))
    (fun m k => (∀ n < m, k n = if n = 0 then 0x80000000 else val.getD n 0) ∧ ∀ n, 624 ≤ n → k n = o n) 1 623 (Function.update o 0 0x80000000)
    ⟨fun n hn => by obtain rfl : n = 0 := by omega
                    rw [Function.update_self, if_pos rfl], fun n hn => Function.update_of_ne (by omega) _ _⟩
    (fun m k h1 h2 ih => by
      refine ⟨fun n hn => ?_, fun n hn => ?_⟩
      · by_cases e : n = m
        · rw [e]
          show Function.update k m _ m = _
          rw [Function.update_self, if_neg (by omega)]
        · show Function.update k m _ n = _
          rw [Function.update_of_ne e, ih.1 n (by omega)]
      · show Function.update k m _ n = _
        rw [Function.update_of_ne (by omega), ih.2 n hn])
  rw [mtSeedNumpy]
  generalize (List.range' 1 623).foldl (fun (k : Nat → U32) i => Function.update k i (val.getD i 0)) _ = r at this ⊢
  exact this

/-- C14 for MT19937 in numpy mode. -/
theorem C14_mt19937_numpy (val : List U32) (os ot : Nat → U32) :
    (∀ n, nthO mtNext32 n (mtSeedNumpy val os) = nthO mtNext32 n (mtSeedNumpy val ot)) ∧ ∀ n, 624 ≤ n → (mtSeedNumpy val os).key n = os n := by
  refine ⟨fun n => mt32_draws _ _ (by rw [mtSeedNumpy, mtSeedNumpy]) (show (0 : Int) ≤ 623 by decide) (show (623 : Int) ≤ 624 by decide) (fun i hi => ?_) n, (mtSeedNumpy_key val os).2⟩
  exact ((mtSeedNumpy_key val os).1 i hi).trans ((mtSeedNumpy_key val ot).1 i hi).symm

/-- C14 for MT64. -/
theorem C14_mt64 (key : List U64) (os ot : Nat → U64) :
    (∀ n, nthO mtNext64 n (mtSeed64 key os) = nthO mtNext64 n (mtSeed64 key ot)) ∧ ∀ n, 312 ≤ n → (mtSeed64 key os).key n = os n := by
  obtain ⟨h1, h2, h3⟩ := mtInitArray_agree mt64 6364136223846793005 3935559000370003845 2862933555777941757 62 ((1 : U64) <<< 63) key os ot
  have h4 := (mtInitArray_agree mt64 6364136223846793005 3935559000370003845 2862933555777941757 62 ((1 : U64) <<< 63) key ot os).2.2
  refine ⟨fun n => mt64_draws _ _ (h3.trans h4.symm) (h3.trans_ge ?_) (le_of_eq h3) h1 n, h2⟩
  show (0 : Int) ≤ 312
  decide

/-! ### Xorshift1024 -/

/-- C14 for Xorshift1024 fails: seeding leaves the position `p` where the history has left it. A generator that has drawn
one number and is seeded again delivers another stream than a new generator with that seed. -/
theorem not_C14_xorshift1024 : ∃ (gen : Nat → U64) (new old : Xs1024I) (x : U64), new.p = 0 ∧ xs1024NextI (xs1024Reseed gen new) = some (x, old) ∧
    nthO xs1024NextI 0 (xs1024Reseed gen old) ≠ nthO xs1024NextI 0 (xs1024Reseed gen new) := by
  refine ⟨fun i => BitVec.ofNat 64 i, ⟨Vector.replicate 16 0, 0, 0, 0⟩, _, _, rfl, rfl, ?_⟩
  decide +kernel

/-- The part of C14 that holds: the draws depend on the history only through the position. -/
theorem C14_xorshift1024_partial (gen : Nat → U64) (s t : Xs1024I) (h : s.p = t.p) : xs1024Reseed gen s = xs1024Reseed gen t := by
  rw [xs1024Reseed, xs1024Reseed, h]

/-- Positions after `n` draws. -/
theorem xs1024_pos (s : Xs1024I) (h0 : 0 ≤ s.p.toInt) (h1 : s.p.toInt < 16) (n : Nat) :
    ∃ t, runO xs1024NextI n s = some t ∧ t.p.toInt = (s.p.toInt + n) % 16 := by
  induction n generalizing s with
  | zero => exact ⟨s, rfl, by omega⟩
  | succ n ih =>
    have hq : (BitVec.ofNat 32 ((s.p.toInt.toNat + 1) % 16)).toInt = (s.p.toInt + 1) % 16 := by
      rw [BitVec.toInt_eq_toNat_of_lt (by rw [BitVec.toNat_ofNat]; omega), BitVec.toNat_ofNat]
      omega
    rw [runO, xs1024NextI]
    simp only [h0, h1, and_self, dite_true]
    obtain ⟨t, ht, hp⟩ := ih { s with
      s := s.s.set ((s.p.toInt.toNat + 1) % 16) _ (Nat.mod_lt _ (by decide))
      p := BitVec.ofNat 32 ((s.p.toInt.toNat + 1) % 16) } (by simp only [hq]; omega) (by simp only [hq]; omega)
    refine ⟨t, ht, ?_⟩
    simp only [hq] at hp
    rw [hp]; push_cast; omega

/-- C14 for Xorshift1024 holds exactly when the position is back at zero: after a number of draws divisible by sixteen,
re-seeding gives the generator a new instance would be. -/
theorem C14_xorshift1024_draws_partial (gen : Nat → U64) (g0 : Nat → U64) (k : Nat) (hk : k % 16 = 0) (old : Xs1024I)
    (h : runO xs1024NextI k (xs1024Reseed g0 ⟨Vector.replicate 16 0, 0, 0, 0⟩) = some old) :
    xs1024Reseed gen old = xs1024Reseed gen ⟨Vector.replicate 16 0, 0, 0, 0⟩ := by
  obtain ⟨t, ht, hp⟩ := xs1024_pos (xs1024Reseed g0 ⟨Vector.replicate 16 0, 0, 0, 0⟩)
    (show (0 : Int) ≤ 0 by decide) (show (0 : Int) < 16 by decide) k
  rw [ht] at h
  obtain rfl : t = old := by simpa using h
  refine C14_xorshift1024_partial gen _ _ (BitVec.eq_of_toInt_eq ?_)
  rw [hp]
  show ((0 : Int) + k) % 16 = 0
  omega

/-- C13 for Xorshift1024: the stored position is not checked; the condition for defined behaviour is that it is an
index of the array. -/
theorem C13_xorshift1024_partial (s : Xs1024I) : (∀ n, (nthO xs1024NextI n s).isSome) ↔ 0 ≤ s.p.toInt ∧ s.p.toInt < 16 := by
  constructor
  · intro h
    have := h 0
    by_contra hc
    rw [nthO, runO] at this
    simp [xs1024NextI, hc] at this
  · intro h n
    obtain ⟨t, ht, hp⟩ := xs1024_pos s h.1 h.2 n
    have : 0 ≤ t.p.toInt ∧ t.p.toInt < 16 := by omega
    rw [nthO, ht]
    simp [xs1024NextI, this]

/-- C13 fails for Xorshift1024: a state with position 16 passes the setter. -/
theorem not_C13_xorshift1024 (s : Xs1024I) (w : Vector U64 16) : ∃ v t, xs1024Set v s = (.ok (), t) ∧ t.s = w ∧ nthO xs1024NextI 0 t = none := by
  refine ⟨xs1024Get ⟨w, 16, 0, 0⟩, ⟨w, 16, 0, 0⟩, C11_xorshift1024 _ _, rfl, ?_⟩
  rfl

/-! ### The zero guard of LXM -/

/-- C31: a seeded LXM never has an all-zero xorshift part. -/
theorem C31_lxm_seed (gen : Nat → U64) (s t : LxmI) (h : lxmReseed gen s = some t) : ∃ i : Fin 4, t.x[i] ≠ 0 := by
  rw [lxmReseed] at h
  split at h
  · exact absurd h (by simp)
  · rename_i hz
    by_contra hc
    simp only [not_exists, not_not] at hc
    obtain rfl := Option.some.inj h
    simp only [Fin.getElem_fin, Vector.getElem_ofFn] at hc
    exact hz (by rw [show gen 0 = 0 from hc 0, show gen 1 = 0 from hc 1, show gen 2 = 0 from hc 2, show gen 3 = 0 from hc 3]; rfl)

/-- C31: seeding ends exactly if one of the first four words is not zero, whatever the number of passes allowed. -/
theorem C31_lxm_seed_ends_iff (gen : Nat → U64) (s : LxmI) :
    (∃ fuel t, lxmSeedLoop (fun _ => gen) fuel 0 s = some t) ↔ ∃ i < 4, gen i ≠ 0 := by
  constructor
  · rintro ⟨fuel, t, h⟩
    cases fuel with
    | zero => exact absurd h (by simp [lxmSeedLoop])
    | succ n =>
      rw [lxmSeedLoop_const, lxmReseed] at h
      by_contra hc
      simp only [not_exists, not_and, not_not] at hc
      rw [hc 0 (by omega), hc 1 (by omega), hc 2 (by omega), hc 3 (by omega)] at h
      exact absurd h (by simp)
  · rintro ⟨i, hi, hne⟩
    refine ⟨1, _, (lxmSeedLoop_const gen 0 0 s).trans (if_neg fun hz => hne ?_)⟩
    have key : ∀ a b : U64, a ||| b = 0 → a = 0 ∧ b = 0 := fun a b h => by
      constructor <;> (apply BitVec.eq_of_getLsbD_eq; intro j hj; have := congrArg (fun v => v.getLsbD j) h; simp at this; simp [this])
    obtain ⟨h1, h3⟩ := key _ _ hz
    obtain ⟨h1, h2⟩ := key _ _ h1
    obtain ⟨h0, h1⟩ := key _ _ h1
    interval_cases i <;> assumption

/-- C31 is enforced at the price of termination: with four zero words (a seed sequence other than `SeedSequence` may
deliver them) the constructor never returns. -/
theorem C31_lxm_zero_words (s : LxmI) (fuel : Nat) : lxmSeedLoop (fun _ _ => 0) fuel 0 s = none := by
  cases fuel with
  | zero => rfl
  | succ n => rw [lxmSeedLoop_const]; rfl

end Verif
