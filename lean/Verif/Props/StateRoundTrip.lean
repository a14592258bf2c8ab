import Verif.Proof.PyState
import Verif.Model.Pcg64
import Verif.Model.Squares
import Verif.Model.Reseed

/-! C11: reading `state` and assigning the result to any instance of the class makes that instance equal to the first one
in everything its draws depend on. `s` is the instance read from and `t` the instance assigned to.

`xSet (xGet s) t = (.ok (), s)` says that the assignment succeeds and leaves `t` with every field of `s`, the installed draw
functions included. Where the class keeps derived attributes, `s` is required to be consistent, and a second theorem shows
that every accepted assignment leaves a consistent instance. -/

namespace Verif

open SetM

set_option linter.unusedSimpArgs false

/-- Runs a setter on the dictionary of a getter; the names of the entries are compared by evaluation. -/
macro "round_trip" "[" ls:Lean.Parser.Tactic.simpLemma,* "]" : tactic =>
  `(tactic| simp only [SetM.lift_bind, SetM.modify_bind, SetM.read_bind, SetM.store_bind, SetM.modify_run, SetM.store_ok, header_mk, item_head,
      item_tail, getD_head, getD_tail, item2_eq, halfEntries, asU_pyU, asInt_pyI, checkStateArray_pyArr, asBool_bool, Res.ok_bind,
      List.cons_append, List.nil_append, ne_eq, reduceCtorEq, not_false_eq_true, String.reduceEq, $ls,*])

/-! ### Classes without derived attributes -/

theorem C11_xoshiro256 (s t : XoshI 4) :
    xoshSet "Xoshiro256" "randomgen.xoshiro256.Xoshiro256" (xoshGet "randomgen.xoshiro256.Xoshiro256" s) t = (.ok (), s) := by
  rw [xoshSet, xoshGet]; round_trip []

theorem C11_xoshiro512 (s t : XoshI 8) :
    xoshSet "Xoshiro512" "randomgen.xoshiro512.Xoshiro512" (xoshGet "randomgen.xoshiro512.Xoshiro512" s) t = (.ok (), s) := by
  rw [xoshSet, xoshGet]; round_trip []

theorem C11_xorshift1024 (s t : Xs1024I) : xs1024Set (xs1024Get s) t = (.ok (), s) := by
  rw [xs1024Set, xs1024Get]; round_trip []

theorem C11_lxm (s t : LxmI) : lxmSet (lxmGet s) t = (.ok (), s) := by
  rw [lxmSet, lxmGet]; round_trip []

theorem C11_sfc64 (s t : SfcI) : sfcSet (sfcGet s) t = (.ok (), s) := by
  rw [sfcSet, sfcGet]; round_trip []

theorem C11_efiix64 (s t : EfiixI) : efiixSet (efiixGet s) t = (.ok (), s) := by
  rw [efiixSet, efiixGet]; round_trip []

theorem C11_pcg32 (s t : Pcg32I) : pcg32Set (pcg32Get s) t = (.ok (), s) := by
  rw [pcg32Set, pcg32Get]; round_trip []

theorem C11_mt19937 (s t : Mt32I) : mt32Set (mt32Get s) t = (.ok (), s) := by
  rw [mt32Set, show mt32Legacy (mt32Get s) = .ok (mt32Get s) from id rfl, mt32Get]; round_trip []

/-- The legacy format of NumPy: `("MT19937", key, pos)`, with or without the two entries for the buffered normal. -/
theorem C11_mt19937_legacy (s t : Mt32I) (n : Nat) (hn : n = 3 ∨ n = 5) (f : Nat → PyVal) (h0 : f 0 = .str "MT19937")
    (h1 : f 1 = pyArr s.key) (h2 : f 2 = pyI s.pos) : mt32Set (.tuple n f) t = (.ok (), s) := by
  have e : mt32Legacy (.tuple n f) = .ok (mkDict [("bit_generator", .str "MT19937"), ("state", mkDict [("key", f 1), ("pos", f 2)])]) := by
    rcases hn with rfl | rfl <;> simp [mt32Legacy, h0]
  rw [mt32Set, e, h1, h2]; round_trip [header_short]

theorem C11_mt64 (s t : Mt64I) : mt64Set (mt64Get s) t = (.ok (), s) := by
  rw [mt64Set, mt64Get]; round_trip []

theorem C11_hc128 (s t : Hc128I) : hc128Set (hc128Get s) t = (.ok (), s) := by
  rw [hc128Set, hc128Get]; round_trip []

theorem C11_speck128 (s t : SpeckI) : speckSet (speckGet s) t = (.ok (), s) := by
  rw [speckSet, speckGet]; round_trip []

theorem join64 (x : U64) : ((x >>> (32 * 1)).truncate 32 : U32).zeroExtend 64 <<< 32 ||| ((x >>> (32 * 0)).truncate 32 : U32).zeroExtend 64 = x := by
  apply BitVec.eq_of_getLsbD_eq
  intro j hj
  simp only [BitVec.getLsbD_or, BitVec.getLsbD_shiftLeft, BitVec.truncate_eq_setWidth, BitVec.getLsbD_setWidth, BitVec.getLsbD_ushiftRight]
  by_cases h : j < 32
  · have : j < 64 := by omega
    simp [h, this]
  · have h1 : j - 32 < 32 := by omega
    have h2 : j - 32 < 64 := by omega
    have h3 : 32 + (j - 32) = j := by omega
    simp [h, hj, h1, h2, h3]

theorem view64_view32 (v : Vector U64 312) : view64 (view32 v) = v := by
  apply Vector.ext
  intro i hi
  rw [view64, Vector.getElem_ofFn, view32, Vector.getElem_ofFn, Vector.getElem_ofFn]
  have e1 : (2 * i + 1) / 2 = i := by omega
  have e2 : (2 * i) / 2 = i := by omega
  have e3 : (2 * i + 1) % 2 = 1 := by omega
  have e4 : (2 * i) % 2 = 0 := by omega
  simp only [e1, e2, e3, e4]
  exact join64 v[i]

theorem C11_sfmt (s t : SfmtI) : sfmtSet (sfmtGet s) t = (.ok (), s) := by
  rw [sfmtSet, sfmtGet]; round_trip [view64_view32]

/-- The setter of DSFMT with the unchecked loop replaced by any procedure that stores what it is given. -/
theorem dsfmt_run (s t : DsfmtI) (sv : PyVal → SetM DsfmtI Unit)
    (hb : ∀ v s, sv (.floats (Vector.toList v)) s = (.ok (), { s with buf := v })) : ((do
      lift (header "DSFMT" "randomgen.dsfmt.DSFMT" (dsfmtGet s))
      store (do checkStateArray (← (dsfmtGet s).item2 "state" "state") 384 64) fun a s => { s with st := a }
      store (do asInt (← (dsfmtGet s).item2 "state" "idx")) fun a s => { s with idx := a }
      let u ← lift ((dsfmtGet s).item "buffered_uniforms")
      sv u
      store (do asInt (← (dsfmtGet s).item "buffer_loc")) fun a s => { s with loc := a }) : SetM DsfmtI Unit) t = (.ok (), s) := by
  rw [dsfmtGet]
  round_trip [SetM.bind_of_ok (hb _ _)]

theorem C11_dsfmt (s t : DsfmtI) : dsfmtSet (dsfmtGet s) t = (.ok (), s) := by
  have hl : Lens DsfmtI.buf (fun a s => { s with buf := a }) := ⟨fun _ _ => rfl, fun _ => rfl, fun _ _ _ => rfl⟩
  rw [dsfmtSet]
  exact dsfmt_run s t _ fun v => storeVec_floats hl v

theorem C11_chacha (s t : ChaChaI) : chachaSet (chachaGet s) t = (.ok (), s) := by
  have h1 : Lens ChaChaI.block (fun a s => { s with block := a }) := ⟨fun _ _ => rfl, fun _ => rfl, fun _ _ _ => rfl⟩
  have h2 : Lens ChaChaI.keysetup (fun a s => { s with keysetup := a }) := ⟨fun _ _ => rfl, fun _ => rfl, fun _ _ _ => rfl⟩
  have h3 : Lens ChaChaI.ctr (fun a s => { s with ctr := a }) := ⟨fun _ _ => rfl, fun _ => rfl, fun _ _ _ => rfl⟩
  rw [chachaSet, chachaGet]; round_trip [SetM.bind_of_ok (storeVec_pyArr h1 _ _), SetM.bind_of_ok (storeVec_pyArr h2 _ _), SetM.bind_of_ok (storeVec_pyArr h3 _ _)]

theorem asU64Array_pyArr {n : Nat} (v : Vector U64 n) : asU64Array (pyArr v) = .ok v.toList := by
  simp only [asU64Array, pyArr]
  congr 1
  rw [List.map_map]
  refine (List.map_congr_left fun x _ => ?_).trans (List.map_id _)
  show BitVec.ofNat 64 (x.toNat % 2 ^ 64) = x
  rw [Nat.mod_eq_of_lt x.isLt, BitVec.ofNat_toNat, BitVec.setWidth_eq]

theorem needLen_toList {n : Nat} (v : Vector U64 n) : needLen n v.toList = .ok v := by
  rw [needLen, if_pos (by simp)]
  congr 1
  apply Vector.ext
  intro i hi
  simp [List.getD]

theorem C11_aesctr (s t : AesI) : aesSet (aesGet s) t = (.ok (), s) := by
  have h1 : Lens AesI.state (fun a s => { s with state := a }) := ⟨fun _ _ => rfl, fun _ => rfl, fun _ _ _ => rfl⟩
  rw [aesSet, aesGet]; round_trip [SetM.bind_of_ok (storeVec_pyArr h1 _ _), asU64Array_pyArr, needLen_toList]

/-! ### Classes with derived attributes -/

/-- The installed functions are those of the stored variant. -/
def XoroOk (s : XoroI) : Prop := s.actPlusplus = s.plusplus

theorem C11_xoroshiro128 (s t : XoroI) (h : XoroOk s) : xoroSet (xoroGet s) t = (.ok (), s) := by
  obtain ⟨a, b, c, d, e⟩ := s
  obtain rfl : e = d := h
  rw [xoroSet, xoroGet]; round_trip []

def RomuOk (s : RomuI) : Prop := (s.variant = "quad" ∨ s.variant = "trio") ∧ s.actQuad = (s.variant == "quad")

theorem C11_romu (s t : RomuI) (h : RomuOk s) : romuSet (romuGet s) t = (.ok (), s) := by
  have e : romuCheck (.str s.variant) = .ok s.variant := by
    rcases h.1 with h | h <;> rw [h] <;> decide
  rw [romuSet, romuGet]; round_trip [e]
  rw [← h.2]

def TycheOk (s : TycheI) : Prop := s.actOriginal = s.original

theorem C11_tyche (s t : TycheI) (h : TycheOk s) : tycheSet (tycheGet s) t = (.ok (), s) := by
  obtain ⟨a, b, c, d, e, f⟩ := s
  obtain rfl : f = e := h
  rw [tycheSet, tycheGet]; round_trip []

/-- 32-bit instances only use the low halves of their words: `jsf32_next` reads and writes `.u32` (jsf.h:53-67). -/
def jsfView (s : JsfI) : JsfI :=
  if s.size = 64 then s
  else { s with
    a := (s.a.truncate 32 : U32).zeroExtend 64, b := (s.b.truncate 32 : U32).zeroExtend 64
    c := (s.c.truncate 32 : U32).zeroExtend 64, d := (s.d.truncate 32 : U32).zeroExtend 64 }

def JsfOk (s : JsfI) : Prop := s.act64 = (s.size == 64)

theorem setLow_low (x : U64) (y : U32) : ((setLow x y).truncate 32 : U32) = y := by
  apply BitVec.eq_of_getLsbD_eq
  intro j hj
  have : j < 64 := by omega
  simp [setLow, hj]

theorem C11_jsf (s t : JsfI) (h : JsfOk s) : ∃ t', jsfSet (jsfGet s) t = (.ok (), t') ∧ jsfView t' = jsfView s := by
  by_cases h64 : s.size = 64
  · refine ⟨s, ?_, rfl⟩
    obtain ⟨a, b, c, d, p, q, r, has, uint, size, ss, act⟩ := s
    obtain rfl : act = (size == 64) := h
    simp only at h64
    rw [jsfSet, jsfGet]
    round_trip [jsfPar_pyI, h64, if_true]
  · refine ⟨{ s with
      a := setLow t.a (s.a.truncate 32), b := setLow t.b (s.b.truncate 32), c := setLow t.c (s.c.truncate 32)
      d := setLow t.d (s.d.truncate 32) }, ?_, ?_⟩
    · obtain ⟨a, b, c, d, p, q, r, has, uint, size, ss, act⟩ := s
      obtain rfl : act = (size == 64) := h
      simp only at h64
      rw [jsfSet, jsfGet]
      round_trip [jsfPar_pyI, h64, if_false]
    · simp only [jsfView, h64, if_false, setLow_low]

/-- What `__init__` and every accepted assignment establish. -/
def Pcg64Ok (s : Pcg64I) : Prop :=
  (s.variant = "dxsm" ∧ s.useDxsm = true ∧ s.cheap = true ∧ s.actCheap = true ∧ s.cDxsm = 1) ∨
  (s.variant = "dxsm-128" ∧ s.useDxsm = true ∧ s.cheap = false ∧ s.actCheap = false ∧ s.cDxsm = 1) ∨
  (s.variant = "xsl-rr" ∧ s.useDxsm = false ∧ s.cheap = false ∧ s.actCheap = false ∧ s.cDxsm = 0)

theorem pcg64Setup_ok (s : Pcg64I) : Pcg64Ok { pcg64Setup s with cDxsm := if (pcg64Setup s).useDxsm then 1 else 0 } := by
  unfold pcg64Setup
  simp only
  split
  · exact Or.inl ⟨rfl, rfl, rfl, rfl, rfl⟩
  · split
    · exact Or.inr (Or.inl ⟨rfl, rfl, rfl, rfl, rfl⟩)
    · exact Or.inr (Or.inr ⟨rfl, rfl, rfl, rfl, rfl⟩)

theorem C11_pcg64 (s t : Pcg64I) (h : Pcg64Ok s) : pcg64Set (pcg64Get s) t = (.ok (), s) := by
  obtain ⟨state, inc, cd, has, uint, var, ud, ch, ac⟩ := s
  rw [pcg64Set, pcg64Get]
  rcases h with h | h | h <;> obtain ⟨rfl, rfl, rfl, rfl, rfl⟩ := h <;>
  · round_trip [asStr, pyInt_pyU128, split128_toNat]
    rfl

/-- PCG64DXSM has one variant. -/
theorem C11_pcg64dxsm (s t : Pcg64I) (h : Pcg64Ok s) (hd : s.variant = "dxsm") : pcg64DxsmSet (pcg64DxsmGet s) t = (.ok (), s) := by
  obtain ⟨state, inc, cd, has, uint, var, ud, ch, ac⟩ := s
  rw [pcg64DxsmSet, pcg64DxsmGet]
  simp only at hd
  subst hd
  rcases h with h | h | h
  · obtain ⟨-, rfl, rfl, rfl, rfl⟩ := h
    round_trip [pyInt_pyU128, split128_toNat]
    rfl
  · exact absurd (show "dxsm" = "dxsm-128" from h.1) (by decide)
  · exact absurd (show "dxsm" = "xsl-rr" from h.1) (by decide)

/-! ### Philox and ThreeFry -/

/-- The word of a slot that draws of width `w` see. -/
def slotWord (w : U32) (x : U64) : U64 := if w = 64 then x else (x.truncate 32 : U32).zeroExtend 64

/-- The first `k` slots as seen by draws of width `w`. -/
def seen (w : U32) (k : Nat) (v : Vector U64 4) : Vector U64 4 := Vector.ofFn fun i => if i.val < k then slotWord w v[i] else 0

/-- Everything the draws of the installed variant depend on. -/
def ctrView (keys : Nat → Nat) (s : CtrI) : CtrI :=
  { s with ctr := seen s.w s.n.toNat s.ctr, key := seen s.w (keys s.n.toNat) s.key, buf := seen s.w s.n.toNat s.buf }

/-- One of the four variants, with its functions installed. -/
def CtrOk (s : CtrI) : Prop :=
  (s.n = 2 ∨ s.n = 4) ∧ (s.w = 32 ∨ s.w = 64) ∧ s.number = s.n ∧ s.width = s.w ∧ s.actN = s.n ∧ s.actW = s.w

def slotList (w : U32) (v : Vector U64 4) (k : Nat) : List U64 := (v.toList.take k).map (slotWord w)

theorem checkDyn_slots (w : U32) (hw : w = 32 ∨ w = 64) (v : Vector U64 4) (k : Nat) (hk : k ≤ 4) :
    checkDyn (slots w v k) k w = .ok (slotList w v k) := by
  have hl : (v.toList.take k).length = k := by simp [hk]
  have key : ∀ (b : Nat) (f : U64 → BitVec b), checkStateArray (.arr b ((v.toList.take k).map fun x => (f x).toNat)) k b =
      .ok (Vector.ofFn fun i : Fin k => f (v[i.val]'(by omega))) := by
    intro b f
    rw [checkStateArray, if_pos ⟨rfl, by rw [List.length_map, hl]⟩]
    congr 1
    apply Vector.ext
    intro i hi
    have : i < 4 := by omega
    simp [vecOf, List.getD, hi, this]
  have fin : ∀ (g : U64 → U64) , (Vector.ofFn fun i : Fin k => g (v[i.val]'(by omega))).toList = (v.toList.take k).map g := by
    intro g
    apply List.ext_getElem
    · simp [hk]
    · intro i h1 h2
      simp
  rcases hw with rfl | rfl
  · rw [checkDyn, if_pos (by decide), slots, if_neg (by decide)]
    show (checkStateArray (.arr 32 _) k 32 >>= _) = _
    rw [key 32 fun x => x.truncate 32, Res.ok_bind]
    show Res.ok _ = _
    congr 1
    rw [slotList, ← fin (slotWord 32)]
    apply List.ext_getElem
    · simp
    · intro i h1 h2
      simp [slotWord]
  · rw [checkDyn, if_pos (by decide), slots, if_pos rfl]
    show (checkStateArray (.arr 64 _) k 64 >>= _) = _
    rw [show (v.toList.take k).map BitVec.toNat = (v.toList.take k).map fun x => (id x : U64).toNat from rfl, key 64 id, Res.ok_bind]
    show Res.ok _ = _
    congr 1
    rw [slotList, ← fin (slotWord 64)]
    apply List.ext_getElem
    · simp
    · intro i h1 h2
      simp [slotWord]

theorem putSlots_seen (w : U32) (hw : w = 32 ∨ w = 64) (room k : Nat) (v old : Vector U64 4) (hk : k ≤ room) (h4 : k ≤ 4) :
    ∃ u, putSlots room w (slotList w v k) old = .ok u ∧ seen w k u = seen w k v := by
  have hl : (slotList w v k).length = k := by simp [slotList, h4]
  refine ⟨_, by rw [putSlots, if_pos (by rw [hl]; exact hk)], ?_⟩
  apply Vector.ext
  intro i hi
  simp only [seen, Vector.getElem_ofFn]
  by_cases hik : i < k
  · simp only [hik, if_true]
    have e : (slotList w v k)[i]? = some (slotWord w v[i]) := by
      simp [slotList, hik, hi]
    simp only [Fin.getElem_fin, Vector.getElem_ofFn, e]
    rcases hw with rfl | rfl
    · have a : (32 : U32) ≠ 64 := by decide
      simp only [slotWord, a, if_false, if_true]
      rw [setLow_low]
      simp
    · have a : (64 : U32) ≠ 32 := by decide
      simp only [slotWord, a, if_false, if_true]
  · simp only [hik, if_false]

theorem ctr_round_trip (short full : String) (keys : Nat → Nat) (room : Nat) (s t : CtrI) (h : CtrOk s)
    (hr : keys s.n.toNat ≤ room) (h4 : keys s.n.toNat ≤ 4) :
    ∃ t', ctrSet short full keys room (ctrGet full keys s) t = (.ok (), t') ∧ ctrView keys t' = ctrView keys s := by
  obtain ⟨hn, hw, h1, h2, h3, h5⟩ := h
  have hn4 : s.n.toNat ≤ 4 := by rcases hn with h | h <;> rw [h] <;> decide
  obtain ⟨ub, hub, eb⟩ := putSlots_seen s.w hw 4 s.n.toNat s.buf (Vector.replicate 4 0) hn4 hn4
  obtain ⟨uc, huc, ec⟩ := putSlots_seen s.w hw 4 s.n.toNat s.ctr t.ctr hn4 hn4
  obtain ⟨uk, huk, ek⟩ := putSlots_seen s.w hw room (keys s.n.toNat) s.key t.key hr h4
  refine ⟨{ s with ctr := uc, key := uk, buf := ub }, ?_, ?_⟩
  · have hset : ∀ u : CtrI, u.n = s.n → u.w = s.w → ctrSetup u = { u with actN := s.n, actW := s.w } := by
      intro u e1 e2
      rw [ctrSetup, if_pos, e1, e2]
      rw [e1, e2]; exact ⟨hn.symm, hw.symm⟩
    have e1 := checkDyn_slots s.w hw s.ctr s.n.toNat hn4
    have e2 := checkDyn_slots s.w hw s.key (keys s.n.toNat) h4
    have e3 := checkDyn_slots s.w hw s.buf s.n.toNat hn4
    obtain ⟨n, w, number, width, an, aw, ctr, key, buf, pos, has, uint⟩ := s
    simp only at *
    subst h1 h2 h3 h5
    rw [ctrSet, ctrGet]
    round_trip [hset, e1, e2, e3, hub, huc, huk]
  · simp only [ctrView, eb, ec, ek]

theorem C11_philox (s t : CtrI) (h : CtrOk s) : ∃ t', philoxSet (philoxGet s) t = (.ok (), t') ∧ ctrView (· / 2) t' = ctrView (· / 2) s := by
  have : s.n.toNat / 2 ≤ 2 := by rcases h.1 with h | h <;> rw [h] <;> decide
  exact ctr_round_trip _ _ _ _ s t h this (by omega)

theorem C11_threefry (s t : CtrI) (h : CtrOk s) : ∃ t', threefrySet (threefryGet s) t = (.ok (), t') ∧ ctrView id t' = ctrView id s := by
  have : s.n.toNat ≤ 4 := by rcases h.1 with h | h <;> rw [h] <;> decide
  exact ctr_round_trip _ _ _ _ s t h this this

/-! ### Every accepted assignment leaves a consistent instance -/

theorem C11_xoroshiro128_consistent (v : PyVal) (t t' : XoroI) (h : xoroSet v t = (.ok (), t')) : XoroOk t' := by
  have : Hoare (fun _ => True) (xoroSet v) XoroOk := by
    unfold xoroSet
    iterate 5 refine Hoare.skip fun _ => ?_
    exact Hoare.modify _ fun _ _ => rfl
  exact this t () t' trivial h

theorem C11_tyche_consistent (v : PyVal) (t t' : TycheI) (h : tycheSet v t = (.ok (), t')) : TycheOk t' := by
  have : Hoare (fun _ => True) (tycheSet v) TycheOk := by
    unfold tycheSet
    iterate 7 refine Hoare.skip fun _ => ?_
    exact Hoare.modify _ fun _ _ => rfl
  exact this t () t' trivial h

theorem romuCheck_ok (v : PyVal) (a : String) (h : romuCheck v = .ok a) : a = "quad" ∨ a = "trio" := by
  unfold romuCheck at h
  split at h
  · split at h
    · rename_i hq
      injection h with h
      rw [← h]; exact hq
    · cases h
  · cases h

theorem C11_romu_consistent (v : PyVal) (t t' : RomuI) (h : romuSet v t = (.ok (), t')) : RomuOk t' := by
  have : Hoare (fun _ => True) (romuSet v) RomuOk := by
    unfold romuSet
    iterate 5 refine Hoare.skip fun _ => ?_
    refine Hoare.bind (Q := fun s => s.variant = "quad" ∨ s.variant = "trio") (Hoare.store _ _ fun a s e _ => ?_) fun _ => ?_
    · cases hi : v.item2 "state" "variant" with
      | ok x => rw [hi, Res.ok_bind] at e; exact romuCheck_ok x a e
      | err x => rw [hi, Res.err_bind] at e; cases e
      | ub => rw [hi, Res.ub_bind] at e; cases e
    iterate 2 refine Hoare.bind (Q := fun s => s.variant = "quad" ∨ s.variant = "trio") (Hoare.store _ _ fun a s _ h => h) fun _ => ?_
    exact Hoare.modify _ fun _ h => ⟨h, rfl⟩
  exact this t () t' trivial h

theorem C11_jsf_consistent (v : PyVal) (t t' : JsfI) (h : jsfSet v t = (.ok (), t')) : JsfOk t' := by
  have : Hoare (fun _ => True) (jsfSet v) JsfOk := by
    unfold jsfSet
    iterate 6 refine Hoare.skip fun _ => ?_
    refine Hoare.bind (Q := JsfOk) (Hoare.modify _ fun _ _ => rfl) fun _ => ?_
    refine Hoare.bind (Q := JsfOk) (fun s a s' h e => by rw [SetM.read_run] at e; obtain ⟨-, rfl⟩ := Prod.mk.injEq .. ▸ e; exact h) fun _ => ?_
    iterate 3 refine Hoare.bind (Q := JsfOk) (Hoare.store _ _ fun a s _ h => h) fun _ => ?_
    split
    all_goals
      iterate 4 refine Hoare.bind (Q := JsfOk) (Hoare.store _ _ fun a s _ h => h) fun _ => ?_
      iterate 2 refine Hoare.bind (Q := JsfOk) (Hoare.store _ _ fun a s _ h => h) fun _ => ?_
      exact Hoare.store _ _ fun a s _ h => h
  exact this t () t' trivial h

theorem C11_pcg64_consistent (v : PyVal) (t t' : Pcg64I) (h : pcg64Set v t = (.ok (), t')) : Pcg64Ok t' := by
  have : Hoare (fun _ => True) (pcg64Set v) Pcg64Ok := by
    unfold pcg64Set
    iterate 8 refine Hoare.skip fun _ => ?_
    refine Hoare.bind (Q := fun s => ∃ u, s = pcg64Setup u) (Hoare.modify _ fun u _ => ⟨u, rfl⟩) fun _ => ?_
    refine Hoare.modify _ ?_
    rintro s ⟨u, rfl⟩
    exact pcg64Setup_ok u
  exact this t () t' trivial h

theorem C11_pcg64dxsm_consistent (v : PyVal) (t t' : Pcg64I) (h : pcg64DxsmSet v t = (.ok (), t')) :
    Pcg64Ok t' ∧ t'.variant = "dxsm" := by
  have : Hoare (fun _ => True) (pcg64DxsmSet v) fun s => Pcg64Ok s ∧ s.variant = "dxsm" := by
    unfold pcg64DxsmSet
    iterate 7 refine Hoare.skip fun _ => ?_
    refine Hoare.bind (Q := fun s => s.variant = "dxsm") (Hoare.modify _ fun _ _ => rfl) fun _ => ?_
    refine Hoare.bind (Q := fun s => ∃ u : Pcg64I, u.variant = "dxsm" ∧ s = pcg64Setup u) (Hoare.modify _ fun u h => ⟨u, h, rfl⟩) fun _ => ?_
    refine Hoare.modify _ ?_
    rintro s ⟨u, hu, rfl⟩
    refine ⟨pcg64Setup_ok u, ?_⟩
    simp [pcg64Setup, hu]
  exact this t () t' trivial h

/-! ### Squares: the buffered half is written into the dictionary and not read back -/

def SquaresOk (s : SquaresI) : Prop := (s.variant = 64 ∨ s.variant = 32) ∧ s.use64 = (s.variant == 64) ∧ s.act64 = s.use64

/-- Missing for the full claim: the pending 32-bit half of `s`; that of `t` stays. -/
theorem C11_squares_partial (s t : SquaresI) (h : SquaresOk s) :
    squaresSet (squaresGet s) t = (.ok (), { s with has := t.has, uint := t.uint }) := by
  have e : squaresVariant (pyI s.variant) = .ok s.variant := by
    rcases h.1 with h | h <;> rw [h] <;> decide
  obtain ⟨key, counter, has, uint, variant, use, act⟩ := s
  obtain ⟨-, h1, h2⟩ := h
  simp only at h1 h2
  subst h2 h1
  rw [squaresSet, squaresGet]
  round_trip [e]

/-- The state of a freshly constructed instance, assigned to one that has a half pending, gives another next 32-bit draw. -/
theorem not_C11_squares : ∃ s t t' : SquaresI, SquaresOk s ∧ SquaresOk t ∧ squaresSet (squaresGet s) t = (.ok (), t') ∧
    (Buf.next32 sqNext64 t'.toBuf).1 ≠ (Buf.next32 sqNext64 s.toBuf).1 := by
  refine ⟨⟨1, 0, 0, 0, 64, true, true⟩, ⟨3, 5, 1, 77, 64, true, true⟩, _, ⟨.inl rfl, rfl, rfl⟩, ⟨.inl rfl, rfl, rfl⟩,
    C11_squares_partial _ _ ⟨.inl rfl, rfl, rfl⟩, ?_⟩
  decide +kernel

/-! ### LCG128Mix: a named output function does not displace a user supplied one in the dictionary -/

/-- What `__init__` establishes (pcg64.pyx:633-692): either a named function, or a user supplied one. -/
def LcgMixOk (s : LcgMixI) : Prop :=
  (s.post = 0 ∨ s.post = 1) ∧
    ((s.cfunc = none ∧ (outputName s.outputIdx).isSome) ∨ (s.cfunc = some s.outputFunc ∧ s.outputIdx = BitVec.ofInt 32 (-1)))

theorem outputName_lookup (i : U32) (n : String) (h : outputName i = some n) : outputLookup.lookup n = some i := by
  simp only [outputName, outputLookup, List.find?_cons, List.find?_nil] at h
  repeat' split at h
  all_goals simp_all
  all_goals subst h
  all_goals simp_all [outputLookup, List.lookup]

theorem asInt_post (p : U32) (h : p = 0 ∨ p = 1) : asInt (.bool (p != 0)) = .ok p := by
  rcases h with rfl | rfl <;> decide

/-- Assigning the state of an instance without a user supplied function. -/
theorem lcg_copy_named (s t : LcgMixI) (hp : s.post = 0 ∨ s.post = 1) (hc : s.cfunc = none) (n : String)
    (hn : outputName s.outputIdx = some n) :
    ∃ v, lcgMixGet s = .ok v ∧ lcgMixSet v t = (.ok (), { s with outputFunc := t.outputFunc, cfunc := t.cfunc }) := by
  have hl := outputName_lookup _ _ hn
  have hp' := asInt_post _ hp
  refine ⟨_, by rw [lcgMixGet, hc]; simp only [hn]; rfl, ?_⟩
  rw [lcgMixSet]
  round_trip [pyInt_pyU128, split128_toNat, hp', hl]

/-- Assigning the state of an instance with a user supplied function, whatever its `output_idx`. -/
theorem lcg_copy_custom (s t : LcgMixI) (hp : s.post = 0 ∨ s.post = 1) (a : Nat) (hc : s.cfunc = some a) :
    ∃ v, lcgMixGet s = .ok v ∧
      lcgMixSet v t = (.ok (), { s with outputIdx := BitVec.ofInt 32 (-1), outputFunc := a, cfunc := some a }) := by
  have hp' := asInt_post _ hp
  refine ⟨_, by rw [lcgMixGet, hc]; rfl, ?_⟩
  rw [lcgMixSet]
  round_trip [pyInt_pyU128, split128_toNat, hp']

/-- Missing for the full claim: `s` must be as after construction; assignments can lead to other instances
(`not_C11_lcg128mix`). -/
theorem C11_lcg128mix_partial (s t : LcgMixI) (h : LcgMixOk s) :
    ∃ v t', lcgMixGet s = .ok v ∧ lcgMixSet v t = (.ok (), t') ∧ ∀ ext, t'.toBuf ext = s.toBuf ext := by
  obtain ⟨hp, ⟨hc, h⟩ | ⟨hc, h⟩⟩ := h
  · obtain ⟨n, hn⟩ := Option.isSome_iff_exists.mp h
    obtain ⟨v, h1, h2⟩ := lcg_copy_named s t hp hc n hn
    refine ⟨v, _, h1, h2, fun ext => ?_⟩
    have : s.outputIdx ≠ BitVec.ofInt 32 (-1) := by intro e; rw [e] at h; exact absurd h (by decide)
    simp only [LcgMixI.toBuf, LcgMixI.output, if_neg this]
  · obtain ⟨v, h1, h2⟩ := lcg_copy_custom s t hp _ hc
    refine ⟨v, _, h1, h2, fun ext => ?_⟩
    simp only [LcgMixI.toBuf, LcgMixI.output, h]

/-- A generator with the default output function is copied into `t`, which was constructed with a user supplied function,
and from there into a third generator: the third one draws with the user supplied function. -/
theorem not_C11_lcg128mix (ext : Nat → U64 → U64 → U64) (he : ext 1 = fun _ _ => 5) :
    ∃ s t u t' u' : LcgMixI, ∃ v v' : PyVal, LcgMixOk s ∧ LcgMixOk t ∧ LcgMixOk u ∧
      lcgMixGet s = .ok v ∧ lcgMixSet v t = (.ok (), t') ∧ lcgMixGet t' = .ok v' ∧ lcgMixSet v' u = (.ok (), u') ∧
      (Lcg128.next (t'.toBuf ext).core).1 ≠ (Lcg128.next (u'.toBuf ext).core).1 := by
  let s : LcgMixI := ⟨3, 1, 5, 1, 1, 0, 0, 0, 0, none⟩
  let t : LcgMixI := ⟨3, 1, 5, 1, 1, BitVec.ofInt 32 (-1), 1, 0, 0, some 1⟩
  obtain ⟨v, h1, h2⟩ := lcg_copy_named s t (.inr rfl) rfl "xsl-rr" (by decide)
  obtain ⟨v', h3, h4⟩ := lcg_copy_custom { s with outputFunc := t.outputFunc, cfunc := t.cfunc } s (.inr rfl) 1 rfl
  refine ⟨s, t, s, _, _, v, v', ⟨.inr rfl, .inl ⟨rfl, by decide⟩⟩, ⟨.inr rfl, .inr ⟨rfl, rfl⟩⟩, ⟨.inr rfl, .inl ⟨rfl, by decide⟩⟩, h1, h2, h3, h4, ?_⟩
  have e1 : (Lcg128.next ((({ s with outputFunc := t.outputFunc, cfunc := t.cfunc } : LcgMixI)).toBuf ext).core).1 = 16 := by
    show Pcg.outXslRr (Pcg.hi (Pcg.lcgStep 5 1 3)) (Pcg.lo (Pcg.lcgStep 5 1 3)) = 16
    decide +kernel
  rw [e1]
  show (16 : U64) ≠ ext 1 _ _
  rw [he]
  show (16 : U64) ≠ 5
  decide

/-- `post` may be any C integer in an assigned dictionary; the getter reports it as a truth value and the C code compares it
with 1 (lcg128mix.h:52). An instance whose `post` is 2 therefore draws before stepping, its copy after stepping. -/
theorem not_C11_lcg128mix_post : ∃ s t t' : LcgMixI, ∃ v w : PyVal, lcgMixSet w t = (.ok (), s) ∧
    lcgMixGet s = .ok v ∧ lcgMixSet v t = (.ok (), t') ∧
    ∀ ext, (Lcg128.next (t'.toBuf ext).core).1 ≠ (Lcg128.next (s.toBuf ext).core).1 := by
  let s : LcgMixI := ⟨3, 1, 5, 1, 2, 4, 0, 0, 0, none⟩
  refine ⟨s, s, { s with post := 1 }, _, mkDict ([("bit_generator", .str "randomgen.pcg64.LCG128Mix"),
      ("state", mkDict [("state", pyU128 3), ("inc", pyU128 1), ("multiplier", pyU128 5), ("dxsm_multiplier", pyU (1 : U64)),
        ("post", pyI 2), ("output_func", .str "lower")])] ++ halfEntries 0 0), ?_, by rw [lcgMixGet]; rfl, ?_, ?_⟩
  · have hl : outputLookup.lookup "lower" = some 4 := by decide
    rw [lcgMixSet]
    round_trip [pyInt_pyU128, split128_toNat, hl]
    rfl
  · have hl : outputLookup.lookup "lower" = some 4 := by decide
    have hp : asInt (.bool ((2 : U32) != 0)) = .ok 1 := by decide
    rw [lcgMixSet]
    simp only [show s.state = 3 from rfl, show s.inc = 1 from rfl, show s.mult = 5 from rfl, show s.post = 2 from rfl]
    round_trip [pyInt_pyU128, split128_toNat, hl, hp]
    rfl
  · intro ext
    show (16 : U64) ≠ 3
    decide

/-! ### Instances meeting the hypotheses -/

example : XoroOk ⟨#v[1, 2], 1, 7, true, true⟩ := rfl
example : RomuOk ⟨1, 2, 3, 4, 1, 9, "trio", false⟩ := ⟨.inr rfl, rfl⟩
example : TycheOk ⟨1, 2, 3, 4, true, true⟩ := rfl
example : JsfOk ⟨1, 2, 3, 4, 27, 17, 0, 1, 5, 32, 3, false⟩ := rfl
example : Pcg64Ok ⟨1, 3, 1, 1, 5, "dxsm-128", true, false, false⟩ := .inr (.inl ⟨rfl, rfl, rfl, rfl, rfl⟩)
example : CtrOk ⟨2, 32, 2, 32, 2, 32, #v[1, 2, 3, 4], #v[5, 6, 7, 8], #v[1, 1, 2, 2], 1, 1, 77⟩ :=
  ⟨.inl rfl, .inl rfl, rfl, rfl, rfl, rfl⟩
example : LcgMixOk ⟨3, 1, 5, 1, 0, 3, 0, 1, 9, none⟩ := ⟨.inl rfl, .inl ⟨rfl, by decide⟩⟩

end Verif
