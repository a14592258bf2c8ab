import Verif.Proof.PyState

/-! C12: a rejected assignment of `state` leaves the generator unchanged. -/

namespace Verif

open SetM

/-- If the setter raises, the generator is as before. -/
def Safe {σ : Type} (set : PyVal → SetM σ Unit) : Prop := ∀ v s e s', set v s = (.err e, s') → s' = s

/-! ### Classes that check everything before the first store -/

variable {σ α β : Type}

/-- Steps that change nothing. -/
def Quiet (m : SetM σ α) : Prop := ∀ s, (m s).2 = s
/-- Steps that raise only without changing anything. -/
def Clean (m : SetM σ α) : Prop := ∀ s e s', m s = (.err e, s') → s' = s

theorem quiet_lift (r : Res α) : Quiet (lift r : SetM σ α) := fun _ => rfl

theorem Clean.bind_quiet {m : SetM σ α} {f : α → SetM σ β} (hm : Quiet m) (hf : ∀ a, Clean (f a)) : Clean (m >>= f) := by
  intro s e s' h
  have := hm s
  rw [SetM.bind_run] at h
  cases hr : m s with
  | mk r u =>
    rw [hr] at h this
    simp only at this
    subst this
    cases r with
    | ok a => exact hf a _ e s' h
    | err e => simp only [Prod.mk.injEq] at h; exact h.2.symm
    | ub => simp at h

/-- Steps that never raise. -/
def Total (m : SetM σ α) : Prop := ∀ s, ∃ a s', m s = (.ok a, s')

theorem total_modify (f : σ → σ) : Total (modify f) := fun s => ⟨(), f s, rfl⟩

theorem Total.bind {m : SetM σ α} {f : α → SetM σ β} (hm : Total m) (hf : ∀ a, Total (f a)) : Total (m >>= f) := by
  intro s
  obtain ⟨a, u, h⟩ := hm s
  obtain ⟨b, t, h'⟩ := hf a u
  exact ⟨b, t, by rw [SetM.bind_run, h]; exact h'⟩

theorem Total.clean {m : SetM σ α} (h : Total m) : Clean m := by
  intro s e s' he
  obtain ⟨a, u, h⟩ := h s
  rw [h] at he; simp at he

theorem clean_store (r : Res α) (f : α → σ → σ) : Clean (store r f) := by
  intro s e s' h
  cases r with
  | ok a => rw [SetM.store_ok] at h; simp at h
  | err x => rw [SetM.store_err] at h; simp only [Prod.mk.injEq] at h; exact h.2.symm
  | ub => rw [SetM.store_ub] at h; simp at h

theorem clean_store_bind (r : Res α) (f : α → σ → σ) {g : Unit → SetM σ β} (hg : ∀ a, Total (g a)) : Clean (store r f >>= g) := by
  intro s e s' h
  cases r with
  | ok a =>
    rw [SetM.store_bind] at h
    obtain ⟨b, u, hu⟩ := hg () (f a s)
    rw [hu] at h; simp at h
  | err x => rw [SetM.store_err_bind] at h; simp only [Prod.mk.injEq] at h; exact h.2.symm
  | ub => rw [SetM.bind_run, SetM.store_ub] at h; simp at h

theorem C12_pcg64 : Safe pcg64Set := by
  intro v
  have : Clean (pcg64Set v) := by
    unfold pcg64Set
    iterate 7 refine Clean.bind_quiet (quiet_lift _) fun _ => ?_
    exact clean_store_bind _ _ fun _ => Total.bind (total_modify _) fun _ => total_modify _
  exact this

theorem C12_pcg64dxsm : Safe pcg64DxsmSet := by
  intro v
  have : Clean (pcg64DxsmSet v) := by
    unfold pcg64DxsmSet
    iterate 7 refine Clean.bind_quiet (quiet_lift _) fun _ => ?_
    exact (Total.bind (total_modify _) fun _ => Total.bind (total_modify _) fun _ => total_modify _).clean
  exact this

theorem C12_rdrand : Safe rdrandSet := by
  intro v
  have : Clean (rdrandSet v) := by
    unfold rdrandSet
    exact Clean.bind_quiet (quiet_lift _) fun _ => clean_store _ _
  exact this

/-! ### Rejection by type or name

Every setter starts with the same two tests; what they reject changes nothing. This is the part of the claim that holds for all
classes. Missing: the errors raised further down (`not_C12_…` below). -/

theorem reject_header {short full : String} {v : PyVal} {e : PyErr} (h : header short full v = .err e) (f : Unit → SetM σ β) (s : σ) :
    (lift (header short full v) >>= f) s = (.err e, s) := by
  rw [h, SetM.lift_err_bind]

theorem C12_xoshiro256_partial (v : PyVal) (s : XoshI 4) (e : PyErr) (h : header "Xoshiro256" "randomgen.xoshiro256.Xoshiro256" v = .err e) :
    xoshSet "Xoshiro256" "randomgen.xoshiro256.Xoshiro256" v s = (.err e, s) := by
  rw [xoshSet]; exact reject_header h _ s
theorem C12_xoshiro512_partial (v : PyVal) (s : XoshI 8) (e : PyErr) (h : header "Xoshiro512" "randomgen.xoshiro512.Xoshiro512" v = .err e) :
    xoshSet "Xoshiro512" "randomgen.xoshiro512.Xoshiro512" v s = (.err e, s) := by
  rw [xoshSet]; exact reject_header h _ s
theorem C12_xorshift1024_partial (v : PyVal) (s : Xs1024I) (e : PyErr) (h : header "Xorshift1024" "randomgen.xorshift1024.Xorshift1024" v = .err e) :
    xs1024Set v s = (.err e, s) := by
  rw [xs1024Set]; exact reject_header h _ s
theorem C12_xoroshiro128_partial (v : PyVal) (s : XoroI) (e : PyErr) (h : header "Xoroshiro128" "randomgen.xoroshiro128.Xoroshiro128" v = .err e) :
    xoroSet v s = (.err e, s) := by
  rw [xoroSet]; exact reject_header h _ s
theorem C12_lxm_partial (v : PyVal) (s : LxmI) (e : PyErr) (h : header "LXM" "randomgen.lxm.LXM" v = .err e) :
    lxmSet v s = (.err e, s) := by
  rw [lxmSet]; exact reject_header h _ s
theorem C12_sfc64_partial (v : PyVal) (s : SfcI) (e : PyErr) (h : header "SFC64" "randomgen.sfc.SFC64" v = .err e) :
    sfcSet v s = (.err e, s) := by
  rw [sfcSet]; exact reject_header h _ s
theorem C12_romu_partial (v : PyVal) (s : RomuI) (e : PyErr) (h : header "Romu" "randomgen.romu.Romu" v = .err e) :
    romuSet v s = (.err e, s) := by
  rw [romuSet]; exact reject_header h _ s
theorem C12_tyche_partial (v : PyVal) (s : TycheI) (e : PyErr) (h : header "Tyche" "randomgen.tyche.Tyche" v = .err e) :
    tycheSet v s = (.err e, s) := by
  rw [tycheSet]; exact reject_header h _ s
theorem C12_jsf_partial (v : PyVal) (s : JsfI) (e : PyErr) (h : header "JSF" "randomgen.jsf.JSF" v = .err e) :
    jsfSet v s = (.err e, s) := by
  rw [jsfSet]; exact reject_header h _ s
theorem C12_efiix64_partial (v : PyVal) (s : EfiixI) (e : PyErr) (h : header "EFIIX64" "randomgen.efiix64.EFIIX64" v = .err e) :
    efiixSet v s = (.err e, s) := by
  rw [efiixSet]; exact reject_header h _ s
theorem C12_pcg32_partial (v : PyVal) (s : Pcg32I) (e : PyErr) (h : header "PCG32" "randomgen.pcg32.PCG32" v = .err e) :
    pcg32Set v s = (.err e, s) := by
  rw [pcg32Set]; exact reject_header h _ s
theorem C12_lcg128mix_partial (v : PyVal) (s : LcgMixI) (e : PyErr) (h : header "LCG128Mix" "randomgen.pcg64.LCG128Mix" v = .err e) :
    lcgMixSet v s = (.err e, s) := by
  rw [lcgMixSet]; exact reject_header h _ s
theorem C12_mt64_partial (v : PyVal) (s : Mt64I) (e : PyErr) (h : header "MT64" "randomgen.mt64.MT64" v = .err e) :
    mt64Set v s = (.err e, s) := by
  rw [mt64Set]; exact reject_header h _ s
theorem C12_sfmt_partial (v : PyVal) (s : SfmtI) (e : PyErr) (h : header "SFMT" "randomgen.sfmt.SFMT" v = .err e) :
    sfmtSet v s = (.err e, s) := by
  rw [sfmtSet]; exact reject_header h _ s
theorem C12_dsfmt_partial (v : PyVal) (s : DsfmtI) (e : PyErr) (h : header "DSFMT" "randomgen.dsfmt.DSFMT" v = .err e) :
    dsfmtSet v s = (.err e, s) := by
  rw [dsfmtSet]; exact reject_header h _ s
theorem C12_hc128_partial (v : PyVal) (s : Hc128I) (e : PyErr) (h : header "HC128" "randomgen.hc128.HC128" v = .err e) :
    hc128Set v s = (.err e, s) := by
  rw [hc128Set]; exact reject_header h _ s
theorem C12_chacha_partial (v : PyVal) (s : ChaChaI) (e : PyErr) (h : header "ChaCha" "randomgen.chacha.ChaCha" v = .err e) :
    chachaSet v s = (.err e, s) := by
  rw [chachaSet]; exact reject_header h _ s
theorem C12_speck128_partial (v : PyVal) (s : SpeckI) (e : PyErr) (h : header "SPECK128" "randomgen.speck128.SPECK128" v = .err e) :
    speckSet v s = (.err e, s) := by
  rw [speckSet]; exact reject_header h _ s
theorem C12_aesctr_partial (v : PyVal) (s : AesI) (e : PyErr) (h : header "AESCounter" "randomgen.aes.AESCounter" v = .err e) :
    aesSet v s = (.err e, s) := by
  rw [aesSet]; exact reject_header h _ s
theorem C12_squares_partial (v : PyVal) (s : SquaresI) (e : PyErr) (h : header "Squares" "randomgen.squares.Squares" v = .err e) :
    squaresSet v s = (.err e, s) := by
  rw [squaresSet]; exact reject_header h _ s
theorem C12_philox_partial (v : PyVal) (s : CtrI) (e : PyErr) (h : header "Philox" "randomgen.philox.Philox" v = .err e) :
    philoxSet v s = (.err e, s) := by
  rw [philoxSet, ctrSet]; exact reject_header h _ s
theorem C12_threefry_partial (v : PyVal) (s : CtrI) (e : PyErr) (h : header "ThreeFry" "randomgen.threefry.ThreeFry" v = .err e) :
    threefrySet v s = (.err e, s) := by
  rw [threefrySet, ctrSet]; exact reject_header h _ s
theorem C12_mt19937_partial (v v' : PyVal) (s : Mt32I) (e : PyErr) (hl : mt32Legacy v = .ok v')
    (h : header "MT19937" "randomgen.mt19937.MT19937" v' = .err e) : mt32Set v s = (.err e, s) := by
  rw [mt32Set, hl, SetM.lift_bind]; exact reject_header h _ s
theorem C12_mt19937_legacy_partial (v : PyVal) (s : Mt32I) (e : PyErr) (hl : mt32Legacy v = .err e) : mt32Set v s = (.err e, s) := by
  rw [mt32Set, hl, SetM.lift_err_bind]

example : header "SFC64" "randomgen.sfc.SFC64" (mkDict [("bit_generator", .str "PCG64"), ("state", .none)]) = .err .valueError := by
  simp [header, mkDict, List.lookup]
example : mt32Legacy (.tuple 4 fun _ => .str "MT19937") = .err .valueError := by simp [mt32Legacy]

/-! ### Rejection of a malformed array, for the classes that check it before the first store -/

theorem reject_store (r : Res α) (p : α → σ → σ) (f : Unit → SetM σ β) (s : σ) (e : PyErr) (h : r = .err e) :
    (store r p >>= f) s = (.err e, s) := by rw [h, SetM.store_err_bind]

theorem C12_xoshiro256_array_partial (v : PyVal) (s : XoshI 4) (e : PyErr) (h : header "Xoshiro256" "randomgen.xoshiro256.Xoshiro256" v = .ok ())
    (ha : (do checkStateArray (← v.item "s") 4 64) = Res.err e) : xoshSet "Xoshiro256" "randomgen.xoshiro256.Xoshiro256" v s = (.err e, s) := by
  rw [xoshSet, h, SetM.lift_bind]; exact reject_store _ _ _ s e ha
theorem C12_xoshiro512_array_partial (v : PyVal) (s : XoshI 8) (e : PyErr) (h : header "Xoshiro512" "randomgen.xoshiro512.Xoshiro512" v = .ok ())
    (ha : (do checkStateArray (← v.item "s") 8 64) = Res.err e) : xoshSet "Xoshiro512" "randomgen.xoshiro512.Xoshiro512" v s = (.err e, s) := by
  rw [xoshSet, h, SetM.lift_bind]; exact reject_store _ _ _ s e ha
theorem C12_xorshift1024_array_partial (v : PyVal) (s : Xs1024I) (e : PyErr) (h : header "Xorshift1024" "randomgen.xorshift1024.Xorshift1024" v = .ok ())
    (ha : (do checkStateArray (← v.item2 "state" "s") 16 64) = Res.err e) : xs1024Set v s = (.err e, s) := by
  rw [xs1024Set, h, SetM.lift_bind]; exact reject_store _ _ _ s e ha
theorem C12_xoroshiro128_array_partial (v : PyVal) (s : XoroI) (e : PyErr) (h : header "Xoroshiro128" "randomgen.xoroshiro128.Xoroshiro128" v = .ok ())
    (ha : (do checkStateArray (← v.item "s") 2 64) = Res.err e) : xoroSet v s = (.err e, s) := by
  rw [xoroSet, h, SetM.lift_bind]; exact reject_store _ _ _ s e ha
theorem C12_lxm_array_partial (v : PyVal) (s : LxmI) (e : PyErr) (h : header "LXM" "randomgen.lxm.LXM" v = .ok ())
    (ha : (do checkStateArray (← v.item2 "state" "x") 4 64) = Res.err e) : lxmSet v s = (.err e, s) := by
  rw [lxmSet, h, SetM.lift_bind]; exact reject_store _ _ _ s e ha
theorem C12_mt64_array_partial (v : PyVal) (s : Mt64I) (e : PyErr) (h : header "MT64" "randomgen.mt64.MT64" v = .ok ())
    (ha : (do checkStateArray (← v.item2 "state" "key") 312 64) = Res.err e) : mt64Set v s = (.err e, s) := by
  rw [mt64Set, h, SetM.lift_bind]; exact reject_store _ _ _ s e ha
theorem C12_sfmt_array_partial (v : PyVal) (s : SfmtI) (e : PyErr) (h : header "SFMT" "randomgen.sfmt.SFMT" v = .ok ())
    (ha : (do checkStateArray (← v.item2 "state" "state") 624 32) = Res.err e) : sfmtSet v s = (.err e, s) := by
  rw [sfmtSet, h, SetM.lift_bind]; exact reject_store _ _ _ s e ha
theorem C12_dsfmt_array_partial (v : PyVal) (s : DsfmtI) (e : PyErr) (h : header "DSFMT" "randomgen.dsfmt.DSFMT" v = .ok ())
    (ha : (do checkStateArray (← v.item2 "state" "state") 384 64) = Res.err e) : dsfmtSet v s = (.err e, s) := by
  rw [dsfmtSet, h, SetM.lift_bind]; exact reject_store _ _ _ s e ha
/-- All three arrays are checked before the first store. -/
theorem C12_hc128_array_partial (v st : PyVal) (s : Hc128I) (e : PyErr) (hst : v.item "state" = .ok st)
    (ha : (do checkStateArray (← st.item "p") 512 32) = Res.err e ∨ (do checkStateArray (← st.item "q") 512 32) = Res.err e ∨ (do checkStateArray (← st.item "buffer") 16 32) = Res.err e) :
    (hc128Set v s).2 = s := by
  rw [hc128Set, hst]
  cases header "HC128" "randomgen.hc128.HC128" v with
  | err e => rw [SetM.lift_err_bind]
  | ub => rfl
  | ok _ =>
    rw [SetM.lift_bind, SetM.lift_bind]
    generalize (do checkStateArray (← st.item "p") 512 32) = r1 at ha ⊢
    generalize (do checkStateArray (← st.item "q") 512 32) = r2 at ha ⊢
    generalize (do checkStateArray (← st.item "buffer") 16 32) = r3 at ha ⊢
    cases r1 with
    | err e => rw [SetM.lift_err_bind]
    | ub => rfl
    | ok _ =>
      rw [SetM.lift_bind]
      cases r2 with
      | err e => rw [SetM.lift_err_bind]
      | ub => rfl
      | ok _ =>
        rw [SetM.lift_bind]
        cases r3 with
        | err e => rw [SetM.lift_err_bind]
        | ub => rfl
        | ok _ => simp at ha

/-- All three arrays are checked before the first store. -/
theorem C12_speck128_array_partial (v st : PyVal) (s : SpeckI) (e : PyErr) (hst : v.item "state" = .ok st)
    (ha : (do checkStateArray (← st.item "ctr") 12 64) = Res.err e ∨ (do checkStateArray (← st.item "buffer") 12 64) = Res.err e ∨ (do checkStateArray (← st.item "round_key") 68 64) = Res.err e) :
    (speckSet v s).2 = s := by
  rw [speckSet, hst]
  cases header "SPECK128" "randomgen.speck128.SPECK128" v with
  | err e => rw [SetM.lift_err_bind]
  | ub => rfl
  | ok _ =>
    rw [SetM.lift_bind, SetM.lift_bind]
    generalize (do checkStateArray (← st.item "ctr") 12 64) = r1 at ha ⊢
    generalize (do checkStateArray (← st.item "buffer") 12 64) = r2 at ha ⊢
    generalize (do checkStateArray (← st.item "round_key") 68 64) = r3 at ha ⊢
    cases r1 with
    | err e => rw [SetM.lift_err_bind]
    | ub => rfl
    | ok _ =>
      rw [SetM.lift_bind]
      cases r2 with
      | err e => rw [SetM.lift_err_bind]
      | ub => rfl
      | ok _ =>
        rw [SetM.lift_bind]
        cases r3 with
        | err e => rw [SetM.lift_err_bind]
        | ub => rfl
        | ok _ => simp at ha

example : (do checkStateArray (← (mkDict [("p", .arr 32 [1, 2, 3])]).item "p") 512 32) = Res.err .valueError := by
  rw [item_head, Res.ok_bind]; rfl

/-! ### Violations

In every other class a late error leaves the stores made before it: for all `x` and `s` there is a dictionary that is rejected and
replaces (most of) the state of `s` by that of `x`. -/

theorem item_nil (k : String) : (mkDict []).item k = .err .keyError := id rfl

set_option linter.unusedSimpArgs false

/-- Runs a setter up to the first missing entry. -/
macro "run_until" "[" ls:Lean.Parser.Tactic.simpLemma,* "]" : tactic =>
  `(tactic| simp only [SetM.lift_bind, SetM.modify_bind, SetM.read_bind, SetM.store_bind, SetM.modify_run, SetM.store_ok, SetM.store_err,
      SetM.store_err_bind, SetM.lift_err_bind, header_mk, item_head, item_tail, item_nil, getD_head, getD_tail, item2_eq, asU_pyU, asInt_pyI,
      checkStateArray_pyArr, asBool_bool, Res.ok_bind, Res.err_bind, ne_eq, reduceCtorEq, not_false_eq_true, String.reduceEq, $ls,*])

theorem xoshiro256_replaced (x s : XoshI 4) : ∃ v, xoshSet "Xoshiro256" "randomgen.xoshiro256.Xoshiro256" v s = (.err .keyError, { s with s := x.s }) := by
  refine ⟨mkDict [("bit_generator", .str "randomgen.xoshiro256.Xoshiro256"), ("s", pyArr x.s)], ?_⟩
  rw [xoshSet]
  run_until []
theorem not_C12_xoshiro256 : ¬ Safe (xoshSet "Xoshiro256" "randomgen.xoshiro256.Xoshiro256" : PyVal → SetM (XoshI 4) Unit) := by
  intro h
  obtain ⟨v, hv⟩ := xoshiro256_replaced ⟨#v[1, 2, 3, 4], 0, 0⟩ ⟨#v[5, 6, 7, 8], 0, 0⟩
  have := congrArg (fun s : XoshI 4 => s.s[0]) (h _ _ _ _ hv)
  revert this
  decide +kernel

theorem xoshiro512_replaced (x s : XoshI 8) : ∃ v, xoshSet "Xoshiro512" "randomgen.xoshiro512.Xoshiro512" v s = (.err .keyError, { s with s := x.s }) := by
  refine ⟨mkDict [("bit_generator", .str "randomgen.xoshiro512.Xoshiro512"), ("s", pyArr x.s)], ?_⟩
  rw [xoshSet]
  run_until []
theorem not_C12_xoshiro512 : ¬ Safe (xoshSet "Xoshiro512" "randomgen.xoshiro512.Xoshiro512" : PyVal → SetM (XoshI 8) Unit) := by
  intro h
  obtain ⟨v, hv⟩ := xoshiro512_replaced ⟨#v[1, 2, 3, 4, 5, 6, 7, 8], 0, 0⟩ ⟨#v[5, 6, 7, 8, 1, 2, 3, 4], 0, 0⟩
  have := congrArg (fun s : XoshI 8 => s.s[0]) (h _ _ _ _ hv)
  revert this
  decide +kernel

theorem xorshift1024_replaced (x s : Xs1024I) : ∃ v, xs1024Set v s = (.err .keyError, { s with s := x.s, p := x.p }) := by
  refine ⟨mkDict [("bit_generator", .str "randomgen.xorshift1024.Xorshift1024"), ("state", mkDict [("s", pyArr x.s), ("p", pyI x.p)])], ?_⟩
  rw [xs1024Set]
  run_until []
theorem not_C12_xorshift1024 : ¬ Safe (xs1024Set : PyVal → SetM (Xs1024I) Unit) := by
  intro h
  obtain ⟨v, hv⟩ := xorshift1024_replaced ⟨Vector.replicate 16 1, 3, 0, 0⟩ ⟨Vector.replicate 16 2, 4, 0, 0⟩
  have := congrArg (fun s : Xs1024I => s.s[0]) (h _ _ _ _ hv)
  revert this
  decide +kernel

theorem xoroshiro128_replaced (x s : XoroI) : ∃ v, xoroSet v s = (.err .keyError, { s with s := x.s }) := by
  refine ⟨mkDict [("bit_generator", .str "randomgen.xoroshiro128.Xoroshiro128"), ("s", pyArr x.s)], ?_⟩
  rw [xoroSet]
  run_until []
theorem not_C12_xoroshiro128 : ¬ Safe (xoroSet : PyVal → SetM (XoroI) Unit) := by
  intro h
  obtain ⟨v, hv⟩ := xoroshiro128_replaced ⟨#v[1, 2], 0, 0, true, true⟩ ⟨#v[3, 4], 0, 0, true, true⟩
  have := congrArg (fun s : XoroI => s.s[0]) (h _ _ _ _ hv)
  revert this
  decide +kernel

theorem lxm_replaced (x s : LxmI) : ∃ v, lxmSet v s = (.err .keyError, { s with x := x.x, lcg := x.lcg, b := x.b }) := by
  refine ⟨mkDict [("bit_generator", .str "randomgen.lxm.LXM"), ("state", mkDict [("x", pyArr x.x), ("lcg_state", pyU x.lcg), ("b", pyU x.b)])], ?_⟩
  rw [lxmSet]
  run_until []
theorem not_C12_lxm : ¬ Safe (lxmSet : PyVal → SetM (LxmI) Unit) := by
  intro h
  obtain ⟨v, hv⟩ := lxm_replaced ⟨#v[1, 2, 3, 4], 1, 1, 0, 0⟩ ⟨#v[5, 6, 7, 8], 2, 3, 0, 0⟩
  have := congrArg (fun s : LxmI => s.lcg) (h _ _ _ _ hv)
  revert this
  decide +kernel

theorem sfc64_replaced (x s : SfcI) : ∃ v, sfcSet v s = (.err .keyError, { x with has := s.has, uint := s.uint }) := by
  refine ⟨mkDict [("bit_generator", .str "randomgen.sfc.SFC64"), ("state", mkDict [("a", pyU x.a), ("b", pyU x.b), ("c", pyU x.c), ("w", pyU x.w), ("k", pyU x.k)])], ?_⟩
  rw [sfcSet]
  run_until []
theorem not_C12_sfc64 : ¬ Safe (sfcSet : PyVal → SetM (SfcI) Unit) := by
  intro h
  obtain ⟨v, hv⟩ := sfc64_replaced ⟨1, 2, 3, 4, 5, 0, 0⟩ ⟨6, 7, 8, 9, 1, 0, 0⟩
  have := congrArg (fun s : SfcI => s.a) (h _ _ _ _ hv)
  revert this
  decide +kernel

theorem romu_replaced (x s : RomuI) : ∃ v, romuSet v s = (.err .keyError, { s with w := x.w, x := x.x, y := x.y, z := x.z }) := by
  refine ⟨mkDict [("bit_generator", .str "randomgen.romu.Romu"), ("state", mkDict [("w", pyU x.w), ("x", pyU x.x), ("y", pyU x.y), ("z", pyU x.z)])], ?_⟩
  rw [romuSet]
  run_until []
theorem not_C12_romu : ¬ Safe (romuSet : PyVal → SetM (RomuI) Unit) := by
  intro h
  obtain ⟨v, hv⟩ := romu_replaced ⟨1, 2, 3, 4, 0, 0, "quad", true⟩ ⟨5, 6, 7, 8, 0, 0, "quad", true⟩
  have := congrArg (fun s : RomuI => s.x) (h _ _ _ _ hv)
  revert this
  decide +kernel

theorem tyche_replaced (x s : TycheI) : ∃ v, tycheSet v s = (.err .keyError, { s with a := x.a, b := x.b, c := x.c, original := x.original }) := by
  refine ⟨mkDict [("bit_generator", .str "randomgen.tyche.Tyche"), ("state", mkDict [("a", pyU x.a), ("b", pyU x.b), ("c", pyU x.c), ("original", .bool x.original)])], ?_⟩
  rw [tycheSet]
  run_until []
theorem not_C12_tyche : ¬ Safe (tycheSet : PyVal → SetM (TycheI) Unit) := by
  intro h
  obtain ⟨v, hv⟩ := tyche_replaced ⟨1, 2, 3, 4, true, true⟩ ⟨5, 6, 7, 8, true, true⟩
  have := congrArg (fun s : TycheI => s.a) (h _ _ _ _ hv)
  revert this
  decide +kernel

theorem efiix64_replaced (x s : EfiixI) : ∃ v, efiixSet v s = (.err .keyError, { x with has := s.has, uint := s.uint }) := by
  refine ⟨mkDict [("bit_generator", .str "randomgen.efiix64.EFIIX64"), ("state", mkDict [("indirection_table", pyArr x.ind), ("iteration_table", pyArr x.itr), ("i", pyU x.i), ("a", pyU x.a), ("b", pyU x.b), ("c", pyU x.c)])], ?_⟩
  rw [efiixSet]
  run_until []
theorem not_C12_efiix64 : ¬ Safe (efiixSet : PyVal → SetM (EfiixI) Unit) := by
  intro h
  obtain ⟨v, hv⟩ := efiix64_replaced ⟨Vector.replicate 16 1, Vector.replicate 32 2, 1, 2, 3, 4, 0, 0⟩ ⟨Vector.replicate 16 0, Vector.replicate 32 2, 5, 6, 7, 8, 0, 0⟩
  have := congrArg (fun s : EfiixI => s.a) (h _ _ _ _ hv)
  revert this
  decide +kernel

theorem pcg32_replaced (x s : Pcg32I) : ∃ v, pcg32Set v s = (.err .keyError, { s with state := x.state }) := by
  refine ⟨mkDict [("bit_generator", .str "randomgen.pcg32.PCG32"), ("state", mkDict [("state", pyU x.state)])], ?_⟩
  rw [pcg32Set]
  run_until []
theorem not_C12_pcg32 : ¬ Safe (pcg32Set : PyVal → SetM (Pcg32I) Unit) := by
  intro h
  obtain ⟨v, hv⟩ := pcg32_replaced ⟨1, 3⟩ ⟨2, 3⟩
  have := congrArg (fun s : Pcg32I => s.state) (h _ _ _ _ hv)
  revert this
  decide +kernel

theorem mt19937_replaced (x s : Mt32I) : ∃ v, mt32Set v s = (.err .keyError, { s with key := x.key }) := by
  refine ⟨mkDict [("bit_generator", .str "randomgen.mt19937.MT19937"), ("state", mkDict [("key", pyArr x.key)])], ?_⟩
  rw [mt32Set]
  run_until [show ∀ l, mt32Legacy (mkDict l) = .ok (mkDict l) from fun _ => rfl]
theorem not_C12_mt19937 : ¬ Safe (mt32Set : PyVal → SetM (Mt32I) Unit) := by
  intro h
  obtain ⟨v, hv⟩ := mt19937_replaced ⟨Vector.replicate 624 1, 3⟩ ⟨Vector.replicate 624 2, 3⟩
  have := congrArg (fun s : Mt32I => s.key[0]) (h _ _ _ _ hv)
  revert this
  decide +kernel

theorem mt64_replaced (x s : Mt64I) : ∃ v, mt64Set v s = (.err .keyError, { s with mt := x.mt, mti := x.mti }) := by
  refine ⟨mkDict [("bit_generator", .str "randomgen.mt64.MT64"), ("state", mkDict [("key", pyArr x.mt), ("pos", pyI x.mti)])], ?_⟩
  rw [mt64Set]
  run_until []
theorem not_C12_mt64 : ¬ Safe (mt64Set : PyVal → SetM (Mt64I) Unit) := by
  intro h
  obtain ⟨v, hv⟩ := mt64_replaced ⟨Vector.replicate 312 1, 3, 0, 0⟩ ⟨Vector.replicate 312 2, 3, 0, 0⟩
  have := congrArg (fun s : Mt64I => s.mt[0]) (h _ _ _ _ hv)
  revert this
  decide +kernel

theorem sfmt_replaced (x s : SfmtI) : ∃ v, sfmtSet v s = (.err .keyError, { s with st := view64 (view32 x.st), idx := x.idx }) := by
  refine ⟨mkDict [("bit_generator", .str "randomgen.sfmt.SFMT"), ("state", mkDict [("state", pyArr (view32 x.st)), ("idx", pyI x.idx)])], ?_⟩
  rw [sfmtSet]
  run_until []
theorem not_C12_sfmt : ¬ Safe (sfmtSet : PyVal → SetM (SfmtI) Unit) := by
  intro h
  obtain ⟨v, hv⟩ := sfmt_replaced ⟨Vector.replicate 312 1, 3, Vector.replicate 312 0, 1, 0, 0⟩ ⟨Vector.replicate 312 2, 4, Vector.replicate 312 0, 1, 0, 0⟩
  have := congrArg (fun s : SfmtI => s.idx) (h _ _ _ _ hv)
  revert this
  decide +kernel

theorem dsfmt_replaced (x s : DsfmtI) : ∃ v, dsfmtSet v s = (.err .keyError, { s with st := x.st, idx := x.idx }) := by
  refine ⟨mkDict [("bit_generator", .str "randomgen.dsfmt.DSFMT"), ("state", mkDict [("state", pyArr x.st), ("idx", pyI x.idx)])], ?_⟩
  rw [dsfmtSet]
  run_until []
theorem not_C12_dsfmt : ¬ Safe (dsfmtSet : PyVal → SetM (DsfmtI) Unit) := by
  intro h
  obtain ⟨v, hv⟩ := dsfmt_replaced ⟨Vector.replicate 384 1, 3, Vector.replicate 382 0, 1⟩ ⟨Vector.replicate 384 2, 3, Vector.replicate 382 0, 1⟩
  have := congrArg (fun s : DsfmtI => s.st[0]) (h _ _ _ _ hv)
  revert this
  decide +kernel

theorem hc128_replaced (x s : Hc128I) : ∃ v, hc128Set v s = (.err .keyError, { s with p := x.p, q := x.q, buffer := x.buffer, hcIdx := x.hcIdx }) := by
  refine ⟨mkDict [("bit_generator", .str "randomgen.hc128.HC128"), ("state", mkDict [("p", pyArr x.p), ("q", pyArr x.q), ("hc_idx", pyI x.hcIdx), ("buffer", pyArr x.buffer)])], ?_⟩
  rw [hc128Set]
  run_until []
theorem not_C12_hc128 : ¬ Safe (hc128Set : PyVal → SetM (Hc128I) Unit) := by
  intro h
  obtain ⟨v, hv⟩ := hc128_replaced ⟨Vector.replicate 512 1, Vector.replicate 512 1, Vector.replicate 16 1, 0, 16⟩ ⟨Vector.replicate 512 2, Vector.replicate 512 1, Vector.replicate 16 1, 0, 16⟩
  have := congrArg (fun s : Hc128I => s.p[0]) (h _ _ _ _ hv)
  revert this
  decide +kernel

theorem speck128_replaced (x s : SpeckI) : ∃ v, speckSet v s = (.err .keyError, { s with ctr := x.ctr, buffer := x.buffer, roundKey := x.roundKey }) := by
  refine ⟨mkDict [("bit_generator", .str "randomgen.speck128.SPECK128"), ("state", mkDict [("ctr", pyArr x.ctr), ("buffer", pyArr x.buffer), ("round_key", pyArr x.roundKey)])], ?_⟩
  rw [speckSet]
  run_until []
theorem not_C12_speck128 : ¬ Safe (speckSet : PyVal → SetM (SpeckI) Unit) := by
  intro h
  obtain ⟨v, hv⟩ := speck128_replaced ⟨Vector.replicate 12 1, Vector.replicate 12 1, Vector.replicate 68 1, 34, 96, 0, 0⟩ ⟨Vector.replicate 12 2, Vector.replicate 12 1, Vector.replicate 68 1, 34, 96, 0, 0⟩
  have := congrArg (fun s : SpeckI => s.ctr[0]) (h _ _ _ _ hv)
  revert this
  decide +kernel

theorem squares_replaced (x s : SquaresI) : ∃ v, squaresSet v s = (.err .keyError, { s with key := x.key, counter := x.counter }) := by
  refine ⟨mkDict [("bit_generator", .str "randomgen.squares.Squares"), ("state", mkDict [("key", pyU x.key), ("counter", pyU x.counter)])], ?_⟩
  rw [squaresSet]
  run_until []
theorem not_C12_squares : ¬ Safe (squaresSet : PyVal → SetM (SquaresI) Unit) := by
  intro h
  obtain ⟨v, hv⟩ := squares_replaced ⟨1, 2, 0, 0, 64, true, true⟩ ⟨3, 2, 0, 0, 64, true, true⟩
  have := congrArg (fun s : SquaresI => s.key) (h _ _ _ _ hv)
  revert this
  decide +kernel

theorem jsf_replaced (x s : JsfI) : ∃ v, jsfSet v s = (.err .keyError, { s with
      a := x.a, b := x.b, c := x.c, d := x.d, p := x.p, q := x.q, r := x.r, size := 64, act64 := true }) := by
  refine ⟨mkDict [("bit_generator", .str "randomgen.jsf.JSF"), ("size", pyI (64 : U32)), ("state", mkDict [("a", pyU x.a), ("b", pyU x.b), ("c", pyU x.c), ("d", pyU x.d), ("p", pyI x.p), ("q", pyI x.q), ("r", pyI x.r)])], ?_⟩
  rw [jsfSet]
  run_until [jsfPar_pyI, if_true, beq_self_eq_true]
theorem not_C12_jsf : ¬ Safe (jsfSet : PyVal → SetM (JsfI) Unit) := by
  intro h
  obtain ⟨v, hv⟩ := jsf_replaced ⟨1, 2, 3, 4, 7, 13, 37, 0, 0, 64, 2, true⟩ ⟨5, 6, 7, 8, 7, 13, 37, 0, 0, 64, 2, true⟩
  have := congrArg (fun s : JsfI => s.a) (h _ _ _ _ hv)
  revert this
  decide +kernel

theorem chacha_replaced (x s : ChaChaI) : ∃ v, chachaSet v s = (.err .keyError, { x with rounds := s.rounds }) := by
  refine ⟨mkDict [("bit_generator", .str "randomgen.chacha.ChaCha"), ("state", mkDict [("block", pyArr x.block), ("keysetup", pyArr x.keysetup), ("ctr", pyArr x.ctr)])], ?_⟩
  have h1 : Lens ChaChaI.block (fun a s => { s with block := a }) := ⟨fun _ _ => rfl, fun _ => rfl, fun _ _ _ => rfl⟩
  have h2 : Lens ChaChaI.keysetup (fun a s => { s with keysetup := a }) := ⟨fun _ _ => rfl, fun _ => rfl, fun _ _ _ => rfl⟩
  have h3 : Lens ChaChaI.ctr (fun a s => { s with ctr := a }) := ⟨fun _ _ => rfl, fun _ => rfl, fun _ _ _ => rfl⟩
  rw [chachaSet]
  run_until [SetM.bind_of_ok (storeVec_pyArr h1 _ _), SetM.bind_of_ok (storeVec_pyArr h2 _ _), SetM.bind_of_ok (storeVec_pyArr h3 _ _)]
theorem not_C12_chacha : ¬ Safe (chachaSet : PyVal → SetM (ChaChaI) Unit) := by
  intro h
  obtain ⟨v, hv⟩ := chacha_replaced ⟨Vector.replicate 16 1, Vector.replicate 8 1, Vector.replicate 2 0, 20⟩ ⟨Vector.replicate 16 2, Vector.replicate 8 1, Vector.replicate 2 0, 20⟩
  have := congrArg (fun s : ChaChaI => s.block[0]) (h _ _ _ _ hv)
  revert this
  decide +kernel

theorem aesctr_replaced (x s : AesI) : ∃ v, aesSet v s = (.err .keyError, { s with state := x.state, offset := x.offset }) := by
  refine ⟨mkDict [("bit_generator", .str "randomgen.aes.AESCounter"), ("s", mkDict [("state", pyArr x.state), ("offset", pyU x.offset)])], ?_⟩
  have h1 : Lens AesI.state (fun a s => { s with state := a }) := ⟨fun _ _ => rfl, fun _ => rfl, fun _ _ _ => rfl⟩
  rw [aesSet]
  run_until [SetM.bind_of_ok (storeVec_pyArr h1 _ _)]
theorem not_C12_aesctr : ¬ Safe (aesSet : PyVal → SetM (AesI) Unit) := by
  intro h
  obtain ⟨v, hv⟩ := aesctr_replaced ⟨Vector.replicate 8 1, Vector.replicate 22 1, Vector.replicate 64 0, 20, 0, 0⟩ ⟨Vector.replicate 8 1, Vector.replicate 22 1, Vector.replicate 64 0, 64, 0, 0⟩
  have := congrArg (fun s : AesI => s.offset) (h _ _ _ _ hv)
  revert this
  decide +kernel

theorem lcg128mix_replaced (x s : LcgMixI) : ∃ v, lcgMixSet v s = (.err .keyError, { s with state := x.state, inc := x.inc, mult := x.mult, has := x.has, uint := x.uint }) := by
  refine ⟨mkDict [("bit_generator", .str "randomgen.pcg64.LCG128Mix"), ("state", mkDict [("state", pyU128 x.state), ("inc", pyU128 x.inc), ("multiplier", pyU128 x.mult)]), ("has_uint32", pyI x.has), ("uinteger", pyU x.uint)], ?_⟩
  rw [lcgMixSet]
  run_until [pyInt_pyU128, split128_toNat]
theorem not_C12_lcg128mix : ¬ Safe (lcgMixSet : PyVal → SetM (LcgMixI) Unit) := by
  intro h
  obtain ⟨v, hv⟩ := lcg128mix_replaced ⟨3, 1, 5, 1, 1, 0, 0, 0, 0, none⟩ ⟨2, 1, 5, 1, 1, 0, 0, 0, 0, none⟩
  have := congrArg (fun s : LcgMixI => s.state) (h _ _ _ _ hv)
  revert this
  decide +kernel

theorem philox_replaced (x s : CtrI) : ∃ v, philoxSet v s = (.err .keyError, ctrSetup { s with number := x.number, n := x.number, width := x.width, w := x.width }) := by
  refine ⟨mkDict [("bit_generator", .str "randomgen.philox.Philox"), ("number", pyI x.number), ("width", pyI x.width)], ?_⟩
  rw [philoxSet, ctrSet]
  run_until []
theorem not_C12_philox : ¬ Safe (philoxSet : PyVal → SetM (CtrI) Unit) := by
  intro h
  obtain ⟨v, hv⟩ := philox_replaced ⟨2, 32, 2, 32, 2, 32, #v[0, 0, 0, 0], #v[0, 0, 0, 0], #v[0, 0, 0, 0], 4, 0, 0⟩ ⟨4, 64, 4, 64, 4, 64, #v[0, 0, 0, 0], #v[0, 0, 0, 0], #v[0, 0, 0, 0], 4, 0, 0⟩
  have := congrArg (fun s : CtrI => s.actW) (h _ _ _ _ hv)
  revert this
  decide +kernel

theorem threefry_replaced (x s : CtrI) : ∃ v, threefrySet v s = (.err .keyError, ctrSetup { s with number := x.number, n := x.number, width := x.width, w := x.width }) := by
  refine ⟨mkDict [("bit_generator", .str "randomgen.threefry.ThreeFry"), ("number", pyI x.number), ("width", pyI x.width)], ?_⟩
  rw [threefrySet, ctrSet]
  run_until []
theorem not_C12_threefry : ¬ Safe (threefrySet : PyVal → SetM (CtrI) Unit) := by
  intro h
  obtain ⟨v, hv⟩ := threefry_replaced ⟨2, 32, 2, 32, 2, 32, #v[0, 0, 0, 0], #v[0, 0, 0, 0], #v[0, 0, 0, 0], 4, 0, 0⟩ ⟨4, 64, 4, 64, 4, 64, #v[0, 0, 0, 0], #v[0, 0, 0, 0], #v[0, 0, 0, 0], 4, 0, 0⟩
  have := congrArg (fun s : CtrI => s.actW) (h _ _ _ _ hv)
  revert this
  decide +kernel

end Verif
