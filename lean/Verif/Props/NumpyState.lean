import Verif.Model.NumpyState
import Verif.Props.ExtGen3
import Verif.Model.Session6

/-! C107: a state saved by NumPy's bit generator of the same name is accepted by randomgen's, which goes on with NumPy's stream. -/

namespace Verif
namespace NpState

theorem pyInt_nat (n : Nat) : pyInt (.int n) = .ok n := rfl

set_option linter.unusedSimpArgs false

/-- PCG64: the state without a variant is that of XSL-RR, NumPy's variant, whatever the variant of the instance was. -/
theorem C107_pcg64 (state inc : U128) (has uint : U32) (t : Pcg64I) :
    pcg64Set (npPcg64 "PCG64" state inc has uint) t = (.ok (), ⟨state, inc, 0, has, uint, "xsl-rr", false, false, false⟩) := by
  rw [pcg64Set, npPcg64]
  round_trip [header_short, asStr, pyInt_nat, split128_toNat]
  rfl

/-- PCG64DXSM. -/
theorem C107_pcg64dxsm (state inc : U128) (has uint : U32) (t : Pcg64I) :
    pcg64DxsmSet (npPcg64 "PCG64DXSM" state inc has uint) t = (.ok (), ⟨state, inc, 1, has, uint, "dxsm", true, true, true⟩) := by
  rw [pcg64DxsmSet, npPcg64]
  round_trip [header_short, pyInt_nat, split128_toNat]
  rfl

/-- MT19937. The tuples of NumPy's legacy generator are `C11_mt19937_legacy`. -/
theorem C107_mt19937 (key : Vector U32 624) (pos : U32) (t : Mt32I) : mt32Set (npMt19937 key pos) t = (.ok (), ⟨key, pos⟩) := by
  rw [mt32Set, show mt32Legacy (npMt19937 key pos) = .ok (npMt19937 key pos) from id rfl, npMt19937]
  round_trip [header_short]

theorem getD_nil (k : String) (d : PyVal) : getD (mkDict []) k d = d := rfl

theorem checkDyn_arr {k : Nat} (v : Vector U64 k) : checkDyn (pyArr v) k 64 = .ok v.toList := by
  rw [checkDyn, if_pos (by decide)]
  show (checkStateArray (pyArr v) k 64 >>= _) = _
  rw [checkStateArray_pyArr, Res.ok_bind]
  show Res.ok _ = _
  simp

theorem putSlots_four (v old : Vector U64 4) : putSlots 4 64 v.toList old = .ok v := by
  rw [putSlots, if_pos (by simp)]
  congr 1
  apply Vector.ext
  intro i hi
  simp [hi]

theorem putSlots_two (v : Vector U64 2) (old : Vector U64 4) : putSlots 2 64 v.toList old = .ok #v[v[0], v[1], old[2], old[3]] := by
  rw [putSlots, if_pos (by simp)]
  congr 1
  apply Vector.ext
  intro i hi
  rcases i with _ | _ | _ | _ | i
  · simp
  · simp
  · simp
  · simp
  · omega

/-- Philox: the state without number and width is that of four words of 64 bits, NumPy's variant, whatever the variant of the instance was; key words
from the third on are not used by it. -/
theorem C107_philox (ctr : Vector U64 4) (key : Vector U64 2) (buf : Vector U64 4) (pos has uint : U32) (t : CtrI) :
    philoxSet (npPhilox ctr key buf pos has uint) t =
      (.ok (), ⟨4, 64, 4, 64, 4, 64, ctr, #v[key[0], key[1], t.key[2], t.key[3]], buf, pos, has, uint⟩) := by
  have hset : ∀ u : CtrI, u.n = 4 → u.w = 64 → ctrSetup u = { u with actN := 4, actW := 64 } := by
    intro u e1 e2
    rw [ctrSetup, if_pos, e1, e2]
    rw [e1, e2]
    decide
  have h4 : asInt (.int 4) = .ok 4 := by decide
  have h64 : asInt (.int 64) = .ok 64 := by decide
  have n4 : (4 : U32).toNat = 4 := by decide
  rw [philoxSet, ctrSet, npPhilox]
  round_trip [header_short, hset, h4, h64, n4, checkDyn_arr, putSlots_four, putSlots_two, getD_nil]

/-- SFC64: no state that NumPy saves is accepted. The attributes of the instance are not touched. -/
theorem not_C107_sfc64 (words : Vector U64 4) (has uint : U32) (t : SfcI) : sfcSet (npSfc64 words has uint) t = (.err .keyError, t) := by
  rw [sfcSet, npSfc64]
  round_trip [header_short]
  rfl

/-! ### The streams, written out from the definitions of PCG64 and PCG64DXSM in NumPy's documentation -/

/-- The output of XSL-RR: the halves are combined and rotated by the six leading bits. -/
def xslRr (x : U128) : U64 := ((x >>> 64).truncate 64 ^^^ x.truncate 64).rotateRight (x >>> 122).toNat

/-- The output of DXSM. -/
def dxsm (x : U128) : U64 :=
  let m := 0xda942042e4dd58b5#64
  let h : U64 := (x >>> 64).truncate 64
  let h := (h ^^^ (h >>> 32)) * m
  (h ^^^ (h >>> 48)) * (x.truncate 64 ||| 1)

theorem rot_eq (v : U64) (k : Nat) (hk : k < 64) : Pcg.rotr64 v k = v.rotateRight k := by
  rw [Pcg.rotr64, BitVec.rotateRight_def, Nat.mod_eq_of_lt hk]
  rcases Nat.eq_zero_or_pos k with rfl | h
  · simp
  · rw [Nat.mod_eq_of_lt (by omega)]

theorem xslRr_eq (x : U128) : Pcg.outXslRr (Pcg.hi x) (Pcg.lo x) = xslRr x := by
  have e : (Pcg.hi x >>> 58).toNat = (x >>> 122).toNat := by
    simp only [Pcg.hi, BitVec.toNat_ushiftRight, BitVec.truncate_eq_setWidth, BitVec.toNat_setWidth, Nat.shiftRight_eq_div_pow]
    have := x.isLt
    omega
  have h : (x >>> 122).toNat < 64 := by
    simp only [BitVec.toNat_ushiftRight, Nat.shiftRight_eq_div_pow]
    have := x.isLt
    omega
  rw [Pcg.outXslRr, e, rot_eq _ _ h]
  rfl

theorem mult_eq : Pcg.defaultMult = 0x2360ed051fc65da44385df649fccf645 := by decide
theorem cheap_eq : Pcg.cheapMult = 0xda942042e4dd58b5 := by decide

theorem op_xslRr (b : Bool) (state inc : U128) (has uint : U32) :
    bgCall pcg64Cls (b, ⟨state, inc, 0, has, uint, "xsl-rr", false, false, false⟩) (.raw .u64) =
      (.out (.o64 (Pcg.outXslRr (Pcg.hi (Pcg.lcgStep Pcg.defaultMult inc state)) (Pcg.lo (Pcg.lcgStep Pcg.defaultMult inc state)))),
        (b, ⟨Pcg.lcgStep Pcg.defaultMult inc state, inc, 0, halfI (has != 0), uint, "xsl-rr", false, false, false⟩)) := rfl

theorem op_dxsm (state inc : U128) (has uint : U32) :
    bgCall pcg64DxsmCls ⟨state, inc, 1, has, uint, "dxsm", true, true, true⟩ (.raw .u64) =
      (.out (.o64 (Pcg.outDxsm (Pcg.hi state) (Pcg.lo state) 0xda942042e4dd58b5#64)),
        ⟨Pcg.lcgStep Pcg.cheapMult inc state, inc, 1, halfI (has != 0), uint, "dxsm", true, true, true⟩) := rfl

theorem dxsm_eq (x : U128) : Pcg.outDxsm (Pcg.hi x) (Pcg.lo x) 0xda942042e4dd58b5#64 = dxsm x := by
  simp only [Pcg.outDxsm, dxsm, Pcg.hi, Pcg.lo]

theorem step_eq (inc x : U128) : Pcg.lcgStep Pcg.defaultMult inc x = x * 0x2360ed051fc65da44385df649fccf645 + inc := by rw [Pcg.lcgStep, mult_eq]
theorem step_cheap_eq (inc x : U128) : Pcg.lcgStep Pcg.cheapMult inc x = x * 0xda942042e4dd58b5 + inc := by rw [Pcg.lcgStep, cheap_eq]

theorem run_stream {Par Seed σ : Type} (C : GCls Par Seed σ) (P : σ → U128 → Prop) (f : U128 → U128) (g : U128 → U64)
    (h : ∀ s x, P s x → ∃ s', bgCall C s (.raw .u64) = (.out (.o64 (g x)), s') ∧ P s' (f x)) : ∀ n s x, P s x →
      bgRun C s (List.replicate n (.raw .u64)) = (List.range n).map fun i => .out (.o64 (g (f^[i] x))) := by
  intro n
  induction n with
  | zero => intros; rfl
  | succ n ih =>
    intro s x p
    obtain ⟨s', e, p'⟩ := h s x p
    rw [List.range_succ_eq_map, List.map_cons, List.map_map, List.replicate_succ, bgRun, e]
    simp only [ih s' (f x) p']
    rfl

/-- `n` 64-bit words drawn from PCG64 after a state of NumPy was assigned to it: NumPy's. -/
theorem C107_pcg64_stream (state inc : U128) (has uint : U32) (b : Bool) (t : Pcg64I) (n : Nat) :
    bgRun pcg64Cls (pcg64Cls.set (npPcg64 "PCG64" state inc has uint) (b, t)).2 (List.replicate n (.raw .u64)) =
      (List.range n).map fun i => .out (.o64 (xslRr ((fun x => x * 0x2360ed051fc65da44385df649fccf645 + inc)^[i + 1] state))) := by
  have e : (pcg64Cls.set (npPcg64 "PCG64" state inc has uint) (b, t)).2 = (b, ⟨state, inc, 0, has, uint, "xsl-rr", false, false, false⟩) := by
    simp only [pcg64Cls, C107_pcg64]
  rw [e, run_stream pcg64Cls (fun s x => ∃ has uint, s = (b, ⟨x, inc, 0, has, uint, "xsl-rr", false, false, false⟩))
    (fun x => x * 0x2360ed051fc65da44385df649fccf645 + inc) (fun x => xslRr (x * 0x2360ed051fc65da44385df649fccf645 + inc)) ?_ n _ state ⟨has, uint, rfl⟩]
  · simp only [Function.iterate_succ_apply']
  · rintro s x ⟨has, uint, rfl⟩
    rw [op_xslRr, xslRr_eq, step_eq]
    exact ⟨_, rfl, _, _, rfl⟩

/-- The same for PCG64DXSM. -/
theorem C107_pcg64dxsm_stream (state inc : U128) (has uint : U32) (t : Pcg64I) (n : Nat) :
    bgRun pcg64DxsmCls (pcg64DxsmCls.set (npPcg64 "PCG64DXSM" state inc has uint) t).2 (List.replicate n (.raw .u64)) =
      (List.range n).map fun i => .out (.o64 (dxsm ((fun x => x * 0xda942042e4dd58b5 + inc)^[i] state))) := by
  have e : (pcg64DxsmCls.set (npPcg64 "PCG64DXSM" state inc has uint) t).2 = ⟨state, inc, 1, has, uint, "dxsm", true, true, true⟩ := by
    simp only [pcg64DxsmCls, C107_pcg64dxsm]
  rw [e, run_stream pcg64DxsmCls (fun s x => ∃ has uint, s = ⟨x, inc, 1, has, uint, "dxsm", true, true, true⟩)
    (fun x => x * 0xda942042e4dd58b5 + inc) dxsm ?_ n _ state ⟨has, uint, rfl⟩]
  rintro s x ⟨has, uint, rfl⟩
  rw [op_dxsm, dxsm_eq, step_cheap_eq]
  exact ⟨_, rfl, _, _, rfl⟩

/-! ### An `ExtendedGenerator` of a NumPy bit generator, pickled and loaded -/

theorem draw_raw {Par Seed σ : Type} (C : GCls Par Seed σ) (o : Op) : ∀ n s, bgRun C s (List.replicate n (.draw o)) = bgRun C s (List.replicate n (.raw o)) := by
  intro n
  induction n with
  | zero => intro _; rfl
  | succ n ih =>
    intro s
    simp only [List.replicate_succ, bgRun, ih]
    rfl

theorem one_draws {Par Seed σ : Type} (C : GCls Par Seed σ) (o : Op) (n : Nat) (s : σ) :
    egRun C (ExtGen.oneSet σ) ⟨(), s⟩ (List.replicate n (.draw o)) = bgRun C s (List.replicate n (.raw o)) := by
  rw [ExtGen.oneSet_run, draw_raw]

/-- `pickle.loads(pickle.dumps(ExtendedGenerator(numpy.random.PCG64())))` has a bit generator of randomgen, and draws what NumPy's would have drawn. -/
theorem C107_extended_pcg64 (gen : Nat → U64) (state inc : U128) (has uint : U32) (n : Nat) :
    (pcg64Cls.set (npPcg64 "PCG64" state inc has uint) (pcg64Default gen)).1 = .ok () ∧
    egRun pcg64Cls pcg64Fns ⟨(egNew pcg64Fns (pcg64Default gen)).f, (pcg64Cls.set (npPcg64 "PCG64" state inc has uint) (pcg64Default gen)).2⟩
        (List.replicate n (.draw .u64)) =
      (List.range n).map fun i => .out (.o64 (xslRr ((fun x => x * 0x2360ed051fc65da44385df649fccf645 + inc)^[i + 1] state))) := by
  have e : pcg64Cls.set (npPcg64 "PCG64" state inc has uint) (pcg64Default gen) =
      (.ok (), (false, ⟨state, inc, 0, has, uint, "xsl-rr", false, false, false⟩)) := by
    simp only [pcg64Cls, C107_pcg64]
    rfl
  have r := ExtGen.C105_pcg64_partial (false, ⟨state, inc, 0, has, uint, "xsl-rr", false, false, false⟩) (.inr (.inr ⟨rfl, rfl, rfl, rfl, rfl⟩))
    (List.replicate n (.draw .u64)) fun v h => by cases List.eq_of_mem_replicate h
  have q := C107_pcg64_stream state inc has uint (pcg64Default gen).1 (pcg64Default gen).2 n
  rw [← draw_raw, show ((pcg64Default gen).1, (pcg64Default gen).2) = pcg64Default gen from rfl, e] at q
  rw [e]
  exact ⟨rfl, r.trans q⟩

/-- The same for `numpy.random.PCG64DXSM()`; `b` is what `PCG64DXSM()` made. -/
theorem C107_extended_pcg64dxsm (state inc : U128) (has uint : U32) (b : Pcg64I) (n : Nat) :
    (pcg64DxsmCls.set (npPcg64 "PCG64DXSM" state inc has uint) b).1 = .ok () ∧
    egRun pcg64DxsmCls (ExtGen.oneSet Pcg64I) ⟨(), (pcg64DxsmCls.set (npPcg64 "PCG64DXSM" state inc has uint) b).2⟩ (List.replicate n (.draw .u64)) =
      (List.range n).map fun i => .out (.o64 (dxsm ((fun x => x * 0xda942042e4dd58b5 + inc)^[i] state))) := by
  have q := C107_pcg64dxsm_stream state inc has uint b n
  have e : (pcg64DxsmCls.set (npPcg64 "PCG64DXSM" state inc has uint) b).1 = .ok () := by simp only [pcg64DxsmCls, C107_pcg64dxsm]
  generalize pcg64DxsmCls.set (npPcg64 "PCG64DXSM" state inc has uint) b = r at q e ⊢
  exact ⟨e, (one_draws pcg64DxsmCls .u64 n r.2).trans q⟩

/-- Loading one of `numpy.random.SFC64()` raises `KeyError`. -/
theorem not_C107_extended_sfc64 (words : Vector U64 4) (has uint : U32) (b : (Option U64 × Option U64) × SfcI) :
    (setRes (sfcCls.set (npSfc64 words has uint) b)).1 = .err .keyError := by
  simp only [sfcCls, not_C107_sfc64]
  rfl

end NpState
end Verif
