import Verif.Props.Interfaces
import Verif.Model.Session3
import Verif.Model.Session7

/-! C105 and C106 for the classes with one set of draw functions: an `ExtendedGenerator` draws what its bit generator draws, in every program, and a copy is in
the state of the original. For SFC64 and MT19937 a copy also has to be seeded as the original would be, which it is not. -/

namespace Verif
namespace ExtGen

/-- The draw functions of a class whose constructor installs them and nothing else does (`__init__` of aes.pyx :137-143, chacha.pyx :146-152,
dsfmt.pyx :124-130, efiix64.pyx :105-111, hc128.pyx :116-122, lxm.pyx :132-138, mt19937.pyx :121-127, mt64.pyx :96-102, pcg32.pyx :105-111,
sfc.pyx :129-135, sfmt.pyx :123-129, speck128.pyx :158-164, xorshift1024.pyx :120-126, xoshiro256.pyx :120-126, xoshiro512.pyx :117-123). -/
def oneSet (σ : Type) : Fns Unit σ := ⟨fun _ => (), fun _ s => s⟩

section
variable {Par Seed σ : Type} (C : GCls Par Seed σ)

theorem oneSet_run (os : List (EgOp Seed)) : ∀ e : Eg Unit σ, egRun C (oneSet σ) e os = bgRun C e.bg os := by
  induction os with
  | nil => intro _; rfl
  | cons o os ih =>
    intro e
    have h5 : egCall C (oneSet σ) e o = ((bgCall C e.bg o).1, ⟨e.f, (bgCall C e.bg o).2⟩) := by
      cases o with
      | draw o =>
        have : egDraw C (oneSet σ) e o = C.op o e.bg := by
          unfold egDraw oneSet
          simp only [Prod.mk.eta, Option.map_id']
        simp only [egCall, this]
        rfl
      | _ => rfl
    have h6 := ih ⟨e.f, (bgCall C e.bg o).2⟩
    unfold egRun bgRun
    rw [h5]
    rcases hb : bgCall C e.bg o with ⟨r, s'⟩
    rw [hb] at h6
    cases r <;> simp only [h6]

theorem oneSet_both (s b : σ) (h : C.set (C.get s) b = (.ok (), s)) (os : List (EgOp Seed)) :
    egRun C (oneSet σ) (egNew (oneSet σ) s) os = bgRun C s os ∧ egCopy C (oneSet σ) b (egNew (oneSet σ) s) = (.done, egNew (oneSet σ) s) :=
  ⟨oneSet_run C os _, copy_eq b _ h rfl⟩

end

/-! ### The classes: every program, every state, every instance `b` that the copy starts from -/

theorem C105_xoshiro256 (s b : XoshI 4) (os : List (EgOp (Nat → U64))) :
    egRun xo256Cls (oneSet (XoshI 4)) (egNew (oneSet (XoshI 4)) s) os = bgRun xo256Cls s os ∧
      egCopy xo256Cls (oneSet (XoshI 4)) b (egNew (oneSet (XoshI 4)) s) = (.done, egNew (oneSet (XoshI 4)) s) :=
  oneSet_both xo256Cls s b (by simp only [xo256Cls]; exact C11_xoshiro256 s b) os

theorem C105_xoshiro512 (s b : XoshI 8) (os : List (EgOp (Nat → U64))) :
    egRun xo512Cls (oneSet (XoshI 8)) (egNew (oneSet (XoshI 8)) s) os = bgRun xo512Cls s os ∧
      egCopy xo512Cls (oneSet (XoshI 8)) b (egNew (oneSet (XoshI 8)) s) = (.done, egNew (oneSet (XoshI 8)) s) :=
  oneSet_both xo512Cls s b (by simp only [xo512Cls]; exact C11_xoshiro512 s b) os

theorem C105_xorshift1024 (s b : Xs1024I) (os : List (EgOp (Nat → U64))) :
    egRun xs1024Cls (oneSet Xs1024I) (egNew (oneSet Xs1024I) s) os = bgRun xs1024Cls s os ∧
      egCopy xs1024Cls (oneSet Xs1024I) b (egNew (oneSet Xs1024I) s) = (.done, egNew (oneSet Xs1024I) s) :=
  oneSet_both xs1024Cls s b (by simp only [xs1024Cls]; exact C11_xorshift1024 s b) os

theorem C105_lxm (s b : LxmI) (os : List (EgOp (Nat → U64))) :
    egRun lxmCls (oneSet LxmI) (egNew (oneSet LxmI) s) os = bgRun lxmCls s os ∧
      egCopy lxmCls (oneSet LxmI) b (egNew (oneSet LxmI) s) = (.done, egNew (oneSet LxmI) s) :=
  oneSet_both lxmCls s b (by simp only [lxmCls]; exact C11_lxm s b) os

theorem C105_efiix64 (s b : EfiixI) (os : List (EgOp (Nat → U64))) :
    egRun efiixCls (oneSet EfiixI) (egNew (oneSet EfiixI) s) os = bgRun efiixCls s os ∧
      egCopy efiixCls (oneSet EfiixI) b (egNew (oneSet EfiixI) s) = (.done, egNew (oneSet EfiixI) s) :=
  oneSet_both efiixCls s b (by simp only [efiixCls]; exact C11_efiix64 s b) os

theorem C105_pcg32 (hiFirst : Bool) (s b : Pcg32I) (os : List (EgOp ((Nat → U64) × Option U64))) :
    egRun (pcg32Cls hiFirst) (oneSet Pcg32I) (egNew (oneSet Pcg32I) s) os = bgRun (pcg32Cls hiFirst) s os ∧
      egCopy (pcg32Cls hiFirst) (oneSet Pcg32I) b (egNew (oneSet Pcg32I) s) = (.done, egNew (oneSet Pcg32I) s) :=
  oneSet_both (pcg32Cls hiFirst) s b (by simp only [pcg32Cls]; exact C11_pcg32 s b) os

theorem C105_mt64 (s b : Mt64I) (os : List (EgOp (Nat → U64))) :
    egRun mt64Cls (oneSet Mt64I) (egNew (oneSet Mt64I) s) os = bgRun mt64Cls s os ∧
      egCopy mt64Cls (oneSet Mt64I) b (egNew (oneSet Mt64I) s) = (.done, egNew (oneSet Mt64I) s) :=
  oneSet_both mt64Cls s b (by simp only [mt64Cls]; exact C11_mt64 s b) os

theorem C105_hc128 (hiFirst : Bool) (s b : Hc128I) (os : List (EgOp (Nat → U64))) :
    egRun (hc128Cls hiFirst) (oneSet Hc128I) (egNew (oneSet Hc128I) s) os = bgRun (hc128Cls hiFirst) s os ∧
      egCopy (hc128Cls hiFirst) (oneSet Hc128I) b (egNew (oneSet Hc128I) s) = (.done, egNew (oneSet Hc128I) s) :=
  oneSet_both (hc128Cls hiFirst) s b (by simp only [hc128Cls]; exact C11_hc128 s b) os

theorem C105_speck128 (s b : SpeckI) (os : List (EgOp ((Nat → U64) × Option Int))) :
    egRun speckCls (oneSet SpeckI) (egNew (oneSet SpeckI) s) os = bgRun speckCls s os ∧
      egCopy speckCls (oneSet SpeckI) b (egNew (oneSet SpeckI) s) = (.done, egNew (oneSet SpeckI) s) :=
  oneSet_both speckCls s b (by simp only [speckCls]; exact C11_speck128 s b) os

theorem C105_sfmt (s b : SfmtI) (os : List (EgOp (Nat → U32))) :
    egRun sfmtCls (oneSet SfmtI) (egNew (oneSet SfmtI) s) os = bgRun sfmtCls s os ∧
      egCopy sfmtCls (oneSet SfmtI) b (egNew (oneSet SfmtI) s) = (.done, egNew (oneSet SfmtI) s) :=
  oneSet_both sfmtCls s b (by simp only [sfmtCls]; exact C11_sfmt s b) os

theorem C105_dsfmt (s b : DsfmtI) (os : List (EgOp (Nat → U32))) :
    egRun dsfmtCls (oneSet DsfmtI) (egNew (oneSet DsfmtI) s) os = bgRun dsfmtCls s os ∧
      egCopy dsfmtCls (oneSet DsfmtI) b (egNew (oneSet DsfmtI) s) = (.done, egNew (oneSet DsfmtI) s) :=
  oneSet_both dsfmtCls s b (by simp only [dsfmtCls]; exact C11_dsfmt s b) os

theorem C105_chacha (hiFirst : Bool) (s b : ChaChaI) (os : List (EgOp ((Nat → U64) × Option Int))) :
    egRun (chachaCls hiFirst) (oneSet ChaChaI) (egNew (oneSet ChaChaI) s) os = bgRun (chachaCls hiFirst) s os ∧
      egCopy (chachaCls hiFirst) (oneSet ChaChaI) b (egNew (oneSet ChaChaI) s) = (.done, egNew (oneSet ChaChaI) s) :=
  oneSet_both (chachaCls hiFirst) s b (by simp only [chachaCls]; exact C11_chacha s b) os

theorem C105_aesctr (s b : AesI) (os : List (EgOp ((Nat → U64) × Option Int))) :
    egRun aesCls (oneSet AesI) (egNew (oneSet AesI) s) os = bgRun aesCls s os ∧
      egCopy aesCls (oneSet AesI) b (egNew (oneSet AesI) s) = (.done, egNew (oneSet AesI) s) :=
  oneSet_both aesCls s b (by simp only [aesCls]; exact C11_aesctr s b) os

theorem C105_pcg64dxsm (s b : Pcg64I) (h : Pcg64Ok s) (hd : s.variant = "dxsm") (os : List (EgOp ((Nat → U64) × Option U128))) :
    egRun pcg64DxsmCls (oneSet Pcg64I) (egNew (oneSet Pcg64I) s) os = bgRun pcg64DxsmCls s os ∧
      egCopy pcg64DxsmCls (oneSet Pcg64I) b (egNew (oneSet Pcg64I) s) = (.done, egNew (oneSet Pcg64I) s) :=
  oneSet_both pcg64DxsmCls s b (by simp only [pcg64DxsmCls]; exact C11_pcg64dxsm s b h hd) os

/-! ### SFC64 and MT19937 -/

/-- Every program draws alike, and a copy draws what the original draws, seeding included, if the original has the arguments `w` and `k` that
`SFC64()` has. Missing for the full claim: other arguments (false, `not_C105_sfc64_copy`). -/
theorem C105_sfc64_partial (p : Option U64 × Option U64) (s b : SfcI) (os : List (EgOp (Nat → U64))) :
    egRun sfcCls (oneSet _) (egNew (oneSet _) (p, s)) os = bgRun sfcCls (p, s) os ∧
      egCopy sfcCls (oneSet _) (p, b) (egNew (oneSet _) (p, s)) = (.done, egNew (oneSet _) (p, s)) :=
  oneSet_both sfcCls (p, s) (p, b) (by simp only [sfcCls, C11_sfc64 s b]) os

/-- Every program draws alike, and a copy draws what the original draws, seeding included, if the original was not made with `numpy_seed=True`.
Missing for the full claim: that mode; the copy is then in the other one (`C105_mt19937_copy_mode`). -/
theorem C105_mt19937_partial (hiFirst : Bool) (p : Bool) (s b : Mt32I) (os : List (EgOp (Nat → U32))) :
    egRun (mt32Cls hiFirst) (oneSet _) (egNew (oneSet _) (p, s)) os = bgRun (mt32Cls hiFirst) (p, s) os ∧
      egCopy (mt32Cls hiFirst) (oneSet _) (p, b) (egNew (oneSet _) (p, s)) = (.done, egNew (oneSet _) (p, s)) :=
  oneSet_both (mt32Cls hiFirst) (p, s) (p, b) (by simp only [mt32Cls, C11_mt19937 s b]) os

/-- The copy of an `ExtendedGenerator` of `MT19937(numpy_seed=True)` is one of `MT19937()` in the same state: later seeds go through
`mt19937_init_by_array`. -/
theorem C105_mt19937_copy_mode (hiFirst : Bool) (gen gen' : Nat → U32) (s b : Bool × Mt32I) (hs : (mt32Cls hiFirst).new true gen = .ok s)
    (hb : (mt32Cls hiFirst).new false gen' = .ok b) (os : List (EgOp (Nat → U32))) :
    egRun (mt32Cls hiFirst) (oneSet _) (egCopy (mt32Cls hiFirst) (oneSet _) b (egNew (oneSet _) s)).2 os =
      bgRun (mt32Cls hiFirst) (false, s.2) os := by
  cases hs
  cases hb
  have k : ∀ x y : Mt32I, egCopy (mt32Cls hiFirst) (oneSet _) (false, y) (egNew (oneSet _) (true, x)) = (.done, ⟨(), (false, x)⟩) := by
    intro x y
    unfold egCopy egNew
    simp only [mt32Cls, C11_mt19937 x y]
    rfl
  rw [k, oneSet_run]

/-- A copy has the state of the original, but the arguments `w` and `k` of `SFC64()`: after `bit_generator.seed(sd)` on both they draw different words. -/
theorem not_C105_sfc64_copy : ∃ (s b : (Option U64 × Option U64) × SfcI) (gen : Nat → U64), sfcCls.new (some 3, some 5) gen = .ok s ∧
    sfcCls.new (some 1, some 1) gen = .ok b ∧
    egRun sfcCls (oneSet _) (egCopy sfcCls (oneSet _) b (egNew (oneSet _) s)).2 [.draw .u64] = egRun sfcCls (oneSet _) (egNew (oneSet _) s) [.draw .u64] ∧
    egRun sfcCls (oneSet _) (egCopy sfcCls (oneSet _) b (egNew (oneSet _) s)).2 [.seed gen, .draw .u64] ≠
      egRun sfcCls (oneSet _) (egNew (oneSet _) s) [.seed gen, .draw .u64] :=
  ⟨_, _, fun i => BitVec.ofNat 64 i, rfl, rfl, by decide +kernel, by decide +kernel⟩

/-! ### The interfaces `ctypes` and `cffi` -/

/-- For every class with one set of draw functions, with no condition on the program, whatever states it assigns and whenever the tuples were made. -/
theorem C106_one_set {Par Seed σ : Type} (C : GCls Par Seed σ) (os : List (FaceOp Seed)) :
    ∀ i : Faced Unit σ, faceRun C (oneSet σ) i os = bgRun C i.bg (os.map plain) := by
  induction os with
  | nil => intro _; rfl
  | cons o os ih =>
    intro i
    have own : ∀ f k, egDraw C (oneSet σ) ⟨f, i.bg⟩ k = C.op k i.bg := by
      intro f k
      unfold egDraw oneSet
      simp only [Prod.mk.eta, Option.map_id']
    have a : (faceCall C (oneSet σ) i o).1 = (bgCall C i.bg (plain o)).1 ∧ (faceCall C (oneSet σ) i o).2.bg = (bgCall C i.bg (plain o)).2 := by
      cases o with
      | bg o => exact ⟨rfl, rfl⟩
      | ctypes o => simp only [faceCall, own]; exact ⟨rfl, rfl⟩
      | cffi o => simp only [faceCall, own]; exact ⟨rfl, rfl⟩
    have h6 := ih (faceCall C (oneSet σ) i o).2
    rw [a.2] at h6
    rw [List.map_cons]
    unfold faceRun bgRun
    rcases hc : faceCall C (oneSet σ) i o with ⟨r, i'⟩
    rcases hb : bgCall C i.bg (plain o) with ⟨r', s'⟩
    rw [hc, hb] at h6 a
    obtain ⟨a, -⟩ := a
    simp only at a h6
    subst a
    cases r <;> simp only [h6]

/-! ### Instances that meet the hypotheses -/

example : Pcg64Ok ⟨1, 3, 1, 0, 0, "dxsm", true, true, true⟩ := by unfold Pcg64Ok; decide
example : ∃ s b, (mt32Cls true).new true (fun _ => 1) = .ok s ∧ (mt32Cls true).new false (fun _ => 2) = .ok b := ⟨_, _, rfl, rfl⟩

end ExtGen
end Verif
