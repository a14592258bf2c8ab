import Verif.Model.Chaotic
import Verif.Common.BitInj
import Mathlib.Data.Finite.Prod
import Mathlib.Data.Fintype.Pi
import Mathlib.Data.Fintype.EquivFin
import Mathlib.Tactic.Abel

/-! Properties C39 (chaotic generators are invertible) and C40 (period of SFC64). -/

namespace Verif

instance finite_bitVec (w : Nat) : Finite (BitVec w) :=
  Finite.of_injective BitVec.toFin (fun a b h => by cases a; cases b; simp_all)

/-- On a finite set, an injective map returns every point to itself. -/
theorem returns_of_injective {σ : Type} [Finite σ] (f : σ → σ) (hf : Function.Injective f) (s : σ) :
    ∃ n, 0 < n ∧ f^[n] s = s := by
  obtain ⟨m, n, hmn, h⟩ := Finite.exists_ne_map_eq_of_infinite (fun n : Nat => f^[n] s)
  wlog hlt : m < n generalizing m n
  · exact this n m hmn.symm h.symm (by omega)
  refine ⟨n - m, by omega, ?_⟩
  have e : f^[n] s = f^[m] (f^[n - m] s) := by
    rw [← Function.iterate_add_apply]; congr 2; omega
  exact ((hf.iterate m) (by rw [← e]; exact h)).symm

/-- Everything C39 claims about one step map: it is a bijection, two trajectories that differ now differ
for ever and differed always, and every trajectory returns to its start. -/
structure Reversible {σ : Type} (f : σ → σ) : Prop where
  bijective : Function.Bijective f
  never_merge : ∀ s t, s ≠ t → ∀ n, f^[n] s ≠ f^[n] t
  returns : ∀ s, ∃ n, 0 < n ∧ f^[n] s = s

theorem reversible_of_injective {σ : Type} [Finite σ] (f : σ → σ) (hf : Function.Injective f) : Reversible f where
  bijective := Finite.injective_iff_bijective.mp hf
  never_merge _ _ hst n h := hst (hf.iterate n h)
  returns := returns_of_injective f hf

/-! ### JSF -/

theorem jsfRot_some {w : Nat} (x : BitVec w) {k : Int} (h : 0 < k ∧ k < w) :
    jsfRot x k = some (x.rotateLeft k.toNat) := by
  rw [jsfRot, if_pos h, BitVec.rotateLeft_def, Nat.mod_eq_of_lt (by omega)]

/-- Rotation distances for which C defines every operation. -/
def JsfPar.Defined (P : JsfPar) (w : Nat) : Prop :=
  (0 < P.p ∧ P.p < w) ∧ (0 < P.q ∧ P.q < w) ∧ (0 ≤ P.r ∧ P.r < w)

instance (P : JsfPar) (w : Nat) : Decidable (P.Defined w) := by unfold JsfPar.Defined; infer_instance

/-- The step of JSF as a total function of the state, for distances where it is defined. -/
def jsfStep {w : Nat} (P : JsfPar) (s : Jsf w) : Jsf w :=
  let e := s.a - s.b.rotateLeft P.p.toNat
  let a := s.b ^^^ s.c.rotateLeft P.q.toNat
  ⟨a, s.c + s.d.rotateLeft P.r.toNat, s.d + e, e + a⟩

theorem rotateLeft_zero' {w : Nat} (x : BitVec w) : x.rotateLeft 0 = x := by
  apply BitVec.eq_of_getLsbD_eq
  intro i hi
  simp [hi]

theorem jsfNext_some {w : Nat} (P : JsfPar) (h : P.Defined w) (s : Jsf w) :
    jsfNext P s = some ((jsfStep P s).d, jsfStep P s) := by
  have hr : jsfRotR s.d P.r = some (s.d.rotateLeft P.r.toNat) := by
    rw [jsfRotR]
    by_cases h0 : P.r = 0
    · rw [if_pos h0, h0]; simp [rotateLeft_zero']
    · rw [if_neg h0, jsfRot_some _ ⟨by have := h.2.2.1; omega, h.2.2.2⟩]
  simp only [jsfNext, jsfRot_some _ h.1, jsfRot_some _ h.2.1, hr, jsfStep]
  rfl

theorem jsfStep_injective {w : Nat} (P : JsfPar) : Function.Injective (jsfStep (w := w) P) := by
  intro s t h
  simp only [jsfStep, Jsf.mk.injEq] at h
  obtain ⟨h1, h2, h3, h4⟩ := h
  rw [h1] at h4
  have he := add_right_cancel h4
  rw [he] at h3
  have hd := add_right_cancel h3
  rw [hd] at h2
  have hc := add_right_cancel h2
  rw [hc] at h1
  have hb := xor_right_inj' _ h1
  rw [hb] at he
  have ha := sub_left_injective he
  cases s; cases t; simp_all

instance (w : Nat) : Finite (Jsf w) :=
  Finite.of_injective (fun s : Jsf w => (s.a, s.b, s.c, s.d)) (fun s t h => by
    cases s; cases t; simp_all)

/-- C39 for JSF with 32- or 64-bit words: for all rotation distances with `p, q ≠ 0` the draw is defined
and its step is reversible. -/
theorem C39_jsf_partial {w : Nat} (P : JsfPar) (h : P.Defined w) :
    ∃ f : Jsf w → Jsf w, (∀ s, ∃ o, jsfNext P s = some (o, f s)) ∧ Reversible f :=
  ⟨jsfStep P, fun s => ⟨_, jsfNext_some P h s⟩, reversible_of_injective _ (jsfStep_injective P)⟩

example : (jsfDefaults 64).Defined 64 ∧ (jsfDefaults 32).Defined 32 := by decide

/-- C39: every parameter set the package publishes is covered by `C39_jsf_partial`. -/
theorem C39_jsf_published :
    (∀ P ∈ jsf32Params, P.Defined 32) ∧ (∀ P ∈ jsf64Params, P.Defined 64) ∧
      (∀ size r, jsfInit size none none none = .ok r → r.2.Defined r.1) := by
  refine ⟨by decide, by decide, ?_⟩
  intro size r h
  simp only [jsfInit] at h
  split at h
  · cases h
  · rename_i hs
    have : size = 32 ∨ size = 64 := by omega
    rcases this with rfl | rfl <;> · cases h; decide

/-- C39 for the parameters the constructor accepts: whatever `p`, `q`, `r` are passed, if the accepted `p`
and `q` are nonzero every draw is defined and reversible. -/
theorem C39_jsf_init_partial (size : Int) (p q r : Option Int) (w : Nat) (P : JsfPar)
    (h : jsfInit size p q r = .ok (w, P)) (hp : P.p ≠ 0) (hq : P.q ≠ 0) :
    ∃ f : Jsf w → Jsf w, (∀ s, ∃ o, jsfNext P s = some (o, f s)) ∧ Reversible f := by
  apply C39_jsf_partial
  rw [jsfInit] at h
  by_cases hs : size ≠ 32 ∧ size ≠ 64
  · rw [if_pos hs] at h; cases h
  rw [if_neg hs] at h
  by_cases hb : (jsfBad size p || jsfBad size q || jsfBad size r) = true
  · rw [if_pos hb] at h; cases h
  rw [if_neg hb] at h
  have hsz : size = 32 ∨ size = 64 := by omega
  simp only [Except.ok.injEq, Prod.mk.injEq] at h
  obtain ⟨hw, hP⟩ := h
  subst hw hP
  simp only [Bool.or_eq_true, not_or] at hb
  obtain ⟨⟨b1, b2⟩, b3⟩ := hb
  rcases hsz with rfl | rfl <;> rcases p with _ | p <;> rcases q with _ | q <;> rcases r with _ | r <;>
    simp_all [JsfPar.Defined, jsfDefaults, jsfBad] <;> omega

example : jsfInit 32 (some 9) (some 16) none = .ok (32, ⟨9, 16, 0⟩) := by decide

/-- C39 fails as stated ("all parameters"): the constructor accepts `p = 0` (documented range `0 .. size-1`),
and then every draw shifts a 64-bit word by 64, which C leaves undefined. -/
theorem not_C39_jsf_zero_rotation :
    ∃ P, jsfInit 64 (some 0) none none = .ok (64, P) ∧ ∀ s : Jsf 64, jsfNext P s = none := by
  refine ⟨⟨0, 13, 37⟩, by decide, fun s => ?_⟩
  simp [jsfNext, jsfRot]

/-! ### SFC64 -/

theorem add_shl3_inj {x y : U64} (h : x + (x <<< 3) = y + (y <<< 3)) : x = y := by
  have e : ∀ z : U64, z + (z <<< 3) = 9#64 * z := by
    intro z
    apply BitVec.eq_of_toNat_eq
    simp only [BitVec.toNat_add, BitVec.toNat_shiftLeft, BitVec.toNat_mul, Nat.shiftLeft_eq, BitVec.toNat_ofNat]
    omega
  rw [e, e] at h
  exact mul_odd_inj 9#64 (by decide) h

theorem sfcStep_injective : Function.Injective (stepOf sfcNext) := by
  intro s t h
  simp only [stepOf, sfcNext, Sfc.mk.injEq] at h
  obtain ⟨h1, h2, h3, h4, h5⟩ := h
  have hb := xorshr_inj (by decide) h1
  have hc := add_shl3_inj h2
  rw [hc] at h3
  have ho := add_left_cancel h3
  rw [h5] at h4
  have hw := add_right_cancel h4
  rw [hb, hw] at ho
  have ha := add_right_cancel (add_right_cancel ho)
  cases s; cases t; simp_all

instance : Finite Sfc :=
  Finite.of_injective (fun s : Sfc => (s.a, s.b, s.c, s.w, s.k)) (fun s t h => by cases s; cases t; simp_all)

/-- C39 for SFC64 (any Weyl increment). -/
theorem C39_sfc64 : Reversible (stepOf sfcNext) := reversible_of_injective _ sfcStep_injective

/-! ### EFIIX64 -/

theorem upd_self_restore {n : Nat} (t : Fin n → U64) (j : Fin n) (v : U64) : upd (upd t j v) j (t j) = t := by
  funext i; unfold upd; split <;> simp_all

theorem upd_at {n : Nat} (t : Fin n → U64) (j : Fin n) (v : U64) : upd t j v j = v := by simp [upd]

theorem efiixStep_injective : Function.Injective (stepOf efiixNext) := by
  intro s t h
  simp only [stepOf, efiixNext, Efiix.mk.injEq] at h
  obtain ⟨hind, hitr, hi, ha, hb, hc⟩ := h
  have ei := add_right_cancel hi
  rw [ei] at ha hitr
  have eb := add_right_cancel ha
  have hx : s.ind (ix16 s.c) = t.ind (ix16 t.c) := by
    have := congrFun hitr (ix32 t.i)
    rwa [upd_at, upd_at] at this
  rw [hx] at hb
  have ec := add_right_cancel hb
  rw [ec] at hc hind
  have hab := add_right_cancel hc
  rw [eb] at hab
  have ea := xor_right_inj' _ hab
  have hy : s.itr (ix32 s.i) = t.itr (ix32 t.i) := by
    have := congrFun hind (ix16 t.c)
    rw [upd_at, upd_at, ea] at this
    exact add_right_cancel this
  have e1 : s.ind = t.ind := by
    rw [← upd_self_restore s.ind (ix16 t.c) (s.itr (ix32 s.i) + s.a), hind, ← ec, hx, ec]
    exact upd_self_restore _ _ _
  have e2 : s.itr = t.itr := by
    rw [← upd_self_restore s.itr (ix32 t.i) (s.ind (ix16 s.c)), hitr, ← ei, hy, ei]
    exact upd_self_restore _ _ _
  cases s; cases t; simp_all

instance : Finite Efiix :=
  Finite.of_injective (fun s : Efiix => (s.ind, s.itr, s.i, s.a, s.b, s.c)) (fun s t h => by
    cases s; cases t; simp_all)

/-- C39 for EFIIX64. -/
theorem C39_efiix64 : Reversible (stepOf efiixNext) := reversible_of_injective _ efiixStep_injective

/-! ### Romu -/

instance : Finite Romu :=
  Finite.of_injective (fun s : Romu => (s.w, s.x, s.y, s.z)) (fun s t h => by cases s; cases t; simp_all)

theorem romuQuad_injective : Function.Injective (stepOf romuQuadNext) := by
  intro s t h
  simp only [stepOf, romuQuadNext, Romu.mk.injEq] at h
  obtain ⟨h1, h2, h3, h4⟩ := h
  have hz := mul_odd_inj romuM (by decide) h1
  rw [hz] at h2
  have hw := rotl64_inj (by decide) (add_left_cancel h2)
  have h5 := rotl64_inj (by decide) h4
  rw [hw] at h5
  have hy := add_right_cancel h5
  rw [hy] at h3
  have hx := sub_right_injective h3
  cases s; cases t; simp_all

theorem romuTrio_injective : Function.Injective (stepOf romuTrioNext) := by
  intro s t h
  simp only [stepOf, romuTrioNext, Romu.mk.injEq] at h
  obtain ⟨hw, h1, h2, h3⟩ := h
  have hz := mul_odd_inj romuM (by decide) h1
  have h4 := rotl64_inj (by decide) h3
  rw [hz] at h4
  have hy := sub_right_injective h4
  have h5 := rotl64_inj (by decide) h2
  rw [hy] at h5
  have hx := sub_right_injective h5
  cases s; cases t; simp_all

/-- C39 for both variants of Romu. -/
theorem C39_romu : Reversible (stepOf romuQuadNext) ∧ Reversible (stepOf romuTrioNext) :=
  ⟨reversible_of_injective _ romuQuad_injective, reversible_of_injective _ romuTrio_injective⟩

/-! ### Tyche -/

instance : Finite Tyche :=
  Finite.of_injective (fun s : Tyche => (s.a, s.b, s.c, s.d)) (fun s t h => by cases s; cases t; simp_all)

/-- The four half steps of Tyche. -/
def tyQ (r1 r2 : Nat) (s : Tyche) : Tyche :=
  let a := s.a + s.b
  let d := rotl32 (s.d ^^^ a) r1
  let c := s.c + d
  ⟨a, rotl32 (s.b ^^^ c) r2, c, d⟩

theorem tyQ_injective (r1 r2 : Nat) (h1 : r1 < 32) (h2 : r2 < 32) : Function.Injective (tyQ r1 r2) := by
  intro s t h
  simp only [tyQ, Tyche.mk.injEq] at h
  obtain ⟨ha, hb, hc, hd⟩ := h
  rw [hc] at hb
  have eb := xor_right_inj' _ (rotl32_inj h2 hb)
  rw [hd] at hc
  have ec := add_right_cancel hc
  have h3 := rotl32_inj h1 hd
  rw [ha] at h3
  have ed := xor_right_inj' _ h3
  rw [eb] at ha
  have ea := add_right_cancel ha
  cases s; cases t; simp_all

theorem tycheMix_injective : Function.Injective tycheMix :=
  (tyQ_injective 8 7 (by decide) (by decide)).comp (tyQ_injective 16 12 (by decide) (by decide))

def tyO (r1 r2 : Nat) (s : Tyche) : Tyche :=
  let b := rotl32 s.b r1 ^^^ s.c
  let c := s.c - s.d
  let d := rotl32 s.d r2 ^^^ s.a
  ⟨s.a - b, b, c, d⟩

theorem tyO_injective (r1 r2 : Nat) (h1 : r1 < 32) (h2 : r2 < 32) : Function.Injective (tyO r1 r2) := by
  intro s t h
  simp only [tyO, Tyche.mk.injEq] at h
  obtain ⟨ha, hb, hc, hd⟩ := h
  rw [hb] at ha
  have ea := sub_left_injective ha
  rw [ea] at hd
  have ed := rotl32_inj h2 (xor_right_inj' _ hd)
  rw [ed] at hc
  have ec := sub_left_injective hc
  rw [ec] at hb
  have eb := rotl32_inj h1 (xor_right_inj' _ hb)
  cases s; cases t; simp_all

theorem tycheMixOpen_eq (s : Tyche) : tycheMixOpen s = tyO 12 16 (tyO 7 8 s) := by
  simp only [tycheMixOpen, tyO]

theorem tycheMixOpen_injective : Function.Injective tycheMixOpen := by
  intro s t h
  rw [tycheMixOpen_eq, tycheMixOpen_eq] at h
  exact tyO_injective 7 8 (by decide) (by decide) (tyO_injective 12 16 (by decide) (by decide) h)

/-- C39 for both variants of Tyche. -/
theorem C39_tyche : Reversible (stepOf tycheNext) ∧ Reversible (stepOf tycheOpenNext) :=
  ⟨reversible_of_injective _ tycheMix_injective, reversible_of_injective _ tycheMixOpen_injective⟩

/-- The part of the state a Romu variant uses is all zero. -/
def Romu.stuck (quad : Bool) (s : Romu) : Prop := (quad = true → s.w = 0) ∧ s.x = 0 ∧ s.y = 0 ∧ s.z = 0

/-- C55 for the quad variant: for all generated words, the seeded state is not the zero state and never
becomes it. -/
theorem C55_quad_partial (g0 g1 g2 g3 : U64) (n : Nat) :
    ¬ ((stepOf romuQuadNext)^[n] (romuFromSeq true g0 g1 g2 g3)).stuck true := by
  have fix : stepOf romuQuadNext ⟨0, 0, 0, 0⟩ = ⟨0, 0, 0, 0⟩ := by decide
  rintro ⟨h1, h2, h3, h4⟩
  have e : ∀ s : Romu, s.w = 0 → s.x = 0 → s.y = 0 → s.z = 0 → s = ⟨0, 0, 0, 0⟩ := by
    intro s _ _ _ _; cases s; simp_all
  have hz := e _ (h1 rfl) h2 h3 h4
  rw [romuFromSeq, romuSeed, if_pos rfl, ← Function.iterate_add_apply] at hz
  have := romuQuad_injective.iterate (n + 10) (hz.trans (Function.iterate_fixed fix (n + 10)).symm)
  simp only [Romu.mk.injEq] at this
  obtain ⟨z0, z1, z2, z3⟩ := this
  by_cases hg : g3 = 0
  · rw [if_pos ⟨z0, z1, z2, hg⟩, hg] at z3; revert z3; decide
  · rw [if_neg (fun h => hg h.2.2.2)] at z3; exact hg z3

/-- C55 for the trio variant, whenever one of the three words it uses is nonzero. -/
theorem C55_trio_partial (g0 g1 g2 g3 : U64) (hg : ¬ (g1 = 0 ∧ g2 = 0 ∧ g3 = 0)) (n : Nat) :
    ¬ ((stepOf romuTrioNext)^[n] (romuFromSeq false g0 g1 g2 g3)).stuck false := by
  rintro ⟨-, h2, h3, h4⟩
  rw [romuFromSeq, if_neg (fun h => hg h.2), romuSeed, if_neg (by decide), ← Function.iterate_add_apply] at h2 h3 h4
  have hw : ∀ (m : Nat) (s : Romu), ((stepOf romuTrioNext)^[m] s).w = s.w := by
    intro m; induction m with
    | zero => intro s; rfl
    | succ m ih => intro s; rw [Function.iterate_succ_apply, ih]; rfl
  have fix : stepOf romuTrioNext ⟨g0, 0, 0, 0⟩ = ⟨g0, 0, 0, 0⟩ := by
    simp [stepOf, romuTrioNext, rotl64]
  have e : (stepOf romuTrioNext)^[n + 10] ⟨g0, g1, g2, g3⟩ = ⟨g0, 0, 0, 0⟩ := by
    have := hw (n + 10) ⟨g0, g1, g2, g3⟩
    revert this h2 h3 h4
    generalize (stepOf romuTrioNext)^[n + 10] ⟨g0, g1, g2, g3⟩ = t
    intro h2 h3 h4 h1; cases t; simp_all
  have := romuTrio_injective.iterate (n + 10) (e.trans (Function.iterate_fixed fix (n + 10)).symm)
  simp only [Romu.mk.injEq, true_and] at this
  exact hg this

example : ¬ ((0 : U64) = 0 ∧ (5 : U64) = 0 ∧ (0 : U64) = 0) := by decide

/-- C55 fails for the trio variant: the guard of `_seed_from_seq` tests all four generated words, but the trio
generator does not use the first. With `x = y = z = 0` and any nonzero `w` the seeded generator returns 0 for
ever. -/
theorem not_C55_trio (g0 : U64) (h : g0 ≠ 0) (n : Nat) :
    (romuFromSeq false g0 0 0 0).stuck false ∧ nthDraw romuTrioNext n (romuFromSeq false g0 0 0 0) = 0 := by
  have fix : stepOf romuTrioNext ⟨g0, 0, 0, 0⟩ = ⟨g0, 0, 0, 0⟩ := by
    simp [stepOf, romuTrioNext, rotl64]
  have e : romuFromSeq false g0 0 0 0 = ⟨g0, 0, 0, 0⟩ := by
    rw [romuFromSeq, if_neg (fun hh => h hh.1), romuSeed]
    exact Function.iterate_fixed fix 10
  refine ⟨by rw [e]; exact ⟨by simp, rfl, rfl, rfl⟩, ?_⟩
  rw [nthDraw, e, Function.iterate_fixed fix n]
  rfl

example : (1 : U64) ≠ 0 := by decide

/-! ### C40 -/

theorem sfc_weyl (n : Nat) (s : Sfc) :
    ((stepOf sfcNext)^[n] s).w = s.w + BitVec.ofNat 64 n * s.k ∧ ((stepOf sfcNext)^[n] s).k = s.k := by
  induction n with
  | zero => simp
  | succ n ih =>
    rw [Function.iterate_succ_apply']
    constructor
    · show ((stepOf sfcNext)^[n] s).w + ((stepOf sfcNext)^[n] s).k = _
      rw [ih.1, ih.2, BitVec.ofNat_add, add_mul, add_assoc]; simp
    · exact ih.2

/-- C40: with an odd Weyl increment, the state after `n` draws equals the starting state only if `2^64`
divides `n`. -/
theorem C40_period_multiple (s : Sfc) (hk : s.k.toNat % 2 = 1) (n : Nat)
    (h : (stepOf sfcNext)^[n] s = s) : 2 ^ 64 ∣ n := by
  have hw := (sfc_weyl n s).1
  rw [h] at hw
  have h0 : BitVec.ofNat 64 n * s.k = 0#64 * s.k := by
    have : s.w + 0 = s.w + BitVec.ofNat 64 n * s.k := by rw [add_zero]; exact hw
    rw [← add_left_cancel this]; simp
  have := congrArg BitVec.toNat (mul_odd_inj' _ hk h0)
  simp only [BitVec.toNat_ofNat] at this
  omega

/-- C40: no state recurs within `2^64` draws: the first `2^64` states are pairwise different. -/
theorem C40_no_repeat (s : Sfc) (hk : s.k.toNat % 2 = 1) (i j : Nat) (hij : i < j) (hj : j < i + 2 ^ 64) :
    (stepOf sfcNext)^[i] s ≠ (stepOf sfcNext)^[j] s := by
  intro h
  have e : (stepOf sfcNext)^[j] s = (stepOf sfcNext)^[i] ((stepOf sfcNext)^[j - i] s) := by
    rw [← Function.iterate_add_apply]; congr 2; omega
  rw [e] at h
  have := C40_period_multiple s hk (j - i) (sfcStep_injective.iterate i h).symm
  have := Nat.le_of_dvd (by omega) this
  omega

example : (sfcSeed 1 2 3 1 1).k.toNat % 2 = 1 := by decide +kernel

theorem low_bit_of_or (x : U64) : (x ||| 1).toNat % 2 = 1 := by
  rw [BitVec.toNat_or]
  exact (Nat.or_mod_two_eq_one (a := x.toNat) (b := (1 : U64).toNat)).mpr (Or.inr rfl)

theorem sfcFromSeq_k (gen : Nat → U64) (w k : Option U64) :
    (sfcFromSeq gen w k).k = (match k with | some k => k | none => gen (if w.isSome then 3 else 4) ||| 1) :=
  (sfc_weyl 12 _).2

/-- C40: a generated increment is odd, and so is the default 1; such generators satisfy the period claim
whatever the seed. -/
theorem C40_seeded (gen : Nat → U64) (w : Option U64) (k : Option U64) (hk : ∀ x, k = some x → x.toNat % 2 = 1)
    (n : Nat) (hn : 0 < n) (h : (stepOf sfcNext)^[n] (sfcFromSeq gen w k) = sfcFromSeq gen w k) : 2 ^ 64 ≤ n := by
  refine Nat.le_of_dvd hn (C40_period_multiple _ ?_ n h)
  rw [sfcFromSeq_k]
  show BitVec.toNat (match k with | some k => k | none => gen (if w.isSome then 3 else 4) ||| 1) % 2 = 1
  cases k with
  | some x => exact hk x rfl
  | none =>
    exact low_bit_of_or _

/-- C59 for generated increments and for odd user values: the increment in use is odd, for ever. -/
theorem C59_odd_increment_partial (gen : Nat → U64) (w k : Option U64) (hk : ∀ x, k = some x → x.toNat % 2 = 1)
    (n : Nat) : ((stepOf sfcNext)^[n] (sfcFromSeq gen w k)).k.toNat % 2 = 1 := by
  rw [(sfc_weyl n _).2, sfcFromSeq_k]
  cases k with
  | some x => exact hk x rfl
  | none => exact low_bit_of_or _

/-- C59 fails for even values passed by the user: they are used as they are, whatever the seed, although the
docstring says "if even, 1 is added"; and then the minimum cycle length of `2^64` fails too: with `k = 0` there
is a state that never changes. -/
theorem not_C59_even_increment (gen : Nat → U64) (w : Option U64) (k : U64) (n : Nat) :
    ((stepOf sfcNext)^[n] (sfcFromSeq gen w (some k))).k = k ∧
      stepOf sfcNext ⟨0, 0, 0, 0, 0⟩ = ⟨0, 0, 0, 0, 0⟩ := by
  constructor
  · rw [(sfc_weyl n _).2, sfcFromSeq_k]
  · decide

/-! ### C56: seeding -/

theorem jsfRun_eq {w : Nat} (P : JsfPar) (h : P.Defined w) (n : Nat) (s : Jsf w) :
    jsfRun P n s = some ((jsfStep P)^[n] s) := by
  induction n generalizing s with
  | zero => rfl
  | succ n ih => rw [jsfRun, jsfNext_some P h]; exact ih _

/-- C56 for JSF: for `seed_size` 1, 2 or 3, seeds that differ in one of the `seed_size` words used lead to
different states after the warm-up and after any further number of draws. -/
theorem C56_jsf {w : Nat} (P : JsfPar) (h : P.Defined w) (size : Nat) (h1 : 1 ≤ size) (h3 : size ≤ 3)
    (u v : Nat → BitVec w) (hd : ∃ i < size, u i ≠ v i) (n : Nat) :
    ∃ s t, jsfSeed P u size = some s ∧ jsfSeed P v size = some t ∧ jsfRun P n s ≠ jsfRun P n t := by
  refine ⟨_, _, jsfRun_eq P h 20 _, jsfRun_eq P h 20 _, ?_⟩
  rw [jsfRun_eq P h, jsfRun_eq P h]
  intro e
  have e2 := (jsfStep_injective P).iterate 20 ((jsfStep_injective P).iterate n (Option.some.inj e))
  simp only [jsfFill, Jsf.mk.injEq, true_and] at e2
  obtain ⟨b0, b1, b2⟩ := e2
  obtain ⟨i, hi, hne⟩ := hd
  have : size = 1 ∨ size = 2 ∨ size = 3 := by omega
  rcases this with rfl | rfl | rfl
  · have : i = 0 := by omega
    subst this; exact hne b0
  · have : i = 0 ∨ i = 1 := by omega
    rcases this with rfl | rfl
    · exact hne b0
    · exact hne b1
  · have : i = 0 ∨ i = 1 ∨ i = 2 := by omega
    rcases this with rfl | rfl | rfl
    · exact hne b0
    · exact hne b1
    · exact hne b2

example : ∃ i < 2, (fun j : Nat => BitVec.ofNat 64 j) i ≠ (fun _ : Nat => (0 : U64)) i := ⟨1, by decide, by decide⟩

/-- C56 for SFC64: with the same constructor arguments, seed sequences that differ in one of the first three
words lead to different states, for ever. -/
theorem C56_sfc64 (u v : Nat → U64) (w k : Option U64) (hd : ∃ i < 3, u i ≠ v i) (n : Nat) :
    (stepOf sfcNext)^[n] (sfcFromSeq u w k) ≠ (stepOf sfcNext)^[n] (sfcFromSeq v w k) := by
  intro e
  have e1 := sfcStep_injective.iterate n e
  simp only [sfcFromSeq, sfcSeed] at e1
  have e2 := sfcStep_injective.iterate 12 e1
  simp only [Sfc.mk.injEq] at e2
  obtain ⟨i, hi, hne⟩ := hd
  have : i = 0 ∨ i = 1 ∨ i = 2 := by omega
  rcases this with rfl | rfl | rfl
  · exact hne e2.1
  · exact hne e2.2.1
  · exact hne e2.2.2.1

/-- C56 for Romu: different words, none of them all zero, lead to different states, for ever. (All-zero
words are replaced by `0, 0, 0, 1` and so coincide with that one other seed.) -/
theorem C56_romu (quad : Bool) (g h : U64 × U64 × U64 × U64) (hg : g ≠ (0, 0, 0, 0)) (hh : h ≠ (0, 0, 0, 0))
    (hd : g ≠ h) (n : Nat) :
    (stepOf (if quad then romuQuadNext else romuTrioNext))^[n] (romuFromSeq quad g.1 g.2.1 g.2.2.1 g.2.2.2) ≠
      (stepOf (if quad then romuQuadNext else romuTrioNext))^[n] (romuFromSeq quad h.1 h.2.1 h.2.2.1 h.2.2.2) := by
  obtain ⟨g0, g1, g2, g3⟩ := g
  obtain ⟨h0, h1, h2, h3⟩ := h
  intro e
  apply hd
  have hg' : ¬ (g0 = 0 ∧ g1 = 0 ∧ g2 = 0 ∧ g3 = 0) := by
    rintro ⟨rfl, rfl, rfl, rfl⟩; exact hg rfl
  have hh' : ¬ (h0 = 0 ∧ h1 = 0 ∧ h2 = 0 ∧ h3 = 0) := by
    rintro ⟨rfl, rfl, rfl, rfl⟩; exact hh rfl
  cases quad with
  | true =>
    have e1 := romuQuad_injective.iterate n e
    simp only [romuFromSeq, romuSeed, if_neg hg', if_neg hh', if_true] at e1
    have := romuQuad_injective.iterate 10 e1
    simp_all
  | false =>
    have e1 := romuTrio_injective.iterate n e
    simp only [romuFromSeq, romuSeed, if_neg hg', if_neg hh'] at e1
    have := romuTrio_injective.iterate 10 e1
    simp_all

theorem tycheFill_injective {seed seed' : U64} {idx idx' : U32} (h : tycheFill seed idx = tycheFill seed' idx') :
    seed = seed' ∧ idx = idx' := by
  simp only [tycheFill, Tyche.mk.injEq, true_and] at h
  obtain ⟨h1, h2, h3⟩ := h
  refine ⟨?_, xor_left_inj' _ h3⟩
  apply BitVec.eq_of_toNat_eq
  have a1 := congrArg BitVec.toNat h1
  have a2 := congrArg BitVec.toNat h2
  simp only [BitVec.truncate_eq_setWidth, BitVec.toNat_setWidth, BitVec.toNat_ushiftRight, Nat.shiftRight_eq_div_pow] at a1 a2
  have := seed.isLt
  have := seed'.isLt
  omega

/-- C56 for Tyche (both variants): different 64-bit seeds or different `idx` values lead to different states,
for ever. -/
theorem C56_tyche (original : Bool) (seed seed' : U64) (idx idx' : U32) (hd : seed ≠ seed' ∨ idx ≠ idx') (n : Nat) :
    (stepOf (if original then tycheNext else tycheOpenNext))^[n] (tycheSeed original seed idx) ≠
      (stepOf (if original then tycheNext else tycheOpenNext))^[n] (tycheSeed original seed' idx') := by
  intro e
  have key : tycheFill seed idx = tycheFill seed' idx' := by
    cases original with
    | true =>
      have hs : Function.Injective (stepOf tycheNext) := tycheMix_injective
      have e1 := hs.iterate n e
      simp only [tycheSeed, if_true] at e1
      exact tycheMix_injective.iterate 20 e1
    | false =>
      have hs : Function.Injective (stepOf tycheOpenNext) := tycheMixOpen_injective
      have e1 := hs.iterate n e
      simp only [tycheSeed] at e1
      exact tycheMixOpen_injective.iterate 20 e1
  have := tycheFill_injective key
  rcases hd with h | h
  · exact h this.1
  · exact h this.2

example : (7 : U64) ≠ 8 ∨ (0 : U32) ≠ 0 := by decide

/-! ### C57: counters -/

theorem efiix_counter (n : Nat) (s : Efiix) : ((stepOf efiixNext)^[n] s).i = s.i + BitVec.ofNat 64 n := by
  induction n with
  | zero => simp
  | succ n ih =>
    rw [Function.iterate_succ_apply']
    show ((stepOf efiixNext)^[n] s).i + 1 = _
    rw [ih, BitVec.ofNat_add, add_assoc]; rfl

/-- C57: every cycle of EFIIX64 has a length divisible by `2^64`. -/
theorem C57_efiix64 (s : Efiix) (n : Nat) (h : (stepOf efiixNext)^[n] s = s) : 2 ^ 64 ∣ n := by
  have hw := efiix_counter n s
  rw [h] at hw
  have : s.i + 0 = s.i + BitVec.ofNat 64 n := by rw [add_zero]; exact hw
  have := congrArg BitVec.toNat (add_left_cancel this)
  simp only [BitVec.toNat_ofNat, BitVec.ofNat_eq_ofNat] at this
  omega

theorem splitmix_state (n : Nat) (s : U64) :
    (stepOf splitmixNext)^[n] s = s + BitVec.ofNat 64 n * 0x9e3779b97f4a7c15#64 := by
  induction n with
  | zero => simp
  | succ n ih =>
    rw [Function.iterate_succ_apply', ih]
    show s + BitVec.ofNat 64 n * 0x9e3779b97f4a7c15#64 + 0x9e3779b97f4a7c15#64 = _
    rw [BitVec.ofNat_add, add_mul, add_assoc]; simp

theorem splitmixFin_injective : Function.Injective splitmixFin := by
  intro x y h
  simp only [splitmixFin] at h
  have h1 := xorshr_inj (by decide) h
  have h2 := mul_odd_inj' _ (by decide) h1
  have h3 := xorshr_inj (by decide) h2
  have h4 := mul_odd_inj' _ (by decide) h3
  exact xorshr_inj (by decide) h4

/-- C57: SplitMix64 returns to its start exactly after the multiples of `2^64` draws. -/
theorem C57_splitmix64_period (s : U64) (n : Nat) : (stepOf splitmixNext)^[n] s = s ↔ 2 ^ 64 ∣ n := by
  rw [splitmix_state]
  constructor
  · intro h
    have h0 : BitVec.ofNat 64 n * 0x9e3779b97f4a7c15#64 = 0#64 * 0x9e3779b97f4a7c15#64 := by
      have : s + BitVec.ofNat 64 n * 0x9e3779b97f4a7c15#64 = s + 0 := by rw [h, add_zero]
      rw [add_left_cancel this]; simp
    have := congrArg BitVec.toNat (mul_odd_inj' _ (by decide) h0)
    simp only [BitVec.toNat_ofNat] at this
    omega
  · rintro ⟨m, rfl⟩
    have : BitVec.ofNat 64 (2 ^ 64 * m) = 0 := by
      apply BitVec.eq_of_toNat_eq; simp
    rw [this]; simp

/-- C57: from any state, every 64-bit value is output by exactly one of the next `2^64` draws. -/
theorem C57_splitmix64_outputs (s v : U64) : ∃! n, n < 2 ^ 64 ∧ nthDraw splitmixNext n s = v := by
  have inj : ∀ a b, a < 2 ^ 64 → b < 2 ^ 64 → nthDraw splitmixNext a s = nthDraw splitmixNext b s → a = b := by
    intro a b ha hb h
    simp only [nthDraw, splitmixNext, splitmix_state] at h
    have h1 := add_right_cancel (splitmixFin_injective h)
    have := congrArg BitVec.toNat (mul_odd_inj' _ (by decide) (add_left_cancel h1))
    simp only [BitVec.toNat_ofNat] at this
    omega
  let f : U64 → U64 := fun n => nthDraw splitmixNext n.toNat s
  have hf : Function.Injective f := fun a b h => BitVec.eq_of_toNat_eq (inj _ _ a.isLt b.isLt h)
  obtain ⟨n, hn⟩ := (Finite.injective_iff_surjective.mp hf) v
  exact ⟨n.toNat, ⟨n.isLt, hn⟩, fun m hm => inj _ _ hm.1 n.isLt (hm.2.trans hn.symm)⟩

/-! ### C58: SFC64 seeds -/

/-- C58: two SFC64 generators with the same `w` and odd `k` whose seed words differ have no state in common
at any two positions less than `2^64` apart. -/
theorem C58_sfc64_streams (u v : Nat → U64) (w k : U64) (hk : k.toNat % 2 = 1) (hd : ∃ i < 3, u i ≠ v i)
    (i j : Nat) (hi : i < j + 2 ^ 64) (hj : j < i + 2 ^ 64) :
    (stepOf sfcNext)^[i] (sfcFromSeq u (some w) (some k)) ≠ (stepOf sfcNext)^[j] (sfcFromSeq v (some w) (some k)) := by
  intro h
  have hij : i = j := by
    simp only [sfcFromSeq, sfcSeed] at h
    rw [← Function.iterate_add_apply, ← Function.iterate_add_apply] at h
    have hw := congrArg Sfc.w h
    rw [(sfc_weyl _ _).1, (sfc_weyl _ _).1] at hw
    have h2 := mul_odd_inj' _ hk (add_left_cancel hw)
    have := congrArg BitVec.toNat h2
    simp only [BitVec.toNat_ofNat] at this
    omega
  subst hij
  exact C56_sfc64 u v (some w) (some k) hd i h

example : (1 : U64).toNat % 2 = 1 ∧ ∃ i < 3, (fun j : Nat => BitVec.ofNat 64 j) i ≠ (fun _ : Nat => (0 : U64)) i :=
  ⟨by decide, 1, by decide, by decide⟩

end Verif
