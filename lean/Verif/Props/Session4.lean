import Verif.Props.Session3
import Verif.Props.ChaChaSpec
import Verif.Props.Chaotic
import Verif.Props.Reseed
import Verif.Model.Session4

/-! C95 for ChaCha and JSF. -/

namespace Verif

/-- A 32-bit generator at place `a`, where `I c n` says that `c` is at word `n`; there is no cached half. -/
def CallsInv {κ : Type} (I : κ → Nat → Prop) (a : Nat × Option U32) (c : κ) : Prop := I c a.1 ∧ a.2 = none

theorem CallsInv.draw {κ : Type} {nx : κ → Option (U32 × κ)} {I : κ → Nat → Prop} {w : Nat → U32}
    (hI : ∀ c n, I c n → ∃ c', nx c = some (w n, c') ∧ I c' (n + 1)) {a : Nat × Option U32} {c : κ} (h : CallsInv I a c) (b : Bool) (o : Op) :
    ∃ c', calls32 nx b o c = some ((draw32JoinAt b w o a).1, c') ∧ CallsInv I (draw32JoinAt b w o a).2 c' := by
  obtain ⟨h1, h2⟩ := h
  obtain ⟨n, half⟩ := a
  dsimp only at h1 h2
  subst h2
  obtain ⟨c1, e1, i1⟩ := hI _ _ h1
  obtain ⟨c2, e2, i2⟩ := hI _ _ i1
  have hj : twoCallsO nx b c = some (BitVec.ofNat 64 ((if b then w n else w (n + 1)).toNat * 2 ^ 32 + (if b then w (n + 1) else w n).toNat), c2) := by
    rw [twoCallsO, e1, Option.bind_eq_bind, Option.bind_some, e2, Option.bind_some]
    cases b <;> simp only [Bool.false_eq_true, if_false, if_true, join_toNat] <;> rfl
  have hlt : (if b then w n else w (n + 1)).toNat * 2 ^ 32 + (if b then w (n + 1) else w n).toNat < 2 ^ 64 := by
    have := (if b then w n else w (n + 1)).isLt
    have := (if b then w (n + 1) else w n).isLt
    omega
  cases o with
  | u32 => exact ⟨c1, by rw [calls32, e1]; rfl, i1, rfl⟩
  | u64 => exact ⟨c2, by rw [calls32, hj]; rfl, i2, rfl⟩
  | dbl =>
    refine ⟨c2, ?_, i2, rfl⟩
    rw [calls32, Doubles.dbl64O, hj]
    simp only [Option.map_some, Doubles.dbl64, draw32JoinAt, BitVec.toNat_ushiftRight, Nat.shiftRight_eq_div_pow, BitVec.toNat_ofNat,
      Nat.mod_eq_of_lt hlt]

/-! ### ChaCha -/

/-- The words of ChaCha with `o.1` rounds: word `p mod 16` of ChaCha block `p / 16`, where `p` is the counter plus the number of the word. -/
def chachaWord (o : Int × (Nat → U64) × Option Int) (n : Nat) : U32 :=
  ChaChaSpec.chacha o.1.toNat ((o.2.1 0).toNat + (o.2.1 1).toNat * 2 ^ 64 + (o.2.1 2).toNat * 2 ^ 128 + (o.2.1 3).toNat * 2 ^ 192)
    (((o.2.2.getD 0).toNat + n) % 2 ^ 128 / 16) ⟨((o.2.2.getD 0).toNat + n) % 16, Nat.mod_lt _ (by decide)⟩

/-- The promise for ChaCha: an even positive number of rounds and a counter in `[0, 2^128)`. The documentation also promises `jump` by `2^64`
words and `advance` (`moves = true`). -/
def chachaSpec (moves hiFirst : Bool) : SSpec Int ((Nat → U64) × Option Int) (Int × (Nat → U64) × Option Int) where
  start r sd := if ¬ (r % 2 = 0 ∧ 0 < r) then .err .valueError else if 2 ^ 31 ≤ r then .err .overflowError
    else if ∀ i ∈ sd.2, 0 ≤ i ∧ i < 2 ^ 128 then .ok (r, sd) else .err .valueError
  restart _ o _ sd := if ∀ i ∈ sd.2, 0 ≤ i ∧ i < 2 ^ 128 then .ok (o.1, sd) else .err .valueError
  draw o := draw32JoinAt hiFirst (chachaWord o)
  jump := if moves then some fun n => some (skipAt (n * 2 ^ 64 % 2 ^ 128).toNat) else none
  jumped := if moves then some fun n => some (skipAt (n * 2 ^ 64 % 2 ^ 128).toNat) else none
  advance := if moves then some fun d => skipAt (d % 2 ^ 128).toNat else none

def chachaK0 (o : Int × (Nat → U64) × Option Int) : V4 := ccKey (o.2.1 0) (o.2.1 1)
def chachaK1 (o : Int × (Nat → U64) × Option Int) : V4 := ccKey (o.2.1 2) (o.2.1 3)

/-- The instance is at place `a`. -/
def ChachaR (o : Int × (Nat → U64) × Option Int) (a : Nat × Option U32) (s : ChaChaI) : Prop :=
  (o.1 % 2 = 0 ∧ 0 < o.1 ∧ o.1 < 2 ^ 31) ∧
    CallsInv (fun c n => CcAt (chachaK0 o) (chachaK1 o) o.1 c ((o.2.2.getD 0).toNat % 2 ^ 128 + n)) a (chachaView s)

theorem chacha_view_put (c : ChaCha) (h : 0 ≤ c.rounds ∧ c.rounds < 2 ^ 31) : chachaView (chachaPut c) = c := by
  obtain ⟨⟨⟨_, _, _, _⟩, ⟨_, _, _, _⟩, ⟨_, _, _, _⟩, ⟨_, _, _, _⟩⟩, ⟨_, _, _, _⟩, ⟨_, _, _, _⟩, _, _, r⟩ := c
  have : (BitVec.ofInt 32 r).toInt = r := by
    rw [BitVec.toInt_ofInt, Int.bmod_def]
    simp only at h
    omega
  simp [chachaView, chachaPut, Rows.get, V4.get, this]

theorem chacha_putR {o : Int × (Nat → U64) × Option Int} {a : Nat × Option U32} (ho : o.1 % 2 = 0 ∧ 0 < o.1 ∧ o.1 < 2 ^ 31) (c : ChaCha)
    (h : CallsInv (fun c n => CcAt (chachaK0 o) (chachaK1 o) o.1 c ((o.2.2.getD 0).toNat % 2 ^ 128 + n)) a c) : ChachaR o a (chachaPut c) := by
  refine ⟨ho, ?_⟩
  rw [chacha_view_put c (by rw [h.1.2.2.1]; omega)]
  exact h

theorem chacha_seeded (r : Int) (hr : r % 2 = 0 ∧ 0 < r ∧ r < 2 ^ 31) (sd : (Nat → U64) × Option Int) (s : ChaCha) (hs : s.rounds = r) :
    MadeRel (fun o s => ChachaR o (0, none) s) (if ∀ i ∈ sd.2, 0 ≤ i ∧ i < 2 ^ 128 then Made.ok (r, sd) else .err .valueError)
      (chachaReseed sd s) := by
  rw [chachaReseed, counter128_eq]
  by_cases h : ∀ i ∈ sd.2, 0 ≤ i ∧ i < 2 ^ 128
  · rw [if_pos h, if_pos h]
    refine chacha_putR hr _ ⟨?_, rfl⟩
    have h2 := ccSeed_at s (sd.1 0) (sd.1 1) (sd.1 2) (sd.1 3) (BitVec.ofNat 64 ((sd.2.getD 0).toNat % 2 ^ 64))
      (BitVec.ofNat 64 ((sd.2.getD 0).toNat / 2 ^ 64))
    rw [hs] at h2
    have e : ccPos (BitVec.ofNat 64 ((sd.2.getD 0).toNat % 2 ^ 64)) (BitVec.ofNat 64 ((sd.2.getD 0).toNat / 2 ^ 64)) =
        (sd.2.getD 0).toNat % 2 ^ 128 + 0 := by
      generalize (sd.2.getD 0).toNat = c
      rw [ccPos, BitVec.toNat_ofNat, BitVec.toNat_ofNat]
      omega
    rw [e] at h2
    exact h2
  · rw [if_neg h, if_neg h]
    rfl

theorem chacha_key (g : Nat → U64) (k : Nat) (hk : k = (g 0).toNat + (g 1).toNat * 2 ^ 64 + (g 2).toNat * 2 ^ 128 + (g 3).toNat * 2 ^ 192) :
    BitVec.ofNat 64 k = g 0 ∧ BitVec.ofNat 64 (k / 2 ^ 64) = g 1 ∧ BitVec.ofNat 64 (k / 2 ^ 128) = g 2 ∧ BitVec.ofNat 64 (k / 2 ^ 192) = g 3 := by
  have h0 := (g 0).isLt
  have h1 := (g 1).isLt
  have h2 := (g 2).isLt
  have h3 := (g 3).isLt
  refine ⟨?_, ?_, ?_, ?_⟩ <;> apply BitVec.eq_of_toNat_eq <;> rw [BitVec.toNat_ofNat] <;> omega

theorem chacha_word (o : Int × (Nat → U64) × Option Int) (ho : o.1 % 2 = 0 ∧ 0 < o.1) (n : Nat) :
    ccWord (chachaK0 o) (chachaK1 o) o.1 ((o.2.2.getD 0).toNat % 2 ^ 128 + n) = chachaWord o n := by
  obtain ⟨r, g, c⟩ := o
  generalize hk : (g 0).toNat + (g 1).toNat * 2 ^ 64 + (g 2).toNat * 2 ^ 128 + (g 3).toNat * 2 ^ 192 = k
  obtain ⟨e0, e1, e2, e3⟩ := chacha_key g k hk.symm
  obtain ⟨m, rfl⟩ := Int.eq_ofNat_of_zero_le (show 0 ≤ r by have := ho.2; dsimp only at this; omega)
  have h := (C86_stream ⟨⟨⟨0, 0, 0, 0⟩, ⟨0, 0, 0, 0⟩, ⟨0, 0, 0, 0⟩, ⟨0, 0, 0, 0⟩⟩, ⟨0, 0, 0, 0⟩, ⟨0, 0, 0, 0⟩, 0, 0, m⟩ m rfl
    (by have := ho.1; dsimp only at this; omega) k (c.getD 0).toNat n).1
  rw [chachaWord]
  simp only [hk, Int.toNat_natCast]
  rw [← h, e0, e1, e2, e3, cc_nth _ _ _ _ _ (ccSeed_at _ _ _ _ _ _ _)]
  refine ccWord_mod _ _ _ ?_
  simp only [ccPos, BitVec.toNat_ofNat]
  omega

theorem chacha_refines (b : Bool) : Refines (chachaCls b) (chachaSpec false b) (fun _ => True) (fun _ o a s => ChachaR o a s) where
  start r sd _ := by
    show MadeRel _ (if _ then _ else _) (chachaNew r sd)
    rw [chachaNew]
    by_cases hr : r % 2 = 0 ∧ 0 < r
    · rw [if_neg (show ¬ (r % 2 ≠ 0 ∨ r ≤ 0) by omega), if_neg (not_not.mpr hr)]
      by_cases h2 : 2 ^ 31 ≤ r
      · rw [if_pos h2, if_pos h2]; rfl
      · rw [if_neg h2, if_neg h2]
        exact chacha_seeded r ⟨hr.1, hr.2, by omega⟩ sd _ rfl
    · rw [if_pos (show r % 2 ≠ 0 ∨ r ≤ 0 by omega), if_pos hr]
      rfl
  restart _ o a s sd h := chacha_seeded o.1 h.1 sd (chachaView s) h.2.1.2.2.1
  draw _ o a s k h := by
    obtain ⟨c', h1, h2⟩ := h.2.draw (nx := fun c => some (ccNext c)) (w := chachaWord o) (fun c n hc => by
      obtain ⟨e1, e2⟩ := ccNext_at _ _ _ _ _ hc
      refine ⟨(ccNext c).2, congrArg some (Prod.ext ?_ rfl), e2⟩
      rw [e1, chacha_word o ⟨h.1.1, h.1.2.1⟩]) b k
    refine ⟨chachaPut c', ?_, chacha_putR h.1 _ h2⟩
    show (calls32 (fun c => some (ccNext c)) b k (chachaView s)).map _ = _
    rw [h1]
    rfl
  load _ o a s _ _ _ t h _ := by
    refine ⟨s, ?_, h⟩
    rw [show (chachaCls b).set = chachaSet from rfl, show (chachaCls b).get = chachaGet from rfl]
    exact C11_chacha s t
  inplace f hf := by simp [chachaCls] at hf
  noInplace _ := ⟨rfl, rfl⟩
  clone c f hc := by simp [chachaCls] at hc
  advance := Or.inr ⟨rfl, rfl⟩

/-- C95 for ChaCha without the promised moves. What is missing: `jump`, `jumped` and `advance`, which the class does not have
(`not_C95_chacha`). -/
theorem C95_chacha_partial (hiFirst : Bool) (os : List (SOp Int ((Nat → U64) × Option Int))) :
    (chachaCls hiFirst).program os = (chachaSpec false hiFirst).program os :=
  (chacha_refines hiFirst).program_all os

/-- C95 fails for ChaCha: the documented methods `jump` and `advance` do not exist. -/
theorem not_C95_chacha (hiFirst : Bool) :
    (¬ ∀ os, (chachaCls hiFirst).program os = (chachaSpec true hiFirst).program os) ∧
    ∀ r sd, 0 < r → r < 2 ^ 31 → r % 2 = 0 → sd.2 = none → ∀ d, (chachaCls hiFirst).program [.new r sd, .advance 0 d] = [.done, .noMethod] ∧
      (chachaCls hiFirst).program [.new r sd, .jump 0 d] = [.done, .noMethod] ∧
      (chachaSpec true hiFirst).program [.new r sd, .advance 0 d] = [.done, .done] ∧
      (chachaSpec true hiFirst).program [.new r sd, .jump 0 d] = [.done, .done] := by
  have key : ∀ r sd, 0 < r → r < 2 ^ 31 → r % 2 = 0 → sd.2 = none → ∀ d, (chachaCls hiFirst).program [.new r sd, .advance 0 d] = [.done, .noMethod] ∧
      (chachaCls hiFirst).program [.new r sd, .jump 0 d] = [.done, .noMethod] ∧
      (chachaSpec true hiFirst).program [.new r sd, .advance 0 d] = [.done, .done] ∧
      (chachaSpec true hiFirst).program [.new r sd, .jump 0 d] = [.done, .done] := by
    intro r sd h0 h1 h2 hs d
    have e : ∀ m, (chachaSpec m hiFirst).start r sd = .ok (r, sd) := fun m => by
      show (if _ then _ else _) = _
      rw [if_neg (not_not.mpr ⟨h2, h0⟩), if_neg (by omega), if_pos (by rw [hs]; intro i hi; cases hi)]
    rw [C95_chacha_partial, C95_chacha_partial]
    refine ⟨?_, ?_, ?_, ?_⟩ <;> simp only [SSpec.program, SSpec.run, SSpec.step, e] <;> rfl
  refine ⟨fun h => ?_, key⟩
  have k := key 20 (fun _ => 0, none) (by decide) (by decide) (by decide) rfl 1
  have := h [.new 20 (fun _ => 0, none), .advance 0 1]
  rw [k.1, k.2.2.1] at this
  exact absurd this (by decide)

/-! ### JSF -/

/-- A stream of JSF: 64-bit or 32-bit words, the rotations, the number of seed words used, the words of the seed sequence. -/
structure JsfOrg where
  wide : Bool
  par : JsfPar
  seedSize : Int
  seed : (Nat → U64) × (Nat → U32)

/-- The start of JSF: a constant and one, two or three words of the seed. -/
def jsfStart {w : Nat} (gen : Nat → BitVec w) (k : Int) : Jsf w := ⟨0xf1ea5eed, gen 0, gen (if k = 1 then 0 else 1), gen (if k = 3 then 2 else 0)⟩

/-- Word `n` of JSF: the component `d` after 20 steps of warm-up and `n + 1` more. -/
def jsfWord {w : Nat} (P : JsfPar) (gen : Nat → BitVec w) (k : Int) (n : Nat) : BitVec w := ((jsfStep P)^[20 + (n + 1)] (jsfStart gen k)).d

/-- The promise for JSF: `size` 32 or 64, `seed_size` 1, 2 or 3, rotations in `[0, size)`, with the documented defaults; anything else is
refused. A restored state brings its size and rotations. -/
def jsfSpec (hiFirst : Bool) : SSpec JsfArgs ((Nat → U64) × (Nat → U32)) JsfOrg where
  start p sd :=
    if (p.size = 32 ∨ p.size = 64) ∧ (1 ≤ p.seedSize ∧ p.seedSize ≤ 3) ∧ (∀ i ∈ p.p, 0 ≤ i ∧ i < p.size) ∧ (∀ i ∈ p.q, 0 ≤ i ∧ i < p.size) ∧
      (∀ i ∈ p.r, 0 ≤ i ∧ i < p.size) then
      .ok ⟨p.size == 64, if p.size = 64 then ⟨p.p.getD 7, p.q.getD 13, p.r.getD 37⟩ else ⟨p.p.getD 27, p.q.getD 17, p.r.getD 0⟩, p.seedSize, sd⟩
    else .err .valueError
  restart _ o _ sd := .ok { o with seed := sd }
  draw o := if o.wide then draw64At (jsfWord o.par o.seed.1 o.seedSize) else draw32JoinAt hiFirst (jsfWord o.par o.seed.2 o.seedSize)
  jump := none
  jumped := none
  advance := none

/-- The instance is at place `a`. -/
structure JsfR (o : JsfOrg) (a : Nat × Option U32) (s : JsfI) : Prop where
  size : s.size = if o.wide then 64 else 32
  act : s.act64 = o.wide
  par : jsfGood s = o.par
  seedSize : s.seedSize.toInt = o.seedSize
  small : 1 ≤ o.seedSize ∧ o.seedSize ≤ 3
  ok : o.par.Defined (if o.wide then 64 else 32)
  core : if o.wide then BufInv (fun c n => c = (jsfStep o.par)^[20 + n] (jsfStart o.seed.1 o.seedSize)) a (jsfBuf s)
    else CallsInv (fun c n => c = (jsfStep o.par)^[20 + n] (jsfStart o.seed.2 o.seedSize)) a (jsfLow s)

theorem jsfFill_start {w : Nat} (gen : Nat → BitVec w) (k : Int) (h : 1 ≤ k ∧ k ≤ 3) : jsfFill gen k = jsfStart gen k := by
  obtain rfl | rfl | rfl : k = 1 ∨ k = 2 ∨ k = 3 := by omega
  all_goals rfl

theorem jsf_reseeded (o : JsfOrg) (sd : (Nat → U64) × (Nat → U32)) (s : JsfI) (h1 : s.size = if o.wide then 64 else 32) (h2 : s.act64 = o.wide)
    (h3 : jsfGood s = o.par) (h4 : s.seedSize.toInt = o.seedSize) (h5 : 1 ≤ o.seedSize ∧ o.seedSize ≤ 3)
    (h6 : o.par.Defined (if o.wide then 64 else 32)) :
    ∃ s', jsfReseed sd.1 sd.2 s = some s' ∧ JsfR { o with seed := sd } (0, none) s' := by
  obtain ⟨wide, P, k, sd0⟩ := o
  dsimp only at h1 h2 h3 h4 h5 h6
  have e : (⟨s.p.toInt, s.q.toInt, s.r.toInt⟩ : JsfPar) = P := h3
  rw [jsfReseed]
  simp only [e, h4]
  cases wide with
  | true =>
    simp only [if_true] at h1 h6
    rw [if_pos h1, jsfSeed, jsfRun_eq P h6, jsfFill_start _ _ h5]
    obtain ⟨X, hX⟩ : ∃ X, X = (jsfStep P)^[20] (jsfStart sd.1 k) := ⟨_, rfl⟩
    rw [← hX]
    refine ⟨_, rfl, h1, h2, h3, h4, h5, h6, ?_⟩
    refine BufInv.start (I := fun c n => c = (jsfStep P)^[20 + n] (jsfStart sd.1 k)) (n := 0) ?_ rfl
    show X = _
    rw [Nat.add_zero]
    exact hX
  | false =>
    simp only [Bool.false_eq_true, if_false] at h1 h6
    rw [if_neg (by rw [h1]; decide), jsfSeed, jsfRun_eq P h6, jsfFill_start _ _ h5]
    obtain ⟨X, hX⟩ : ∃ X, X = (jsfStep P)^[20] (jsfStart sd.2 k) := ⟨_, rfl⟩
    rw [← hX]
    refine ⟨_, rfl, h1, h2, h3, h4, h5, h6, ?_⟩
    refine And.intro ?_ rfl
    simp only [jsfLow, setLow_low, Nat.add_zero, hX]

theorem jsf_view_fields {s t : JsfI} (h : jsfView t = jsfView s) : t.size = s.size ∧ t.act64 = s.act64 ∧ jsfGood t = jsfGood s ∧
    t.seedSize = s.seedSize ∧ jsfLow t = jsfLow s ∧ (s.size = 64 → t = s) := by
  have hz : ∀ x : JsfI, (jsfView x).size = x.size ∧ (jsfView x).act64 = x.act64 ∧ jsfGood (jsfView x) = jsfGood x ∧
      (jsfView x).seedSize = x.seedSize ∧ jsfLow (jsfView x) = jsfLow x := fun x => by
    rw [jsfView]
    split
    · exact ⟨rfl, rfl, rfl, rfl, rfl⟩
    · refine ⟨rfl, rfl, rfl, rfl, ?_⟩
      simp [jsfLow]
  obtain ⟨a1, a2, a3, a4, a5⟩ := hz s
  obtain ⟨b1, b2, b3, b4, b5⟩ := hz t
  rw [h] at b1 b2 b3 b4 b5
  refine ⟨b1.symm.trans a1, b2.symm.trans a2, b3.symm.trans a3, b4.symm.trans a4, b5.symm.trans a5, fun hs => ?_⟩
  rw [jsfView, jsfView, if_pos hs, if_pos (b1.symm.trans a1 |>.trans hs)] at h
  exact h

theorem smallInt64 (p : Int) (h0 : 0 ≤ p) (h1 : p ≤ 64) : (BitVec.ofInt 32 p).toInt = p := smallInt p h0 (by omega)

theorem jsf_refines (b : Bool) : Refines (jsfCls b) (jsfSpec b) (fun p => p.p ≠ some 0 ∧ p.q ≠ some 0) (fun _ o a s => JsfR o a s) where
  start p sd hp := by
    show MadeRel _ (if _ then _ else _) (jsfNew p sd)
    obtain ⟨size, k, p, q, r⟩ := p
    dsimp only at hp ⊢
    have bad : ∀ (v : Option Int), jsfBad size v = false ↔ ∀ i ∈ v, 0 ≤ i ∧ i < size := fun v => by
      cases v with
      | none => simp [jsfBad]
      | some v => simp [jsfBad]; omega
    rw [jsfNew]
    dsimp only
    by_cases hs : size = 32 ∨ size = 64
    · rw [jsfInit, if_neg (show ¬ (size ≠ 32 ∧ size ≠ 64) by omega)]
      by_cases hb : jsfBad size p = false ∧ jsfBad size q = false ∧ jsfBad size r = false
      · obtain ⟨b1, b2, b3⟩ := hb
        simp only [b1, b2, b3, Bool.or_self, Bool.false_eq_true, if_false]
        rw [bad] at b1 b2 b3
        by_cases hk : 1 ≤ k ∧ k ≤ 3
        · rw [if_pos ⟨hs, hk, b1, b2, b3⟩, if_pos (show k = 1 ∨ k = 2 ∨ k = 3 by omega)]
          have hd : jsfDefaults size.toNat = if size = 64 then ⟨7, 13, 37⟩ else ⟨27, 17, 0⟩ := by
            rcases hs with rfl | rfl <;> rfl
          have gd : ∀ (v : Option Int) (d : Int), (∀ i ∈ v, 0 ≤ i ∧ i < size) → 0 ≤ d → d < size → 0 ≤ v.getD d ∧ v.getD d < size := by
            intro v d hv h0 h1
            cases v with
            | none => exact ⟨h0, h1⟩
            | some v => exact hv v rfl
          have gn : ∀ (v : Option Int) (d : Int), v ≠ some 0 → d ≠ 0 → v.getD d ≠ 0 := by
            intro v d hv h0
            cases v with
            | none => exact h0
            | some v => intro e; exact hv (congrArg some e)
          generalize hP : (if size = 64 then (⟨p.getD 7, q.getD 13, r.getD 37⟩ : JsfPar) else ⟨p.getD 27, q.getD 17, r.getD 0⟩) = P
          have hP' : (⟨p.getD (jsfDefaults size.toNat).p, q.getD (jsfDefaults size.toNat).q, r.getD (jsfDefaults size.toNat).r⟩ : JsfPar) = P := by
            rw [hd, ← hP]; split <;> rfl
          have hdef : P.Defined (if size == 64 then 64 else 32) ∧ (0 ≤ P.p ∧ P.p ≤ 64) ∧ (0 ≤ P.q ∧ P.q ≤ 64) ∧ (0 ≤ P.r ∧ P.r ≤ 64) := by
            rw [← hP]
            rcases hs with rfl | rfl
            · have g1 := gd p 27 b1 (by decide) (by decide)
              have g2 := gd q 17 b2 (by decide) (by decide)
              have g3 := gd r 0 b3 (by decide) (by decide)
              have n1 := gn p 27 hp.1 (by decide)
              have n2 := gn q 17 hp.2 (by decide)
              refine ⟨⟨?_, ?_, ?_⟩, ?_, ?_, ?_⟩ <;> simp <;> omega
            · have g1 := gd p 7 b1 (by decide) (by decide)
              have g2 := gd q 13 b2 (by decide) (by decide)
              have g3 := gd r 37 b3 (by decide) (by decide)
              have n1 := gn p 7 hp.1 (by decide)
              have n2 := gn q 13 hp.2 (by decide)
              refine ⟨⟨?_, ?_, ?_⟩, ?_, ?_, ?_⟩ <;> simp <;> omega
          simp only [Option.getD] at hP'
          obtain ⟨s', e1, e2⟩ := jsf_reseeded ⟨size == 64, P, k, sd⟩ sd
            ⟨0, 0, 0, 0, BitVec.ofInt 32 P.p, BitVec.ofInt 32 P.q, BitVec.ofInt 32 P.r, 0, 0, BitVec.ofInt 32 size, BitVec.ofInt 32 k, size == 64⟩
            (by rcases hs with rfl | rfl <;> rfl) rfl
            (by simp only [jsfGood, smallInt64 _ hdef.2.1.1 hdef.2.1.2, smallInt64 _ hdef.2.2.1.1 hdef.2.2.1.2, smallInt64 _ hdef.2.2.2.1 hdef.2.2.2.2])
            (smallInt64 _ (by omega) (by omega)) hk hdef.1
          subst hP'
          simp only [Option.getD] at e1 e2 ⊢
          rw [e1]
          exact e2
        · rw [if_neg (fun h => hk h.2.1), if_neg (show ¬ (k = 1 ∨ k = 2 ∨ k = 3) by omega)]
          rfl
      · have : (jsfBad size p || jsfBad size q || jsfBad size r) = true := by
          by_contra hc
          simp only [Bool.not_eq_true, Bool.or_eq_false_iff] at hc
          exact hb ⟨hc.1.1, hc.1.2, hc.2⟩
        rw [if_pos this, if_neg (fun h => hb ⟨(bad _).mpr h.2.2.1, (bad _).mpr h.2.2.2.1, (bad _).mpr h.2.2.2.2⟩)]
        rfl
    · rw [jsfInit, if_pos (show size ≠ 32 ∧ size ≠ 64 by omega), if_neg (fun h => hs h.1)]
      rfl
  restart _ o a s sd h := by
    obtain ⟨s', e1, e2⟩ := jsf_reseeded o sd s h.size h.act h.par h.seedSize h.small h.ok
    show MadeRel _ _ (madeOfOption (jsfReseed sd.1 sd.2 s))
    rw [e1]
    exact e2
  draw _ o a s k h := by
    obtain ⟨wide, P, n, sd⟩ := o
    obtain ⟨h1, h2, h3, h4, h5, h6, h7⟩ := h
    dsimp only at h1 h2 h3 h4 h5 h6 h7
    show ∃ s', jsfOp b k s = _ ∧ _
    rw [jsfOp, h2, h3]
    cases wide with
    | true =>
      simp only [if_true] at h1 h6 h7 ⊢
      obtain ⟨b', e1, e2⟩ := h7.draw (nx := jsfNext P) (w := jsfWord P sd.1 n) (fun c m hc => by
        refine ⟨jsfStep P c, ?_, ?_⟩
        · rw [jsfNext_some P h6, hc, jsfWord, ← Nat.add_assoc, Function.iterate_succ_apply']
        · rw [hc, ← Nat.add_assoc, Function.iterate_succ_apply']) k
      refine ⟨jsfPutBuf s b', ?_, h1, h2, h3, h4, h5, h6, ?_⟩
      · rw [bufOpO, e1]; rfl
      · refine ⟨e2.1, ?_, e2.2.2⟩
        show (halfI b'.has != 0) = _
        exact (halfI_ne _).trans e2.2.1
    | false =>
      simp only [Bool.false_eq_true, if_false] at h1 h6 h7 ⊢
      obtain ⟨c', e1, e2⟩ := h7.draw (nx := jsfNext P) (w := jsfWord P sd.2 n) (fun c m hc => by
        refine ⟨jsfStep P c, ?_, ?_⟩
        · rw [jsfNext_some P h6, hc, jsfWord, ← Nat.add_assoc, Function.iterate_succ_apply']
        · rw [hc, ← Nat.add_assoc, Function.iterate_succ_apply']) b k
      refine ⟨jsfPutLow s c', by rw [e1]; rfl, h1, h2, h3, h4, h5, h6, ?_⟩
      have : jsfLow (jsfPutLow s c') = c' := by
        simp only [jsfLow, jsfPutLow, setLow_low]
      simp only [Bool.false_eq_true, if_false]
      rw [this]
      exact e2
  load _ o a s _ _ _ t h _ := by
    obtain ⟨t', e1, e2⟩ := C11_jsf s t (by rw [JsfOk, h.act, h.size]; cases o.wide <;> rfl)
    refine ⟨t', ?_, ?_⟩
    · rw [show (jsfCls b).set = jsfSet from rfl, show (jsfCls b).get = jsfGet from rfl]
      exact e1
    obtain ⟨v1, v2, v3, v4, v5, v6⟩ := jsf_view_fields e2
    refine ⟨v1.trans h.size, v2.trans h.act, v3.trans h.par, by rw [v4]; exact h.seedSize, h.small, h.ok, ?_⟩
    have hc := h.core
    cases hw : o.wide with
    | true =>
      rw [hw] at hc
      rw [v6 (by rw [h.size, hw]; rfl)]
      exact hc
    | false =>
      rw [hw] at hc
      simp only [Bool.false_eq_true, if_false] at hc ⊢
      rw [v5]
      exact hc
  inplace f hf := by simp [jsfCls] at hf
  noInplace _ := ⟨rfl, rfl⟩
  clone c f hc := by simp [jsfCls] at hc
  advance := Or.inr ⟨rfl, rfl⟩

/-- C95 for JSF. What is missing: `p = 0` and `q = 0`, which the documentation and the constructor accept (`not_C95_jsf`). -/
theorem C95_jsf_partial (hiFirst : Bool) (os : List (SOp JsfArgs ((Nat → U64) × (Nat → U32))))
    (h : ∀ o ∈ os, o.Allowed fun p => p.p ≠ some 0 ∧ p.q ≠ some 0) : (jsfCls hiFirst).program os = (jsfSpec hiFirst).program os :=
  (jsf_refines hiFirst).program os h

/-- C95 fails for JSF: with an accepted rotation by zero, making the generator is undefined. -/
theorem not_C95_jsf (hiFirst : Bool) (sd : (Nat → U64) × (Nat → U32)) :
    (jsfCls hiFirst).program [.new ⟨64, 1, some 0, none, none⟩ sd] = [.ub] ∧ (jsfSpec hiFirst).program [.new ⟨64, 1, some 0, none, none⟩ sd] = [.done] := by
  refine ⟨?_, ?_⟩
  · have : jsfNew ⟨64, 1, some 0, none, none⟩ sd = .ub := rfl
    simp only [GCls.program, GCls.run, GCls.step]
    rw [show (jsfCls hiFirst).new = jsfNew from rfl, this]
  · rfl

/-! ### Programs -/

/-- ChaCha over the end of its counter; a refused number of rounds and a refused counter; the rounds come with the state; no `advance`. -/
example : (chachaCls false).program [.new 8 (fun i => BitVec.ofNat 64 i, some (2 ^ 128 - 1)), .draw 0 .u32, .save 0, .draw 0 .u64,
    .new 7 (fun _ => 1, none), .new 2 (fun _ => 1, none), .load 1 0, .draw 1 .dbl, .seed 1 (fun _ => 1, some (2 ^ 128)), .draw 1 .u32, .advance 1 5] =
    [.done, .val (.o32 0x1c7c1c1d), .done, .val (.o64 0x73d6c521db5cdd38), .err .valueError, .done, .done, .val (.odbl 4075720560831387),
      .err .valueError, .val (.o32 0x5d81d906), .noMethod] := by
  decide +kernel

/-- JSF: a 32-bit instance becomes a 64-bit one with the restored state, pending half included. -/
example : (jsfCls true).program [.new ⟨64, 3, none, none, none⟩ (fun i => BitVec.ofNat 64 i, fun i => BitVec.ofNat 32 i), .draw 0 .u32, .save 0,
    .new ⟨32, 1, some 9, some 16, none⟩ (fun i => BitVec.ofNat 64 i, fun i => BitVec.ofNat 32 i), .draw 1 .u64, .draw 1 .dbl, .load 1 0,
    .draw 1 .u32, .draw 0 .u32, .new ⟨32, 1, some 32, none, none⟩ (fun i => BitVec.ofNat 64 i, fun i => BitVec.ofNat 32 i)] =
    [.done, .val (.o32 0x7455bd2f), .done, .done, .val (.o64 0x537e01eefa92043a), .val (.odbl 5890562721443495), .done,
      .val (.o32 0x4c3fd895), .val (.o32 0x4c3fd895), .err .valueError] := by
  rw [C95_jsf_partial _ _ (by
    intro o ho
    simp only [List.mem_cons, List.not_mem_nil, or_false] at ho
    rcases ho with rfl | rfl | rfl | rfl | rfl | rfl | rfl | rfl | rfl | rfl <;> trivial)]
  decide +kernel

end Verif
