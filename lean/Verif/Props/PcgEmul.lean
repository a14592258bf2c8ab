import Verif.Model.PcgEmul
import Verif.Proof.Lcg
import Verif.Props.Lcg
import Mathlib.Tactic.Ring
import Mathlib.Tactic.Linarith

/-! Property C06: the emulated 128-bit code computes the same as the native code. -/

namespace Verif.PcgEmul
open Verif.Pcg

/-- The number a pair of words stands for. -/
def val (e : E128) : U128 := BitVec.ofNat 128 (e.high.toNat * 2 ^ 64 + e.low.toNat)

theorem val_toNat (e : E128) : (val e).toNat = e.high.toNat * 2 ^ 64 + e.low.toNat := by
  have := e.high.isLt; have := e.low.isLt
  simp only [val, BitVec.toNat_ofNat]
  omega

theorem val_injective (a b : E128) (h : val a = val b) : a = b := by
  have h' := congrArg BitVec.toNat h
  rw [val_toNat, val_toNat] at h'
  have := a.high.isLt; have := a.low.isLt
  have := b.high.isLt; have := b.low.isLt
  obtain ⟨ah, al⟩ := a
  obtain ⟨bh, bl⟩ := b
  simp only at *
  have h1 : ah.toNat = bh.toNat := by omega
  have h2 : al.toNat = bl.toNat := by omega
  rw [BitVec.toNat_inj] at h1 h2
  rw [h1, h2]

/-- C06: emulated addition. -/
theorem C06_emul_add (a b : E128) : val (add a b) = val a + val b := by
  apply BitVec.eq_of_toNat_eq
  rw [BitVec.toNat_add, val_toNat, val_toNat, val_toNat]
  have := a.high.isLt; have := a.low.isLt
  have := b.high.isLt; have := b.low.isLt
  simp only [add, BitVec.lt_def, BitVec.toNat_add]
  split <;> simp <;> omega

/-- C06: the 64 x 64 -> 128 bit product is exact. -/
theorem C06_emul_mult64 (x y : U64) :
    (mult64 x y).1.toNat * 2 ^ 64 + (mult64 x y).2.toNat = x.toNat * y.toNat := by
  have hmask : ∀ z : U64, (z &&& 0xFFFFFFFF#64).toNat = z.toNat % 2 ^ 32 := by
    intro z
    rw [BitVec.toNat_and]
    exact Nat.and_two_pow_sub_one_eq_mod z.toNat 32
  simp only [mult64]
  simp only [BitVec.toNat_add, BitVec.toNat_mul, BitVec.toNat_ushiftRight, hmask,
    Nat.shiftRight_eq_div_pow]
  have hx := x.isLt
  have hy := y.isLt
  generalize x.toNat = X at *
  generalize y.toNat = Y at *
  obtain ⟨x0, x1, hX, hx0, hx1, ex0, ex1⟩ : ∃ x0 x1, X = x1 * 2 ^ 32 + x0 ∧ x0 < 2 ^ 32 ∧
      x1 < 2 ^ 32 ∧ X % 2 ^ 32 = x0 ∧ X / 2 ^ 32 = x1 :=
    ⟨X % 2 ^ 32, X / 2 ^ 32, by omega, by omega, by omega, rfl, rfl⟩
  obtain ⟨y0, y1, hY, hy0, hy1, ey0, ey1⟩ : ∃ y0 y1, Y = y1 * 2 ^ 32 + y0 ∧ y0 < 2 ^ 32 ∧
      y1 < 2 ^ 32 ∧ Y % 2 ^ 32 = y0 ∧ Y / 2 ^ 32 = y1 :=
    ⟨Y % 2 ^ 32, Y / 2 ^ 32, by omega, by omega, by omega, rfl, rfl⟩
  rw [ex0, ex1, ey0, ey1]
  have bound : ∀ a b : Nat, a < 2 ^ 32 → b < 2 ^ 32 → a * b ≤ (2 ^ 32 - 1) * (2 ^ 32 - 1) :=
    fun a b ha hb => Nat.mul_le_mul (by omega) (by omega)
  have b00 := bound x0 y0 hx0 hy0
  have b01 := bound x0 y1 hx0 hy1
  have b10 := bound x1 y0 hx1 hy0
  have b11 := bound x1 y1 hx1 hy1
  have hprod : X * Y = x1 * y1 * 2 ^ 64 + (x1 * y0 + x0 * y1) * 2 ^ 32 + x0 * y0 := by
    rw [hX, hY]; ring
  rw [hprod]
  generalize x0 * y0 = p00 at *
  generalize x0 * y1 = p01 at *
  generalize x1 * y0 = p10 at *
  generalize x1 * y1 = p11 at *
  clear hprod hX hY ex0 ex1 ey0 ey1 hmask bound
  omega

/-- C06: emulated multiplication. -/
theorem C06_emul_mult (a b : E128) : val (mult a b) = val a * val b := by
  apply BitVec.eq_of_toNat_eq
  rw [BitVec.toNat_mul, val_toNat, val_toNat, val_toNat]
  have h := C06_emul_mult64 a.low b.low
  simp only [mult, BitVec.toNat_add, BitVec.toNat_mul]
  have e : (a.high.toNat * 2 ^ 64 + a.low.toNat) * (b.high.toNat * 2 ^ 64 + b.low.toNat) =
      2 ^ 128 * (a.high.toNat * b.high.toNat) +
        ((a.high.toNat * b.low.toNat + a.low.toNat * b.high.toNat) * 2 ^ 64 +
          a.low.toNat * b.low.toNat) := by ring
  rw [e, Nat.mul_add_mod, ← h]
  clear h e
  generalize mult64 a.low b.low = r
  have := r.1.isLt
  have := r.2.isLt
  generalize a.high.toNat * b.low.toNat = p
  generalize a.low.toNat * b.high.toNat = q
  omega

/-- C06: emulated step. -/
theorem C06_emul_step (m i s : E128) : val (step m i s) = lcgStep (val m) (val i) (val s) := by
  rw [step, C06_emul_add, C06_emul_mult, lcgStep]

theorem val_halve (d : E128) : (val (halve d)).toNat = (val d).toNat / 2 := by
  rw [val_toNat, val_toNat]
  simp only [halve, BitVec.toNat_or, BitVec.toNat_ushiftRight, BitVec.toNat_shiftLeft]
  have h1 := d.high.isLt; have h2 := d.low.isLt
  have e : (d.high.toNat <<< 63) % 2 ^ 64 = 2 ^ 63 * (d.high.toNat % 2) := by
    rw [Nat.shiftLeft_eq]; omega
  rw [e, Nat.shiftRight_eq_div_pow, Nat.shiftRight_eq_div_pow, Nat.or_comm,
    ← Nat.two_pow_add_eq_or_of_lt (by omega)]
  omega

theorem low_odd (d : E128) : d.low &&& 1#64 ≠ 0#64 ↔ (val d).toNat % 2 = 1 := by
  rw [odd_test (by decide), val_toNat]
  omega

theorem advLoop_spec (fuel : Nat) : ∀ (d cm cp am ap : E128), (val d).toNat < 2 ^ fuel →
    ∃ M P, advLoop fuel d cm cp am ap = some (M, P) ∧
      (val M, val P) = Pcg.advLoop (val d) (val cm) (val cp) (val am) (val ap) := by
  induction fuel with
  | zero =>
    intro d cm cp am ap h
    have hz : (val d).toNat = 0 := by simpa using h
    have hz' := hz
    rw [val_toNat] at hz'
    have hc : ¬ (d.high > 0 ∨ d.low > 0) := by
      simp only [gt_iff_lt, BitVec.lt_def]; simp; omega
    refine ⟨am, ap, by simp only [advLoop, if_neg hc], ?_⟩
    rw [Pcg.advLoop, dif_neg (by omega)]
  | succ fuel ih =>
    intro d cm cp am ap h
    by_cases hc : d.high > 0 ∨ d.low > 0
    · have hpos : (val d).toNat > 0 := by
        rw [val_toNat]
        simp only [gt_iff_lt, BitVec.lt_def] at hc
        simp at hc
        omega
      have hh := val_halve d
      have hlt : (val (halve d)).toNat < 2 ^ fuel := by rw [hh]; rw [pow_succ] at h; omega
      have hv : val (halve d) = val d / 2#128 := by
        apply BitVec.eq_of_toNat_eq
        rw [hh, BitVec.toNat_udiv, toNat_two (by decide)]
      have hone : val ⟨0, 1⟩ = 1 := by decide +kernel
      simp only [advLoop, if_pos hc]
      obtain ⟨M, P, e1, e2⟩ := ih (halve d) (mult cm cm) (mult (add cm ⟨0, 1⟩) cp)
        (if d.low &&& 1#64 ≠ 0#64 then (mult am cm, add (mult ap cm) cp) else (am, ap)).1
        (if d.low &&& 1#64 ≠ 0#64 then (mult am cm, add (mult ap cm) cp) else (am, ap)).2 hlt
      refine ⟨M, P, e1, ?_⟩
      rw [e2, Pcg.advLoop.eq_def (val d), dif_pos hpos, hv, C06_emul_mult, C06_emul_mult,
        C06_emul_add, hone]
      by_cases ho : d.low &&& 1#64 ≠ 0#64
      · have ho' : val d &&& 1#128 ≠ 0#128 := (odd_test (by decide) _).mpr ((low_odd d).mp ho)
        rw [if_pos ho, if_pos ho', C06_emul_mult, C06_emul_add, C06_emul_mult]
      · have ho' : ¬ (val d &&& 1#128 ≠ 0#128) := fun h' =>
          ho ((low_odd d).mpr ((odd_test (by decide) _).mp h'))
        rw [if_neg ho, if_neg ho']
    · have hz : (val d).toNat = 0 := by
        rw [val_toNat]
        simp only [gt_iff_lt, BitVec.lt_def] at hc
        simp at hc
        omega
      refine ⟨am, ap, by simp only [advLoop, if_neg hc], ?_⟩
      rw [Pcg.advLoop, dif_neg (by omega)]

/-- C06: the emulated advance loop terminates within 128 iterations for every delta and computes
what the native one computes. -/
theorem C06_emul_advance (s d m c : E128) :
    ∃ r, advanceLcg 128 s d m c = some r ∧
      val r = Pcg.advanceLcg (val s) (val d) (val m) (val c) := by
  obtain ⟨M, P, e1, e2⟩ := advLoop_spec 128 d m c ⟨0, 1⟩ ⟨0, 0⟩ (val d).isLt
  refine ⟨add (mult M s) P, by rw [advanceLcg, e1]; rfl, ?_⟩
  have hone : val ⟨0, 1⟩ = 1 := by decide +kernel
  have hzero : val ⟨0, 0⟩ = 0 := by decide +kernel
  rw [hone, hzero] at e2
  simp only [Pcg.advanceLcg, ← e2]
  rw [C06_emul_add, C06_emul_mult]

/-- C06: emulated advance is iteration of the emulated step. -/
theorem C06_emul_advance_iterate (s d m c : E128) :
    ∃ r, advanceLcg 128 s d m c = some r ∧ r = (step m c)^[(val d).toNat] s := by
  obtain ⟨r, h1, h2⟩ := C06_emul_advance s d m c
  refine ⟨r, h1, val_injective _ _ ?_⟩
  rw [h2, advanceLcg_eq (by decide)]
  clear h1 h2
  generalize (val d).toNat = n
  induction n with
  | zero => rfl
  | succ n ih => rw [Function.iterate_succ_apply', Function.iterate_succ_apply', C06_emul_step, ih]

theorem hi_val (e : E128) : hi (val e) = e.high := by
  apply BitVec.eq_of_toNat_eq
  have := e.high.isLt; have := e.low.isLt
  simp only [hi, BitVec.truncate_eq_setWidth, BitVec.toNat_setWidth, BitVec.toNat_ushiftRight,
    Nat.shiftRight_eq_div_pow, val_toNat]
  omega

theorem lo_val (e : E128) : lo (val e) = e.low := by
  apply BitVec.eq_of_toNat_eq
  have := e.high.isLt; have := e.low.isLt
  simp only [lo, BitVec.truncate_eq_setWidth, BitVec.toNat_setWidth, val_toNat]
  omega

/-- The native core a pair-of-words core stands for. -/
def toNative (c : Core) : Pcg.Core := { state := val c.state, inc := val c.inc, variant := c.variant }

theorem val_defaultMult : val defaultMult = Pcg.defaultMult := by decide +kernel
theorem val_cheapMult : val cheapMult = Pcg.cheapMult := by decide +kernel

/-- C06: one draw gives the same 64-bit output and corresponding states. -/
theorem C06_emul_next (c : Core) :
    (next c).1 = (Pcg.next (toNative c)).1 ∧ toNative (next c).2 = (Pcg.next (toNative c)).2 := by
  obtain ⟨s, i, v⟩ := c
  cases v
  · simp only [next, Pcg.next, toNative, hi_val, lo_val, C06_emul_step, val_cheapMult]
    exact ⟨trivial, trivial⟩
  · simp only [next, Pcg.next, toNative]
    rw [C06_emul_step, val_defaultMult, ← val_defaultMult, ← C06_emul_step, hi_val, lo_val]
    exact ⟨rfl, rfl⟩
  · simp only [next, Pcg.next, toNative]
    rw [C06_emul_step, val_defaultMult, ← val_defaultMult, ← C06_emul_step, hi_val, lo_val]
    exact ⟨rfl, rfl⟩

/-- C06: seeding gives corresponding states. -/
theorem C06_emul_seed (v : Variant) (s q : E128) :
    toNative (seedCore v s q) = Pcg.seedCore v (val s) (val q) := by
  have hinc : val ⟨(q.high <<< 1) ||| (q.low >>> 63), (q.low <<< 1) ||| 1#64⟩ =
      (val q <<< 1) ||| 1#128 := by
    apply BitVec.eq_of_toNat_eq
    rw [val_toNat, shl_or_one_toNat (w := 127)]
    have h1 := q.high.isLt; have h2 := q.low.isLt
    simp only [shl_or_one_toNat (w := 63), BitVec.toNat_or, BitVec.toNat_ushiftRight,
      BitVec.toNat_shiftLeft, val_toNat]
    have e : (q.high.toNat <<< 1) % 2 ^ 64 = 2 ^ 1 * (q.high.toNat % 2 ^ 63) := by
      rw [Nat.shiftLeft_eq]; omega
    rw [e, Nat.shiftRight_eq_div_pow, ← Nat.two_pow_add_eq_or_of_lt (by omega)]
    omega
  have hm : val (multOf v) = Pcg.multOf v := by
    cases v <;> decide +kernel
  have hzero : val ⟨0, 0⟩ = 0#128 := by decide +kernel
  simp only [toNative, seedCore, initPcg, Pcg.seedCore, Pcg.initPcg]
  rw [C06_emul_step, C06_emul_add, C06_emul_step, hinc, hm, hzero]

/-- C06: for every seed, selector and variant, the whole stream of 64-bit outputs is the same with
and without native 128-bit integers. -/
theorem C06_emul_stream (v : Variant) (s q : E128) (n : Nat) :
    drawN next n (seedCore v s q) = drawN Pcg.next n (Pcg.seedCore v (val s) (val q)) := by
  rw [← C06_emul_seed]
  generalize seedCore v s q = c
  induction n generalizing c with
  | zero => rfl
  | succ n ih =>
    obtain ⟨h1, h2⟩ := C06_emul_next c
    rw [drawN, drawN, h1, ih, h2]

/-- Every 128-bit number is the value of some pair of words, so `C06_emul_stream` covers all
seeds. -/
theorem C06_val_surjective (x : U128) : ∃ e, val e = x := by
  refine ⟨⟨hi x, lo x⟩, ?_⟩
  apply BitVec.eq_of_toNat_eq
  have := x.isLt
  rw [val_toNat]
  simp only [hi, lo, BitVec.truncate_eq_setWidth, BitVec.toNat_setWidth, BitVec.toNat_ushiftRight,
    Nat.shiftRight_eq_div_pow]
  omega

example : advanceLcg 128 ⟨1, 2⟩ ⟨0, 3⟩ defaultMult ⟨0, 1⟩ =
    some (step defaultMult ⟨0, 1⟩ (step defaultMult ⟨0, 1⟩ (step defaultMult ⟨0, 1⟩ ⟨1, 2⟩))) := by
  decide +kernel

end Verif.PcgEmul
