import Verif.Model.Api
import Verif.Model.Chaotic
import Verif.Model.Pcg64
import Verif.Model.Squares
import Verif.Model.ChaCha
import Verif.Model.CtrMode
import Verif.Model.Hc128
import Verif.Model.Mt

/-! C52: the value of a 64-bit draw made of two 32-bit calls in one C expression. -/

namespace Verif

/-! ### C52 -/

theorem shiftor32' {a b : Nat} (hb : b < 2 ^ 32) : (a <<< 32) ||| b = a * 2 ^ 32 + b := by
  rw [Nat.shiftLeft_eq, Nat.mul_comm, Nat.two_pow_add_eq_or_of_lt hb]

theorem join_inj {a b c d : U32}
    (h : a.setWidth 64 <<< 32 ||| b.setWidth 64 = c.setWidth 64 <<< 32 ||| d.setWidth 64) : a = c ∧ b = d := by
  have hn := congrArg BitVec.toNat h
  have hj : ∀ x y : U32, (x.setWidth 64 <<< 32 ||| y.setWidth 64).toNat = x.toNat * 2 ^ 32 + y.toNat := by
    intro x y
    rw [BitVec.toNat_or, BitVec.toNat_shiftLeft, BitVec.toNat_setWidth, BitVec.toNat_setWidth,
      Nat.mod_eq_of_lt (show x.toNat < 2 ^ 64 by omega), Nat.mod_eq_of_lt (show y.toNat < 2 ^ 64 by omega),
      Nat.mod_eq_of_lt (by rw [Nat.shiftLeft_eq]; omega), shiftor32' y.isLt]
  rw [hj, hj] at hn
  constructor <;> apply BitVec.eq_of_toNat_eq <;> omega

/-- C52, exactly when it holds: the two executions allowed by the C standard return the same value iff the two 32-bit
draws happen to be equal. Both executions end in the same state. Missing from C52: the value itself. -/
theorem C52_order_partial {σ : Type} (nx : σ → U32 × σ) (s : σ) :
    ((twoCalls nx true s).1 = (twoCalls nx false s).1 ↔ nthDraw nx 0 s = nthDraw nx 1 s) ∧
    (twoCalls nx true s).2 = (twoCalls nx false s).2 := by
  refine ⟨⟨fun h => ?_, fun h => ?_⟩, rfl⟩
  · exact (join_inj h).1
  · have h' : (nx s).1 = (nx (nx s).2).1 := h
    simp only [twoCalls, if_true, h', Bool.false_eq_true, if_false]

/-- `pcg32_next64`, randomgen/src/pcg32/pcg32.h:64-67. -/
theorem not_C52_pcg32 : ∃ s : Pcg32.Core, (twoCalls Pcg32.next true s).1 ≠ (twoCalls Pcg32.next false s).1 :=
  ⟨Pcg32.seed 42 54, by decide +kernel⟩

/-- `tyche_next64`, randomgen/src/tyche/tyche.h:66-68. -/
theorem not_C52_tyche : ∃ s, (twoCalls tycheNext true s).1 ≠ (twoCalls tycheNext false s).1 :=
  ⟨tycheSeed true 7 0, by decide +kernel⟩

/-- `tyche_openrand_next64`, tyche.h:96-99. -/
theorem not_C52_tyche_openrand : ∃ s, (twoCalls tycheOpenNext true s).1 ≠ (twoCalls tycheOpenNext false s).1 :=
  ⟨tycheSeed false 7 0, by decide +kernel⟩

/-- `squares_32_next64`, randomgen/src/squares/squares.h:63-65. -/
theorem not_C52_squares : ∃ s, (twoCalls sqNext32 true s).1 ≠ (twoCalls sqNext32 false s).1 :=
  ⟨⟨0x9e8d7c6b5a493827, 0⟩, by decide +kernel⟩

/-- `chacha_next64`, randomgen/src/chacha/chacha.h:203-206. -/
theorem not_C52_chacha : ∃ s, (twoCalls ccNext true s).1 ≠ (twoCalls ccNext false s).1 :=
  ⟨⟨⟨⟨1, 2, 3, 4⟩, ⟨5, 6, 7, 8⟩, ⟨9, 10, 11, 12⟩, ⟨13, 14, 15, 16⟩⟩, ⟨0, 0, 0, 0⟩, ⟨0, 0, 0, 0⟩, 3, 0, 8⟩, by decide +kernel⟩

/-- The same with undefined states: if both executions are defined they agree exactly when the words do. -/
theorem C52_order_option_partial {σ : Type} (nx : σ → Option (U32 × σ)) (s : σ) (a b : U32 × σ)
    (ha : nx s = some a) (hb : nx a.2 = some b) :
    ∃ v w : U64 × σ, twoCallsO nx true s = some v ∧ twoCallsO nx false s = some w ∧ v.2 = w.2 ∧
      (v.1 = w.1 ↔ a.1 = b.1) := by
  refine ⟨(a.1.setWidth 64 <<< 32 ||| b.1.setWidth 64, b.2), (b.1.setWidth 64 <<< 32 ||| a.1.setWidth 64, b.2),
    ?_, ?_, rfl, ⟨fun h => (join_inj h).1, fun h => by simp only [h]⟩⟩
  · simp [twoCallsO, ha, hb]
  · simp [twoCallsO, ha, hb]

/-- `jsf32_next64`, randomgen/src/jsf/jsf.h:108-110. -/
theorem not_C52_jsf32 : ∃ s : Jsf 32, (twoCallsO (jsfNext ⟨27, 17, 0⟩) true s).map Prod.fst ≠
    (twoCallsO (jsfNext ⟨27, 17, 0⟩) false s).map Prod.fst :=
  ⟨⟨1, 2, 3, 4⟩, by decide +kernel⟩

/-- `mt19937_next64`, randomgen/src/mt19937/mt19937.h:45-47. -/
theorem not_C52_mt19937 : ∃ s, (twoCallsO mtNext32 true s).map Prod.fst ≠ (twoCallsO mtNext32 false s).map Prod.fst :=
  ⟨⟨fun i => BitVec.ofNat 32 i, 5⟩, by decide +kernel⟩

/-- `hc128_next64`, randomgen/src/hc-128/hc-128.h:98-101. -/
theorem not_C52_hc128 : ∃ s, (twoCallsO hcNext32 true s).map Prod.fst ≠ (twoCallsO hcNext32 false s).map Prod.fst :=
  ⟨⟨fun _ => 0, fun _ => 0, fun i => BitVec.ofNat 32 i, 0, 5⟩, by decide +kernel⟩

/-- `philox4x32_next64` and `threefry4x32_next64`, randomgen/src/philox/philox.h:442-444, threefry.h:815-817. -/
theorem not_C52_philox_threefry (blk : List U32 → List U32 → List U32) : ∃ s : CtrGen 32,
    (twoCallsO (cmNext 4 blk) true s).map Prod.fst ≠ (twoCallsO (cmNext 4 blk) false s).map Prod.fst :=
  ⟨⟨[0, 0, 0, 0], [0, 0], fun i => BitVec.ofNat 32 i, 1, false, 0⟩, by
    simp [twoCallsO, cmNext]⟩

end Verif
