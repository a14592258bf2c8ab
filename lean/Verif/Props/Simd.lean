import Verif.Model.ChaCha
import Verif.Common.BitInj
import Mathlib.Tactic.IntervalCases

/-! Property C18: the SSE code paths compute what the portable ones compute. -/

namespace Verif

theorem ccRotl_xor (x : U32) (n : Nat) : ccRotl x n = x <<< n ^^^ x >>> (32 - n) := by
  apply BitVec.eq_of_getLsbD_eq
  intro i hi
  simp only [ccRotl, BitVec.getLsbD_or, BitVec.getLsbD_xor, BitVec.getLsbD_shiftLeft, BitVec.getLsbD_ushiftRight]
  by_cases h : i < n
  · simp [h]
  · have : 32 ≤ 32 - n + i := by omega
    rw [BitVec.getLsbD_of_ge _ _ this]
    simp

theorem word32_bit (b0 b1 b2 b3 : BitVec 8) (i : Nat) : (word32 b0 b1 b2 b3).getLsbD i =
    if i < 8 then b0.getLsbD i else if i < 16 then b1.getLsbD (i - 8) else if i < 24 then b2.getLsbD (i - 16)
    else b3.getLsbD (i - 24) := by
  show (b3 ++ b2 ++ b1 ++ b0 : BitVec (8 + 8 + 8 + 8)).getLsbD i = _
  simp only [BitVec.getLsbD_append]
  by_cases h1 : i < 8
  · simp [h1]
  · by_cases h2 : i < 16
    · simp [h1, h2, show i - 8 < 8 by omega]
    · by_cases h3 : i < 24
      · simp [h1, h2, h3, show ¬ i - 8 < 8 by omega, show i - 16 < 8 by omega, show i - 8 - 8 = i - 16 by omega]
      · simp [h1, h2, h3, show ¬ i - 8 < 8 by omega, show ¬ i - 16 < 8 by omega, show i - 8 - 8 = i - 16 by omega, show i - 16 - 8 = i - 24 by omega]

theorem byte_rot8 (x : U32) :
    word32 ((x >>> 24).truncate 8) ((x >>> 0).truncate 8) ((x >>> 8).truncate 8) ((x >>> 16).truncate 8) = ccRotl x 8 := by
  apply BitVec.eq_of_getLsbD_eq
  intro i hi
  rw [word32_bit, ccRotl]
  simp only [BitVec.getLsbD_or, BitVec.getLsbD_shiftLeft, BitVec.getLsbD_ushiftRight, BitVec.truncate_eq_setWidth,
    BitVec.getLsbD_setWidth]
  interval_cases i <;> simp

theorem byte_rot16 (x : U32) :
    word32 ((x >>> 16).truncate 8) ((x >>> 24).truncate 8) ((x >>> 0).truncate 8) ((x >>> 8).truncate 8) = ccRotl x 16 := by
  apply BitVec.eq_of_getLsbD_eq
  intro i hi
  rw [word32_bit, ccRotl]
  simp only [BitVec.getLsbD_or, BitVec.getLsbD_shiftLeft, BitVec.getLsbD_ushiftRight, BitVec.truncate_eq_setWidth,
    BitVec.getLsbD_setWidth]
  interval_cases i <;> simp

theorem byte_rot24 (x : U32) :
    word32 ((x >>> 8).truncate 8) ((x >>> 16).truncate 8) ((x >>> 24).truncate 8) ((x >>> 0).truncate 8) = ccRotl x 24 := by
  apply BitVec.eq_of_getLsbD_eq
  intro i hi
  rw [word32_bit, ccRotl]
  simp only [BitVec.getLsbD_or, BitVec.getLsbD_shiftLeft, BitVec.getLsbD_ushiftRight, BitVec.truncate_eq_setWidth,
    BitVec.getLsbD_setWidth]
  interval_cases i <;> simp

/-- Every rotation the SSE code performs, with either instruction set. -/
theorem roti_eq (f : Bool) (r : V4) (c : Nat) : rotiEpi32 f r c = r.map (ccRotl · c) := by
  have hx : V4.map2 (· ^^^ ·) (r.map (· <<< c)) (r.map (· >>> (32 - c))) = r.map (ccRotl · c) := by
    simp only [V4.map2, V4.map, ccRotl_xor]
  rw [rotiEpi32]
  split
  · rename_i h
    obtain ⟨-, rfl⟩ := h
    simp only [V4.map, ← byte_rot8]
    rfl
  · split
    · rename_i h
      obtain ⟨-, rfl⟩ := h
      simp only [V4.map, ← byte_rot16]
      rfl
    · split
      · rename_i h
        obtain ⟨-, rfl⟩ := h
        simp only [V4.map, ← byte_rot24]
        rfl
      · exact hx

/-- Half a pass works on the four columns independently. -/
theorem sseHalf_eq (f : Bool) (r : Rows) : sseHalf f r =
    let q0 := quarter r.a.x0 r.b.x0 r.c.x0 r.d.x0
    let q1 := quarter r.a.x1 r.b.x1 r.c.x1 r.d.x1
    let q2 := quarter r.a.x2 r.b.x2 r.c.x2 r.d.x2
    let q3 := quarter r.a.x3 r.b.x3 r.c.x3 r.d.x3
    ⟨⟨q0.x0, q1.x0, q2.x0, q3.x0⟩, ⟨q0.x1, q1.x1, q2.x1, q3.x1⟩, ⟨q0.x2, q1.x2, q2.x2, q3.x2⟩, ⟨q0.x3, q1.x3, q2.x3, q3.x3⟩⟩ := by
  simp only [sseHalf, roti_eq]
  rfl

/-- C18: one pass of the SSE core equals one pass of the portable core, for every register content. -/
theorem C18_chacha_pass (f : Bool) (r : Rows) : sseDouble f r = doubleRound r := by
  simp only [sseDouble, sseHalf_eq]
  rfl

/-- C18: the SSE2 and SSSE3 builds of ChaCha produce the same blocks as the portable code. -/
theorem C18_chacha_core (f : Bool) (rounds : Int) (r : Rows) : sseCore f rounds r = ccCore rounds r := by
  rw [sseCore, ccCore, show sseDouble f = doubleRound from funext (C18_chacha_pass f)]

/-- C18: hence the whole streams agree, from every state, for every number of draws. -/
theorem C18_chacha_stream (f : Bool) (s : ChaCha) (n : Nat) :
    nthDraw (ccNextWith (ccGenWith (sseCore f))) n s = nthDraw ccNext n s := by
  have : ccGenWith (sseCore f) = ccGen := by
    funext s
    rw [ccGen, ccGenWith, ccGenWith, C18_chacha_core]
  rw [this]; rfl

example : sseCore true 2 ⟨⟨1, 2, 3, 4⟩, ⟨5, 6, 7, 8⟩, ⟨9, 10, 11, 12⟩, ⟨13, 14, 15, 16⟩⟩ ≠
    ⟨⟨1, 2, 3, 4⟩, ⟨5, 6, 7, 8⟩, ⟨9, 10, 11, 12⟩, ⟨13, 14, 15, 16⟩⟩ := by decide +kernel

end Verif
