import Verif.Common.SpeckSpec
import Verif.Props.SpeckSse
import Verif.Props.BlockCtr

/-! C85: the generator SPECK128 is the block cipher SPECK128/256 in counter mode. -/

namespace Verif
open SpeckSpec

theorem rotr64_spec (x : U64) (k : Nat) (hk : k < 64) : rotr64 x k = x.rotateRight k := by
  rw [rotr64, BitVec.rotateRight_def, Nat.mod_eq_of_lt hk]

theorem er64_round (x y s : U64) : er64 x y s = round s (x, y) := by
  simp only [er64, round, rotr64_spec x 8 (by decide), rotl64_eq y 3 (by decide)]

theorem speckKeyPass_spec (k0 l0 l1 l2 : U64) (i : Nat) :
    let s := sched k0 l0 l1 l2 i
    let t := sched k0 l0 l1 l2 (i + 3)
    speckKeyPass i (s.2.2.2, s.2.2.1, s.2.1, s.1) =
      ((roundKey k0 l0 l1 l2 i, roundKey k0 l0 l1 l2 (i + 1), roundKey k0 l0 l1 l2 (i + 2)),
        (t.2.2.2, t.2.2.1, t.2.1, t.1)) := by
  simp only [speckKeyPass, er64_round, round, roundKey, sched]
  simp only [BitVec.add_comm]

theorem speckKeyLoop_spec (k0 l0 l1 l2 : U64) (n i : Nat) :
    speckKeyLoop n i ((sched k0 l0 l1 l2 i).2.2.2, (sched k0 l0 l1 l2 i).2.2.1, (sched k0 l0 l1 l2 i).2.1,
      (sched k0 l0 l1 l2 i).1) = (List.range (3 * n + 1)).map fun j => roundKey k0 l0 l1 l2 (i + j) := by
  induction n generalizing i with
  | zero => rfl
  | succ n ih =>
    rw [speckKeyLoop, speckKeyPass_spec]
    simp only
    rw [ih, show 3 * (n + 1) + 1 = 3 + (3 * n + 1) by omega, List.range_add (n := 3), List.map_append, List.map_map]
    congr 1
    apply List.map_congr_left
    intro j _
    simp only [Function.comp_apply]
    rw [show i + (3 + j) = i + 3 + j by omega]

/-- C85: the code writes the 34 round keys of the schedule of SPECK128/256, whatever the key. -/
theorem C85_keys (k0 k1 k2 k3 : U64) :
    speckExpandKey k0 k1 k2 k3 = (List.range 34).map (roundKey k0 k1 k2 k3) := by
  have := speckKeyLoop_spec k0 k1 k2 k3 11 0
  simp only [Nat.zero_add] at this
  exact this

theorem speckEnc_spec (k0 k1 k2 k3 : U64) (rk : Nat → U64) (T : Nat) (hT : ∀ i < T, rk i = roundKey k0 k1 k2 k3 i)
    (c : Ctr) : ((speckEnc rk T c).hi, (speckEnc rk T c).lo) = encrypt k0 k1 k2 k3 (c.hi, c.lo) T := by
  induction T with
  | zero => rfl
  | succ T ih =>
    have h := ih fun i hi => hT i (by omega)
    rw [encrypt, ← h, ← hT T (by omega), ← er64_round]
    rfl

/-- Words of a 128-bit number, low and high. -/
def lo64 (v : Nat) : U64 := BitVec.ofNat 64 v
def hi64 (v : Nat) : U64 := BitVec.ofNat 64 (v / 2 ^ 64)

theorem ctr_val_add (counter n : Nat) :
    Ctr.ofVal (Ctr.val ⟨lo64 counter, hi64 counter⟩ + BitVec.ofNat 128 n) =
      ⟨lo64 ((counter + n) % 2 ^ 128), hi64 ((counter + n) % 2 ^ 128)⟩ := by
  have hv : Ctr.val ⟨lo64 counter, hi64 counter⟩ = BitVec.ofNat 128 counter := by
    apply BitVec.eq_of_toNat_eq
    simp only [Ctr.val, lo64, hi64, BitVec.toNat_append, BitVec.toNat_ofNat]
    rw [Nat.shiftLeft_eq, ← Nat.shiftLeft_eq, ← Nat.shiftLeft_add_eq_or_of_lt (Nat.mod_lt _ (by decide)),
      Nat.shiftLeft_eq]
    omega
  rw [hv, ← BitVec.ofNat_add, Ctr.ofVal, Ctr.mk.injEq]
  constructor
  · apply BitVec.eq_of_toNat_eq
    simp only [lo64, BitVec.extractLsb'_toNat, BitVec.toNat_ofNat, Nat.shiftRight_eq_div_pow]
    omega
  · apply BitVec.eq_of_toNat_eq
    simp only [hi64, BitVec.extractLsb'_toNat, BitVec.toNat_ofNat, Nat.shiftRight_eq_div_pow]

/-- C85: draw `n` of a SPECK128 seeded with a 256-bit key (four words) and a counter, with `rounds` between 1 and 34: the
block `counter + n / 2` modulo `2^128`, its high word as `x` and its low word as `y`, is encrypted with SPECK128/256
reduced to `rounds` rounds; an even draw is the `y` of the result, an odd draw its `x`. The portable code and the SSE
code both give it. -/
theorem C85_stream (old : Speck) (k0 k1 k2 k3 : U64) (counter n : Nat) (hr : old.rounds ≤ 34) :
    let c := (counter + n / 2) % 2 ^ 128
    let e := encrypt k0 k1 k2 k3 (hi64 c, lo64 c) old.rounds.toNat
    let s := speckSeed old k0 k1 k2 k3 ⟨lo64 counter, hi64 counter⟩
    nthO speckNext n s = some (if n % 2 = 0 then e.2 else e.1) ∧
      nthO speckNextSse n s = some (if n % 2 = 0 then e.2 else e.1) := by
  intro c e s
  have h := C15_speck_stream old k0 k1 k2 k3 ⟨lo64 counter, hi64 counter⟩ n
  have hk : ∀ i < old.rounds.toNat, (speckExpandKey k0 k1 k2 k3).getD i 0 = roundKey k0 k1 k2 k3 i := by
    intro i hi
    rw [C85_keys, List.getD_eq_getElem?_getD, List.getElem?_map, List.getElem?_range (by omega)]
    rfl
  rw [ctr_val_add] at h
  have he := speckEnc_spec k0 k1 k2 k3 _ old.rounds.toNat hk ⟨lo64 c, hi64 c⟩
  have h1 : nthO speckNext n s = some (if n % 2 = 0 then e.2 else e.1) := by
    rw [h, half]
    rw [show e = _ from he.symm]
  exact ⟨h1, (C18_speck s n).trans h1⟩

/-- The test vector of the designers for SPECK128/256 (key `1f1e...0100`, plaintext `65736f6874206e49 202e72656e6f6f70`,
ciphertext `4109010405c0f53e 4eeeb48d9c188f43`) holds for the specification above. -/
example : encrypt 0x0706050403020100 0x0f0e0d0c0b0a0908 0x1716151413121110 0x1f1e1d1c1b1a1918
    (0x65736f6874206e49, 0x202e72656e6f6f70) 34 = (0x4109010405c0f53e, 0x4eeeb48d9c188f43) := by decide +kernel

example : (⟨fun _ => 0, fun _ => ⟨0, 0⟩, fun _ => 0, 34, 0, false, 0⟩ : Speck).rounds ≤ 34 := by decide

end Verif
