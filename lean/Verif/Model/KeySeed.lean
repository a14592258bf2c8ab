import Verif.Model.IncArg
import Verif.Model.BlockCtr
import Verif.Model.ChaCha
import Verif.Model.Hc128
import Verif.Model.Ints

/-! `seed(seed, counter, key)` of SPECK128, AESCounter, ChaCha and HC128 with all its arguments, on an instance together with its seed sequence.
`Model/BlockCtr`, `ChaCha` and `Hc128` have the C functions that the words go into. Each call ends in `object_to_int` for the key and the counter and
`int_to_array` for both; all of these come before the first store except the last, which cannot raise any more (proved in Props/KeySeed). -/

namespace Verif

open Ints

/-- The parts in which the classes differ: the bits of the key and the counter, the word size the key is split into, the number of words
taken from a seed sequence, and the stores, given the words of the key, the words of the counter, and the counter. -/
structure KeyCls (σ : Type) where
  kb : Nat
  ku : Nat
  cb : Nat
  sw : Nat
  put : List Nat → List Nat → Nat → σ → σ

/-- `seed(key=key, counter=counter)` (speck128.pyx:221-230, aes.pyx:233-246, chacha.pyx:234-248, hc128.pyx:162-166). -/
def KeyCls.keyed {σ : Type} (K : KeyCls σ) (key counter : ObjIn) (s : Seeded σ) : Except PyErr Unit × Seeded σ :=
  match objectToInt key K.kb with
  | .error e => (.error e, s)
  | .ok k => match objectToInt counter K.cb with
    | .error e => (.error e, s)
    | .ok c => match intToArray (.int (k.getD 0)) K.kb K.ku, intToArray (.int (c.getD 0)) K.cb 64 with
      | .ok kw, .ok cw => (.ok (), { s with core := K.put kw cw (c.getD 0).toNat s.core })
      | .error e, _ => (.error e, s)
      | _, .error e => (.error e, s)

/-- `seed` (speck128.pyx:215-219, aes.pyx:227-231, chacha.pyx:228-232, hc128.pyx:156-160), `_seed_with_seed_sequence` (common.pyx:79-85) and
`_seed_from_seq` (speck128.pyx:174-177, aes.pyx:182-185, chacha.pyx:158-160, hc128.pyx:124-126). `given`: the argument `seed` is not `None`; `gen` are
the words of its seed sequence, or of the one made from entropy. -/
def KeyCls.seedCall {σ : Type} (K : KeyCls σ) (given : Bool) (gen : Nat → U64) (key counter : ObjIn) (s : Seeded σ) :
    Except PyErr Unit × Seeded σ :=
  if given ∧ key ≠ .none then (.error .valueError, s)
  else if key = .none then K.keyed (.arr64 ((List.range K.sw).map gen)) counter { s with seq := gen }
  else K.keyed key counter s

/-- Entry `i` of an array of words. -/
def wd (w : Nat) (l : List Nat) (i : Nat) : BitVec w := BitVec.ofNat w (l.getD i 0)

/-- speck128.pyx:221-230 -/
def speckKey : KeyCls Speck := ⟨256, 64, 128, 4, fun k c _ s => speckSeed s (wd 64 k 0) (wd 64 k 1) (wd 64 k 2) (wd 64 k 3) ⟨wd 64 c 0, wd 64 c 1⟩⟩

/-- aes.pyx:233-246; the counters are made of the integer. -/
def aesKey : KeyCls Aes := ⟨128, 64, 128, 2, fun k _ c s => aesSeed s (wd 64 k 0) (wd 64 k 1) c⟩

/-- chacha.pyx:234-248: eight words of 32 bits, viewed as four of 64 (little endian); the stream is the upper half of the key. -/
def chachaKey : KeyCls ChaCha := ⟨256, 32, 128, 4, fun k c _ s =>
  ccSeed s (wd 32 k 1 ++ wd 32 k 0) (wd 32 k 3 ++ wd 32 k 2) (wd 32 k 5 ++ wd 32 k 4) (wd 32 k 7 ++ wd 32 k 6) (wd 64 c 0) (wd 64 c 1)⟩

/-- hc128.pyx:162-166: four words of 64 bits, viewed as eight of 32 (little endian). There is no argument `counter`: it is `None` here. -/
def hcKey : KeyCls Hc := ⟨256, 64, 0, 4, fun k _ _ s => hcSeed (fun i => (wd 64 k (i / 2) >>> (32 * (i % 2))).truncate 32) s⟩

end Verif
