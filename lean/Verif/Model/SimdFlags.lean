import Verif.Model.SpeckSse
import Verif.Model.ChaCha

/-! The detection of CPU features, and the process-wide flags behind `SPECK128.use_sse41` and `ChaCha.use_simd`.

The XOP build of ChaCha (a rotate instruction of AMD CPUs) is not modelled. Values assigned to the properties are Python
integers (booleans are 0 and 1). -/

namespace Verif

/-- What the `cpuid` instruction answers: whether the build can ask at all (`HAVE_CPUID`), the largest leaf, and `eax`, `ebx`,
`ecx`, `edx` of leaf 1. -/
structure Cpu where
  haveCpuid : Bool
  numIds : Nat
  leaf1 : Fin 4 → U32

/-- The register chosen by the switch of `feature_flags` (cpu_features.c:5-48). -/
def Cpu.reg (c : Cpu) (major : Int) : U32 :=
  let r : Fin 4 → U32 := if c.haveCpuid ∧ 1 ≤ c.numIds then c.leaf1 else fun _ => 0
  if major = 0 then r 0 else if major = 1 then r 1 else if major = 2 then r 2 else if major = 3 then r 3 else 0

/-- `feature_flags` (cpu_features.c:49-52): `flags[i]`. -/
def Cpu.featureFlag (c : Cpu) (major : Int) (i : Nat) : Int := ((c.reg major >>> i) &&& 1#32).toNat

/-! What the CPU can execute, by Intel's description of leaf 1. -/

def Cpu.hasSse2 (c : Cpu) : Bool := (c.leaf1 3).getLsbD 26
def Cpu.hasSsse3 (c : Cpu) : Bool := (c.leaf1 2).getLsbD 9
def Cpu.hasSse41 (c : Cpu) : Bool := (c.leaf1 2).getLsbD 19

/-- Every CPU with SSE4.1 has SSSE3. -/
def Cpu.sane (c : Cpu) : Prop := c.hasSse41 = true → c.hasSsse3 = true

/-- The CPU, and the instruction sets the compiler was allowed to use (`__SSE2__`, `__SSSE3__`). -/
structure Host where
  cpu : Cpu
  sse2 : Bool
  ssse3 : Bool

/-- Programs on generators `0, 1, …` of one class: a command on a generator, or an assignment to the property. -/
inductive SimdOp (C : Type)
  | cmd (g : Nat) (c : C)
  | toggle (value : Int)

/-- A class whose code depends on a process-wide flag: the value stored by its `capable` function, what the setter stores and
raises, the commands that call `capable` first, and the commands under a flag; `none` is undefined. -/
structure SimdClass (G C V : Type) where
  capable : Int
  set : Int → Int × Option PyErr
  resets : C → Bool
  run : Int → G → C → Option (Option V × G)

/-- One operation: what it draws, the new flag and generators. -/
def SimdClass.op {G C V : Type} (S : SimdClass G C V) (p : Int × (Nat → G)) : SimdOp C → Option (Option V × Int × (Nat → G))
  | .cmd g c =>
    let flag := if S.resets c then S.capable else p.1
    (S.run flag (p.2 g) c).map fun r => (r.1, flag, Function.update p.2 g r.2)
  | .toggle v => some (none, (S.set v).1, p.2)

/-- A program: its draws in order, the final flag and generators. -/
def SimdClass.prog {G C V : Type} (S : SimdClass G C V) (p : Int × (Nat → G)) : List (SimdOp C) → Option (List V × Int × (Nat → G))
  | [] => some ([], p)
  | o :: os => do
    let r ← S.op p o
    let t ← S.prog r.2 os
    some (r.1.toList ++ t.1, t.2)

/-! ## SPECK128 -/

/-- `speck_sse41_capable` (speck-128.c:8-19): the value stored and returned. -/
def Host.sse41Capable (h : Host) : Int := if h.ssse3 then h.cpu.featureFlag 2 19 else 0

/-- The setter of `use_sse41` (speck128.pyx:254-259): the flag it leaves, and what it raises. `speck_use_sse41` takes a C
`int`. -/
def Host.useSse41 (h : Host) (value : Int) : Int × Option PyErr :=
  if value ≠ 0 ∧ h.sse41Capable = 0 then (h.sse41Capable, some .valueError)
  else if value < -2 ^ 31 ∨ 2 ^ 31 ≤ value then (h.sse41Capable, some .overflowError)
  else (value, none)

/-- The getter of `use_sse41` (speck128.pyx:252). -/
def sse41Reported (flag : Int) : Bool := flag ≠ 0

/-- The refill of `speck_next64` (speck-128.h:107-117) under the flag. -/
def speckGenF (h : Host) (flag : Int) (s : Speck) : Option Speck :=
  if h.ssse3 = true ∧ flag = 1 then (if h.cpu.hasSsse3 then some (speckGenSse s) else none) else some (speckGen s)

/-- `speck_next64` (speck-128.h:105-122) under the flag. -/
def speckNextF (h : Host) (flag : Int) (s : Speck) : Option (U64 × Speck) := do
  let s ← if s.offset = 96 then speckGenF h flag s else some s
  (read8 12 s.buf s.offset).map fun out => (out, { s with offset := s.offset + 8 })

/-- `speck_advance` (speck-128.c:47-86) under the flag. -/
def speckAdvanceF (h : Host) (flag : Int) (s : Speck) (d0 d1 d2 : U64) : Option Speck := do
  let s ← if s.offset = 96 then (speckNextF h flag s).map fun r => { r.2 with offset := 0 } else some s
  let s := { s with offset := s.offset + 8 * (d0 % 2#64).toNat }
  let a0 := d0 / 2#64 + ((d1 % 2#64) <<< 63)
  let a1 := d1 / 2#64 + ((d2 % 2#64) <<< 63)
  if a0 = 0 ∧ a1 = 0 then some s
  else
    let s := { s with ctr := fun i => speckAdvCtr a0 a1 (s.ctr i) }
    let newOffset := s.offset
    let r ← speckNextF h flag { s with offset := 96 }
    some { r.2 with offset := newOffset }

/-- Commands on a SPECK128 generator. -/
inductive SpeckCmd
  | seed (k0 k1 k2 k3 : U64) (c : Ctr)
  | next
  | advance (d0 d1 d2 : U64)

/-- A command under the flag; `speck_seed` calls `speck_sse41_capable` (speck-128.c:24). -/
def speckCmd (h : Host) (flag : Int) (s : Speck) : SpeckCmd → Option (Option U64 × Speck)
  | .seed k0 k1 k2 k3 c => some (none, speckSeed s k0 k1 k2 k3 c)
  | .next => (speckNextF h flag s).map fun r => (some r.1, r.2)
  | .advance d0 d1 d2 => (speckAdvanceF h flag s d0 d1 d2).map fun s => (none, s)

def SpeckCmd.isSeed : SpeckCmd → Bool
  | .seed .. => true
  | _ => false

def speckClass (h : Host) : SimdClass Speck SpeckCmd U64 := ⟨h.sse41Capable, h.useSse41, SpeckCmd.isSeed, speckCmd h⟩

/-! ## ChaCha -/

/-- `chacha_simd_capable` (chacha.c:10-32). -/
def Host.simdCapable (h : Host) : Int :=
  if h.sse2 then (if h.ssse3 then h.cpu.featureFlag 2 9 else h.cpu.featureFlag 3 26) else 0

/-- The setter of `use_simd` (chacha.pyx:181-186). -/
def Host.useSimd (h : Host) (value : Int) : Int × Option PyErr :=
  if value ≠ 0 ∧ h.simdCapable = 0 then (h.simdCapable, some .valueError) else (if value = 0 then 0 else 1, none)

/-- `generate_block` (chacha.h:167-192) under the flag. -/
def ccGenF (h : Host) (flag : Int) (s : ChaCha) : Option ChaCha :=
  if h.sse2 = true ∧ 0 < flag then
    if (if h.ssse3 then h.cpu.hasSsse3 else h.cpu.hasSse2) then some (ccGenWith (sseCore h.ssse3) s) else none
  else some (ccGen s)

/-- `chacha_next32` (chacha.h:194-201) under the flag. -/
def ccNextF (h : Host) (flag : Int) (s : ChaCha) : Option (U32 × ChaCha) := do
  let idx := (s.ctr0 % 16#64).toNat
  let s ← if idx = 0 then ccGenF h flag s else some s
  let c0 := s.ctr0 + 1
  let c1 := if c0 = 0 then s.ctr1 + 1 else s.ctr1
  some (s.block.get idx, { s with ctr0 := c0, ctr1 := c1 })

/-- `chacha_seed` (chacha.c:36-56) after `chacha_simd_capable`. -/
def ccSeedF (h : Host) (flag : Int) (old : ChaCha) (s0 s1 t0 t1 c0 c1 : U64) : Option ChaCha := do
  let k0 : V4 := ⟨(s0 &&& 0xffffffff#64).truncate 32, (s0 >>> 32).truncate 32, (s1 &&& 0xffffffff#64).truncate 32, (s1 >>> 32).truncate 32⟩
  let k1 : V4 := ⟨(t0 &&& 0xffffffff#64).truncate 32, (t0 >>> 32).truncate 32, (t1 &&& 0xffffffff#64).truncate 32, (t1 >>> 32).truncate 32⟩
  let s ← ccGenF h flag { old with k0 := k0, k1 := k1, ctr0 := (c0 >>> 4) <<< 4, ctr1 := c1 }
  some { s with ctr0 := c0 }

/-- `chacha_advance` (chacha.c:58-68) under the flag. -/
def ccAdvanceF (h : Host) (flag : Int) (s : ChaCha) (d0 d1 : U64) : Option ChaCha :=
  let idx := s.ctr0 % 16#64
  let c0 := s.ctr0 + d0
  let carry : U64 := if c0 < s.ctr0 then 1 else 0
  let c1 := s.ctr1 + (d1 + carry)
  let s := { s with ctr0 := c0, ctr1 := c1 }
  if (16#64 ≤ idx + d0 ∨ d1 ≠ 0) ∧ c0 % 16#64 ≠ 0 then ccGenF h flag s else some s

/-- Commands on a ChaCha generator. -/
inductive ChaChaCmd
  | seed (s0 s1 t0 t1 c0 c1 : U64)
  | next
  | advance (d0 d1 : U64)

/-- A command under the flag. -/
def chachaCmd (h : Host) (flag : Int) (s : ChaCha) : ChaChaCmd → Option (Option U32 × ChaCha)
  | .seed s0 s1 t0 t1 c0 c1 => (ccSeedF h flag s s0 s1 t0 t1 c0 c1).map fun s => (none, s)
  | .next => (ccNextF h flag s).map fun r => (some r.1, r.2)
  | .advance d0 d1 => (ccAdvanceF h flag s d0 d1).map fun s => (none, s)

def ChaChaCmd.isSeed : ChaChaCmd → Bool
  | .seed .. => true
  | _ => false

def chachaClass (h : Host) : SimdClass ChaCha ChaChaCmd U32 := ⟨h.simdCapable, h.useSimd, ChaChaCmd.isSeed, chachaCmd h⟩

end Verif
