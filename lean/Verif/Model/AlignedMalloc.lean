import Verif.Common.Basic
import Verif.Model.BlockCtr

/-! `aligned_malloc.h`: the allocator of the generator states that need alignment (SPECK128, AESCounter, ChaCha, SFMT,
dSFMT, PCG64, LCG128Mix).

Memory is a map from addresses to bytes with a list of live blocks; every access is checked to lie inside one live block, and
an access that does not is undefined (`none`). The system allocator is an oracle: it answers NULL or any address whose block
does not meet a live one (`Resp`, `Heap.fresh`). Addresses are 64 bit, pointers are 8 bytes, little-endian. -/

namespace Verif

/-- Memory and the live blocks (first address, size) of the system allocator. -/
structure Heap where
  mem : Nat → U8
  live : List (Nat × Nat)

/-- `k` bytes from `a` on lie inside one live block. -/
def Heap.ok (h : Heap) (a k : Nat) : Bool := h.live.any fun b => decide (b.1 ≤ a ∧ a + k ≤ b.1 + b.2)

/-- The system allocator may answer address `a` for `s` bytes: not NULL, the address behind the block representable, and off every block of
`l`. -/
def freshIn (l : List (Nat × Nat)) (a s : Nat) : Prop :=
  0 < a ∧ a + s < 2 ^ 64 ∧ ∀ b ∈ l, a + s ≤ b.1 ∨ b.1 + b.2 ≤ a

/-- An answer of the system allocator: NULL, or an address and the previous contents of the memory there. -/
abbrev Resp := Option (Nat × (Nat → U8))

/-- `PyMem_Malloc(s)`: NULL is address 0. -/
def pyMalloc (h : Heap) (r : Resp) (s : Nat) : Nat × Heap :=
  match r with
  | none => (0, h)
  | some (a, junk) =>
    (a, { mem := fun x => if a ≤ x ∧ x < a + s then junk x else h.mem x, live := (a, s) :: h.live })

/-- `PyMem_Realloc(base, s)` of a live block; undefined if `base` is not the start of one. -/
def pyRealloc (h : Heap) (base : Nat) (r : Resp) (s : Nat) : Option (Nat × Heap) :=
  match h.live.find? fun b => b.1 == base with
  | none => none
  | some b =>
    match r with
    | none => some (0, h)
    | some (a, junk) =>
      some (a, {
        mem := fun x => if a ≤ x ∧ x < a + s then (if x - a < min b.2 s then h.mem (base + (x - a)) else junk x) else h.mem x
        live := (a, s) :: h.live.erase b })

/-- `PyMem_Free(base)`; undefined if `base` is not the start of a live block. -/
def pyFree (h : Heap) (base : Nat) : Option Heap :=
  match h.live.find? fun b => b.1 == base with
  | none => none
  | some b => some { h with live := h.live.erase b }

/-- Store one byte. -/
def Heap.store (h : Heap) (a : Nat) (v : U8) : Option Heap :=
  if h.ok a 1 then some { h with mem := fun x => if x = a then v else h.mem x } else none

/-- Store a pointer: `*(p2 - 1) = p1`. -/
def Heap.storePtr (h : Heap) (a v : Nat) : Option Heap :=
  if h.ok a 8 then
    some { h with mem := fun x => if a ≤ x ∧ x < a + 8 then BitVec.ofNat 8 (v / 2 ^ (8 * (x - a))) else h.mem x }
  else none

/-- Load a pointer: `*(((void **)p) - 1)`. -/
def Heap.loadPtr (h : Heap) (a : Nat) : Option Nat :=
  if h.ok a 8 then some ((List.range 8).foldr (fun i v => (h.mem (a + i)).toNat + 2 ^ 8 * v) 0) else none

/-- `memset(p, 0, n)`. -/
def Heap.memset0 (h : Heap) (p n : Nat) : Option Heap :=
  if h.ok p n then some { h with mem := fun x => if p ≤ x ∧ x < p + n then 0 else h.mem x } else none

/-- `memmove(dst, src, n)`. -/
def Heap.memmove (h : Heap) (dst src n : Nat) : Option Heap :=
  if h.ok dst n && h.ok src n then
    some { h with mem := fun x => if dst ≤ x ∧ x < dst + n then h.mem (src + (x - dst)) else h.mem x }
  else none

/-- `offs = NPY_MEMALIGN - 1 + sizeof(void *)` (aligned_malloc.h:7, 12). -/
def alOffs : Nat := 64 - 1 + 8

/-- `n + offs` in `size_t`. -/
def alSize (n : Nat) : Nat := (n + alOffs) % 2 ^ 64

/-- `((Py_uintptr_t)(p1) + offs) & ~(NPY_MEMALIGN - 1)` (aligned_malloc.h:20, 28); the mask is an `int`, sign-extended. -/
def alPtr (p1 : Nat) : Nat := ((BitVec.ofNat 64 p1 + BitVec.ofNat 64 alOffs) &&& ~~~(63#64)).toNat

/-- `PyArray_realloc_aligned(p, n)` (aligned_malloc.h:9-32): the pointer returned (0 for NULL) and the heap. -/
def reallocAligned (h : Heap) (r : Resp) (p n : Nat) : Option (Nat × Heap) :=
  if p ≠ 0 then do
    let base ← h.loadPtr (p - 8)
    let (p1, h1) ← pyRealloc h base r (alSize n)
    if p1 = 0 then some (0, h1)
    else if p1 = base then some (p, h1)
    else
      let p2 := alPtr p1
      let oldOffs := p - base
      let h2 ← h1.memmove p2 (p1 + oldOffs) n
      let h3 ← h2.storePtr (p2 - 8) p1
      some (p2, h3)
  else do
    let (p1, h1) := pyMalloc h r (alSize n)
    if p1 = 0 then some (0, h1)
    else
      let p2 := alPtr p1
      let h2 ← h1.storePtr (p2 - 8) p1
      some (p2, h2)

/-- `PyArray_malloc_aligned(n)` (aligned_malloc.h:34-37). -/
def mallocAligned (h : Heap) (r : Resp) (n : Nat) : Option (Nat × Heap) := reallocAligned h r 0 n

/-- `PyArray_calloc_aligned(n, s)` (aligned_malloc.h:39-46). -/
def callocAligned (h : Heap) (r : Resp) (n s : Nat) : Option (Nat × Heap) := do
  let (p, h1) ← reallocAligned h r 0 (n * s % 2 ^ 64)
  if p = 0 then some (0, h1)
  else
    let h2 ← h1.memset0 p (n * s % 2 ^ 64)
    some (p, h2)

/-- `PyArray_free_aligned(p)` (aligned_malloc.h:48-52). `p - 8` wraps for NULL, which no live block contains. -/
def freeAligned (h : Heap) (p : Nat) : Option Heap := do
  let base ← h.loadPtr ((p + 2 ^ 64 - 8) % 2 ^ 64)
  pyFree h base

/-! Programs that use the allocator: handles are numbers, each holds a pointer and the size asked for. -/

/-- An operation of the program. `write` and `read` stay inside the size asked for, as C code must. -/
inductive MemOp where
  | malloc (i n : Nat) (r : Resp)
  | calloc (i n s : Nat) (r : Resp)
  | realloc (i n : Nat) (r : Resp)
  | write (i k : Nat) (v : U8)
  | free (i : Nat)

/-- The pointers of the program: pointer and size of each handle in use. -/
abbrev Handles := Nat → Option (Nat × Nat)

/-- One operation. The handle of an allocation is not in use before; a failed allocation leaves it so, a failed `realloc`
leaves the old block. Operations on handles not in use do nothing. -/
def memOp (h : Heap) (H : Handles) : MemOp → Option (Heap × Handles)
  | .malloc i n r =>
    match H i with
    | some _ => some (h, H)
    | none => do
      let (p, h1) ← mallocAligned h r n
      some (h1, if p = 0 then H else Function.update H i (some (p, n)))
  | .calloc i n s r =>
    match H i with
    | some _ => some (h, H)
    | none => do
      let (p, h1) ← callocAligned h r n s
      some (h1, if p = 0 then H else Function.update H i (some (p, n * s)))
  | .realloc i n r =>
    match H i with
    | none => some (h, H)
    | some (p, _) => do
      let (q, h1) ← reallocAligned h r p n
      some (h1, if q = 0 then H else Function.update H i (some (q, n)))
  | .write i k v =>
    match H i with
    | none => some (h, H)
    | some (p, n) => if k < n then do let h1 ← h.store (p + k) v; some (h1, H) else some (h, H)
  | .free i =>
    match H i with
    | none => some (h, H)
    | some (p, _) => do let h1 ← freeAligned h p; some (h1, Function.update H i none)

def memRun (h : Heap) (H : Handles) : List MemOp → Option (Heap × Handles)
  | [] => some (h, H)
  | o :: os => do let (h1, H1) ← memOp h H o; memRun h1 H1 os

end Verif
