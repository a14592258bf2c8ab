import Verif.Common.Basic
import Mathlib.Logic.Function.Iterate

/-! Drawing from a generator: a generator with core state `σ` and raw words of type `α` is a
function `σ → α × σ`. -/

namespace Verif

/-- State after one draw. -/
def stepOf {σ α : Type} (nx : σ → α × σ) (s : σ) : σ := (nx s).2

/-- The first `n` raw draws from `s`. -/
def drawN {σ α : Type} (nx : σ → α × σ) : Nat → σ → List α
  | 0, _ => []
  | n + 1, s => (nx s).1 :: drawN nx n (nx s).2

/-- The `n`-th draw (from 0) starting at `s`. -/
def nthDraw {σ α : Type} (nx : σ → α × σ) (n : Nat) (s : σ) : α := (nx ((stepOf nx)^[n] s)).1

/-- State after `n` draws of a generator whose draw may be undefined (`none`). -/
def runO {σ α : Type} (nx : σ → Option (α × σ)) : Nat → σ → Option σ
  | 0, s => some s
  | n + 1, s => (nx s).bind fun r => runO nx n r.2

/-- The `n`-th draw (from 0) of such a generator. -/
def nthO {σ α : Type} (nx : σ → Option (α × σ)) (n : Nat) (s : σ) : Option α :=
  (runO nx n s).bind fun t => (nx t).map Prod.fst

/-- A 64-bit generator together with the cached upper half used by its 32-bit draws: the
fields `has_uint32` and `uinteger` that all 64-bit generators of the package carry. -/
structure Buf (σ : Type) where
  core : σ
  has : Bool
  uinteger : U32
  deriving DecidableEq, Repr

namespace Buf
variable {σ : Type} (nx : σ → U64 × σ)

/-- 64-bit draw: the cached half is not touched. E.g. randomgen/src/pcg64/pcg64-v2.h:107-115;
same shape in all 64-bit generators. -/
def next64 (b : Buf σ) : U64 × Buf σ :=
  let r := nx b.core
  (r.1, { b with core := r.2 })

/-- 32-bit draw. The same text occurs in randomgen/src/pcg64/pcg64-v2.h:117-139, lcg128mix.h:87-96,
romu/romu.h:78-100, threefry/threefry.h:824-836 (W = 64), philox/philox.h:451-463 (W = 64),
squares/squares.h:48-58, sfc/sfc.h:75-85, xoroshiro128/xoroshiro128.h:53-79,
speck-128/speck-128.h:124-134, mt64/mt64.h:107-117, xoshiro512/xoshiro512.h:47-59,
xorshift1024/xorshift1024.h:25-35, jsf/jsf.h:94-104, splitmix64/splitmix64.h:20-30,
aesctr/aesctr.h:116-126, efiix64/efiix64.h:48-58, sfmt/sfmt.h:336-347,
xoshiro256/xoshiro256.h:38-48, lxm/lxm.h:62-72. -/
def next32 (b : Buf σ) : U32 × Buf σ :=
  if b.has then (b.uinteger, { b with has := false })
  else
    let r := nx b.core
    (r.1.truncate 32, { core := r.2, has := true, uinteger := (r.1 >>> 32).truncate 32 })

/-- Double draw of a 64-bit generator, as the numerator `m` of `m * 2^-53`:
`(next64(state) >> 11) * (1.0 / 9007199254740992.0)` (randomgen/common.pxd `uint64_to_double`
and the `*_next_double` functions). -/
def nextDouble (b : Buf σ) : Nat × Buf σ :=
  let r := nx b.core
  ((r.1 >>> 11).toNat, { b with core := r.2 })

/-- `_reset_state_variables` of the Cython classes: forget the cached half. -/
def reset (b : Buf σ) : Buf σ := { b with has := false, uinteger := 0 }

end Buf

/-- Kinds of draws offered through the `bitgen_t` interface. -/
inductive Op where
  | u32 | u64 | dbl
  deriving DecidableEq, Repr

/-- Results of draws. -/
inductive Out where
  | o32 (v : U32) | o64 (v : U64) | odbl (m : Nat)
  deriving DecidableEq, Repr

namespace Buf
variable {σ : Type} (nx : σ → U64 × σ)

/-- One draw of the given kind. -/
def op (o : Op) (b : Buf σ) : Out × Buf σ :=
  match o with
  | .u32 => ((Out.o32 (next32 nx b).1), (next32 nx b).2)
  | .u64 => ((Out.o64 (next64 nx b).1), (next64 nx b).2)
  | .dbl => ((Out.odbl (nextDouble nx b).1), (nextDouble nx b).2)

/-- Outputs of a finite sequence of draws. -/
def run : List Op → Buf σ → List Out × Buf σ
  | [], b => ([], b)
  | o :: os, b =>
    let r := op nx o b
    let rs := run os r.2
    (r.1 :: rs.1, rs.2)

end Buf

/-! Elementary facts -/

section
variable {σ α : Type} (nx : σ → α × σ)

theorem drawN_length (n : Nat) (s : σ) : (drawN nx n s).length = n := by
  induction n generalizing s with
  | zero => rfl
  | succ n ih => simp [drawN, ih]

theorem drawN_getElem (n : Nat) (s : σ) (i : Nat) (h : i < (drawN nx n s).length) :
    (drawN nx n s)[i] = nthDraw nx i s := by
  induction n generalizing s i with
  | zero => simp [drawN] at h
  | succ n ih =>
    cases i with
    | zero => simp [drawN, nthDraw]
    | succ i => simp [drawN, ih, nthDraw, stepOf]

theorem drawN_add (m n : Nat) (s : σ) :
    drawN nx (m + n) s = drawN nx m s ++ drawN nx n ((stepOf nx)^[m] s) := by
  induction m generalizing s with
  | zero => simp [drawN]
  | succ m ih => rw [Nat.add_right_comm]; simp [drawN, ih, stepOf]
end

end Verif
