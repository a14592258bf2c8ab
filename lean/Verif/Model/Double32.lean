import Verif.Common.Draw
import Verif.Model.Doubles

/-! Doubles drawn from a 32-bit generator: two successive draws. The two draws are initialisers of one declaration, so that the first is
complete before the second begins. -/

namespace Verif.Doubles

/-- `*_next_double` of the 32-bit generators: randomgen/src/pcg32/pcg32.h:73-77, tyche/tyche.h:69-73 and 101-105, squares/squares.h:69-73;
numerator over `2^53`. -/
def dblCalls {σ : Type} (nx : σ → U32 × σ) (s : σ) : Nat × σ :=
  let r0 := nx s
  let r1 := nx r0.2
  (dbl32 r0.1 r1.1, r1.2)

/-- The same for generators whose draw may be undefined: randomgen/src/mt19937/mt19937.h:53-56, jsf/jsf.h:113-117. -/
def dblCallsO {σ : Type} (nx : σ → Option (U32 × σ)) (s : σ) : Option (Nat × σ) :=
  (nx s).bind fun r0 => (nx r0.2).bind fun r1 => some (dbl32 r0.1 r1.1, r1.2)

/-- `*_next_double` of the 64-bit generators whose draw may be undefined: randomgen/mt64.pyx:16-17, aes.pyx:14-15, speck128.pyx:18-19,
src/philox/philox.h:470-473, threefry/threefry.h:843-846; numerator over `2^53`. -/
def dbl64O {σ : Type} (nx : σ → Option (U64 × σ)) (s : σ) : Option (Nat × σ) := (nx s).map fun r => (dbl64 r.1, r.2)

/-- `*_next32` of these generators: randomgen/src/mt64/mt64.h:107-117, aesctr/aesctr.h:116-126, speck-128/speck-128.h:124-134,
philox/philox.h:451-463 and threefry/threefry.h:824-836 with `W = 64`. -/
def next32O {σ : Type} (nx : σ → Option (U64 × σ)) (b : Buf σ) : Option (U32 × Buf σ) :=
  if b.has then some (b.uinteger, { b with has := false })
  else (nx b.core).map fun r => (r.1.truncate 32, { core := r.2, has := true, uinteger := ((r.1 : U64) >>> 32).truncate 32 })

end Verif.Doubles
