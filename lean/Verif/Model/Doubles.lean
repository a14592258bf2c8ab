import Verif.Common.Basic

/-! Conversion of random bits to floating point. Every conversion is represented by the integer
numerator `m` of the exact value `m / 2^k`. For `k = 53` the intermediate results are integers
below `2^53`, and multiplication by `2^-53` only changes the exponent, so IEEE binary64 arithmetic
is exact; likewise for the long double formats. -/

namespace Verif.Doubles

/-- `(x >> 11) * (1.0 / 9007199254740992.0)`, `uint64_to_double` in randomgen/common.pxd and the
`*_next_double` functions of the 64-bit generators; numerator over `2^53`. -/
def dbl64 (x : U64) : Nat := (x >>> 11).toNat

/-- `a = r0 >> 5, b = r1 >> 6; (a * 67108864.0 + b) / 9007199254740992.0`:
randomgen/src/pcg32/pcg32.h:73-77, mt19937/mt19937.h:53-56, tyche/tyche.h:69-73 and 101-105,
squares/squares.h:69-73, jsf/jsf.h:113-117, philox/philox.h:475-479, threefry/threefry.h:848-852,
randomgen/wrapper.pyx:31-35; numerator over `2^53`. -/
def dbl32 (r0 r1 : U32) : Nat := (r0 >>> 5).toNat * 67108864 + (r1 >>> 6).toNat

/-- `rg_next_long_double`, randomgen/src/distributions/rg-distributions.c:27-48, x87 extended:
numerator over `2^64`. -/
def ldblX87 (x : U64) : Nat := x.toNat

/-- The same, IBM double-double: numerator over `2^106`. -/
def ldblIbm (x y : U64) : Nat := (x >>> 11).toNat * 9007199254740992 + (y >>> 11).toNat

/-- The same, IEEE binary128: numerator over `2^113`. -/
def ldblQuad (x y : U64) : Nat := (x >>> 7).toNat * 72057594037927936 + (y >>> 8).toNat

end Verif.Doubles
