import Verif.Common.Draw

/-! The Python-level layer shared by all generators: `random_raw`, `_benchmark`, `uintegers`,
shape broadcasting, the adapters of `UserBitGenerator` and the pickle registries. -/

namespace Verif

/-! ### Sizes and raw draws -/

/-- The `size` argument: `None`, an integer, or a tuple of integers. -/
inductive Size where
  | none
  | int (n : Int)
  | tup (dims : List Int)
  deriving DecidableEq, Repr

/-- Errors raised by these functions. -/
inductive ApiErr where
  | value | type
  deriving DecidableEq, Repr

/-- `np.PyArray_SIZE(np.empty(size, dtype))`: a negative dimension is refused by `np.empty`
(ValueError), otherwise the number of elements is the product of the dimensions. Memory limits are
not modelled. -/
def npEmptySize : List Int → Except ApiErr Nat
  | dims => if dims.any (· < 0) then .error .value else .ok (dims.foldl (fun a d => a * d.toNat) 1)

/-- `n = np.asarray(size).sum()` assigned to a `Py_ssize_t` (randomgen/common.pyx:237): an empty
tuple gives a float array, whose sum has no `__index__` (TypeError). -/
def npAsarraySum : List Int → Except ApiErr Int
  | [] => .error .type
  | dims => .ok (dims.foldl (· + ·) 0)

/-- What `random_raw` returns. -/
inductive RawOut where
  | nothing
  | scalar (v : U64)
  | array (shape : List Int) (data : List U64)
  deriving DecidableEq, Repr

/-- The loop `for i in range(n): data[i] = next(state)` over a C integer `n`: the values written, in
order, and the final state. A negative `n` gives no iteration. -/
def fillLoop {σ α : Type} (nx : σ → α × σ) : Nat → σ → List α × σ
  | 0, s => ([], s)
  | n + 1, s =>
    let r := nx s
    let rest := fillLoop nx n r.2
    (r.1 :: rest.1, rest.2)

/-- `random_raw(bitgen, lock, size, output)`, randomgen/common.pyx:199-254. On an error no draw has
been made. -/
def randomRaw {σ : Type} (nx : σ → U64 × σ) (size : Size) (output : Bool) (s : σ) :
    Except ApiErr RawOut × σ :=
  if output = false then
    match size with
    | .none => (.ok .nothing, (nx s).2)
    | .int n => (.ok .nothing, (fillLoop nx n.toNat s).2)
    | .tup dims =>
      match npAsarraySum dims with
      | .error e => (.error e, s)
      | .ok n => (.ok .nothing, (fillLoop nx n.toNat s).2)
  else
    match size with
    | .none => let r := nx s; (.ok (.scalar r.1), r.2)
    | .int n =>
      match npEmptySize [n] with
      | .error e => (.error e, s)
      | .ok k => let r := fillLoop nx k s; (.ok (.array [n] r.1), r.2)
    | .tup dims =>
      match npEmptySize dims with
      | .error e => (.error e, s)
      | .ok k => let r := fillLoop nx k s; (.ok (.array dims r.1), r.2)

/-- Result of `uintegers`. -/
inductive UintOut where
  | scalar64 (v : U64) | scalar32 (v : U32)
  | array64 (shape : List Int) (data : List U64) | array32 (shape : List Int) (data : List U32)
  deriving DecidableEq, Repr

/-- The dimensions meant by a `size` that is not `None`. -/
def Size.dims : Size → List Int
  | .none => []
  | .int n => [n]
  | .tup d => d

/-- `ExtendedGenerator.uintegers(size, bits)`, randomgen/generator.pyx:236-292. -/
def uintegers {σ : Type} (nx64 : σ → U64 × σ) (nx32 : σ → U32 × σ) (size : Size) (bits : Int)
    (s : σ) : Except ApiErr UintOut × σ :=
  if bits = 64 then
    match size with
    | .none => let r := nx64 s; (.ok (.scalar64 r.1), r.2)
    | size =>
      match npEmptySize size.dims with
      | .error e => (.error e, s)
      | .ok k => let r := fillLoop nx64 k s; (.ok (.array64 size.dims r.1), r.2)
  else if bits = 32 then
    match size with
    | .none => let r := nx32 s; (.ok (.scalar32 r.1), r.2)
    | size =>
      match npEmptySize size.dims with
      | .error e => (.error e, s)
      | .ok k => let r := fillLoop nx32 k s; (.ok (.array32 size.dims r.1), r.2)
  else (.error .value, s)

/-- `benchmark`, randomgen/common.pyx:183-196; doubles are not returned, only the state matters. -/
def benchmark {σ δ : Type} (nx64 : σ → U64 × σ) (nxd : σ → δ × σ) (cnt : Int) (method : String)
    (s : σ) : Except ApiErr Unit × σ :=
  if method = "uint64" then (.ok (), (fillLoop nx64 cnt.toNat s).2)
  else if method = "double" then (.ok (), (fillLoop nxd cnt.toNat s).2)
  else (.error .value, s)

/-! ### Shape broadcasting -/

/-- The loop of `broadcast_shape` over the aligned dimensions, randomgen/generator.pyx:55-62; `shape`
is the list under construction. -/
def bcastLoop (strict : Bool) : List (Nat × Nat) → List Nat → Bool × List Nat
  | [], shape => (true, shape)
  | (xs, ys) :: rest, shape =>
    let cond := xs == ys
    let cond := if strict then cond else cond || (min xs ys == 1)
    if cond then bcastLoop strict rest (shape ++ [max xs ys]) else (false, shape)

/-- `broadcast_shape(x, y, strict)`, randomgen/generator.pyx:41-63. -/
def broadcastShape (x y : List Nat) (strict : Bool) : Bool × List Nat :=
  if x = [] ∨ y = [] then
    if x.length > y.length then (true, x) else (true, y)
  else
    let lx := x.length
    let ly := y.length
    if lx > ly then bcastLoop strict ((x.drop (lx - ly)).zip y) (x.take (lx - ly))
    else bcastLoop strict (x.zip (y.drop (ly - lx))) (y.take (ly - lx))

/-! ### UserBitGenerator -/

/-- `raw_32_to_64`, randomgen/wrapper.pyx:12-15. A Python callable returns a Python integer; Python
evaluates the operands from left to right. -/
def raw32To64 {σ : Type} (f : σ → Nat × σ) (s : σ) : Nat × σ :=
  let a := f s
  let b := f a.2
  ((a.1 <<< 32) ||| b.1, b.2)

/-- `raw_64_to_32`, randomgen/wrapper.pyx:18-21. -/
def raw64To32 {σ : Type} (f : σ → Nat × σ) (s : σ) : Nat × σ :=
  let a := f s
  (a.1 >>> 32, a.2)

/-- `raw_64_to_double`, randomgen/wrapper.pyx:24-27, as the numerator over `2^53` (the integer is
below `2^53` for 64-bit values, so the conversion and the division are exact). -/
def raw64ToDouble {σ : Type} (f : σ → Nat × σ) (s : σ) : Nat × σ :=
  let a := f s
  (a.1 >>> 11, a.2)

/-- `raw_32_to_double`, randomgen/wrapper.pyx:30-36, as the numerator over `2^53`; exact for 32-bit
values. -/
def raw32ToDouble {σ : Type} (f : σ → Nat × σ) (s : σ) : Nat × σ :=
  let a := f s
  let b := f a.2
  ((a.1 >>> 5) * 67108864 + (b.1 >>> 6), b.2)

/-- The four functions given to `UserBitGenerator.__init__`, `none` for `None`. -/
structure UserFuncs (σ : Type) where
  raw : σ → Nat × σ
  bits : Int
  next64 : Option (σ → Nat × σ)
  next32 : Option (σ → Nat × σ)
  nextDouble : Option (σ → Nat × σ)

/-- Conversion of the Python result by `ctypes.CFUNCTYPE(c_uint64, …)` resp. `c_uint32`: the low
bits. -/
def ctypesRet {σ : Type} (w : Nat) (f : σ → Nat × σ) (s : σ) : BitVec w × σ :=
  let r := f s
  (BitVec.ofNat w r.1, r.2)

/-- `next_raw` pointer, randomgen/wrapper.pyx:114, :162. -/
def UserFuncs.bgRaw {σ : Type} (u : UserFuncs σ) : σ → U64 × σ := ctypesRet 64 u.raw

/-- `_setup_64`, randomgen/wrapper.pyx:170-177. -/
def UserFuncs.bg64 {σ : Type} (u : UserFuncs σ) : σ → U64 × σ :=
  match u.next64 with
  | some f => ctypesRet 64 f
  | none => if u.bits = 64 then ctypesRet 64 u.raw else ctypesRet 64 (raw32To64 u.raw)

/-- `_setup_32`, randomgen/wrapper.pyx:179-186. When `bits == 32` the 64-bit returning `next_raw`
pointer itself is called as a function returning `uint32_t`: the low half of the result register. -/
def UserFuncs.bg32 {σ : Type} (u : UserFuncs σ) : σ → U32 × σ :=
  match u.next32 with
  | some f => ctypesRet 32 f
  | none => if u.bits = 32 then ctypesRet 32 u.raw else ctypesRet 32 (raw64To32 u.raw)

/-- `_setup_double`, randomgen/wrapper.pyx:188-195. -/
def UserFuncs.bgDouble {σ : Type} (u : UserFuncs σ) : σ → Nat × σ :=
  match u.nextDouble with
  | some f => f
  | none => if u.bits = 64 then raw64ToDouble u.raw else raw32ToDouble u.raw

/-! ### Pickle registries -/

/-- The generator classes of the package that the registries mention. -/
inductive Cls where
  | AESCounter | ChaCha | DSFMT | EFIIX64 | HC128 | JSF | LCG128Mix | LXM | MT19937 | MT64 | PCG32
  | PCG64 | PCG64DXSM | Philox | RDRAND | Romu | SFC64 | SFMT | SPECK128 | Squares | ThreeFry
  | Tyche | UserBitGenerator | Xoroshiro128 | Xorshift1024 | Xoshiro256 | Xoshiro512
  deriving DecidableEq, Repr

namespace Cls

/-- All of them. -/
def all : List Cls :=
  [AESCounter, ChaCha, DSFMT, EFIIX64, HC128, JSF, LCG128Mix, LXM, MT19937, MT64, PCG32, PCG64,
   PCG64DXSM, Philox, RDRAND, Romu, SFC64, SFMT, SPECK128, Squares, ThreeFry, Tyche,
   UserBitGenerator, Xoroshiro128, Xorshift1024, Xoshiro256, Xoshiro512]

/-- `cls.__name__`. -/
def name : Cls → String
  | AESCounter => "AESCounter" | ChaCha => "ChaCha" | DSFMT => "DSFMT" | EFIIX64 => "EFIIX64"
  | HC128 => "HC128" | JSF => "JSF" | LCG128Mix => "LCG128Mix" | LXM => "LXM"
  | MT19937 => "MT19937" | MT64 => "MT64" | PCG32 => "PCG32" | PCG64 => "PCG64"
  | PCG64DXSM => "PCG64DXSM" | Philox => "Philox" | RDRAND => "RDRAND" | Romu => "Romu"
  | SFC64 => "SFC64" | SFMT => "SFMT" | SPECK128 => "SPECK128" | Squares => "Squares"
  | ThreeFry => "ThreeFry" | Tyche => "Tyche" | UserBitGenerator => "UserBitGenerator"
  | Xoroshiro128 => "Xoroshiro128" | Xorshift1024 => "Xorshift1024" | Xoshiro256 => "Xoshiro256"
  | Xoshiro512 => "Xoshiro512"

/-- `cls.__module__`: the module imported in randomgen/_pickle.py:5-29 and _register.py:3-27. -/
def mod : Cls → String
  | AESCounter => "randomgen.aes" | ChaCha => "randomgen.chacha" | DSFMT => "randomgen.dsfmt"
  | EFIIX64 => "randomgen.efiix64" | HC128 => "randomgen.hc128" | JSF => "randomgen.jsf"
  | LCG128Mix => "randomgen.pcg64" | LXM => "randomgen.lxm" | MT19937 => "randomgen.mt19937"
  | MT64 => "randomgen.mt64" | PCG32 => "randomgen.pcg32" | PCG64 => "randomgen.pcg64"
  | PCG64DXSM => "randomgen.pcg64" | Philox => "randomgen.philox" | RDRAND => "randomgen.rdrand"
  | Romu => "randomgen.romu" | SFC64 => "randomgen.sfc" | SFMT => "randomgen.sfmt"
  | SPECK128 => "randomgen.speck128" | Squares => "randomgen.squares"
  | ThreeFry => "randomgen.threefry" | Tyche => "randomgen.tyche"
  | UserBitGenerator => "randomgen.wrapper" | Xoroshiro128 => "randomgen.xoroshiro128"
  | Xorshift1024 => "randomgen.xorshift1024" | Xoshiro256 => "randomgen.xoshiro256"
  | Xoshiro512 => "randomgen.xoshiro512"

/-- `fully_qualified_name`, randomgen/common.pyx:487-502. This is the value stored under
`"bit_generator"` in the state of an instance of the class. -/
def qualified (c : Cls) : String := c.mod ++ "." ++ c.name

end Cls

/-- A Python dict from names to classes, in insertion order. -/
abbrev Registry (κ : Type) := List (String × κ)

namespace Registry
variable {κ : Type}

/-- `d.get(k)`. -/
def get? : Registry κ → String → Option κ
  | [], _ => none
  | (k', v) :: r, k => if k' = k then some v else get? r k

/-- `d[k] = v`: replaces the value of an existing key, else appends. -/
def set : Registry κ → String → κ → Registry κ
  | [], k, v => [(k, v)]
  | (k', v') :: r, k, v => if k' = k then (k', v) :: r else (k', v') :: set r k v

end Registry

/-- The literal dict of randomgen/_pickle.py:31-58: `UserBitGenerator` is not in it. -/
def pickleBase : Registry Cls :=
  (Cls.all.filter (· ≠ .UserBitGenerator)).map fun c => (c.name, c)

/-- `BitGenerators` of randomgen/_pickle.py:31-62: the loop goes over a copy of the values. -/
def pickleRegistry : Registry Cls :=
  (pickleBase.map Prod.snd).foldl (fun d c => d.set c.qualified c) pickleBase

/-- The name given to the constructor helpers: `str` or `bytes`. -/
inductive PyName where
  | str (s : String)
  | bytes (b : List (BitVec 8))
  deriving DecidableEq, Repr

/-- `_decode`, randomgen/_pickle.py:78-82: ASCII only, anything else raises UnicodeDecodeError (a
ValueError). -/
def decodeName : PyName → Except ApiErr String
  | .str s => .ok s
  | .bytes b =>
    if b.all (fun x => x.toNat < 128) then .ok (String.ofList (b.map fun x => Char.ofNat x.toNat))
    else .error .value

/-- `_get_bitgenerator`, randomgen/_pickle.py:65-75. -/
def getBitGenerator (s : String) : Except ApiErr Cls :=
  match pickleRegistry.get? s with
  | some c => .ok c
  | none => .error .value

/-- The class instantiated by `__bit_generator_ctor` and `__extended_generator_ctor`,
randomgen/_pickle.py:85-131. -/
def ctorClass (n : PyName) : Except ApiErr Cls := do getBitGenerator (← decodeName n)

/-- One iteration of the loop of randomgen/_register.py:59-64 on NumPy's registry, whose values are
of a type `κ` containing the classes of this package. -/
def registerOne {κ : Type} (inj : Cls → κ) (d : Registry κ) (c : Cls) : Registry κ :=
  let d := match d.get? c.name with
    | none => d.set c.name (inj c)
    | some _ => d
  d.set c.qualified (inj c)

/-- The order of randomgen/_register.py:29-57 differs from `Cls.all` only in the place of
`LCG128Mix`. -/
def registerOrder : List Cls :=
  [.AESCounter, .ChaCha, .DSFMT, .EFIIX64, .HC128, .JSF, .LXM, .MT19937, .MT64, .PCG32, .PCG64,
   .PCG64DXSM, .LCG128Mix, .Philox, .RDRAND, .Romu, .SFC64, .SFMT, .SPECK128, .Squares, .ThreeFry,
   .Tyche, .UserBitGenerator, .Xoroshiro128, .Xorshift1024, .Xoshiro256, .Xoshiro512]

/-- NumPy's registry after `import randomgen._register`, randomgen/_register.py:59-64. -/
def registerAll {κ : Type} (inj : Cls → κ) (d : Registry κ) : Registry κ :=
  registerOrder.foldl (registerOne inj) d

/-! ### Two calls in one expression -/

/-- `f(state) << 32 | f(state)` or `f(state) | f(state) << 32` in C: both operands change the state
and the standard does not fix their order. `hiFirst = true` is the execution in which the operand
giving the high word is evaluated first. -/
def twoCalls {σ : Type} (nx : σ → U32 × σ) (hiFirst : Bool) (s : σ) : U64 × σ :=
  let a := nx s
  let b := nx a.2
  if hiFirst then (a.1.setWidth 64 <<< 32 ||| b.1.setWidth 64, b.2)
  else (b.1.setWidth 64 <<< 32 ||| a.1.setWidth 64, b.2)

/-- The same for a generator with undefined states. -/
def twoCallsO {σ : Type} (nx : σ → Option (U32 × σ)) (hiFirst : Bool) (s : σ) :
    Option (U64 × σ) := do
  let a ← nx s
  let b ← nx a.2
  if hiFirst then return (a.1.setWidth 64 <<< 32 ||| b.1.setWidth 64, b.2)
  else return (b.1.setWidth 64 <<< 32 ||| a.1.setWidth 64, b.2)

end Verif
