import Verif.Common.Basic
import Verif.Model.BlockCtr

/-! `entropy.c` and `random_entropy` of `entropy.pyx`. The operating system is an oracle. The `_test_sentinel` of the tests is not
set, memory is not exhausted, the machine is little-endian, `int` has 32 bits and `size_t` 64. -/

namespace Verif

/-- `entropy_hash_32` (entropy.c:113-121). -/
def entropyHash32 (key : U32) : U32 :=
  let key := key + ~~~(key <<< 15)
  let key := key ^^^ (key >>> 10)
  let key := key + (key <<< 3)
  let key := key ^^^ (key >>> 6)
  let key := key + ~~~(key <<< 11)
  key ^^^ (key >>> 16)

/-- `entropy_hash_64` (entropy.c:123-132). -/
def entropyHash64 (key : U64) : U64 :=
  let key := (~~~key) + (key <<< 21)
  let key := key ^^^ (key >>> 24)
  let key := (key + (key <<< 3)) + (key <<< 8)
  let key := key ^^^ (key >>> 14)
  let key := (key + (key <<< 2)) + (key <<< 4)
  let key := key ^^^ (key >>> 28)
  key + (key <<< 31)

/-- The clocks read by one call of `entropy_randombytes`, each converted to `uint32_t`. -/
structure Tick where
  sec : U32
  usec : U32
  clk : U32

/-- `entropy_randombytes` on Unix (entropy.c:134-140). -/
def entropyRandombytes (pid : U32) (t : Tick) : U32 :=
  entropyHash32 pid ^^^ entropyHash32 t.sec ^^^ entropyHash32 t.usec ^^^ entropyHash32 t.clk

/-- The bytes of a word in memory. -/
def bytes32 (x : U32) : List U8 := [x.truncate 8, (x >>> 8).truncate 8, (x >>> 16).truncate 8, (x >>> 24).truncate 8]

/-- The words of a buffer. -/
def words32 : List U8 → List U32
  | a :: b :: c :: d :: l => (d ++ c ++ b ++ a) :: words32 l
  | _ => []

/-- `entropy_fallback_getbytes(dest, size)` (entropy.c:155-166): the bytes stored, `tick i` being the clocks at its
`i`-th call of `entropy_randombytes`. `hashes = (int)size`. A negative count makes `malloc` fail, and a block of
fewer than `size` bytes is read past its end: undefined. -/
def entropyFallback (pid : U32) (tick : Nat → Tick) (size : Nat) : Option (List U8) :=
  let hashes : Int := (BitVec.ofNat 32 size).toInt
  if 0 ≤ hashes ∧ (size : Int) ≤ 4 * hashes then
    some ((((List.range hashes.toNat).map fun i => entropyRandombytes pid (tick i)).flatMap bytes32).take size)
  else none

/-- Answers of Unix: the descriptor of `/dev/urandom`, the bytes `read` stores (`none` for an error), and whether `close`
succeeds. -/
structure UnixAns where
  opened : Option Nat
  read : Option (List U8)
  closed : Bool

/-- Answers of Windows: whether a provider is acquired, and the bytes it generates. -/
structure WinAns where
  acquired : Bool
  gen : Option (List U8)

inductive SysAns
  | unix (a : UnixAns)
  | win (a : WinAns)

/-- What the system may answer to a request of `size` bytes: a descriptor not yet open, at most (Windows: exactly) `size` bytes. -/
def SysAns.legal (fds : List Nat) (size : Nat) : SysAns → Prop
  | .unix a => (∀ fd ∈ a.opened, fd ∉ fds) ∧ ∀ l ∈ a.read, l.length ≤ size
  | .win a => ∀ l ∈ a.gen, l.length = size

/-- `entropy_getbytes(dest, dest.length)` (entropy.c:79-87 on Unix, 91-108 on Windows): whether it reports success, the
buffer and the open descriptors afterwards. A descriptor whose `close` fails is taken to be closed, as on Linux. -/
def entropyGetbytes (fds : List Nat) (dest : List U8) : SysAns → Bool × List U8 × List Nat
  | .unix a =>
    match a.opened with
    | none => (false, dest, fds)
    | some fd =>
      match a.read with
      | none => (false, dest, fd :: fds)
      | some l =>
        let dest' := l ++ dest.drop l.length
        if l.length < dest.length then (false, dest', fd :: fds) else (a.closed, dest', fds)
  | .win a =>
    if !a.acquired then (true, dest, fds)
    else
      match a.gen with
      | none => (false, dest, fds)
      | some l => (true, l, fds)

/-- The argument `size` of `random_entropy`. -/
inductive EntSize
  | none
  | int (n : Int)
  | tuple (l : List Int)

/-- A Python integer stored into a `Py_ssize_t`. -/
def toSsize (n : Int) : Except PyErr Int := if -2 ^ 63 ≤ n ∧ n < 2 ^ 63 then .ok n else .error .overflowError

/-- `compute_numel` (entropy.pyx:20-27). -/
def computeNumel : EntSize → Except PyErr Int
  | .none => .ok 0
  | .int n => toSsize n
  | .tuple l => l.foldl (fun acc k => acc.bind fun n => toSsize (n * k)) (.ok 1)

/-- What `random_entropy` returns. -/
inductive EntOut
  | scalar (x : U32)
  | array (shape : List Int) (xs : List U32)

/-- `.reshape(size)` of the words: refused for a negative entry. (All entries nonnegative, the product is the number of words.) -/
def entReshape (xs : List U32) : EntSize → Except PyErr EntOut
  | .none => .ok (.scalar (xs.headD 0))
  | .int n => .ok (.array [n] xs)
  | .tuple l => if ∀ k ∈ l, 0 ≤ k then .ok (.array l xs) else .error .valueError

/-- The buffer to fill: 4 bytes of a zero word for no size, else `4 * n` zero bytes (entropy.pyx:164-176). `np.zeros` refuses negative and too
large counts; `&randoms[0]` of an empty array raises, bounds checking being on. -/
def entBuffer (size : EntSize) : Except PyErr Nat :=
  match size with
  | .none => .ok 4
  | _ => (computeNumel size).bind fun n =>
    if n < 0 ∨ 2 ^ 63 ≤ 4 * n then .error .valueError
    else if n = 0 then .error .indexError
    else .ok (4 * n).toNat

/-- `random_entropy(size, source)` (entropy.pyx:124-196): the result and the open descriptors; `none` is undefined. The warning of
`auto` is left out. -/
def randomEntropy (pid : U32) (tick : Nat → Tick) (fds : List Nat) (a : SysAns) (size : EntSize) (source : String) :
    Option (Except PyErr EntOut × List Nat) :=
  if source ≠ "system" ∧ source ≠ "fallback" ∧ source ≠ "auto" then some (.error .valueError, fds)
  else
    match entBuffer size with
    | .error e => some (.error e, fds)
    | .ok sz =>
      if source = "fallback" then
        (entropyFallback pid tick sz).map fun bs => (entReshape (words32 bs) size, fds)
      else
        let r := entropyGetbytes fds (List.replicate sz 0) a
        if r.1 then some (entReshape (words32 r.2.1) size, r.2.2)
        else if source = "auto" then
          (entropyFallback pid tick sz).map fun bs => (entReshape (words32 bs) size, r.2.2)
        else some (.error .runtimeError, r.2.2)

end Verif
