# Formal model of randomgen: design

This project proves properties of `bashtage/randomgen` (source in `/repo`) in Lean 4:
the bit generators, the seed sequence, the Python layer around them (state setters,
re-seeding, pickling, sizes and broadcasting) and the samplers of `ExtendedGenerator`.
The code is never compiled or run here. The only tie between code and theorem is the
model, so each definition cites the file and lines it was transcribed from.

* `properties.jsonl` lists the properties (C01, C02, ...).
* `MANIFEST.json` gives for each property its status and the exact theorem names.
* `AXIOMS.txt` lists the axioms every theorem of the manifest depends on.
* `seeded/LOG.jsonl` records the trials with wrong programs (see "Wrong programs").

## Trusted base

* The Lean 4.33.0 kernel, and the Mathlib modules that are imported one by one.
* Axioms: only `propext`, `Classical.choice`, `Quot.sound`. No axioms are added; there is
  no `sorry`, `native_decide`, `bv_decide`, `implemented_by` or `unsafe`.
* Certificates (polynomials over GF(2), prime factors, jump tables) are produced by the
  Python scripts in `tools/`, which are not trusted: every certificate is checked by
  kernel evaluation (`decide +kernel` on closed decidable statements, which adds no
  axiom).
* The transcription from C and Cython to Lean, and in it these decisions:
  * `uint64_t`, `uint32_t`, `__uint128_t` are `BitVec 64/32/128` with wrap-around; Python
    integers are `Int` or `Nat`;
  * a C function that changes `*state` becomes a function returning the new state;
  * loops become structural recursion, folds or, where they may not end, recursion with
    fuel, with `none` for "has not ended";
  * Python values given to a setter are a datatype (`PyVal`), conversions that raise are
    explicit errors, and a setter is a sequence of stores, so that a setter that raises
    half-way leaves the earlier stores in place (`SetM`);
  * accesses outside an array, shifts by the word width, signed overflow and unspecified
    evaluation order are explicit outcomes (`Option`, an error value, or a set of allowed
    results), never silently totalised;
  * a double `m * 2^-53` is represented by its integer numerator `m`. Multiplication by a
    power of two is exact, so nothing is lost;
  * the samplers of `ExtendedGenerator` are modelled over the real numbers: their theorems
    say nothing about rounding.

### Not modelled

* CPython's object protocol beyond what the setters, pickling and `size` arguments need;
  NumPy's internals (its broadcasting rule and the refusal of a too long mask are
  modelled as documented by NumPy); memory limits; free-threaded builds of CPython (`Threads` has a GIL). The operating system is an oracle: it answers `malloc`, `open`,
  `read`, `close`, `rdrand` and the clock as it likes, within their documentation.
* NumPy's distribution functions (`random_standard_normal`, `random_chisquare`): an
  oracle indexed by call number, with hypotheses on its first two moments where a theorem
  speaks of expected values. `numpy.linalg` decompositions: any result that satisfies the
  defining equation.
* ARM NEON instructions, the MSVC intrinsics for 128-bit arithmetic, big-endian machines.
  SSE code is modelled for SPECK128, ChaCha, SFMT and dSFMT, AES-NI code for AESCounter;
  the meaning of the intrinsics is transcribed from Intel's description of them.
* The functions of `broadcasting.pyx` that no compiled module calls (`cont`, `disc`,
  constraints), `bounded_integers`, `mtrand` and `legacy`, which are not built.

## Layout

`lean/Verif/Common`: generic theory.

| file | contents |
|------|----------|
| Basic, Words, BitInj | fixed-width words, invertibility of elementary operations |
| Draw | streams of draws, halves of 64-bit draws, draws with undefined outcomes |
| GF2, Kron | polynomials over GF(2) packed into numbers; fast products for the kernel |
| Lanes, Linear | many words in one number; jump polynomials and exact periods from certificates |
| Cyclic, Pack | annihilating polynomials of maps on 20000-bit states from a cyclic vector |
| Prime | Lucas primality certificates |
| Recipes | the recipes of doc/source/parallel.rst as programs, and what C98 asks of the streams; part of the trusted reading of C98 |
| DocTable | what the table of doc/source/parallel.rst:131-167 says of a generator; part of the trusted reading of C101 |
| Fips197, SpeckSpec, ChaChaSpec, ThreefishSpec | AES-128, SPECK128/256, ChaCha, Threefish and Philox as published, stated independently of the code; part of the trusted reading of C83, C85, C86, C87, and checked against published test vectors |

`lean/Verif/Model`: transcribed code.

| file | code |
|------|------|
| Ints, Doubles | integer utilities of common.pyx; conversion of bits to (long) doubles |
| Pcg64, PcgEmul | PCG64, PCG32, LCG128Mix; emulated 128-bit arithmetic |
| XorLinear | Xoroshiro128, Xoshiro256/512, Xorshift1024, LXM |
| Chaotic | JSF, SFC64, EFIIX64, Romu, Tyche, SplitMix64 |
| BlockCtr, SpeckSse | SPECK128 and AESCounter; the SSSE3 path of SPECK128 |
| AesNi | the AES-NI path of AESCounter and the process-wide flag behind `use_aesni` |
| CtrMode, CtrUnrolled | Philox and ThreeFry; their unrolled rounds statement by statement |
| ChaCha, Squares, Hc128, Rdrand, Weyl | the generators of these names; `SFC64.weyl_increments` |
| Mt, MtPoly | MT19937 and MT64, their seeding, jump code and jump tables |
| Sfmt, SimdPoly | SFMT and dSFMT, their jump code and jump tables |
| SeedSeq, SeedSeqState, SeedWords | `SeedSequence`, its `state` and `repr`, and the words the generators take from it |
| SeedStr | strings as entropy: the branch of `_coerce_to_uint32_array` for them and Python's `int` on ASCII strings that start with a digit |
| ExtGen | `ExtendedGenerator`: the copied function pointers beside those of the bit generator, `state`, pickling and copying; draws of 64-bit words, 32-bit words and doubles. The layout of the union of Philox and ThreeFry is not modelled for functions of one variant on the state of another |
| Interfaces | the attributes `ctypes` and `cffi`: tuples of function pointers made at the first access and kept |
| NumpyState | the state dictionaries of NumPy's PCG64, PCG64DXSM, MT19937, Philox and SFC64, as values for randomgen's setters. NumPy's source is not in the repository: the shapes are trusted. |
| AlignedMalloc | `aligned_malloc.h` over a byte memory with live blocks |
| SimdFlags | CPU feature detection and the process-wide flags of SPECK128 and ChaCha |
| MultiIter | NumPy's broadcasting iterator with arbitrary strides; the loop of `complex_normal` over array parameters |
| MvnBatch | `multivariate_normal` with batches: shapes, and the mean, factor and normals of every sample |
| Double32 | doubles and 32-bit halves as draws of their own: one or two calls per double, also for generators whose draw may be undefined |
| Session | programs of calls on any number of instances of a class, over the getters, setters, reseeding and draws of the other models |
| Session2 | the same for EFIIX64, Tyche and MT64, whose next word may be undefined for some states (the theorems show it never is in a program) |
| Session3 | the same for SPECK128 and AESCounter, with the `counter` argument and, for SPECK128, `rounds` |
| Session4 | the same for ChaCha (either order of evaluation, `rounds`, `counter`; no moves, since the class has none) JSF (both sizes, `seed_size`, rotations) and HC128 (either order of evaluation) |
| Session5 | the same for LCG128Mix (multiplier, output function; user-supplied output functions are a parameter) and Squares (both variants, either order of evaluation; what `seed` leaves behind when it raises) |
| IncArg | `seed(seed, inc)` of PCG32, PCG64 and LCG128Mix with the increment as the caller gives it, together with the seed sequence; the call `Squares.seed` with what it leaves |
| KeySeed | `seed(seed, counter, key)` of SPECK128, AESCounter, ChaCha and HC128 with integers, arrays and lists, together with the seed sequence |
| CtrSeedCall | the same for Philox and ThreeFry |
| Session6 | the same for Philox and ThreeFry (four variants, either order of evaluation, NumPy's seeding mode). A non-zero `has_uint32` other than 1 becomes 1 at the first draw |
| Session7 | the same for SFMT, DSFMT and MT19937. A draw of DSFMT outside [0, 1) is an outcome of its own (`none`); seeded instances never give one (C95_dsfmt_partial) |
| Threads | the lock of a bit generator and the GIL; methods as lists of accesses, any schedule |
| Entropy | `entropy.c`, `random_entropy`; the system's answers as an oracle |
| PyState, Setters, Reseed | Python values, state getters and setters store by store, re-seeding |
| Api | `random_raw`, `uintegers`, `broadcast_shape`, `UserBitGenerator`, pickling |
| ComplexNormal, Wishart, MvComplex, ExtRandom | the samplers of `ExtendedGenerator` |

`lean/Verif/Proof`: lemmas and certificates. `lean/Verif/Props`: property theorems, each
group with an `example` meeting its hypotheses. A theorem named `..._partial` proves only
part of its property and says what is missing. A theorem named `not_...` proves that the
code violates the property, with a concrete witness.

`lean/Verif/Check`: the transcription against the project's own test data. These
are tests, not proofs. The kernel computes the first outputs of 28 generators for both seeds of
`randomgen/tests/data/*-testset-{1,2}.csv`, from the integer seed through `SeedSequence`, the
seeding function and the draws, and the two `test_large_advance` values of PCG64. In a
scratch copy all 1000 outputs of all 64 files read by `test_direct.py` were compared and agree; for
MT19937, MT64, SFMT and dSFMT only there, with the tables of
the model's text stored in arrays. HC128 is evaluated with tables packed into numbers, by a program
proved equal to the reference (Proof/HcPack). The data fix the evaluation order that C leaves open
(C52): left operand first.

## Properties: model and method

| id | modelled | method |
|----|----------|--------|
| C01 | `wrap_int` | integer arithmetic |
| C02 | `int_to_array`, `object_to_int` | digit induction, round trip |
| C03, C04, C05 | Brown's advance loop (128 and 64 bit), step, Python wrapper | loop invariant: affine power; refinement to iterated step |
| C06 | emulated 128-bit add/mult/shift, advance, seeding, outputs | value map `hi*2^64+lo`, all operations commute |
| C07 | LCG step | 2-adic induction: order of `x -> a x + c` modulo 2^k is 2^k (a = 1 mod 4, c odd) |
| C08 | seeding functions | injectivity of invertible affine maps |
| C09 | next32 buffering | refinement to the half-word stream, for an arbitrary 64-bit source |
| C10 | double and long double conversion | arithmetic on numerators |
| C11, C12 | state getter/setter per class | get/set laws over all receiving states; violations by witness |
| C13 | table access with explicit out-of-bounds outcome | exact set of safe positions as an equivalence; violation by witness |
| C14 | seed functions on living instances | field by field; violations by witness (HC128, Xorshift1024) |
| C15, C16 | block-counter generators with K counters per buffer | abstract position modulo 2^129, refinement; carry arithmetic |
| C17, C21 | block functions | explicit inverse functions |
| C18 | SSE lane semantics | lane-wise unfolding |
| C19, C20, C60 | Philox/ThreeFry advance and jump | carry-chain arithmetic; `_partial` under the range the code supports; witnesses outside |
| C22, C23, C62 | ChaCha block cache | invariant "cached block is the block of the counter"; witnesses |
| C24, C25, C63 | Squares counter, key generation over an arbitrary bit stream | induction over the sampler; witness |
| C26-C30 | linear engines over GF(2) | polynomial certificates: p(T)=0 on a generating set and x^(2^k) = J mod p, both checked by the kernel |
| C31-C33 | linear engines | explicit inverse; order via certificates and Lucas primality certificates |
| C34, C64 | MT19937, MT64 | recurrence refinement; explicit inverse of the tempering |
| C35, C36, C66 | MT19937/SFMT/dSFMT jump code and tables | Horner loop on rotated arrays as a polynomial in the shift of the solutions; annihilating polynomial of degree 19937 from a cyclic vector; thousands of squarings modulo it in the kernel |
| C76 | MT19937, MT64 | Lucas-Lehmer test of 2^19937-1 and 19937 squarings modulo the characteristic polynomials in the kernel; every orbit of the linear map has prime length; lifted to the outputs through the injective tempering |
| C77 | SFMT, DSFMT | the characteristic polynomial is the product of a primitive polynomial of degree 19937 (43 blocks of squarings in the kernel) and a small one; Bezout splits the state space; the parity vector of the certification vanishes on the small kernel, so certified states lie off it; for dSFMT the affine step has a fixed point up to the small kernel, whose lung is the constant DSFMT_FIX |
| C78 | Xoroshiro128, Xoshiro256, Xoshiro512, Xorshift1024, LXM | the order of the step of Xoshiro512 and Xorshift1024 by one certificate per prime factor of 2^1024 - 1, whose primality is proved in Proof/FermatPrimes; an orbit as long as a finite invariant set visits it once (Common/Orbit), so outputs are counted by counting states; windows of outputs determine the state by elimination of the words; the period of the outputs of Xoroshiro128 follows from two frequencies that differ by one |
| C79 | PCG64, LCG128Mix, PCG32 | the same counting for affine maps; half a period flips the top bit, and one pair of states differing there has different outputs. Negative: the outputs of LCG128Mix with `lower` have period 2^64, and odd multipliers that are 3 modulo 4 are accepted although the period is at most 2^127 |
| C80 | MT19937, MT64 | the window of whole words leaves w - 31 bits of the state free; counting over the orbit of C76 |
| C81 | SPECK128, AESCounter, Philox, ThreeFry | block functions are permutations, so the blocks of one counter period are all blocks; periods from a gcd argument |
| C82 | ChaCha | periodicity of the counter; exactness reduced to one unequal pair of draws |
| C83, C85, C86 | AESCounter, SPECK128, ChaCha | refinement to the specifications in Common; the S-box by evaluating field inverses for all 256 bytes; the state of the code is the transpose (AES) or the rows (ChaCha) of that of the specification |
| C84 | AES-NI code, process-wide flag | byte registers; induction over programs of seeds, draws and assignments on any number of generators |
| C87 | Philox, ThreeFry | the statements extracted from the text equal a generated list (kernel), whose run is the loop by induction; two rounds of the code, in place, are two rounds of Threefish with its permutation of words |
| C88 | aligned allocator | memory with live blocks, undefined accesses as outcomes, the system allocator as an oracle; invariant (block, header, ownership, other users) kept by every operation, lifted to all programs by induction |
| C89 | SIMD flags of SPECK128 and ChaCha | one flag per process, any host; induction over programs on any number of generators |
| C90 | entropy | mixing functions as compositions of bijections; case analysis over the system's answers; induction over requests for open descriptors |
| C91 | threads sharing a generator | small-step semantics with both locks; invariant over all schedules: the state is that of a sequential order, followed by the accesses of the one running operation; lock ownership for deadlock freedom |
| C92 | `np.broadcast` iterator, loop of `complex_normal` | invariant: coordinates are the mixed-radix digits of the iteration number, the pointer their scalar product with the strides |
| C93 | batches in `multivariate_normal` | provenance of every sample; shapes by dimension-wise reasoning |
| C94 | doubles and 32-bit draws over the period | counting fibres of the truncation; half-period shifts by square roots of the transition matrix (HalfShift) |
| C95 | whole programs | refinement (Proof/Session): a class whose calls keep the relation "instance is at this place of this stream" agrees with the ideal world (Common/SessionSpec) on every program |
| C96 | accepted states and the cycle | period theorems (C76, C78, C79) for the good states; for the others an explicit shorter period (an even increment returns after half the modulus); witnesses through the round trips of C11 |
| C97 | seeding MT19937, MT64 by array | the two loops written as sweeps and inverted in closed form; streams compared through the period (C76) |
| C98 | the recipes of parallel.rst | programs of `jumped` / `advance` and draws in any order, through C95; the periods from C77–C81; the golden section keeps apart because d² − qd − q² ≠ 0 for integers not both 0 |
| C99 | different seeds, different streams | two points of one cycle with equal outputs are equal, because the outputs have the period of the cycle (C78, C79); windows of outputs determine the state of the xor-linear generators; C42, C54 for the words of a SeedSequence; the block functions are bijections, so a block determines the counter (Props/SeedCounters.lean) |
| C100 | every seed gives the full period | a generated word is zero exactly if the word of the pool is INIT_B * MULT_B^i; MULT_B has order 2^30, so two words from one word of the pool are not both zero; the seeds that fail are computed by inverting the mixing and checked by the kernel |
| C101 | the table of parallel.rst | exact periods (C78, C79, C81) and the place of the jumped generator through C95; the golden section by squares of integers |
| C102 | `seed` uses valid arguments and refuses others without changing anything | the call as outcome and what is left; case split on the check |
| C103 | a SeedSequence is rebuilt from `state` and `repr`; children do not depend on the calls | invariant (the pool is that of the attributes) over programs; induction on the list of counts |
| C104 | a seed given as a string is the integer it spells | parse after print; the scanner by induction on the string |
| C105 | an `ExtendedGenerator` draws what its bit generator draws, also after its state is set and after it is copied | refinement: programs on both, by induction, while the variant stays; witnesses where it changes |
| C106 | the ctypes and cffi interfaces draw what the bit generator draws | refinement: programs with and without interfaces, by induction on the program |
| C107 | states of NumPy's bit generators of the same name are accepted and continued | setters run on NumPy's dictionaries, symbolically; streams by induction on the number of draws |
| C37, C38 | seeding of the Mersenne twisters, dSFMT doubles | parity argument, bit-mask invariant |
| C39, C40, C56-C59 | chaotic generators | explicit inverse functions; Weyl counter argument |
| C41 | `weyl_increments` over an arbitrary stream | loop invariants; witnesses |
| C42-C46, C54 | SeedSequence hashing, spawn tree, assembled entropy | composition of bijections; invariant over histories; list induction |
| C47, C75 | `random_raw`, `uintegers`, `random` | exact results for every size; witnesses |
| C48 | RDRAND with the hardware trace as parameter | invariant, also for every program that mixes draws, `random_raw`, assignments of `retries` and `_reset`; exact condition for reads past the buffer |
| C49 | registry tables | decision over the whole table, lifted to all strings |
| C50 | broadcast_shape | list induction against NumPy's rule |
| C51 | wrapper closures | refinement to raw stream |
| C52 | evaluation-order sets | witnesses |
| C53 | seed_by_array | splitmix64 bijection |
| C55 | Romu seeding | case analysis; witness |
| C61 | Philox multiplications | arithmetic |
| C65, C68 | SFMT and dSFMT block loops, buffers, `jumped` | recurrence refinement; exact distance of `jumped` |
| C67 | HC128 | one-step reference against the sixteen-fold unrolled code |
| C69, C72, C74 | `complex_normal`, `multivariate_normal`, `multivariate_complex_normal` | covariances in Mathlib's probability theory, for all standardised uncorrelated inputs; quadratic forms |
| C70, C71 | Wishart | loop invariant on flat buffers; expected values; linear algebra |
| C73 | result shapes | case analysis on lists |

## Where the code violates a property

Each line names the theorem that proves the violation.

Undefined behaviour and reads or writes outside arrays:

* State setters accept any position. MT19937 (`pos` above 624 or negative), MT64, SFMT
  and dSFMT (`buffer_loc`), SPECK128 (`offset`, `rounds`), AESCounter (`offset`), Philox
  and ThreeFry (negative `buffer_pos`), Xorshift1024 (`p`) and HC128 then read outside
  their arrays; Philox and ThreeFry with `number > 4` write outside in the setter itself
  (`not_C13_*`).
* RDRAND: after a hardware failure the cursor runs past the buffer (`not_C48_bounds`).
* `complex_normal` with an empty parameter array and a non-empty `size` reads outside it (`not_C92_empty`).
* Squares: the key sampler reads past its random words (`not_C63_in_bounds`).
* JSF with a rotation of zero shifts by the word width (`not_C39_jsf_zero_rotation`).
* `random(dtype=longdouble)` overflows an `int` beyond 2^31-1 elements; `out` may be any
  object (`not_C75_undefined`).
* Two draws in one C expression: the value depends on the compiler (`not_C52_*`).

Wrong streams:

* MT19937.jumped: the array is left rotated, and regeneration starts at index 0; a fresh
  seed jumps 624 draws short; interior positions reuse words already drawn; the first
  draw is wrong unless the array continues a longer run (`not_C35_*`).
* SFMT/DSFMT.jumped(n) skips n * 2^129 draws, not n * 2^128, and the rest of the block
  (`C68_sfmt_partial`, `not_C68_*`).
* Philox and ThreeFry: advance by amounts that are not below the counter size, by small
  negative amounts, and of fresh two-word generators (`not_C19_*`, `not_C20_*`); jumps
  across the wrap of the counter (`not_C60_*`).
* ChaCha: the C-level advance keeps the stale block at boundaries and on 64-bit overflow
  (`not_C23_*`).
* HC128 and Xorshift1024: re-seeding keeps parts of the old state (`not_C14_*`).
* Squares and LCG128Mix: saved states do not resume the stream (`not_C11_*`); generated
  Squares keys can have a zero digit (`not_C25_nonzero`).
* Most setters are not atomic: a rejected state changes the generator (`not_C12_*`).
* Setters accept states that the generator never leaves, such as all zero words: every later output is the same
  word (`not_C96_*`); an even increment or an even Squares key shortens the cycle (`C96_*`).
* Xoroshiro128 seeded with the integer 317152452167715789935752102952713236406 (default pool) starts in the zero state and
  returns 0 for ever (`not_C100_xoroshiro128`); with SeedSequences of larger pools so do Xoshiro256, Xoshiro512,
  Xorshift1024 and Romu trio, and the constructor of LXM does not return (`not_C100_*`).
* LXM: seeding with four zero words never ends (`C31_lxm_zero_words`); Romu trio can be seeded into its zero
  state (`not_C55_trio`); SFC64 takes an even Weyl increment (`not_C59_even_increment`).
* SeedSequence: `spawn(-k)` makes children share keys (`not_C43_negative_count`) and returns a child again (`not_C103_negative_count`); long
  entropy and big key entries collide with spawned children (`not_C44_*`).
* `weyl_increments`: refuses feasible requests, returns 1, or does not end (`not_C41_*`).

* AESCounter: `use_aesni = False` is undone when any generator is seeded or made
  (`not_C84_toggle`); the draws do not change. The same holds for the flags of SPECK128 and ChaCha (`not_C89_*_toggle`);
  `use_sse41 = 2` reports True but selects the portable code (`not_C89_speck_report`).
* `complex_normal` accepts a `size` smaller than the common shape of its parameters and uses only the first of them
  (`not_C92_size`, `not_C92_rows`).
* `multivariate_normal(size=())` with batches of means or covariances makes all samples from one vector of normals
  (`not_C93_empty_size`); a 0 in `size` counts as 1 (`not_C93_zero`).
* PCG64 in NumPy's seeding mode accepts the state of a `dxsm` instance, after which `jumped` raises (`not_C95_pcg64`).
* Xorshift1024: `seed` keeps the position (`not_C95_xorshift1024`).
* SPECK128, AESCounter: `advance(0)` and `jump(0)` (and any multiple of the period) keep the cached half word, although the
  documentation says that pre-computed numbers are reset (`not_C95_speck128`, `not_C95_aesctr`).
* ChaCha: the docstring documents `jump` and `advance` (chacha.pyx:70, 98-110), the table in parallel.rst:137 lists it
  with jumps of 2^64 (`not_C98_chacha`); the class has neither, nor `jumped`
  (`not_C95_chacha`).
* JSF: the constructor and the documentation accept `p = 0` and `q = 0`; seeding then shifts by the word size, which is
  undefined (`not_C95_jsf`).
* HC128: after `seed`, up to fifteen words of the old stream come before the new one (`not_C95_hc128`).
* LCG128Mix: `seed` uses the multiplier of the constructor, not the one in use after a state was loaded (`not_C95_lcg128mix`); and `jumped`
  makes its result with the default multiplier, so `seed` on the result uses that one (`not_C95_lcg128mix_jumped`).
* Squares: a `seed` that raises because of the key has already replaced the counter (`not_C95_squares_seed`); loading a state keeps the
  unused half of the word the target had (`not_C95_squares`).
* Philox and ThreeFry: after a word-wise `advance` that ends at a block boundary, a jump drops the whole next block
  (`not_C95_philox`, `not_C95_threefry`).
* Philox: with `numpy_seed=True` the argument `counter` is ignored (`not_C95_philox_numpy`).
* SFMT and DSFMT: a jump drops what is left of the current block (up to 311 words, 381 doubles), so where it leads depends on
  the draws before it, and `jump(0)` moves too (`not_C95_sfmt`, `not_C95_dsfmt`); between blocks one jump is 2^129 words of
  64 bits (doubles), not the documented 2^128 (`not_C95_sfmt_distance`, `not_C95_dsfmt_distance`).
* MT19937: after `jump()` a new generator does not return the words 2^128 further on, neither in the default mode (position 624:
  624 words short, `not_C95_mt19937`) nor in NumPy's (position 623, `not_C95_mt19937_numpy`).
* Threads: `complex_normal()` of scalars draws without the lock (`not_C91_complex_normal`); state getters, setters, `seed`,
  `advance` and `jump` do not take it either (`not_C91_getter`, `not_C91_seed`, `not_C91_advance`); the status flag of
  RDRAND is updated after the lock is released, so a failure can be forgotten and constants returned (`not_C91_rdrand`).
* Entropy: a short or failed read leaks the descriptor (`not_C90_leak`, `C90_leak_iff`); on Windows without a provider
  the call reports success and `random_entropy()` is 0 (`not_C90_windows*`); the fallback is undefined from 2^31 bytes on
  (`not_C90_fallback_size`); a size of 0 raises IndexError (`not_C90_empty`); clock readings can cancel, so fallback words
  of different readings can agree (`not_C90_fallback_distinct`).
* Aligned allocator: requests above 2^64 - 72 bytes wrap around and corrupt memory instead of failing (`not_C88_overflow`,
  `not_C88_calloc`); no caller makes one.

Documented periods that do not hold:

* AESCounter (and SPECK128 in the table of parallel.rst): 2^129 64-bit draws, not 2^128; Philox and ThreeFry in that
  table: 2^258, not 2^256 (`C81_*_documented`). ChaCha: the 64-bit draws repeat after 2^127 (`C82_chacha_next64`).
* LCG128Mix with the output function `lower`: 2^64 (`C79_lcg128_lower_period`); with multipliers that are 3 modulo 4
  less than 2^128 (`C79_lcg128_full_iff`).

Wrong results of the Python layer and the samplers:

* `random_raw(tuple, output=False)` draws the sum of the dimensions (`not_C47_*`).
* `broadcast_shape` disagrees with NumPy for zero dimensions (`C50_zero_dimension`).
* `UserBitGenerator` does not check `bits` (`user_bits_unchecked`).
* `complex_normal`: scalars with a zero variance are not validated and have the wrong
  covariance; an array `gamma` with a smaller `relation` always raises (`not_C69_*`).
* `wishart`: the factor is transposed, so the mean is `df * diag(s)` (svd, eigh) or
  `df * L^T L` (cholesky) instead of `df * scale` (`not_C71_*`).
* `multivariate_normal`: with `method="factor"` the covariance is `A^T A`, not the
  documented `A A^T` (`not_C72_factor`); sizes beginning with 1 lose a dimension, sizes
  ending in 0 give samples (`not_C73_shape`).
* `multivariate_complex_normal`: two or more leading dimensions raise
  (`not_C74_leading`).
* The table in parallel.rst gives periods that are too short for LXM, SPECK128, AESCounter,
  Philox and ThreeFry, and jumps of half the true size for SFMT and DSFMT; ChaCha is listed
  but has no method `jumped` (`not_C101_*`).
- C102: `PCG32.seed(s, 2**64)` and `PCG64.seed(s, 2**128)` pass the check (`inc > ub` instead of `>=`), raise `OverflowError` instead of
  `ValueError` and leave the old state with the new seed sequence (`not_C102_pcg32`, `not_C102_pcg64`). `PCG64.seed(None, inc)` ignores `inc`, even a
  refused one (`not_C102_pcg64_no_seed`); in the mode `numpy` a refused increment leaves the new seed sequence (`not_C102_pcg64_numpy`).
  `LCG128Mix.seed` has no check: `OverflowError` after the seed sequence was replaced, and with NumPy 1 `inc=-1` is used (`not_C102_lcg128mix`).
  `Squares.seed` with a refused key leaves the new counter (`not_C102_squares`). SPECK128, AESCounter, ChaCha: a counter refused together with a
  seed leaves the new seed sequence with the old state (`not_C102_*_counter`); these and HC128 take keys of fewer words than documented
  (`not_C102_key_length`). Philox and ThreeFry likewise (`not_C102_ctr_counter`); Philox in the mode `numpy` ignores the argument `counter`
  (`not_C102_philox_numpy`, `not_C102_philox_numpy_zero`).
- C104: `DECIMAL_RE.match` looks at the start of the string only, and `int` takes more than digits: `SeedSequence("1_0")` is `SeedSequence(10)`
  (`not_C104_underscore`), `SeedSequence("7 ")` is `SeedSequence(7)` (`not_C104_space`). Decimal strings of more than 4300 digits are refused from
  Python 3.11 on (`not_C104_long`).
- C105: `ExtendedGenerator.__init__` copies `bitgen_t` by value, so the function pointers go stale when the bit generator installs others. Assigning
  the state of another variant makes `uintegers` and `random` differ from the bit generator's own draws (`not_C105_xoroshiro128`, `_romu`, `_tyche`,
  `_jsf`, `_squares`, `_pcg64`, `_philox`, `_threefry`). Unpickling makes the bit generator without arguments, copies its functions, and then
  assigns the state, so every variant but the default one changes its stream; this includes the default `ExtendedGenerator()`, which uses
  `PCG64(variant="dxsm")`: its copy draws as `dxsm-128` (`not_C105_default_copy`, `not_C105_default_copy_stream`). A copy with Squares also loses a pending half word
  (`not_C105_squares_copy`).
  The classes with one set of functions meet the claim in full (`Props/ExtGen3.lean`), except that copies drop the constructor arguments that are not in
  the state: `w` and `k` of SFC64 (`not_C105_sfc64_copy`) and the NumPy mode of MT19937 (`C105_mt19937_copy_mode`); both show at the next `seed`.
- C106: the tuples `ctypes` and `cffi` are kept from the first access on and go stale in the same way (`not_C106_xoroshiro128`, `_pcg64`, `_romu`,
  `not_C106_two_faces`).
- C107: SFC64 reads the words under the names `a`, `b`, `c`, `w`, `k`, which NumPy's SFC64 does not have: every NumPy state is refused with `KeyError`
  (`not_C107_sfc64`), so `pickle.loads(pickle.dumps(ExtendedGenerator(numpy.random.SFC64())))` raises (`not_C107_extended_sfc64`). States of NumPy's
  PCG64, PCG64DXSM, MT19937 and Philox are continued.
* `random(out=)`: arrays in Fortran order are filled in memory order (`not_C75_fortran`).

## Wrong programs

To see that the theorems say what they should, definitions of the model are changed in a
scratch copy (wrong boundary, missing case, swapped argument, dropped update) and the
project is rebuilt. `seeded/LOG.jsonl` has one line per trial: the definition, the
change, the claim it breaks, the theorems that failed, and the theorems that had to be
tightened because they still held.
