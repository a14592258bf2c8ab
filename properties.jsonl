{"id": "C01", "title": "advance deltas are reduced exactly modulo the period", "statement": "For every Python integer delta, positive, zero or negative, and every bit width, the value an `advance` method actually uses lies in [0, 2**bits) and is congruent to delta modulo 2**bits; two deltas that differ by a multiple of 2**bits are treated identically.", "quantifier": "all integers delta, all widths bits", "why_tests_cant": "deltas are unbounded integers of either sign; a test samples a few of them", "anchors": ["randomgen/common.pyx:wrap_int"]}
{"id": "C02", "title": "key/counter/seed integers and their array forms are interchangeable", "statement": "A key or counter given as an integer in [0, 2**bits) is split into little-endian words that reassemble to exactly that integer; giving the words as an array denotes the same integer; integers outside the range are rejected and never truncated.", "quantifier": "all integers, all bit widths that are a positive multiple of the word size, both word sizes 32 and 64", "why_tests_cant": "the value space is up to 2**512; truncation or word-order errors can hide in rare values such as those with zero high words", "anchors": ["randomgen/common.pyx:int_to_array", "randomgen/common.pyx:object_to_int"]}
{"id": "C03", "title": "advance(delta) of PCG64 equals delta draws", "statement": "For PCG64 (both variants, cheap or default multiplier) and LCG128Mix with any multiplier and increment, advance(delta) leaves the 128-bit state exactly where delta single draws would leave it; for negative delta it is the state from which |delta| draws lead back to the current one (odd multiplier).", "quantifier": "all states, increments, multipliers, all integer deltas (mod 2**128)", "why_tests_cant": "delta ranges over 2**128 values; nobody can draw 2**100 numbers to compare", "anchors": ["randomgen/src/pcg64/pcg64-common.c:pcg_advance_lcg_128", "randomgen/pcg64.pyx:PCG64.advance", "randomgen/pcg64.pyx:LCG128Mix.advance"]}
{"id": "C04", "title": "advance(delta) of PCG32 equals delta draws", "statement": "PCG32.advance(delta) leaves the generator exactly where delta next-32-bit draws would leave it, for every integer delta modulo 2**64, including negative ones.", "quantifier": "all 64-bit states and increments, all integer deltas", "why_tests_cant": "2**64 deltas times 2**128 states", "anchors": ["randomgen/src/pcg32/pcg32.c:pcg_advance_lcg_64", "randomgen/pcg32.pyx:PCG32.advance"]}
{"id": "C05", "title": "advances compose and invert", "statement": "For the LCG generators advance(a) followed by advance(b) equals advance(a+b) and advance(n) followed by advance(-n) restores the original state, for arbitrary integers a, b, n.", "quantifier": "all states, all integers a, b, n (either sign, any magnitude)", "why_tests_cant": "pairs of unbounded integers", "anchors": ["randomgen/pcg64.pyx:PCG64.advance", "randomgen/pcg32.pyx:PCG32.advance", "randomgen/common.pyx:wrap_int"]}
{"id": "C06", "title": "PCG64 stream does not depend on native 128-bit support", "statement": "On a platform without a native 128-bit integer PCG64 (seeding, stepping, advancing, all output functions) produces bit-for-bit the stream it produces on a platform with one.", "quantifier": "all pairs of 128-bit operands, all states, increments, multipliers and deltas", "why_tests_cant": "carry and cross-product errors in emulated arithmetic show up on rare operands; any one platform compiles only one of the two paths", "anchors": ["randomgen/src/pcg64/pcg64-common.h:pcg128_add", "randomgen/src/pcg64/pcg64-common.h:pcg128_mult", "randomgen/src/pcg64/pcg64-common.h:_pcg_mult64", "randomgen/src/pcg64/pcg64-common.c", "randomgen/src/pcg64/pcg64-v2.h"]}
{"id": "C07", "title": "PCG generators have full period for every seed", "statement": "However they are seeded, PCG64's state does not repeat before 2**128 draws and returns exactly after 2**128; PCG32's after exactly 2**64; and LXM's linear congruential part after exactly 2**64 (odd increment).", "quantifier": "all seeds, all stream selectors inc", "why_tests_cant": "the period cannot be enumerated", "anchors": ["randomgen/src/pcg64/pcg64-v2.h", "randomgen/src/pcg32/pcg32.h", "randomgen/src/lxm/lxm.h"]}
{"id": "C08", "title": "which seeds and increments select the same PCG stream", "statement": "Two seedings of PCG64 with the same increment give the same generator state only if the seeds are equal; two stream selectors select the same LCG increment exactly when they agree modulo 2**127 (the top bit is discarded), and likewise modulo 2**63 for PCG32.", "quantifier": "all pairs of seeds and all pairs of selectors", "why_tests_cant": "collisions are a statement about all pairs", "anchors": ["randomgen/src/pcg64/pcg64-v2.h:pcg64_initialize", "randomgen/src/pcg32/pcg32.h:pcg32_srandom_r"]}
{"id": "C09", "title": "32-bit draws are the halves of the 64-bit stream", "statement": "For every generator that produces 64-bit words, n consecutive 32-bit draws return the low then the high half of each successive 64-bit word, and any interleaving of 32-bit, 64-bit and double draws neither loses nor repeats a half: every raw word is delivered in exactly one way and a 64-bit draw leaves a pending half untouched.", "quantifier": "all generators of this family, all states, all finite interleavings of draw kinds", "why_tests_cant": "interleavings grow exponentially; tests use homogeneous runs", "anchors": ["randomgen/src/pcg64/pcg64-v2.h:pcg64_next32", "randomgen/src/sfc/sfc.h", "randomgen/src/xoshiro256/xoshiro256.h", "randomgen/src/philox/philox.h", "randomgen/src/speck-128/speck-128.h"]}
{"id": "C10", "title": "doubles are in [0,1) and exact multiples of 2**-53", "statement": "Every double built from 64 random bits, or from two 32-bit draws, is m * 2**-53 with 0 <= m < 2**53, is never 1.0, and every such value is reachable; equal m arises only from inputs that agree on the 53 used bits.", "quantifier": "all 64-bit words, all pairs of 32-bit words", "why_tests_cant": "2**64 inputs; the endpoint 1.0 would be hit with probability 2**-53", "anchors": ["randomgen/common.pyx:uint64_to_double", "randomgen/src/pcg32/pcg32.h:pcg32_next_double", "randomgen/src/mt19937/mt19937.h", "randomgen/src/distributions/rg-distributions.c:rg_next_long_double"]}
{"id": "C11", "title": "saved state resumes the identical stream on any instance", "statement": "Reading `state` from a generator and assigning it to any other instance of the same class makes the second instance produce exactly the same future outputs, for every future sequence of 32-bit, 64-bit and double draws.", "quantifier": "all generator states (including a pending 32-bit half and variant flags), all prior states of the receiving instance, all future op sequences", "why_tests_cant": "the receiving instance's earlier history is unbounded; a test that sets state on a fresh instance misses left-over fields", "anchors": ["randomgen/squares.pyx:Squares.state", "randomgen/pcg64.pyx:LCG128Mix.state", "randomgen/xoroshiro128.pyx:Xoroshiro128.state", "randomgen/sfc.pyx:SFC64.state", "randomgen/romu.pyx:Romu.state", "randomgen/jsf.pyx:JSF.state"]}
{"id": "C12", "title": "a rejected state assignment leaves the generator unchanged", "statement": "If assigning `state` raises, the generator continues its stream exactly as if the assignment had not been attempted.", "quantifier": "all generator states, all malformed state dictionaries", "why_tests_cant": "the set of malformed dictionaries is infinite and the failure point can be any key", "anchors": ["randomgen/philox.pyx:Philox.state", "randomgen/threefry.pyx:ThreeFry.state", "randomgen/xoshiro256.pyx:Xoshiro256.state", "randomgen/romu.pyx:Romu.state"]}
{"id": "C13", "title": "accepted states never lead to out-of-bounds table access", "statement": "Any state dictionary that the setter accepts leads only to in-range accesses of the generator's tables and buffers on subsequent draws.", "quantifier": "all accepted state dictionaries, all later draws", "why_tests_cant": "memory errors for out-of-range positions need not crash", "anchors": ["randomgen/mt19937.pyx:MT19937.state", "randomgen/src/mt19937/mt19937.h:mt19937_next", "randomgen/xorshift1024.pyx:Xorshift1024.state", "randomgen/src/xorshift1024/xorshift1024.h"]}
{"id": "C14", "title": "re-seeding forgets all history", "statement": "Calling seed(s) on a generator that has already been used gives exactly the stream of a freshly constructed generator with seed s.", "quantifier": "all prior histories of draws, all seeds", "why_tests_cant": "depends on the whole preceding history (buffer and table positions)", "anchors": ["randomgen/hc128.pyx:HC128.seed", "randomgen/src/hc-128/hc-128.c:hc128_init", "randomgen/xorshift1024.pyx:Xorshift1024.seed", "randomgen/sfc.pyx:SFC64.seed"]}
{"id": "C15", "title": "SPECK128.advance(delta) equals delta draws", "statement": "After advance(delta) SPECK128 produces exactly the numbers it would produce after delta 64-bit draws, from any position inside a buffered block, for every integer delta (negative and beyond 2**128 included, modulo the period 2**129).", "quantifier": "all keys, rounds, counters, buffer positions, all integers delta", "why_tests_cant": "block-boundary and carry cases over 2**129 positions", "anchors": ["randomgen/src/speck-128/speck-128.c:speck_advance", "randomgen/speck128.pyx:SPECK128.advance"]}
{"id": "C16", "title": "AESCounter.advance(delta) equals delta draws", "statement": "After advance(delta) AESCounter produces exactly the numbers it would produce after delta 64-bit draws, from any position inside a buffered block, for every integer delta modulo 2**129.", "quantifier": "all keys, counters, buffer positions, all integers delta", "why_tests_cant": "block-boundary and carry cases over 2**129 positions", "anchors": ["randomgen/src/aesctr/aesctr.c:aesctr_advance", "randomgen/aes.pyx:AESCounter.advance"]}
{"id": "C17", "title": "block-cipher counters never repeat a block within their period", "statement": "For a fixed key, SPECK128 and AESCounter produce 2**128 pairwise different 128-bit blocks before the stream repeats, for every key.", "quantifier": "all keys, all pairs of distinct counters", "why_tests_cant": "statement about all pairs of 2**128 counters", "anchors": ["randomgen/src/speck-128/speck-128.h", "randomgen/src/aesctr/softaes.h"]}
{"id": "C18", "title": "SIMD and portable SPECK128/ChaCha/SFMT code agree", "statement": "The SSE code paths produce bit-for-bit the same output as the portable code, so streams are identical across machines.", "quantifier": "all register contents (all counters, keys, round counts)", "why_tests_cant": "one machine exercises one path; lane and shuffle errors can be value dependent", "anchors": ["randomgen/src/speck-128/speck-128-sse.h", "randomgen/src/chacha/chacha.c", "randomgen/src/sfmt/sfmt-sse2.h"]}
{"id": "C19", "title": "Philox.advance(delta, counter=False) equals delta draws", "statement": "After advance(delta) with counter=False, Philox produces exactly the numbers it would produce after delta raw draws, from any buffer position, for every integer delta.", "quantifier": "all N in {2,4}, widths {32,64}, counters, buffer positions, integers delta", "why_tests_cant": "carry chain over up to 4 words and 2**258 positions", "anchors": ["randomgen/src/philox/philox.c", "randomgen/philox.pyx:Philox.advance"]}
{"id": "C20", "title": "ThreeFry.advance(delta, counter=False) equals delta draws", "statement": "After advance(delta) with counter=False, ThreeFry produces exactly the numbers it would produce after delta raw draws, from any buffer position, for every integer delta.", "quantifier": "all N in {2,4}, widths {32,64}, counters, buffer positions, integers delta", "why_tests_cant": "carry chain over up to 4 words and 2**258 positions", "anchors": ["randomgen/src/threefry/threefry.c", "randomgen/threefry.pyx:ThreeFry.advance"]}
{"id": "C21", "title": "Philox and ThreeFry blocks are distinct for distinct counters", "statement": "For a fixed key different counter values always give different output blocks, for every variant, so no block repeats within the counter period.", "quantifier": "all keys, all pairs of distinct counters, all four (number, width) variants", "why_tests_cant": "statement about all pairs of counters", "anchors": ["randomgen/src/philox/philox.h", "randomgen/src/threefry/threefry.h"]}
{"id": "C22", "title": "ChaCha output is a function of the position alone", "statement": "The k-th 32-bit output of ChaCha started at counter c equals output number 0 of ChaCha started at counter c+k (modulo 2**128), wherever c lies inside a 16-word block.", "quantifier": "all keys, streams, round counts, all starting counters, all k", "why_tests_cant": "counter values range over 2**128; block alignment and 64-bit carry are rare events", "anchors": ["randomgen/src/chacha/chacha.h:chacha_next32", "randomgen/src/chacha/chacha.c:chacha_seed", "randomgen/chacha.pyx"]}
{"id": "C23", "title": "the ChaCha C-level advance equals delta draws", "statement": "chacha_advance(delta) leaves the generator where delta 32-bit draws would leave it.", "quantifier": "all states and all 128-bit deltas", "why_tests_cant": "2**128 deltas; the failing cases are block aligned states and word overflow", "anchors": ["randomgen/src/chacha/chacha.c:chacha_advance"]}
{"id": "C24", "title": "Squares.advance and draws agree, and jumped(n) is n fixed strides", "statement": "Squares.advance(delta) followed by a draw gives what delta draws followed by that draw would give (64-bit variant), for every delta in [0, 2**64); jumped(iter) equals advance by iter times the documented stride; the counter repeats only after 2**64 draws.", "quantifier": "all keys, counters, deltas, iter", "why_tests_cant": "2**64 deltas", "anchors": ["randomgen/squares.pyx:Squares.advance", "randomgen/squares.pyx:Squares.jumped", "randomgen/src/squares/squares.h"]}
{"id": "C25", "title": "generated Squares keys satisfy the documented key rules", "statement": "Every generated key has an odd lowest hexadecimal digit, digits 1-7 drawn from 1..15 with all of digits 0-7 distinct, digits 8-15 in 1..15 and each different from the digit before it.", "quantifier": "all entropy inputs (all bit streams fed to the sampler)", "why_tests_cant": "the sampler consumes an unbounded random bit stream with rejection", "anchors": ["randomgen/squares.pyx:generate_key", "randomgen/squares.pyx:_SequenceSampler"]}
{"id": "C26", "title": "Xoroshiro128 jump is 2**64 draws", "statement": "jump() of Xoroshiro128 (both + and ++) leaves the state exactly where 2**64 draws would leave it, and jumped(iter) where iter * 2**64 draws would.", "quantifier": "all 2**128 states, all iter", "why_tests_cant": "2**64 draws cannot be executed; a single wrong constant bit is invisible to output tests against itself", "anchors": ["randomgen/src/xoroshiro128/xoroshiro128.c:xoroshiro128_jump", "randomgen/src/xoroshiro128/xoroshiro128.c:xoroshiro128plusplus_jump", "randomgen/xoroshiro128.pyx"]}
{"id": "C27", "title": "Xoshiro256 jump is 2**128 draws", "statement": "jump() of Xoshiro256 leaves the state exactly where 2**128 draws would leave it, and jumped(iter) where iter * 2**128 draws would.", "quantifier": "all 2**256 states, all iter", "why_tests_cant": "2**128 draws cannot be executed", "anchors": ["randomgen/src/xoshiro256/xoshiro256.c:xoshiro256_jump", "randomgen/xoshiro256.pyx"]}
{"id": "C28", "title": "Xoshiro512 jump is 2**256 draws", "statement": "jump() of Xoshiro512 leaves the state exactly where 2**256 draws would leave it, and jumped(iter) where iter * 2**256 draws would.", "quantifier": "all 2**512 states, all iter", "why_tests_cant": "2**256 draws cannot be executed", "anchors": ["randomgen/src/xoshiro512/xoshiro512.c:xoshiro512_jump", "randomgen/xoshiro512.pyx"]}
{"id": "C29", "title": "Xorshift1024 jump is 2**512 draws", "statement": "jump() of Xorshift1024 leaves the generator producing exactly the outputs that would follow after 2**512 draws, from every position of its circular state.", "quantifier": "all 2**1024 states and all 16 positions", "why_tests_cant": "2**512 draws cannot be executed", "anchors": ["randomgen/src/xorshift1024/xorshift1024.c:xorshift1024_jump", "randomgen/xorshift1024.pyx"]}
{"id": "C30", "title": "LXM jump is 2**128 draws of both components", "statement": "jump() of LXM, which only moves the xorshift part, leaves the complete generator state exactly where 2**128 draws would leave it.", "quantifier": "all states, all increments b", "why_tests_cant": "2**128 draws cannot be executed; correctness relies on the LCG returning to its start", "anchors": ["randomgen/src/lxm/lxm.c:lxm_jump", "randomgen/lxm.pyx"]}
{"id": "C31", "title": "linear generators never fall into the all-zero state", "statement": "From a non-zero state Xoroshiro128, Xoshiro256, Xoshiro512, Xorshift1024 and the xorshift part of LXM never reach the all-zero state, distinct states never merge, and the all-zero state is a fixed point.", "quantifier": "all states, all numbers of draws", "why_tests_cant": "unbounded number of draws", "anchors": ["randomgen/src/xoroshiro128/xoroshiro128.h", "randomgen/src/xoshiro256/xoshiro256.h", "randomgen/src/xoshiro512/xoshiro512.h", "randomgen/src/xorshift1024/xorshift1024.h", "randomgen/src/lxm/lxm.h"]}
{"id": "C32", "title": "Xoroshiro128 and Xoshiro256 have maximal period", "statement": "From every non-zero state the state sequence first returns after exactly 2**128-1 (Xoroshiro128, both variants) respectively 2**256-1 (Xoshiro256, xorshift part of LXM) draws.", "quantifier": "all non-zero states", "why_tests_cant": "periods cannot be enumerated", "anchors": ["randomgen/src/xoroshiro128/xoroshiro128.h", "randomgen/src/xoshiro256/xoshiro256.h"]}
{"id": "C33", "title": "streams created by repeated jumped() do not overlap", "statement": "With at most 2**64 generators obtained by jumping Xoroshiro128 (2**128 for Xoshiro256), each drawing fewer than the jump length, no two generators ever share a state.", "quantifier": "all non-zero starting states, all pairs of streams, all positions", "why_tests_cant": "statement about all pairs of positions in streams of astronomic length", "anchors": ["randomgen/xoroshiro128.pyx:Xoroshiro128.jumped", "randomgen/xoshiro256.pyx:Xoshiro256.jumped"]}
{"id": "C34", "title": "MT19937 outputs follow the defining recurrence", "statement": "However draws are grouped into block regenerations, the n-th output of MT19937 is the tempering of the n-th term of the 624-term linear recurrence started from the state array.", "quantifier": "all state arrays, all n", "why_tests_cant": "n is unbounded, block boundaries occur every 624 draws", "anchors": ["randomgen/src/mt19937/mt19937.c:mt19937_gen", "randomgen/src/mt19937/mt19937.h:mt19937_next"]}
{"id": "C35", "title": "MT19937.jumped resumes the stream 2**128 draws later", "statement": "jumped() returns a generator whose outputs are those the original would produce after 2**128 further draws, from any position within its block and for arbitrarily many subsequent draws.", "quantifier": "all states, positions and numbers of subsequent draws", "why_tests_cant": "2**128 draws cannot be executed; the divergence only shows after the first partial block", "anchors": ["randomgen/src/mt19937/mt19937-jump.c", "randomgen/mt19937.pyx:MT19937.jumped"]}
{"id": "C36", "title": "multi-jumps cover exactly count * 2**128 steps", "statement": "For MT19937, SFMT and DSFMT, jumped(n) applies table jumps whose strides sum to exactly n * 2**128 for every n, and terminates.", "quantifier": "all non-negative n", "why_tests_cant": "n is unbounded; greedy decomposition errors appear for particular digit patterns", "anchors": ["randomgen/src/mt19937/mt19937-jump.c:mt19937_jump_n", "randomgen/src/sfmt/sfmt-jump.c", "randomgen/src/dsfmt/dSFMT-jump.c"]}
{"id": "C37", "title": "seeded Mersenne Twisters never start in the degenerate state", "statement": "Whatever the seed words, MT19937, MT64 and SFMT start outside the all-zero (or short-period) states: MT's first word has its top bit set, and SFMT's period certification makes the parity check inner product odd while changing at most one bit.", "quantifier": "all seed arrays of any length", "why_tests_cant": "seed arrays are unbounded", "anchors": ["randomgen/src/mt19937/mt19937.c:mt19937_init_by_array", "randomgen/src/mt64/mt64.c:mt64_init_by_array", "randomgen/src/sfmt/sfmt.c:period_certification"]}
{"id": "C38", "title": "DSFMT doubles are always in [0,1)", "statement": "Every double produced by DSFMT lies in [0,1): the state words keep the exponent pattern of [1,2) for ever, for every seed.", "quantifier": "all seeds, all numbers of draws", "why_tests_cant": "unbounded number of draws; an exponent corruption would be a rare bit pattern", "anchors": ["randomgen/src/dsfmt/dSFMT-common.h:do_recursion", "randomgen/src/dsfmt/dsfmt.c", "randomgen/src/dsfmt/dsfmt.h"]}
{"id": "C39", "title": "no two states of the chaotic generators ever merge", "statement": "For JSF (all parameters), SFC64, EFIIX64, Romu (both variants) and Tyche (both variants) one draw is an invertible map of the state, so two generators in different states never come to coincide and every trajectory returns to its start.", "quantifier": "all pairs of states, all parameters, all numbers of draws", "why_tests_cant": "statement about all pairs of states", "anchors": ["randomgen/src/jsf/jsf.h", "randomgen/src/sfc/sfc.h", "randomgen/src/efiix64/efiix64.h", "randomgen/src/romu/romu.h", "randomgen/src/tyche/tyche.h"]}
{"id": "C40", "title": "SFC64 with an odd Weyl increment has period at least 2**64", "statement": "For every seed and every odd k the state of SFC64 does not repeat within 2**64 draws.", "quantifier": "all states, all odd k", "why_tests_cant": "2**64 draws cannot be enumerated", "anchors": ["randomgen/src/sfc/sfc.h", "randomgen/sfc.pyx"]}
{"id": "C41", "title": "weyl_increments returns distinct odd numbers with the requested bit counts", "statement": "SFC64.weyl_increments(n, max_bits, min_bits) returns n pairwise distinct odd integers whose number of one bits lies between min_bits and max_bits, and refuses exactly when n exceeds the number of such integers.", "quantifier": "all n, max_bits, min_bits, all internal random streams", "why_tests_cant": "boundary draw of the internal integer sampler has probability 1/total; unbounded rejection loop", "anchors": ["randomgen/sfc.pyx:SFC64.weyl_increments", "randomgen/sfc.pyx:SFC64.generate_bits", "randomgen/sfc.pyx:choosek"]}
{"id": "C42", "title": "different integer seeds give different generator states", "statement": "Two different non-negative integer seeds below 2**128 never produce the same entropy pool, and never the same words from generate_state with four or more 32-bit words (two or more 64-bit words).", "quantifier": "all pairs of seeds below 2**128", "why_tests_cant": "2**255 pairs", "anchors": ["randomgen/_seed_sequence.pyx:SeedSequence.mix_entropy", "randomgen/_seed_sequence.pyx:SeedSequence.generate_state"]}
{"id": "C43", "title": "spawned children never share a spawn key", "statement": "Over any history of spawn calls on a sequence and its descendants, all children ever created have pairwise different spawn keys.", "quantifier": "all finite histories of spawn(n) calls on all nodes of the tree", "why_tests_cant": "histories are unbounded trees", "anchors": ["randomgen/_seed_sequence.pyx:SeedSequence.spawn"]}
{"id": "C44", "title": "spawned children never coincide with other seed sequences", "statement": "The words hashed for a child (entropy plus spawn key) are never the words hashed for a different (entropy, spawn key) pair.", "quantifier": "all pairs of integer entropies and spawn keys", "why_tests_cant": "statement about all pairs; ambiguity arises only when entropy is longer than the pool", "anchors": ["randomgen/_seed_sequence.pyx:SeedSequence.get_assembled_entropy"]}
{"id": "C45", "title": "generate_state is prefix consistent", "statement": "Asking for more words never changes the earlier ones: generate_state(m) is a prefix of generate_state(n) for m <= n, and the 64-bit form is the 32-bit form of twice the length with words paired low half first.", "quantifier": "all pools of any size, all m <= n", "why_tests_cant": "lengths are unbounded", "anchors": ["randomgen/_seed_sequence.pyx:SeedSequence.generate_state"]}
{"id": "C46", "title": "seed integers of any size are split into 32-bit words without loss", "statement": "A non-negative integer seed of any size is converted to 32-bit words that determine it uniquely, with no trailing zero word except for zero itself; negative integers are rejected.", "quantifier": "all integers", "why_tests_cant": "integers are unbounded", "anchors": ["randomgen/_seed_sequence.pyx:_int_to_uint32_array"]}
{"id": "C47", "title": "random_raw draws exactly the requested number of values", "statement": "random_raw(size) consumes exactly prod(size) raw draws from the generator, with output=True and with output=False alike, so both leave the generator in the same state.", "quantifier": "all shapes", "why_tests_cant": "the count can be wrong only for multi-dimensional shapes; shapes are unbounded tuples", "anchors": ["randomgen/common.pyx:BitGenerator.random_raw"]}
{"id": "C48", "title": "RDRAND never returns unflagged non-random data nor reads outside its buffer", "statement": "After any hardware failure pattern the status flag is 0 from the first exhausted retry on and every draw stays inside the 256-word buffer.", "quantifier": "all hardware success/failure traces, all interleavings of draw kinds", "why_tests_cant": "hardware failures cannot be provoked on demand and the trace space is unbounded", "anchors": ["randomgen/src/rdrand/rdrand.h", "randomgen/rdrand.pyx:rdrand_uint64", "randomgen/rdrand.pyx:RDRAND.random_raw"]}
{"id": "C49", "title": "pickled generators are rebuilt by the class that wrote them", "statement": "For every generator class of the package the name stored in its state resolves to exactly that class on unpickling, short and qualified names agree, and unknown names are rejected.", "quantifier": "all registered names and all other strings", "why_tests_cant": "all strings", "anchors": ["randomgen/_pickle.py", "randomgen/_register.py"]}
{"id": "C50", "title": "shape broadcasting follows NumPy's rule", "statement": "The broadcast shape computed for multivariate samplers equals NumPy's broadcasting result for shapes with positive dimensions, is symmetric, and incompatible shapes are refused.", "quantifier": "all pairs of shapes of any length", "why_tests_cant": "shapes are unbounded tuples", "anchors": ["randomgen/generator.pyx:broadcast_shape"]}
{"id": "C51", "title": "user supplied generators are adapted consistently", "statement": "A UserBitGenerator built from a 32-bit source composes 64-bit values high word first from two consecutive raw draws and doubles from 27+26 bits; one built from a 64-bit source uses the high 32 bits and the high 53 bits; each adapted draw consumes a fixed number of raw draws.", "quantifier": "all raw streams", "why_tests_cant": "streams are unbounded", "anchors": ["randomgen/wrapper.pyx"]}
{"id": "C52", "title": "the stream is fixed by the source, not by compiler evaluation order", "statement": "Every 64-bit draw assembled from two 32-bit draws yields the same value under every evaluation order the C standard allows.", "quantifier": "all states of the generators that assemble 64 bits from two 32-bit calls in one expression", "why_tests_cant": "one compiler exhibits one order", "anchors": ["randomgen/src/pcg32/pcg32.h", "randomgen/src/jsf/jsf.h", "randomgen/src/chacha/chacha.h", "randomgen/src/tyche/tyche.h", "randomgen/src/hc-128/hc-128.h", "randomgen/src/squares/squares.h", "randomgen/src/philox/philox.h"]}
{"id": "C53", "title": "seed_by_array expands scalar seeds injectively", "statement": "seed_by_array never maps two different scalar seeds to the same state of one or more words, returns exactly n words, and for n at least the seed length every seed word influences the state.", "quantifier": "all pairs of 64-bit seeds, all n >= 1", "why_tests_cant": "2**127 pairs", "anchors": ["randomgen/entropy.pyx:seed_by_array", "randomgen/src/splitmix64/splitmix64.h"]}
{"id": "C54", "title": "spawned siblings are seeded with different words everywhere", "statement": "Two different children of one seed sequence (any entropy, any pool size) have pools that differ in every word, and every word of generate_state differs between them.", "quantifier": "all entropies, all keys and child indices below 2**32, all pool sizes, all word positions", "why_tests_cant": "all pairs of children of all sequences", "anchors": ["randomgen/_seed_sequence.pyx:SeedSequence.mix_entropy", "randomgen/_seed_sequence.pyx:SeedSequence.generate_state", "randomgen/_seed_sequence.pyx:SeedSequence.spawn"]}
{"id": "C55", "title": "Romu is never seeded into its absorbing zero state", "statement": "Whatever four words the seed sequence produces, the words the selected Romu variant actually uses are not all zero after seeding, so the generator is never stuck at zero.", "quantifier": "all generated seed words, both variants, all numbers of later draws", "why_tests_cant": "the bad seeds are 1 in 2**192 (trio) or 2**256 (quad)", "anchors": ["randomgen/romu.pyx:Romu._seed_from_seq", "randomgen/src/romu/romu.c:romu_seed", "randomgen/src/romu/romu.h"]}
{"id": "C56", "title": "warm-up never merges two seeds", "statement": "Seeding JSF (any seed_size), SFC64, Romu and Tyche from different generated words (and, for Tyche, different idx) leaves different states, which stay different after any number of draws.", "quantifier": "all pairs of seed words and indices, all parameters, all numbers of draws", "why_tests_cant": "up to 2**511 pairs of seeds", "anchors": ["randomgen/src/jsf/jsf.c", "randomgen/src/sfc/sfc.c", "randomgen/src/romu/romu.c", "randomgen/src/tyche/tyche.c", "randomgen/tyche.pyx:Tyche._seed_from_seq"]}
{"id": "C57", "title": "counter-driven generators have no short cycles", "statement": "Every cycle of EFIIX64 has a length divisible by 2**64; SplitMix64 has exactly one cycle, of length 2**64, and returns every 64-bit value exactly once per cycle.", "quantifier": "all states, all numbers of draws, all output values", "why_tests_cant": "2**64 draws cannot be enumerated", "anchors": ["randomgen/src/efiix64/efiix64.h", "randomgen/src/splitmix64/splitmix64.h"]}
{"id": "C58", "title": "different SFC64 seeds do not run into each other", "statement": "Two SFC64 generators seeded with different words and the same w and odd k have no state in common within their first 2**64 draws, at any pair of positions.", "quantifier": "all pairs of seeds, all w, all odd k, all pairs of positions below 2**64", "why_tests_cant": "2**128 pairs of positions for every pair of seeds", "anchors": ["randomgen/src/sfc/sfc.h", "randomgen/src/sfc/sfc.c", "randomgen/sfc.pyx:SFC64._seed_from_seq"]}
{"id": "C59", "title": "SFC64 always runs with an odd Weyl increment", "statement": "Whatever w and k are given to the constructor (k odd, even or None), the Weyl increment in use is odd: the documentation says an even k has 1 added.", "quantifier": "all w, all k, all seeds", "why_tests_cant": "2**63 even values", "anchors": ["randomgen/sfc.pyx:SFC64.__init__", "randomgen/sfc.pyx:SFC64._seed_from_seq"]}
{"id": "C60", "title": "Philox and ThreeFry jumps move the counter by exactly iter*2**(W*N/2)", "statement": "For every reachable Philox or ThreeFry state (two or four words of 32 or 64 bits) and every iter >= 1, jumped(iter) drops the rest of the current block and skips exactly iter * 2**(W*N/2) blocks of N words, modulo 2**(W*N) blocks; advance(delta, counter=True) does the same with delta blocks.", "quantifier": "all states, keys, counters, all iter and delta, four variants each", "why_tests_cant": "the wrong cases need iter near 2**126; tests use iter 1 to 3", "anchors": ["randomgen/philox.pyx:Philox.jump_inplace", "randomgen/philox.pyx:Philox.advance", "randomgen/src/philox/philox.c:philox4x64_advance", "randomgen/threefry.pyx:ThreeFry.advance"]}
{"id": "C61", "title": "all double-word multiplications of Philox agree", "statement": "For every pair of words the C99 four-multiplication form of mulhilo and the double-word form both return the exact high and low words of the product.", "quantifier": "all pairs of words, every even word width", "why_tests_cant": "2**128 pairs; carries of the cross terms happen rarely", "anchors": ["randomgen/src/philox/philox.h:_mulhilo_c99_tpl", "randomgen/src/philox/philox.h:_mulhilo_dword_tpl"]}
{"id": "C62", "title": "ChaCha never feeds its core the same block twice", "statement": "The ChaCha core is a permutation of the 16-word block for every round count, and inputs built from different keys, streams or block numbers (counter divided by 16, over the full 128 bits) are always different.", "quantifier": "all keys, streams, 128-bit counters and round counts", "why_tests_cant": "2**124 blocks per stream and 2**256 key/stream pairs; the counter is split over four words with overlapping shifts", "anchors": ["randomgen/src/chacha/chacha.h:142-192"]}
{"id": "C63", "title": "Squares key generation stays inside the words it drew", "statement": "The sampler behind Squares keys reads each word it drew from the seed sequence in order, asks for more before it runs out and never indexes past the array, and shuffle indices stay inside the array.", "quantifier": "all seed sequences (all word sequences they can deliver) and all lengths of the rejection loops", "why_tests_cant": "the over-read needs ten 64-bit words to be used up by rejections, which never happens for the handful of seeds in the tests", "anchors": ["randomgen/squares.pyx:65-147", "randomgen/squares.pyx:150-187"]}
{"id": "C64", "title": "Mersenne Twister tempering loses no information", "statement": "The tempering of MT19937 and MT64 is injective, so 624 consecutive 32-bit outputs of MT19937 determine every later output.", "quantifier": "all words, all states with a valid position", "why_tests_cant": "2**64 words for MT64; the statement about streams is for all arrays", "anchors": ["randomgen/src/mt19937/mt19937.h:23-39", "randomgen/src/mt64/mt64.h:89-103"]}
{"id": "C65", "title": "SFMT and DSFMT draws follow the 128-bit recurrence across buffer refills", "statement": "From every state with a buffer location inside the buffer, the n-th 64-bit draw of SFMT (and the n-th double of DSFMT) is what is left in the buffer followed by the halves, low half first, of successive 128-bit words of the published recursion started by the state array.", "quantifier": "all states, all n", "why_tests_cant": "the block routine has four loops with different wrap-around rules; tests compare the first 1000 outputs of two seeds", "anchors": ["randomgen/src/sfmt/sfmt.h:320-333", "randomgen/src/sfmt/sfmt.c:99-134", "randomgen/src/sfmt/sfmt-common.h:140-156", "randomgen/src/dsfmt/dsfmt.c:140-168", "randomgen/src/dsfmt/dsfmt.h:652-662"]}
{"id": "C66", "title": "SFMT, DSFMT and MT19937 jumps evaluate the jump polynomial", "statement": "SFMT_jump and dSFMT_jump replace word i of the state by the sum (xor) of the words x(k+i) of the recurrence over all k whose coefficient in the jump string is one; with the tables of the package this is x(2**e + i), for every state. MT19937's Horner jump does the same on the array read cyclically from the position on (of the first word only the top bit is determined).", "quantifier": "all states, all polynomials; the five tables", "why_tests_cant": "a wrong coefficient among 20000 shows only in states the tests do not compare with a reference stream; no test can draw 2**128 numbers", "anchors": ["randomgen/src/sfmt/sfmt-jump.c:54-124", "randomgen/src/dsfmt/dSFMT-jump.c:60-179", "randomgen/src/sfmt/sfmt-poly.h", "randomgen/src/dsfmt/dSFMT-poly.h", "randomgen/src/mt19937/mt19937-jump.c", "randomgen/src/mt19937/mt19937-poly.h"]}
{"id": "C67", "title": "HC128 delivers the keystream of the reference cipher", "statement": "For every key and IV the sixteen-fold unrolled HC128 code (setup, table updates, output) delivers word for word the keystream of the plain one-step-at-a-time reference algorithm of HC-128, for any number of draws and without leaving its tables.", "quantifier": "all 256-bit seeds, all numbers of draws; also all table contents at a block boundary", "why_tests_cant": "2**256 keys; the unrolled code indexes tables with sixteen different offset patterns and wraps at 512 words, where a slip shows only after hundreds of draws", "anchors": ["randomgen/src/hc-128/hc-128.h", "randomgen/src/hc-128/hc-128.c", "randomgen/src/hc-128/hc128_ref.h"]}
{"id": "C68", "title": "SFMT and DSFMT jumped(n) resume the stream n * 2**128 draws later", "statement": "The generator returned by SFMT.jumped(n) or DSFMT.jumped(n) draws what the original draws after n * 2**128 further draws (64-bit numbers for SFMT, doubles for DSFMT), as the documentation of jump and jumped says.", "quantifier": "all states with a buffer location inside the buffer, all n, all following draws", "why_tests_cant": "nobody can draw 2**128 numbers; the distance follows only from the algebra of the recurrence and from how many draws one 128-bit word gives", "anchors": ["randomgen/sfmt.pyx:173-235", "randomgen/dsfmt.pyx:173-235", "randomgen/src/sfmt/sfmt.c:443-464", "randomgen/src/dsfmt/dsfmt.c:635-656"]}
{"id": "C69", "title": "complex_normal has the documented moments and validates its parameters exactly", "statement": "ExtendedGenerator.complex_normal accepts (gamma, relation) exactly when gamma is real and the implied covariance matrix of real and imaginary part is positive semidefinite, alike for scalars and arrays of any broadcastable shapes; the variable built from two uncorrelated standard normals then has mean loc, variances Re(gamma +- relation)/2 and covariance Im(relation)/2.", "quantifier": "all complex loc, gamma, relation; all pairs of standardised uncorrelated variables; all broadcastable shapes", "why_tests_cant": "the statement is about exact moments for a continuum of parameters; sampling tests see them only up to Monte Carlo error and at a few parameters", "anchors": ["randomgen/generator.pyx:553-722", "randomgen/common.pxd:49-63"]}
{"id": "C70", "title": "standard_wishart samples are A^T A of the documented construction", "statement": "Every sample that standard_wishart writes is A^T A, where for df >= dim A is the upper triangular matrix of Odell and Feiveson built from that sample's own dim(dim+1)/2 consecutive calls (chi-squares with df, df-1, ... degrees of freedom on the diagonal) and for df < dim A is the df by dim block of normals; hence symmetric, positive semidefinite, independent of the buffers' contents, with expected value df * I (I with rescale), and nothing outside the buffers is written.", "quantifier": "all dimensions, degrees of freedom, numbers of samples, values of the drawn variates, contents of the work buffers", "why_tests_cant": "the loops update one matrix through two aliases and a work buffer shared by all samples; tests look at shapes and at averages of a few sizes", "anchors": ["randomgen/src/distributions/rg-distributions.c:60-86", "randomgen/generator.pyx:722-808"]}
{"id": "C71", "title": "wishart has expected value df * scale", "statement": "The expected value of the matrices drawn by wishart(df, scale) is df * scale for each of the methods svd, eigh, cholesky (and df * A A^T for method factor with factor A).", "quantifier": "all positive semidefinite scales, all decompositions the linear algebra library may return, all df", "why_tests_cant": "the tests compare moments only for multiples of the identity, where a transposed factor cannot be seen", "anchors": ["randomgen/generator.pyx:66-118", "randomgen/generator.pyx:810-990"]}
{"id": "C72", "title": "multivariate_normal has the requested mean and covariance", "statement": "The expected value of multivariate_normal(mean, cov) is mean and its covariance is cov, for the methods svd, eigh and cholesky; with method factor and a factor A, documented by A @ A.T = cov, the covariance is A @ A.T.", "quantifier": "all means, all positive semidefinite covariances, all decompositions returned, all uncorrelated standardised inputs", "why_tests_cant": "moments can be tested only up to sampling error and for a few matrices", "anchors": ["randomgen/generator.pyx:66-118", "randomgen/generator.pyx:377-551"]}
{"id": "C73", "title": "multivariate_normal returns samples of shape size + (N,)", "statement": "For a one-dimensional mean and a single covariance the result has shape size + (N,) for every size, and (N,) without size.", "quantifier": "all sizes, of any number of dimensions, including zeros and ones", "why_tests_cant": "sizes are unbounded; the tests use none that begins with one or ends with zero", "anchors": ["randomgen/generator.pyx:499-551"]}
{"id": "C74", "title": "multivariate_complex_normal has the requested covariance and relation", "statement": "The draw Z of multivariate_complex_normal satisfies E[Z] = loc, E[(Z-loc)(Z-loc)^H] = gamma and E[(Z-loc)(Z-loc)^T] = relation for every factor of the assembled covariance; the assembled matrix is symmetric exactly when gamma is Hermitian and relation symmetric; parameters with any broadcastable leading dimensions are processed.", "quantifier": "all dimensions, all loc, gamma, relation, all leading dimensions", "why_tests_cant": "the real and imaginary blocks are permuted into interleaved order; a slip shows in moments between different components only, which tests see up to sampling error", "anchors": ["randomgen/generator.pyx:1120-1241"]}
{"id": "C75", "title": "ExtendedGenerator.random fills exactly the requested array", "statement": "random(size, dtype, out) accepts out exactly when it is a contiguous well-behaved array of the dtype whose shape is size (if given), fills it with that many consecutive draws in the order of the elements, draws nothing when it refuses, and has no undefined behaviour.", "quantifier": "all generators, states, dtypes, sizes and output arrays", "why_tests_cant": "sizes beyond 2**31 elements and all combinations of flags are out of reach of tests", "anchors": ["randomgen/generator.pyx:294-375", "randomgen/broadcasting.pyx:79-168", "randomgen/src/distributions/rg-distributions.c:14-58"]}
{"id": "C76", "title": "the period of MT19937 and MT64 is exactly 2**19937 - 1", "statement": "From every seed, and from every state whose array is not zero in all the bits the recurrence reads and whose position is not 0, n is a period of the stream of outputs of MT19937 (and of MT64) exactly if 2**19937 - 1 divides n; at position 0 this holds from the second output on.", "quantifier": "all seeds, all non-degenerate states, all n, all outputs", "why_tests_cant": "the period has 6002 decimal digits; it follows from the primitivity of a polynomial of degree 19937 and the primality of 2**19937 - 1", "anchors": ["randomgen/src/mt19937/mt19937.c:46-113", "randomgen/src/mt19937/mt19937.h", "randomgen/src/mt64/mt64.c:60-132", "randomgen/src/mt64/mt64.h:89-103"]}
{"id": "C77", "title": "SFMT and DSFMT reach the period the certification promises", "statement": "From every seed the stream of outputs of SFMT repeats after 2 (2**19937 - 1) 268394497 outputs and every period of it, or of any tail of it, is a multiple of 2**19937 - 1; the same for DSFMT with 4 (2**19937 - 1) 8778913150980. Both hold for every state whose certification parity is one.", "quantifier": "all seeds, all certified states, all n, all tails", "why_tests_cant": "the period has 6002 decimal digits; the certification is a check of one parity, and that it excludes the short orbits depends on the factors of a polynomial of degree 19968 (19992)", "anchors": ["randomgen/src/sfmt/sfmt.c:175-208", "randomgen/src/sfmt/sfmt-params19937.h:14-17", "randomgen/src/dsfmt/dsfmt.c:335-375", "randomgen/src/dsfmt/dSFMT-params19937.h:14-17"]}
{"id": "C78", "title": "the outputs of the xor-linear generators have the full period and are equidistributed", "statement": "From every non-zero state, n is a period of the outputs (from any output on) exactly if it is a multiple of 2**128-1 (Xoroshiro128, both variants), 2**256-1 (Xoshiro256), 2**512-1 (Xoshiro512), 2**1024-1 (Xorshift1024) and (2**256-1) 2**64 (LXM with odd increment). Over one period every window of 4, 8, 16 outputs of Xoshiro256, Xoshiro512, Xorshift1024 but the zero window occurs exactly once, every output of Xoroshiro128 2**64 times (0 once less), every output of LXM 2**256-1 times. The state of Xorshift1024 returns only after 16 (2**1024-1) draws.", "quantifier": "all non-zero states, all values, all windows, all n", "why_tests_cant": "the periods are at least 2**128 draws; they depend on the complete factorisation of 2**1024-1 and on the order of the step modulo each factor", "anchors": ["randomgen/src/xoroshiro128/xoroshiro128.h", "randomgen/src/xoshiro256/xoshiro256.h", "randomgen/src/xoshiro512/xoshiro512.h", "randomgen/src/xorshift1024/xorshift1024.h", "randomgen/src/lxm/lxm.h", "doc/source/parallel.rst:131-167"]}
{"id": "C79", "title": "the outputs of PCG64, LCG128Mix and PCG32 have the full period and are equidistributed", "statement": "For every seed and stream, n is a period of the outputs of PCG64 (every variant) exactly if 2**128 divides it, of PCG32 exactly if 2**64 divides it; over one period every 64-bit output of PCG64 occurs exactly 2**64 times, every 32-bit output of PCG32 exactly 2**32 times. The same holds for LCG128Mix and every output function of the package with multipliers that are 1 modulo 4, except that the period of the outputs is 2**64 for the output function lower; among the odd multipliers the constructor accepts, those that are 1 modulo 4 are exactly the ones for which the documented period of 2**128 holds.", "quantifier": "all states, all odd increments, all multipliers, all output functions, all values, all n", "why_tests_cant": "2**64 and 2**128 draws cannot be enumerated; the outputs could have a shorter period than the states", "anchors": ["randomgen/src/pcg64/pcg64-common.h:104-140", "randomgen/src/pcg64/pcg64-v2.h:85-100", "randomgen/src/pcg64/lcg128mix.h:50-74", "randomgen/src/pcg32/pcg32.h:18-46", "randomgen/pcg64.pyx:658-661"]}
{"id": "C80", "title": "MT19937 is equidistributed in 623 dimensions, MT64 in 311", "statement": "From every seed, and every non-degenerate state at a position other than 0, over one period of 2**19937 - 1 outputs every sequence of 623 32-bit values occurs exactly twice as successive outputs of MT19937, the sequence of zeros once; every sequence of 311 64-bit values occurs exactly 2**33 times as successive outputs of MT64, the sequence of zeros once less.", "quantifier": "all seeds, all non-degenerate states, all sequences of values", "why_tests_cant": "the sequences number 2**19936; the claim is about all of them at once", "anchors": ["randomgen/src/mt19937/mt19937.c:46-113", "randomgen/src/mt19937/mt19937.h", "randomgen/src/mt64/mt64.h:89-103", "randomgen/mt64.pyx:88"]}
{"id": "C81", "title": "the outputs of SPECK128, AESCounter, Philox and ThreeFry have the full period and are equidistributed", "statement": "From every reachable state, n is a period of the 64-bit outputs of SPECK128 and AESCounter (from any output on) exactly if 2**129 divides n, and of the w-bit outputs of Philox and ThreeFry exactly if N 2**(w N) divides n; over one period every 64-bit value is returned exactly 2**65 times (every w-bit value N 2**(w (N-1)) times), and every block of two (N) words is produced exactly once. The documented periods 2**128 (AESCounter) and 2**256 (parallel.rst) are not periods of the outputs.", "quantifier": "all keys, counters, buffer positions, round counts, all variants, all values, all n", "why_tests_cant": "the periods are at least 2**65 draws; equidistribution depends on the block functions being permutations for every key", "anchors": ["randomgen/src/speck-128/speck-128.h", "randomgen/src/aesctr/aesctr.h", "randomgen/src/philox/philox.h", "randomgen/src/threefry/threefry.h", "randomgen/aes.pyx:60-65", "randomgen/speck128.pyx:68-73", "randomgen/philox.pyx:110", "randomgen/threefry.pyx:100", "doc/source/parallel.rst:131-167"]}
{"id": "C82", "title": "the period of the 64-bit outputs of ChaCha", "statement": "The 32-bit outputs of ChaCha have the exact period 2**128 and the 64-bit outputs 2**127, for every key, stream and counter.", "quantifier": "all keys, streams, counters and round counts, all n", "why_tests_cant": "2**127 draws cannot be enumerated; the block function is a permutation plus a feed-forward and so not itself a permutation", "anchors": ["randomgen/src/chacha/chacha.h:167-206", "randomgen/chacha.pyx:66-72", "doc/source/parallel.rst:138"]}
{"id": "C83", "title": "AESCounter is AES-128 of FIPS-197 in counter mode", "statement": "The S-box, the key schedule and the encryption of softaes.h are those of FIPS-197 (defined from the field GF(2**8), not from tables), for every key and block; draw n after seeding with key and counter is eight bytes of the encryption of counter + n/2 modulo 2**128, little-endian, the first eight for even n and the last eight for odd n.", "quantifier": "all 128-bit keys and counters, all blocks, all draws", "why_tests_cant": "2**256 key-block pairs; a wrong table entry or carry may be missed by every sampled vector", "anchors": ["randomgen/src/aesctr/softaes.h", "randomgen/src/aesctr/aesctr.h", "randomgen/src/aesctr/aesctr.c"]}
{"id": "C84", "title": "the AES-NI code and the portable AES code are interchangeable, whatever the use_aesni flag", "statement": "The AES-NI refill and key schedule leave the same state as the portable ones; whatever the host and however a program interleaves seeding, drawing and assignments to use_aesni on any number of generators, the draws and generators are those of the portable code and the flag is never set on a host without the instructions. An assignment to use_aesni stays in force.", "quantifier": "all hosts, states, keys, programs of any length over any number of generators", "why_tests_cant": "a test machine has one processor; the flag is shared by all generators of a process, so the interleavings are unbounded", "anchors": ["randomgen/src/aesctr/aesctr.h", "randomgen/src/aesctr/aesctr.c", "randomgen/aes.pyx:158-179"]}
{"id": "C85", "title": "SPECK128 is SPECK128/256 in counter mode", "statement": "The round keys are those of the schedule of SPECK128/256 by its designers for every key; draw n after seeding is a word of the encryption, reduced to the chosen number of rounds, of counter + n/2 modulo 2**128, the y word for even n and the x word for odd n, for the portable and the SSE code.", "quantifier": "all 256-bit keys, 128-bit counters, rounds up to 34, all draws", "why_tests_cant": "2**384 inputs; endianness and word order can agree on sampled vectors and differ elsewhere", "anchors": ["randomgen/src/speck-128/speck-128.h", "randomgen/src/speck-128/speck-128.c"]}
{"id": "C86", "title": "ChaCha is Bernstein's ChaCha", "statement": "Draw n of ChaCha with an even number of rounds, seeded with a 256-bit key and a 128-bit counter, is word (counter + n) mod 16 of the ChaCha block with that key whose block number and nonce are ((counter + n) mod 2**128)/16, for the portable code and both SSE builds.", "quantifier": "all keys, counters, even round counts, all draws", "why_tests_cant": "2**384 inputs per round count; the code computes rows, rotations of rows and two SSE variants", "anchors": ["randomgen/src/chacha/chacha.h:96-206", "randomgen/src/chacha/chacha.c"]}
{"id": "C87", "title": "ThreeFry is reduced Threefish, Philox is the cipher of Salmon et al., and the unrolled code is the loop", "statement": "The 40 (90, 16) guarded blocks of the unrolled threefry2x, threefry4x and philox functions compute the loop for every number of rounds; threefry4x64 with 72 rounds is Threefish-256 of the Skein paper with tweak zero, and with 4m rounds its reduction; draw n after seed(key, counter) is word n mod N of 20 rounds of Threefry (10 rounds of Philox) of the block number counter + 1 + n/N, in all four variants each; the Weyl constants are the scaled golden ratio and square root of 3.", "quantifier": "all keys, counters, numbers of rounds, variants, draws", "why_tests_cant": "one wrong subkey index or rotation in 550 unrolled statements can hide behind a round count that is not the default; 2**512 inputs", "anchors": ["randomgen/src/threefry/threefry.h:66-294", "randomgen/src/threefry/threefry.h:296-724", "randomgen/src/philox/philox.h:231-349"]}
{"id": "C88", "title": "the aligned allocator is memory safe, aligned and keeps contents, for every program that uses it", "statement": "Any program of aligned malloc, calloc, realloc, free and writes, on any heap of other users' blocks and with any answers of the system allocator, makes no undefined access or call as long as no request exceeds 2**64 - 72 bytes; every pointer is a multiple of 64 with its payload and header inside one live block, payloads are apart, calloc gives zeros, realloc keeps the common prefix, failed requests change nothing, other users' memory is not touched, and after the last free no block is left over. Requests that wrap around (also the unchecked product in calloc) and free of NULL are undefined.", "quantifier": "all programs of any length, all request sizes, all answers of the system allocator, all previous memory contents", "why_tests_cant": "the system allocator rarely moves a block on realloc or answers with an awkward offset, and sanitizers see only the executions that occur", "anchors": ["randomgen/src/aligned_malloc/aligned_malloc.h:7-52"]}
{"id": "C89", "title": "the SIMD and portable code of SPECK128 and ChaCha are interchangeable, whatever the process-wide flags", "statement": "Whatever the host and however a program interleaves seeding, drawing, advancing and assignments to use_sse41 (use_simd) on any number of generators, the draws and generators are those of the portable code and vector code runs only on hosts that have it; the feature flags are the documented CPUID bits; the property reports what the next draw runs; an assignment stays in force.", "quantifier": "all hosts, CPUID answers, states, programs of any length over any number of generators", "why_tests_cant": "a test machine has one processor; the flag is shared by all generators of a process, so the interleavings are unbounded", "anchors": ["randomgen/src/common/cpu_features.c", "randomgen/src/speck-128/speck-128.c:8-34", "randomgen/src/speck-128/speck-128.h:105-122", "randomgen/speck128.pyx:234-259", "randomgen/src/chacha/chacha.c:10-56", "randomgen/src/chacha/chacha.h:167-201", "randomgen/chacha.pyx:162-186"]}
{"id": "C90", "title": "random_entropy returns what the system gave, in the shape asked for, and leaves nothing open", "statement": "Whatever the system answers, random_entropy(size) either raises RuntimeError or returns exactly the bytes read from the system in the shape asked for (with auto: or fallback words); no descriptor stays open; the mixing functions of the fallback are bijections, so no word of clock, processor time or process number is lost, and different readings give different words; sizes with a zero give an empty array.", "quantifier": "all sizes, all answers of the operating system, all sequences of requests, all clock readings", "why_tests_cant": "short reads, failing opens and missing providers do not happen on a test machine", "anchors": ["randomgen/src/entropy/entropy.c:79-173", "randomgen/entropy.pyx:20-27", "randomgen/entropy.pyx:124-196"]}
{"id": "C91", "title": "threads that share a bit generator share out its stream", "statement": "However the scheduler interleaves the accesses of any number of threads, method calls on one bit generator behave as if made one after the other: every call gets consecutive values, no value is drawn twice or lost, the final state is that of one thread making all calls, a saved state is one the generator was in, and there is no deadlock.", "quantifier": "all schedules, all numbers of threads, all programs of method calls, all generators", "why_tests_cant": "races need a switch between two particular instructions; the number of schedules is exponential in the number of accesses", "anchors": ["randomgen/common.pyx:180-255", "randomgen/generator.pyx:262-372", "randomgen/generator.pyx:650-720", "randomgen/broadcasting.pyx:112-190", "randomgen/rdrand.pyx:60-99", "randomgen/rdrand.pyx:360-397", "randomgen/sfc.pyx:184", "randomgen/xoroshiro128.pyx:250-290"]}
{"id": "C92", "title": "array parameters of complex_normal are paired with the samples by NumPy's broadcasting rule", "statement": "complex_normal with array parameters returns an array of the requested shape (the common shape of the parameters without size) in which the sample at every index is made from two normals of its own and from each parameter at that index, broadcast by NumPy's rule; a size the parameters cannot be broadcast to is refused; no read is outside a parameter.", "quantifier": "all shapes of any number of axes, all strides (also negative and zero), all sizes, all parameter values", "why_tests_cant": "shapes, strides and sizes are unbounded; tests use equal shapes", "anchors": ["randomgen/generator.pyx:693-722", "randomgen/broadcasting.pyx:188-302"]}
{"id": "C93", "title": "multivariate_normal with batches pairs every sample with its mean, its covariance and normals of its own", "statement": "For means of shape (m..., N) and covariances of shape (c..., N, N) the result has the broadcast of m, c and size as leading shape, the sample at every index is made from the mean and the factor at that index, and from normals that no other sample uses; shapes that do not broadcast are refused.", "quantifier": "all leading shapes of means and covariances, all sizes", "why_tests_cant": "shapes are unbounded, and samples that share their normals look right one by one", "anchors": ["randomgen/generator.pyx:499-551"]}
{"id": "C94", "title": "doubles and 32-bit draws are uniform over the period, and their periods are exact", "statement": "Over one period of the generator every double m/2**53 occurs equally often, and so does every 32-bit value among the 32-bit draws (0 once less per word where the zero state is excluded); the periods of the doubles and of the 32-bit draws (or of the 64-bit draws of a 32-bit generator), from any draw on, are exactly the multiples of the stated number.", "quantifier": "all states on the long cycle (all seeds), all periods, all values", "why_tests_cant": "the periods are between 2**63 and 2**19937; truncation and caching of halves could shorten them unnoticed", "anchors": ["randomgen/common.pxd", "randomgen/src/xoroshiro128/xoroshiro128.h:53-79", "randomgen/src/xoshiro256/xoshiro256.h:38-48", "randomgen/src/xoshiro512/xoshiro512.h:47-59", "randomgen/src/xorshift1024/xorshift1024.h:25-35", "randomgen/src/lxm/lxm.h:62-72", "randomgen/src/pcg64/pcg64-v2.h:107-139", "randomgen/src/pcg64/lcg128mix.h:87-96", "randomgen/src/pcg32/pcg32.h:73-77", "randomgen/src/mt64/mt64.h:107-121", "randomgen/src/mt19937/mt19937.h:42-56", "randomgen/src/speck-128/speck-128.h:124-134", "randomgen/src/aesctr/aesctr.h:112-130", "randomgen/src/philox/philox.h:430-484", "randomgen/src/threefry/threefry.h:803-857"]}
{"id": "C95", "title": "a program using bit generators returns what places in streams promise", "statement": "Any program that creates instances of a class, re-seeds, draws 32-bit, 64-bit values and doubles, saves and restores states, jumps and advances, in any order and number, returns call by call the same results as an ideal world in which an instance is a place (word number and pending half word) in the stream belonging to its seed: restoring a state returns to its place in any instance, jumps and advances skip the documented number of words and drop the half, instances do not influence each other.", "quantifier": "all programs of any length, any number of instances and saved states, all seeds, parameters, jump and advance arguments", "why_tests_cant": "tests run single methods; interactions of seed, state, jump and cached halves over whole programs are unbounded", "anchors": ["randomgen/pcg64.pyx:633-965", "randomgen/squares.pyx:432-608", "randomgen/xoshiro256.pyx:105-260", "randomgen/xoshiro512.pyx:105-260", "randomgen/xoroshiro128.pyx:118-300", "randomgen/xorshift1024.pyx:105-265", "randomgen/lxm.pyx:118-285", "randomgen/sfc.pyx:115-230", "randomgen/romu.pyx:85-180", "randomgen/pcg64.pyx:157-494", "randomgen/pcg64.pyx:1060-1165", "randomgen/pcg32.pyx:95-293", "randomgen/efiix64.pyx:85-219", "randomgen/tyche.pyx:80-202", "randomgen/mt64.pyx:85-172", "randomgen/speck128.pyx:141-446", "randomgen/aes.pyx:131-415", "randomgen/chacha.pyx:136-294", "randomgen/jsf.pyx:190-326", "randomgen/hc128.pyx:114-206", "randomgen/philox.pyx:177-568", "randomgen/threefry.pyx:168-547", "randomgen/sfmt.pyx:116-299", "randomgen/dsfmt.pyx:117-290", "randomgen/mt19937.pyx:120-314"]}
{"id": "C96", "title": "a state the setter accepts runs the whole cycle of its generator", "statement": "After an assignment to state that raises nothing, the outputs have the period of the generator as their smallest period; in particular the generator does not output the same word for ever.", "quantifier": "all state dictionaries, all earlier states of the instance", "why_tests_cant": "the bad states are a vanishing fraction of the words a dictionary can hold, and a period of 2**128 cannot be run through", "anchors": ["randomgen/xoshiro256.pyx:259-272", "randomgen/xoshiro512.pyx:254-265", "randomgen/xoroshiro128.pyx:282-298", "randomgen/xorshift1024.pyx:257-269", "randomgen/lxm.pyx:276-289", "randomgen/pcg32.pyx:169-177", "randomgen/pcg64.pyx:329-354", "randomgen/pcg64.pyx:820-868", "randomgen/pcg64.pyx:1100-1125", "randomgen/mt19937.pyx:298-314", "randomgen/mt64.pyx:160-172", "randomgen/squares.pyx:534-549", "randomgen/hc128.pyx:204-229", "randomgen/sfmt.pyx:277-299", "randomgen/dsfmt.pyx:271-290", "randomgen/jsf.pyx:303-326", "randomgen/sfc.pyx:355-368", "randomgen/romu.pyx:182-196", "randomgen/tyche.pyx:189-202"]}
{"id": "C97", "title": "seeding the Mersenne twisters by array reaches every array, each equally often", "statement": "For keys as long as the array, which is what MT19937 and MT64 take from the SeedSequence: for every choice of the words of the array after the first and every first word of the key there is exactly one key that seeding by array turns into them, whatever was in memory before; two seeds give the same stream exactly when these words agree; so each stream that a seed of any length gives comes from exactly 2**32 (2**64) of the keys.", "quantifier": "all arrays, all keys, all old memory contents, all draws", "why_tests_cant": "2**19968 keys; a loop that loses information would lose a vanishing or an invisible part of the arrays", "anchors": ["randomgen/src/mt19937/mt19937.c:18-91", "randomgen/src/mt64/mt64.c:60-105", "randomgen/mt19937.pyx:129-136"]}
{"id": "C98", "title": "the documented recipes for parallel streams share out the cycle", "statement": "The generators that the recipes of doc/source/parallel.rst make (jumped() called again and again, or equally seeded generators advanced by multiples of a step) read the sequence of a lone generator from different places: draw k of generator i is word start_i + k of that sequence in whatever order the generators are used, and the first L words of all of them are at different places of the cycle; L is the length of a jump (of the step), and a third of the cycle divided by the number of jumps where jumps are the golden section of the cycle.", "quantifier": "all seeds (not all zero where the seed is the state), all numbers of streams that fit, all orders and numbers of draws", "why_tests_cant": "blocks of 2**64 words or more cannot be drawn, and that multiples of the golden section keep apart modulo 2**128 is a statement about 2**60 streams", "anchors": ["doc/source/parallel.rst:70-183", "randomgen/xoshiro256.pyx:162-235", "randomgen/xoshiro512.pyx:160-230", "randomgen/xoroshiro128.pyx:175-255", "randomgen/xorshift1024.pyx:155-230", "randomgen/lxm.pyx:175-250", "randomgen/sfmt.pyx:176-245", "randomgen/dsfmt.pyx:176-245", "randomgen/pcg64.pyx:356-494", "randomgen/pcg32.pyx:179-293", "randomgen/speck128.pyx:330-446", "randomgen/aes.pyx:300-415", "randomgen/philox.pyx:440-568", "randomgen/threefry.pyx:420-547"]}
{"id": "C99", "title": "different seeds give different streams", "statement": "Two generators of one class whose seed words differ draw different words: the first 4 (8, 16) draws of Xoshiro256 (Xoshiro512, Xorshift1024) determine the seed words; two instances of Xoroshiro128, LXM, PCG64, PCG64DXSM, PCG32 or LCG128Mix (with equal increments) agree on all draws only if their seed words agree. Hence different integer seeds below 2**128, and siblings spawned from one SeedSequence, give different streams; SFC64 siblings share no state at places less than 2**64 apart. With one key, the first block of SPECK128, AESCounter, Philox and ThreeFry determines the counter.", "quantifier": "all pairs of seeds, all entropies, spawn keys and pool sizes, all increments", "why_tests_cant": "pairs of seeds are 2**256 and more, and that two streams differ somewhere cannot be refuted by finitely many draws", "anchors": ["doc/source/parallel.rst:18-36", "randomgen/_seed_sequence.pyx:337-446", "randomgen/xoshiro256.pyx:130-141", "randomgen/xoshiro512.pyx:127-138", "randomgen/xorshift1024.pyx:130-142", "randomgen/xoroshiro128.pyx:154-160", "randomgen/lxm.pyx:144-155", "randomgen/pcg64.pyx:240-255", "randomgen/pcg64.pyx:718-745", "randomgen/pcg32.pyx:113-117", "randomgen/sfc.pyx:142-156"]}
{"id": "C100", "title": "whatever the seed, the generator runs its full period", "statement": "For every seed that a SeedSequence accepts (any entropy, spawn key and pool size) the constructor returns and the outputs have the full period of the generator: 2**128-1 (Xoroshiro128), 2**256-1 (Xoshiro256), 2**512-1 (Xoshiro512), 2**1024-1 (Xorshift1024), (2**256-1)*2**64 (LXM); Romu is never stuck at zero.", "quantifier": "all entropies, spawn keys, pool sizes", "why_tests_cant": "the seeds that give the zero state are one in 2**128 and fewer, and cannot be found by trying", "anchors": ["randomgen/_seed_sequence.pyx:337-446", "randomgen/xoroshiro128.pyx:154-160", "randomgen/xoshiro256.pyx:130-141", "randomgen/xoshiro512.pyx:127-138", "randomgen/xorshift1024.pyx:130-142", "randomgen/lxm.pyx:144-155", "randomgen/romu.pyx:124-137"]}
{"id": "C101", "title": "the table of periods and jump sizes", "statement": "Every row of the table in parallel.rst is right: the draws of the default size of a new generator have the listed period (exactly, or less one for generators that leave out the zero state), and the generator that jumped() makes of it draws the numbers that the listed jump size of draws further on come out of the first; a jump size of phi is the integer nearest to (sqrt(5)-1)/2 times the period.", "quantifier": "all seeds (with the key and counter of the ciphers, the variants and increments of PCG), all draws", "why_tests_cant": "the periods are between 2**64 and 2**19937 and no jump can be checked by drawing", "anchors": ["doc/source/parallel.rst:117-171", "randomgen/xoshiro256.pyx:210-243", "randomgen/xoshiro512.pyx:205-240", "randomgen/xoroshiro128.pyx:225-260", "randomgen/xorshift1024.pyx:210-243", "randomgen/pcg64.pyx:459-500", "randomgen/pcg64.pyx:935-970", "randomgen/pcg64.pyx:1127-1165", "randomgen/pcg32.pyx:264-300", "randomgen/lxm.pyx:226-260", "randomgen/speck128.pyx:377-415", "randomgen/aes.pyx:345-385", "randomgen/philox.pyx:456-490", "randomgen/threefry.pyx:436-470", "randomgen/sfmt.pyx:213-245", "randomgen/dsfmt.pyx:213-245"]}
{"id": "C102", "title": "seed uses valid arguments and refuses others without changing anything", "statement": "seed(seed, inc) of PCG32, PCG64 and LCG128Mix uses the increments None and the integers in [0, 2**64) ([0, 2**128)); seed(counter=, key=) of Squares uses counters in [0, 2**64) and odd keys below 2**64; seed(seed, counter, key) of Philox, ThreeFry, SPECK128, AESCounter, ChaCha and HC128 uses keys and counters given as an integer of 64 n bits or as n words, array[i] = (value // 2**(64*i)) % 2**64, and the words of the seed sequence if there is no key; everything else raises, and after that neither the state nor the seed sequence of the instance has changed.", "quantifier": "all integers, arrays and None, all seeds, all earlier states", "why_tests_cant": "the arguments that pass the check and are refused later are single numbers out of 2**128, and what a refused call leaves behind is not looked at", "anchors": ["randomgen/pcg32.pyx:113-151", "randomgen/pcg64.pyx:238-298", "randomgen/pcg64.pyx:721-770", "randomgen/common.pyx:79-87", "randomgen/squares.pyx:461-513", "randomgen/common.pyx:328-467", "randomgen/speck128.pyx:174-230", "randomgen/aes.pyx:182-246", "randomgen/chacha.pyx:158-248", "randomgen/hc128.pyx:124-166", "randomgen/philox.pyx:233-319", "randomgen/threefry.pyx:228-309"]}
{"id": "C103", "title": "a SeedSequence is rebuilt from its state, and its children do not depend on how they are asked for", "statement": "For every SeedSequence that a program can have, SeedSequence(**s.state) and the evaluated repr(s) are s (the same words, and the same children from there on); several calls of spawn return the children that one call for the sum of the counts returns; in any two histories of spawn calls on a sequence and its descendants, the sequences with the same spawn key generate the same words.", "quantifier": "all entropies, spawn keys, pool sizes and counters, all histories of spawn calls", "why_tests_cant": "the histories are unbounded, and sequences that have spawned before are not rebuilt in the tests", "anchors": ["randomgen/_seed_sequence.pyx:292-335", "randomgen/_seed_sequence.pyx:448-476"]}
{"id": "C104", "title": "a seed given as a string is the integer it spells", "statement": "A string of decimal digits, or 0x and hexadecimal digits of either case, as entropy or anywhere inside a sequence given as entropy, gives the words of the integer it spells, so that SeedSequence(str(n)) and SeedSequence(hex(n)) are seeded as SeedSequence(n); every other string raises ValueError.", "quantifier": "all strings of ASCII characters, all nestings, all integers", "why_tests_cant": "the set of strings is infinite and the accepted ones are found by a regular expression that looks at the start only", "anchors": ["randomgen/_seed_sequence.pyx:56-56", "randomgen/_seed_sequence.pyx:84-152"]}
{"id": "C105", "title": "an ExtendedGenerator draws what its bit generator draws, also after its state is set and after it is copied", "statement": "Whatever is done with an ExtendedGenerator and its bit generator (draws by either, assigning a state, seeding, jumping, advancing), the numbers the ExtendedGenerator draws are those the bit generator would draw at that point; and an ExtendedGenerator that is pickled and reloaded, or copied, goes on as the original does.", "quantifier": "all programs on an ExtendedGenerator and its bit generator, all states, for the classes that choose their draw functions by variant", "why_tests_cant": "only MT19937 is pickled in the tests, which has one set of draw functions; the programs are unbounded", "anchors": ["randomgen/generator.pyx:163-202", "randomgen/generator.pyx:213-292", "randomgen/_pickle.py:86-108", "randomgen/pcg64.pyx:198-220", "randomgen/pcg64.pyx:329-354", "randomgen/xoroshiro128.pyx:138-148", "randomgen/romu.pyx:102-112", "randomgen/tyche.pyx:117-127", "randomgen/jsf.pyx:213-226", "randomgen/squares.pyx:448-458", "randomgen/philox.pyx:194-215", "randomgen/threefry.pyx:189-210"]}
{"id": "C106", "title": "the ctypes and cffi interfaces draw what the bit generator draws", "statement": "Whatever is done with a bit generator (draws by itself, by the functions of its ctypes attribute and by those of its cffi attribute, in any order, assigning states, seeding, jumping, advancing), a draw by an interface returns what the bit generator itself would have drawn, and leaves it where that draw would.", "quantifier": "all programs on a bit generator and its interfaces, all states, for the classes that choose their draw functions by variant", "why_tests_cant": "the tests ask for the interfaces and look at their types; they draw from neither after a state has been assigned", "anchors": ["randomgen/common.pyx:128-173", "randomgen/common.pyx:256-326", "randomgen/pcg64.pyx:198-220", "randomgen/xoroshiro128.pyx:138-148", "randomgen/romu.pyx:102-112"]}
{"id": "C107", "title": "states of NumPy's bit generators of the same name are continued", "statement": "A state saved by numpy.random's PCG64, PCG64DXSM, MT19937, Philox or SFC64 can be assigned to randomgen's class of that name, whatever variant the instance has, and the instance then goes on with NumPy's stream; in particular an ExtendedGenerator of a NumPy bit generator, which is pickled by that name, can be loaded and goes on.", "quantifier": "all states of the five NumPy generators, all instances of randomgen's classes, all numbers of draws", "why_tests_cant": "the tests never assign a NumPy state or pickle an ExtendedGenerator of a NumPy bit generator of each kind; all variants of the receiving instance cannot be tried with all states", "anchors": ["randomgen/pcg64.pyx:PCG64.state", "randomgen/pcg64.pyx:PCG64DXSM.state", "randomgen/mt19937.pyx:MT19937.state", "randomgen/philox.pyx:Philox.state", "randomgen/sfc.pyx:SFC64.state", "randomgen/_pickle.py:_get_bitgenerator", "randomgen/generator.pyx:ExtendedGenerator.__reduce__"]}
