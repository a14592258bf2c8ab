import Verif.Model.SeedSeq

namespace Verif

/-- The words a bit generator gets when it calls `generate_state(k, np.uint64)` on its seed sequence
(randomgen/_seed_sequence.pyx:400-446): word `i` of the array. The calls: 2 words for Xoroshiro128 (xoroshiro128.pyx:157),
PCG64 (pcg64.pyx:241-242) and LCG128Mix (pcg64.pyx:725-726) with the increment given, PCG32 (pcg32.pyx:115), 3 for SFC64 with `w` and `k` given
(sfc.pyx:148-150), 4 for Xoshiro256 (xoshiro256.pyx:135) and Romu (romu.pyx:130), 5 for LXM (lxm.pyx:150), 8 for Xoshiro512
(xoshiro512.pyx:132), 16 for Xorshift1024 (xorshift1024.pyx:135). -/
def SeedSeq.SeedSeq.words (s : SeedSeq.SeedSeq) (k i : Nat) : U64 := (SeedSeq.generate64 s.pool k).getD i 0

end Verif
