{
 "claims": [
  {
   "property": "C01",
   "status": "proved",
   "theorems": [
    "Verif.Ints.C01_wrap_int_eq_iff",
    "Verif.Ints.C01_wrap_int_range_congruent"
   ],
   "note": ""
  },
  {
   "property": "C02",
   "status": "proved",
   "theorems": [
    "Verif.Ints.C02_array_forms_agree",
    "Verif.Ints.C02_int_to_array_rejects",
    "Verif.Ints.C02_int_to_array_value",
    "Verif.Ints.C02_int_to_array_words",
    "Verif.Ints.C02_object_to_int_arr64",
    "Verif.Ints.C02_object_to_int_int"
   ],
   "note": ""
  },
  {
   "property": "C03",
   "status": "proved",
   "theorems": [
    "Verif.Lcg128.C03_lcg128_advance",
    "Verif.Lcg128.C03_lcg128_advance_nat",
    "Verif.Pcg.C03_pcg64_advance",
    "Verif.Pcg.C03_pcg64_advance_nat",
    "Verif.Pcg.C03_pcg64_advance_neg",
    "Verif.Pcg.C03_pcg64_jumped",
    "Verif.Pcg.C03_pcg64_outputs"
   ],
   "note": ""
  },
  {
   "property": "C04",
   "status": "proved",
   "theorems": [
    "Verif.Pcg32.C04_pcg32_advance",
    "Verif.Pcg32.C04_pcg32_advance_nat",
    "Verif.Pcg32.C04_pcg32_advance_neg",
    "Verif.Pcg32.C04_pcg32_jumped"
   ],
   "note": ""
  },
  {
   "property": "C05",
   "status": "proved",
   "theorems": [
    "Verif.C05_lcg128_advance_add",
    "Verif.C05_lcg128_advance_neg",
    "Verif.C05_pcg32_advance_add",
    "Verif.C05_pcg32_advance_neg",
    "Verif.C05_pcg64_advance_add",
    "Verif.C05_pcg64_advance_neg"
   ],
   "note": ""
  },
  {
   "property": "C06",
   "status": "proved",
   "theorems": [
    "Verif.PcgEmul.C06_emul_add",
    "Verif.PcgEmul.C06_emul_advance",
    "Verif.PcgEmul.C06_emul_advance_iterate",
    "Verif.PcgEmul.C06_emul_mult",
    "Verif.PcgEmul.C06_emul_mult64",
    "Verif.PcgEmul.C06_emul_next",
    "Verif.PcgEmul.C06_emul_seed",
    "Verif.PcgEmul.C06_emul_step",
    "Verif.PcgEmul.C06_emul_stream",
    "Verif.PcgEmul.C06_val_surjective"
   ],
   "note": ""
  },
  {
   "property": "C07",
   "status": "proved",
   "theorems": [
    "Verif.C07_pcg32_full_period",
    "Verif.C07_pcg64_distinct",
    "Verif.C07_pcg64_full_period",
    "Verif.XorLinear.C07_lxm_lcg_full_period"
   ],
   "note": ""
  },
  {
   "property": "C08",
   "status": "proved",
   "theorems": [
    "Verif.C08_pcg32_seed_eq_iff",
    "Verif.C08_pcg64_inc_collisions",
    "Verif.C08_pcg64_same_stream",
    "Verif.C08_pcg64_seedCore_eq_iff",
    "Verif.C08_pcg64_seed_injective"
   ],
   "note": ""
  },
  {
   "property": "C09",
   "status": "proved",
   "theorems": [
    "Verif.Buf.C09_draws32_even",
    "Verif.Buf.C09_draws32_odd",
    "Verif.Buf.C09_interleaving",
    "Verif.Buf.C09_wide_count",
    "Verif.Buf.C09_wide_keeps_half"
   ],
   "note": ""
  },
  {
   "property": "C10",
   "status": "proved",
   "theorems": [
    "Verif.Doubles.C10_dbl32_eq_iff",
    "Verif.Doubles.C10_dbl32_surjective",
    "Verif.Doubles.C10_dbl32_unit",
    "Verif.Doubles.C10_dbl64_eq_iff",
    "Verif.Doubles.C10_dbl64_surjective",
    "Verif.Doubles.C10_dbl64_unit",
    "Verif.Doubles.C10_long_double_surjective",
    "Verif.Doubles.C10_long_double_unit"
   ],
   "note": ""
  },
  {
   "property": "C11",
   "status": "partial",
   "theorems": [
    "Verif.C11_aesctr",
    "Verif.C11_chacha",
    "Verif.C11_dsfmt",
    "Verif.C11_efiix64",
    "Verif.C11_hc128",
    "Verif.C11_jsf",
    "Verif.C11_jsf_consistent",
    "Verif.C11_lcg128mix_partial",
    "Verif.C11_lxm",
    "Verif.C11_mt19937",
    "Verif.C11_mt19937_legacy",
    "Verif.C11_mt64",
    "Verif.C11_pcg32",
    "Verif.C11_pcg64",
    "Verif.C11_pcg64_consistent",
    "Verif.C11_pcg64dxsm",
    "Verif.C11_pcg64dxsm_consistent",
    "Verif.C11_philox",
    "Verif.C11_romu",
    "Verif.C11_romu_consistent",
    "Verif.C11_sfc64",
    "Verif.C11_sfmt",
    "Verif.C11_speck128",
    "Verif.C11_squares_partial",
    "Verif.C11_threefry",
    "Verif.C11_tyche",
    "Verif.C11_tyche_consistent",
    "Verif.C11_xoroshiro128",
    "Verif.C11_xoroshiro128_consistent",
    "Verif.C11_xorshift1024",
    "Verif.C11_xoshiro256",
    "Verif.C11_xoshiro512",
    "Verif.not_C11_lcg128mix",
    "Verif.not_C11_lcg128mix_post",
    "Verif.not_C11_squares"
   ],
   "note": "The getter/setter law is proved for 24 classes. It fails for Squares (the buffered half is not restored) and LCG128Mix (a user supplied output function survives, and post values other than 0/1 are collapsed): not_C11_*, with the part that holds as *_partial. RDRAND has no state to restore."
  },
  {
   "property": "C12",
   "status": "partial",
   "theorems": [
    "Verif.C12_aesctr_partial",
    "Verif.C12_chacha_partial",
    "Verif.C12_dsfmt_array_partial",
    "Verif.C12_dsfmt_partial",
    "Verif.C12_efiix64_partial",
    "Verif.C12_hc128_array_partial",
    "Verif.C12_hc128_partial",
    "Verif.C12_jsf_partial",
    "Verif.C12_lcg128mix_partial",
    "Verif.C12_lxm_array_partial",
    "Verif.C12_lxm_partial",
    "Verif.C12_mt19937_legacy_partial",
    "Verif.C12_mt19937_partial",
    "Verif.C12_mt64_array_partial",
    "Verif.C12_mt64_partial",
    "Verif.C12_pcg32_partial",
    "Verif.C12_pcg64",
    "Verif.C12_pcg64dxsm",
    "Verif.C12_philox_partial",
    "Verif.C12_rdrand",
    "Verif.C12_romu_partial",
    "Verif.C12_sfc64_partial",
    "Verif.C12_sfmt_array_partial",
    "Verif.C12_sfmt_partial",
    "Verif.C12_speck128_array_partial",
    "Verif.C12_speck128_partial",
    "Verif.C12_squares_partial",
    "Verif.C12_threefry_partial",
    "Verif.C12_tyche_partial",
    "Verif.C12_xoroshiro128_array_partial",
    "Verif.C12_xoroshiro128_partial",
    "Verif.C12_xorshift1024_array_partial",
    "Verif.C12_xorshift1024_partial",
    "Verif.C12_xoshiro256_array_partial",
    "Verif.C12_xoshiro256_partial",
    "Verif.C12_xoshiro512_array_partial",
    "Verif.C12_xoshiro512_partial",
    "Verif.not_C12_aesctr",
    "Verif.not_C12_chacha",
    "Verif.not_C12_dsfmt",
    "Verif.not_C12_efiix64",
    "Verif.not_C12_hc128",
    "Verif.not_C12_jsf",
    "Verif.not_C12_lcg128mix",
    "Verif.not_C12_lxm",
    "Verif.not_C12_mt19937",
    "Verif.not_C12_mt64",
    "Verif.not_C12_pcg32",
    "Verif.not_C12_philox",
    "Verif.not_C12_romu",
    "Verif.not_C12_sfc64",
    "Verif.not_C12_sfmt",
    "Verif.not_C12_speck128",
    "Verif.not_C12_squares",
    "Verif.not_C12_threefry",
    "Verif.not_C12_tyche",
    "Verif.not_C12_xoroshiro128",
    "Verif.not_C12_xorshift1024",
    "Verif.not_C12_xoshiro256",
    "Verif.not_C12_xoshiro512"
   ],
   "note": "Holds for PCG64, PCG64DXSM and RDRAND. Every other class stores entries before checking later ones: for each a rejected dictionary that changes the generator is given (not_C12_*); a wrong type, name or array shape in the entries checked first is harmless (*_partial)."
  },
  {
   "property": "C13",
   "status": "partial",
   "theorems": [
    "Verif.C13_aesctr_partial",
    "Verif.C13_chacha",
    "Verif.C13_dsfmt_partial",
    "Verif.C13_hc128_partial",
    "Verif.C13_mt19937_partial",
    "Verif.C13_mt64_partial",
    "Verif.C13_philox_threefry_partial",
    "Verif.C13_sfmt_partial",
    "Verif.C13_speck128_partial",
    "Verif.C13_xorshift1024_partial",
    "Verif.not_C13_aesctr",
    "Verif.not_C13_dsfmt",
    "Verif.not_C13_hc128",
    "Verif.not_C13_mt19937",
    "Verif.not_C13_mt_negative",
    "Verif.not_C13_philox",
    "Verif.not_C13_philox_setter",
    "Verif.not_C13_sfmt",
    "Verif.not_C13_speck128",
    "Verif.not_C13_threefry",
    "Verif.not_C13_threefry_setter",
    "Verif.not_C13_xorshift1024"
   ],
   "note": "The setters accept any position. MT19937 (positions above 624 or negative), MT64, SFMT, dSFMT (negative positions), SPECK128 (offset, rounds), AESCounter (offset), Philox and ThreeFry (negative buffer_pos; number above 4 makes the setter itself write outside), Xorshift1024 (p outside 0..15) and HC128 (indices) then read outside their arrays (not_C13_*); the exact safe sets are proved as equivalences (*_partial). ChaCha is safe from every state (C13_chacha)."
  },
  {
   "property": "C14",
   "status": "partial",
   "theorems": [
    "Verif.C14_aes",
    "Verif.C14_chacha",
    "Verif.C14_dsfmt",
    "Verif.C14_efiix64",
    "Verif.C14_hc128_partial",
    "Verif.C14_jsf32",
    "Verif.C14_jsf64",
    "Verif.C14_lcg128mix",
    "Verif.C14_lxm",
    "Verif.C14_mt19937",
    "Verif.C14_mt19937_numpy",
    "Verif.C14_mt64",
    "Verif.C14_pcg32",
    "Verif.C14_pcg64",
    "Verif.C14_philox_threefry",
    "Verif.C14_romu",
    "Verif.C14_sfc64",
    "Verif.C14_sfmt",
    "Verif.C14_speck128",
    "Verif.C14_squares",
    "Verif.C14_tyche",
    "Verif.C14_xoroshiro128",
    "Verif.C14_xorshift1024_draws_partial",
    "Verif.C14_xorshift1024_partial",
    "Verif.C14_xoshiro256_512",
    "Verif.not_C14_hc128",
    "Verif.not_C14_xorshift1024"
   ],
   "note": "Proved for every class except Xorshift1024 (reseeding keeps p, not_C14_xorshift1024) and HC128 (stale half and index, not_C14_*); for those two the part that holds is *_partial."
  },
  {
   "property": "C15",
   "status": "proved",
   "theorems": [
    "Verif.C15_speck_advance",
    "Verif.C15_speck_jumped",
    "Verif.C15_speck_stream",
    "Verif.C15_speck_total"
   ],
   "note": ""
  },
  {
   "property": "C16",
   "status": "proved",
   "theorems": [
    "Verif.C16_aes_advance",
    "Verif.C16_aes_jumped",
    "Verif.C16_aes_stream",
    "Verif.C16_aes_total"
   ],
   "note": ""
  },
  {
   "property": "C17",
   "status": "proved",
   "theorems": [
    "Verif.C17_aes_blocks_never_repeat",
    "Verif.C17_speck_blocks_never_repeat"
   ],
   "note": ""
  },
  {
   "property": "C18",
   "status": "proved",
   "theorems": [
    "Verif.C18_chacha_core",
    "Verif.C18_chacha_pass",
    "Verif.C18_chacha_stream",
    "Verif.C18_dsfmt_sse",
    "Verif.C18_sfmt_recursion",
    "Verif.C18_sfmt_sse",
    "Verif.C18_sfmt_stream",
    "Verif.C18_speck",
    "Verif.C18_speck_block"
   ],
   "note": ""
  },
  {
   "property": "C19",
   "status": "partial",
   "theorems": [
    "Verif.C19_philox4_advance_partial",
    "Verif.C19_philox_advance_exact",
    "Verif.C19_philox_advance_partial",
    "Verif.not_C19_philox_fresh",
    "Verif.not_C19_philox_large"
   ],
   "note": "Philox.advance(delta) is proved for 0 <= delta < 2^(wN) (four-word variants from every reachable state). Residues of 2^(wN) and above, so all small negative amounts, and fresh two-word generators land in the wrong place (not_C19_*)."
  },
  {
   "property": "C20",
   "status": "partial",
   "theorems": [
    "Verif.C20_threefry4_advance_partial",
    "Verif.C20_threefry_advance_exact",
    "Verif.C20_threefry_advance_partial",
    "Verif.not_C20_threefry_fresh",
    "Verif.not_C20_threefry_large"
   ],
   "note": "As C19, for ThreeFry."
  },
  {
   "property": "C21",
   "status": "proved",
   "theorems": [
    "Verif.C21_philox_blocks",
    "Verif.C21_philox_injective",
    "Verif.C21_philox_period",
    "Verif.C21_philox_total",
    "Verif.C21_threefry_blocks",
    "Verif.C21_threefry_injective",
    "Verif.C21_threefry_period",
    "Verif.C21_threefry_total"
   ],
   "note": ""
  },
  {
   "property": "C22",
   "status": "proved",
   "theorems": [
    "Verif.C22_chacha_position",
    "Verif.C22_chacha_shift"
   ],
   "note": ""
  },
  {
   "property": "C23",
   "status": "partial",
   "theorems": [
    "Verif.C23_advance_partial",
    "Verif.not_C23_aligned",
    "Verif.not_C23_overflow"
   ],
   "note": "ChaCha.advance is proved away from block boundaries and 64-bit overflow; in those two cases the old block is read (not_C23_*)."
  },
  {
   "property": "C24",
   "status": "proved",
   "theorems": [
    "Verif.C24_advance",
    "Verif.C24_advance32",
    "Verif.C24_inputs_distinct",
    "Verif.C24_jumped",
    "Verif.C24_period"
   ],
   "note": ""
  },
  {
   "property": "C25",
   "status": "partial",
   "theorems": [
    "Verif.C25_generate_keys_partial",
    "Verif.C25_one_zero_partial",
    "Verif.C25_rules_partial",
    "Verif.not_C25_nonzero"
   ],
   "note": "All rules hold except that one of the digits 1 to 7 may be zero (not_C25_nonzero)."
  },
  {
   "property": "C26",
   "status": "proved",
   "theorems": [
    "Verif.XorLinear.C26_jumped",
    "Verif.XorLinear.C26_jumped_stream",
    "Verif.XorLinear.C26_plus_jump_is_2_pow_64_draws",
    "Verif.XorLinear.C26_plusplus_jump_is_2_pow_64_draws"
   ],
   "note": ""
  },
  {
   "property": "C27",
   "status": "proved",
   "theorems": [
    "Verif.XorLinear.C27_jump_is_2_pow_128_draws",
    "Verif.XorLinear.C27_jumped",
    "Verif.XorLinear.C27_jumped_stream"
   ],
   "note": ""
  },
  {
   "property": "C28",
   "status": "proved",
   "theorems": [
    "Verif.XorLinear.C28_jump_is_2_pow_256_draws",
    "Verif.XorLinear.C28_jumped",
    "Verif.XorLinear.C28_jumped_stream"
   ],
   "note": ""
  },
  {
   "property": "C29",
   "status": "proved",
   "theorems": [
    "Verif.XorLinear.C29_jump_is_2_pow_512_draws",
    "Verif.XorLinear.C29_jumped",
    "Verif.XorLinear.C29_jumped_stream"
   ],
   "note": ""
  },
  {
   "property": "C30",
   "status": "proved",
   "theorems": [
    "Verif.XorLinear.C30_jump_is_2_pow_128_draws",
    "Verif.XorLinear.C30_jumped",
    "Verif.XorLinear.C30_jumped_stream"
   ],
   "note": ""
  },
  {
   "property": "C31",
   "status": "proved",
   "theorems": [
    "Verif.C31_lxm_seed",
    "Verif.C31_lxm_seed_ends_iff",
    "Verif.C31_lxm_zero_words",
    "Verif.XorLinear.C31_lxm_injective",
    "Verif.XorLinear.C31_lxm_never_zero",
    "Verif.XorLinear.C31_xoroshiro128_bijective",
    "Verif.XorLinear.C31_xoroshiro128_never_zero",
    "Verif.XorLinear.C31_xoroshiro128_zero_fixed",
    "Verif.XorLinear.C31_xorshift1024_bijective",
    "Verif.XorLinear.C31_xorshift1024_never_zero",
    "Verif.XorLinear.C31_xorshift1024_zero_fixed",
    "Verif.XorLinear.C31_xoshiro256_bijective",
    "Verif.XorLinear.C31_xoshiro256_never_zero",
    "Verif.XorLinear.C31_xoshiro256_zero_fixed",
    "Verif.XorLinear.C31_xoshiro512_bijective",
    "Verif.XorLinear.C31_xoshiro512_never_zero",
    "Verif.XorLinear.C31_xoshiro512_zero_fixed"
   ],
   "note": ""
  },
  {
   "property": "C32",
   "status": "proved",
   "theorems": [
    "Verif.XorLinear.C32_lxm_period",
    "Verif.XorLinear.C32_lxm_xorshift_period",
    "Verif.XorLinear.C32_xoroshiro128_period",
    "Verif.XorLinear.C32_xoshiro256_period"
   ],
   "note": ""
  },
  {
   "property": "C33",
   "status": "proved",
   "theorems": [
    "Verif.XorLinear.C33_lxm_streams_disjoint",
    "Verif.XorLinear.C33_xoroshiro128_bound_sharp",
    "Verif.XorLinear.C33_xoroshiro128_streams_disjoint",
    "Verif.XorLinear.C33_xoshiro256_streams_disjoint"
   ],
   "note": ""
  },
  {
   "property": "C34",
   "status": "proved",
   "theorems": [
    "Verif.C34_mt19937",
    "Verif.C34_mt64",
    "Verif.C34_mt64_beyond"
   ],
   "note": ""
  },
  {
   "property": "C35",
   "status": "partial",
   "theorems": [
    "Verif.C35_first_draw_iff",
    "Verif.C35_mt19937_end_partial",
    "Verif.C35_mt19937_partial",
    "Verif.not_C35_first_draw",
    "Verif.not_C35_fresh",
    "Verif.not_C35_mt19937",
    "Verif.not_C35_numpy_position"
   ],
   "note": "False. The polynomial jump itself is exact (C36_mt19937, C66_mt19937), but it leaves the array rotated, and the generator regenerates from index 0: from an aligned array one jump gives the right draws 1..34 and a wrong draw 35 (not_C35_mt19937). The first draw is right exactly when the array continues a longer run or a table without constant term is used (C35_first_draw_iff). A full block (fresh seed) jumps 624 draws short (C35_mt19937_end_partial, not_C35_fresh); inside a block (NumPy-compatible seeding) the words already used are taken for future ones (not_C35_numpy_position)."
  },
  {
   "property": "C36",
   "status": "proved",
   "theorems": [
    "Verif.C36_accepted",
    "Verif.C36_dsfmt",
    "Verif.C36_mt19937",
    "Verif.C36_sfmt",
    "Verif.C36_steps",
    "Verif.C36_strides"
   ],
   "note": "Strides for the three generators; for MT19937 also that the array moves by exactly count * 2^128 terms (C36_mt19937). What the draws after the jump are is C35 and C68."
  },
  {
   "property": "C37",
   "status": "proved",
   "theorems": [
    "Verif.C37_dsfmt",
    "Verif.C37_dsfmt_cert",
    "Verif.C37_mt19937_alive",
    "Verif.C37_mt19937_top",
    "Verif.C37_mt64_alive",
    "Verif.C37_mt64_top",
    "Verif.C37_sfmt",
    "Verif.C37_sfmt_cert"
   ],
   "note": ""
  },
  {
   "property": "C38",
   "status": "proved",
   "theorems": [
    "Verif.C38_dsfmt"
   ],
   "note": ""
  },
  {
   "property": "C39",
   "status": "partial",
   "theorems": [
    "Verif.C39_efiix64",
    "Verif.C39_jsf_init_partial",
    "Verif.C39_jsf_partial",
    "Verif.C39_jsf_published",
    "Verif.C39_romu",
    "Verif.C39_sfc64",
    "Verif.C39_tyche",
    "Verif.not_C39_jsf_zero_rotation"
   ],
   "note": "JSF is reversible for rotations 1..w-1; a rotation by zero is undefined in C (not_C39_jsf_zero_rotation). All other chaotic generators are proved."
  },
  {
   "property": "C40",
   "status": "proved",
   "theorems": [
    "Verif.C40_no_repeat",
    "Verif.C40_period_multiple",
    "Verif.C40_seeded"
   ],
   "note": ""
  },
  {
   "property": "C41",
   "status": "partial",
   "theorems": [
    "Verif.C41_accepted_exist",
    "Verif.C41_choosek_iff_partial",
    "Verif.C41_live_partial",
    "Verif.C41_refuses_partial",
    "Verif.C41_values_any_partial",
    "Verif.C41_values_partial",
    "Verif.not_C41_bits",
    "Verif.not_C41_refuses",
    "Verif.not_C41_returns"
   ],
   "note": "False as stated: choosek overflows for bit counts 30..35 so requests that could be met are refused (not_C41_refuses); the internal sampler includes its end point, which yields the value 1 (not_C41_bits) or an endless loop (not_C41_returns). Proved: accepted requests can be met, exact refusal outside 30..35, n distinct odd values always, the bit counts and progress when the end point is not drawn."
  },
  {
   "property": "C42",
   "status": "proved",
   "theorems": [
    "Verif.SeedSeq.C42_accepts",
    "Verif.SeedSeq.C42_generated_words_differ",
    "Verif.SeedSeq.C42_pools_differ"
   ],
   "note": ""
  },
  {
   "property": "C43",
   "status": "partial",
   "theorems": [
    "Verif.SeedSeq.C43_child_keys",
    "Verif.SeedSeq.C43_spawn_keys_distinct_partial",
    "Verif.SeedSeq.not_C43_negative_count"
   ],
   "note": "Holds for nonnegative counts; spawn(-k) makes children share keys (not_C43_negative_count)."
  },
  {
   "property": "C44",
   "status": "partial",
   "theorems": [
    "Verif.SeedSeq.C44_hashed_words_determine_inputs_partial",
    "Verif.SeedSeq.C44_same_entropy_partial",
    "Verif.SeedSeq.not_C44_big_key",
    "Verif.SeedSeq.not_C44_long_entropy"
   ],
   "note": "Holds for entropy that fits the pool and key entries below 2^32, and for one entropy with different keys; longer entropy and bigger key entries collide (not_C44_*)."
  },
  {
   "property": "C45",
   "status": "proved",
   "theorems": [
    "Verif.SeedSeq.C45_length",
    "Verif.SeedSeq.C45_pairs",
    "Verif.SeedSeq.C45_prefix",
    "Verif.SeedSeq.C45_prefix64"
   ],
   "note": ""
  },
  {
   "property": "C46",
   "status": "proved",
   "theorems": [
    "Verif.SeedSeq.C46_injective",
    "Verif.SeedSeq.C46_negative_rejected",
    "Verif.SeedSeq.C46_top_word",
    "Verif.SeedSeq.C46_value"
   ],
   "note": ""
  },
  {
   "property": "C47",
   "status": "partial",
   "theorems": [
    "Verif.C47_benchmark",
    "Verif.C47_no_output_iff_partial",
    "Verif.C47_no_output_int",
    "Verif.C47_no_output_partial",
    "Verif.C47_output",
    "Verif.C47_output_int",
    "Verif.C47_uintegers",
    "Verif.not_C47_no_output",
    "Verif.not_C47_no_output_shapes"
   ],
   "note": "Proved for output=True and every shape, and for output=False with an integer size. With output=False and a tuple the code draws the sum of the dimensions instead of their product (not_C47_no_output, not_C47_no_output_shapes); the exact set of shapes for which it is right is C47_no_output_iff_partial."
  },
  {
   "property": "C48",
   "status": "partial",
   "theorems": [
    "Verif.C48_bounds_failed_partial",
    "Verif.C48_bounds_ok_partial",
    "Verif.C48_error_set",
    "Verif.C48_program",
    "Verif.C48_random_raw",
    "Verif.C48_random_raw_scalar",
    "Verif.C48_sticky",
    "Verif.C48_unflagged",
    "Verif.not_C48_bounds"
   ],
   "note": "Proved: while the flag is 1 the outputs are exactly the hardware words in order, no retry group was exhausted, the flag is sticky and the lowering call sets the error; random_raw. The buffer part is false (not_C48_bounds): after a failure the cursor runs past the 256 words; exact condition in C48_bounds_failed_partial, safety without failures in C48_bounds_ok_partial. C48_program covers every interleaving of draws, random_raw, assignments of retries and _reset: each word delivered comes from its own successful attempt."
  },
  {
   "property": "C49",
   "status": "proved",
   "theorems": [
    "Verif.C49_bytes",
    "Verif.C49_names",
    "Verif.C49_non_ascii",
    "Verif.C49_register",
    "Verif.C49_unknown"
   ],
   "note": ""
  },
  {
   "property": "C50",
   "status": "proved",
   "theorems": [
    "Verif.C50_numpy_rule",
    "Verif.C50_refused",
    "Verif.C50_strict",
    "Verif.C50_symmetric",
    "Verif.C50_zero_dimension"
   ],
   "note": ""
  },
  {
   "property": "C51",
   "status": "proved",
   "theorems": [
    "Verif.C51_from_32",
    "Verif.C51_from_64",
    "Verif.C51_supplied"
   ],
   "note": "The adaptors are proved for all raw streams. user_bits_unchecked records that the bits argument is not validated against the width of the values."
  },
  {
   "property": "C52",
   "status": "partial",
   "theorems": [
    "Verif.C52_order_option_partial",
    "Verif.C52_order_partial",
    "Verif.not_C52_chacha",
    "Verif.not_C52_hc128",
    "Verif.not_C52_jsf32",
    "Verif.not_C52_mt19937",
    "Verif.not_C52_pcg32",
    "Verif.not_C52_philox_threefry",
    "Verif.not_C52_squares",
    "Verif.not_C52_tyche",
    "Verif.not_C52_tyche_openrand"
   ],
   "note": "False: the generators that write two draws in one expression give different 64-bit values under the two orders the C standard allows (not_C52_*). C52_order_partial gives the part that holds (the final states agree; the values agree exactly when the two 32-bit draws are equal)."
  },
  {
   "property": "C53",
   "status": "proved",
   "theorems": [
    "Verif.C53_array_iff",
    "Verif.C53_array_injective",
    "Verif.C53_length",
    "Verif.C53_limits",
    "Verif.C53_scalar"
   ],
   "note": ""
  },
  {
   "property": "C54",
   "status": "proved",
   "theorems": [
    "Verif.SeedSeq.C54_siblings_pools_differ",
    "Verif.SeedSeq.C54_siblings_words_differ"
   ],
   "note": ""
  },
  {
   "property": "C55",
   "status": "partial",
   "theorems": [
    "Verif.C55_quad_partial",
    "Verif.C55_trio_partial",
    "Verif.not_C55_trio"
   ],
   "note": "The quad variant never seeds to zero; the trio variant can (not_C55_trio)."
  },
  {
   "property": "C56",
   "status": "proved",
   "theorems": [
    "Verif.C56_jsf",
    "Verif.C56_romu",
    "Verif.C56_sfc64",
    "Verif.C56_tyche"
   ],
   "note": ""
  },
  {
   "property": "C57",
   "status": "proved",
   "theorems": [
    "Verif.C57_efiix64",
    "Verif.C57_splitmix64_outputs",
    "Verif.C57_splitmix64_period"
   ],
   "note": ""
  },
  {
   "property": "C58",
   "status": "proved",
   "theorems": [
    "Verif.C58_sfc64_streams"
   ],
   "note": ""
  },
  {
   "property": "C59",
   "status": "partial",
   "theorems": [
    "Verif.C59_odd_increment_partial",
    "Verif.not_C59_even_increment"
   ],
   "note": "Proved for odd increments; an even increment given by the user shortens the period (not_C59_even_increment)."
  },
  {
   "property": "C60",
   "status": "partial",
   "theorems": [
    "Verif.C60_philox_counter_exact",
    "Verif.C60_philox_jumped_partial",
    "Verif.C60_threefry_counter_exact",
    "Verif.C60_threefry_jumped_partial",
    "Verif.not_C60_philox_jump_wraps",
    "Verif.not_C60_threefry_jump_wraps"
   ],
   "note": "Jumps are proved up to the wrap of the counter (not_C60_*)."
  },
  {
   "property": "C61",
   "status": "proved",
   "theorems": [
    "Verif.C61_mulhilo_agree",
    "Verif.C61_mulhilo_c99",
    "Verif.C61_mulhilo_double"
   ],
   "note": ""
  },
  {
   "property": "C62",
   "status": "proved",
   "theorems": [
    "Verif.C62_core_injective",
    "Verif.C62_input_injective"
   ],
   "note": ""
  },
  {
   "property": "C63",
   "status": "partial",
   "theorems": [
    "Verif.C63_interval_partial",
    "Verif.C63_refill_partial",
    "Verif.not_C63_in_bounds"
   ],
   "note": "The sampler reads past its random words (not_C63_in_bounds); interval and refill bounds proved."
  },
  {
   "property": "C64",
   "status": "proved",
   "theorems": [
    "Verif.C64_outputs_determine",
    "Verif.C64_temper32",
    "Verif.C64_temper64"
   ],
   "note": ""
  },
  {
   "property": "C65",
   "status": "proved",
   "theorems": [
    "Verif.C65_dsfmt",
    "Verif.C65_sfmt"
   ],
   "note": ""
  },
  {
   "property": "C66",
   "status": "proved",
   "theorems": [
    "Verif.C66_dsfmt",
    "Verif.C66_dsfmt_tables",
    "Verif.C66_mt19937",
    "Verif.C66_sfmt",
    "Verif.C66_sfmt_tables"
   ],
   "note": "Polynomial evaluation for all states and polynomials (SFMT, DSFMT), and the five tables of each of the three generators, for every state."
  },
  {
   "property": "C67",
   "status": "proved",
   "theorems": [
    "Verif.C67_hc128_reference",
    "Verif.C67_hc128_unroll"
   ],
   "note": ""
  },
  {
   "property": "C68",
   "status": "partial",
   "theorems": [
    "Verif.C68_dsfmt64_partial",
    "Verif.C68_dsfmt_partial",
    "Verif.C68_sfmt_partial",
    "Verif.not_C68_dsfmt",
    "Verif.not_C68_sfmt"
   ],
   "note": "False: one 128-bit word gives two draws, and the rest of the block is dropped, so jumped(n) skips the rest of the block and n * 2^129 draws (exact distance for all states in C68_sfmt_partial and C68_dsfmt_partial). In 64-bit draws of DSFMT, which take two doubles, the distance is n * 2^128 after the rest of the block (C68_dsfmt64_partial)."
  },
  {
   "property": "C69",
   "status": "partial",
   "theorems": [
    "Verif.C69_covariance",
    "Verif.C69_element_iff",
    "Verif.C69_mask_iff",
    "Verif.C69_scalar_iff",
    "Verif.C69_scalar_partial",
    "Verif.not_C69_gamma_array",
    "Verif.not_C69_scalar_covariance",
    "Verif.not_C69_scalar_degenerate"
   ],
   "note": "Over the real numbers (no rounding). Array elements: proved (C69_element_iff, C69_covariance). Scalars agree unless a variance is zero: then a non-zero Im(relation) is accepted and the covariance drawn is 0 (not_C69_scalar_degenerate, not_C69_scalar_covariance). Arrays where gamma extends the shape of relation always raise (C69_mask_iff, not_C69_gamma_array)."
  },
  {
   "property": "C70",
   "status": "proved",
   "theorems": [
    "Verif.C70_large",
    "Verif.C70_mean",
    "Verif.C70_psd"
   ],
   "note": "Over the real numbers. The distribution functions of NumPy are an oracle indexed by call number; the expected value uses only their first two moments (WiSource)."
  },
  {
   "property": "C71",
   "status": "partial",
   "theorems": [
    "Verif.C71_cholesky_iff",
    "Verif.C71_eigh_iff",
    "Verif.C71_factor_partial",
    "Verif.C71_mean",
    "Verif.C71_svd_iff",
    "Verif.not_C71_cholesky",
    "Verif.not_C71_svd",
    "Verif.not_C71_svd_diagonal"
   ],
   "note": "False for svd, eigh and cholesky: the code computes F W F^T with F^T F = scale, so the mean is df * F F^T: df * diag(s) for svd and eigh whatever decomposition is found (C71_svd_iff, C71_eigh_iff, not_C71_svd, not_C71_svd_diagonal) and df * L^T L for cholesky (C71_cholesky_iff, not_C71_cholesky). Holds for method=\"factor\" (C71_factor_partial)."
  },
  {
   "property": "C72",
   "status": "partial",
   "theorems": [
    "Verif.C72_cholesky",
    "Verif.C72_factor_iff",
    "Verif.C72_moments",
    "Verif.C72_svd",
    "Verif.not_C72_factor"
   ],
   "note": "Holds for svd, eigh and cholesky. For method=\"factor\" the covariance is A^T A, not the documented A A^T (C72_factor_iff, not_C72_factor)."
  },
  {
   "property": "C73",
   "status": "partial",
   "theorems": [
    "Verif.C73_default",
    "Verif.C73_shape_iff",
    "Verif.not_C73_shape"
   ],
   "note": "Exact set of sizes where it holds (C73_shape_iff); false for sizes that begin with 1 or end with 0 (not_C73_shape). Batched means and covariances are C93."
  },
  {
   "property": "C74",
   "status": "partial",
   "theorems": [
    "Verif.C74_leading_iff",
    "Verif.C74_moments",
    "Verif.C74_symmetric_iff",
    "Verif.not_C74_leading"
   ],
   "note": "Moments and symmetry proved for one matrix. With two or more leading dimensions the loop raises unless all but the first are one (C74_leading_iff, not_C74_leading)."
  },
  {
   "property": "C75",
   "status": "partial",
   "theorems": [
    "Verif.C75_order_iff",
    "Verif.C75_out",
    "Verif.C75_out_fills",
    "Verif.C75_out_refused",
    "Verif.C75_overflow_iff",
    "Verif.C75_size",
    "Verif.not_C75_fortran",
    "Verif.not_C75_undefined"
   ],
   "note": "Proved except for: more than 2^31 - 1 long doubles (C75_overflow_iff) and an out that is no array (not_C75_undefined) are undefined behaviour; arrays in Fortran order are filled in memory order, not in element order (C75_order_iff, not_C75_fortran)."
  },
  {
   "property": "C76",
   "status": "proved",
   "theorems": [
    "Verif.C76_degenerate",
    "Verif.C76_mt19937",
    "Verif.C76_mt19937_later",
    "Verif.C76_mt19937_seeded",
    "Verif.C76_mt64",
    "Verif.C76_mt64_later",
    "Verif.C76_mt64_seeded",
    "Verif.C76_position_0"
   ],
   "note": "Primality of 2^19937-1 by Lucas-Lehmer and x^(2^19937) = x modulo the characteristic polynomials by repeated squaring, both in the kernel. Sharp: C76_position_0, C76_degenerate."
  },
  {
   "property": "C77",
   "status": "proved",
   "theorems": [
    "Verif.C77_degenerate",
    "Verif.C77_dsfmt",
    "Verif.C77_dsfmt_repeats",
    "Verif.C77_dsfmt_seeded",
    "Verif.C77_sfmt",
    "Verif.C77_sfmt_repeats",
    "Verif.C77_sfmt_seeded"
   ],
   "note": "The characteristic polynomial splits into a primitive factor of degree 19937 and a small one; the parity vector vanishes on the kernel of the small factor. For dSFMT the constant of the certification is the lung of a fixed point of the affine step. C77_degenerate shows that the parity is needed."
  },
  {
   "property": "C78",
   "status": "proved",
   "theorems": [
    "Verif.XorLinear.C78_lxm_counts",
    "Verif.XorLinear.C78_lxm_period",
    "Verif.XorLinear.C78_xoroshiro128_counts",
    "Verif.XorLinear.C78_xoroshiro128_period",
    "Verif.XorLinear.C78_xorshift1024_period",
    "Verif.XorLinear.C78_xorshift1024_state_period",
    "Verif.XorLinear.C78_xorshift1024_windows",
    "Verif.XorLinear.C78_xorshift1024_zero_window",
    "Verif.XorLinear.C78_xoshiro256_counts",
    "Verif.XorLinear.C78_xoshiro256_period",
    "Verif.XorLinear.C78_xoshiro256_windows",
    "Verif.XorLinear.C78_xoshiro256_zero_window",
    "Verif.XorLinear.C78_xoshiro512_counts",
    "Verif.XorLinear.C78_xoshiro512_period",
    "Verif.XorLinear.C78_xoshiro512_state_period",
    "Verif.XorLinear.C78_xoshiro512_windows",
    "Verif.XorLinear.C78_xoshiro512_zero_window"
   ],
   "note": ""
  },
  {
   "property": "C79",
   "status": "proved",
   "theorems": [
    "Verif.Lcg128.C79_lcg128_counts",
    "Verif.Lcg128.C79_lcg128_full_iff",
    "Verif.Lcg128.C79_lcg128_lower_period",
    "Verif.Lcg128.C79_lcg128_period",
    "Verif.Pcg.C79_pcg64_counts",
    "Verif.Pcg.C79_pcg64_period",
    "Verif.Pcg.C79_pcg64_seeded",
    "Verif.Pcg32.C79_pcg32_counts",
    "Verif.Pcg32.C79_pcg32_period",
    "Verif.Pcg32.C79_pcg32_seeded"
   ],
   "note": ""
  },
  {
   "property": "C80",
   "status": "proved",
   "theorems": [
    "Verif.C80_mt19937",
    "Verif.C80_mt19937_appears",
    "Verif.C80_mt64",
    "Verif.C80_seeded"
   ],
   "note": ""
  },
  {
   "property": "C81",
   "status": "proved",
   "theorems": [
    "Verif.C81_aes_counts",
    "Verif.C81_aes_documented",
    "Verif.C81_aes_pairs",
    "Verif.C81_aes_period",
    "Verif.C81_philox_blocks",
    "Verif.C81_philox_counts",
    "Verif.C81_philox_documented",
    "Verif.C81_philox_period",
    "Verif.C81_speck_counts",
    "Verif.C81_speck_documented",
    "Verif.C81_speck_pairs",
    "Verif.C81_speck_period",
    "Verif.C81_threefry_blocks",
    "Verif.C81_threefry_counts",
    "Verif.C81_threefry_documented",
    "Verif.C81_threefry_period"
   ],
   "note": ""
  },
  {
   "property": "C82",
   "status": "partial",
   "theorems": [
    "Verif.C82_chacha_next64",
    "Verif.C82_chacha_period_partial"
   ],
   "note": "2**128 (32-bit) and 2**127 (64-bit draws) are proved to be periods for every key; that 2**128 is the smallest is proved for every key for which one draw differs from the one 2**127 later (checked for the zero key in an example). That such a draw exists for every key is missing: it would need a property of the core beyond being a permutation."
  },
  {
   "property": "C83",
   "status": "proved",
   "theorems": [
    "Verif.C83_encrypt",
    "Verif.C83_sbox",
    "Verif.C83_stream"
   ],
   "note": "The specification in Common/Fips197 is a reading of FIPS-197: polynomials over GF(2) modulo x^8+x^4+x^3+x+1, the affine map, ShiftRows, MixColumns as a product of polynomials, the key schedule by its recurrence."
  },
  {
   "property": "C84",
   "status": "partial",
   "theorems": [
    "Verif.C84_block",
    "Verif.C84_next",
    "Verif.C84_program",
    "Verif.C84_refill",
    "Verif.C84_schedule",
    "Verif.C84_seed",
    "Verif.C84_toggle_partial",
    "Verif.not_C84_toggle"
   ],
   "note": "All draws and states agree for every program. An assignment to use_aesni does not stay in force: seeding or constructing any generator sets the flag again (not_C84_toggle)."
  },
  {
   "property": "C85",
   "status": "proved",
   "theorems": [
    "Verif.C85_keys",
    "Verif.C85_stream"
   ],
   "note": ""
  },
  {
   "property": "C86",
   "status": "proved",
   "theorems": [
    "Verif.C86_core",
    "Verif.C86_stream"
   ],
   "note": ""
  },
  {
   "property": "C87",
   "status": "proved",
   "theorems": [
    "Verif.C87_philox2_stream",
    "Verif.C87_philox4_stream",
    "Verif.C87_philox_unrolled",
    "Verif.C87_threefish256",
    "Verif.C87_threefry2_unrolled",
    "Verif.C87_threefry2x32_stream",
    "Verif.C87_threefry2x64_stream",
    "Verif.C87_threefry4_unrolled",
    "Verif.C87_threefry4x32_stream",
    "Verif.C87_threefry4x64_stream",
    "Verif.C87_weyl"
   ],
   "note": ""
  },
  {
   "property": "C88",
   "status": "proved",
   "theorems": [
    "Verif.C88_no_leak",
    "Verif.C88_others",
    "Verif.C88_pointers",
    "Verif.C88_program",
    "Verif.not_C88_calloc",
    "Verif.not_C88_free_null",
    "Verif.not_C88_overflow"
   ],
   "note": "Every request of the code base is a constant far below the bound. Beyond it: not_C88_overflow, not_C88_calloc; not_C88_free_null."
  },
  {
   "property": "C89",
   "status": "partial",
   "theorems": [
    "Verif.C89_chacha_program",
    "Verif.C89_chacha_report",
    "Verif.C89_feature_flags",
    "Verif.C89_speck_program",
    "Verif.C89_speck_report_partial",
    "Verif.not_C89_chacha_toggle",
    "Verif.not_C89_speck_report",
    "Verif.not_C89_speck_toggle"
   ],
   "note": "Draws and states agree for every program and host. Assignments do not stay in force (seeding or constructing sets the flag again), and use_sse41 = 2 reports True while the portable code runs."
  },
  {
   "property": "C90",
   "status": "partial",
   "theorems": [
    "Verif.C90_auto",
    "Verif.C90_fallback",
    "Verif.C90_fallback_distinct",
    "Verif.C90_hash32",
    "Verif.C90_hash64",
    "Verif.C90_leak_iff",
    "Verif.C90_system",
    "Verif.C90_unix_success",
    "Verif.not_C90_empty",
    "Verif.not_C90_fallback_distinct",
    "Verif.not_C90_fallback_large",
    "Verif.not_C90_fallback_size",
    "Verif.not_C90_leak",
    "Verif.not_C90_windows",
    "Verif.not_C90_windows_zero"
   ],
   "note": "On Unix every successful system read is genuine and complete. Not true of the code: descriptors leak exactly on failed or short reads (C90_leak_iff), Windows without a provider, fallback from 2**31 bytes on, empty sizes, distinctness of fallback words for readings that differ in more than one input."
  },
  {
   "property": "C91",
   "status": "partial",
   "theorems": [
    "Verif.C91_atomic",
    "Verif.C91_draws",
    "Verif.C91_gil_partial",
    "Verif.C91_no_deadlock",
    "Verif.C91_stream",
    "Verif.not_C91_advance",
    "Verif.not_C91_complex_normal",
    "Verif.not_C91_getter",
    "Verif.not_C91_rdrand",
    "Verif.not_C91_seed"
   ],
   "note": "Proved for all methods that hold the lock (C91_atomic, C91_draws, C91_stream), for all methods as long as none gives up the GIL (C91_gil_partial), and deadlock freedom for all. False for the methods without the lock: complex_normal() of scalars, state, seed, advance, jump, and the status flag of RDRAND (not_C91_*)."
  },
  {
   "property": "C92",
   "status": "partial",
   "theorems": [
    "Verif.C92_accepted",
    "Verif.C92_broadcast_partial",
    "Verif.C92_empty_exact",
    "Verif.C92_iter",
    "Verif.C92_refused",
    "Verif.C92_shape",
    "Verif.not_C92_empty",
    "Verif.not_C92_rows",
    "Verif.not_C92_size"
   ],
   "note": "NumPy's MultiIter (PyArray_Broadcast, PyArray_ITER_NEXT) is modelled with arbitrary strides. Proved: the common shape, the element every operand stands on in every iteration, and the pairing when size is omitted or equals the common shape; every accepted call exactly (C92_accepted). False otherwise: a size smaller than the common shape is accepted and uses a prefix of the parameters (not_C92_size, not_C92_rows), and with an empty parameter the loop reads outside it (not_C92_empty, exact in C92_empty_exact)."
  },
  {
   "property": "C93",
   "status": "partial",
   "theorems": [
    "Verif.C93_batched_partial",
    "Verif.C93_empty_size",
    "Verif.C93_refused",
    "Verif.not_C93_empty_size",
    "Verif.not_C93_zero"
   ],
   "note": "np.matmul, np.broadcast and addition by NumPy's broadcasting rule (BcOf). Proved when size is omitted or has enough axes and no length is 0. False for size=(): it is accepted and all samples share one vector of normals (not_C93_empty_size, exact in C93_empty_size); a length 0 in size counts as 1 (not_C93_zero). N = 0 (IndexError in the code) is not modelled."
  },
  {
   "property": "C94",
   "status": "partial",
   "theorems": [
    "Verif.C94_aes",
    "Verif.C94_cached",
    "Verif.C94_mt19937_doubles",
    "Verif.C94_mt19937_next64",
    "Verif.C94_mt64_doubles",
    "Verif.C94_mt64_halves_partial",
    "Verif.C94_mt_seeded",
    "Verif.C94_philox32",
    "Verif.C94_philox64",
    "Verif.C94_speck",
    "Verif.C94_threefry32",
    "Verif.C94_threefry64",
    "Verif.Lcg128.C94_lcg128",
    "Verif.Lcg128.C94_lcg128_lower",
    "Verif.Pcg.C94_pcg64",
    "Verif.Pcg32.C94_pcg32_period",
    "Verif.Pcg32.C94_pcg32_seeded",
    "Verif.XorLinear.C94_lxm",
    "Verif.XorLinear.C94_xoroshiro128",
    "Verif.XorLinear.C94_xorshift1024",
    "Verif.XorLinear.C94_xorshift1024_counts",
    "Verif.XorLinear.C94_xoshiro256",
    "Verif.XorLinear.C94_xoshiro512"
   ],
   "note": "Complete for Xoroshiro128, Xoshiro256, Xoshiro512, Xorshift1024, LXM, PCG64 and LCG128Mix (lower: shorter periods, C94_lcg128_lower) and for the doubles of MT19937 and MT64. Missing: minimality of the period of the 32-bit draws of MT64 (C94_mt64_halves_partial) and of the doubles of SPECK128, AESCounter, Philox and ThreeFry; counts for the doubles of PCG32. SFMT, dSFMT and the chaotic generators have no claim here."
  },
  {
   "property": "C95",
   "status": "partial",
   "theorems": [
    "Verif.C95_aesctr_partial",
    "Verif.C95_chacha_partial",
    "Verif.C95_dsfmt_partial",
    "Verif.C95_efiix64",
    "Verif.C95_hc128_partial",
    "Verif.C95_jsf_partial",
    "Verif.C95_lcg128mix_partial",
    "Verif.C95_lxm",
    "Verif.C95_mt19937_partial",
    "Verif.C95_mt64",
    "Verif.C95_pcg32",
    "Verif.C95_pcg64_partial",
    "Verif.C95_pcg64dxsm",
    "Verif.C95_philox_counter_partial",
    "Verif.C95_philox_draws_partial",
    "Verif.C95_romu",
    "Verif.C95_sfc64",
    "Verif.C95_sfmt_partial",
    "Verif.C95_speck128_partial",
    "Verif.C95_squares_partial",
    "Verif.C95_threefry_counter_partial",
    "Verif.C95_threefry_draws_partial",
    "Verif.C95_tyche",
    "Verif.C95_xoroshiro128",
    "Verif.C95_xorshift1024_partial",
    "Verif.C95_xoshiro256",
    "Verif.C95_xoshiro512",
    "Verif.not_C95_aesctr",
    "Verif.not_C95_chacha",
    "Verif.not_C95_dsfmt",
    "Verif.not_C95_dsfmt_distance",
    "Verif.not_C95_hc128",
    "Verif.not_C95_jsf",
    "Verif.not_C95_lcg128mix",
    "Verif.not_C95_lcg128mix_jumped",
    "Verif.not_C95_mt19937",
    "Verif.not_C95_mt19937_numpy",
    "Verif.not_C95_pcg64",
    "Verif.not_C95_philox",
    "Verif.not_C95_philox_numpy",
    "Verif.not_C95_sfmt",
    "Verif.not_C95_sfmt_distance",
    "Verif.not_C95_speck128",
    "Verif.not_C95_squares",
    "Verif.not_C95_squares_seed",
    "Verif.not_C95_threefry",
    "Verif.not_C95_xorshift1024"
   ],
   "note": "Complete for Xoshiro256, Xoshiro512, Xoroshiro128, LXM, SFC64, Romu, PCG64DXSM, PCG32 (both orders of evaluation), EFIIX64, Tyche (both orders of evaluation) and MT64. Xorshift1024: seed keeps the position, so the stream after seed depends on the words taken before (not_C95_xorshift1024; exact in C95_xorshift1024_partial). PCG64: false when instances of both seeding modes exchange states, since jumped then raises (not_C95_pcg64); proved for programs in one mode. SPECK128 and AESCounter: moving by a multiple of the period keeps the unused half, against the documentation (not_C95_speck128, not_C95_aesctr; exact in the _partial theorems). ChaCha: the documented jump and advance do not exist (not_C95_chacha); everything else is proved, against the ChaCha specification (C95_chacha_partial, both orders of evaluation). JSF: the accepted rotations p = 0 and q = 0 are undefined (not_C95_jsf); proved for all others (C95_jsf_partial). HC128: after seed the words left in the buffer come first (not_C95_hc128); exact, against the reference cipher, in C95_hc128_partial. LCG128Mix: seed after a loaded state uses the constructor's multiplier (not_C95_lcg128mix), seed on the result of jumped uses the default one (not_C95_lcg128mix_jumped); proved for one multiplier, all built-in output functions (C95_lcg128mix_partial). Squares: a loaded state keeps the target's unused half (not_C95_squares), a seed that raises has moved the counter (not_C95_squares_seed); otherwise proved, both variants and orders of evaluation (C95_squares_partial). Philox and ThreeFry: a jump after a word-wise advance can drop a whole block (not_C95_philox, not_C95_threefry), and NumPy's seeding mode ignores the counter (not_C95_philox_numpy); proved outside that mode for programs of one variant, with block-wise advance for all four variants and every call (C95_*_counter_partial), with word-wise advance for the four-word variants without jumps (C95_*_draws_partial). SFMT and DSFMT: a jump also drops what is left of the current block, so no number of words per jump is right (not_C95_sfmt, not_C95_dsfmt), and between blocks it skips more than the documented 2^128 draws (not_C95_sfmt_distance, not_C95_dsfmt_distance); exact for all programs, with places counted in jumps and words, in C95_sfmt_partial and C95_dsfmt_partial. MT19937: jump leads elsewhere, in both seeding modes (not_C95_mt19937, not_C95_mt19937_numpy); every program whose jumps are refused or by zero is proved, in both modes and orders of evaluation (C95_mt19937_partial); what its jumps do is C35. RDRAND has neither seed nor stream and is left out. Programs of one class in one thread; seeds enter as the words of the seed sequence."
  },
  {
   "property": "C96",
   "status": "partial",
   "theorems": [
    "Verif.C96_lxm_partial",
    "Verif.C96_mt19937_partial",
    "Verif.C96_mt64_partial",
    "Verif.C96_pcg32_partial",
    "Verif.C96_pcg64_partial",
    "Verif.C96_squares_even",
    "Verif.C96_xoroshiro128_partial",
    "Verif.C96_xorshift1024_partial",
    "Verif.C96_xoshiro256_partial",
    "Verif.C96_xoshiro512_partial",
    "Verif.not_C96_dsfmt",
    "Verif.not_C96_hc128",
    "Verif.not_C96_jsf",
    "Verif.not_C96_lcg128mix",
    "Verif.not_C96_lxm",
    "Verif.not_C96_mt19937",
    "Verif.not_C96_mt64",
    "Verif.not_C96_pcg32",
    "Verif.not_C96_pcg64",
    "Verif.not_C96_pcg64dxsm",
    "Verif.not_C96_romu",
    "Verif.not_C96_sfc64",
    "Verif.not_C96_sfmt",
    "Verif.not_C96_squares",
    "Verif.not_C96_tyche",
    "Verif.not_C96_xoroshiro128",
    "Verif.not_C96_xorshift1024",
    "Verif.not_C96_xoshiro256",
    "Verif.not_C96_xoshiro512"
   ],
   "note": "False in general: the setters store any words (not_C96_*: for seventeen classes a dictionary accepted from every state after which all outputs are equal). C96_*_partial says exactly which states run the whole cycle for Xoshiro256/512, Xoroshiro128, Xorshift1024, LXM, PCG64 (all variants), PCG32, MT19937 and MT64; C96_squares_even: an even key halves the period of Squares. The exact condition for the other classes is not known here; the classes in counter mode have no such states (C17, C21, C77)."
  },
  {
   "property": "C97",
   "status": "proved",
   "theorems": [
    "Verif.C97_mt19937_streams",
    "Verif.C97_mt64_streams",
    "Verif.C97_mt_keys",
    "Verif.C97_mt_seed"
   ],
   "note": "Keys of the length the classes use (624 words of 32 bits, 312 of 64); C97_*_streams for seeds of any length."
  },
  {
   "property": "C98",
   "status": "partial",
   "theorems": [
    "Verif.C98_aesctr",
    "Verif.C98_aesctr_advance",
    "Verif.C98_dsfmt",
    "Verif.C98_lcg128mix",
    "Verif.C98_lcg128mix_advance",
    "Verif.C98_lxm",
    "Verif.C98_pcg32",
    "Verif.C98_pcg32_advance",
    "Verif.C98_pcg64",
    "Verif.C98_pcg64_advance",
    "Verif.C98_pcg64dxsm",
    "Verif.C98_pcg64dxsm_advance",
    "Verif.C98_philox32",
    "Verif.C98_philox32_blocks",
    "Verif.C98_philox32_words",
    "Verif.C98_philox64",
    "Verif.C98_philox64_blocks",
    "Verif.C98_philox64_words",
    "Verif.C98_sfmt",
    "Verif.C98_speck128",
    "Verif.C98_speck128_advance",
    "Verif.C98_threefry32",
    "Verif.C98_threefry32_blocks",
    "Verif.C98_threefry32_words",
    "Verif.C98_threefry64",
    "Verif.C98_threefry64_blocks",
    "Verif.C98_threefry64_words",
    "Verif.C98_xoroshiro128",
    "Verif.C98_xorshift1024",
    "Verif.C98_xoshiro256",
    "Verif.C98_xoshiro512",
    "Verif.not_C98_chacha"
   ],
   "note": "Fails for ChaCha, which the table of parallel.rst lists but which has no jumped (not_C98_chacha). Missing: MT19937 (where its jumps lead is C35), Squares (period of the outputs not known), LCG128Mix with output lower (period 2^64, C79) or other multipliers, advance(counter=False) for Philox and ThreeFry with two words (see not_C19, not_C20). For SFMT and DSFMT P divides all periods; for the others P is the period (C78, C79, C81)."
  },
  {
   "property": "C99",
   "status": "proved",
   "theorems": [
    "Verif.C99_aesctr_counter",
    "Verif.C99_integer_seeds",
    "Verif.C99_lcg128mix",
    "Verif.C99_lxm",
    "Verif.C99_pcg32",
    "Verif.C99_pcg64",
    "Verif.C99_pcg64dxsm",
    "Verif.C99_philox32_counter",
    "Verif.C99_philox64_counter",
    "Verif.C99_siblings",
    "Verif.C99_speck128_counter",
    "Verif.C99_threefry32_counter",
    "Verif.C99_threefry64_counter",
    "Verif.C99_xoroshiro128",
    "Verif.C99_xorshift1024",
    "Verif.C99_xoshiro256",
    "Verif.C99_xoshiro512"
   ],
   "note": "Increments taken from the seed, different keys of the ciphers and counter generators, and the outputs of the chaotic generators are not covered. Two keys of MT19937 can give the same stream (C97), two integer seeds of at least 2^128 the same pool (C44). LCG128Mix: default multiplier, output functions other than lower."
  },
  {
   "property": "C100",
   "status": "partial",
   "theorems": [
    "Verif.C100_lxm_partial",
    "Verif.C100_pair_not_zero",
    "Verif.C100_romu_trio_partial",
    "Verif.C100_xoroshiro128_partial",
    "Verif.C100_xorshift1024_partial",
    "Verif.C100_xoshiro256_partial",
    "Verif.C100_xoshiro512_partial",
    "Verif.not_C100_lxm",
    "Verif.not_C100_romu_trio",
    "Verif.not_C100_xoroshiro128",
    "Verif.not_C100_xorshift1024",
    "Verif.not_C100_xoshiro256",
    "Verif.not_C100_xoshiro512"
   ],
   "note": "Fails for Xoroshiro128: the integer seed 317152452167715789935752102952713236406 gives the zero state and both variants return 0 for ever (not_C100_xoroshiro128); it is the only such integer below 2^128. With larger pools it fails for Xoshiro256 and LXM (pool_size=8; LXM never returns), Xoshiro512 (16), Xorshift1024 (32) and Romu trio (8). With the default pool, and up to the sizes stated, it holds for all these. PCG and the Mersenne twisters: C79, C76."
  },
  {
   "property": "C101",
   "status": "partial",
   "theorems": [
    "Verif.C101_aesctr_partial",
    "Verif.C101_dsfmt_partial",
    "Verif.C101_lcg128mix",
    "Verif.C101_lxm_partial",
    "Verif.C101_pcg32",
    "Verif.C101_pcg64",
    "Verif.C101_pcg64dxsm",
    "Verif.C101_philox_partial",
    "Verif.C101_sfmt_partial",
    "Verif.C101_speck128_partial",
    "Verif.C101_threefry_partial",
    "Verif.C101_xoroshiro128",
    "Verif.C101_xorshift1024",
    "Verif.C101_xoshiro256",
    "Verif.C101_xoshiro512",
    "Verif.not_C101_aesctr",
    "Verif.not_C101_chacha",
    "Verif.not_C101_dsfmt",
    "Verif.not_C101_lxm",
    "Verif.not_C101_philox",
    "Verif.not_C101_sfmt",
    "Verif.not_C101_speck128",
    "Verif.not_C101_threefry"
   ],
   "note": "Right for Xoshiro256, Xoshiro512, Xoroshiro128, Xorshift1024, PCG64, PCG32, LCG128Mix (default multiplier, output functions other than lower). Wrong, with the true values proved, for LXM (period 2^64 (2^256 - 1)), SPECK128 and AESCounter (period 2^129), Philox and ThreeFry (period 2^258, jumps of 2^130 words), SFMT and DSFMT (jumps of 2^129 numbers); ChaCha.jumped does not exist. Missing: the exact period of SFMT and DSFMT (a multiple of 2^19937 - 1, C77). MT19937: its jumps are the subject of C95."
  },
  {
   "property": "C102",
   "status": "partial",
   "theorems": [
    "Verif.C102_aesctr",
    "Verif.C102_aesctr_partial",
    "Verif.C102_chacha",
    "Verif.C102_chacha_partial",
    "Verif.C102_hc128",
    "Verif.C102_hc128_partial",
    "Verif.C102_lcg128mix_partial",
    "Verif.C102_pcg32_partial",
    "Verif.C102_pcg64_partial",
    "Verif.C102_philox",
    "Verif.C102_philox_partial",
    "Verif.C102_speck128",
    "Verif.C102_speck128_partial",
    "Verif.C102_squares_partial",
    "Verif.C102_threefry",
    "Verif.C102_threefry_partial",
    "Verif.not_C102_aesctr_counter",
    "Verif.not_C102_chacha_counter",
    "Verif.not_C102_ctr_counter",
    "Verif.not_C102_key_length",
    "Verif.not_C102_lcg128mix",
    "Verif.not_C102_pcg32",
    "Verif.not_C102_pcg64",
    "Verif.not_C102_pcg64_no_seed",
    "Verif.not_C102_pcg64_numpy",
    "Verif.not_C102_philox_numpy",
    "Verif.not_C102_philox_numpy_zero",
    "Verif.not_C102_speck128_counter",
    "Verif.not_C102_squares"
   ],
   "note": "Holds for PCG32 and PCG64 (default mode, with a seed) for every increment but 2^64 (2^128), which passes the check, raises OverflowError and leaves the new seed sequence with the old state; PCG64.seed(None, inc) ignores inc; in the mode numpy a refused increment leaves the new seed sequence. LCG128Mix uses every valid increment but checks none: large ones raise OverflowError and leave the new seed sequence, negative ones are used with NumPy 1. Squares refuses exactly the counters and keys it should, but a refused key leaves the new counter. SPECK128, AESCounter, ChaCha and HC128 use every valid key and counter in each of the documented forms and refuse all others except arrays with another number of words; a counter refused together with a seed leaves the new seed sequence. So do all variants of Philox and ThreeFry, but Philox in the mode numpy ignores the counter. Not represented: increments that are not integers."
  },
  {
   "property": "C103",
   "status": "partial",
   "theorems": [
    "Verif.SeedSeq.C103_order",
    "Verif.SeedSeq.C103_repr",
    "Verif.SeedSeq.C103_state",
    "Verif.SeedSeq.C103_steps_partial",
    "Verif.SeedSeq.C103_steps_return_partial",
    "Verif.SeedSeq.not_C103_negative_count"
   ],
   "note": "State, repr and order for every sequence that a program can have, with any counts. Steps: for counts from 0 on; a negative count takes the counter back, so that a child is returned twice (negation proved). Not represented: the text of repr for arrays and strings as entropy, which does not evaluate to the entropy."
  },
  {
   "property": "C104",
   "status": "partial",
   "theorems": [
    "Verif.SeedSeq.C104_refused_partial",
    "Verif.SeedSeq.C104_round_trip",
    "Verif.SeedSeq.C104_sequences_partial",
    "Verif.SeedSeq.C104_spells_partial",
    "Verif.SeedSeq.not_C104_long",
    "Verif.SeedSeq.not_C104_space",
    "Verif.SeedSeq.not_C104_underscore"
   ],
   "note": "Holds for hexadecimal strings of any length and decimal strings of up to sys.get_int_max_str_digits() digits (4300 from Python 3.11 on: longer ones are refused). Strings without underscores and white space that spell nothing are refused; \"1_0\" and \"7 \" are accepted (negations proved). Not represented: characters outside ASCII."
  },
  {
   "property": "C105",
   "status": "partial",
   "theorems": [
    "Verif.ExtGen.C105_aesctr",
    "Verif.ExtGen.C105_chacha",
    "Verif.ExtGen.C105_dsfmt",
    "Verif.ExtGen.C105_efiix64",
    "Verif.ExtGen.C105_hc128",
    "Verif.ExtGen.C105_jsf_copy_partial",
    "Verif.ExtGen.C105_jsf_partial",
    "Verif.ExtGen.C105_lxm",
    "Verif.ExtGen.C105_mt19937_copy_mode",
    "Verif.ExtGen.C105_mt19937_partial",
    "Verif.ExtGen.C105_mt64",
    "Verif.ExtGen.C105_pcg32",
    "Verif.ExtGen.C105_pcg64_copy_partial",
    "Verif.ExtGen.C105_pcg64_partial",
    "Verif.ExtGen.C105_pcg64dxsm",
    "Verif.ExtGen.C105_philox_copy_partial",
    "Verif.ExtGen.C105_philox_partial",
    "Verif.ExtGen.C105_romu_copy_partial",
    "Verif.ExtGen.C105_romu_partial",
    "Verif.ExtGen.C105_sfc64_partial",
    "Verif.ExtGen.C105_sfmt",
    "Verif.ExtGen.C105_speck128",
    "Verif.ExtGen.C105_squares_partial",
    "Verif.ExtGen.C105_threefry_copy_partial",
    "Verif.ExtGen.C105_threefry_partial",
    "Verif.ExtGen.C105_tyche_copy_partial",
    "Verif.ExtGen.C105_tyche_partial",
    "Verif.ExtGen.C105_xoroshiro128_copy_partial",
    "Verif.ExtGen.C105_xoroshiro128_partial",
    "Verif.ExtGen.C105_xorshift1024",
    "Verif.ExtGen.C105_xoshiro256",
    "Verif.ExtGen.C105_xoshiro512",
    "Verif.ExtGen.not_C105_default_copy",
    "Verif.ExtGen.not_C105_default_copy_stream",
    "Verif.ExtGen.not_C105_jsf",
    "Verif.ExtGen.not_C105_jsf_copy",
    "Verif.ExtGen.not_C105_pcg64",
    "Verif.ExtGen.not_C105_philox",
    "Verif.ExtGen.not_C105_philox_copy",
    "Verif.ExtGen.not_C105_philox_width",
    "Verif.ExtGen.not_C105_romu",
    "Verif.ExtGen.not_C105_romu_copy",
    "Verif.ExtGen.not_C105_sfc64_copy",
    "Verif.ExtGen.not_C105_squares",
    "Verif.ExtGen.not_C105_squares_copy",
    "Verif.ExtGen.not_C105_threefry",
    "Verif.ExtGen.not_C105_tyche",
    "Verif.ExtGen.not_C105_tyche_copy",
    "Verif.ExtGen.not_C105_xoroshiro128",
    "Verif.ExtGen.not_C105_xoroshiro128_copy"
   ],
   "note": "False as stated: the constructor copies the function pointers, so after the state of another variant is assigned the ExtendedGenerator draws with the old functions (not_C105_xoroshiro128, _romu, _tyche, _jsf, _squares, _pcg64, _philox, _philox_width, _threefry), and a copy has the functions of the class's default variant (not_C105_*_copy). The default ExtendedGenerator() is PCG64(variant='dxsm'), not the default variant of PCG64, so pickling it changes its stream (not_C105_default_copy): from every seed the copy draws as PCG64(variant='dxsm-128') in that state would (not_C105_default_copy_stream). Proved: all programs that stay with one variant (C105_*_partial), and copies of default variants for Xoroshiro128, Romu, Tyche, PCG64, JSF, and for Philox and ThreeFry that have been drawn from (C105_*_copy_partial). A copy of Squares loses the pending half word even for the default variant (not_C105_squares_copy). The fourteen classes with one set of functions: full claim, every program, and the copy is in exactly the state of the original (C105_xoshiro256 and so on); SFC64 and MT19937 likewise for the default constructor arguments (C105_sfc64_partial, C105_mt19937_partial). Copies of SFC64 with other w and k lose them and go apart at the next seed (not_C105_sfc64_copy); copies of MT19937(numpy_seed=True) are seeded in the other mode (C105_mt19937_copy_mode). LCG128Mix, RDRAND and UserBitGenerator are not covered."
  },
  {
   "property": "C106",
   "status": "partial",
   "theorems": [
    "Verif.ExtGen.C106_jsf_partial",
    "Verif.ExtGen.C106_one_set",
    "Verif.ExtGen.C106_pcg64_partial",
    "Verif.ExtGen.C106_philox_partial",
    "Verif.ExtGen.C106_romu_partial",
    "Verif.ExtGen.C106_squares_partial",
    "Verif.ExtGen.C106_threefry_partial",
    "Verif.ExtGen.C106_tyche_partial",
    "Verif.ExtGen.C106_xoroshiro128_partial",
    "Verif.ExtGen.not_C106_pcg64",
    "Verif.ExtGen.not_C106_romu",
    "Verif.ExtGen.not_C106_two_faces",
    "Verif.ExtGen.not_C106_xoroshiro128"
   ],
   "note": "False as stated: the tuples are made when first asked for and kept, so after the state of another variant is assigned they hold the functions of the old one (not_C106_xoroshiro128, not_C106_pcg64, not_C106_romu), and ctypes and cffi can differ from each other (not_C106_two_faces). Proved for all programs that stay with one variant, for each of the eight classes with variants. For the classes with one set of functions the full claim holds (C106_one_set). That the casts of the addresses are right is not modelled."
  },
  {
   "property": "C107",
   "status": "partial",
   "theorems": [
    "Verif.NpState.C107_extended_pcg64",
    "Verif.NpState.C107_extended_pcg64dxsm",
    "Verif.NpState.C107_mt19937",
    "Verif.NpState.C107_mt19937_stream",
    "Verif.NpState.C107_pcg64",
    "Verif.NpState.C107_pcg64_stream",
    "Verif.NpState.C107_pcg64dxsm",
    "Verif.NpState.C107_pcg64dxsm_stream",
    "Verif.NpState.C107_philox",
    "Verif.NpState.C107_philox_stream",
    "Verif.NpState.not_C107_extended_sfc64",
    "Verif.NpState.not_C107_sfc64"
   ],
   "note": "False as stated: SFC64 refuses every state that numpy.random.SFC64 saves, with KeyError (not_C107_sfc64), so a pickled ExtendedGenerator of it cannot be loaded (not_C107_extended_sfc64). Proved for every state of NumPy's PCG64, PCG64DXSM, MT19937 and Philox and every instance it is assigned to: what the assignment leaves, with the variant that NumPy has (C107_pcg64, C107_pcg64dxsm, C107_mt19937, C107_philox); for PCG64, PCG64DXSM and Philox also the stream of 64-bit words and for MT19937 that of 32-bit words, written out from the definitions (C107_*_stream), and the loaded ExtendedGenerator (C107_extended_pcg64, C107_extended_pcg64dxsm). NumPy's dictionaries are part of the trusted base; its source is not in the repository. For Philox the stream assumes that the words of the buffer still to be drawn are those of the block at the counter, as in every state NumPy reaches."
  }
 ]
}