# Axioms each theorem of the manifest depends on (output of Lean.collectAxioms).
Verif.Buf.C09_draws32_even: Quot.sound, propext
Verif.Buf.C09_draws32_odd: Quot.sound, propext
Verif.Buf.C09_interleaving: Quot.sound, propext
Verif.Buf.C09_wide_count: Quot.sound, propext
Verif.Buf.C09_wide_keeps_half: propext
Verif.C05_lcg128_advance_add: Classical.choice, Quot.sound, propext
Verif.C05_lcg128_advance_neg: Classical.choice, Quot.sound, propext
Verif.C05_pcg32_advance_add: Classical.choice, Quot.sound, propext
Verif.C05_pcg32_advance_neg: Classical.choice, Quot.sound, propext
Verif.C05_pcg64_advance_add: Classical.choice, Quot.sound, propext
Verif.C05_pcg64_advance_neg: Classical.choice, Quot.sound, propext
Verif.C07_pcg32_full_period: Classical.choice, Quot.sound, propext
Verif.C07_pcg64_distinct: Classical.choice, Quot.sound, propext
Verif.C07_pcg64_full_period: Classical.choice, Quot.sound, propext
Verif.C08_pcg32_seed_eq_iff: Classical.choice, Quot.sound, propext
Verif.C08_pcg64_inc_collisions: Classical.choice, Quot.sound, propext
Verif.C08_pcg64_same_stream: Classical.choice, Quot.sound, propext
Verif.C08_pcg64_seedCore_eq_iff: Classical.choice, Quot.sound, propext
Verif.C08_pcg64_seed_injective: Classical.choice, Quot.sound, propext
Verif.C100_lxm_partial: Classical.choice, Quot.sound, propext
Verif.C100_pair_not_zero: Classical.choice, Quot.sound, propext
Verif.C100_romu_trio_partial: Classical.choice, Quot.sound, propext
Verif.C100_xoroshiro128_partial: Classical.choice, Quot.sound, propext
Verif.C100_xorshift1024_partial: Classical.choice, Quot.sound, propext
Verif.C100_xoshiro256_partial: Classical.choice, Quot.sound, propext
Verif.C100_xoshiro512_partial: Classical.choice, Quot.sound, propext
Verif.C101_aesctr_partial: Classical.choice, Quot.sound, propext
Verif.C101_dsfmt_partial: Classical.choice, Quot.sound, propext
Verif.C101_lcg128mix: Classical.choice, Quot.sound, propext
Verif.C101_lxm_partial: Classical.choice, Quot.sound, propext
Verif.C101_pcg32: Classical.choice, Quot.sound, propext
Verif.C101_pcg64: Classical.choice, Quot.sound, propext
Verif.C101_pcg64dxsm: Classical.choice, Quot.sound, propext
Verif.C101_philox_partial: Classical.choice, Quot.sound, propext
Verif.C101_sfmt_partial: Classical.choice, Quot.sound, propext
Verif.C101_speck128_partial: Classical.choice, Quot.sound, propext
Verif.C101_threefry_partial: Classical.choice, Quot.sound, propext
Verif.C101_xoroshiro128: Classical.choice, Quot.sound, propext
Verif.C101_xorshift1024: Classical.choice, Quot.sound, propext
Verif.C101_xoshiro256: Classical.choice, Quot.sound, propext
Verif.C101_xoshiro512: Classical.choice, Quot.sound, propext
Verif.C102_aesctr: Classical.choice, Quot.sound, propext
Verif.C102_aesctr_partial: Classical.choice, Quot.sound, propext
Verif.C102_chacha: Classical.choice, Quot.sound, propext
Verif.C102_chacha_partial: Classical.choice, Quot.sound, propext
Verif.C102_hc128: Classical.choice, Quot.sound, propext
Verif.C102_hc128_partial: Classical.choice, Quot.sound, propext
Verif.C102_lcg128mix_partial: Classical.choice, Quot.sound, propext
Verif.C102_pcg32_partial: Classical.choice, Quot.sound, propext
Verif.C102_pcg64_partial: Classical.choice, Quot.sound, propext
Verif.C102_philox: Classical.choice, Quot.sound, propext
Verif.C102_philox_partial: Classical.choice, Quot.sound, propext
Verif.C102_speck128: Classical.choice, Quot.sound, propext
Verif.C102_speck128_partial: Classical.choice, Quot.sound, propext
Verif.C102_squares_partial: Classical.choice, Quot.sound, propext
Verif.C102_threefry: Classical.choice, Quot.sound, propext
Verif.C102_threefry_partial: Classical.choice, Quot.sound, propext
Verif.C11_aesctr: Classical.choice, Quot.sound, propext
Verif.C11_chacha: Classical.choice, Quot.sound, propext
Verif.C11_dsfmt: Classical.choice, Quot.sound, propext
Verif.C11_efiix64: Classical.choice, Quot.sound, propext
Verif.C11_hc128: Classical.choice, Quot.sound, propext
Verif.C11_jsf: Classical.choice, Quot.sound, propext
Verif.C11_jsf_consistent: Quot.sound, propext
Verif.C11_lcg128mix_partial: Classical.choice, Quot.sound, propext
Verif.C11_lxm: Classical.choice, Quot.sound, propext
Verif.C11_mt19937: Classical.choice, Quot.sound, propext
Verif.C11_mt19937_legacy: Classical.choice, Quot.sound, propext
Verif.C11_mt64: Classical.choice, Quot.sound, propext
Verif.C11_pcg32: Classical.choice, Quot.sound, propext
Verif.C11_pcg64: Classical.choice, Quot.sound, propext
Verif.C11_pcg64_consistent: Quot.sound, propext
Verif.C11_pcg64dxsm: Classical.choice, Quot.sound, propext
Verif.C11_pcg64dxsm_consistent: Classical.choice, Quot.sound, propext
Verif.C11_philox: Classical.choice, Quot.sound, propext
Verif.C11_romu: Classical.choice, Quot.sound, propext
Verif.C11_romu_consistent: Classical.choice, Quot.sound, propext
Verif.C11_sfc64: Classical.choice, Quot.sound, propext
Verif.C11_sfmt: Classical.choice, Quot.sound, propext
Verif.C11_speck128: Classical.choice, Quot.sound, propext
Verif.C11_squares_partial: Classical.choice, Quot.sound, propext
Verif.C11_threefry: Classical.choice, Quot.sound, propext
Verif.C11_tyche: Classical.choice, Quot.sound, propext
Verif.C11_tyche_consistent: propext
Verif.C11_xoroshiro128: Classical.choice, Quot.sound, propext
Verif.C11_xoroshiro128_consistent: propext
Verif.C11_xorshift1024: Classical.choice, Quot.sound, propext
Verif.C11_xoshiro256: Classical.choice, Quot.sound, propext
Verif.C11_xoshiro512: Classical.choice, Quot.sound, propext
Verif.C12_aesctr_partial: propext
Verif.C12_chacha_partial: propext
Verif.C12_dsfmt_array_partial: propext
Verif.C12_dsfmt_partial: propext
Verif.C12_efiix64_partial: propext
Verif.C12_hc128_array_partial: propext
Verif.C12_hc128_partial: propext
Verif.C12_jsf_partial: Quot.sound, propext
Verif.C12_lcg128mix_partial: Quot.sound, propext
Verif.C12_lxm_array_partial: propext
Verif.C12_lxm_partial: propext
Verif.C12_mt19937_legacy_partial: propext
Verif.C12_mt19937_partial: propext
Verif.C12_mt64_array_partial: propext
Verif.C12_mt64_partial: propext
Verif.C12_pcg32_partial: propext
Verif.C12_pcg64: Quot.sound, propext
Verif.C12_pcg64dxsm: Quot.sound, propext
Verif.C12_philox_partial: Quot.sound, propext
Verif.C12_rdrand: propext
Verif.C12_romu_partial: Classical.choice, Quot.sound, propext
Verif.C12_sfc64_partial: propext
Verif.C12_sfmt_array_partial: Quot.sound, propext
Verif.C12_sfmt_partial: Quot.sound, propext
Verif.C12_speck128_array_partial: propext
Verif.C12_speck128_partial: propext
Verif.C12_squares_partial: propext
Verif.C12_threefry_partial: Quot.sound, propext
Verif.C12_tyche_partial: propext
Verif.C12_xoroshiro128_array_partial: propext
Verif.C12_xoroshiro128_partial: propext
Verif.C12_xorshift1024_array_partial: propext
Verif.C12_xorshift1024_partial: propext
Verif.C12_xoshiro256_array_partial: propext
Verif.C12_xoshiro256_partial: propext
Verif.C12_xoshiro512_array_partial: propext
Verif.C12_xoshiro512_partial: propext
Verif.C13_aesctr_partial: Classical.choice, Quot.sound, propext
Verif.C13_chacha: propext
Verif.C13_dsfmt_partial: Classical.choice, Quot.sound, propext
Verif.C13_hc128_partial: Classical.choice, Quot.sound, propext
Verif.C13_mt19937_partial: Classical.choice, Quot.sound, propext
Verif.C13_mt64_partial: Classical.choice, Quot.sound, propext
Verif.C13_philox_threefry_partial: Quot.sound, propext
Verif.C13_sfmt_partial: Classical.choice, Quot.sound, propext
Verif.C13_speck128_partial: Classical.choice, Quot.sound, propext
Verif.C13_xorshift1024_partial: Classical.choice, Quot.sound, propext
Verif.C14_aes: Quot.sound, propext
Verif.C14_chacha: Quot.sound, propext
Verif.C14_dsfmt: Quot.sound, propext
Verif.C14_efiix64: Quot.sound, propext
Verif.C14_hc128_partial: Classical.choice, Quot.sound, propext
Verif.C14_jsf32: Quot.sound, propext
Verif.C14_jsf64: Quot.sound, propext
Verif.C14_lcg128mix: Quot.sound, propext
Verif.C14_lxm: Quot.sound, propext
Verif.C14_mt19937: Classical.choice, Quot.sound, propext
Verif.C14_mt19937_numpy: Classical.choice, Quot.sound, propext
Verif.C14_mt64: Classical.choice, Quot.sound, propext
Verif.C14_pcg32: Quot.sound, propext
Verif.C14_pcg64: Quot.sound, propext
Verif.C14_philox_threefry: none
Verif.C14_romu: Quot.sound, propext
Verif.C14_sfc64: Quot.sound, propext
Verif.C14_sfmt: Quot.sound, propext
Verif.C14_speck128: Quot.sound, propext
Verif.C14_squares: Quot.sound, propext
Verif.C14_tyche: Quot.sound, propext
Verif.C14_xoroshiro128: propext
Verif.C14_xorshift1024_draws_partial: Quot.sound, propext
Verif.C14_xorshift1024_partial: propext
Verif.C14_xoshiro256_512: propext
Verif.C15_speck_advance: Classical.choice, Quot.sound, propext
Verif.C15_speck_jumped: Classical.choice, Quot.sound, propext
Verif.C15_speck_stream: Classical.choice, Quot.sound, propext
Verif.C15_speck_total: Classical.choice, Quot.sound, propext
Verif.C16_aes_advance: Classical.choice, Quot.sound, propext
Verif.C16_aes_jumped: Classical.choice, Quot.sound, propext
Verif.C16_aes_stream: Classical.choice, Quot.sound, propext
Verif.C16_aes_total: Classical.choice, Quot.sound, propext
Verif.C17_aes_blocks_never_repeat: Classical.choice, Quot.sound, propext
Verif.C17_speck_blocks_never_repeat: Classical.choice, Quot.sound, propext
Verif.C18_chacha_core: Classical.choice, Quot.sound, propext
Verif.C18_chacha_pass: Classical.choice, Quot.sound, propext
Verif.C18_chacha_stream: Classical.choice, Quot.sound, propext
Verif.C18_dsfmt_sse: Classical.choice, Quot.sound, propext
Verif.C18_sfmt_recursion: Classical.choice, Quot.sound, propext
Verif.C18_sfmt_sse: Classical.choice, Quot.sound, propext
Verif.C18_sfmt_stream: Classical.choice, Quot.sound, propext
Verif.C18_speck: Classical.choice, Quot.sound, propext
Verif.C18_speck_block: Classical.choice, Quot.sound, propext
Verif.C19_philox4_advance_partial: Classical.choice, Quot.sound, propext
Verif.C19_philox_advance_exact: Classical.choice, Quot.sound, propext
Verif.C19_philox_advance_partial: Classical.choice, Quot.sound, propext
Verif.C20_threefry4_advance_partial: Classical.choice, Quot.sound, propext
Verif.C20_threefry_advance_exact: Classical.choice, Quot.sound, propext
Verif.C20_threefry_advance_partial: Classical.choice, Quot.sound, propext
Verif.C21_philox_blocks: Classical.choice, Quot.sound, propext
Verif.C21_philox_injective: Classical.choice, Quot.sound, propext
Verif.C21_philox_period: Classical.choice, Quot.sound, propext
Verif.C21_philox_total: Classical.choice, Quot.sound, propext
Verif.C21_threefry_blocks: Classical.choice, Quot.sound, propext
Verif.C21_threefry_injective: Classical.choice, Quot.sound, propext
Verif.C21_threefry_period: Classical.choice, Quot.sound, propext
Verif.C21_threefry_total: Classical.choice, Quot.sound, propext
Verif.C22_chacha_position: Classical.choice, Quot.sound, propext
Verif.C22_chacha_shift: Classical.choice, Quot.sound, propext
Verif.C23_advance_partial: Classical.choice, Quot.sound, propext
Verif.C24_advance: Quot.sound, propext
Verif.C24_advance32: Quot.sound, propext
Verif.C24_inputs_distinct: Classical.choice, Quot.sound, propext
Verif.C24_jumped: Classical.choice, Quot.sound, propext
Verif.C24_period: Quot.sound, propext
Verif.C25_generate_keys_partial: Classical.choice, Quot.sound, propext
Verif.C25_one_zero_partial: Classical.choice, Quot.sound, propext
Verif.C25_rules_partial: Classical.choice, Quot.sound, propext
Verif.C31_lxm_seed: Classical.choice, Quot.sound, propext
Verif.C31_lxm_seed_ends_iff: Classical.choice, Quot.sound, propext
Verif.C31_lxm_zero_words: Quot.sound, propext
Verif.C34_mt19937: Classical.choice, Quot.sound, propext
Verif.C34_mt64: Classical.choice, Quot.sound, propext
Verif.C34_mt64_beyond: Quot.sound, propext
Verif.C35_first_draw_iff: Classical.choice, Quot.sound, propext
Verif.C35_mt19937_end_partial: Classical.choice, Quot.sound, propext
Verif.C35_mt19937_partial: Classical.choice, Quot.sound, propext
Verif.C36_accepted: Classical.choice, Quot.sound, propext
Verif.C36_dsfmt: Classical.choice, Quot.sound, propext
Verif.C36_mt19937: Classical.choice, Quot.sound, propext
Verif.C36_sfmt: Classical.choice, Quot.sound, propext
Verif.C36_steps: Quot.sound, propext
Verif.C36_strides: Quot.sound, propext
Verif.C37_dsfmt: Classical.choice, Quot.sound, propext
Verif.C37_dsfmt_cert: Classical.choice, Quot.sound, propext
Verif.C37_mt19937_alive: Classical.choice, Quot.sound, propext
Verif.C37_mt19937_top: Quot.sound, propext
Verif.C37_mt64_alive: Classical.choice, Quot.sound, propext
Verif.C37_mt64_top: Quot.sound, propext
Verif.C37_sfmt: Classical.choice, Quot.sound, propext
Verif.C37_sfmt_cert: Classical.choice, Quot.sound, propext
Verif.C38_dsfmt: Classical.choice, Quot.sound, propext
Verif.C39_efiix64: Classical.choice, Quot.sound, propext
Verif.C39_jsf_init_partial: Classical.choice, Quot.sound, propext
Verif.C39_jsf_partial: Classical.choice, Quot.sound, propext
Verif.C39_jsf_published: Classical.choice, Quot.sound, propext
Verif.C39_romu: Classical.choice, Quot.sound, propext
Verif.C39_sfc64: Classical.choice, Quot.sound, propext
Verif.C39_tyche: Classical.choice, Quot.sound, propext
Verif.C40_no_repeat: Classical.choice, Quot.sound, propext
Verif.C40_period_multiple: Classical.choice, Quot.sound, propext
Verif.C40_seeded: Classical.choice, Quot.sound, propext
Verif.C41_accepted_exist: Classical.choice, Quot.sound, propext
Verif.C41_choosek_iff_partial: Classical.choice, Quot.sound, propext
Verif.C41_live_partial: Classical.choice, Quot.sound, propext
Verif.C41_refuses_partial: Classical.choice, Quot.sound, propext
Verif.C41_values_any_partial: Classical.choice, Quot.sound, propext
Verif.C41_values_partial: Classical.choice, Quot.sound, propext
Verif.C47_benchmark: Classical.choice, Quot.sound, propext
Verif.C47_no_output_iff_partial: Classical.choice, Quot.sound, propext
Verif.C47_no_output_int: Quot.sound, propext
Verif.C47_no_output_partial: Classical.choice, Quot.sound, propext
Verif.C47_output: Quot.sound, propext
Verif.C47_output_int: Quot.sound, propext
Verif.C47_uintegers: Quot.sound, propext
Verif.C48_bounds_failed_partial: Quot.sound, propext
Verif.C48_bounds_ok_partial: Classical.choice, Quot.sound, propext
Verif.C48_error_set: Classical.choice, Quot.sound, propext
Verif.C48_program: Classical.choice, Quot.sound, propext
Verif.C48_random_raw: Classical.choice, Quot.sound, propext
Verif.C48_random_raw_scalar: Classical.choice, Quot.sound, propext
Verif.C48_sticky: Classical.choice, Quot.sound, propext
Verif.C48_unflagged: Classical.choice, Quot.sound, propext
Verif.C49_bytes: Classical.choice, Quot.sound, propext
Verif.C49_names: Classical.choice, Quot.sound, propext
Verif.C49_non_ascii: Quot.sound, propext
Verif.C49_register: Classical.choice, Quot.sound, propext
Verif.C49_unknown: Classical.choice, Quot.sound, propext
Verif.C50_numpy_rule: Classical.choice, Quot.sound, propext
Verif.C50_refused: Classical.choice, Quot.sound, propext
Verif.C50_strict: Classical.choice, Quot.sound, propext
Verif.C50_symmetric: Quot.sound, propext
Verif.C50_zero_dimension: Classical.choice, Quot.sound, propext
Verif.C51_from_32: Quot.sound, propext
Verif.C51_from_64: Quot.sound, propext
Verif.C51_supplied: propext
Verif.C52_order_option_partial: Quot.sound, propext
Verif.C52_order_partial: Quot.sound, propext
Verif.C53_array_iff: Classical.choice, Quot.sound, propext
Verif.C53_array_injective: Classical.choice, Quot.sound, propext
Verif.C53_length: Quot.sound, propext
Verif.C53_limits: Classical.choice, Quot.sound, propext
Verif.C53_scalar: Classical.choice, Quot.sound, propext
Verif.C55_quad_partial: Classical.choice, Quot.sound, propext
Verif.C55_trio_partial: Classical.choice, Quot.sound, propext
Verif.C56_jsf: Classical.choice, Quot.sound, propext
Verif.C56_romu: Classical.choice, Quot.sound, propext
Verif.C56_sfc64: Classical.choice, Quot.sound, propext
Verif.C56_tyche: Classical.choice, Quot.sound, propext
Verif.C57_efiix64: Classical.choice, Quot.sound, propext
Verif.C57_splitmix64_outputs: Classical.choice, Quot.sound, propext
Verif.C57_splitmix64_period: Classical.choice, Quot.sound, propext
Verif.C58_sfc64_streams: Classical.choice, Quot.sound, propext
Verif.C59_odd_increment_partial: Classical.choice, Quot.sound, propext
Verif.C60_philox_counter_exact: Classical.choice, Quot.sound, propext
Verif.C60_philox_jumped_partial: Classical.choice, Quot.sound, propext
Verif.C60_threefry_counter_exact: Classical.choice, Quot.sound, propext
Verif.C60_threefry_jumped_partial: Classical.choice, Quot.sound, propext
Verif.C61_mulhilo_agree: Classical.choice, Quot.sound, propext
Verif.C61_mulhilo_c99: Classical.choice, Quot.sound, propext
Verif.C61_mulhilo_double: Classical.choice, Quot.sound, propext
Verif.C62_core_injective: Classical.choice, Quot.sound, propext
Verif.C62_input_injective: Classical.choice, Quot.sound, propext
Verif.C63_interval_partial: Classical.choice, Quot.sound, propext
Verif.C63_refill_partial: Quot.sound, propext
Verif.C64_outputs_determine: Classical.choice, Quot.sound, propext
Verif.C64_temper32: Quot.sound, propext
Verif.C64_temper64: Quot.sound, propext
Verif.C65_dsfmt: Classical.choice, Quot.sound, propext
Verif.C65_sfmt: Classical.choice, Quot.sound, propext
Verif.C66_dsfmt: Classical.choice, Quot.sound, propext
Verif.C66_dsfmt_tables: Classical.choice, Quot.sound, propext
Verif.C66_mt19937: Classical.choice, Quot.sound, propext
Verif.C66_sfmt: Classical.choice, Quot.sound, propext
Verif.C66_sfmt_tables: Classical.choice, Quot.sound, propext
Verif.C67_hc128_reference: Classical.choice, Quot.sound, propext
Verif.C67_hc128_unroll: Classical.choice, Quot.sound, propext
Verif.C68_dsfmt64_partial: Classical.choice, Quot.sound, propext
Verif.C68_dsfmt_partial: Classical.choice, Quot.sound, propext
Verif.C68_sfmt_partial: Classical.choice, Quot.sound, propext
Verif.C69_covariance: Classical.choice, Quot.sound, propext
Verif.C69_element_iff: Classical.choice, Quot.sound, propext
Verif.C69_mask_iff: Classical.choice, Quot.sound, propext
Verif.C69_scalar_iff: Classical.choice, Quot.sound, propext
Verif.C69_scalar_partial: Classical.choice, Quot.sound, propext
Verif.C70_large: Classical.choice, Quot.sound, propext
Verif.C70_mean: Classical.choice, Quot.sound, propext
Verif.C70_psd: Classical.choice, Quot.sound, propext
Verif.C71_cholesky_iff: Classical.choice, Quot.sound, propext
Verif.C71_eigh_iff: Classical.choice, Quot.sound, propext
Verif.C71_factor_partial: Classical.choice, Quot.sound, propext
Verif.C71_mean: Classical.choice, Quot.sound, propext
Verif.C71_svd_iff: Classical.choice, Quot.sound, propext
Verif.C72_cholesky: Classical.choice, Quot.sound, propext
Verif.C72_factor_iff: Classical.choice, Quot.sound, propext
Verif.C72_moments: Classical.choice, Quot.sound, propext
Verif.C72_svd: Classical.choice, Quot.sound, propext
Verif.C73_default: none
Verif.C73_shape_iff: Classical.choice, Quot.sound, propext
Verif.C74_leading_iff: Quot.sound, propext
Verif.C74_moments: Classical.choice, Quot.sound, propext
Verif.C74_symmetric_iff: Classical.choice, Quot.sound, propext
Verif.C75_order_iff: Quot.sound, propext
Verif.C75_out: Classical.choice, Quot.sound, propext
Verif.C75_out_fills: propext
Verif.C75_out_refused: none
Verif.C75_overflow_iff: Quot.sound, propext
Verif.C75_size: Quot.sound, propext
Verif.C76_degenerate: Classical.choice, Quot.sound, propext
Verif.C76_mt19937: Classical.choice, Quot.sound, propext
Verif.C76_mt19937_later: Classical.choice, Quot.sound, propext
Verif.C76_mt19937_seeded: Classical.choice, Quot.sound, propext
Verif.C76_mt64: Classical.choice, Quot.sound, propext
Verif.C76_mt64_later: Classical.choice, Quot.sound, propext
Verif.C76_mt64_seeded: Classical.choice, Quot.sound, propext
Verif.C76_position_0: Classical.choice, Quot.sound, propext
Verif.C77_degenerate: Classical.choice, Quot.sound, propext
Verif.C77_dsfmt: Classical.choice, Quot.sound, propext
Verif.C77_dsfmt_repeats: Classical.choice, Quot.sound, propext
Verif.C77_dsfmt_seeded: Classical.choice, Quot.sound, propext
Verif.C77_sfmt: Classical.choice, Quot.sound, propext
Verif.C77_sfmt_repeats: Classical.choice, Quot.sound, propext
Verif.C77_sfmt_seeded: Classical.choice, Quot.sound, propext
Verif.C80_mt19937: Classical.choice, Quot.sound, propext
Verif.C80_mt19937_appears: Classical.choice, Quot.sound, propext
Verif.C80_mt64: Classical.choice, Quot.sound, propext
Verif.C80_seeded: Classical.choice, Quot.sound, propext
Verif.C81_aes_counts: Classical.choice, Quot.sound, propext
Verif.C81_aes_documented: Classical.choice, Quot.sound, propext
Verif.C81_aes_pairs: Classical.choice, Quot.sound, propext
Verif.C81_aes_period: Classical.choice, Quot.sound, propext
Verif.C81_philox_blocks: Classical.choice, Quot.sound, propext
Verif.C81_philox_counts: Classical.choice, Quot.sound, propext
Verif.C81_philox_documented: Classical.choice, Quot.sound, propext
Verif.C81_philox_period: Classical.choice, Quot.sound, propext
Verif.C81_speck_counts: Classical.choice, Quot.sound, propext
Verif.C81_speck_documented: Classical.choice, Quot.sound, propext
Verif.C81_speck_pairs: Classical.choice, Quot.sound, propext
Verif.C81_speck_period: Classical.choice, Quot.sound, propext
Verif.C81_threefry_blocks: Classical.choice, Quot.sound, propext
Verif.C81_threefry_counts: Classical.choice, Quot.sound, propext
Verif.C81_threefry_documented: Classical.choice, Quot.sound, propext
Verif.C81_threefry_period: Classical.choice, Quot.sound, propext
Verif.C82_chacha_next64: Classical.choice, Quot.sound, propext
Verif.C82_chacha_period_partial: Classical.choice, Quot.sound, propext
Verif.C83_encrypt: Classical.choice, Quot.sound, propext
Verif.C83_sbox: propext
Verif.C83_stream: Classical.choice, Quot.sound, propext
Verif.C84_block: Classical.choice, Quot.sound, propext
Verif.C84_next: Classical.choice, Quot.sound, propext
Verif.C84_program: Classical.choice, Quot.sound, propext
Verif.C84_refill: Classical.choice, Quot.sound, propext
Verif.C84_schedule: Classical.choice, Quot.sound, propext
Verif.C84_seed: Classical.choice, Quot.sound, propext
Verif.C84_toggle_partial: Quot.sound, propext
Verif.C85_keys: Quot.sound, propext
Verif.C85_stream: Classical.choice, Quot.sound, propext
Verif.C86_core: Classical.choice, Quot.sound, propext
Verif.C86_stream: Classical.choice, Quot.sound, propext
Verif.C87_philox2_stream: Classical.choice, Quot.sound, propext
Verif.C87_philox4_stream: Classical.choice, Quot.sound, propext
Verif.C87_philox_unrolled: Quot.sound, propext
Verif.C87_threefish256: Quot.sound, propext
Verif.C87_threefry2_unrolled: Quot.sound, propext
Verif.C87_threefry2x32_stream: Classical.choice, Quot.sound, propext
Verif.C87_threefry2x64_stream: Classical.choice, Quot.sound, propext
Verif.C87_threefry4_unrolled: Quot.sound, propext
Verif.C87_threefry4x32_stream: Classical.choice, Quot.sound, propext
Verif.C87_threefry4x64_stream: Classical.choice, Quot.sound, propext
Verif.C87_weyl: Classical.choice, Quot.sound, propext
Verif.C88_no_leak: Classical.choice, Quot.sound, propext
Verif.C88_others: Classical.choice, Quot.sound, propext
Verif.C88_pointers: Classical.choice, Quot.sound, propext
Verif.C88_program: Classical.choice, Quot.sound, propext
Verif.C89_chacha_program: Classical.choice, Quot.sound, propext
Verif.C89_chacha_report: Classical.choice, Quot.sound, propext
Verif.C89_feature_flags: Quot.sound, propext
Verif.C89_speck_program: Classical.choice, Quot.sound, propext
Verif.C89_speck_report_partial: Classical.choice, Quot.sound, propext
Verif.C90_auto: Classical.choice, Quot.sound, propext
Verif.C90_fallback: Classical.choice, Quot.sound, propext
Verif.C90_fallback_distinct: Classical.choice, Quot.sound, propext
Verif.C90_hash32: Classical.choice, Quot.sound, propext
Verif.C90_hash64: Classical.choice, Quot.sound, propext
Verif.C90_leak_iff: Quot.sound, propext
Verif.C90_system: Classical.choice, Quot.sound, propext
Verif.C90_unix_success: Quot.sound, propext
Verif.C91_atomic: Classical.choice, Quot.sound, propext
Verif.C91_draws: Classical.choice, Quot.sound, propext
Verif.C91_gil_partial: Classical.choice, Quot.sound, propext
Verif.C91_no_deadlock: Quot.sound, propext
Verif.C91_stream: Classical.choice, Quot.sound, propext
Verif.C92_accepted: Classical.choice, Quot.sound, propext
Verif.C92_broadcast_partial: Classical.choice, Quot.sound, propext
Verif.C92_empty_exact: Classical.choice, Quot.sound, propext
Verif.C92_iter: Classical.choice, Quot.sound, propext
Verif.C92_refused: Classical.choice, Quot.sound, propext
Verif.C92_shape: Classical.choice, Quot.sound, propext
Verif.C93_batched_partial: Classical.choice, Quot.sound, propext
Verif.C93_empty_size: Classical.choice, Quot.sound, propext
Verif.C93_refused: Classical.choice, Quot.sound, propext
Verif.C94_aes: Classical.choice, Quot.sound, propext
Verif.C94_cached: propext
Verif.C94_mt19937_doubles: Classical.choice, Quot.sound, propext
Verif.C94_mt19937_next64: Classical.choice, Quot.sound, propext
Verif.C94_mt64_doubles: Classical.choice, Quot.sound, propext
Verif.C94_mt64_halves_partial: Classical.choice, Quot.sound, propext
Verif.C94_mt_seeded: Classical.choice, Quot.sound, propext
Verif.C94_philox32: Classical.choice, Quot.sound, propext
Verif.C94_philox64: Classical.choice, Quot.sound, propext
Verif.C94_speck: Classical.choice, Quot.sound, propext
Verif.C94_threefry32: Classical.choice, Quot.sound, propext
Verif.C94_threefry64: Classical.choice, Quot.sound, propext
Verif.C95_aesctr_partial: Classical.choice, Quot.sound, propext
Verif.C95_chacha_partial: Classical.choice, Quot.sound, propext
Verif.C95_dsfmt_partial: Classical.choice, Quot.sound, propext
Verif.C95_efiix64: Classical.choice, Quot.sound, propext
Verif.C95_hc128_partial: Classical.choice, Quot.sound, propext
Verif.C95_jsf_partial: Classical.choice, Quot.sound, propext
Verif.C95_lcg128mix_partial: Classical.choice, Quot.sound, propext
Verif.C95_lxm: Classical.choice, Quot.sound, propext
Verif.C95_mt19937_partial: Classical.choice, Quot.sound, propext
Verif.C95_mt64: Classical.choice, Quot.sound, propext
Verif.C95_pcg32: Classical.choice, Quot.sound, propext
Verif.C95_pcg64_partial: Classical.choice, Quot.sound, propext
Verif.C95_pcg64dxsm: Classical.choice, Quot.sound, propext
Verif.C95_philox_counter_partial: Classical.choice, Quot.sound, propext
Verif.C95_philox_draws_partial: Classical.choice, Quot.sound, propext
Verif.C95_romu: Classical.choice, Quot.sound, propext
Verif.C95_sfc64: Classical.choice, Quot.sound, propext
Verif.C95_sfmt_partial: Classical.choice, Quot.sound, propext
Verif.C95_speck128_partial: Classical.choice, Quot.sound, propext
Verif.C95_squares_partial: Classical.choice, Quot.sound, propext
Verif.C95_threefry_counter_partial: Classical.choice, Quot.sound, propext
Verif.C95_threefry_draws_partial: Classical.choice, Quot.sound, propext
Verif.C95_tyche: Classical.choice, Quot.sound, propext
Verif.C95_xoroshiro128: Classical.choice, Quot.sound, propext
Verif.C95_xorshift1024_partial: Classical.choice, Quot.sound, propext
Verif.C95_xoshiro256: Classical.choice, Quot.sound, propext
Verif.C95_xoshiro512: Classical.choice, Quot.sound, propext
Verif.C96_lxm_partial: Classical.choice, Quot.sound, propext
Verif.C96_mt19937_partial: Classical.choice, Quot.sound, propext
Verif.C96_mt64_partial: Classical.choice, Quot.sound, propext
Verif.C96_pcg32_partial: Classical.choice, Quot.sound, propext
Verif.C96_pcg64_partial: Classical.choice, Quot.sound, propext
Verif.C96_squares_even: Classical.choice, Quot.sound, propext
Verif.C96_xoroshiro128_partial: Classical.choice, Quot.sound, propext
Verif.C96_xorshift1024_partial: Classical.choice, Quot.sound, propext
Verif.C96_xoshiro256_partial: Classical.choice, Quot.sound, propext
Verif.C96_xoshiro512_partial: Classical.choice, Quot.sound, propext
Verif.C97_mt19937_streams: Classical.choice, Quot.sound, propext
Verif.C97_mt64_streams: Classical.choice, Quot.sound, propext
Verif.C97_mt_keys: Classical.choice, Quot.sound, propext
Verif.C97_mt_seed: Classical.choice, Quot.sound, propext
Verif.C98_aesctr: Classical.choice, Quot.sound, propext
Verif.C98_aesctr_advance: Classical.choice, Quot.sound, propext
Verif.C98_dsfmt: Classical.choice, Quot.sound, propext
Verif.C98_lcg128mix: Classical.choice, Quot.sound, propext
Verif.C98_lcg128mix_advance: Classical.choice, Quot.sound, propext
Verif.C98_lxm: Classical.choice, Quot.sound, propext
Verif.C98_pcg32: Classical.choice, Quot.sound, propext
Verif.C98_pcg32_advance: Classical.choice, Quot.sound, propext
Verif.C98_pcg64: Classical.choice, Quot.sound, propext
Verif.C98_pcg64_advance: Classical.choice, Quot.sound, propext
Verif.C98_pcg64dxsm: Classical.choice, Quot.sound, propext
Verif.C98_pcg64dxsm_advance: Classical.choice, Quot.sound, propext
Verif.C98_philox32: Classical.choice, Quot.sound, propext
Verif.C98_philox32_blocks: Classical.choice, Quot.sound, propext
Verif.C98_philox32_words: Classical.choice, Quot.sound, propext
Verif.C98_philox64: Classical.choice, Quot.sound, propext
Verif.C98_philox64_blocks: Classical.choice, Quot.sound, propext
Verif.C98_philox64_words: Classical.choice, Quot.sound, propext
Verif.C98_sfmt: Classical.choice, Quot.sound, propext
Verif.C98_speck128: Classical.choice, Quot.sound, propext
Verif.C98_speck128_advance: Classical.choice, Quot.sound, propext
Verif.C98_threefry32: Classical.choice, Quot.sound, propext
Verif.C98_threefry32_blocks: Classical.choice, Quot.sound, propext
Verif.C98_threefry32_words: Classical.choice, Quot.sound, propext
Verif.C98_threefry64: Classical.choice, Quot.sound, propext
Verif.C98_threefry64_blocks: Classical.choice, Quot.sound, propext
Verif.C98_threefry64_words: Classical.choice, Quot.sound, propext
Verif.C98_xoroshiro128: Classical.choice, Quot.sound, propext
Verif.C98_xorshift1024: Classical.choice, Quot.sound, propext
Verif.C98_xoshiro256: Classical.choice, Quot.sound, propext
Verif.C98_xoshiro512: Classical.choice, Quot.sound, propext
Verif.C99_aesctr_counter: Classical.choice, Quot.sound, propext
Verif.C99_integer_seeds: Classical.choice, Quot.sound, propext
Verif.C99_lcg128mix: Classical.choice, Quot.sound, propext
Verif.C99_lxm: Classical.choice, Quot.sound, propext
Verif.C99_pcg32: Classical.choice, Quot.sound, propext
Verif.C99_pcg64: Classical.choice, Quot.sound, propext
Verif.C99_pcg64dxsm: Classical.choice, Quot.sound, propext
Verif.C99_philox32_counter: Classical.choice, Quot.sound, propext
Verif.C99_philox64_counter: Classical.choice, Quot.sound, propext
Verif.C99_siblings: Classical.choice, Quot.sound, propext
Verif.C99_speck128_counter: Classical.choice, Quot.sound, propext
Verif.C99_threefry32_counter: Classical.choice, Quot.sound, propext
Verif.C99_threefry64_counter: Classical.choice, Quot.sound, propext
Verif.C99_xoroshiro128: Classical.choice, Quot.sound, propext
Verif.C99_xorshift1024: Classical.choice, Quot.sound, propext
Verif.C99_xoshiro256: Classical.choice, Quot.sound, propext
Verif.C99_xoshiro512: Classical.choice, Quot.sound, propext
Verif.Doubles.C10_dbl32_eq_iff: Classical.choice, Quot.sound, propext
Verif.Doubles.C10_dbl32_surjective: Quot.sound, propext
Verif.Doubles.C10_dbl32_unit: Classical.choice, Quot.sound, propext
Verif.Doubles.C10_dbl64_eq_iff: Quot.sound, propext
Verif.Doubles.C10_dbl64_surjective: Quot.sound, propext
Verif.Doubles.C10_dbl64_unit: Classical.choice, Quot.sound, propext
Verif.Doubles.C10_long_double_surjective: Quot.sound, propext
Verif.Doubles.C10_long_double_unit: Classical.choice, Quot.sound, propext
Verif.ExtGen.C105_aesctr: Classical.choice, Quot.sound, propext
Verif.ExtGen.C105_chacha: Classical.choice, Quot.sound, propext
Verif.ExtGen.C105_dsfmt: Classical.choice, Quot.sound, propext
Verif.ExtGen.C105_efiix64: Classical.choice, Quot.sound, propext
Verif.ExtGen.C105_hc128: Classical.choice, Quot.sound, propext
Verif.ExtGen.C105_jsf_copy_partial: Classical.choice, Quot.sound, propext
Verif.ExtGen.C105_jsf_partial: Classical.choice, Quot.sound, propext
Verif.ExtGen.C105_lxm: Classical.choice, Quot.sound, propext
Verif.ExtGen.C105_mt19937_copy_mode: Classical.choice, Quot.sound, propext
Verif.ExtGen.C105_mt19937_partial: Classical.choice, Quot.sound, propext
Verif.ExtGen.C105_mt64: Classical.choice, Quot.sound, propext
Verif.ExtGen.C105_pcg32: Classical.choice, Quot.sound, propext
Verif.ExtGen.C105_pcg64_copy_partial: Classical.choice, Quot.sound, propext
Verif.ExtGen.C105_pcg64_partial: Classical.choice, Quot.sound, propext
Verif.ExtGen.C105_pcg64dxsm: Classical.choice, Quot.sound, propext
Verif.ExtGen.C105_philox_copy_partial: Classical.choice, Quot.sound, propext
Verif.ExtGen.C105_philox_partial: Classical.choice, Quot.sound, propext
Verif.ExtGen.C105_romu_copy_partial: Classical.choice, Quot.sound, propext
Verif.ExtGen.C105_romu_partial: Classical.choice, Quot.sound, propext
Verif.ExtGen.C105_sfc64_partial: Classical.choice, Quot.sound, propext
Verif.ExtGen.C105_sfmt: Classical.choice, Quot.sound, propext
Verif.ExtGen.C105_speck128: Classical.choice, Quot.sound, propext
Verif.ExtGen.C105_squares_partial: Classical.choice, Quot.sound, propext
Verif.ExtGen.C105_threefry_copy_partial: Classical.choice, Quot.sound, propext
Verif.ExtGen.C105_threefry_partial: Classical.choice, Quot.sound, propext
Verif.ExtGen.C105_tyche_copy_partial: Classical.choice, Quot.sound, propext
Verif.ExtGen.C105_tyche_partial: Classical.choice, Quot.sound, propext
Verif.ExtGen.C105_xoroshiro128_copy_partial: Classical.choice, Quot.sound, propext
Verif.ExtGen.C105_xoroshiro128_partial: Classical.choice, Quot.sound, propext
Verif.ExtGen.C105_xorshift1024: Classical.choice, Quot.sound, propext
Verif.ExtGen.C105_xoshiro256: Classical.choice, Quot.sound, propext
Verif.ExtGen.C105_xoshiro512: Classical.choice, Quot.sound, propext
Verif.ExtGen.C106_jsf_partial: Classical.choice, Quot.sound, propext
Verif.ExtGen.C106_one_set: Quot.sound, propext
Verif.ExtGen.C106_pcg64_partial: Classical.choice, Quot.sound, propext
Verif.ExtGen.C106_philox_partial: Classical.choice, Quot.sound, propext
Verif.ExtGen.C106_romu_partial: Classical.choice, Quot.sound, propext
Verif.ExtGen.C106_squares_partial: Classical.choice, Quot.sound, propext
Verif.ExtGen.C106_threefry_partial: Classical.choice, Quot.sound, propext
Verif.ExtGen.C106_tyche_partial: Classical.choice, Quot.sound, propext
Verif.ExtGen.C106_xoroshiro128_partial: Classical.choice, Quot.sound, propext
Verif.ExtGen.not_C105_default_copy: Classical.choice, Quot.sound, propext
Verif.ExtGen.not_C105_default_copy_stream: Classical.choice, Quot.sound, propext
Verif.ExtGen.not_C105_jsf: Quot.sound, propext
Verif.ExtGen.not_C105_jsf_copy: Quot.sound, propext
Verif.ExtGen.not_C105_pcg64: Quot.sound, propext
Verif.ExtGen.not_C105_philox: Quot.sound, propext
Verif.ExtGen.not_C105_philox_copy: Quot.sound, propext
Verif.ExtGen.not_C105_philox_width: Quot.sound, propext
Verif.ExtGen.not_C105_romu: Classical.choice, Quot.sound, propext
Verif.ExtGen.not_C105_romu_copy: Classical.choice, Quot.sound, propext
Verif.ExtGen.not_C105_sfc64_copy: Quot.sound, propext
Verif.ExtGen.not_C105_squares: Quot.sound, propext
Verif.ExtGen.not_C105_squares_copy: Quot.sound, propext
Verif.ExtGen.not_C105_threefry: Quot.sound, propext
Verif.ExtGen.not_C105_tyche: Quot.sound, propext
Verif.ExtGen.not_C105_tyche_copy: Quot.sound, propext
Verif.ExtGen.not_C105_xoroshiro128: Quot.sound, propext
Verif.ExtGen.not_C105_xoroshiro128_copy: Quot.sound, propext
Verif.ExtGen.not_C106_pcg64: Quot.sound, propext
Verif.ExtGen.not_C106_romu: Classical.choice, Quot.sound, propext
Verif.ExtGen.not_C106_two_faces: Quot.sound, propext
Verif.ExtGen.not_C106_xoroshiro128: Quot.sound, propext
Verif.Ints.C01_wrap_int_eq_iff: Classical.choice, Quot.sound, propext
Verif.Ints.C01_wrap_int_range_congruent: Classical.choice, Quot.sound, propext
Verif.Ints.C02_array_forms_agree: Classical.choice, Quot.sound, propext
Verif.Ints.C02_int_to_array_rejects: Quot.sound, propext
Verif.Ints.C02_int_to_array_value: Classical.choice, Quot.sound, propext
Verif.Ints.C02_int_to_array_words: Classical.choice, Quot.sound, propext
Verif.Ints.C02_object_to_int_arr64: Classical.choice, Quot.sound, propext
Verif.Ints.C02_object_to_int_int: Classical.choice, Quot.sound, propext
Verif.Lcg128.C03_lcg128_advance: Classical.choice, Quot.sound, propext
Verif.Lcg128.C03_lcg128_advance_nat: Classical.choice, Quot.sound, propext
Verif.Lcg128.C79_lcg128_counts: Classical.choice, Quot.sound, propext
Verif.Lcg128.C79_lcg128_full_iff: Classical.choice, Quot.sound, propext
Verif.Lcg128.C79_lcg128_lower_period: Classical.choice, Quot.sound, propext
Verif.Lcg128.C79_lcg128_period: Classical.choice, Quot.sound, propext
Verif.Lcg128.C94_lcg128: Classical.choice, Quot.sound, propext
Verif.Lcg128.C94_lcg128_lower: Classical.choice, Quot.sound, propext
Verif.NpState.C107_extended_pcg64: Classical.choice, Quot.sound, propext
Verif.NpState.C107_extended_pcg64dxsm: Classical.choice, Quot.sound, propext
Verif.NpState.C107_mt19937: Classical.choice, Quot.sound, propext
Verif.NpState.C107_mt19937_stream: Classical.choice, Quot.sound, propext
Verif.NpState.C107_pcg64: Classical.choice, Quot.sound, propext
Verif.NpState.C107_pcg64_stream: Classical.choice, Quot.sound, propext
Verif.NpState.C107_pcg64dxsm: Classical.choice, Quot.sound, propext
Verif.NpState.C107_pcg64dxsm_stream: Classical.choice, Quot.sound, propext
Verif.NpState.C107_philox: Classical.choice, Quot.sound, propext
Verif.NpState.C107_philox_stream: Classical.choice, Quot.sound, propext
Verif.NpState.not_C107_extended_sfc64: Classical.choice, Quot.sound, propext
Verif.NpState.not_C107_sfc64: Classical.choice, Quot.sound, propext
Verif.Pcg.C03_pcg64_advance: Classical.choice, Quot.sound, propext
Verif.Pcg.C03_pcg64_advance_nat: Classical.choice, Quot.sound, propext
Verif.Pcg.C03_pcg64_advance_neg: Classical.choice, Quot.sound, propext
Verif.Pcg.C03_pcg64_jumped: Classical.choice, Quot.sound, propext
Verif.Pcg.C03_pcg64_outputs: Classical.choice, Quot.sound, propext
Verif.Pcg.C79_pcg64_counts: Classical.choice, Quot.sound, propext
Verif.Pcg.C79_pcg64_period: Classical.choice, Quot.sound, propext
Verif.Pcg.C79_pcg64_seeded: Classical.choice, Quot.sound, propext
Verif.Pcg.C94_pcg64: Classical.choice, Quot.sound, propext
Verif.Pcg32.C04_pcg32_advance: Classical.choice, Quot.sound, propext
Verif.Pcg32.C04_pcg32_advance_nat: Classical.choice, Quot.sound, propext
Verif.Pcg32.C04_pcg32_advance_neg: Classical.choice, Quot.sound, propext
Verif.Pcg32.C04_pcg32_jumped: Classical.choice, Quot.sound, propext
Verif.Pcg32.C79_pcg32_counts: Classical.choice, Quot.sound, propext
Verif.Pcg32.C79_pcg32_period: Classical.choice, Quot.sound, propext
Verif.Pcg32.C79_pcg32_seeded: Classical.choice, Quot.sound, propext
Verif.Pcg32.C94_pcg32_period: Classical.choice, Quot.sound, propext
Verif.Pcg32.C94_pcg32_seeded: Classical.choice, Quot.sound, propext
Verif.PcgEmul.C06_emul_add: Quot.sound, propext
Verif.PcgEmul.C06_emul_advance: Classical.choice, Quot.sound, propext
Verif.PcgEmul.C06_emul_advance_iterate: Classical.choice, Quot.sound, propext
Verif.PcgEmul.C06_emul_mult: Classical.choice, Quot.sound, propext
Verif.PcgEmul.C06_emul_mult64: Classical.choice, Quot.sound, propext
Verif.PcgEmul.C06_emul_next: Classical.choice, Quot.sound, propext
Verif.PcgEmul.C06_emul_seed: Classical.choice, Quot.sound, propext
Verif.PcgEmul.C06_emul_step: Classical.choice, Quot.sound, propext
Verif.PcgEmul.C06_emul_stream: Classical.choice, Quot.sound, propext
Verif.PcgEmul.C06_val_surjective: Quot.sound, propext
Verif.SeedSeq.C103_order: Quot.sound, propext
Verif.SeedSeq.C103_repr: Classical.choice, Quot.sound, propext
Verif.SeedSeq.C103_state: Quot.sound, propext
Verif.SeedSeq.C103_steps_partial: Classical.choice, Quot.sound, propext
Verif.SeedSeq.C103_steps_return_partial: Classical.choice, Quot.sound, propext
Verif.SeedSeq.C104_refused_partial: Classical.choice, Quot.sound, propext
Verif.SeedSeq.C104_round_trip: Classical.choice, Quot.sound, propext
Verif.SeedSeq.C104_sequences_partial: Quot.sound, propext
Verif.SeedSeq.C104_spells_partial: Quot.sound, propext
Verif.SeedSeq.C42_accepts: Classical.choice, Quot.sound, propext
Verif.SeedSeq.C42_generated_words_differ: Classical.choice, Quot.sound, propext
Verif.SeedSeq.C42_pools_differ: Classical.choice, Quot.sound, propext
Verif.SeedSeq.C43_child_keys: Quot.sound, propext
Verif.SeedSeq.C43_spawn_keys_distinct_partial: Classical.choice, Quot.sound, propext
Verif.SeedSeq.C44_hashed_words_determine_inputs_partial: Classical.choice, Quot.sound, propext
Verif.SeedSeq.C44_same_entropy_partial: Classical.choice, Quot.sound, propext
Verif.SeedSeq.C45_length: Classical.choice, Quot.sound, propext
Verif.SeedSeq.C45_pairs: Classical.choice, Quot.sound, propext
Verif.SeedSeq.C45_prefix: Classical.choice, Quot.sound, propext
Verif.SeedSeq.C45_prefix64: Classical.choice, Quot.sound, propext
Verif.SeedSeq.C46_injective: Classical.choice, Quot.sound, propext
Verif.SeedSeq.C46_negative_rejected: propext
Verif.SeedSeq.C46_top_word: Classical.choice, Quot.sound, propext
Verif.SeedSeq.C46_value: Classical.choice, Quot.sound, propext
Verif.SeedSeq.C54_siblings_pools_differ: Classical.choice, Quot.sound, propext
Verif.SeedSeq.C54_siblings_words_differ: Classical.choice, Quot.sound, propext
Verif.SeedSeq.not_C103_negative_count: Classical.choice, Quot.sound, propext
Verif.SeedSeq.not_C104_long: Quot.sound, propext
Verif.SeedSeq.not_C104_space: Quot.sound, propext
Verif.SeedSeq.not_C104_underscore: Classical.choice, Quot.sound, propext
Verif.SeedSeq.not_C43_negative_count: Quot.sound, propext
Verif.SeedSeq.not_C44_big_key: Classical.choice, Quot.sound, propext
Verif.SeedSeq.not_C44_long_entropy: Classical.choice, Quot.sound, propext
Verif.XorLinear.C07_lxm_lcg_full_period: Classical.choice, Quot.sound, propext
Verif.XorLinear.C26_jumped: Classical.choice, Quot.sound, propext
Verif.XorLinear.C26_jumped_stream: Classical.choice, Quot.sound, propext
Verif.XorLinear.C26_plus_jump_is_2_pow_64_draws: Classical.choice, Quot.sound, propext
Verif.XorLinear.C26_plusplus_jump_is_2_pow_64_draws: Classical.choice, Quot.sound, propext
Verif.XorLinear.C27_jump_is_2_pow_128_draws: Classical.choice, Quot.sound, propext
Verif.XorLinear.C27_jumped: Classical.choice, Quot.sound, propext
Verif.XorLinear.C27_jumped_stream: Classical.choice, Quot.sound, propext
Verif.XorLinear.C28_jump_is_2_pow_256_draws: Classical.choice, Quot.sound, propext
Verif.XorLinear.C28_jumped: Classical.choice, Quot.sound, propext
Verif.XorLinear.C28_jumped_stream: Classical.choice, Quot.sound, propext
Verif.XorLinear.C29_jump_is_2_pow_512_draws: Classical.choice, Quot.sound, propext
Verif.XorLinear.C29_jumped: Classical.choice, Quot.sound, propext
Verif.XorLinear.C29_jumped_stream: Classical.choice, Quot.sound, propext
Verif.XorLinear.C30_jump_is_2_pow_128_draws: Classical.choice, Quot.sound, propext
Verif.XorLinear.C30_jumped: Classical.choice, Quot.sound, propext
Verif.XorLinear.C30_jumped_stream: Classical.choice, Quot.sound, propext
Verif.XorLinear.C31_lxm_injective: Classical.choice, Quot.sound, propext
Verif.XorLinear.C31_lxm_never_zero: Classical.choice, Quot.sound, propext
Verif.XorLinear.C31_xoroshiro128_bijective: Classical.choice, Quot.sound, propext
Verif.XorLinear.C31_xoroshiro128_never_zero: Classical.choice, Quot.sound, propext
Verif.XorLinear.C31_xoroshiro128_zero_fixed: Quot.sound, propext
Verif.XorLinear.C31_xorshift1024_bijective: Classical.choice, Quot.sound, propext
Verif.XorLinear.C31_xorshift1024_never_zero: Classical.choice, Quot.sound, propext
Verif.XorLinear.C31_xorshift1024_zero_fixed: Quot.sound, propext
Verif.XorLinear.C31_xoshiro256_bijective: Classical.choice, Quot.sound, propext
Verif.XorLinear.C31_xoshiro256_never_zero: Classical.choice, Quot.sound, propext
Verif.XorLinear.C31_xoshiro256_zero_fixed: Quot.sound, propext
Verif.XorLinear.C31_xoshiro512_bijective: Classical.choice, Quot.sound, propext
Verif.XorLinear.C31_xoshiro512_never_zero: Classical.choice, Quot.sound, propext
Verif.XorLinear.C31_xoshiro512_zero_fixed: Quot.sound, propext
Verif.XorLinear.C32_lxm_period: Classical.choice, Quot.sound, propext
Verif.XorLinear.C32_lxm_xorshift_period: Classical.choice, Quot.sound, propext
Verif.XorLinear.C32_xoroshiro128_period: Classical.choice, Quot.sound, propext
Verif.XorLinear.C32_xoshiro256_period: Classical.choice, Quot.sound, propext
Verif.XorLinear.C33_lxm_streams_disjoint: Classical.choice, Quot.sound, propext
Verif.XorLinear.C33_xoroshiro128_bound_sharp: Classical.choice, Quot.sound, propext
Verif.XorLinear.C33_xoroshiro128_streams_disjoint: Classical.choice, Quot.sound, propext
Verif.XorLinear.C33_xoshiro256_streams_disjoint: Classical.choice, Quot.sound, propext
Verif.XorLinear.C78_lxm_counts: Classical.choice, Quot.sound, propext
Verif.XorLinear.C78_lxm_period: Classical.choice, Quot.sound, propext
Verif.XorLinear.C78_xoroshiro128_counts: Classical.choice, Quot.sound, propext
Verif.XorLinear.C78_xoroshiro128_period: Classical.choice, Quot.sound, propext
Verif.XorLinear.C78_xorshift1024_period: Classical.choice, Quot.sound, propext
Verif.XorLinear.C78_xorshift1024_state_period: Classical.choice, Quot.sound, propext
Verif.XorLinear.C78_xorshift1024_windows: Classical.choice, Quot.sound, propext
Verif.XorLinear.C78_xorshift1024_zero_window: Classical.choice, Quot.sound, propext
Verif.XorLinear.C78_xoshiro256_counts: Classical.choice, Quot.sound, propext
Verif.XorLinear.C78_xoshiro256_period: Classical.choice, Quot.sound, propext
Verif.XorLinear.C78_xoshiro256_windows: Classical.choice, Quot.sound, propext
Verif.XorLinear.C78_xoshiro256_zero_window: Classical.choice, Quot.sound, propext
Verif.XorLinear.C78_xoshiro512_counts: Classical.choice, Quot.sound, propext
Verif.XorLinear.C78_xoshiro512_period: Classical.choice, Quot.sound, propext
Verif.XorLinear.C78_xoshiro512_state_period: Classical.choice, Quot.sound, propext
Verif.XorLinear.C78_xoshiro512_windows: Classical.choice, Quot.sound, propext
Verif.XorLinear.C78_xoshiro512_zero_window: Classical.choice, Quot.sound, propext
Verif.XorLinear.C94_lxm: Classical.choice, Quot.sound, propext
Verif.XorLinear.C94_xoroshiro128: Classical.choice, Quot.sound, propext
Verif.XorLinear.C94_xorshift1024: Classical.choice, Quot.sound, propext
Verif.XorLinear.C94_xorshift1024_counts: Classical.choice, Quot.sound, propext
Verif.XorLinear.C94_xoshiro256: Classical.choice, Quot.sound, propext
Verif.XorLinear.C94_xoshiro512: Classical.choice, Quot.sound, propext
Verif.not_C100_lxm: Classical.choice, Quot.sound, propext
Verif.not_C100_romu_trio: Classical.choice, Quot.sound, propext
Verif.not_C100_xoroshiro128: Classical.choice, Quot.sound, propext
Verif.not_C100_xorshift1024: Classical.choice, Quot.sound, propext
Verif.not_C100_xoshiro256: Classical.choice, Quot.sound, propext
Verif.not_C100_xoshiro512: Classical.choice, Quot.sound, propext
Verif.not_C101_aesctr: Classical.choice, Quot.sound, propext
Verif.not_C101_chacha: Classical.choice, Quot.sound, propext
Verif.not_C101_dsfmt: Classical.choice, Quot.sound, propext
Verif.not_C101_lxm: Classical.choice, Quot.sound, propext
Verif.not_C101_philox: Classical.choice, Quot.sound, propext
Verif.not_C101_sfmt: Classical.choice, Quot.sound, propext
Verif.not_C101_speck128: Classical.choice, Quot.sound, propext
Verif.not_C101_threefry: Classical.choice, Quot.sound, propext
Verif.not_C102_aesctr_counter: Classical.choice, Quot.sound, propext
Verif.not_C102_chacha_counter: Classical.choice, Quot.sound, propext
Verif.not_C102_ctr_counter: Classical.choice, Quot.sound, propext
Verif.not_C102_key_length: Classical.choice, Quot.sound, propext
Verif.not_C102_lcg128mix: Quot.sound, propext
Verif.not_C102_pcg32: Quot.sound, propext
Verif.not_C102_pcg64: Quot.sound, propext
Verif.not_C102_pcg64_no_seed: Quot.sound, propext
Verif.not_C102_pcg64_numpy: Classical.choice, Quot.sound, propext
Verif.not_C102_philox_numpy: Quot.sound, propext
Verif.not_C102_philox_numpy_zero: Classical.choice, Quot.sound, propext
Verif.not_C102_speck128_counter: Classical.choice, Quot.sound, propext
Verif.not_C102_squares: Classical.choice, Quot.sound, propext
Verif.not_C11_lcg128mix: Classical.choice, Quot.sound, propext
Verif.not_C11_lcg128mix_post: Classical.choice, Quot.sound, propext
Verif.not_C11_squares: Classical.choice, Quot.sound, propext
Verif.not_C12_aesctr: Classical.choice, Quot.sound, propext
Verif.not_C12_chacha: Classical.choice, Quot.sound, propext
Verif.not_C12_dsfmt: Classical.choice, Quot.sound, propext
Verif.not_C12_efiix64: Classical.choice, Quot.sound, propext
Verif.not_C12_hc128: Classical.choice, Quot.sound, propext
Verif.not_C12_jsf: Classical.choice, Quot.sound, propext
Verif.not_C12_lcg128mix: Classical.choice, Quot.sound, propext
Verif.not_C12_lxm: Classical.choice, Quot.sound, propext
Verif.not_C12_mt19937: Classical.choice, Quot.sound, propext
Verif.not_C12_mt64: Classical.choice, Quot.sound, propext
Verif.not_C12_pcg32: Classical.choice, Quot.sound, propext
Verif.not_C12_philox: Classical.choice, Quot.sound, propext
Verif.not_C12_romu: Classical.choice, Quot.sound, propext
Verif.not_C12_sfc64: Classical.choice, Quot.sound, propext
Verif.not_C12_sfmt: Classical.choice, Quot.sound, propext
Verif.not_C12_speck128: Classical.choice, Quot.sound, propext
Verif.not_C12_squares: Classical.choice, Quot.sound, propext
Verif.not_C12_threefry: Classical.choice, Quot.sound, propext
Verif.not_C12_tyche: Classical.choice, Quot.sound, propext
Verif.not_C12_xoroshiro128: Classical.choice, Quot.sound, propext
Verif.not_C12_xorshift1024: Classical.choice, Quot.sound, propext
Verif.not_C12_xoshiro256: Classical.choice, Quot.sound, propext
Verif.not_C12_xoshiro512: Classical.choice, Quot.sound, propext
Verif.not_C13_aesctr: Classical.choice, Quot.sound, propext
Verif.not_C13_dsfmt: Quot.sound, propext
Verif.not_C13_hc128: Classical.choice, Quot.sound, propext
Verif.not_C13_mt19937: Quot.sound, propext
Verif.not_C13_mt_negative: Quot.sound, propext
Verif.not_C13_philox: Classical.choice, Quot.sound, propext
Verif.not_C13_philox_setter: Quot.sound, propext
Verif.not_C13_sfmt: Quot.sound, propext
Verif.not_C13_speck128: Classical.choice, Quot.sound, propext
Verif.not_C13_threefry: Classical.choice, Quot.sound, propext
Verif.not_C13_threefry_setter: Quot.sound, propext
Verif.not_C13_xorshift1024: Classical.choice, Quot.sound, propext
Verif.not_C14_hc128: Classical.choice, Quot.sound, propext
Verif.not_C14_xorshift1024: Quot.sound, propext
Verif.not_C19_philox_fresh: Classical.choice, Quot.sound, propext
Verif.not_C19_philox_large: Classical.choice, Quot.sound, propext
Verif.not_C20_threefry_fresh: Classical.choice, Quot.sound, propext
Verif.not_C20_threefry_large: Classical.choice, Quot.sound, propext
Verif.not_C23_aligned: Quot.sound, propext
Verif.not_C23_overflow: Quot.sound, propext
Verif.not_C25_nonzero: Quot.sound, propext
Verif.not_C35_first_draw: Classical.choice, Quot.sound, propext
Verif.not_C35_fresh: Classical.choice, Quot.sound, propext
Verif.not_C35_mt19937: Classical.choice, Quot.sound, propext
Verif.not_C35_numpy_position: Classical.choice, Quot.sound, propext
Verif.not_C39_jsf_zero_rotation: Classical.choice, Quot.sound, propext
Verif.not_C41_bits: Classical.choice, Quot.sound, propext
Verif.not_C41_refuses: Classical.choice, Quot.sound, propext
Verif.not_C41_returns: Classical.choice, Quot.sound, propext
Verif.not_C47_no_output: propext
Verif.not_C47_no_output_shapes: propext
Verif.not_C48_bounds: none
Verif.not_C52_chacha: Quot.sound, propext
Verif.not_C52_hc128: Quot.sound, propext
Verif.not_C52_jsf32: Quot.sound, propext
Verif.not_C52_mt19937: Quot.sound, propext
Verif.not_C52_pcg32: Quot.sound, propext
Verif.not_C52_philox_threefry: Quot.sound, propext
Verif.not_C52_squares: Quot.sound, propext
Verif.not_C52_tyche: Quot.sound, propext
Verif.not_C52_tyche_openrand: Quot.sound, propext
Verif.not_C55_trio: Classical.choice, Quot.sound, propext
Verif.not_C59_even_increment: Classical.choice, Quot.sound, propext
Verif.not_C60_philox_jump_wraps: Classical.choice, Quot.sound, propext
Verif.not_C60_threefry_jump_wraps: Classical.choice, Quot.sound, propext
Verif.not_C63_in_bounds: Quot.sound, propext
Verif.not_C68_dsfmt: Classical.choice, Quot.sound, propext
Verif.not_C68_sfmt: Classical.choice, Quot.sound, propext
Verif.not_C69_gamma_array: Classical.choice, Quot.sound, propext
Verif.not_C69_scalar_covariance: Classical.choice, Quot.sound, propext
Verif.not_C69_scalar_degenerate: Classical.choice, Quot.sound, propext
Verif.not_C71_cholesky: Classical.choice, Quot.sound, propext
Verif.not_C71_svd: Classical.choice, Quot.sound, propext
Verif.not_C71_svd_diagonal: Classical.choice, Quot.sound, propext
Verif.not_C72_factor: Classical.choice, Quot.sound, propext
Verif.not_C73_shape: none
Verif.not_C74_leading: none
Verif.not_C75_fortran: propext
Verif.not_C75_undefined: Classical.choice, Quot.sound, propext
Verif.not_C84_toggle: Classical.choice, Quot.sound, propext
Verif.not_C88_calloc: Classical.choice, Quot.sound, propext
Verif.not_C88_free_null: Quot.sound, propext
Verif.not_C88_overflow: Classical.choice, Quot.sound, propext
Verif.not_C89_chacha_toggle: Quot.sound, propext
Verif.not_C89_speck_report: Quot.sound, propext
Verif.not_C89_speck_toggle: Quot.sound, propext
Verif.not_C90_empty: Classical.choice, Quot.sound, propext
Verif.not_C90_fallback_distinct: Quot.sound, propext
Verif.not_C90_fallback_large: Quot.sound, propext
Verif.not_C90_fallback_size: Classical.choice, Quot.sound, propext
Verif.not_C90_leak: none
Verif.not_C90_windows: none
Verif.not_C90_windows_zero: Quot.sound, propext
Verif.not_C91_advance: none
Verif.not_C91_complex_normal: none
Verif.not_C91_getter: Quot.sound, propext
Verif.not_C91_rdrand: none
Verif.not_C91_seed: none
Verif.not_C92_empty: propext
Verif.not_C92_rows: propext
Verif.not_C92_size: propext
Verif.not_C93_empty_size: propext
Verif.not_C93_zero: Classical.choice, Quot.sound, propext
Verif.not_C95_aesctr: Classical.choice, Quot.sound, propext
Verif.not_C95_chacha: Classical.choice, Quot.sound, propext
Verif.not_C95_dsfmt: Classical.choice, Quot.sound, propext
Verif.not_C95_dsfmt_distance: Classical.choice, Quot.sound, propext
Verif.not_C95_hc128: Classical.choice, Quot.sound, propext
Verif.not_C95_jsf: Quot.sound, propext
Verif.not_C95_lcg128mix: Quot.sound, propext
Verif.not_C95_lcg128mix_jumped: Quot.sound, propext
Verif.not_C95_mt19937: Classical.choice, Quot.sound, propext
Verif.not_C95_mt19937_numpy: Classical.choice, Quot.sound, propext
Verif.not_C95_pcg64: Quot.sound, propext
Verif.not_C95_philox: Quot.sound, propext
Verif.not_C95_philox_numpy: Quot.sound, propext
Verif.not_C95_sfmt: Classical.choice, Quot.sound, propext
Verif.not_C95_sfmt_distance: Classical.choice, Quot.sound, propext
Verif.not_C95_speck128: Classical.choice, Quot.sound, propext
Verif.not_C95_squares: Quot.sound, propext
Verif.not_C95_squares_seed: Quot.sound, propext
Verif.not_C95_threefry: Quot.sound, propext
Verif.not_C95_xorshift1024: Classical.choice, Quot.sound, propext
Verif.not_C96_dsfmt: Classical.choice, Quot.sound, propext
Verif.not_C96_hc128: Classical.choice, Quot.sound, propext
Verif.not_C96_jsf: Classical.choice, Quot.sound, propext
Verif.not_C96_lcg128mix: Classical.choice, Quot.sound, propext
Verif.not_C96_lxm: Classical.choice, Quot.sound, propext
Verif.not_C96_mt19937: Classical.choice, Quot.sound, propext
Verif.not_C96_mt64: Classical.choice, Quot.sound, propext
Verif.not_C96_pcg32: Classical.choice, Quot.sound, propext
Verif.not_C96_pcg64: Classical.choice, Quot.sound, propext
Verif.not_C96_pcg64dxsm: Classical.choice, Quot.sound, propext
Verif.not_C96_romu: Classical.choice, Quot.sound, propext
Verif.not_C96_sfc64: Classical.choice, Quot.sound, propext
Verif.not_C96_sfmt: Classical.choice, Quot.sound, propext
Verif.not_C96_squares: Classical.choice, Quot.sound, propext
Verif.not_C96_tyche: Classical.choice, Quot.sound, propext
Verif.not_C96_xoroshiro128: Classical.choice, Quot.sound, propext
Verif.not_C96_xorshift1024: Classical.choice, Quot.sound, propext
Verif.not_C96_xoshiro256: Classical.choice, Quot.sound, propext
Verif.not_C96_xoshiro512: Classical.choice, Quot.sound, propext
Verif.not_C98_chacha: Classical.choice, Quot.sound, propext
