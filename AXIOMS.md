# Axioms of every theorem named in MANIFEST.json

Output of `#print axioms`, grouped.

## none (11 theorems)

* `EG.C07_long_limbs`
* `EG.C07_long_limbs_p`
* `EG.C39_no_nonce`
* `EG.Pool.C79_order_violated`
* `EG.Cs.C86_lists`
* `EG.Cs.C86_bools`
* `EG.Cs.C88_one_two_violated`
* `EG.C103_base_move`
* `EG.C103_move`
* `EG.Copies.C108_hex_violated`
* `EG.CGroup.C127_exceptions`

## propext (44 theorems)

* `EG.C01_unreduced_wrong`
* `EG.C05_pow_zero`
* `EG.C06_add_mod_p_violated`
* `EG.C14_precomputed_eq_direct`
* `EG.C25_all_ones`
* `EG.C28_at_most_once_in_order`
* `EG.C28_nothing_lost`
* `EG.C28_get_none_iff`
* `EG.C29_init`
* `EG.C45_clone_partial`
* `EG.C45_preserved_partial`
* `EG.C55_non_hex_accepted`
* `EG.C60_assign_violated`
* `EG.Limbs.C77_std`
* `EG.Date.C81_refuse_violated`
* `EG.CApi.C83_types_partial`
* `EG.CText.C84_status_name_partial`
* `EG.CText.C84_status_violated`
* `EG.CText.C84_no_false_success`
* `EG.CText.C84_status_class_partial`
* `EG.CApi.C85_declared_partial`
* `EG.Cs.C86_bool_violated`
* `EG.Cs.C88_constants_partial`
* `EG.CsPre.C89_full_violated`
* `EG.CsPre.C89_silent_violated`
* `EG.CsPre.C89_other_violated`
* `EG.PreRace.C91_linearizable`
* `EG.PreRace.C91_race_unguarded`
* `EG.PreRace.C91_stop_violated`
* `EG.PreRace.C91_status_violated`
* `EG.C103_base_partial`
* `EG.C103_violated`
* `EG.Limbs.C105_mul_apart_needed`
* `EG.Copies.C108_hex_stale`
* `EG.LogRace.C120_later_partial`
* `EG.LogRace.C120_after_partial`
* `EG.LogRace.C120_single_partial`
* `EG.LogRace.C120_thrown_violated`
* `EG.LogRace.C120_failing_violated`
* `EG.LogRace.C120_race_violated`
* `EG.PreObjects.C125_moved`
* `EG.CGroup.C127_disposed`
* `EG.CGroup.C127_null_text`
* `EG.CGroup.C127_null_pointer`

## propext, Quot.sound (84 theorems)

* `EG.C08_hex_of_zeros`
* `EG.C10_rand_p_ub`
* `EG.C13_large_plaintext_encrypts_zero`
* `EG.C28_empty_discards`
* `EG.C28_empty_large`
* `EG.C29_populate_size`
* `EG.C29_stopped`
* `EG.C34_normalisation`
* `EG.C34_unknown_style_violated`
* `EG.C44_contests`
* `EG.C44_refused`
* `EG.C48_expand_quoted`
* `EG.C56_unreduced_pad_reads_zero`
* `EG.C57_block_inputs_distinct_partial`
* `EG.C57_key_stream_repeats`
* `EG.C57_mac_key_is_block_key`
* `EG.C66_found`
* `EG.C66_unknown`
* `EG.C66_is_placeholder`
* `EG.Sha.C73_exhausted`
* `EG.Pool.C78_late_violated`
* `EG.Pool.C79_invalid_violated`
* `EG.LutRace.C80_warm_partial`
* `EG.LutRace.C80_present`
* `EG.LutRace.C80_race_violated`
* `EG.LutRace.C80_zero_violated`
* `EG.CApi.C82_nonce_violated`
* `EG.CApi.C82_constant_violated`
* `EG.CApi.C82_moved_violated`
* `EG.CApi.C82_robbed_violated`
* `EG.CApi.C82_device_violated`
* `EG.CApi.C83_email_violated`
* `EG.CText.C84_text`
* `EG.CText.C84_text_whole`
* `EG.CText.C84_round_trip`
* `EG.Cs.C86_callable_partial`
* `EG.Cs.C87_dangling_violated`
* `EG.CsPre.C89_idle_stop`
* `EG.U128.C90_load64_le_violated`
* `EG.PreRace.C91_returned`
* `EG.PreRace.C91_at_most_once`
* `EG.PreRace.C91_access`
* `EG.PreRace.C91_race_free_partial`
* `EG.Leak.C93_consttime`
* `EG.Leak.C93_consttime_checked`
* `EG.Wipe.C98_random_same`
* `EG.Wipe.C98_random_violated`
* `EG.Wipe.C98_rand_q_violated`
* `EG.Date.C101_range_violated`
* `EG.C103_partial`
* `EG.C103_iff_partial`
* `EG.C103_lost_violated`
* `EG.C103_move_violated`
* `EG.Limbs.C105_add`
* `EG.Limbs.C105_sub`
* `EG.Limbs.C105_addMod`
* `EG.Limbs.C105_subMod`
* `EG.Limbs.C105_doublings`
* `EG.Limbs.C105_mul`
* `EG.Limbs.C105_reduction`
* `EG.Limbs.C105_overlap_needed`
* `EG.Limbs.C106_modulus_needed`
* `EG.Limbs.C107_unrolled`
* `EG.Limbs.C107_mont_mul`
* `EG.Limbs.C107_mont_sqr`
* `EG.Copies.C108_elements_partial`
* `EG.Copies.C108_keypair_partial`
* `EG.Copies.C108_keypair_violated`
* `EG.Copies.C108_keypair_self`
* `EG.Copies.C108_manifest_parts`
* `EG.Copies.C108_party_partial`
* `EG.Copies.C108_plaintext`
* `EG.CMan.C109_made_partial`
* `EG.LogRace.C120_once`
* `EG.LogRace.C120_console_violated`
* `EG.Published.Stock.C121_populate`
* `EG.PreObjects.C125_self`
* `EG.PreObjects.C125_pointers`
* `EG.Bignum.C126_reverse`
* `EG.Bignum.C126_size`
* `EG.Bignum.C126_into_violated`
* `EG.CSubmit.C135_timestamp_violated`
* `EG.CWalk.C136_contests`
* `EG.CWalk.C136_selections`

## propext, Classical.choice, Quot.sound (623 theorems)

* `EG.C01_add_mod_q`
* `EG.C01_add_mod_q_vector`
* `EG.C01_add_mod_q_unreduced`
* `EG.C01_unreduced_exact`
* `EG.C01_unreduced_always_wrong`
* `EG.C02_sub_mod_q`
* `EG.C02_sub_add`
* `EG.C02_unreduced_wrong`
* `EG.C03_a_plus_bc_mod_q`
* `EG.C04_mul_mod_p`
* `EG.C04_mul_mod_p_vector`
* `EG.C05_pow_mod_p_history`
* `EG.C05_pow_mod_p_eq`
* `EG.C05_long_exponent`
* `EG.C06_add_mod_p_partial`
* `EG.C06_add_mod_p_overflow`
* `EG.C06_mod_p_violated`
* `EG.C06_mod_array`
* `EG.C07_limbs_p`
* `EG.C07_limbs_q`
* `EG.C07_bytes_p`
* `EG.C07_bytes_q`
* `EG.C07_uint64`
* `EG.C07_isInBounds`
* `EG.C07_modulus_accepted`
* `EG.C07_hex`
* `EG.C08_bytes_q`
* `EG.C08_bytes_p`
* `EG.C08_hex_q_partial`
* `EG.C08_hex_p_partial`
* `EG.C08_hex_zero`
* `EG.C08_hex_injective`
* `EG.C09_isValidResidue_iff`
* `EG.C09_generator`
* `EG.C09_mul_closed`
* `EG.C09_pow_closed`
* `EG.C09_inverse`
* `EG.C10_rand_q_partial`
* `EG.C10_rand_q_image`
* `EG.C10_rand_q_violated`
* `EG.C11_decrypt_encrypt`
* `EG.C11_encrypt_equations`
* `EG.C11_refused`
* `EG.C11_wrong_secret`
* `EG.C12_add_encrypts_sum`
* `EG.C12_decrypt_sum`
* `EG.C12_add_value`
* `EG.C12_add_perm`
* `EG.C12_add_append`
* `EG.C13_small_plaintext_partial`
* `EG.C13_violated`
* `EG.C14_precomputed_isEncryption`
* `EG.C15_round_trip`
* `EG.C15_bytes512`
* `EG.C16_truncation`
* `EG.C16_refused`
* `EG.C16_unpadded_refused`
* `EG.C16_unpadded_round_trip`
* `EG.C16_empty_message`
* `EG.C16_length_wraps`
* `EG.C17_decrypt_safe`
* `EG.C17_padding`
* `EG.C17_accepted_mac`
* `EG.C17_tampered_data`
* `EG.C18_arguments_ignored`
* `EG.C18_triple_partial`
* `EG.C18_buffer_key_decrypts`
* `EG.C18_violated`
* `EG.C19_randomised`
* `EG.C19_seeded`
* `EG.C19_precomputed`
* `EG.C19_refused`
* `EG.C19_seeded_selection`
* `EG.C19_seeded_selection_without_nonce`
* `EG.C20_special_soundness`
* `EG.C20_decrypts`
* `EG.C21_completeness`
* `EG.C21_foreign_triple_rejected`
* `EG.C22_special_soundness`
* `EG.C23_disjunctive_iff`
* `EG.C23_constant_iff`
* `EG.C23_disjunctive_binding`
* `EG.C23_constant_binding`
* `EG.C23_disjunctive_unique`
* `EG.C23_constant_unique`
* `EG.C24_copies_partial`
* `EG.C24_clone_rejected`
* `EG.C24_violated`
* `EG.C25_hash_in_range`
* `EG.C25_hash_value`
* `EG.C25_depends_on_texts`
* `EG.C26_hash_binding_partial`
* `EG.C26_hash_binding_lists_partial`
* `EG.C26_encoding_injective_partial`
* `EG.C26_ambiguous`
* `EG.C27_next_after_get_with`
* `EG.C27_history_independent`
* `EG.C27_next_after_get`
* `EG.C27_get_range`
* `EG.C27_get_range_overflow`
* `EG.C27_distinct`
* `EG.C30_single_key_partial`
* `EG.C30_violated`
* `EG.C31_classification_partial`
* `EG.C31_codes_violated`
* `EG.C31_wraparound_violated`
* `EG.C32_totals`
* `EG.C33_votes`
* `EG.C33_decrypt`
* `EG.C33_ballot`
* `EG.C34_idempotent`
* `EG.C35_selection`
* `EG.C35_selection_refused`
* `EG.C35_selection_total`
* `EG.C35_contest`
* `EG.C35_ballot`
* `EG.C35_ballot_unknown_style`
* `EG.C35_ballot_valid`
* `EG.C35_ballot_total`
* `EG.C35_contest_total`
* `EG.C36_selection_seed`
* `EG.C36_valid_iff_partial`
* `EG.C36_violated`
* `EG.C36_hash_binding`
* `EG.C36_not_covered_violated`
* `EG.C36_contest_seed`
* `EG.C37_run`
* `EG.C37_chain`
* `EG.C37_binding`
* `EG.C37_location_null`
* `EG.C37_hash_bound`
* `EG.C38_in_order_partial`
* `EG.C38_agree_iff`
* `EG.C38_order_iff`
* `EG.C38_out_of_order_violated`
* `EG.C39_plaintext`
* `EG.C39_ciphertext_partial`
* `EG.C39_compact_total`
* `EG.C39_expand_iff`
* `EG.C39_example`
* `EG.C39_precomputed_violated`
* `EG.C40_mediator_iff`
* `EG.C40_ballot_manifest`
* `EG.C40_context_binding`
* `EG.C40_base_text`
* `EG.C40_key_not_covered`
* `EG.C40_make_hex`
* `EG.C41_manifest_valid`
* `EG.C42_contest_valid`
* `EG.C43_count`
* `EG.C43_distinct_partial`
* `EG.C43_truncation_violated`
* `EG.C43_id_violated`
* `EG.C44_each_once_partial`
* `EG.C44_violated`
* `EG.C45_violated`
* `EG.C45_title_without_subtitle`
* `EG.C46_hash_binding_partial`
* `EG.C46_contest_hash_binding_partial`
* `EG.C46_candidate_hash_binding_partial`
* `EG.C46_write_in_violated`
* `EG.C46_no_contact_violated`
* `EG.C46_candidates_violated`
* `EG.C46_not_covered`
* `EG.C47_hashed_iff`
* `EG.C47_mac_violated`
* `EG.C47_data_violated`
* `EG.C47_ballot_partial`
* `EG.C47_valid_partial`
* `EG.C47_nonce_violated`
* `EG.C47_submitted_partial`
* `EG.C48_partial`
* `EG.C48_violated`
* `EG.C48_no_selections`
* `EG.C48_cipher_partial`
* `EG.C49_election_type`
* `EG.C49_reporting_unit_type`
* `EG.C49_ballot_box_state`
* `EG.C49_vote_variation_partial`
* `EG.C49_violated`
* `EG.C49_approval_contest`
* `EG.C49_unknown_strings`
* `EG.CList.C50_history`
* `EG.CList.C50_no_failure`
* `EG.CList.C50_free`
* `EG.CList.C50_append_error`
* `EG.CList.C50_dangling`
* `EG.Queue.C51_linearizable`
* `EG.Queue.C51_no_crash`
* `EG.Queue.C51_second_check`
* `EG.Queue.C51_race_free`
* `EG.Queue.C51_progress`
* `EG.Queue.C51_no_duplication`
* `EG.Queue.C51_no_loss`
* `EG.Queue.C51_fifo`
* `EG.Sem.C52_exclusion`
* `EG.Sem.C52_count`
* `EG.Sem.C52_no_lost_wakeup`
* `EG.Sem.C52_progress`
* `EG.Sem.C52_zero`
* `EG.Sem.C52_wait_no_exclusion`
* `EG.C53_selection_partial`
* `EG.C53_contest`
* `EG.C53_unique`
* `EG.C53_nonempty`
* `EG.C53_valid_manifest`
* `EG.C53_double_listing`
* `EG.C53_selection`
* `EG.C53_blank_violated`
* `EG.C54_std_valid`
* `EG.C54_test_valid`
* `EG.C54_std_closed_forms`
* `EG.C54_generator_order`
* `EG.C55_fromHex_q_partial`
* `EG.C55_fromHex_p_partial`
* `EG.C55_stripped`
* `EG.C55_blank`
* `EG.C55_exact_q`
* `EG.C55_exact_p`
* `EG.C56_decrypt_partial`
* `EG.C56_violated`
* `EG.C56_zero_pad`
* `EG.C57_violated`
* `EG.C58_hash_binding_partial`
* `EG.C58_leading_zeros_not_hashed`
* `EG.C59_first_510_bytes`
* `EG.C59_recovered_partial`
* `EG.C59_violated`
* `EG.C60_submit_partial`
* `EG.C60_make_violated`
* `EG.C60_nonces_violated`
* `EG.C61_context_default`
* `EG.C61_device`
* `EG.C61_plaintext_ballot`
* `EG.C61_plaintext_ballot_injective`
* `EG.C61_context`
* `EG.C61_hashes_not_checked`
* `EG.C62_read_partial`
* `EG.C62_round_trip_partial`
* `EG.C62_hash_partial`
* `EG.C62_hash_violated`
* `EG.C62_violated`
* `EG.C62_approval_violated`
* `EG.C63_read_partial`
* `EG.C63_title_violated`
* `EG.C63_round_trip_partial`
* `EG.C64_parse_dump`
* `EG.C64_dump_injective`
* `EG.C64_dump_str_ne`
* `EG.C65_record_partial`
* `EG.C65_violated`
* `EG.C66_selection`
* `EG.C66_placeholder_partial`
* `EG.C66_violated`
* `EG.Limbs.C67_add`
* `EG.Limbs.C67_sub`
* `EG.Limbs.C67_compare`
* `EG.Limbs.C67_mul`
* `EG.Limbs.C67_sqr`
* `EG.Limbs.C67_add_sub_mod`
* `EG.Limbs.C68_mod_precomp`
* `EG.Limbs.C68_mod`
* `EG.Limbs.C68_exp_vartime`
* `EG.Limbs.C68_exp_consttime`
* `EG.Limbs.C68_exp_same`
* `EG.Limbs.C68_exp_checked`
* `EG.Limbs.C68_inverse`
* `EG.Limbs.C69_from_bytes`
* `EG.Limbs.C69_from_bytes_none`
* `EG.Limbs.C69_to_bytes`
* `EG.Limbs.C69_round_trip`
* `EG.Sha.C70_hash`
* `EG.Sha.C70_stream`
* `EG.Sha.C70_restart`
* `EG.Sha.C70_intermediate`
* `EG.Sha.C70_padding`
* `EG.Sha.C71_hmac`
* `EG.Sha.C71_get_hmac_partial`
* `EG.Sha.C71_long_violated`
* `EG.Sha.C71_zero_padded_keys`
* `EG.Sha.C72_hash_elems_partial`
* `EG.Sha.C72_long_violated`
* `EG.Sha.C72_hash_elems_short`
* `EG.Sha.C73_instantiate`
* `EG.Sha.C73_reseed`
* `EG.Sha.C73_generate`
* `EG.Sha.C73_runs`
* `EG.Sha.C73_granted`
* `EG.Sha.C73_get_bytes`
* `EG.Sha.C73_get_bytes_fails`
* `EG.Sha.C73_rand_q`
* `EG.Sha.C73_rand_p_violated`
* `EG.C74_votes_partial`
* `EG.C74_contest_violated`
* `EG.C74_violated`
* `EG.C75_one_key_partial`
* `EG.C75_one_key_constant_partial`
* `EG.C75_disjunctive_violated`
* `EG.C75_constant_violated`
* `EG.C76_disjunctive`
* `EG.C76_uniform`
* `EG.C76_seeded`
* `EG.C76_constant`
* `EG.Limbs.C77_compare`
* `EG.Limbs.C77_add_mod_q`
* `EG.Limbs.C77_sub_mod_q`
* `EG.Limbs.C77_refines`
* `EG.Limbs.C77_sub_from_q`
* `EG.Limbs.C77_a_plus_bc_mod_q`
* `EG.Limbs.C77_mul_mod_p`
* `EG.Limbs.C77_add_mod_p`
* `EG.Limbs.C77_pow_mod_p`
* `EG.Limbs.C77_pow_same`
* `EG.Limbs.C77_pow_mod_p_long`
* `EG.Pool.C78_fifo`
* `EG.Pool.C78_once`
* `EG.Pool.C78_joined`
* `EG.Pool.C78_all_run_partial`
* `EG.Pool.C78_progress`
* `EG.Pool.C78_no_threads_violated`
* `EG.Pool.C79_results`
* `EG.Pool.C79_returns`
* `EG.Pool.C79_exception`
* `EG.Date.C81_calendar`
* `EG.Date.C81_round_trip_partial`
* `EG.Date.C81_stable`
* `EG.Date.C81_injective`
* `EG.Date.C81_offset`
* `EG.Date.C81_fraction_violated`
* `EG.Date.C81_date_only_violated`
* `EG.Date.C81_trailing_violated`
* `EG.Date.C81_range_violated`
* `EG.CApi.C82_safe_partial`
* `EG.CApi.C82_owned`
* `EG.CApi.C82_no_leak`
* `EG.CApi.C82_persist`
* `EG.CApi.C83_typed`
* `EG.CApi.C83_confused_violated`
* `EG.Cs.C86_missing_violated`
* `EG.Cs.C86_mismatched_violated`
* `EG.Cs.C87_never_violated`
* `EG.Cs.C87_once_partial`
* `EG.Cs.C87_in_use`
* `EG.Cs.C87_release`
* `EG.Cs.C87_leak_violated`
* `EG.Cs.C87_borrowed_violated`
* `EG.CsPre.C89_stop`
* `EG.CsPre.C89_progress`
* `EG.CsPre.C89_events`
* `EG.CsPre.C89_completed_partial`
* `EG.CsPre.C89_restart_violated`
* `EG.CsPre.C89_single_key_partial`
* `EG.U128.C90_verified`
* `EG.U128.C90_gcc`
* `EG.U128.C90_msvc_partial`
* `EG.U128.C90_lognot_violated`
* `EG.U128.C90_little`
* `EG.U128.C90_big_partial`
* `EG.PreRace.C91_populate_violated`
* `EG.PreRace.C91_size`
* `EG.PreRace.C91_released`
* `EG.C92_selection_partial`
* `EG.C92_contest`
* `EG.C92_decrypt_partial`
* `EG.C92_stored`
* `EG.C92_selection`
* `EG.Leak.C93_vartime`
* `EG.Leak.C93_pow_violated`
* `EG.Leak.C93_pow_long_violated`
* `EG.Leak.C93_encrypt_value`
* `EG.Leak.C93_encrypt_violated`
* `EG.Leak.C93_decrypt_value`
* `EG.Leak.C93_decrypt`
* `EG.Leak.C93_decrypt_vote`
* `EG.C94_text`
* `EG.C94_refused`
* `EG.C94_unambiguous`
* `EG.C94_read`
* `EG.C94_vote_partial`
* `EG.C94_vote_negative_violated`
* `EG.C94_vote_fraction_violated`
* `EG.C94_vote_large_violated`
* `EG.C94_nul_violated`
* `EG.C94_empty`
* `EG.C95_grammar`
* `EG.C95_written`
* `EG.C95_injective`
* `EG.C95_same_as_text`
* `EG.C95_prefix`
* `EG.C95_truncated`
* `EG.C95_not_unique`
* `EG.C95_last_key`
* `EG.C95_plaintext_ballot`
* `EG.C95_ballot_partial`
* `EG.C95_compact_partial`
* `EG.C95_manifest_partial`
* `EG.C96_grammar`
* `EG.C96_written`
* `EG.C96_written_iff`
* `EG.C96_same_as_text`
* `EG.C96_prefix`
* `EG.C96_truncated`
* `EG.C96_size_violated`
* `EG.C96_device_partial`
* `EG.C96_device_violated`
* `EG.C96_plaintext_ballot_partial`
* `EG.C96_context_partial`
* `EG.C96_ballot_partial`
* `EG.C96_manifest_partial`
* `EG.Win.C97_add_sub`
* `EG.Win.C97_mul`
* `EG.Win.C97_mod_context`
* `EG.Win.C97_mod`
* `EG.Win.C97_mod_exp_context`
* `EG.Win.C97_mod_exp_long`
* `EG.Win.C97_mod_exp_partial`
* `EG.Win.C97_inverse`
* `EG.Win.C97_mod_exp_violated`
* `EG.Win.C97_montgomery`
* `EG.Win.C97_add_mul_mod_p`
* `EG.Win.C97_pow_mod_p_long`
* `EG.Win.C97_table`
* `EG.Win.C97_pow_mod_p`
* `EG.Wipe.C98_exponent_violated`
* `EG.Wipe.C98_element_violated`
* `EG.Wipe.C98_exponent_partial`
* `EG.Wipe.C98_secret_key_violated`
* `EG.Wipe.C98_same`
* `EG.Wipe.C98_keys_partial`
* `EG.Wipe.C98_session_key_violated`
* `EG.Wipe.C98_message_violated`
* `EG.Wipe.C98_rand_q_value_violated`
* `EG.C99_elements`
* `EG.C99_hex_partial`
* `EG.C99_quorum_violated`
* `EG.C99_c_elements`
* `EG.C99_c_hex`
* `EG.C99_hex_data_violated`
* `EG.C99_missing_text_violated`
* `EG.C99_get_partial`
* `EG.C99_get_complete`
* `EG.C99_round_trip`
* `EG.C99_get_violated`
* `EG.C99_zero_violated`
* `EG.C99_duplicate_violated`
* `EG.C99_index_partial`
* `EG.C100_overvotes_violated`
* `EG.C100_max_ballots_violated`
* `EG.Date.C101_c`
* `EG.Date.C101_c_violated`
* `EG.Date.C101_cs`
* `EG.Date.C101_cs_violated`
* `EG.Date.C101_text_partial`
* `EG.Cs.C102_new_partial`
* `EG.Cs.C102_gone_violated`
* `EG.Cs.C102_twice_violated`
* `EG.Cs.C102_stolen_violated`
* `EG.Cs.C102_freed`
* `EG.Log.C104_refused`
* `EG.Log.C104_other`
* `EG.Log.C104_refused_contest`
* `EG.Log.C104_warning`
* `EG.Log.C104_info_partial`
* `EG.Log.C104_overvote_violated`
* `EG.Log.C104_trace_partial`
* `EG.Log.C104_values`
* `EG.Log.C104_precomputed_violated`
* `EG.Log.C104_readable_violated`
* `EG.Limbs.C106_mul`
* `EG.Limbs.C106_sqr`
* `EG.Limbs.C106_mont_mul`
* `EG.Limbs.C106_exp`
* `EG.Limbs.C106_exp_in_place`
* `EG.Limbs.C107_bignum256`
* `EG.Limbs.C107_mod`
* `EG.Limbs.C107_mod_exp`
* `EG.Limbs.C107_context`
* `EG.Copies.C108_internal_manifest`
* `EG.Copies.C108_party_violated`
* `EG.CMan.C109_read`
* `EG.CMan.C109_view_partial`
* `EG.CMan.C109_plain`
* `EG.CMan.C109_made_violated`
* `EG.CMan.C109_view_violated`
* `EG.CMan.C109_codes`
* `EG.CMan.C109_texts`
* `EG.Secrecy.C110_secrecy`
* `EG.Secrecy.C110_reuse`
* `EG.Secrecy.C110_unlimited`
* `EG.NonceUse.C111_pads`
* `EG.NonceUse.C111_places`
* `EG.NonceUse.C111_distinct`
* `EG.NonceUse.C111_reuse`
* `EG.NonceUse.C111_example`
* `EG.C112_disjunctive`
* `EG.C112_constant`
* `EG.C112_ballot`
* `EG.C112_luck`
* `EG.C112_constant_late`
* `EG.C113_tally`
* `EG.C114_violated`
* `EG.C114_moved_violated`
* `EG.C114_copy_told`
* `EG.C114_public`
* `EG.C114_partial`
* `EG.Secrecy.C115_simulated`
* `EG.Secrecy.C115_secrecy`
* `EG.Secrecy.C115_coincidences`
* `EG.NonceUse.C116_takes`
* `EG.NonceUse.C116_distinct`
* `EG.NonceUse.C116_example`
* `EG.Derived.C117_random`
* `EG.Derived.C117_standard`
* `EG.Derived.C117_encrypts`
* `EG.Derived.C118_secrecy`
* `EG.Derived.C118_standard`
* `EG.Derived.C118_encrypts`
* `EG.Published.C119_secrecy`
* `EG.Published.C119_standard`
* `EG.Published.C119_encrypts`
* `EG.LogRace.C120_escapes_violated`
* `EG.Published.Stock.C121_secrecy`
* `EG.Published.Stock.C121_standard`
* `EG.Published.Stock.C121_encrypts`
* `EG.WriteIns.C122_secrecy`
* `EG.WriteIns.C122_records`
* `EG.WriteIns.C122_contest`
* `EG.WriteIns.C122_reuse`
* `EG.WriteIns.C122_zero_nonce`
* `EG.WriteIns.C122_unlimited`
* `EG.WriteIns.C122_oracle`
* `EG.WriteIns.C122_standard`
* `EG.Records.C123_secrecy`
* `EG.Records.C123_standard`
* `EG.Records.C123_encrypts`
* `EG.Whole.C124_secrecy`
* `EG.Whole.C124_standard`
* `EG.PreObjects.C125_whole`
* `EG.PreObjects.C125_defined`
* `EG.PreObjects.C125_copy`
* `EG.PreObjects.C125_effect`
* `EG.PreObjects.C125_new`
* `EG.PreObjects.C125_once`
* `EG.Bignum.C126_bytes_partial`
* `EG.Bignum.C126_big_endian`
* `EG.Bignum.C126_array`
* `EG.Bignum.C126_array_value`
* `EG.Bignum.C126_array_violated`
* `EG.Bignum.C126_round`
* `EG.Bignum.C126_back`
* `EG.Bignum.C126_hex`
* `EG.Bignum.C126_hex64`
* `EG.Bignum.C126_into`
* `EG.CGroup.C127_array_q`
* `EG.CGroup.C127_array_p`
* `EG.CGroup.C127_text_partial`
* `EG.CGroup.C127_text_zero`
* `EG.CGroup.C127_decrypt`
* `EG.CGroup.C127_refused`
* `EG.CGroup.C127_defined_partial`
* `EG.CGroup.C127_status_violated`
* `EG.Whole.Stock.C128_secrecy`
* `EG.Whole.Stock.C128_standard`
* `EG.Whole.Stock.C128_encrypts`
* `EG.CHash.C129_outcome`
* `EG.CHash.C129_text`
* `EG.CHash.C129_array`
* `EG.CHash.C129_one`
* `EG.CHash.C129_not_the_list`
* `EG.CHash.C129_binding_partial`
* `EG.CHash.C129_ambiguous`
* `EG.CEncrypt.C130_mediator`
* `EG.CEncrypt.C130_mediator_status_violated`
* `EG.CEncrypt.C130_ballot`
* `EG.CEncrypt.C130_cs_ballot`
* `EG.CEncrypt.C130_verified`
* `EG.CEncrypt.C130_null`
* `EG.CEncrypt.C130_unknown_style`
* `EG.CEncrypt.C130_compact_style_violated`
* `EG.CEncrypt.C130_chain`
* `EG.CProof.C131_make`
* `EG.CProof.C131_plaintext_violated`
* `EG.CProof.C131_properties`
* `EG.CProof.C131_missing`
* `EG.CProof.C131_cs_missing`
* `EG.CProof.C131_constant_properties`
* `EG.CProof.C131_constant_violated`
* `EG.CProof.C131_constant`
* `EG.CProof.C131_documentation_violated`
* `EG.CCode.C132_audit`
* `EG.CCode.C132_complete`
* `EG.CCode.C132_binding`
* `EG.CCode.C132_broken`
* `EG.CCode.C132_null`
* `EG.CContext.C133_new`
* `EG.CContext.C133_read`
* `EG.CContext.C133_transfer_partial`
* `EG.CContext.C133_data`
* `EG.CContext.C133_mediator`
* `EG.CContext.C133_hashes_violated`
* `EG.CContext.C133_zero_violated`
* `EG.CContext.C133_null`
* `EG.CJson.C134_device`
* `EG.CJson.C134_plaintext`
* `EG.CJson.C134_encrypt`
* `EG.CJson.C134_ciphertext_partial`
* `EG.CJson.C134_valid_iff_partial`
* `EG.CJson.C134_nonces`
* `EG.CJson.C134_missing_nonce_violated`
* `EG.CJson.C134_faults`
* `EG.CSubmit.C135_submit_partial`
* `EG.CSubmit.C135_transfer_partial`
* `EG.CSubmit.C135_states`
* `EG.CSubmit.C135_nonces`
* `EG.CSubmit.C135_faults`
* `EG.CWalk.C136_parts_partial`
* `EG.CWalk.C136_nonces`
* `EG.CWalk.C136_null`
* `EG.CBytes.C137_msgpack_partial`
* `EG.CBytes.C137_bson_partial`
* `EG.CBytes.C137_nonces_violated`
* `EG.CBytes.C137_hidden`
* `EG.CBytes.C137_faults`
