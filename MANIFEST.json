{
 "claims": [
  {
   "property": "C01",
   "status": "proved",
   "theorems": [
    "EG.C01_add_mod_q",
    "EG.C01_add_mod_q_vector",
    "EG.C01_add_mod_q_unreduced",
    "EG.C01_unreduced_wrong",
    "EG.C01_unreduced_exact",
    "EG.C01_unreduced_always_wrong"
   ],
   "note": "Single and vector overloads; unreduced operands whose sum overflows give a specified, always wrong value (C01_unreduced_exact, C01_unreduced_always_wrong)."
  },
  {
   "property": "C02",
   "status": "proved",
   "theorems": [
    "EG.C02_sub_mod_q",
    "EG.C02_sub_add",
    "EG.C02_unreduced_wrong"
   ],
   "note": "Holds for reduced operands; C02_unreduced_wrong shows it fails for an unreduced operand."
  },
  {
   "property": "C03",
   "status": "proved",
   "theorems": [
    "EG.C03_a_plus_bc_mod_q"
   ],
   "note": ""
  },
  {
   "property": "C04",
   "status": "proved",
   "theorems": [
    "EG.C04_mul_mod_p",
    "EG.C04_mul_mod_p_vector"
   ],
   "note": "Single and vector overloads."
  },
  {
   "property": "C05",
   "status": "proved",
   "theorems": [
    "EG.C05_pow_mod_p_history",
    "EG.C05_pow_mod_p_eq",
    "EG.C05_pow_zero",
    "EG.C05_long_exponent"
   ],
   "note": "Includes the fixed-base lookup tables and the shared cache, over every history of calls."
  },
  {
   "property": "C06",
   "status": "partial",
   "theorems": [
    "EG.C06_add_mod_p_partial",
    "EG.C06_add_mod_p_overflow",
    "EG.C06_add_mod_p_violated",
    "EG.C06_mod_p_violated",
    "EG.C06_mod_array"
   ],
   "note": "The property is violated: C06_add_mod_p_violated gives a witness; C06_add_mod_p_partial is the part that holds. mod_p is undefined behaviour for every element (C06_mod_p_violated)."
  },
  {
   "property": "C07",
   "status": "proved",
   "theorems": [
    "EG.C07_limbs_p",
    "EG.C07_limbs_q",
    "EG.C07_bytes_p",
    "EG.C07_bytes_q",
    "EG.C07_uint64",
    "EG.C07_isInBounds",
    "EG.C07_modulus_accepted",
    "EG.C07_long_limbs",
    "EG.C07_hex",
    "EG.C07_long_limbs_p"
   ],
   "note": "The modulus itself is accepted (C07_modulus_accepted); too many limbs are undefined behaviour (C07_long_limbs)."
  },
  {
   "property": "C08",
   "status": "partial",
   "theorems": [
    "EG.C08_bytes_q",
    "EG.C08_bytes_p",
    "EG.C08_hex_q_partial",
    "EG.C08_hex_p_partial",
    "EG.C08_hex_zero",
    "EG.C08_hex_injective",
    "EG.C08_hex_of_zeros"
   ],
   "note": "Bytes round trip fully; hex round trip fails for zero (C08_hex_zero), proved for all other values."
  },
  {
   "property": "C09",
   "status": "proved",
   "theorems": [
    "EG.C09_isValidResidue_iff",
    "EG.C09_generator",
    "EG.C09_mul_closed",
    "EG.C09_pow_closed",
    "EG.C09_inverse"
   ],
   "note": ""
  },
  {
   "property": "C10",
   "status": "partial",
   "theorems": [
    "EG.C10_rand_q_partial",
    "EG.C10_rand_q_image",
    "EG.C10_rand_q_violated",
    "EG.C10_rand_p_ub"
   ],
   "note": "Violated: values with bit 2, 3, 4, 5 or 7 set are never produced (C10_rand_q_violated); the range part is proved."
  },
  {
   "property": "C11",
   "status": "proved",
   "theorems": [
    "EG.C11_decrypt_encrypt",
    "EG.C11_encrypt_equations",
    "EG.C11_refused",
    "EG.C11_wrong_secret"
   ],
   "note": ""
  },
  {
   "property": "C12",
   "status": "proved",
   "theorems": [
    "EG.C12_add_encrypts_sum",
    "EG.C12_decrypt_sum",
    "EG.C12_add_value",
    "EG.C12_add_perm",
    "EG.C12_add_append"
   ],
   "note": ""
  },
  {
   "property": "C13",
   "status": "partial",
   "theorems": [
    "EG.C13_large_plaintext_encrypts_zero",
    "EG.C13_small_plaintext_partial",
    "EG.C13_violated"
   ],
   "note": "Violated for every plaintext above 1 (C13_violated); C13_small_plaintext_partial is the part that holds."
  },
  {
   "property": "C14",
   "status": "proved",
   "theorems": [
    "EG.C14_precomputed_eq_direct",
    "EG.C14_precomputed_isEncryption"
   ],
   "note": ""
  },
  {
   "property": "C15",
   "status": "proved",
   "theorems": [
    "EG.C15_round_trip",
    "EG.C15_bytes512"
   ],
   "note": ""
  },
  {
   "property": "C16",
   "status": "proved",
   "theorems": [
    "EG.C16_truncation",
    "EG.C16_refused",
    "EG.C16_unpadded_refused",
    "EG.C16_unpadded_round_trip",
    "EG.C16_empty_message",
    "EG.C16_length_wraps"
   ],
   "note": "Two corner cases behave badly and are stated exactly: an empty unpadded message cannot be decrypted, lengths of 2^32 and above wrap."
  },
  {
   "property": "C17",
   "status": "proved",
   "theorems": [
    "EG.C17_decrypt_safe",
    "EG.C17_padding",
    "EG.C17_accepted_mac",
    "EG.C17_tampered_data"
   ],
   "note": ""
  },
  {
   "property": "C18",
   "status": "partial",
   "theorems": [
    "EG.C18_arguments_ignored",
    "EG.C18_triple_partial",
    "EG.C18_buffer_key_decrypts",
    "EG.C18_violated"
   ],
   "note": "Violated: with a buffered triple the public key and nonce arguments are ignored (C18_arguments_ignored, C18_violated); C18_triple_partial and C18_buffer_key_decrypts are the part that holds."
  },
  {
   "property": "C19",
   "status": "proved",
   "theorems": [
    "EG.C19_randomised",
    "EG.C19_seeded",
    "EG.C19_precomputed",
    "EG.C19_refused",
    "EG.C19_seeded_selection",
    "EG.C19_seeded_selection_without_nonce"
   ],
   "note": "All three provers, every random choice; also proofs for a wrong plaintext are always rejected."
  },
  {
   "property": "C20",
   "status": "proved",
   "theorems": [
    "EG.C20_special_soundness",
    "EG.C20_decrypts"
   ],
   "note": ""
  },
  {
   "property": "C21",
   "status": "proved",
   "theorems": [
    "EG.C21_completeness",
    "EG.C21_foreign_triple_rejected"
   ],
   "note": "Also shows that a triple left in the buffer by another key makes the proof invalid (C21_foreign_triple_rejected)."
  },
  {
   "property": "C22",
   "status": "proved",
   "theorems": [
    "EG.C22_special_soundness"
   ],
   "note": ""
  },
  {
   "property": "C23",
   "status": "proved",
   "theorems": [
    "EG.C23_disjunctive_iff",
    "EG.C23_constant_iff",
    "EG.C23_disjunctive_binding",
    "EG.C23_constant_binding",
    "EG.C23_disjunctive_unique",
    "EG.C23_constant_unique"
   ],
   "note": ""
  },
  {
   "property": "C24",
   "status": "partial",
   "theorems": [
    "EG.C24_copies_partial",
    "EG.C24_clone_rejected",
    "EG.C24_violated"
   ],
   "note": "Violated: clone loses the second data commitment and the clone of a valid proof is rejected (C24_violated, C24_clone_rejected); C24_copies_partial is the part that holds."
  },
  {
   "property": "C25",
   "status": "proved",
   "theorems": [
    "EG.C25_hash_in_range",
    "EG.C25_hash_value",
    "EG.C25_all_ones",
    "EG.C25_depends_on_texts"
   ],
   "note": ""
  },
  {
   "property": "C26",
   "status": "partial",
   "theorems": [
    "EG.C26_hash_binding_partial",
    "EG.C26_hash_binding_lists_partial",
    "EG.C26_encoding_injective_partial",
    "EG.C26_ambiguous"
   ],
   "note": "The encoding is ambiguous (C26_ambiguous); injectivity and binding are proved for delimiter-free strings and nonempty vectors of the same shape."
  },
  {
   "property": "C27",
   "status": "proved",
   "theorems": [
    "EG.C27_next_after_get_with",
    "EG.C27_history_independent",
    "EG.C27_next_after_get",
    "EG.C27_get_range",
    "EG.C27_get_range_overflow",
    "EG.C27_distinct"
   ],
   "note": ""
  },
  {
   "property": "C28",
   "status": "proved",
   "theorems": [
    "EG.C28_at_most_once_in_order",
    "EG.C28_nothing_lost",
    "EG.C28_get_none_iff",
    "EG.C28_empty_discards",
    "EG.C28_empty_large"
   ],
   "note": "Histories interleave the locked operations of any number of threads; empty_queues keeps queues of 2^31 entries and more (C28_empty_large)."
  },
  {
   "property": "C29",
   "status": "proved",
   "theorems": [
    "EG.C29_populate_size",
    "EG.C29_stopped",
    "EG.C29_init"
   ],
   "note": ""
  },
  {
   "property": "C30",
   "status": "partial",
   "theorems": [
    "EG.C30_single_key_partial",
    "EG.C30_violated"
   ],
   "note": "Violated: init and populate with another key keep the entries of the old key (C30_violated); C30_single_key_partial is the part that holds."
  },
  {
   "property": "C31",
   "status": "partial",
   "theorems": [
    "EG.C31_classification_partial",
    "EG.C31_codes_violated",
    "EG.C31_wraparound_violated"
   ],
   "note": "Violated: OVERVOTE_ERROR and INVALID_OBJECT_ID_ERROR have the same value (C31_codes_violated), and the vote total wraps at 2^64 (C31_wraparound_violated). C31_classification_partial is the part that holds."
  },
  {
   "property": "C32",
   "status": "proved",
   "theorems": [
    "EG.C32_totals"
   ],
   "note": ""
  },
  {
   "property": "C33",
   "status": "proved",
   "theorems": [
    "EG.C33_votes",
    "EG.C33_decrypt",
    "EG.C33_ballot"
   ],
   "note": "C33_votes and C33_decrypt for contests, C33_ballot for ballots."
  },
  {
   "property": "C34",
   "status": "partial",
   "theorems": [
    "EG.C34_normalisation",
    "EG.C34_idempotent",
    "EG.C34_unknown_style_violated"
   ],
   "note": "C34_normalisation and C34_idempotent are the full statement for every known ballot style; an unknown style is undefined behaviour (C34_unknown_style_violated)."
  },
  {
   "property": "C35",
   "status": "proved",
   "theorems": [
    "EG.C35_selection",
    "EG.C35_selection_refused",
    "EG.C35_selection_total",
    "EG.C35_contest",
    "EG.C35_ballot",
    "EG.C35_ballot_unknown_style",
    "EG.C35_ballot_valid",
    "EG.C35_ballot_total",
    "EG.C35_contest_total"
   ],
   "note": "Selections, contests and ballots: facts about everything returned, exact validity (valid iff no challenge or response of a proof is zero), totality without verification, refusal with verification, and that the contests of a valid manifest meet the hypotheses (goodContests_of_valid)."
  },
  {
   "property": "C36",
   "status": "partial",
   "theorems": [
    "EG.C36_selection_seed",
    "EG.C36_valid_iff_partial",
    "EG.C36_violated",
    "EG.C36_hash_binding",
    "EG.C36_not_covered_violated",
    "EG.C36_contest_seed"
   ],
   "note": "Violated: results are kept under composed ids, so a valid entry hides an invalid one (C36_violated), and style, timestamp, code and extended data are not covered (C36_not_covered_violated). C36_valid_iff_partial gives the exact meaning when the composed ids are distinct; C36_hash_binding shows what the ballot hash binds."
  },
  {
   "property": "C37",
   "status": "proved",
   "theorems": [
    "EG.C37_run",
    "EG.C37_chain",
    "EG.C37_binding",
    "EG.C37_location_null",
    "EG.C37_hash_bound"
   ],
   "note": "C37_chain/C37_run for every history of calls of one mediator, C37_binding for chains of any length; the one ambiguity of the device text is stated as C37_location_null and excluded in C37_binding."
  },
  {
   "property": "C38",
   "status": "partial",
   "theorems": [
    "EG.C38_in_order_partial",
    "EG.C38_agree_iff",
    "EG.C38_order_iff",
    "EG.C38_out_of_order_violated"
   ],
   "note": "Violated: contests given out of order make a fresh ballot invalid (C38_out_of_order_violated); C38_agree_iff and C38_order_iff give the exact condition, C38_in_order_partial the positive part."
  },
  {
   "property": "C39",
   "status": "partial",
   "theorems": [
    "EG.C39_plaintext",
    "EG.C39_ciphertext_partial",
    "EG.C39_compact_total",
    "EG.C39_no_nonce",
    "EG.C39_expand_iff",
    "EG.C39_example",
    "EG.C39_precomputed_violated"
   ],
   "note": "C39_plaintext and C39_expand_iff hold for all states. C39_ciphertext_partial: with empty precompute buffers the expansion gives back the same ciphertext ballot up to the randomised selection proofs, and the code comparison never fails. Violated otherwise: a compact ballot encrypted with precomputed values cannot be expanded (C39_precomputed_violated); compressing a ballot without nonce throws (C39_no_nonce)."
  },
  {
   "property": "C40",
   "status": "proved",
   "theorems": [
    "EG.C40_mediator_iff",
    "EG.C40_ballot_manifest",
    "EG.C40_context_binding",
    "EG.C40_base_text",
    "EG.C40_key_not_covered",
    "EG.C40_make_hex"
   ],
   "note": "The base hash binds the group parameters as text (C40_base_text), since another group also means another hash function modulo q. The election key is covered by neither hash (C40_key_not_covered)."
  },
  {
   "property": "C41",
   "status": "proved",
   "theorems": [
    "EG.C41_manifest_valid"
   ],
   "note": "Includes that the style loop, which stops at the first style without districts, still decides exactly the specification."
  },
  {
   "property": "C42",
   "status": "proved",
   "theorems": [
    "EG.C42_contest_valid"
   ],
   "note": ""
  },
  {
   "property": "C43",
   "status": "partial",
   "theorems": [
    "EG.C43_count",
    "EG.C43_distinct_partial",
    "EG.C43_truncation_violated",
    "EG.C43_id_violated"
   ],
   "note": "Violated twice: sequence numbers of 2^32 and above are truncated (C43_truncation_violated), and a real selection may carry the id of a placeholder (C43_id_violated). C43_distinct_partial is the part that holds; C43_count holds always."
  },
  {
   "property": "C44",
   "status": "partial",
   "theorems": [
    "EG.C44_contests",
    "EG.C44_each_once_partial",
    "EG.C44_refused",
    "EG.C44_violated"
   ],
   "note": "Violated: a style that names a district twice passes validation and gets its contests twice (C44_violated); C44_each_once_partial is the part that holds, C44_contests and C44_refused hold always."
  },
  {
   "property": "C45",
   "status": "partial",
   "theorems": [
    "EG.C45_clone_partial",
    "EG.C45_preserved_partial",
    "EG.C45_violated",
    "EG.C45_title_without_subtitle"
   ],
   "note": "Violated: C45_violated, C45_title_without_subtitle; C45_clone_partial says exactly which contests are copied faithfully."
  },
  {
   "property": "C46",
   "status": "partial",
   "theorems": [
    "EG.C46_hash_binding_partial",
    "EG.C46_contest_hash_binding_partial",
    "EG.C46_candidate_hash_binding_partial",
    "EG.C46_write_in_violated",
    "EG.C46_no_contact_violated",
    "EG.C46_candidates_violated",
    "EG.C46_not_covered"
   ],
   "note": "Violated: C46_candidates_violated, C46_not_covered; C46_hash_binding_partial shows that everything else is bound, C46_candidate_hash_binding_partial what the hash of a candidate binds; the write-in flag is not hashed (C46_write_in_violated), and a manifest with a name but without contact cannot be hashed (C46_no_contact_violated)."
  },
  {
   "property": "C47",
   "status": "partial",
   "theorems": [
    "EG.C47_hashed_iff",
    "EG.C47_mac_violated",
    "EG.C47_data_violated",
    "EG.C47_ballot_partial",
    "EG.C47_valid_partial",
    "EG.C47_nonce_violated",
    "EG.C47_submitted_partial"
   ],
   "note": "C47_hashed_iff gives the exact condition for hashed ciphertexts; C47_mac_violated and C47_data_violated show that otherwise decryption fails with any key. C47_ballot_partial, C47_valid_partial and C47_submitted_partial are the positive part for ballots; C47_nonce_violated shows that nonces read as zero cannot be written and read again."
  },
  {
   "property": "C48",
   "status": "partial",
   "theorems": [
    "EG.C48_partial",
    "EG.C48_violated",
    "EG.C48_no_selections",
    "EG.C48_cipher_partial",
    "EG.C48_expand_quoted"
   ],
   "note": "Violated for every write-in (C48_violated); C48_partial and C48_cipher_partial give exactly what is read: the ballot with each write-in quoted; C48_no_selections is the only ballot that survives unchanged; C48_expand_quoted shows the effect after expansion."
  },
  {
   "property": "C49",
   "status": "partial",
   "theorems": [
    "EG.C49_election_type",
    "EG.C49_reporting_unit_type",
    "EG.C49_ballot_box_state",
    "EG.C49_vote_variation_partial",
    "EG.C49_violated",
    "EG.C49_approval_contest",
    "EG.C49_unknown_strings"
   ],
   "note": "Violated: approval has no string (C49_violated), so hashing an approval contest is undefined behaviour (C49_approval_contest); everything else holds."
  },
  {
   "property": "C50",
   "status": "proved",
   "theorems": [
    "EG.CList.C50_history",
    "EG.CList.C50_no_failure",
    "EG.CList.C50_free",
    "EG.CList.C50_append_error",
    "EG.CList.C50_dangling"
   ],
   "note": "C50_history relates every history of append/delete_last on any allocator to the list of surviving strings; C50_no_failure, C50_free, C50_append_error and C50_dangling cover allocation failure, freeing and returned pointers that dangle."
  },
  {
   "property": "C51",
   "status": "proved",
   "theorems": [
    "EG.Queue.C51_linearizable",
    "EG.Queue.C51_no_crash",
    "EG.Queue.C51_second_check",
    "EG.Queue.C51_race_free",
    "EG.Queue.C51_progress",
    "EG.Queue.C51_no_duplication",
    "EG.Queue.C51_no_loss",
    "EG.Queue.C51_fifo"
   ],
   "note": "Small-step model with an explicit heap, both mutexes and address reuse, any threads and schedule. C51_linearizable (refines an atomic queue), C51_fifo, C51_no_duplication, C51_no_loss, C51_race_free, C51_no_crash, C51_second_check, C51_progress."
  },
  {
   "property": "C52",
   "status": "proved",
   "theorems": [
    "EG.Sem.C52_exclusion",
    "EG.Sem.C52_count",
    "EG.Sem.C52_no_lost_wakeup",
    "EG.Sem.C52_progress",
    "EG.Sem.C52_zero",
    "EG.Sem.C52_wait_no_exclusion"
   ],
   "note": "Small-step model of lock/unlock/wait with mutex and condition variable (spurious wake-ups included), any number of threads and any schedule: C52_exclusion, C52_count, C52_no_lost_wakeup, C52_progress; C52_zero (count 0 blocks for ever) and C52_wait_no_exclusion (wait() restricts nothing)."
  },
  {
   "property": "C53",
   "status": "partial",
   "theorems": [
    "EG.C53_selection_partial",
    "EG.C53_contest",
    "EG.C53_unique",
    "EG.C53_nonempty",
    "EG.C53_valid_manifest",
    "EG.C53_double_listing",
    "EG.C53_selection",
    "EG.C53_blank_violated"
   ],
   "note": "C53_selection_partial and C53_contest for every list of encrypted ballots in any state of the buffers; C53_unique (the tally determines the count), C53_valid_manifest (hypotheses hold for valid manifests with 32-bit sizes). Fails where a valid manifest lists a district twice in a style: C53_double_listing, votes count twice. C53_selection covers every selection, also those named like a generated placeholder; for these the property is violated: C53_blank_violated, a blank ballot counts as a vote."
  },
  {
   "property": "C54",
   "status": "proved",
   "theorems": [
    "EG.C54_std_valid",
    "EG.C54_test_valid",
    "EG.C54_std_closed_forms",
    "EG.C54_generator_order"
   ],
   "note": ""
  },
  {
   "property": "C55",
   "status": "partial",
   "theorems": [
    "EG.C55_fromHex_q_partial",
    "EG.C55_fromHex_p_partial",
    "EG.C55_non_hex_accepted",
    "EG.C55_stripped",
    "EG.C55_blank",
    "EG.C55_exact_q",
    "EG.C55_exact_p"
   ],
   "note": "Violated: C55_non_hex_accepted. C55_blank, C55_exact_q and C55_exact_p say for every string whether it is read and as what."
  },
  {
   "property": "C56",
   "status": "partial",
   "theorems": [
    "EG.C56_decrypt_partial",
    "EG.C56_unreduced_pad_reads_zero",
    "EG.C56_violated",
    "EG.C56_zero_pad"
   ],
   "note": "Violated: an unreduced pad reads as a vote of zero (C56_violated)."
  },
  {
   "property": "C57",
   "status": "partial",
   "theorems": [
    "EG.C57_block_inputs_distinct_partial",
    "EG.C57_key_stream_repeats",
    "EG.C57_mac_key_is_block_key",
    "EG.C57_violated"
   ],
   "note": "Violated at 512 MiB (C57_violated, C57_key_stream_repeats); C57_block_inputs_distinct_partial is the part that holds."
  },
  {
   "property": "C58",
   "status": "partial",
   "theorems": [
    "EG.C58_hash_binding_partial",
    "EG.C58_leading_zeros_not_hashed"
   ],
   "note": "Violated: leading zero bytes are not hashed (C58_leading_zeros_not_hashed); C58_hash_binding_partial is the part that holds."
  },
  {
   "property": "C59",
   "status": "partial",
   "theorems": [
    "EG.C59_first_510_bytes",
    "EG.C59_recovered_partial",
    "EG.C59_violated"
   ],
   "note": "Violated: text beyond 510 bytes is silently dropped (C59_violated). C59_first_510_bytes says exactly what can be recovered, C59_recovered_partial is the positive part."
  },
  {
   "property": "C60",
   "status": "partial",
   "theorems": [
    "EG.C60_submit_partial",
    "EG.C60_make_violated",
    "EG.C60_assign_violated",
    "EG.C60_nonces_violated"
   ],
   "note": "Violated: nonces stay (C60_nonces_violated), ballots without nonce are undefined (C60_make_violated), assignment copies only the state (C60_assign_violated). C60_submit_partial says exactly what is kept and when."
  },
  {
   "property": "C61",
   "status": "proved",
   "theorems": [
    "EG.C61_context_default",
    "EG.C61_device",
    "EG.C61_plaintext_ballot",
    "EG.C61_plaintext_ballot_injective",
    "EG.C61_context",
    "EG.C61_hashes_not_checked"
   ],
   "note": "For devices, plaintext ballots and contexts; C61_hashes_not_checked shows that the hashes of a context are taken from the text, C61_context_default what is read if there is no configuration."
  },
  {
   "property": "C62",
   "status": "partial",
   "theorems": [
    "EG.C62_read_partial",
    "EG.C62_round_trip_partial",
    "EG.C62_hash_partial",
    "EG.C62_hash_violated",
    "EG.C62_violated",
    "EG.C62_approval_violated"
   ],
   "note": "C62_read_partial says exactly what reading gives for every manifest without approval contests; C62_round_trip_partial and C62_hash_partial are the cases in which contents or hash are unchanged. Violated: C62_hash_violated (valid manifest, hash changes), C62_violated (contact, primary parties, votes allowed and absent names), C62_approval_violated (undefined)."
  },
  {
   "property": "C63",
   "status": "partial",
   "theorems": [
    "EG.C63_read_partial",
    "EG.C63_title_violated",
    "EG.C63_round_trip_partial"
   ],
   "note": "C63_read_partial says exactly what reading gives when no contest has a title, C63_round_trip_partial when it gives the same back for internal manifests made from valid manifests. Violated: C63_title_violated, every internal manifest with a titled contest is refused."
  },
  {
   "property": "C64",
   "status": "proved",
   "theorems": [
    "EG.C64_parse_dump",
    "EG.C64_dump_injective",
    "EG.C64_dump_str_ne"
   ],
   "note": "About the model of nlohmann/json in Model/Json.lean."
  },
  {
   "property": "C65",
   "status": "partial",
   "theorems": [
    "EG.C65_record_partial",
    "EG.C65_violated"
   ],
   "note": "C65_record_partial: exact contents of the record for manifests with distinct contest ids and contests with distinct selection ids (what normalisation produces). Violated for selections with more than one vote (C65_violated)."
  },
  {
   "property": "C66",
   "status": "partial",
   "theorems": [
    "EG.C66_found",
    "EG.C66_unknown",
    "EG.C66_selection",
    "EG.C66_placeholder_partial",
    "EG.C66_is_placeholder",
    "EG.C66_violated"
   ],
   "note": "C66_found, C66_unknown, C66_selection and C66_is_placeholder hold for all contests; C66_placeholder_partial needs sequence numbers below 2^32 - 1 and no selection with the id of a placeholder. Violated: C66_violated."
  },
  {
   "property": "C67",
   "status": "proved",
   "theorems": [
    "EG.Limbs.C67_add",
    "EG.Limbs.C67_sub",
    "EG.Limbs.C67_compare",
    "EG.Limbs.C67_mul",
    "EG.Limbs.C67_sqr",
    "EG.Limbs.C67_add_sub_mod"
   ],
   "note": "For arrays of every length, through the loops over limbs with 64-bit carries (Model/Limbs.lean)."
  },
  {
   "property": "C68",
   "status": "proved",
   "theorems": [
    "EG.Limbs.C68_mod_precomp",
    "EG.Limbs.C68_mod",
    "EG.Limbs.C68_exp_vartime",
    "EG.Limbs.C68_exp_consttime",
    "EG.Limbs.C68_exp_same",
    "EG.Limbs.C68_exp_checked",
    "EG.Limbs.C68_inverse"
   ],
   "note": "Limb by limb, including the constant-time masks; lengths up to 2^24 limbs so that 32-bit bit counts do not overflow (the library uses 4 and 64 limbs)."
  },
  {
   "property": "C69",
   "status": "proved",
   "theorems": [
    "EG.Limbs.C69_from_bytes",
    "EG.Limbs.C69_from_bytes_none",
    "EG.Limbs.C69_to_bytes",
    "EG.Limbs.C69_round_trip"
   ],
   "note": "For big-endian bytes; the library's limits on lengths are part of the statements."
  },
  {
   "property": "C70",
   "status": "proved",
   "theorems": [
    "EG.Sha.C70_hash",
    "EG.Sha.C70_stream",
    "EG.Sha.C70_restart",
    "EG.Sha.C70_intermediate",
    "EG.Sha.C70_padding"
   ],
   "note": "Against a transcription of FIPS 180-4 (Spec/Sha.lean) in which the constants are the fractional parts of roots of primes."
  },
  {
   "property": "C71",
   "status": "partial",
   "theorems": [
    "EG.Sha.C71_hmac",
    "EG.Sha.C71_get_hmac_partial",
    "EG.Sha.C71_long_violated",
    "EG.Sha.C71_zero_padded_keys"
   ],
   "note": "C71_hmac for the HACL* function; C71_get_hmac_partial below 4 GiB and for non-empty key and message (front() of an empty vector is undefined). Violated above: C71_long_violated."
  },
  {
   "property": "C72",
   "status": "partial",
   "theorems": [
    "EG.Sha.C72_hash_elems_partial",
    "EG.Sha.C72_long_violated",
    "EG.Sha.C72_hash_elems_short"
   ],
   "note": "C72_hash_elems_partial and C72_hash_elems_short for renderings below 4 GiB. Violated: C72_long_violated."
  },
  {
   "property": "C73",
   "status": "proved",
   "theorems": [
    "EG.Sha.C73_instantiate",
    "EG.Sha.C73_reseed",
    "EG.Sha.C73_generate",
    "EG.Sha.C73_exhausted",
    "EG.Sha.C73_runs",
    "EG.Sha.C73_granted",
    "EG.Sha.C73_get_bytes",
    "EG.Sha.C73_get_bytes_fails",
    "EG.Sha.C73_rand_q",
    "EG.Sha.C73_rand_p_violated"
   ],
   "note": "What the operating system supplies is a parameter. C73_rand_p_violated is about rand_p, which no other function of the library calls."
  },
  {
   "property": "C74",
   "status": "partial",
   "theorems": [
    "EG.C74_votes_partial",
    "EG.C74_contest_violated",
    "EG.C74_violated"
   ],
   "note": "C74_votes_partial: the votes are 0 or 1 and sum to the limit in the contest's proof (with the rewinding hypothesis stated as accepted proofs with equal commitments and different challenges). Violated: C74_contest_violated for every hash function, C74_violated for a whole ballot."
  },
  {
   "property": "C75",
   "status": "partial",
   "theorems": [
    "EG.C75_one_key_partial",
    "EG.C75_one_key_constant_partial",
    "EG.C75_disjunctive_violated",
    "EG.C75_constant_violated"
   ],
   "note": "C75_one_key_partial and C75_one_key_constant_partial: one proof, one key. Violated for every hash function: C75_disjunctive_violated, C75_constant_violated."
  },
  {
   "property": "C76",
   "status": "proved",
   "theorems": [
    "EG.C76_disjunctive",
    "EG.C76_uniform",
    "EG.C76_seeded",
    "EG.C76_constant"
   ],
   "note": "C76_disjunctive, C76_uniform (counting), C76_seeded (the nonces drawn from the seed) and C76_constant."
  },
  {
   "property": "C77",
   "status": "proved",
   "theorems": [
    "EG.Limbs.C77_std",
    "EG.Limbs.C77_compare",
    "EG.Limbs.C77_add_mod_q",
    "EG.Limbs.C77_sub_mod_q",
    "EG.Limbs.C77_refines",
    "EG.Limbs.C77_sub_from_q",
    "EG.Limbs.C77_a_plus_bc_mod_q",
    "EG.Limbs.C77_mul_mod_p",
    "EG.Limbs.C77_add_mod_p",
    "EG.Limbs.C77_pow_mod_p",
    "EG.Limbs.C77_pow_same",
    "EG.Limbs.C77_pow_mod_p_long"
   ],
   "note": "For every parameter set whose limb arrays are given (P.Denotes G), which the arrays of constants.h do (C77_std). The overflow of add_mod_p is the violation reported at C06."
  },
  {
   "property": "C78",
   "status": "partial",
   "theorems": [
    "EG.Pool.C78_fifo",
    "EG.Pool.C78_once",
    "EG.Pool.C78_joined",
    "EG.Pool.C78_all_run_partial",
    "EG.Pool.C78_progress",
    "EG.Pool.C78_late_violated",
    "EG.Pool.C78_no_threads_violated"
   ],
   "note": "C78_fifo, C78_once, C78_joined, C78_progress, and C78_all_run_partial unless a task is submitted after the destructor found the queue empty. Violated: C78_late_violated, C78_no_threads_violated. Queue operations are one step (C51)."
  },
  {
   "property": "C79",
   "status": "partial",
   "theorems": [
    "EG.Pool.C79_results",
    "EG.Pool.C79_returns",
    "EG.Pool.C79_exception",
    "EG.Pool.C79_order_violated",
    "EG.Pool.C79_invalid_violated"
   ],
   "note": "C79_results (as a multiset), C79_returns, C79_exception. Violated: C79_order_violated, C79_invalid_violated."
  },
  {
   "property": "C80",
   "status": "partial",
   "theorems": [
    "EG.LutRace.C80_warm_partial",
    "EG.LutRace.C80_present",
    "EG.LutRace.C80_race_violated",
    "EG.LutRace.C80_zero_violated"
   ],
   "note": "C80_warm_partial: if all keys in use are in the map. C80_present for all runs. Violated: C80_race_violated for every positive count, C80_zero_violated."
  },
  {
   "property": "C81",
   "status": "partial",
   "theorems": [
    "EG.Date.C81_calendar",
    "EG.Date.C81_round_trip_partial",
    "EG.Date.C81_stable",
    "EG.Date.C81_injective",
    "EG.Date.C81_offset",
    "EG.Date.C81_fraction_violated",
    "EG.Date.C81_refuse_violated",
    "EG.Date.C81_date_only_violated",
    "EG.Date.C81_trailing_violated",
    "EG.Date.C81_range_violated"
   ],
   "note": "C81_calendar (against the calendar in Spec/Calendar.lean), C81_round_trip_partial (whole seconds), C81_stable, C81_injective, C81_offset. Violated: C81_fraction_violated, C81_refuse_violated, C81_date_only_violated, C81_trailing_violated, C81_range_violated. Times before 1970 are not modelled."
  },
  {
   "property": "C82",
   "status": "partial",
   "theorems": [
    "EG.CApi.C82_safe_partial",
    "EG.CApi.C82_owned",
    "EG.CApi.C82_no_leak",
    "EG.CApi.C82_persist",
    "EG.CApi.C82_nonce_violated",
    "EG.CApi.C82_constant_violated",
    "EG.CApi.C82_moved_violated",
    "EG.CApi.C82_robbed_violated",
    "EG.CApi.C82_device_violated"
   ],
   "note": "C82_safe_partial under the rules Careful (Spec/CApi.lean), C82_owned, C82_no_leak, C82_persist. Violated by clients that go by the headers: C82_nonce_violated, C82_constant_violated, C82_moved_violated, C82_robbed_violated, C82_device_violated. Exceptions leave only functions without a try block (59 of 344). Strings and arrays passed in, output pointers and failing malloc are not modelled."
  },
  {
   "property": "C83",
   "status": "partial",
   "theorems": [
    "EG.CApi.C83_types_partial",
    "EG.CApi.C83_typed",
    "EG.CApi.C83_confused_violated",
    "EG.CApi.C83_email_violated"
   ],
   "note": "C83_types_partial lists the eight functions; C83_typed for sequences without them; C83_confused_violated and C83_email_violated for the rest."
  },
  {
   "property": "C84",
   "status": "partial",
   "theorems": [
    "EG.CText.C84_text",
    "EG.CText.C84_text_whole",
    "EG.CText.C84_round_trip",
    "EG.CText.C84_status_name_partial",
    "EG.CText.C84_status_violated",
    "EG.CText.C84_no_false_success",
    "EG.CText.C84_status_class_partial"
   ],
   "note": "C84_text, C84_text_whole, C84_round_trip, C84_no_false_success, C84_status_name_partial, C84_status_class_partial (ten functions). Violated: C84_status_violated. malloc is taken to succeed."
  },
  {
   "property": "C85",
   "status": "partial",
   "theorems": [
    "EG.CApi.C85_declared_partial"
   ],
   "note": "C85_declared_partial: all declarations but the eleven listed. The table of signatures was extracted from the source."
  },
  {
   "property": "C86",
   "status": "partial",
   "theorems": [
    "EG.Cs.C86_callable_partial",
    "EG.Cs.C86_missing_violated",
    "EG.Cs.C86_mismatched_violated",
    "EG.Cs.C86_lists",
    "EG.Cs.C86_bool_violated",
    "EG.Cs.C86_bools"
   ],
   "note": "C86_callable_partial: all imports but the 22 in the lists missing and mismatched, which C86_lists, C86_missing_violated and C86_mismatched_violated show to be imports that cannot be called. C86_bool_violated, C86_bools: results of type bool. The table of imports was extracted from the source; IntPtr is taken to fit every pointer."
  },
  {
   "property": "C87",
   "status": "partial",
   "theorems": [
    "EG.Cs.C87_never_violated",
    "EG.Cs.C87_once_partial",
    "EG.Cs.C87_in_use",
    "EG.Cs.C87_release",
    "EG.Cs.C87_leak_violated",
    "EG.Cs.C87_dangling_violated",
    "EG.Cs.C87_borrowed_violated"
   ],
   "note": "C87_once_partial for the three kinds of ballots, C87_release. Violated: C87_never_violated and C87_leak_violated (all other kinds are never released), C87_dangling_violated, C87_borrowed_violated. Programs pass arguments as in C82 (Careful); the behaviour of SafeHandle is that of the .NET runtime, not in the repository."
  },
  {
   "property": "C88",
   "status": "partial",
   "theorems": [
    "EG.Cs.C88_constants_partial",
    "EG.Cs.C88_one_two_violated"
   ],
   "note": "C88_constants_partial: all but two; C88_one_two_violated."
  },
  {
   "property": "C89",
   "status": "partial",
   "theorems": [
    "EG.CsPre.C89_stop",
    "EG.CsPre.C89_progress",
    "EG.CsPre.C89_events",
    "EG.CsPre.C89_idle_stop",
    "EG.CsPre.C89_completed_partial",
    "EG.CsPre.C89_full_violated",
    "EG.CsPre.C89_silent_violated",
    "EG.CsPre.C89_restart_violated",
    "EG.CsPre.C89_other_violated",
    "EG.CsPre.C89_single_key_partial"
   ],
   "note": "C89_stop, C89_progress, C89_events in general. C89_completed_partial: what the event says when no one takes quadruples, stops, or makes other objects and the queue was not full; otherwise violated: C89_full_violated, C89_silent_violated. C89_single_key_partial: if all starts are for one key; otherwise violated: C89_restart_violated. C89_other_violated: a second object undoes a stop. Accesses to shared fields are atomic and in the order of the program."
  },
  {
   "property": "C90",
   "status": "partial",
   "theorems": [
    "EG.U128.C90_verified",
    "EG.U128.C90_gcc",
    "EG.U128.C90_msvc_partial",
    "EG.U128.C90_lognot_violated",
    "EG.U128.C90_little",
    "EG.U128.C90_big_partial",
    "EG.U128.C90_load64_le_violated"
   ],
   "note": "C90_verified, C90_gcc: everything for the struct and for the type of the compiler. C90_msvc_partial: all but lognot for MSVC, which is wrong for every argument but one (C90_lognot_violated). C90_little: all loads and stores on little-endian machines. C90_big_partial: all but the little-endian ones of 64 and 128 bits on big-endian machines with the generic code, which are wrong (C90_load64_le_violated). Intrinsics of MSVC as documented."
  },
  {
   "property": "C91",
   "status": "partial",
   "theorems": [
    "EG.PreRace.C91_linearizable",
    "EG.PreRace.C91_returned",
    "EG.PreRace.C91_at_most_once",
    "EG.PreRace.C91_access",
    "EG.PreRace.C91_race_unguarded",
    "EG.PreRace.C91_race_free_partial",
    "EG.PreRace.C91_populate_violated",
    "EG.PreRace.C91_stop_violated",
    "EG.PreRace.C91_status_violated",
    "EG.PreRace.C91_size",
    "EG.PreRace.C91_released"
   ],
   "note": "C91_linearizable, C91_returned, C91_at_most_once, C91_size, C91_released for all executions with sequentially consistent accesses; C91_access shows that the accesses counted for races are those of the steps. C91_race_unguarded: a race needs one of the five accesses without the lock; C91_race_free_partial: none if only init, the functions that take values and empty_queues are called. Violated: C91_populate_violated, C91_stop_violated, C91_status_violated for every state of the buffers."
  },
  {
   "property": "C92",
   "status": "partial",
   "theorems": [
    "EG.C92_selection_partial",
    "EG.C92_contest",
    "EG.C92_decrypt_partial",
    "EG.C92_stored",
    "EG.C92_selection"
   ],
   "note": "C92_selection_partial and C92_contest for every list of ballots that were read; C92_stored: every encrypted ballot without a zero is read. C92_decrypt_partial: decryption yields the count only if it is at most 1 (ElGamalCiphertext::decrypt gives up on more), and reports a failure otherwise. C92_selection covers the selections named like a generated placeholder, where the count is wrong as in C53. That a ballot with a zero is not read or not read as it was: C46, C47."
  },
  {
   "property": "C93",
   "status": "partial",
   "theorems": [
    "EG.Leak.C93_consttime",
    "EG.Leak.C93_consttime_checked",
    "EG.Leak.C93_vartime",
    "EG.Leak.C93_pow_violated",
    "EG.Leak.C93_pow_long_violated",
    "EG.Leak.C93_encrypt_value",
    "EG.Leak.C93_encrypt_violated",
    "EG.Leak.C93_decrypt_value",
    "EG.Leak.C93_decrypt",
    "EG.Leak.C93_decrypt_vote"
   ],
   "note": "C93_consttime, C93_consttime_checked: mod_exp_consttime shows nothing but the lengths, the number of bits and whether it succeeds; C93_decrypt, C93_decrypt_vote: decrypt shows nothing but the vote. Violated by pow_mod_p: without the argument useConstTime, whose default is false in the header (the definition says true in a comment), the variable-time function is called, and the fixed-base tables are accessed at the bytes of the exponent; C93_pow_violated, C93_pow_long_violated: any two exponents are told apart, C93_vartime: the accesses determine the exponent, C93_encrypt_violated: those of elgamalEncrypt determine nonce and vote. The theorems _value state that the functions with observations are the functions of C11, C67, C68 and C77. Missing: caches and timing of single instructions, the log, and the compiler."
  },
  {
   "property": "C94",
   "status": "partial",
   "theorems": [
    "EG.C94_text",
    "EG.C94_refused",
    "EG.C94_unambiguous",
    "EG.C94_read",
    "EG.C94_vote_partial",
    "EG.C94_vote_negative_violated",
    "EG.C94_vote_fraction_violated",
    "EG.C94_vote_large_violated",
    "EG.C94_nul_violated",
    "EG.C94_empty"
   ],
   "note": "C94_text: a text is parsed as a document exactly if it denotes it by the grammar (Spec/JsonText.lean); C94_refused: other texts throw; C94_unambiguous, C94_read, C94_empty. Violated for numbers: -n is read as 2^64 - n votes (C94_vote_negative_violated), n.5 as n votes (C94_vote_fraction_violated), and integers from 2^64 on are undefined behaviour (C94_vote_large_violated); C94_vote_partial: integers below 2^64 are read as they are. Violated for texts: what stands behind a NUL character is ignored (C94_nul_violated). Missing: bytes that are not valid UTF-8, the texts of floating-point numbers in write-ins of compact ballots. About the model of nlohmann/json in Model/Json.lean."
  },
  {
   "property": "C95",
   "status": "partial",
   "theorems": [
    "EG.C95_grammar",
    "EG.C95_written",
    "EG.C95_injective",
    "EG.C95_same_as_text",
    "EG.C95_prefix",
    "EG.C95_truncated",
    "EG.C95_not_unique",
    "EG.C95_last_key",
    "EG.C95_plaintext_ballot",
    "EG.C95_ballot_partial",
    "EG.C95_compact_partial",
    "EG.C95_manifest_partial"
   ],
   "note": "C95_grammar: bytes are read as a document exactly if they denote it by the grammar (Spec/Binary.lean); C95_written: what is written denotes the document and is read back; C95_same_as_text: for every class, reading the bytes is reading the text; C95_injective, C95_prefix, C95_truncated; C95_plaintext_ballot, C95_ballot_partial, C95_compact_partial, C95_manifest_partial for classes. C95_not_unique, C95_last_key: other bytes are read as the same document. Missing: documents of 4 GiB and more (written without their length), binary values and texts that are not UTF-8 (outcome foreign), floating-point numbers when writing. About the model of nlohmann/json in Model/Binary.lean."
  },
  {
   "property": "C96",
   "status": "partial",
   "theorems": [
    "EG.C96_grammar",
    "EG.C96_written",
    "EG.C96_written_iff",
    "EG.C96_same_as_text",
    "EG.C96_prefix",
    "EG.C96_truncated",
    "EG.C96_size_violated",
    "EG.C96_device_partial",
    "EG.C96_device_violated",
    "EG.C96_plaintext_ballot_partial",
    "EG.C96_context_partial",
    "EG.C96_ballot_partial",
    "EG.C96_manifest_partial"
   ],
   "note": "C96_grammar: bytes are read as a document exactly if they denote it by the grammar without the sizes; C96_written: what is written is a document with all sizes right and is read back; C96_same_as_text: for every class; C96_prefix, C96_truncated; C96_written_iff: only objects with numbers below 2^63 and no zero character in keys can be written. Violated: C96_device_violated (a device with an id from 2^63 has a text but no BSON), C96_size_violated (any size is accepted). C96_device_partial, C96_plaintext_ballot_partial, C96_context_partial say exactly which objects can be written; C96_ballot_partial, C96_manifest_partial. Missing: documents of 2 GiB and more, values as for C95. About the model of nlohmann/json in Model/Binary.lean."
  },
  {
   "property": "C97",
   "status": "partial",
   "theorems": [
    "EG.Win.C97_add_sub",
    "EG.Win.C97_mul",
    "EG.Win.C97_mod_context",
    "EG.Win.C97_mod",
    "EG.Win.C97_mod_exp_context",
    "EG.Win.C97_mod_exp_long",
    "EG.Win.C97_mod_exp_partial",
    "EG.Win.C97_inverse",
    "EG.Win.C97_mod_exp_violated",
    "EG.Win.C97_montgomery",
    "EG.Win.C97_add_mul_mod_p",
    "EG.Win.C97_pow_mod_p_long",
    "EG.Win.C97_table",
    "EG.Win.C97_pow_mod_p"
   ],
   "note": "C97_add_sub, C97_mul, C97_mod, C97_mod_context, C97_mod_exp_context, C97_mod_exp_long, C97_montgomery: each operation of Bignum4096 leaves the same 64-bit limbs and the same status on both platforms; C97_add_mul_mod_p, C97_pow_mod_p_long, C97_pow_mod_p, C97_table: so do the functions of the library, for every valid group. Violated for modExp with a modulus as argument: C97_mod_exp_violated (bBits = 20, exponent 2^32: refused elsewhere, accepted on Windows); C97_mod_exp_partial: the same if bBits ends in the upper half of a limb or the exponent has at most bBits bits. The library does not call this function. Little endian is assumed, as on every machine that runs Windows."
  },
  {
   "property": "C98",
   "status": "partial",
   "theorems": [
    "EG.Wipe.C98_exponent_violated",
    "EG.Wipe.C98_element_violated",
    "EG.Wipe.C98_exponent_partial",
    "EG.Wipe.C98_secret_key_violated",
    "EG.Wipe.C98_same",
    "EG.Wipe.C98_keys_partial",
    "EG.Wipe.C98_session_key_violated",
    "EG.Wipe.C98_message_violated",
    "EG.Wipe.C98_random_same",
    "EG.Wipe.C98_random_violated",
    "EG.Wipe.C98_rand_q_violated",
    "EG.Wipe.C98_rand_q_value_violated"
   ],
   "note": "Violated: C98_exponent_violated, C98_element_violated (the destructors pass the number of limbs to a function that takes a number of bytes, so 28 of 32 and 448 of 512 bytes stay), C98_secret_key_violated (a destroyed secret key is found with 2^32 trials, and decrypts every message), C98_session_key_violated (the session key is in memory that was given back, because get_hmac takes it by value; it opens the ciphertext), C98_message_violated. What holds: C98_exponent_partial (exactly the lowest 32 bits are wiped), C98_keys_partial (block keys, the key of the code, blocks in between and data given to HMAC are zero whenever their memory is given back, whatever the outcome). C98_random_violated (whenever the random generator returns, all that the operating system supplied, the last state of the generator and the result are in memory given back unwiped), C98_rand_q_violated (each of the blocks that held random bytes gives the random exponent). C98_same, C98_random_same: the functions compute what those of C10, C15 to C17 and C73 do. Not modelled: the stack, strings and hash states."
  },
  {
   "property": "C99",
   "status": "partial",
   "theorems": [
    "EG.C99_elements",
    "EG.C99_hex_partial",
    "EG.C99_quorum_violated",
    "EG.C99_c_elements",
    "EG.C99_c_hex",
    "EG.C99_hex_data_violated",
    "EG.C99_missing_text_violated",
    "EG.C99_get_partial",
    "EG.C99_get_complete",
    "EG.C99_round_trip",
    "EG.C99_get_violated",
    "EG.C99_zero_violated",
    "EG.C99_duplicate_violated",
    "EG.C99_index_partial"
   ],
   "note": "C99_elements, C99_c_elements: what is given is stored, by the overloads of C++ and the functions of C, for every list of entries; C99_hex_partial, C99_c_hex for texts (of elements other than zero); C99_get_partial, C99_get_complete, C99_round_trip: extended data comes out and goes in again unchanged, if memory suffices and no text has a zero in it; C99_index_partial for C#. Violated: C99_hex_data_violated (the C function that takes texts and extended data loses all of the data), C99_get_violated (success is reported although entries are lost for lack of memory), C99_missing_text_violated (undefined after a failed strdup), C99_zero_violated (texts are cut at a zero), C99_duplicate_violated (the list of C# shows the first value of a key, the context holds the last), C99_quorum_violated (no check of the quorum)."
  },
  {
   "property": "C100",
   "status": "partial",
   "theorems": [
    "EG.C100_overvotes_violated",
    "EG.C100_max_ballots_violated"
   ],
   "note": "Violated: nothing reads the configuration but serialization. C100_overvotes_violated: an overvoted ballot is encrypted with a context that does not allow overvotes. C100_max_ballots_violated: any number of ballots is encrypted with a context that allows none. What holds: the configuration is stored and read back (C99_elements, C61_context), and the marks of an overvoted contest count for nobody (C33_ballot)."
  },
  {
   "property": "C101",
   "status": "partial",
   "theorems": [
    "EG.Date.C101_c",
    "EG.Date.C101_c_violated",
    "EG.Date.C101_cs",
    "EG.Date.C101_cs_violated",
    "EG.Date.C101_text_partial",
    "EG.Date.C101_range_violated"
   ],
   "note": "C101_text_partial: the time stored is the one given, its text has the right second, and what is read from that text is returned in seconds. Violated: C101_c and C101_c_violated (dates are taken in milliseconds and returned in seconds), C101_cs and C101_cs_violated (C# takes the seconds for milliseconds: every date from 1970 on is shown as one of 1970), C101_range_violated (0001-01-01, the default of DateTime, and dates after 2262 are undefined). Time zones of C# (DateTime.Kind) are not modelled."
  },
  {
   "property": "C102",
   "status": "partial",
   "theorems": [
    "EG.Cs.C102_new_partial",
    "EG.Cs.C102_gone_violated",
    "EG.Cs.C102_twice_violated",
    "EG.Cs.C102_stolen_violated",
    "EG.Cs.C102_freed"
   ],
   "note": "C102_new_partial: with different objects, around different pointers, the new object has the values in their order; the objects are disposed before their pointers are used, which is defined only because disposing does not release them (C87). Violated: C102_gone_violated (the objects given are empty afterwards), C102_twice_violated (an object given twice: an exception, and the object is lost), C102_stolen_violated (an object got from another one is taken out of it, and reading the other one is undefined). One array; no other thread uses the handles; that memory suffices."
  },
  {
   "property": "C103",
   "status": "partial",
   "theorems": [
    "EG.C103_base_partial",
    "EG.C103_partial",
    "EG.C103_iff_partial",
    "EG.C103_violated",
    "EG.C103_lost_violated",
    "EG.C103_base_move",
    "EG.C103_move",
    "EG.C103_move_violated"
   ],
   "note": "C103_base_partial: assigning plain contests is exact for the contests that are copied faithfully (C45); C103_partial, C103_iff_partial: the placeholders are those of the source, and the objects are equal afterwards iff the descriptions were before. Violated: C103_violated (for all contests with different ids the target keeps its description), C103_lost_violated (its own placeholders are not found any more), C103_move_violated (a move copies the description, so it loses the primary parties, and leaves the source with a description and no placeholders)."
  },
  {
   "property": "C104",
   "status": "partial",
   "theorems": [
    "EG.Log.C104_refused",
    "EG.Log.C104_other",
    "EG.Log.C104_refused_contest",
    "EG.Log.C104_warning",
    "EG.Log.C104_info_partial",
    "EG.Log.C104_overvote_violated",
    "EG.Log.C104_trace_partial",
    "EG.Log.C104_values",
    "EG.Log.C104_precomputed_violated",
    "EG.Log.C104_readable_violated"
   ],
   "note": "C104_values: the values are public, at all levels. C104_info_partial: at the default level, without overvoted contests, the console does not depend on the votes or the precomputed values. C104_trace_partial: the same for the lines (level, text, calling function) at all levels if no precomputed values are used. Violated: C104_precomputed_violated, C104_readable_violated (at trace level with precomputed values all votes can be read, from the name of the calling function), C104_overvote_violated (already at the default level the console tells whether a contest is overvoted). C104_warning says when the warning about the number of selections is given, C104_refused, C104_other and C104_refused_contest what a refused vote logs. Lines of other failed encryptions and the times in front of the lines are not modelled."
  },
  {
   "property": "C105",
   "status": "proved",
   "theorems": [
    "EG.Limbs.C105_add",
    "EG.Limbs.C105_sub",
    "EG.Limbs.C105_addMod",
    "EG.Limbs.C105_subMod",
    "EG.Limbs.C105_doublings",
    "EG.Limbs.C105_mul",
    "EG.Limbs.C105_reduction",
    "EG.Limbs.C105_overlap_needed",
    "EG.Limbs.C105_mul_apart_needed"
   ],
   "note": "C105_overlap_needed and C105_mul_apart_needed show that the conditions on the addresses cannot be dropped; they are not faults of the library. Karatsuba multiplication and exponentiation in memory: C106. The 32-bit variants are not modelled in memory."
  },
  {
   "property": "C106",
   "status": "proved",
   "theorems": [
    "EG.Limbs.C106_mul",
    "EG.Limbs.C106_sqr",
    "EG.Limbs.C106_mont_mul",
    "EG.Limbs.C106_exp",
    "EG.Limbs.C106_exp_in_place",
    "EG.Limbs.C106_modulus_needed"
   ],
   "note": "C106_modulus_needed shows that the result cannot overwrite the modulus; no call of the library does so. The constants of the modulus are taken to be in memory already; C107 shows how they get there. The 32-bit variants are not modelled in memory."
  },
  {
   "property": "C107",
   "status": "proved",
   "theorems": [
    "EG.Limbs.C107_unrolled",
    "EG.Limbs.C107_bignum256",
    "EG.Limbs.C107_mont_mul",
    "EG.Limbs.C107_mont_sqr",
    "EG.Limbs.C107_mod",
    "EG.Limbs.C107_mod_exp",
    "EG.Limbs.C107_context"
   ],
   "note": "The inverse modulo a prime (mod_inv_prime_vartime) is an exponentiation with another exponent and is not modelled in memory, nor are the 32-bit variants. Exhaustion of the stack is not modelled."
  },
  {
   "property": "C108",
   "status": "partial",
   "theorems": [
    "EG.Copies.C108_elements_partial",
    "EG.Copies.C108_hex_stale",
    "EG.Copies.C108_hex_violated",
    "EG.Copies.C108_keypair_partial",
    "EG.Copies.C108_keypair_violated",
    "EG.Copies.C108_keypair_self",
    "EG.Copies.C108_manifest_parts",
    "EG.Copies.C108_internal_manifest",
    "EG.Copies.C108_party_partial",
    "EG.Copies.C108_party_violated",
    "EG.Copies.C108_plaintext"
   ],
   "note": "Holds for elements unless they are written to through the pointer, for parties with a name and for all other parts; violated for key pairs, for parties without a name and after such writes. Copies of proofs, encrypted ballots and contest descriptions are in C24, C60 and C103."
  },
  {
   "property": "C109",
   "status": "partial",
   "theorems": [
    "EG.CMan.C109_made_partial",
    "EG.CMan.C109_read",
    "EG.CMan.C109_view_partial",
    "EG.CMan.C109_plain",
    "EG.CMan.C109_made_violated",
    "EG.CMan.C109_view_violated",
    "EG.CMan.C109_codes",
    "EG.CMan.C109_texts"
   ],
   "note": "Exactly which manifests can be made and which can be told apart is proved; the full statement is violated in both parts. Dates are C101; handles given twice are C82; the functions that take the handle for another class are C83."
  },
  {
   "property": "C110",
   "status": "proved",
   "theorems": [
    "EG.Secrecy.C110_secrecy",
    "EG.Secrecy.C110_reuse",
    "EG.Secrecy.C110_unlimited"
   ],
   "note": "For the ciphertexts alone and independent uniform nonces; the nonces of a ballot are derived by hashing from one seed, and the proofs published beside are C76."
  },
  {
   "property": "C111",
   "status": "proved",
   "theorems": [
    "EG.NonceUse.C111_pads",
    "EG.NonceUse.C111_places",
    "EG.NonceUse.C111_distinct",
    "EG.NonceUse.C111_reuse",
    "EG.NonceUse.C111_example"
   ],
   "note": "For encryptions that find the precompute buffers empty; values from the buffers are handed out once (C28). The text null is excluded as ballot id, since it hashes like an empty id (C26). The random numbers of the proofs are drawn, not derived."
  },
  {
   "property": "C112",
   "status": "proved",
   "theorems": [
    "EG.C112_disjunctive",
    "EG.C112_constant",
    "EG.C112_ballot",
    "EG.C112_luck",
    "EG.C112_constant_late"
   ],
   "note": "The public key is fixed before the program runs: since it is not hashed, C75 forges proofs for keys chosen afterwards. SHA-256 is replaced by a random function; nothing is said about SHA-256 itself. The number of calls is bounded, the time of the program is not."
  },
  {
   "property": "C113",
   "status": "proved",
   "theorems": [
    "EG.C113_tally"
   ],
   "note": "As for C112: the key is fixed before, SHA-256 is replaced by a random function. The number in the proof of a contest is not compared with the manifest (C74), so it may exceed the limit of votes."
  },
  {
   "property": "C114",
   "status": "partial",
   "theorems": [
    "EG.C114_violated",
    "EG.C114_moved_violated",
    "EG.C114_copy_told",
    "EG.C114_public",
    "EG.C114_partial"
   ],
   "note": "Violated: the challenges hash the extended base hash, the ciphertext and the commitments only. From any valid ballot a valid one with any other id, and with the ciphertexts of each contest in any order, is made from what is published; the hashes are recomputed, no nonce or key is needed. What is bound is the ciphertext and the base hash."
  },
  {
   "property": "C115",
   "status": "proved",
   "theorems": [
    "EG.Secrecy.C115_simulated",
    "EG.Secrecy.C115_secrecy",
    "EG.Secrecy.C115_coincidences"
   ],
   "note": "For independent uniform nonces and random numbers of the proofs (make without seed; a precomputed triple for the contest). The adversary gets nothing where two ciphertexts coincide, which is the part k(k-1)/(2(q-1)) of the nonces of k selections at most (C115_coincidences). Nonces derived from one seed, and the hashes of a ballot, are not part of the game."
  },
  {
   "property": "C116",
   "status": "proved",
   "theorems": [
    "EG.NonceUse.C116_takes",
    "EG.NonceUse.C116_distinct",
    "EG.NonceUse.C116_example"
   ],
   "note": "Extends C111 to buffers that are not empty. That the values put into the buffers are all different is a hypothesis: they come from random numbers."
  },
  {
   "property": "C117",
   "status": "proved",
   "theorems": [
    "EG.Derived.C117_random",
    "EG.Derived.C117_standard",
    "EG.Derived.C117_encrypts"
   ],
   "note": "SHA-256 on the strings concerned is a random function, as for C112. With precomputed values the nonces are random numbers of their own."
  },
  {
   "property": "C118",
   "status": "proved",
   "theorems": [
    "EG.Derived.C118_secrecy",
    "EG.Derived.C118_standard",
    "EG.Derived.C118_encrypts"
   ],
   "note": "The proofs are not shown to the adversary here; C119 shows them. SHA-256 on the strings concerned is a random function, as for C112 and C117."
  },
  {
   "property": "C119",
   "status": "proved",
   "theorems": [
    "EG.Published.C119_secrecy",
    "EG.Published.C119_standard",
    "EG.Published.C119_encrypts"
   ],
   "note": "The random numbers of the proofs of selections are uniform below q here; C10 says what rand_q gives. SHA-256 on the strings concerned is a random function, as for C112 and C117. C32 says what the votes of a contest, placeholders included, add up to."
  },
  {
   "property": "C120",
   "status": "partial",
   "theorems": [
    "EG.LogRace.C120_later_partial",
    "EG.LogRace.C120_after_partial",
    "EG.LogRace.C120_single_partial",
    "EG.LogRace.C120_thrown_violated",
    "EG.LogRace.C120_failing_violated",
    "EG.LogRace.C120_escapes_violated",
    "EG.LogRace.C120_race_violated",
    "EG.LogRace.C120_once",
    "EG.LogRace.C120_console_violated"
   ],
   "note": "Violated for the first message: C120_thrown_violated, C120_escapes_violated, C120_race_violated, and C120_console_violated. C120_after_partial, C120_later_partial and C120_single_partial are the positive parts, C120_once holds without restriction."
  },
  {
   "property": "C121",
   "status": "proved",
   "theorems": [
    "EG.Published.Stock.C121_secrecy",
    "EG.Published.Stock.C121_standard",
    "EG.Published.Stock.C121_encrypts",
    "EG.Published.Stock.C121_populate"
   ],
   "note": "As for C119; the random numbers of the buffers are uniform below q here, and C10 says what rand_q gives. Nonces of extended data that come from the buffers are independent of all else, so that the adversary may be taken to know them. The entries are those for the key of the election; C30 says what happens after a change of the key."
  },
  {
   "property": "C122",
   "status": "proved",
   "theorems": [
    "EG.WriteIns.C122_secrecy",
    "EG.WriteIns.C122_records",
    "EG.WriteIns.C122_contest",
    "EG.WriteIns.C122_reuse",
    "EG.WriteIns.C122_zero_nonce",
    "EG.WriteIns.C122_unlimited",
    "EG.WriteIns.C122_oracle",
    "EG.WriteIns.C122_standard"
   ],
   "note": "A reduction to the decisional Diffie-Hellman problem and to HMAC-SHA-256 as a pseudorandom function on the inputs that are used; running times are not modelled, the distinguishers are explicit and call the adversary once. The nonces are uniform and independent here; C117 says that computed nonces are as good. Chosen ciphertexts are not considered."
  },
  {
   "property": "C123",
   "status": "proved",
   "theorems": [
    "EG.Records.C123_secrecy",
    "EG.Records.C123_standard",
    "EG.Records.C123_encrypts"
   ],
   "note": "The nonces of all votes may be known, so the votes may; that they are secret is C118 and C119. SHA-256 on the strings concerned is a random function, as for C112 and C117; HMAC is a pseudorandom function, as for C122. Chosen ciphertexts are not considered."
  },
  {
   "property": "C124",
   "status": "proved",
   "theorems": [
    "EG.Whole.C124_secrecy",
    "EG.Whole.C124_standard"
   ],
   "note": "That the ballots made by encryptBallot are those of the theorem is C119_encrypts for votes and proofs and C123_encrypts for records. SHA-256 on the strings concerned is a random function, and HMAC a pseudorandom one, as for C119 and C123. Hashes and codes of ballots are computed from what is shown."
  },
  {
   "property": "C125",
   "status": "proved",
   "theorems": [
    "EG.PreObjects.C125_whole",
    "EG.PreObjects.C125_defined",
    "EG.PreObjects.C125_moved",
    "EG.PreObjects.C125_self",
    "EG.PreObjects.C125_copy",
    "EG.PreObjects.C125_effect",
    "EG.PreObjects.C125_new",
    "EG.PreObjects.C125_once",
    "EG.PreObjects.C125_pointers"
   ],
   "note": "Programs that make a triple from pointers are outside: such a triple can have some parts only (C125_pointers). Allocation never fails."
  },
  {
   "property": "C126",
   "status": "partial",
   "theorems": [
    "EG.Bignum.C126_bytes_partial",
    "EG.Bignum.C126_big_endian",
    "EG.Bignum.C126_array",
    "EG.Bignum.C126_array_value",
    "EG.Bignum.C126_array_violated",
    "EG.Bignum.C126_round",
    "EG.Bignum.C126_back",
    "EG.Bignum.C126_hex",
    "EG.Bignum.C126_reverse",
    "EG.Bignum.C126_hex64",
    "EG.Bignum.C126_size",
    "EG.Bignum.C126_into",
    "EG.Bignum.C126_into_violated"
   ],
   "note": "Violated on big-endian machines, where the bytes of each entry are reversed (C126_big_endian); for bytes whose number is not a multiple of eight, exactly unless all but the last ones are zero (C126_array_value, C126_array_violated); and for a text that gives more bytes than the array given has, which is undefined behaviour (C126_into_violated). The text of zero is not read back (C08). Proved otherwise."
  },
  {
   "property": "C127",
   "status": "partial",
   "theorems": [
    "EG.CGroup.C127_array_q",
    "EG.CGroup.C127_array_p",
    "EG.CGroup.C127_text_partial",
    "EG.CGroup.C127_text_zero",
    "EG.CGroup.C127_decrypt",
    "EG.CGroup.C127_refused",
    "EG.CGroup.C127_defined_partial",
    "EG.CGroup.C127_disposed",
    "EG.CGroup.C127_null_text",
    "EG.CGroup.C127_null_pointer",
    "EG.CGroup.C127_exceptions",
    "EG.CGroup.C127_status_violated"
   ],
   "note": "Violated: the text of zero is not read back and reported as lack of memory, as is every text out of range (C127_text_zero, C127_status_violated); the exceptions of element constructors tell the status success (C127_status_violated); a null text makes the constructor undefined (C127_null_text); most C functions follow a null pointer (C127_null_pointer). Reading the data of a disposed element gives null instead of an exception (C127_disposed). Proved otherwise."
  },
  {
   "property": "C128",
   "status": "proved",
   "theorems": [
    "EG.Whole.Stock.C128_secrecy",
    "EG.Whole.Stock.C128_standard",
    "EG.Whole.Stock.C128_encrypts"
   ],
   "note": "That the ballots made by encryptBallot are those of the theorem is C121_encrypts for votes and proofs and C128_encrypts for records; C121_populate for the entries. Assumptions as for C121 and C124."
  },
  {
   "property": "C129",
   "status": "partial",
   "theorems": [
    "EG.CHash.C129_outcome",
    "EG.CHash.C129_text",
    "EG.CHash.C129_array",
    "EG.CHash.C129_one",
    "EG.CHash.C129_not_the_list",
    "EG.CHash.C129_binding_partial",
    "EG.CHash.C129_ambiguous"
   ],
   "note": "Violated: that different arguments have different hashes (C129_ambiguous: 0, the empty text, the text null and an array of length zero; an integer and its decimal text; a delimiter inside a text). C129_binding_partial is what holds."
  },
  {
   "property": "C130",
   "status": "partial",
   "theorems": [
    "EG.CEncrypt.C130_mediator",
    "EG.CEncrypt.C130_mediator_status_violated",
    "EG.CEncrypt.C130_ballot",
    "EG.CEncrypt.C130_cs_ballot",
    "EG.CEncrypt.C130_verified",
    "EG.CEncrypt.C130_null",
    "EG.CEncrypt.C130_unknown_style",
    "EG.CEncrypt.C130_compact_style_violated",
    "EG.CEncrypt.C130_chain"
   ],
   "note": "Violated: eg_encryption_mediator_new reports lack of memory when the hashes differ (C130_mediator_status_violated); a compact ballot of an unknown style is undefined behaviour in C and C# (C130_compact_style_violated). The C functions follow null handles (C130_null)."
  },
  {
   "property": "C131",
   "status": "partial",
   "theorems": [
    "EG.CProof.C131_make",
    "EG.CProof.C131_plaintext_violated",
    "EG.CProof.C131_properties",
    "EG.CProof.C131_missing",
    "EG.CProof.C131_cs_missing",
    "EG.CProof.C131_constant_properties",
    "EG.CProof.C131_constant_violated",
    "EG.CProof.C131_constant",
    "EG.CProof.C131_documentation_violated"
   ],
   "note": "Violated: the documentation of the constant proof in C++ and C# exchanges the seed and the header of the challenge; who follows it gives the nonce away (C131_documentation_violated). The constant of a constant proof cannot be read in C or C# (C131_constant_violated). A plaintext above one is reported as lack of memory (C131_plaintext_violated). The functions of C that give out parts of a proof follow null handles (C131_missing)."
  },
  {
   "property": "C132",
   "status": "proved",
   "theorems": [
    "EG.CCode.C132_audit",
    "EG.CCode.C132_complete",
    "EG.CCode.C132_binding",
    "EG.CCode.C132_broken",
    "EG.CCode.C132_null"
   ],
   "note": "A compact ballot does not carry its hash: the record is that of the ballot it stands for. Binding is up to collisions of the hash function, and for locations other than the text null (C37_location_null)."
  },
  {
   "property": "C133",
   "status": "partial",
   "theorems": [
    "EG.CContext.C133_new",
    "EG.CContext.C133_read",
    "EG.CContext.C133_transfer_partial",
    "EG.CContext.C133_data",
    "EG.CContext.C133_mediator",
    "EG.CContext.C133_hashes_violated",
    "EG.CContext.C133_zero_violated",
    "EG.CContext.C133_null"
   ],
   "note": "Missing: elements that are zero (C133_zero_violated). Violated: the hashes in a text are not checked (C133_hashes_violated); a null text is undefined behaviour and any other fault is reported as lack of memory (C133_read). The constructors that take extended data as a linked list are in C99."
  },
  {
   "property": "C134",
   "status": "partial",
   "theorems": [
    "EG.CJson.C134_device",
    "EG.CJson.C134_plaintext",
    "EG.CJson.C134_encrypt",
    "EG.CJson.C134_ciphertext_partial",
    "EG.CJson.C134_valid_iff_partial",
    "EG.CJson.C134_nonces",
    "EG.CJson.C134_missing_nonce_violated",
    "EG.CJson.C134_faults"
   ],
   "note": "Missing: encrypted ballots with elements that are zero or bytes that begin with zero (see C47), and the verdict on ballots whose result names repeat (see C36). Violated: ToJson with nonces of a ballot whose nonce is missing is undefined behaviour (C134_missing_nonce_violated); a null text is undefined behaviour and any other fault is reported as lack of memory (C134_faults)."
  },
  {
   "property": "C135",
   "status": "partial",
   "theorems": [
    "EG.CSubmit.C135_submit_partial",
    "EG.CSubmit.C135_transfer_partial",
    "EG.CSubmit.C135_states",
    "EG.CSubmit.C135_nonces",
    "EG.CSubmit.C135_timestamp_violated",
    "EG.CSubmit.C135_faults"
   ],
   "note": "Missing: encrypted ballots with elements that are zero or bytes that begin with zero (see C47); states that are none of the three enumerators. Violated: Timestamp is right only for zero (C135_timestamp_violated, for platforms that ignore a second argument and take the low 32 bits of the result as status); submitting an incomplete ballot is undefined behaviour (C135_submit_partial); null texts (C135_faults)."
  },
  {
   "property": "C136",
   "status": "partial",
   "theorems": [
    "EG.CWalk.C136_contests",
    "EG.CWalk.C136_selections",
    "EG.CWalk.C136_parts_partial",
    "EG.CWalk.C136_nonces",
    "EG.CWalk.C136_null"
   ],
   "note": "Missing: the equivalence for ballots whose result names repeat, where it fails (C36_violated). Violated: an index out of range is reported as lack of memory (C136_contests, C136_selections); AggregateNonce with a missing nonce is undefined behaviour (C136_nonces). The parts are modelled as values; that C# holds references into the ballot is in C87."
  },
  {
   "property": "C137",
   "status": "partial",
   "theorems": [
    "EG.CBytes.C137_msgpack_partial",
    "EG.CBytes.C137_bson_partial",
    "EG.CBytes.C137_nonces_violated",
    "EG.CBytes.C137_hidden",
    "EG.CBytes.C137_faults"
   ],
   "note": "Missing: ballots with an element that is zero or bytes that begin with zero (as in C47), and bytes of which Model/Binary does not tell what the library reads. Violated: ToMsgPack(withNonces: true) calls the function without nonces (C137_nonces_violated); every fault of the bytes is reported as lack of memory (C137_faults)."
  }
 ]
}