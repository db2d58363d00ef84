{
 "claims": [
  {
   "property": "C01",
   "status": "proved",
   "theorems": [
    "Pixel.Props.C01_init_outcome",
    "Pixel.Props.C01_profiles_agree"
   ],
   "note": ""
  },
  {
   "property": "C02",
   "status": "proved",
   "theorems": [
    "Pixel.Props.C02_preorder",
    "Pixel.Props.C02_every_node_once",
    "Pixel.Props.C02_roundtrip",
    "Pixel.Props.C02_count"
   ],
   "note": ""
  },
  {
   "property": "C03",
   "status": "proved",
   "theorems": [
    "Pixel.Props.C03_isPrefix_ancestor",
    "Pixel.Props.C03_isPrefix_interval"
   ],
   "note": ""
  },
  {
   "property": "C04",
   "status": "proved",
   "theorems": [
    "Pixel.Props.C04_gamma_wf"
   ],
   "note": ""
  },
  {
   "property": "C05",
   "status": "proved",
   "theorems": [
    "Pixel.Props.C05_gamma_covers_future",
    "Pixel.Props.C05_gamma_unique"
   ],
   "note": ""
  },
  {
   "property": "C06",
   "status": "proved",
   "theorems": [
    "Pixel.Props.C06_debug_panics",
    "Pixel.Props.C06_release_depth64",
    "Pixel.Props.C06_release_depth65_wrong",
    "Pixel.Props.C06_documented_range_false"
   ],
   "note": "the documented range is refuted at depth 64 and above; a defect of the code, stated as proved"
  },
  {
   "property": "C07",
   "status": "proved",
   "theorems": [
    "Pixel.Props.C07_delegate_iff_descendant",
    "Pixel.Props.C07_delegate_result",
    "Pixel.Props.C07_delegate_error_atomic"
   ],
   "note": ""
  },
  {
   "property": "C08",
   "status": "proved",
   "theorems": [
    "Pixel.Props.C08_delegate_trans"
   ],
   "note": ""
  },
  {
   "property": "C09",
   "status": "proved",
   "theorems": [
    "Pixel.Props.C09_init_is_randomization",
    "Pixel.Props.C09_randomization_add",
    "Pixel.Props.C09_randomization_delegate_comm"
   ],
   "note": ""
  },
  {
   "property": "C10",
   "status": "proved",
   "theorems": [
    "Pixel.Props.C10_derived_validates",
    "Pixel.Props.C10_validate_exact"
   ],
   "note": ""
  },
  {
   "property": "C11",
   "status": "proved",
   "theorems": [
    "Pixel.Props.C11_failed_randomization_writes",
    "Pixel.Props.C11_not_atomic",
    "Pixel.Props.C11_randomization_frame"
   ],
   "note": ""
  },
  {
   "property": "C12",
   "status": "proved",
   "theorems": [
    "Pixel.Props.C12_keygen_outcome"
   ],
   "note": ""
  },
  {
   "property": "C13",
   "status": "proved",
   "theorems": [
    "Pixel.Props.C13_pop_exact",
    "Pixel.Props.C13_pop_unique",
    "Pixel.Props.C13_pop_rejected"
   ],
   "note": ""
  },
  {
   "property": "C14",
   "status": "proved",
   "theorems": [
    "Pixel.Props.C14_master_exponent",
    "Pixel.Props.C14_salt_separates",
    "Pixel.Props.C14_suite_zero_is_bare_label",
    "Pixel.Props.C14_draws_separated"
   ],
   "note": ""
  },
  {
   "property": "C15",
   "status": "proved",
   "theorems": [
    "Pixel.Props.C15_update_outcome",
    "Pixel.Props.C15_suite_mismatch",
    "Pixel.Props.C15_no_past"
   ],
   "note": ""
  },
  {
   "property": "C16",
   "status": "proved",
   "theorems": [
    "Pixel.Props.C16_failed_update_atomic"
   ],
   "note": ""
  },
  {
   "property": "C17",
   "status": "proved",
   "theorems": [
    "Pixel.Props.C17_time_monotone",
    "Pixel.Props.C17_time_changes_only_by_update",
    "Pixel.Props.C17_malformed_key_goes_back"
   ],
   "note": ""
  },
  {
   "property": "C18",
   "status": "proved",
   "theorems": [
    "Pixel.Props.C18_reachable_keys"
   ],
   "note": ""
  },
  {
   "property": "C19",
   "status": "proved",
   "theorems": [
    "Pixel.Props.C19_route_independent",
    "Pixel.Props.C19_same_abilities",
    "Pixel.Props.C19_same_future"
   ],
   "note": ""
  },
  {
   "property": "C20",
   "status": "proved",
   "theorems": [
    "Pixel.Props.C20_obtainable_iff",
    "Pixel.Props.C20_obtainable_genuine",
    "Pixel.Props.C20_after_history",
    "Pixel.Props.C20_after_update"
   ],
   "note": ""
  },
  {
   "property": "C21",
   "status": "proved",
   "theorems": [
    "Pixel.Props.C21_linear_forgery_bound",
    "Pixel.Props.C21_forward_security_bound",
    "Pixel.Props.C21_linear_forgery_iff",
    "Pixel.Props.C21_forward_security_iff",
    "Pixel.Props.C21_keys_are_views"
   ],
   "note": ""
  },
  {
   "property": "C22",
   "status": "proved",
   "theorems": [
    "Pixel.Props.C22_what_update_writes",
    "Pixel.Props.C22_many_draws"
   ],
   "note": ""
  },
  {
   "property": "C23",
   "status": "proved",
   "theorems": [
    "Pixel.Props.C23_history_signatures_verify",
    "Pixel.Props.C23_sign_succeeds"
   ],
   "note": ""
  },
  {
   "property": "C24",
   "status": "proved",
   "theorems": [
    "Pixel.Props.C24_accept_iff",
    "Pixel.Props.C24_accept_sigFor",
    "Pixel.Props.C24_total"
   ],
   "note": ""
  },
  {
   "property": "C25",
   "status": "proved",
   "theorems": [
    "Pixel.Props.C25_wrong_time_refused",
    "Pixel.Props.C25_present_keeps_key"
   ],
   "note": ""
  },
  {
   "property": "C26",
   "status": "proved",
   "theorems": [
    "Pixel.Props.C26_signs_and_moves_on",
    "Pixel.Props.C26_no_second_signature",
    "Pixel.Props.C26_last_time_stamp"
   ],
   "note": ""
  },
  {
   "property": "C27",
   "status": "proved",
   "theorems": [
    "Pixel.Props.C27_repeatable",
    "Pixel.Props.C27_randomness",
    "Pixel.Props.C27_string_injective",
    "Pixel.Props.C27_string_truncates"
   ],
   "note": ""
  },
  {
   "property": "C28",
   "status": "proved",
   "theorems": [
    "Pixel.Props.C28_rejections",
    "Pixel.Props.C28_key_suite_ignored",
    "Pixel.Props.C28_aggregated_checks_suite"
   ],
   "note": ""
  },
  {
   "property": "C29",
   "status": "proved",
   "theorems": [
    "Pixel.Props.C29_sigma2_determined"
   ],
   "note": ""
  },
  {
   "property": "C30",
   "status": "proved",
   "theorems": [
    "Pixel.Props.C30_rerandomisable"
   ],
   "note": ""
  },
  {
   "property": "C31",
   "status": "proved",
   "theorems": [
    "Pixel.Props.C31_aggregate_verifies",
    "Pixel.Props.C31_bad_signatures_cancel",
    "Pixel.Props.C31_defects",
    "Pixel.Props.C31_one_bad_spoils"
   ],
   "note": ""
  },
  {
   "property": "C32",
   "status": "proved",
   "theorems": [
    "Pixel.Props.C32_success_iff",
    "Pixel.Props.C32_first_offender",
    "Pixel.Props.C32_no_panic"
   ],
   "note": ""
  },
  {
   "property": "C33",
   "status": "proved",
   "theorems": [
    "Pixel.Props.C33_order",
    "Pixel.Props.C33_grouping",
    "Pixel.Props.C33_key_order"
   ],
   "note": ""
  },
  {
   "property": "C34",
   "status": "proved",
   "theorems": [
    "Pixel.Props.C34_aggregate_empty",
    "Pixel.Props.C34_verify_empty"
   ],
   "note": ""
  },
  {
   "property": "C35",
   "status": "proved",
   "theorems": [
    "Pixel.Props.C35_only_the_sum",
    "Pixel.Props.C35_rogue_key",
    "Pixel.Props.C35_pop_stops_rogue"
   ],
   "note": ""
  },
  {
   "property": "C36",
   "status": "proved",
   "theorems": [
    "Pixel.Props.C36_public_key",
    "Pixel.Props.C36_pop",
    "Pixel.Props.C36_signature",
    "Pixel.Props.C36_secret_key",
    "Pixel.Props.C36_honest_key",
    "Pixel.Props.C36_keygen",
    "Pixel.Props.C36_accepted_signature"
   ],
   "note": ""
  },
  {
   "property": "C37",
   "status": "proved",
   "theorems": [
    "Pixel.Props.C37_fixed_sizes",
    "Pixel.Props.C37_secret_key_size",
    "Pixel.Props.C37_estimate_exact"
   ],
   "note": ""
  },
  {
   "property": "C38",
   "status": "proved",
   "theorems": [
    "Pixel.Props.C38_canonical",
    "Pixel.Props.C38_unique"
   ],
   "note": ""
  },
  {
   "property": "C39",
   "status": "proved",
   "theorems": [
    "Pixel.Props.C39_total",
    "Pixel.Props.C39_only_well_formed",
    "Pixel.Props.C39_suite_checked",
    "Pixel.Props.C39_truncated",
    "Pixel.Props.C39_refused"
   ],
   "note": ""
  },
  {
   "property": "C40",
   "status": "proved",
   "theorems": [
    "Pixel.Props.C40_time_wraps",
    "Pixel.Props.C40_counts_wrap",
    "Pixel.Props.C40_count_zero",
    "Pixel.Props.C40_large_times",
    "Pixel.Props.C40_deep_trees",
    "Pixel.Props.C40_reachable_fits"
   ],
   "note": ""
  },
  {
   "property": "C41",
   "status": "proved",
   "theorems": [
    "Pixel.Props.C41_digest",
    "Pixel.Props.C41_digest_fails",
    "Pixel.Props.C41_digest_binds"
   ],
   "note": ""
  },
  {
   "property": "C42",
   "status": "proved",
   "theorems": [
    "Pixel.Props.C42_os2ip",
    "Pixel.Props.C42_os2ip_long"
   ],
   "note": ""
  },
  {
   "property": "C43",
   "status": "proved",
   "theorems": [
    "Pixel.Props.C43_sample_agrees",
    "Pixel.Props.C43_total"
   ],
   "note": ""
  },
  {
   "property": "C44",
   "status": "proved",
   "theorems": [
    "Pixel.Props.C44_prefix_free",
    "Pixel.Props.C44_sign_separated",
    "Pixel.Props.C44_labels_separated",
    "Pixel.Props.C44_message_hash_input"
   ],
   "note": ""
  },
  {
   "property": "C45",
   "status": "proved",
   "theorems": [
    "Pixel.Props.C45_draws_counted",
    "Pixel.Props.C45_prng_after_update",
    "Pixel.Props.C45_seed_enters"
   ],
   "note": ""
  },
  {
   "property": "C46",
   "status": "proved",
   "theorems": [
    "Pixel.Props.C46_keygen",
    "Pixel.Props.C46_end_to_end",
    "Pixel.Props.C46_updates_succeed",
    "Pixel.Props.C46_aggregate",
    "Pixel.Props.C46_verify_pop_exact",
    "Pixel.Props.C46_verify_exact",
    "Pixel.Props.C46_verify_agg_exact",
    "Pixel.Props.C46_other_pop_refused"
   ],
   "note": ""
  },
  {
   "property": "C47",
   "status": "proved",
   "theorems": [
    "Pixel.Props.C47_verify_aborts",
    "Pixel.Props.C47_verify_returns_iff",
    "Pixel.Props.C47_update_aborts",
    "Pixel.Props.C47_old_blob_still_signs",
    "Pixel.Props.C47_empty_lists"
   ],
   "note": ""
  },
  {
   "property": "C48",
   "status": "proved",
   "theorems": [
    "Pixel.Props.C48_exact",
    "Pixel.Props.C48_empty_key",
    "Pixel.Props.C48_truncation",
    "Pixel.Props.C48_ignores_hvector_and_prng",
    "Pixel.Props.C48_validated_key_signs_wrongly"
   ],
   "note": ""
  },
  {
   "property": "C49",
   "status": "proved",
   "theorems": [
    "Pixel.Props.C49_signature_eq",
    "Pixel.Props.C49_equal_but_different_verdict",
    "Pixel.Props.C49_public_key_eq",
    "Pixel.Props.C49_secret_key_eq"
   ],
   "note": ""
  },
  {
   "property": "C50",
   "status": "proved",
   "theorems": [
    "Pixel.Props.C50_sign_advances_and_fails",
    "Pixel.Props.C50_sign_atomic"
   ],
   "note": ""
  },
  {
   "property": "C51",
   "status": "proved",
   "theorems": [
    "Pixel.Props.C51_relabelled_iff",
    "Pixel.Props.C51_relation",
    "Pixel.Props.C51_random_parameters"
   ],
   "note": ""
  },
  {
   "property": "C52",
   "status": "partial",
   "theorems": [
    "Pixel.Props.C52_same_prng",
    "Pixel.Props.C52_same_keys",
    "Pixel.Props.C52_same_serdes",
    "Pixel.Props.C52_clean_partial",
    "Pixel.Props.C52_draw_partial",
    "Pixel.Props.C52_update_partial",
    "Pixel.Props.C52_sign_partial",
    "Pixel.Props.C52_init_leaves_seed",
    "Pixel.Props.C52_keygen_leaves_everything",
    "Pixel.Props.C52_update_leaves_its_draws",
    "Pixel.Props.C52_serialize_leaves_key",
    "Pixel.Props.C52_deserialize_leaves_seed",
    "Pixel.Props.C52_failures_leave_secrets"
   ],
   "note": "the full statement is false of the code; the _partial theorems say which functions are clean and bound what update and sign leave, the others exhibit what is left. Residue of Vec reallocation, registers and compiler copies is not modelled."
  },
  {
   "property": "C53",
   "status": "proved",
   "theorems": [
    "Pixel.Props.C53_keygen_agrees",
    "Pixel.Props.C53_update_agrees",
    "Pixel.Props.C53_sign_agrees",
    "Pixel.Props.C53_history_bytes_agree"
   ],
   "note": ""
  },
  {
   "property": "C54",
   "status": "proved",
   "theorems": [
    "Pixel.Props.C54_python_short_seeds",
    "Pixel.Props.C54_python_time_limit",
    "Pixel.Props.C54_python_update_into_past"
   ],
   "note": ""
  },
  {
   "property": "C55",
   "status": "proved",
   "theorems": [
    "Pixel.Props.C55_adaptive_forgery_bound",
    "Pixel.Props.C55_past_is_fresh",
    "Pixel.Props.C55_answers_are_real",
    "Pixel.Props.C55_honest_aggregate_accepted",
    "Pixel.Props.C55_rogue_without_pop"
   ],
   "note": ""
  },
  {
   "property": "C56",
   "status": "proved",
   "theorems": [
    "Pixel.Props.C56_keygen_memory_signs_always",
    "Pixel.Props.C56_update_undone",
    "Pixel.Props.C56_forward_security_lost",
    "Pixel.Props.C56_two_signatures_give_all"
   ],
   "note": ""
  },
  {
   "property": "C57",
   "status": "proved",
   "theorems": [
    "Pixel.Props.C57_undefined_exactly",
    "Pixel.Props.C57_null_undefined",
    "Pixel.Props.C57_only_adds",
    "Pixel.Props.C57_keys_stay",
    "Pixel.Props.C57_same_as_bytes",
    "Pixel.Props.C57_forward_security_left_to_caller",
    "Pixel.Props.C57_wiping_caller",
    "Pixel.Props.C57_wrong_length"
   ],
   "note": ""
  },
  {
   "property": "C58",
   "status": "proved",
   "theorems": [
    "Pixel.Props.C58_counts",
    "Pixel.Props.C58_nearly_uniform",
    "Pixel.Props.C58_guess",
    "Pixel.Props.C58_draw",
    "Pixel.Props.C58_independent"
   ],
   "note": ""
  },
  {
   "property": "C59",
   "status": "proved",
   "theorems": [
    "Pixel.Props.C59_keygen",
    "Pixel.Props.C59_delegate",
    "Pixel.Props.C59_randomization",
    "Pixel.Props.C59_update",
    "Pixel.Props.C59_update_any_string",
    "Pixel.Props.C59_sign",
    "Pixel.Props.C59_verify",
    "Pixel.Props.C59_aggregate",
    "Pixel.Props.C59_verify_aggregated",
    "Pixel.Props.C59_pop",
    "Pixel.Props.C59_validate",
    "Pixel.Props.C59_document_correct",
    "Pixel.Props.C59_update_as_written_differs"
   ],
   "note": ""
  },
  {
   "property": "C60",
   "status": "proved",
   "theorems": [
    "Pixel.Props.C60_public_objects",
    "Pixel.Props.C60_keys",
    "Pixel.Props.C60_total",
    "Pixel.Props.C60_sub_key_interruptions",
    "Pixel.Props.C60_interrupted_sub_key",
    "Pixel.Props.C60_interrupted_key",
    "Pixel.Props.C60_empty_read",
    "Pixel.Props.C60_write",
    "Pixel.Props.C60_pipe",
    "Pixel.Props.C60_torn_write"
   ],
   "note": ""
  },
  {
   "property": "C61",
   "status": "proved",
   "theorems": [
    "Pixel.Props.C61_rust_program",
    "Pixel.Props.C61_python_exact",
    "Pixel.Props.C61_c_program",
    "Pixel.Props.C61_later_stages",
    "Pixel.Props.C61_make_test",
    "Pixel.Props.C61_pop_unchecked",
    "Pixel.Props.C61_python_detects",
    "Pixel.Props.C61_shallow_comparison",
    "Pixel.Props.C61_file_names"
   ],
   "note": "the constants of the programs (seeds, message, bound 64) are arguments; files with debug output and the two parameter files are not modelled"
  },
  {
   "property": "C62",
   "status": "proved",
   "theorems": [
    "Pixel.Props.C62_cover_times",
    "Pixel.Props.C62_cover_times_iff",
    "Pixel.Props.C62_update_exact",
    "Pixel.Props.C62_draws_bound",
    "Pixel.Props.C62_draws_next",
    "Pixel.Props.C62_history_exact",
    "Pixel.Props.C62_group_free",
    "Pixel.Props.C62_first_state",
    "Pixel.Props.C62_c_program_exact"
   ],
   "note": ""
  },
  {
   "property": "C63",
   "status": "proved",
   "theorems": [
    "Pixel.Props.C63_codec_laws",
    "Pixel.Props.C63_group_laws",
    "Pixel.Props.C63_assumptions_hold",
    "Pixel.Props.C63_pairing_determined",
    "Pixel.Props.C63_verdict_determined",
    "Pixel.Props.C63_subgroup_sizes",
    "Pixel.Props.C63_points_outside",
    "Pixel.Props.C63_generators"
   ],
   "note": "the pairing itself and hash-to-curve are not constructed: bilinearity, non-degeneracy on the generators and hashing into the subgroup stay hypotheses"
  },
  {
   "property": "C64",
   "status": "proved",
   "theorems": [
    "Pixel.Props.C64_known_answers",
    "Pixel.Props.C64_valid_points",
    "Pixel.Props.C64_invalid_data",
    "Pixel.Props.C64_invalid_constants"
   ],
   "note": "the random points of the round-trip tests are the zero point and the generator, as in the file"
  },
  {
   "property": "C65",
   "status": "proved",
   "theorems": [
    "Pixel.Props.C65_generation",
    "Pixel.Props.C65_well_formed",
    "Pixel.Props.C65_default",
    "Pixel.Props.C65_seed",
    "Pixel.Props.C65_elements_differ",
    "Pixel.Props.C65_proof_is_not_the_secret",
    "Pixel.Props.C65_salt_separated",
    "Pixel.Props.C65_file_length",
    "Pixel.Props.C65_file_determines",
    "Pixel.Props.C65_default_strings",
    "Pixel.Props.C65_default_elements",
    "Pixel.Props.C65_assumptions",
    "Pixel.Props.C65_hypotheses_met"
   ],
   "note": "hash-to-curve is a parameter of the model; that the bytes compiled into the crate pixel_param are the output of the script is a hypothesis where it is used (the crate is not in the repository)"
  },
  {
   "property": "C66",
   "status": "proved",
   "theorems": [
    "Pixel.Props.C66_make_test",
    "Pixel.Props.C66_files",
    "Pixel.Props.C66_last_states"
   ],
   "note": "remaining hypotheses are the fields of the structure Real in Props/Runs.lean: bilinear non-trivial pairing, hash-to-curve into the subgroup, default parameter is the output of param.py"
  },
  {
   "property": "C67",
   "status": "proved",
   "theorems": [
    "Pixel.Props.C67_quick_key_update",
    "Pixel.Props.C67_long_key_update",
    "Pixel.Props.C67_sk_validation",
    "Pixel.Props.C67_long_sk_validation",
    "Pixel.Props.C67_key_tests",
    "Pixel.Props.C67_delegate",
    "Pixel.Props.C67_negative_pop",
    "Pixel.Props.C67_quick_signature",
    "Pixel.Props.C67_long_signature",
    "Pixel.Props.C67_aggregated_signatures",
    "Pixel.Props.C67_must_fail_time",
    "Pixel.Props.C67_mismatch",
    "Pixel.Props.C67_sk_serialization",
    "Pixel.Props.C67_serialization",
    "Pixel.Props.C67_api",
    "Pixel.Props.C67_ffi_basic",
    "Pixel.Props.C67_ffi_aggregation",
    "Pixel.Props.C67_getters",
    "Pixel.Props.C67_keys_pass",
    "Pixel.Props.C67_signatures_pass",
    "Pixel.Props.C67_ffi_pass"
   ],
   "note": "test_zeroize (reads dangling pointers), the getters that only print, and test_group_is_correct (a type check) are not modelled; the loop bounds are parameters, set to those of the files in C67_keys_pass, C67_signatures_pass and C67_ffi_pass"
  },
  {
   "property": "C68",
   "status": "proved",
   "theorems": [
    "Pixel.Props.C68_same_function",
    "Pixel.Props.C68_keygen",
    "Pixel.Props.C68_sign_present",
    "Pixel.Props.C68_serialize",
    "Pixel.Props.C68_update",
    "Pixel.Props.C68_honest",
    "Pixel.Props.C68_history",
    "Pixel.Props.C68_comparison_shows"
   ],
   "note": "at the level of the source text: point arithmetic, hashing, reduction modulo r and the time functions are recorded as single operations; what they do inside, and what the compiler makes of the text, is not covered"
  },
  {
   "property": "C69",
   "status": "proved",
   "theorems": [
    "Pixel.Props.C69_prints_only_errors",
    "Pixel.Props.C69_keygen_prints_only_errors",
    "Pixel.Props.C69_prints_no_secrets",
    "Pixel.Props.C69_debug_shows_state",
    "Pixel.Props.C69_debug_hides_suite",
    "Pixel.Props.C69_panic_shows_state"
   ],
   "note": "Printed lines are entries of the record (Model/Trace.lean), in both profiles; release builds leave them out. validate and verify, which return booleans and work on public values or validate a key, print as well and are not covered. Point formatting and the words of the standard library around the operands of assert_ne! are parameters."
  },
  {
   "property": "C70",
   "status": "proved",
   "theorems": [
    "Pixel.Props.C70_keygen",
    "Pixel.Props.C70_sign_present",
    "Pixel.Props.C70_update",
    "Pixel.Props.C70_update_next",
    "Pixel.Props.C70_update_bound",
    "Pixel.Props.C70_update_worst",
    "Pixel.Props.C70_skip",
    "Pixel.Props.C70_lifetime"
   ],
   "note": "Counts calls of mul_assign on points in the record of Model/Trace.lean, which computes the same function as the model (C68_same_function). Updates are counted when they succeed; the only other end for an honest key and a valid target is the PRNG assertion (C15)."
  },
  {
   "property": "C71",
   "status": "proved",
   "theorems": [
    "Pixel.Props.C71_key_update_next",
    "Pixel.Props.C71_key_update_random",
    "Pixel.Props.C71_sign",
    "Pixel.Props.C71_sign_present",
    "Pixel.Props.C71_sign_then_update",
    "Pixel.Props.C71_early_times_panic",
    "Pixel.Props.C71_verify",
    "Pixel.Props.C71_aggregation_keygen",
    "Pixel.Props.C71_sk_update_seq",
    "Pixel.Props.C71_sk_update_leaf",
    "Pixel.Props.C71_sub_keys_and_times",
    "Pixel.Props.C71_real"
   ],
   "note": "Model/Benches.lean: a benchmark is a program over the seeds and random numbers it draws; criterion's timing and black_box are left out, and the number of rounds is a parameter. The number of samples (64, 256), the sequence length 64 and the time 31 are parameters too. bench_param and bench_curve.rs (calls of external crates only) are not modelled."
  },
  {
   "property": "C72",
   "status": "proved",
   "theorems": [
    "Pixel.Props.C72_hexdump",
    "Pixel.Props.C72_hexdump_past",
    "Pixel.Props.C72_same_as_bytes",
    "Pixel.Props.C72_success",
    "Pixel.Props.C72_short_seed",
    "Pixel.Props.C72_output_reveals_key",
    "Pixel.Props.C72_nothing_wiped",
    "Pixel.Props.C72_real"
   ],
   "note": "Model/CTest.lean over the heap of Model/CHeap.lean. Local arrays are blocks allocated and freed, filled with arbitrary bytes where the program leaves them uninitialised; files can always be opened and written; freed means removed from the heap. The seed bound and the lengths of keys as C ints are hypotheses of the theorems where they are needed."
  },
  {
   "property": "C73",
   "status": "proved",
   "theorems": [
    "Pixel.Props.C73_hmac",
    "Pixel.Props.C73_expand",
    "Pixel.Props.C73_expand_prefix",
    "Pixel.Props.C73_key_blocks",
    "Pixel.Props.C73_prng",
    "Pixel.Props.C73_rfc4231"
   ],
   "note": "HMAC and HKDF belong to external crates; Model/Prng.lean writes them out, and Spec/Hkdf.lean transcribes the RFCs independently. C73_expand was added after a random edit of the number of blocks survived (seeded log)."
  },
  {
   "property": "C74",
   "status": "proved",
   "theorems": [
    "Pixel.Props.C74_same_outcome",
    "Pixel.Props.C74_release_silent",
    "Pixel.Props.C74_verify_text",
    "Pixel.Props.C74_verify_silent_iff",
    "Pixel.Props.C74_accept_silent",
    "Pixel.Props.C74_reject_silent",
    "Pixel.Props.C74_aggregated_text",
    "Pixel.Props.C74_validate_text",
    "Pixel.Props.C74_validate_explains",
    "Pixel.Props.C74_validate_public",
    "Pixel.Props.C74_blames_depth",
    "Pixel.Props.C74_pop_text",
    "Pixel.Props.C74_aggregate_text"
   ],
   "note": "The lines for the undeclared feature \"verbose\" are left out of Model/Verbose.lean. Texts of reader and codec errors do not occur in these functions."
  },
  {
   "property": "C75",
   "status": "proved",
   "theorems": [
    "Pixel.Props.C75_forger_solves",
    "Pixel.Props.C75_any_target",
    "Pixel.Props.C75_hard_then_secure",
    "Pixel.Props.C75_past_is_fresh",
    "Pixel.Props.C75_shown_is_real",
    "Pixel.Props.C75_logarithms_forge"
   ],
   "note": "Selective: the time and the hashed message (or a finite set of them) are fixed before the game. Randomness derived by HKDF and hash-to-curve are idealised as uniform, as in C55. That the reduction is as fast as the forger, up to group operations, is visible from its definition (Spec/Reduce.lean) but not stated."
  },
  {
   "property": "C76",
   "status": "proved",
   "theorems": [
    "Pixel.Props.C76_forger_solves",
    "Pixel.Props.C76_hard_then_secure",
    "Pixel.Props.C76_past_is_fresh",
    "Pixel.Props.C76_one_hash",
    "Pixel.Props.C76_logarithms_forge"
   ],
   "note": "Random oracle model for the hash of messages; randomness derived by HKDF and hash-to-curve are idealised as uniform, as in C55. The loss factor is the number of times and hashed messages. Running time is not formalised."
  },
  {
   "property": "C77",
   "status": "proved",
   "theorems": [
    "Pixel.Props.C77_every_key",
    "Pixel.Props.C77_keygen",
    "Pixel.Props.C77_update",
    "Pixel.Props.C77_history",
    "Pixel.Props.C77_sign",
    "Pixel.Props.C77_from_seed",
    "Pixel.Props.C77_uniform"
   ],
   "note": "The scalars are those the code draws with HKDF from its PRNG state; the last theorem is about uniform ones in their place."
  },
  {
   "property": "C78",
   "status": "proved",
   "theorems": [
    "Pixel.Props.C78_forger_solves",
    "Pixel.Props.C78_hard_then_secure",
    "Pixel.Props.C78_logarithms_forge",
    "Pixel.Props.C78_code_signer"
   ],
   "note": "Random oracle model for the hash of messages; scalars derived by HKDF and hash-to-curve are idealised as uniform, as in C55. The signer takes a fresh scalar even when it signs the same message twice. Running time is not formalised."
  },
  {
   "property": "C79",
   "status": "proved",
   "theorems": [
    "Pixel.Props.C79_generator",
    "Pixel.Props.C79_questions",
    "Pixel.Props.C79_close",
    "Pixel.Props.C79_careless"
   ],
   "note": "HMAC keyed with the PRNG state is the assumed pseudorandom function; running time is not formalised."
  },
  {
   "property": "C80",
   "status": "proved",
   "theorems": [
    "Pixel.Props.C80_forger_solves",
    "Pixel.Props.C80_hard_then_secure",
    "Pixel.Props.C80_code_signer",
    "Pixel.Props.C80_logarithms_forge"
   ],
   "note": "The PRNG of key generation starts from a uniform state (in the code: HKDF-extract of the seed); random oracle for the hash of messages, random points for hash-to-curve. An update that panics (C15) counts as lost for the adversary. Running time is not formalised."
  },
  {
   "property": "C81",
   "status": "proved",
   "theorems": [
    "Pixel.Props.C81_keygen",
    "Pixel.Props.C81_hard_then_secure",
    "Pixel.Props.C81_no_game",
    "Pixel.Props.C81_logarithms_forge"
   ],
   "note": "The difference made by HKDF-extract with a fixed salt appears as one explicit quantity; that it is small is an assumption on SHA-512. Otherwise as C80."
  },
  {
   "property": "C82",
   "status": "proved",
   "theorems": [
    "Pixel.Props.C82_on_bytes",
    "Pixel.Props.C82_hard_then_secure",
    "Pixel.Props.C82_logarithms_forge"
   ],
   "note": "Random oracles for the hash of messages and hash-to-curve; the parameters are uniform. An update that panics (C15) counts as lost for the adversary; C83 bounds the chance of it. Running time is not formalised."
  },
  {
   "property": "C83",
   "status": "proved",
   "theorems": [
    "Pixel.Props.C83_panic",
    "Pixel.Props.C83_questions",
    "Pixel.Props.C83_rare",
    "Pixel.Props.C83_weak_hash"
   ],
   "note": "No break-in: the state of the PRNG is not shown to the user. Running time is not formalised."
  },
  {
   "property": "C84",
   "status": "proved",
   "theorems": [
    "Pixel.Props.C84_one_by_one",
    "Pixel.Props.C84_one_signer",
    "Pixel.Props.C84_hard_then_secure",
    "Pixel.Props.C84_logarithms_forge"
   ],
   "note": "As C82; the reduction loses the factor N. Running time is not formalised."
  },
  {
   "property": "C85",
   "status": "proved",
   "theorems": [
    "Pixel.Props.C85_recovers",
    "Pixel.Props.C85_from_uniform",
    "Pixel.Props.C85_close",
    "Pixel.Props.C85_own_seeds",
    "Pixel.Props.C85_guess",
    "Pixel.Props.C85_known_seed",
    "Pixel.Props.C85_short_seeds"
   ],
   "note": "That HKDF-extract of a uniform seed behind a known string looks uniform is the assumption on SHA-512 added here; it appears as explicit gains. Running time is not formalised."
  },
  {
   "property": "C86",
   "status": "proved",
   "theorems": [
    "Pixel.Props.C86_forger_solves",
    "Pixel.Props.C86_hard_then_secure",
    "Pixel.Props.C86_extends",
    "Pixel.Props.C86_look_and_seed_undo",
    "Pixel.Props.C86_look_and_seed_sign",
    "Pixel.Props.C86_look_and_sign",
    "Pixel.Props.C86_logarithms_forge"
   ],
   "note": "As C80, with the assumption on HKDF-extract of C85 in addition. Key generation starts from a uniform PRNG state. Running time is not formalised."
  },
  {
   "property": "C87",
   "status": "proved",
   "theorems": [
    "Pixel.Props.C87_script_parameters",
    "Pixel.Props.C87_hard_then_secure",
    "Pixel.Props.C87_uniform_points",
    "Pixel.Props.C87_real",
    "Pixel.Props.C87_numbers",
    "Pixel.Props.C87_logarithms_forge",
    "Pixel.Props.C87_same_strings_break"
   ],
   "note": "As C84; hash-to-curve is a random oracle, for the parameters as well. Of the curves, orders, subgroups and encodings are computed; bilinearity of the pairing is a hypothesis. Running time is not formalised."
  },
  {
   "property": "C88",
   "status": "proved",
   "theorems": [
    "Pixel.Props.C88_sign",
    "Pixel.Props.C88_c_interface",
    "Pixel.Props.C88_hard_then_secure",
    "Pixel.Props.C88_real",
    "Pixel.Props.C88_logarithms_forge"
   ],
   "note": "As C87. If an update stops at the assertion on the PRNG the adversary has lost, as in C84. The verifier compares nothing but what c_verify_pop and c_verify_agg return. Running time is not formalised."
  },
  {
   "property": "C89",
   "status": "proved",
   "theorems": [
    "Pixel.Props.C89_calls",
    "Pixel.Props.C89_all_functions",
    "Pixel.Props.C89_conversely",
    "Pixel.Props.C89_hard_then_secure",
    "Pixel.Props.C89_real",
    "Pixel.Props.C89_logarithms_forge"
   ],
   "note": "As C87. If an update stops at the assertion on the PRNG the adversary has lost, as in C84. Running time is not formalised."
  },
  {
   "property": "C90",
   "status": "proved",
   "theorems": [
    "Pixel.Props.C90_same_verdict",
    "Pixel.Props.C90_accept_sigFor",
    "Pixel.Props.C90_aggregated",
    "Pixel.Props.C90_key_validation",
    "Pixel.Props.C90_refused",
    "Pixel.Props.C90_part",
    "Pixel.Props.C90_twin",
    "Pixel.Props.C90_hypotheses_met"
   ],
   "note": "Assumes additivity of the pairing on the whole curve of public keys (WholePairing), shown satisfiable on the real curve (C90_hypotheses_met)."
  },
  {
   "property": "C91",
   "status": "proved",
   "theorems": [
    "Pixel.Props.C91_box_bound",
    "Pixel.Props.C91_one_power_more",
    "Pixel.Props.C91_comparisons_help"
   ],
   "note": "black-box algorithms only (combinations, pairings, comparisons); that nothing better exists for BLS12-381 is not provable this way"
  },
  {
   "property": "C92",
   "status": "proved",
   "theorems": [
    "Pixel.Props.C92_uniform_signature",
    "Pixel.Props.C92_aggregate",
    "Pixel.Props.C92_at_most",
    "Pixel.Props.C92_at_least",
    "Pixel.Props.C92_questions",
    "Pixel.Props.C92_same_view",
    "Pixel.Props.C92_weak_hash"
   ],
   "note": "relative to the gains of the stated adversaries against HMAC and HKDF-extract; what the functions return is seen, not their running time"
  },
  {
   "property": "C93",
   "status": "proved",
   "theorems": [
    "Pixel.Props.C93_hmac",
    "Pixel.Props.C93_generator",
    "Pixel.Props.C93_seed",
    "Pixel.Props.C93_at_most",
    "Pixel.Props.C93_at_least",
    "Pixel.Props.C93_panics",
    "Pixel.Props.C93_numbers"
   ],
   "note": "in the random-oracle model for SHA-512; hash-to-curve is a fixed function that does not use it"
  },
  {
   "property": "C94",
   "status": "proved",
   "theorems": [
    "Pixel.Props.C94_forger_solves",
    "Pixel.Props.C94_hard_then_secure",
    "Pixel.Props.C94_numbers",
    "Pixel.Props.C94_no_game",
    "Pixel.Props.C94_logarithms_forge"
   ],
   "note": "in the random-oracle model for SHA-512, and with the hash-to-curve point of keygen uniform as in C80 and C81"
  },
  {
   "property": "C95",
   "status": "proved",
   "theorems": [
    "Pixel.Props.C95_unforgeable",
    "Pixel.Props.C95_numbers",
    "Pixel.Props.C95_questions_forge"
   ],
   "note": "black-box use of the groups, random-oracle model for SHA-512, and the hash-to-curve point of keygen uniform as in C80 and C81"
  },
  {
   "property": "C96",
   "status": "proved",
   "theorems": [
    "Pixel.Props.C96_octets_shown",
    "Pixel.Props.C96_keys_text",
    "Pixel.Props.C96_handles_text",
    "Pixel.Props.C96_signature_text",
    "Pixel.Props.C96_public_key_text",
    "Pixel.Props.C96_pop_text",
    "Pixel.Props.C96_time_vec_text"
   ],
   "note": ""
  },
  {
   "property": "C97",
   "status": "proved",
   "theorems": [
    "Pixel.Props.C97_foreseen",
    "Pixel.Props.C97_neutral",
    "Pixel.Props.C97_known_seed",
    "Pixel.Props.C97_meet",
    "Pixel.Props.C97_numbers"
   ],
   "note": ""
  },
  {
   "property": "C98",
   "status": "proved",
   "theorems": [
    "Pixel.Props.C98_one_by_one",
    "Pixel.Props.C98_hard_then_secure",
    "Pixel.Props.C98_numbers",
    "Pixel.Props.C98_real",
    "Pixel.Props.C98_logarithms_forge"
   ],
   "note": "in the random-oracle model for SHA-512 and for hash-to-curve"
  },
  {
   "property": "C99",
   "status": "proved",
   "theorems": [
    "Pixel.Props.C99_at_most",
    "Pixel.Props.C99_at_least",
    "Pixel.Props.C99_from_seed",
    "Pixel.Props.C99_numbers",
    "Pixel.Props.C99_guess",
    "Pixel.Props.C99_known_seed",
    "Pixel.Props.C99_short_seeds"
   ],
   "note": "in the random-oracle model for SHA-512"
  },
  {
   "property": "C100",
   "status": "proved",
   "theorems": [
    "Pixel.Props.C100_forger_solves",
    "Pixel.Props.C100_hard_then_secure",
    "Pixel.Props.C100_numbers",
    "Pixel.Props.C100_extends",
    "Pixel.Props.C100_no_game",
    "Pixel.Props.C100_logarithms_forge"
   ],
   "note": "random-oracle model for SHA-512, and the hash-to-curve point of keygen uniform as in C80 and C81"
  },
  {
   "property": "C101",
   "status": "proved",
   "theorems": [
    "Pixel.Props.C101_unforgeable",
    "Pixel.Props.C101_numbers",
    "Pixel.Props.C101_questions_forge",
    "Pixel.Props.C101_extends"
   ],
   "note": "black-box use of the groups, random-oracle model for SHA-512, and the hash-to-curve point of keygen uniform as in C80 and C81"
  },
  {
   "property": "C102",
   "status": "proved",
   "theorems": [
    "Pixel.Props.C102_read_public",
    "Pixel.Props.C102_read_signature",
    "Pixel.Props.C102_read_sub_key",
    "Pixel.Props.C102_read_secret_key",
    "Pixel.Props.C102_write",
    "Pixel.Props.C102_sign",
    "Pixel.Props.C102_update",
    "Pixel.Props.C102_constructors"
   ],
   "note": ""
  },
  {
   "property": "C103",
   "status": "proved",
   "theorems": [
    "Pixel.Props.C103_right_lengths",
    "Pixel.Props.C103_exact",
    "Pixel.Props.C103_any_times",
    "Pixel.Props.C103_read_times",
    "Pixel.Props.C103_cut_off",
    "Pixel.Props.C103_one_more"
   ],
   "note": ""
  },
  {
   "property": "C104",
   "status": "proved",
   "theorems": [
    "Pixel.Props.C104_signature",
    "Pixel.Props.C104_validate",
    "Pixel.Props.C104_one_element",
    "Pixel.Props.C104_one_element_noticed",
    "Pixel.Props.C104_read_groups"
   ],
   "note": ""
  },
  {
   "property": "C105",
   "status": "proved",
   "theorems": [
    "Pixel.Props.C105_works",
    "Pixel.Props.C105_accept_sigFor",
    "Pixel.Props.C105_master_key",
    "Pixel.Props.C105_pop",
    "Pixel.Props.C105_zero",
    "Pixel.Props.C105_no_secret",
    "Pixel.Props.C105_no_message"
   ],
   "note": ""
  },
  {
   "property": "C106",
   "status": "proved",
   "theorems": [
    "Pixel.Props.C106_pop",
    "Pixel.Props.C106_read",
    "Pixel.Props.C106_accepts",
    "Pixel.Props.C106_in_list",
    "Pixel.Props.C106_sum_zero",
    "Pixel.Props.C106_pops_for_opposites",
    "Pixel.Props.C106_when"
   ],
   "note": ""
  }
 ]
}