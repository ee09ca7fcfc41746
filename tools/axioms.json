{
"Coniks.Props.C01_getNthBit": "propext, Quot.sound",
"Coniks.Props.C01_toBits_msb_first": "propext, Quot.sound",
"Coniks.Props.C01_toBits_position": "propext, Quot.sound",
"Coniks.Props.C01_toBits_toBytes": "propext, Quot.sound",
"Coniks.Props.C01_toBytes_length": "propext, Quot.sound",
"Coniks.Props.C01_toBytes_toBits": "propext, Quot.sound",
"Coniks.Props.C02_injective": "propext, Quot.sound",
"Coniks.Props.C02_long_digits": "propext, Quot.sound",
"Coniks.Props.C02_uint32_digits": "propext",
"Coniks.Props.C02_ulong_digits": "propext",
"Coniks.Props.C02_ulong_onto": "propext, Quot.sound",
"Coniks.Props.C03_bytesPrefix_exact": "propext, Classical.choice, Quot.sound",
"Coniks.Props.C03_incrementKey_least": "propext, Quot.sound",
"Coniks.Props.C03_incrementKey_nil": "propext, Quot.sound",
"Coniks.Props.C04_commit_binds": "propext",
"Coniks.Props.C04_commit_exact": "propext, Classical.choice, Quot.sound",
"Coniks.Props.C04_commit_exact_same_length": "propext, Classical.choice, Quot.sound",
"Coniks.Props.C04_commit_opens": "propext, Classical.choice, Quot.sound",
"Coniks.Props.C04_commit_total": "",
"Coniks.Props.C04_key_value_split_counterexample": "propext, Classical.choice, Quot.sound",
"Coniks.Props.C05_boundary_counterexample": "propext, Classical.choice, Quot.sound",
"Coniks.Props.C05_numbers_always": "propext, Quot.sound",
"Coniks.Props.C05_same_bytes_iff": "propext, Quot.sound",
"Coniks.Props.C05_serialize_injective_regular": "propext, Quot.sound",
"Coniks.Props.C05_version_counterexample": "propext, Quot.sound",
"Coniks.Props.C06_tb_injective": "propext",
"Coniks.Props.C06_unchecked_counterexample": "propext",
"Coniks.Props.C07_complete": "propext, Classical.choice, Quot.sound",
"Coniks.Props.C07_go_complete": "propext, Classical.choice, Quot.sound",
"Coniks.Props.C07_go_generateKey": "propext, Classical.choice, Quot.sound",
"Coniks.Props.C07_go_prove_compute": "propext, Classical.choice, Quot.sound",
"Coniks.Props.C07_neutral_rejected": "propext, Classical.choice, Quot.sound",
"Coniks.Props.C07_proof_length": "propext, Classical.choice, Quot.sound",
"Coniks.Props.C07_prove_compute": "propext, Classical.choice, Quot.sound",
"Coniks.Props.C08_accepts_iff": "propext, Classical.choice, Quot.sound",
"Coniks.Props.C08_go_accepts_iff": "propext, Classical.choice, Quot.sound",
"Coniks.Props.C08_go_special_soundness": "propext, Classical.choice, Quot.sound",
"Coniks.Props.C08_go_total": "propext, Classical.choice, Quot.sound",
"Coniks.Props.C08_response_not_unique": "propext, Classical.choice, Quot.sound",
"Coniks.Props.C08_special_soundness": "propext, Classical.choice, Quot.sound",
"Coniks.Props.C08_value_determined": "propext, Classical.choice, Quot.sound",
"Coniks.Props.C09_empty_index_panics": "propext, Quot.sound",
"Coniks.Props.C09_mixed_lengths_panic": "propext, Quot.sound",
"Coniks.Props.C09_set_never_panics": "propext, Classical.choice, Quot.sound",
"Coniks.Props.C09_set_succeeds": "propext, Classical.choice, Quot.sound",
"Coniks.Props.C10_deep_prefix_counterexample": "propext, Quot.sound",
"Coniks.Props.C10_get_absent_exact": "propext, Classical.choice, Quot.sound",
"Coniks.Props.C10_get_absent_no_value": "propext, Classical.choice, Quot.sound",
"Coniks.Props.C10_get_absent_spread": "propext, Classical.choice, Quot.sound",
"Coniks.Props.C10_get_present": "propext, Classical.choice, Quot.sound",
"Coniks.Props.C11_hash_canonical": "propext, Classical.choice, Quot.sound",
"Coniks.Props.C11_order_independent": "propext, Classical.choice, Quot.sound",
"Coniks.Props.C12_absent_exact": "propext, Classical.choice, Quot.sound",
"Coniks.Props.C12_absent_verifies_spread": "propext, Classical.choice, Quot.sound",
"Coniks.Props.C12_deep_prefix_counterexample": "propext, Quot.sound",
"Coniks.Props.C12_present_verifies": "propext, Classical.choice, Quot.sound",
"Coniks.Props.C13_accepts_iff": "propext, Classical.choice, Quot.sound",
"Coniks.Props.C13_empty_branch_counterexample": "propext, Classical.choice, Quot.sound",
"Coniks.Props.C13_honest_wellshaped": "propext, Classical.choice, Quot.sound",
"Coniks.Props.C13_sound_partial": "propext, Classical.choice, Quot.sound",
"Coniks.Props.C14_accepts_iff": "propext, Classical.choice, Quot.sound",
"Coniks.Props.C14_empty_flag_counterexample": "propext, Classical.choice, Quot.sound",
"Coniks.Props.C14_inclusion_and_absence_counterexample": "propext, Classical.choice, Quot.sound",
"Coniks.Props.C14_no_contradiction_partial": "propext, Classical.choice, Quot.sound",
"Coniks.Props.C14_salt_length_counterexample": "propext, Classical.choice, Quot.sound",
"Coniks.Props.C15_honest_complete": "propext, Classical.choice, Quot.sound",
"Coniks.Props.C15_panic_counterexamples": "propext, Classical.choice, Quot.sound",
"Coniks.Props.C15_verify_panics_iff": "propext, Classical.choice, Quot.sound",
"Coniks.Props.C15_verify_total_partial": "propext, Quot.sound",
"Coniks.Props.C16_absence_proof_private": "propext, Quot.sound",
"Coniks.Props.C16_absence_proof_redacted": "propext, Quot.sound",
"Coniks.Props.C16_no_value_no_salt": "propext, Quot.sound",
"Coniks.Props.C17_clone_behaves": "propext, Classical.choice, Quot.sound",
"Coniks.Props.C17_clone_equal": "propext, Classical.choice, Quot.sound",
"Coniks.Props.C17_isolation": "propext, Classical.choice, Quot.sound",
"Coniks.Props.C17_refines_values": "propext, Classical.choice, Quot.sound",
"Coniks.Props.C17_stale_clone": "propext, Classical.choice, Quot.sound",
"Coniks.Props.C18_signed_hash_chain": "propext, Classical.choice, Quot.sound",
"Coniks.Props.C18_tree_hash": "propext, Classical.choice, Quot.sound",
"Coniks.Props.C19_cache": "propext, Classical.choice, Quot.sound",
"Coniks.Props.C19_cache_two": "propext, Classical.choice, Quot.sound",
"Coniks.Props.C19_tiny_cache_counterexample": "propext, Classical.choice, Quot.sound",
"Coniks.Props.C20_history_immutable": "propext, Classical.choice, Quot.sound",
"Coniks.Props.C20_how_long": "propext, Classical.choice, Quot.sound",
"Coniks.Props.C21_policies_delay": "propext, Quot.sound",
"Coniks.Props.C21_policies_shown": "",
"Coniks.Props.C22_reshuffle_content": "propext, Classical.choice, Quot.sound",
"Coniks.Props.C22_reshuffle_preserves": "propext, Classical.choice, Quot.sound",
"Coniks.Props.C23_first_registration_wins": "propext, Classical.choice, Quot.sound",
"Coniks.Props.C23_only_registered": "propext, Classical.choice, Quot.sound",
"Coniks.Props.C24_promises_kept": "propext, Classical.choice, Quot.sound",
"Coniks.Props.C25_deep_prefix_counterexample": "propext, Classical.choice, Quot.sound",
"Coniks.Props.C25_exact": "propext, Classical.choice, Quot.sound",
"Coniks.Props.C25_responses_spread": "propext, Classical.choice, Quot.sound",
"Coniks.Props.C26_malformed": "propext, Quot.sound",
"Coniks.Props.C26_only_malformed": "propext, Quot.sound",
"Coniks.Props.C26_reads_pure": "propext, Classical.choice, Quot.sound",
"Coniks.Props.C27_failed_registration": "propext, Classical.choice, Quot.sound",
"Coniks.Props.C27_no_trace": "propext, Classical.choice, Quot.sound",
"Coniks.Props.C28_exact": "propext, Classical.choice, Quot.sound",
"Coniks.Props.C28_lookup_in_epoch": "propext, Classical.choice, Quot.sound",
"Coniks.Props.C29_exact": "propext, Classical.choice, Quot.sound",
"Coniks.Props.C29_monitor": "propext, Classical.choice, Quot.sound",
"Coniks.Props.C30_evicted_counterexample": "propext, Classical.choice, Quot.sound",
"Coniks.Props.C30_history": "propext, Classical.choice, Quot.sound",
"Coniks.Props.C31_directory_panics_iff": "propext, Classical.choice, Quot.sound",
"Coniks.Props.C31_history_runs": "propext, Classical.choice, Quot.sound",
"Coniks.Props.C31_no_bytes_crash": "propext, Classical.choice, Quot.sound",
"Coniks.Props.C31_no_request_crashes": "propext, Classical.choice, Quot.sound",
"Coniks.Props.C32_epoch_monotone": "propext, Quot.sound",
"Coniks.Props.C32_forward_chain": "propext, Quot.sound",
"Coniks.Props.C32_one_call": "propext, Quot.sound",
"Coniks.Props.C33_exact": "propext, Classical.choice, Quot.sound",
"Coniks.Props.C33_go_session": "propext, Classical.choice, Quot.sound",
"Coniks.Props.C33_session": "propext, Classical.choice, Quot.sound",
"Coniks.Props.C33_two_epochs_behind_counterexample": "propext, Classical.choice, Quot.sound",
"Coniks.Props.C34_accept_iff": "propext, Classical.choice, Quot.sound",
"Coniks.Props.C34_acceptance": "propext, Classical.choice, Quot.sound",
"Coniks.Props.C34_status": "propext, Classical.choice, Quot.sound",
"Coniks.Props.C35_caller_pins_partial": "propext, Classical.choice, Quot.sound",
"Coniks.Props.C35_key_swap_counterexample": "propext, Classical.choice, Quot.sound",
"Coniks.Props.C35_never_recorded_counterexample": "propext, Classical.choice, Quot.sound",
"Coniks.Props.C36_absence_counterexample": "propext, Classical.choice, Quot.sound",
"Coniks.Props.C36_fulfilled_partial": "propext, Classical.choice, Quot.sound",
"Coniks.Props.C36_other_value_refused": "propext, Classical.choice, Quot.sound",
"Coniks.Props.C36_second_promise_counterexample": "propext, Classical.choice, Quot.sound",
"Coniks.Props.C37_equivocation_counterexample": "propext",
"Coniks.Props.C37_equivocation_panics_iff": "propext, Classical.choice, Quot.sound",
"Coniks.Props.C37_equivocation_total_partial": "propext, Quot.sound",
"Coniks.Props.C37_handle_total_partial": "propext, Quot.sound",
"Coniks.Props.C37_panic_counterexamples": "propext, Quot.sound",
"Coniks.Props.C37_panics_iff": "propext, Classical.choice, Quot.sound",
"Coniks.Props.C37_request_type_counterexample": "propext, Quot.sound",
"Coniks.Props.C38_accepted_frame": "propext, Classical.choice, Quot.sound",
"Coniks.Props.C38_refused": "propext, Quot.sound",
"Coniks.Props.C39_audit_accepts_iff": "propext, Quot.sound",
"Coniks.Props.C39_audit_rejects": "propext, Quot.sound",
"Coniks.Props.C39_honest_history_accepted": "propext, Classical.choice, Quot.sound",
"Coniks.Props.C40_accepts_iff": "propext, Quot.sound",
"Coniks.Props.C40_equivocation_detected_partial": "propext, Quot.sound",
"Coniks.Props.C40_latest_differs": "propext, Quot.sound",
"Coniks.Props.C40_same_content": "propext, Quot.sound",
"Coniks.Props.C40_unsigned_first_counterexample": "propext, Quot.sound",
"Coniks.Props.C41_ambiguous_parse_counterexample": "propext, Quot.sound",
"Coniks.Props.C41_client_and_auditor_partial": "propext, Quot.sound",
"Coniks.Props.C41_one_step": "propext",
"Coniks.Props.C41_same_past_partial": "propext, Quot.sound",
"Coniks.Props.C42_accepted_is_reported": "propext, Classical.choice, Quot.sound",
"Coniks.Props.C42_append_only": "propext, Classical.choice, Quot.sound",
"Coniks.Props.C42_unchecked_init_counterexample": "propext, Classical.choice, Quot.sound",
"Coniks.Props.C43_init_refused": "propext",
"Coniks.Props.C43_isolation": "propext, Quot.sound",
"Coniks.Props.C43_no_reinit": "propext, Quot.sound",
"Coniks.Props.C43_unknown": "propext",
"Coniks.Props.C44_audit_refused_iff": "propext, Classical.choice, Quot.sound",
"Coniks.Props.C44_error_no_change": "propext, Quot.sound",
"Coniks.Props.C45_code": "propext, Classical.choice, Quot.sound",
"Coniks.Props.C45_linearizable": "propext, Classical.choice, Quot.sound",
"Coniks.Props.C45_lock_discipline": "propext, Classical.choice, Quot.sound",
"Coniks.Props.C46_permissions": "propext, Quot.sound",
"Coniks.Props.C46_permitted": "propext, Quot.sound",
"Coniks.Props.C46_refused": "propext, Quot.sound",
"Coniks.Props.C46_shared_pointer_counterexample": "",
"Coniks.Props.C46_writes": "propext, Classical.choice, Quot.sound",
"Coniks.Props.C47_decoded": "propext, Quot.sound",
"Coniks.Props.C47_dispatch": "propext, Quot.sound",
"Coniks.Props.C47_nil_counterexample": "propext, Quot.sound",
"Coniks.Props.C48_intervals": "propext, Quot.sound",
"Coniks.Props.C48_newConfig_counterexample": "propext, Quot.sound",
"Coniks.Props.C48_overflow_counterexample": "",
"Coniks.Props.C48_reload_counterexample": "propext, Quot.sound",
"Coniks.Props.C48_timer_partial": "propext, Quot.sound",
"Coniks.Props.C49_end_to_end": "propext, Classical.choice, Quot.sound",
"Coniks.Props.C49_end_to_end_json": "propext, Classical.choice, Quot.sound",
"Coniks.Props.C49_forwards_iff": "propext, Quot.sound",
"Coniks.Props.C49_one_owner": "propext, Classical.choice, Quot.sound",
"Coniks.Props.C49_run": "propext, Classical.choice, Quot.sound",
"Coniks.Props.C50_race_counterexample": "propext",
"Coniks.Props.C50_stat_counterexample": "propext",
"Coniks.Props.C50_writeFile_partial": "propext",
"Coniks.Props.C51_empty_flag_counterexample": "propext, Classical.choice, Quot.sound",
"Coniks.Props.C51_forever_partial": "propext, Classical.choice, Quot.sound",
"Coniks.Props.C51_same_str_same_view_partial": "propext, Classical.choice, Quot.sound",
"Coniks.Props.C51_split_promise_noticed_partial": "propext, Classical.choice, Quot.sound",
"Coniks.Props.C51_two_promises_counterexample": "propext, Classical.choice, Quot.sound",
"Coniks.Props.C52_crash_iff": "propext, Classical.choice, Quot.sound",
"Coniks.Props.C52_no_crash_partial": "propext, Classical.choice, Quot.sound",
"Coniks.Props.C52_no_deadlock": "propext, Classical.choice, Quot.sound",
"Coniks.Props.C52_nothing_after_shutdown": "propext, Classical.choice, Quot.sound",
"Coniks.Props.C52_two_listeners_counterexample": "",
"Coniks.Props.C53_cmove": "propext, Classical.choice, Quot.sound",
"Coniks.Props.C53_fromBytes": "propext, Classical.choice, Quot.sound",
"Coniks.Props.C53_powers": "propext, Classical.choice, Quot.sound",
"Coniks.Props.C53_products": "propext, Classical.choice, Quot.sound",
"Coniks.Props.C53_sums": "propext, Classical.choice, Quot.sound",
"Coniks.Props.C53_toBytes": "propext, Classical.choice, Quot.sound",
"Coniks.Props.C54_neg": "propext, Classical.choice, Quot.sound",
"Coniks.Props.C54_reduce_muladd": "propext, Classical.choice, Quot.sound",
"Coniks.Props.C55_add_double": "propext, Classical.choice, Quot.sound",
"Coniks.Props.C55_doubleScalarMult": "propext, Classical.choice, Quot.sound",
"Coniks.Props.C55_doubleScalarMult_top": "propext",
"Coniks.Props.C55_group": "propext, Classical.choice, Quot.sound",
"Coniks.Props.C55_scalarMult": "propext, Classical.choice, Quot.sound",
"Coniks.Props.C55_scalarMultBase": "propext, Classical.choice, Quot.sound",
"Coniks.Props.C56_fromBytes": "propext, Classical.choice, Quot.sound",
"Coniks.Props.C56_fromBytesBaseGroup": "propext, Classical.choice, Quot.sound",
"Coniks.Props.C56_fromBytesBaseGroup_value": "propext, Classical.choice, Quot.sound",
"Coniks.Props.C56_fromBytes_not_canonical": "propext, Classical.choice, Quot.sound",
"Coniks.Props.C56_toBytes": "propext, Classical.choice, Quot.sound",
"Coniks.Props.C56_toExtended": "propext, Classical.choice, Quot.sound",
"Coniks.Props.C57_collisions": "propext, Classical.choice, Quot.sound",
"Coniks.Props.C57_hashToEdwards": "propext, Classical.choice, Quot.sound",
"Coniks.Props.C57_small_order": "propext, Classical.choice, Quot.sound",
"Coniks.Props.C58_missing_table_counterexample": "propext",
"Coniks.Props.C58_reload_iff": "propext, Quot.sound",
"Coniks.Props.C58_reload_partial": "propext, Quot.sound",
"Coniks.Props.C59_initSTR_partial": "propext",
"Coniks.Props.C59_restart_counterexample": "propext",
"Coniks.Props.C60_keyFiles_partial": "propext, Quot.sound",
"Coniks.Props.C60_private_key_kept": "propext",
"Coniks.Props.C60_stale_public_key_counterexample": "propext",
"Coniks.Props.C61_codes": "",
"Coniks.Props.C61_history_reads": "propext, Classical.choice, Quot.sound",
"Coniks.Props.C61_honest_answers_arrive": "propext, Classical.choice, Quot.sound",
"Coniks.Props.C61_reads": "propext, Classical.choice, Quot.sound",
"Coniks.Props.C61_response_roundtrip": "propext, Classical.choice, Quot.sound",
"Coniks.Props.C62_epoch_requests": "propext, Classical.choice, Quot.sound",
"Coniks.Props.C62_honest_session_partial": "propext, Classical.choice, Quot.sound",
"Coniks.Props.C62_iff_utf8": "propext, Classical.choice, Quot.sound",
"Coniks.Props.C62_lookup": "propext, Classical.choice, Quot.sound",
"Coniks.Props.C62_names_collide_counterexample": "propext, Classical.choice, Quot.sound",
"Coniks.Props.C62_reads": "propext, Classical.choice, Quot.sound",
"Coniks.Props.C62_registration": "propext, Classical.choice, Quot.sound",
"Coniks.Props.C62_session": "propext, Classical.choice, Quot.sound",
"Coniks.Props.C62_texts": "propext, Classical.choice, Quot.sound",
"Coniks.Props.C63_audit_type_counterexample": "propext, Classical.choice, Quot.sound",
"Coniks.Props.C63_big_key_counterexample": "propext, Classical.choice, Quot.sound",
"Coniks.Props.C63_crash_counterexample": "propext, Classical.choice, Quot.sound",
"Coniks.Props.C63_crash_iff": "propext, Classical.choice, Quot.sound",
"Coniks.Props.C63_cut_reply": "propext, Classical.choice, Quot.sound",
"Coniks.Props.C63_long_answer": "propext, Classical.choice, Quot.sound",
"Coniks.Props.C63_long_request": "propext, Classical.choice, Quot.sound",
"Coniks.Props.C63_no_bytes_crash_server": "propext, Classical.choice, Quot.sound",
"Coniks.Props.C63_unmarshal_total": "propext, Classical.choice, Quot.sound",
"Coniks.Props.C64_bad_address": "propext, Classical.choice, Quot.sound",
"Coniks.Props.C64_commands": "propext, Classical.choice, Quot.sound",
"Coniks.Props.C64_error_texts": "propext, Classical.choice, Quot.sound",
"Coniks.Props.C64_exact": "propext, Classical.choice, Quot.sound",
"Coniks.Props.C64_exit": "propext, Classical.choice, Quot.sound",
"Coniks.Props.C64_local": "propext, Classical.choice, Quot.sound",
"Coniks.Props.C64_lookup_prints_no_key": "propext, Classical.choice, Quot.sound",
"Coniks.Props.C64_no_key_pinned": "propext, Classical.choice, Quot.sound",
"Coniks.Props.C64_not_registered_means": "propext, Classical.choice, Quot.sound",
"Coniks.Props.C64_old_str_counterexample": "propext, Classical.choice, Quot.sound",
"Coniks.Props.C64_registered_means": "propext, Classical.choice, Quot.sound",
"Coniks.Props.C64_session_partial": "propext, Classical.choice, Quot.sound",
"Coniks.Props.C64_warning": "propext, Classical.choice, Quot.sound",
"Coniks.Props.C64_words": "propext, Classical.choice, Quot.sound",
"Coniks.Props.C65_promise_is_str_counterexample": "propext, Quot.sound",
"Coniks.Props.C65_promise_partial": "propext, Classical.choice, Quot.sound",
"Coniks.Props.C65_str_partial": "propext, Classical.choice, Quot.sound",
"Coniks.Props.C66_go_keys": "propext, Classical.choice, Quot.sound",
"Coniks.Props.C66_hidden_name_counterexample": "propext, Classical.choice, Quot.sound",
"Coniks.Props.C66_honest_traffic": "propext, Classical.choice, Quot.sound",
"Coniks.Props.C66_man_in_the_middle_partial": "propext, Classical.choice, Quot.sound",
"Coniks.Props.C66_shortened_key_counterexample": "propext, Classical.choice, Quot.sound",
"Coniks.Props.C67_auditor_refuses": "propext, Classical.choice, Quot.sound",
"Coniks.Props.C67_client_refuses": "propext, Classical.choice, Quot.sound",
"Coniks.Props.C67_forgotten": "propext, Classical.choice, Quot.sound",
"Coniks.Props.C67_fork": "propext, Classical.choice, Quot.sound",
"Coniks.Props.C67_second_identity": "propext, Classical.choice, Quot.sound",
"Coniks.Props.C68_absolute_partial": "propext, Quot.sound",
"Coniks.Props.C68_absolute_unchanged": "propext",
"Coniks.Props.C68_canonical": "propext, Quot.sound",
"Coniks.Props.C68_directory_of": "propext",
"Coniks.Props.C68_empty": "propext, Quot.sound",
"Coniks.Props.C68_place": "propext, Quot.sound",
"Coniks.Props.C68_relative_counterexample": "propext, Classical.choice, Quot.sound",
"Coniks.Props.C68_same_place": "propext, Quot.sound",
"Coniks.Props.C69_client_starts": "propext, Classical.choice, Quot.sound",
"Coniks.Props.C69_crash_counterexample": "propext, Classical.choice, Quot.sound",
"Coniks.Props.C69_crash_partial": "propext, Classical.choice, Quot.sound",
"Coniks.Props.C69_default_paths": "propext, Classical.choice, Quot.sound",
"Coniks.Props.C69_reads": "propext, Classical.choice, Quot.sound",
"Coniks.Props.C69_saved_str_loads": "propext, Classical.choice, Quot.sound",
"Coniks.Props.C69_session_partial": "propext, Classical.choice, Quot.sound",
"Coniks.Props.C69_unsigned_counterexample": "propext, Classical.choice, Quot.sound",
"Coniks.Props.C69_wrong_str_refused": "propext, Classical.choice, Quot.sound",
"Coniks.Props.C70_crash_partial": "propext, Quot.sound",
"Coniks.Props.C70_elsewhere_counterexample": "propext, Classical.choice, Quot.sound",
"Coniks.Props.C70_init_then_run": "propext, Classical.choice, Quot.sound",
"Coniks.Props.C70_loaded": "propext, Quot.sound",
"Coniks.Props.C70_loads_iff": "propext, Quot.sound",
"Coniks.Props.C70_moved": "propext, Quot.sound",
"Coniks.Props.C70_no_log_file_counterexample": "propext, Classical.choice, Quot.sound",
"Coniks.Props.C70_reload": "propext, Quot.sound",
"Coniks.Props.C70_stores": "propext, Classical.choice, Quot.sound",
"Coniks.Props.C71_case_counterexample": "propext, Classical.choice, Quot.sound",
"Coniks.Props.C71_ignored": "propext, Classical.choice, Quot.sound",
"Coniks.Props.C71_list_counterexample": "propext",
"Coniks.Props.C71_message": "propext, Classical.choice, Quot.sound",
"Coniks.Props.C71_no_crash": "propext, Classical.choice, Quot.sound",
"Coniks.Props.C71_old_messages": "propext, Quot.sound",
"Coniks.Props.C71_old_messages_gone": "propext, Classical.choice, Quot.sound",
"Coniks.Props.C71_owner": "propext, Classical.choice, Quot.sound",
"Coniks.Props.C71_replies": "propext, Classical.choice, Quot.sound",
"Coniks.Props.C71_stuck_counterexample": "propext, Quot.sound",
"Coniks.Props.C72_base": "propext, Classical.choice, Quot.sound",
"Coniks.Props.C72_compare": "propext, Classical.choice, Quot.sound",
"Coniks.Props.C72_compare_comment_wrong": "propext, Classical.choice, Quot.sound",
"Coniks.Props.C72_constants": "propext, Classical.choice, Quot.sound",
"Coniks.Props.C72_key_pair": "propext, Classical.choice, Quot.sound",
"Coniks.Props.C72_private_key": "propext, Classical.choice, Quot.sound",
"Coniks.Props.C72_public_key": "propext, Classical.choice, Quot.sound",
"Coniks.Props.C72_public_key_collisions": "propext, Classical.choice, Quot.sound",
"Coniks.Props.C72_public_key_multiple": "propext, Classical.choice, Quot.sound",
"Coniks.Props.C72_representative": "propext, Classical.choice, Quot.sound",
"Coniks.Props.C72_round_trip": "propext, Classical.choice, Quot.sound",
"Coniks.Props.C72_same_group": "propext, Classical.choice, Quot.sound",
"Coniks.Props.C72_scalar_base_mult": "propext, Classical.choice, Quot.sound",
"Coniks.Props.C72_scalar_base_mult_order": "propext, Classical.choice, Quot.sound",
"Coniks.Props.C73_answers_written": "propext, Classical.choice, Quot.sound",
"Coniks.Props.C73_grammar": "propext, Classical.choice, Quot.sound",
"Coniks.Props.C73_refused": "propext, Classical.choice, Quot.sound",
"Coniks.Props.C73_requests_written": "propext, Classical.choice, Quot.sound",
"Coniks.Props.C73_unique": "propext, Classical.choice, Quot.sound",
"Coniks.Props.C74_audit": "propext, Classical.choice, Quot.sound",
"Coniks.Props.C74_audit_exact": "propext, Classical.choice, Quot.sound",
"Coniks.Props.C74_broken_promise": "propext, Classical.choice, Quot.sound",
"Coniks.Props.C74_equivocation": "propext, Classical.choice, Quot.sound",
"Coniks.Props.C74_reason": "propext, Classical.choice, Quot.sound",
"Coniks.Props.C74_state": "propext, Classical.choice, Quot.sound",
"Coniks.Props.C75_answers": "propext, Classical.choice, Quot.sound",
"Coniks.Props.C75_cells": "propext, Quot.sound",
"Coniks.Props.C75_code": "propext, Classical.choice, Quot.sound",
"Coniks.Props.C75_marshal": "propext, Classical.choice, Quot.sound",
"Coniks.Props.C75_writes": "propext, Classical.choice, Quot.sound",
"Coniks.Props.C75_writes_counterexample": "propext, Classical.choice, Quot.sound",
"Coniks.Props.C76_batch": "propext, Quot.sound",
"Coniks.Props.C76_contents": "propext, Classical.choice, Quot.sound",
"Coniks.Props.C76_delete_lasts": "propext, Classical.choice, Quot.sound",
"Coniks.Props.C76_failures": "propext",
"Coniks.Props.C76_prefix_scan": "propext, Classical.choice, Quot.sound",
"Coniks.Props.C76_put_lasts": "propext, Classical.choice, Quot.sound",
"Coniks.Props.C76_scan": "propext, Classical.choice, Quot.sound",
"Coniks.Props.C77_add": "propext, Classical.choice, Quot.sound",
"Coniks.Props.C77_cmove": "propext, Classical.choice, Quot.sound",
"Coniks.Props.C77_double": "propext, Classical.choice, Quot.sound",
"Coniks.Props.C77_field": "propext, Classical.choice, Quot.sound",
"Coniks.Props.C77_fromBytes": "propext, Classical.choice, Quot.sound",
"Coniks.Props.C77_fromParityAndY": "propext, Classical.choice, Quot.sound",
"Coniks.Props.C77_montgomery": "propext, Classical.choice, Quot.sound",
"Coniks.Props.C77_multiples": "propext, Classical.choice, Quot.sound",
"Coniks.Props.C77_powers": "propext, Classical.choice, Quot.sound",
"Coniks.Props.C77_scalars": "propext, Classical.choice, Quot.sound",
"Coniks.Props.C77_toBytes": "propext, Classical.choice, Quot.sound",
"Coniks.Props.C77_toExtended": "propext, Classical.choice, Quot.sound",
"Coniks.Props.C78_answered": "propext, Classical.choice, Quot.sound",
"Coniks.Props.C78_linearizable": "propext, Classical.choice, Quot.sound",
"Coniks.Props.C78_no_deadlock": "propext, Classical.choice, Quot.sound",
"Coniks.Props.C78_reader_preference_counterexample": "propext, Classical.choice, Quot.sound",
"Coniks.Props.C78_reader_waits_for_one_writer": "propext, Classical.choice, Quot.sound",
"Coniks.Props.C78_writer_not_overtaken": "propext, Classical.choice, Quot.sound",
"Coniks.Props.C79_after_crash_partial": "propext, Classical.choice, Quot.sound",
"Coniks.Props.C79_crash_counterexample": "propext, Classical.choice, Quot.sound",
"Coniks.Props.C79_default_bot": "propext, Classical.choice, Quot.sound",
"Coniks.Props.C79_default_client_counterexample": "propext, Classical.choice, Quot.sound",
"Coniks.Props.C79_default_counterexample": "propext, Classical.choice, Quot.sound",
"Coniks.Props.C79_failed_start": "propext, Classical.choice, Quot.sound",
"Coniks.Props.C79_plain_unix_address": "propext, Classical.choice, Quot.sound",
"Coniks.Props.C79_reach": "propext, Classical.choice, Quot.sound",
"Coniks.Props.C79_relative_path_counterexample": "propext, Classical.choice, Quot.sound",
"Coniks.Props.C79_restart": "propext, Classical.choice, Quot.sound",
"Coniks.Props.C79_start_iff": "propext, Classical.choice, Quot.sound",
"Coniks.Props.C79_takeover_counterexample": "propext, Classical.choice, Quot.sound",
"Coniks.Props.C79_tcp_address": "propext, Classical.choice, Quot.sound",
"Coniks.Props.C79_unix_address": "propext, Classical.choice, Quot.sound",
"Coniks.Props.C79_who_answers": "propext, Classical.choice, Quot.sound",
"Coniks.Props.C80_failed_run_counterexample": "propext, Classical.choice, Quot.sound",
"Coniks.Props.C80_history_counterexample": "propext, Classical.choice, Quot.sound",
"Coniks.Props.C80_history_partial": "propext, Classical.choice, Quot.sound",
"Coniks.Props.C80_stays": "propext, Classical.choice, Quot.sound",
"Coniks.Props.C80_written_iff": "propext, Quot.sound",
"Coniks.Props.C81_default": "propext, Classical.choice, Quot.sound",
"Coniks.Props.C81_ignored": "propext, Classical.choice, Quot.sound",
"Coniks.Props.C81_init_keeps": "propext, Classical.choice, Quot.sound",
"Coniks.Props.C81_init_then_run": "propext, Classical.choice, Quot.sound",
"Coniks.Props.C81_message": "propext, Classical.choice, Quot.sound",
"Coniks.Props.C81_no_crash": "propext, Classical.choice, Quot.sound",
"Coniks.Props.C81_owner": "propext, Classical.choice, Quot.sound",
"Coniks.Props.C81_relative_counterexample": "propext, Classical.choice, Quot.sound",
"Coniks.Props.C81_runs_iff": "propext, Quot.sound",
"Coniks.Props.C81_stale_counterexample": "propext, Classical.choice, Quot.sound",
"Coniks.Props.C81_untouched": "propext, Classical.choice, Quot.sound",
"Coniks.Props.C82_command": "propext, Classical.choice, Quot.sound",
"Coniks.Props.C82_deep_paths_cut": "propext, Classical.choice, Quot.sound",
"Coniks.Props.C82_every_session": "propext, Classical.choice, Quot.sound",
"Coniks.Props.C82_lines": "propext, Classical.choice, Quot.sound",
"Coniks.Props.C82_lockout_counterexample": "propext, Classical.choice, Quot.sound",
"Coniks.Props.C82_no_crash": "propext, Classical.choice, Quot.sound",
"Coniks.Props.C82_perfect": "propext, Classical.choice, Quot.sound",
"Coniks.Props.C82_retry": "propext, Classical.choice, Quot.sound",
"Coniks.Props.C82_session": "propext, Classical.choice, Quot.sound",
"Coniks.Props.C83_all_fit": "propext, Classical.choice, Quot.sound",
"Coniks.Props.C83_answers": "propext, Classical.choice, Quot.sound",
"Coniks.Props.C83_cli": "propext, Classical.choice, Quot.sound",
"Coniks.Props.C83_go_all_fit": "propext, Classical.choice, Quot.sound",
"Coniks.Props.C83_go_sizes": "propext, Classical.choice, Quot.sound",
"Coniks.Props.C83_requests": "propext, Classical.choice, Quot.sound",
"Coniks.Props.C83_session": "propext, Classical.choice, Quot.sound",
"Coniks.Props.C84_agreement": "propext, Classical.choice, Quot.sound",
"Coniks.Props.C84_besieged": "propext, Classical.choice, Quot.sound",
"Coniks.Props.C84_everybody_served": "propext, Classical.choice, Quot.sound",
"Coniks.Props.C84_isolated": "propext, Quot.sound",
"Coniks.Props.C84_shown_once_shown_always": "propext, Classical.choice, Quot.sound",
"Coniks.Props.C85_anew": "propext, Classical.choice, Quot.sound",
"Coniks.Props.C85_check": "propext, Classical.choice, Quot.sound",
"Coniks.Props.C85_diligent_auditor": "propext, Classical.choice, Quot.sound",
"Coniks.Props.C85_exact": "propext, Classical.choice, Quot.sound",
"Coniks.Props.C85_false_alarm_counterexample": "propext, Classical.choice, Quot.sound",
"Coniks.Props.C85_late_auditor_counterexample": "propext, Classical.choice, Quot.sound",
"Coniks.Props.C85_no_false_alarm": "propext, Classical.choice, Quot.sound",
"Coniks.Props.C86_check_exact": "propext, Quot.sound",
"Coniks.Props.C86_fork_caught": "propext, Classical.choice, Quot.sound",
"Coniks.Props.C86_one_history": "propext, Classical.choice, Quot.sound",
"Coniks.Props.C86_same_past": "propext, Classical.choice, Quot.sound",
"Coniks.Props.C86_same_signature": "propext, Classical.choice, Quot.sound",
"Coniks.Props.C86_same_str": "propext, Classical.choice, Quot.sound",
"Coniks.Props.C86_same_view": "propext, Classical.choice, Quot.sound",
"Coniks.Props.C86_two_auditors_counterexample": "propext, Classical.choice, Quot.sound",
"Coniks.Props.C87_agreement": "propext, Classical.choice, Quot.sound",
"Coniks.Props.C87_answers": "propext, Classical.choice, Quot.sound",
"Coniks.Props.C87_every_order": "propext, Classical.choice, Quot.sound",
"Coniks.Props.C87_everybody_served": "propext, Classical.choice, Quot.sound",
"Coniks.Props.C87_no_crash": "propext, Classical.choice, Quot.sound",
"Coniks.Props.C87_one_by_one": "propext, Classical.choice, Quot.sound",
"Coniks.Props.C87_progress": "propext, Classical.choice, Quot.sound",
"Coniks.Props.C87_real_time": "propext, Classical.choice, Quot.sound",
"Coniks.Props.C88_audit_panics_iff": "propext, Quot.sound",
"Coniks.Props.C88_crash_counterexample": "propext, Quot.sound",
"Coniks.Props.C88_honest": "propext, Classical.choice, Quot.sound",
"Coniks.Props.C88_log_panics_iff": "propext, Quot.sound",
"Coniks.Props.C88_total_partial": "propext, Quot.sound",
"Coniks.Props.C88_wire_counterexample": "propext, Classical.choice, Quot.sound",
"Coniks.Props.C89_bad_address_counterexample": "propext, Classical.choice, Quot.sound",
"Coniks.Props.C89_down": "propext, Classical.choice, Quot.sound",
"Coniks.Props.C89_lines": "propext, Classical.choice, Quot.sound",
"Coniks.Props.C89_no_crash": "propext, Classical.choice, Quot.sound",
"Coniks.Props.C89_private": "propext, Classical.choice, Quot.sound",
"Coniks.Props.C89_session": "propext, Classical.choice, Quot.sound",
"Coniks.Props.C90_behind": "propext, Classical.choice, Quot.sound",
"Coniks.Props.C90_holds": "propext, Classical.choice, Quot.sound",
"Coniks.Props.C90_locked": "propext, Classical.choice, Quot.sound",
"Coniks.Props.C90_other_server": "propext, Classical.choice, Quot.sound",
"Coniks.Props.C90_restart": "propext, Classical.choice, Quot.sound",
"Coniks.Props.C91_found": "propext, Classical.choice, Quot.sound",
"Coniks.Props.C91_owner": "propext, Classical.choice, Quot.sound",
"Coniks.Props.C91_served": "propext, Classical.choice, Quot.sound",
"Coniks.Props.C92_auditor": "propext, Quot.sound",
"Coniks.Props.C92_auditor_iff": "propext, Quot.sound",
"Coniks.Props.C92_directory": "propext, Classical.choice, Quot.sound",
"Coniks.Props.C92_forever_counterexample": "propext, Classical.choice, Quot.sound",
"Coniks.Props.C92_last_epoch_counterexample": "propext, Classical.choice, Quot.sound",
"Coniks.Props.C93_crash": "propext, Classical.choice, Quot.sound",
"Coniks.Props.C93_exact": "propext, Classical.choice, Quot.sound",
"Coniks.Props.C93_no_false_alarm": "propext, Classical.choice, Quot.sound",
"Coniks.Props.C94_commitments_counterexample": "propext, Classical.choice, Quot.sound",
"Coniks.Props.C94_told_the_same": "propext, Quot.sound"
}