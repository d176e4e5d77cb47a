# output of `#print axioms` for every theorem named in MANIFEST.json
'Verif.C01_lenenc_int_roundtrip' depends on axioms: [propext, Classical.choice, Quot.sound]
'Verif.C01_lenenc_str_roundtrip' depends on axioms: [propext, Classical.choice, Quot.sound]
'Verif.C01_conforms' depends on axioms: [propext, Classical.choice, Quot.sound]
'Verif.C01_conforms_str' depends on axioms: [propext, Classical.choice, Quot.sound]
'Verif.C01_predicted_size' depends on axioms: [propext, Quot.sound]
'Verif.C01_first_byte' depends on axioms: [propext, Quot.sound]
'Verif.C01_read_consumes' depends on axioms: [propext, Quot.sound]
'Verif.C01_markers_read_as_zero' depends on axioms: [propext]
'Verif.C01_short_prefix' depends on axioms: [propext, Classical.choice, Quot.sound]
'Verif.C01_read_u32' does not depend on any axioms
'Verif.C02_write_frames' depends on axioms: [propext, Quot.sound]
'Verif.C02_receiver_recovers' depends on axioms: [propext, Classical.choice, Quot.sound]
'Verif.C02_wire_size' depends on axioms: [propext, Quot.sound]
'Verif.C02_faulty_write' depends on axioms: [propext, Quot.sound]
'Verif.C02_injective' depends on axioms: [propext, Classical.choice, Quot.sound]
'Verif.C03_read_frames' depends on axioms: [propext, Classical.choice, Quot.sound]
'Verif.C03_roundtrip' depends on axioms: [propext, Classical.choice, Quot.sound]
'Verif.C03_accepts_what_spec_accepts' depends on axioms: [propext, Classical.choice, Quot.sound]
'Verif.C04_only_in_sync' depends on axioms: [propext, Classical.choice, Quot.sound]
'Verif.C04_wrong_seq_is_error' depends on axioms: [propext, Classical.choice, Quot.sound]
'Verif.C04_wrong_first_seq' depends on axioms: [propext, Classical.choice, Quot.sound]
'Verif.C04_no_panic' depends on axioms: [propext, Quot.sound]
'Verif.C04_truncated_is_error' depends on axioms: [propext, Classical.choice, Quot.sound]
'Verif.C05_params_reach_server' depends on axioms: [propext, Classical.choice, Quot.sound]
'Verif.C05_params_with_long_data' depends on axioms: [propext, Classical.choice, Quot.sound]
'Verif.C05_value_self_delimiting' depends on axioms: [propext, Classical.choice, Quot.sound]
'Verif.C05_meaning_injective' depends on axioms: [propext, Quot.sound]
'Verif.C05_types' depends on axioms: [propext, Classical.choice, Quot.sound]
'Verif.C06_params_reach_server' depends on axioms: [propext, Classical.choice, Quot.sound]
'Verif.C06_large_uses_long_data' depends on axioms: [propext, Classical.choice, Quot.sound]
'Verif.C07_size_partial' depends on axioms: [propext, Quot.sound]
'Verif.C07_zero_date_violated' does not depend on any axioms
'Verif.C07_exact_partial' depends on axioms: [propext, Quot.sound]
'Verif.C07_zero_iff_null' depends on axioms: [propext, Quot.sound]
'Verif.C07_error_bound' depends on axioms: [propext, Classical.choice, Quot.sound]
'Verif.C08_bitmap' depends on axioms: [propext, Classical.choice, Quot.sound]
'Verif.C08_set_isolated' depends on axioms: [propext, Classical.choice, Quot.sound]
'Verif.C08_read_agrees' depends on axioms: [propext, Quot.sound]
'Verif.C09_row_decodes' depends on axioms: [propext, Classical.choice, Quot.sound]
'Verif.C09_null_bits' depends on axioms: [propext, Quot.sound]
'Verif.C09_row_roundtrip' depends on axioms: [propext, Classical.choice, Quot.sound]
'Verif.C10_integers_exact' depends on axioms: [propext, Classical.choice, Quot.sound]
'Verif.C10_row_decodes' depends on axioms: [propext, Classical.choice, Quot.sound]
'Verif.C10_long_blob_violated' depends on axioms: [propext, Quot.sound]
'Verif.C10_long_fraction_violated' depends on axioms: [propext]
'Verif.C11_row_is_not_the_end' depends on axioms: [propext, Classical.choice, Quot.sound]
'Verif.C11_terminator_is_the_end' depends on axioms: [propext, Classical.choice, Quot.sound]
'Verif.C11_skipping_stops_at_the_terminator' depends on axioms: [propext, Classical.choice, Quot.sound]
'Verif.C11_ambiguous_marker' depends on axioms: [propext, Quot.sound]
'Verif.C12_next' depends on axioms: [propext, Classical.choice, Quot.sound]
'Verif.C12_after_the_end' depends on axioms: [propext, Quot.sound]
'Verif.C12_collect' depends on axioms: [propext, Classical.choice, Quot.sound]
'Verif.C12_one' depends on axioms: [propext, Classical.choice, Quot.sound]
'Verif.C12_query_collect' depends on axioms: [propext, Classical.choice, Quot.sound]
'Verif.C12_statement_collect' depends on axioms: [propext, Classical.choice, Quot.sound]
'Verif.C13_command_after_abandoning' depends on axioms: [propext, Classical.choice, Quot.sound]
'Verif.C13_second_query' depends on axioms: [propext, Classical.choice, Quot.sound]
'Verif.C14_execute_query' depends on axioms: [propext, Classical.choice, Quot.sound]
'Verif.C14_query' depends on axioms: [propext, Classical.choice, Quot.sound]
'Verif.C14_prepare' depends on axioms: [propext, Classical.choice, Quot.sound]
'Verif.C14_statement_execute' depends on axioms: [propext, Classical.choice, Quot.sound]
'Verif.C14_statement_query' depends on axioms: [propext, Classical.choice, Quot.sound]
'Verif.C15_execute_query' depends on axioms: [propext, Classical.choice, Quot.sound]
'Verif.C15_statement_execute' depends on axioms: [propext, Classical.choice, Quot.sound]
'Verif.C15_query' depends on axioms: [propext, Classical.choice, Quot.sound]
'Verif.C15_session_state' depends on axioms: [propext, Classical.choice, Quot.sound]
'Verif.C15_status_bits' depends on axioms: [propext, Quot.sound]
'Verif.C16_summary_partial' depends on axioms: [propext, Classical.choice, Quot.sound]
'Verif.C16_exact_partial' depends on axioms: [propext, Classical.choice, Quot.sound]
'Verif.C16_violated' depends on axioms: [propext, Quot.sound]
'Verif.C17_mismatch_refused' depends on axioms: [propext, Quot.sound]
'Verif.C17_match_sent' depends on axioms: [propext, Classical.choice, Quot.sound]
'Verif.C18_prepare' depends on axioms: [propext, Classical.choice, Quot.sound]
'Verif.C18_param_count_bound' depends on axioms: [propext, Quot.sound]
'Verif.C19_sent' depends on axioms: [propext, Quot.sound]
'Verif.C19_any_state' depends on axioms: [propext, Quot.sound]
'Verif.C19_short_query_bytes' depends on axioms: [propext, Quot.sound]
'Verif.C20_no_break_out' depends on axioms: [propext, Quot.sound]
'Verif.C20_content_partial' depends on axioms: [propext, Quot.sound]
'Verif.C20_injective_partial' depends on axioms: [propext, Quot.sound]
'Verif.C20_exact_partial' depends on axioms: [propext, Quot.sound]
'Verif.C20_text_injective' depends on axioms: [propext, Classical.choice, Quot.sound]
'Verif.C20_ctrl_z_violated' depends on axioms: [propext]
'Verif.C21_one_identifier' depends on axioms: [propext, Classical.choice, Quot.sound]
'Verif.C21_only_whitespace' depends on axioms: [propext, Classical.choice, Quot.sound]
'Verif.C21_proper_unchanged' depends on axioms: [propext, Classical.choice, Quot.sound]
'Verif.C22_only_allowed' depends on axioms: [propext, Classical.choice, Quot.sound]
'Verif.C22_keeps_allowed' depends on axioms: [propext, Classical.choice, Quot.sound]
'Verif.C22_allowed_unchanged' depends on axioms: [propext, Classical.choice, Quot.sound]
'Verif.C22_idempotent' depends on axioms: [propext, Classical.choice, Quot.sound]
'Verif.C23_integers' depends on axioms: [propext, Classical.choice, Quot.sound]
'Verif.C23_one_literal' depends on axioms: [propext, Classical.choice, Quot.sound]
'Verif.C23_date_partial' depends on axioms: [propext, Classical.choice, Quot.sound]
'Verif.C23_date_exact_partial' depends on axioms: [propext, Classical.choice, Quot.sound]
'Verif.C23_time_partial' depends on axioms: [propext, Classical.choice, Quot.sound]
'Verif.C23_datetime_partial' depends on axioms: [propext, Classical.choice, Quot.sound]
'Verif.C23_bytes' depends on axioms: [propext, Classical.choice, Quot.sound]
'Verif.C23_bytes_exact_partial' depends on axioms: [propext, Classical.choice, Quot.sound]
'Verif.C23_empty_bytes_violated' depends on axioms: [propext, Quot.sound]
'Verif.C23_wide_violated' depends on axioms: [propext, Classical.choice, Quot.sound]
'Verif.C23_time_exact_partial' depends on axioms: [propext, Classical.choice, Quot.sound]
'Verif.C23_datetime_exact_partial' depends on axioms: [propext, Classical.choice, Quot.sound]
'Verif.C24_from_str_exact' depends on axioms: [propext, Classical.choice, Quot.sound]
'Verif.C24_try_from_hex_partial' depends on axioms: [propext, Quot.sound]
'Verif.C24_round_trip' depends on axioms: [propext, Classical.choice, Quot.sound]
'Verif.C24_short_violated' depends on axioms: [propext]
'Verif.C24_exact_partial' depends on axioms: [propext, Quot.sound]
'Verif.C25_round_trip' depends on axioms: [propext, Classical.choice, Quot.sound]
'Verif.C25_option_round_trip' depends on axioms: [propext, Classical.choice, Quot.sound]
'Verif.C25_other_kind_rejected' depends on axioms: [propext]
'Verif.C25_same_kind_accepted' depends on axioms: [propext, Classical.choice, Quot.sound]
'Verif.C25_bool' depends on axioms: [propext]
'Verif.C25_negative_bool_violated' depends on axioms: [propext]
'Verif.C25_exact' depends on axioms: [propext, Classical.choice, Quot.sound]
'Verif.C25_option_exact' depends on axioms: [propext, Classical.choice, Quot.sound]
'Verif.C26_read_date' depends on axioms: [propext, Classical.choice, Quot.sound]
'Verif.C26_read_datetime' depends on axioms: [propext, Classical.choice, Quot.sound]
'Verif.C26_date_round_trip' depends on axioms: [propext, Quot.sound]
'Verif.C26_datetime_round_trip' depends on axioms: [propext, Quot.sound]
'Verif.C26_datetime_exact' depends on axioms: [propext, Classical.choice, Quot.sound]
'Verif.C26_other_kinds' depends on axioms: [propext]
'Verif.C27_from_time' depends on axioms: [propext, Quot.sound]
'Verif.C27_no_overflow' depends on axioms: [propext, Quot.sound]
'Verif.C27_to_time_partial' depends on axioms: [propext, Classical.choice, Quot.sound]
'Verif.C27_sign_violated' depends on axioms: [propext]
'Verif.C27_days_violated' does not depend on any axioms
'Verif.C27_round_trip_partial' depends on axioms: [propext, Classical.choice, Quot.sound]
'Verif.C27_written_partial' depends on axioms: [propext, Classical.choice, Quot.sound]
'Verif.C27_survives_partial' depends on axioms: [propext, Classical.choice, Quot.sound]
'Verif.C28_only_through_digests' depends on axioms: [propext, Classical.choice, Quot.sound]
'Verif.C28_messages' depends on axioms: [propext, Classical.choice, Quot.sound]
'Verif.C28_permission' depends on axioms: [propext, Classical.choice, Quot.sound]
'Verif.C29_only_forced' depends on axioms: [propext, Classical.choice, Quot.sound]
'Verif.C29_switch_refused' depends on axioms: [propext, Classical.choice, Quot.sound]
'Verif.C30_terminates' depends on axioms: [propext, Classical.choice, Quot.sound]
'Verif.C30_bounded' depends on axioms: [propext, Classical.choice, Quot.sound]
'Verif.C30_second_switch' depends on axioms: [propext, Classical.choice, Quot.sound]
'Verif.C31_native' depends on axioms: [propext, Classical.choice, Quot.sound]
'Verif.C31_sha2' depends on axioms: [propext, Classical.choice, Quot.sound]
'Verif.C31_empty' depends on axioms: [propext, Quot.sound]
'Verif.C32_accepted_partial' depends on axioms: [propext, Classical.choice, Quot.sound]
'Verif.C32_native_accepted' depends on axioms: [propext, Classical.choice, Quot.sound]
'Verif.C32_fast_path_violated' depends on axioms: [propext, Classical.choice, Quot.sound]
'Verif.C33_decodes' depends on axioms: [propext, Classical.choice, Quot.sound]
'Verif.C33_size' depends on axioms: [propext, Classical.choice, Quot.sound]
'Verif.C33_too_long' depends on axioms: [propext, Quot.sound]
'Verif.C33_exact_partial' depends on axioms: [propext, Classical.choice, Quot.sound]
'Verif.C33_limit_violated' depends on axioms: [propext, Quot.sound]
'Verif.C34_block_partial' depends on axioms: [propext, Classical.choice, Quot.sound]
'Verif.C34_decrypts_partial' depends on axioms: [propext, Classical.choice, Quot.sound]
'Verif.C34_no_panic_partial' depends on axioms: [propext, Classical.choice, Quot.sound]
'Verif.C34_bits_one_violated' depends on axioms: [propext, Quot.sound]
'Verif.C34_short_violated' depends on axioms: [propext, Quot.sound]
'Verif.C34_exact_partial' depends on axioms: [propext, Classical.choice, Quot.sound]
'Verif.C35_pkcs1' depends on axioms: [propext, Classical.choice, Quot.sound]
'Verif.C35_pkcs8' depends on axioms: [propext, Classical.choice, Quot.sound]
'Verif.C35_other_markers' depends on axioms: [propext, Classical.choice, Quot.sound]
'Verif.C35_overlap_violated' depends on axioms: [propext, Classical.choice, Quot.sound]
'Verif.C35_exact' depends on axioms: [propext, Classical.choice, Quot.sound]
'Verif.C35_short_violated' depends on axioms: [propext, Classical.choice, Quot.sound]
'Verif.C36_recorded_partial' depends on axioms: [propext, Classical.choice, Quot.sound]
'Verif.C36_data_len_violated' depends on axioms: [propext, Classical.choice, Quot.sound]
'Verif.C36_version_violated' depends on axioms: [propext, Classical.choice, Quot.sound]
'Verif.C36_mariadb_violated' depends on axioms: [propext, Classical.choice, Quot.sound]
'Verif.C37_login_partial' depends on axioms: [propext, Classical.choice, Quot.sound]
'Verif.C37_exact_partial' depends on axioms: [propext, Classical.choice, Quot.sound]
'Verif.C37_nul_violated' depends on axioms: [propext, Classical.choice, Quot.sound]
'Verif.C37_long_violated' depends on axioms: [propext, Classical.choice, Quot.sound]
'Verif.C38_limit' depends on axioms: [propext, Quot.sound]
'Verif.C38_exclusive' depends on axioms: [propext, Quot.sound]
'Verif.C39_kept' depends on axioms: [propext, Quot.sound]
'Verif.C39_returned' depends on axioms: [propext, Quot.sound]
'Verif.C39_handed_out' depends on axioms: [propext]
'Verif.C40_never_woken_violated' depends on axioms: [propext]
'Verif.C40_asleep_violated' depends on axioms: [propext]
'Verif.C40_after_register_partial' depends on axioms: [propext]
'Verif.C41_capacity_partial' depends on axioms: [propext, Quot.sound]
'Verif.C41_exhausted_violated' depends on axioms: [propext, Quot.sound]
'Verif.C41_history_violated' depends on axioms: [propext]
'Verif.C42_buffers' depends on axioms: [propext, Quot.sound]
'Verif.C42_buffer_pool' depends on axioms: [propext, Quot.sound]
'Verif.C43_timeout' does not depend on any axioms
'Verif.C43_pending' depends on axioms: [propext]
'Verif.C44_runs' depends on axioms: [propext, Classical.choice, Quot.sound]
'Verif.C44_records' depends on axioms: [propext, Classical.choice, Quot.sound]
'Verif.C44_again' depends on axioms: [propext, Classical.choice, Quot.sound]
'Verif.C44_same_name' depends on axioms: [propext, Classical.choice, Quot.sound]
'Verif.C45_runs' depends on axioms: [propext, Classical.choice, Quot.sound]
'Verif.C45_records' depends on axioms: [propext, Classical.choice, Quot.sound]
'Verif.C45_one_none' depends on axioms: [propext, Classical.choice, Quot.sound]
'Verif.C45_one' depends on axioms: [propext, Classical.choice, Quot.sound]
'Verif.C46_exact' depends on axioms: [propext, Classical.choice, Quot.sound]
'Verif.C47_up_partial' depends on axioms: [propext, Classical.choice, Quot.sound]
'Verif.C47_down_partial' depends on axioms: [propext, Classical.choice, Quot.sound]
'Verif.C47_new' depends on axioms: [propext, Classical.choice, Quot.sound]
'Verif.C47_resume' depends on axioms: [propext, Classical.choice, Quot.sound]
'Verif.C47_up_runs_partial' depends on axioms: [propext, Classical.choice, Quot.sound]
'Verif.C47_down_runs_partial' depends on axioms: [propext, Classical.choice, Quot.sound]
'Verif.C47_to_version_partial' depends on axioms: [propext, Classical.choice, Quot.sound]
'Verif.C47_reuse_violated' depends on axioms: [propext]
'Verif.C48_lexicographic' depends on axioms: [propext, Classical.choice, Quot.sound]
'Verif.C48_operators' depends on axioms: [propext, Classical.choice, Quot.sound]
'Verif.C48_total' depends on axioms: [propext, Classical.choice, Quot.sound]
'Verif.C48_ordered' depends on axioms: [propext, Classical.choice, Quot.sound]
'Verif.C48_display' depends on axioms: [propext, Classical.choice, Quot.sound]
'Verif.C49_literal_partial' depends on axioms: [propext, Classical.choice, Quot.sound]
'Verif.C49_insert_plain_partial' depends on axioms: [propext, Classical.choice, Quot.sound]
'Verif.C49_delete_plain_partial' depends on axioms: [propext, Classical.choice, Quot.sound]
'Verif.C49_insert_partial' depends on axioms: [propext, Classical.choice, Quot.sound]
'Verif.C49_delete_partial' depends on axioms: [propext, Classical.choice, Quot.sound]
'Verif.C49_quote_violated' depends on axioms: [propext, Classical.choice, Quot.sound]
'Verif.C49_backslash_violated' depends on axioms: [propext, Classical.choice, Quot.sound]
'Verif.C50_query' depends on axioms: [propext, Classical.choice, Quot.sound]
'Verif.C50_fits' depends on axioms: [propext, Classical.choice, Quot.sound]
'Verif.C50_own_table' depends on axioms: [propext, Classical.choice, Quot.sound]
'Verif.C50_own_table_nested' depends on axioms: [propext, Classical.choice, Quot.sound]
'Verif.C51_insert' depends on axioms: [propext, Classical.choice, Quot.sound]
'Verif.C51_update' depends on axioms: [propext, Classical.choice, Quot.sound]
'Verif.C51_insert_sent' depends on axioms: [propext, Classical.choice, Quot.sound]
'Verif.C51_update_sent' depends on axioms: [propext, Classical.choice, Quot.sound]
'Verif.C52_insert' depends on axioms: [propext, Classical.choice, Quot.sound]
'Verif.C52_insert_fails' depends on axioms: [propext, Classical.choice, Quot.sound]
'Verif.C52_fields' depends on axioms: [propext, Quot.sound]
'Verif.C52_update' depends on axioms: [propext, Classical.choice, Quot.sound]
'Verif.C52_update_fails' depends on axioms: [propext, Classical.choice, Quot.sound]
'Verif.C52_update_nothing' depends on axioms: [propext, Classical.choice, Quot.sound]
'Verif.C52_whole' depends on axioms: [propext, Quot.sound]
'Verif.C53_packets' depends on axioms: [propext, Classical.choice, Quot.sound]
'Verif.C53_fields' depends on axioms: [propext, Quot.sound]
'Verif.C53_binary_rows_partial' depends on axioms: [propext, Quot.sound]
'Verif.C53_text_rows_partial' depends on axioms: [propext, Quot.sound]
'Verif.C53_calls_partial' depends on axioms: [propext, Classical.choice, Quot.sound]
'Verif.C53_execute_partial' depends on axioms: [propext, Classical.choice, Quot.sound]
'Verif.C53_head_partial' depends on axioms: [propext, Classical.choice, Quot.sound]
'Verif.C53_empty_row_violated' depends on axioms: [propext, Quot.sound]
'Verif.C53_empty_leftover_violated' depends on axioms: [propext, Classical.choice, Quot.sound]
'Verif.C53_local_infile_violated' depends on axioms: [propext, Quot.sound]
'Verif.C53_columns_violated' depends on axioms: [propext, Classical.choice, Quot.sound]
'Verif.C53_text_types_violated' depends on axioms: [propext, Quot.sound]
'Verif.C53_binary_types_violated' depends on axioms: [propext, Quot.sound]
'Verif.C53_fraction_violated' depends on axioms: [propext, Classical.choice, Quot.sound]
'Verif.C53_refused_violated' depends on axioms: [propext, Classical.choice, Quot.sound]
'Verif.C53_key_violated' depends on axioms: [propext, Classical.choice, Quot.sound]
'Verif.C54_column_partial' depends on axioms: [propext, Classical.choice, Quot.sound]
'Verif.C54_result_columns_partial' depends on axioms: [propext, Classical.choice, Quot.sound]
'Verif.C54_type_codes' depends on axioms: [propext]
'Verif.C54_long_name_violated' depends on axioms: [propext, Classical.choice, Quot.sound]
'Verif.C54_exact_partial' depends on axioms: [propext, Classical.choice, Quot.sound]
'Verif.C55_used' depends on axioms: [propext, Classical.choice, Quot.sound]
'Verif.C55_database' depends on axioms: [propext, Classical.choice, Quot.sound]
'Verif.C55_words' depends on axioms: [propext, Quot.sound]
'Verif.C55_status_word' depends on axioms: [propext, Quot.sound]
'Verif.C55_claim_violated' depends on axioms: [propext, Classical.choice, Quot.sound]
'Verif.C55_flags' depends on axioms: [propext, Classical.choice, Quot.sound]
'Verif.C56_answers_partial' depends on axioms: [propext, Classical.choice, Quot.sound]
'Verif.C56_answers_violated' depends on axioms: [propext, Classical.choice, Quot.sound]
'Verif.C57_asked' depends on axioms: [propext, Classical.choice, Quot.sound]
'Verif.C57_not_asked' depends on axioms: [propext, Classical.choice, Quot.sound]
'Verif.C57_configured' depends on axioms: [propext, Classical.choice, Quot.sound]
'Verif.C57_question' depends on axioms: [propext, Classical.choice, Quot.sound]
'Verif.C58_classified' depends on axioms: [propext, Classical.choice, Quot.sound]
'Verif.C59_not_the_end_partial' depends on axioms: [propext, Classical.choice, Quot.sound]
'Verif.C59_reported_violated' depends on axioms: [propext, Classical.choice, Quot.sound]
'Verif.C59_row_from_error_violated' depends on axioms: [propext, Classical.choice, Quot.sound]
'Verif.C59_stuck_violated' depends on axioms: [propext, Classical.choice, Quot.sound]
'Verif.C60_columns_partial' depends on axioms: [propext, Classical.choice, Quot.sound]
'Verif.C60_rows_violated' depends on axioms: [propext, Classical.choice, Quot.sound]
'Verif.C60_next_command_violated' depends on axioms: [propext, Classical.choice, Quot.sound]
'Verif.C61_usable_partial' depends on axioms: [propext, Classical.choice, Quot.sound]
'Verif.C61_desync_violated' depends on axioms: [propext, Classical.choice, Quot.sound]
'Verif.C61_misattributed_violated' depends on axioms: [propext, Classical.choice, Quot.sound]
'Verif.C62_only_commands_partial' depends on axioms: [propext, Quot.sound]
'Verif.C62_never_closed_violated' depends on axioms: [propext, Quot.sound]
'Verif.C63_login' depends on axioms: [propext, Classical.choice, Quot.sound]
'Verif.C64_session' depends on axioms: [propext, Classical.choice, Quot.sound]
'Verif.C65_rows' depends on axioms: [propext, Classical.choice, Quot.sound]
'Verif.C65_models' depends on axioms: [propext, Classical.choice, Quot.sound]
'Verif.C66_insert' depends on axioms: [propext, Classical.choice, Quot.sound]
'Verif.C66_update' depends on axioms: [propext, Classical.choice, Quot.sound]
'Verif.C67_stored' depends on axioms: [propext, Quot.sound]
'Verif.C67_round_trip' depends on axioms: [propext, Classical.choice, Quot.sound]
'Verif.C68_up' depends on axioms: [propext, Classical.choice, Quot.sound]
'Verif.C68_down' depends on axioms: [propext, Classical.choice, Quot.sound]
'Verif.C68_to_version' depends on axioms: [propext, Classical.choice, Quot.sound]
'Verif.C68_one_down' depends on axioms: [propext, Classical.choice, Quot.sound]
'Verif.C68_sent' depends on axioms: [propext, Classical.choice, Quot.sound]
'Verif.C68_new' depends on axioms: [propext, Classical.choice, Quot.sound]
'Verif.C69_new' depends on axioms: [propext, Classical.choice, Quot.sound]
'Verif.C69_up_partial' depends on axioms: [propext, Classical.choice, Quot.sound]
'Verif.C69_down_partial' depends on axioms: [propext, Classical.choice, Quot.sound]
'Verif.C69_rows_partial' depends on axioms: [propext, Quot.sound]
'Verif.C69_sound' depends on axioms: [propext, Quot.sound]
'Verif.C69_rows_down' depends on axioms: [propext, Classical.choice, Quot.sound]
'Verif.C69_migrate_partial' depends on axioms: [propext, Classical.choice, Quot.sound]
'Verif.C69_retry_partial' depends on axioms: [propext, Classical.choice, Quot.sound]
'Verif.C69_collation_violated' depends on axioms: [propext, Classical.choice, Quot.sound]
'Verif.C69_long_violated' depends on axioms: [propext, Classical.choice, Quot.sound]
'Verif.C70_accepts' depends on axioms: [propext, Classical.choice, Quot.sound]
'Verif.C70_says' depends on axioms: [propext, Classical.choice, Quot.sound]
'Verif.C70_columns_partial' depends on axioms: [propext, Classical.choice, Quot.sound]
'Verif.C70_sides_partial' depends on axioms: [propext, Classical.choice, Quot.sound]
'Verif.C70_sound_partial' depends on axioms: [propext, Classical.choice, Quot.sound]
'Verif.C70_models_partial' depends on axioms: [propext, Classical.choice, Quot.sound]
'Verif.C70_example' depends on axioms: [propext, Classical.choice, Quot.sound]
'Verif.C70_example_sound' depends on axioms: [propext, Classical.choice, Quot.sound]
'Verif.C70_example_says' depends on axioms: [propext, Classical.choice, Quot.sound]
'Verif.C70_example_messages' depends on axioms: [propext, Classical.choice, Quot.sound]
'Verif.C70_raw_violated' depends on axioms: [propext, Classical.choice, Quot.sound]
'Verif.C70_raw_column_violated' depends on axioms: [propext, Classical.choice, Quot.sound]
'Verif.C70_raw_key_violated' depends on axioms: [propext, Classical.choice, Quot.sound]
'Verif.C70_silent_violated' depends on axioms: [propext, Classical.choice, Quot.sound]
'Verif.C70_index_violated' depends on axioms: [propext, Classical.choice, Quot.sound]
'Verif.C71_duration_partial' depends on axioms: [propext, Classical.choice, Quot.sound]
'Verif.C71_datetime_partial' depends on axioms: [propext, Classical.choice, Quot.sound]
'Verif.C71_value_partial' depends on axioms: [propext, Classical.choice, Quot.sound]
'Verif.C71_params_partial' depends on axioms: [propext, Classical.choice, Quot.sound]
'Verif.C71_echo_partial' depends on axioms: [propext, Classical.choice, Quot.sound]
'Verif.C71_text_partial' depends on axioms: [propext, Classical.choice, Quot.sound]
'Verif.C71_sign_violated' depends on axioms: [propext]
'Verif.C71_nanos_violated' depends on axioms: [propext]
'Verif.C71_example' depends on axioms: [propext, Classical.choice, Quot.sound]
'Verif.C71_example_values' depends on axioms: [propext, Classical.choice, Quot.sound]
'Verif.C72_reads_partial' depends on axioms: [propext, Classical.choice, Quot.sound]
'Verif.C72_fails_partial' depends on axioms: [propext, Classical.choice, Quot.sound]
'Verif.C72_example' depends on axioms: [propext, Classical.choice, Quot.sound]
'Verif.C72_example_missing' depends on axioms: [propext, Classical.choice, Quot.sound]
'Verif.C72_foreign_violated' depends on axioms: [propext, Classical.choice, Quot.sound]
'Verif.C72_foreign_nested_violated' depends on axioms: [propext, Classical.choice, Quot.sound]
'Verif.C73_error' depends on axioms: [propext, Classical.choice, Quot.sound]
'Verif.C73_progress' depends on axioms: [propext, Classical.choice, Quot.sound]
'Verif.C73_prepared' depends on axioms: [propext, Classical.choice, Quot.sound]
'Verif.C73_column' depends on axioms: [propext, Classical.choice, Quot.sound]
'Verif.C73_ok' depends on axioms: [propext, Classical.choice, Quot.sound]
'Verif.C73_switch' depends on axioms: [propext, Classical.choice, Quot.sound]
'Verif.C73_greeting' depends on axioms: [propext, Classical.choice, Quot.sound]
'Verif.C73_state' depends on axioms: [propext, Classical.choice, Quot.sound]
'Verif.C73_example_error' depends on axioms: [propext, Classical.choice, Quot.sound]
'Verif.C73_example_progress' depends on axioms: [propext, Quot.sound]
'Verif.C73_example_ok' depends on axioms: [propext, Quot.sound]
'Verif.C74_value' depends on axioms: [propext, Classical.choice, Quot.sound]
'Verif.C74_panic' depends on axioms: [propext, Classical.choice, Quot.sound]
'Verif.C74_row' depends on axioms: [propext, Classical.choice, Quot.sound]
'Verif.C74_row_panic' depends on axioms: [propext, Classical.choice, Quot.sound]
'Verif.C74_example' depends on axioms: [propext, Classical.choice, Quot.sound]
'Verif.C75_value' depends on axioms: [propext, Classical.choice, Quot.sound]
'Verif.C75_row' depends on axioms: [propext, Classical.choice, Quot.sound]
'Verif.C75_row_panic' depends on axioms: [propext, Classical.choice, Quot.sound]
'Verif.C75_example_shift' depends on axioms: [propext, Quot.sound]
'Verif.C76_packet' depends on axioms: [propext, Classical.choice, Quot.sound]
'Verif.C76_execute_ok' depends on axioms: [propext, Classical.choice, Quot.sound]
'Verif.C76_execute_error' depends on axioms: [propext, Classical.choice, Quot.sound]
'Verif.C76_prepare' depends on axioms: [propext, Classical.choice, Quot.sound]
'Verif.C76_prepare_error' depends on axioms: [propext, Classical.choice, Quot.sound]
'Verif.C76_head_rows' depends on axioms: [propext, Classical.choice, Quot.sound]
'Verif.C76_head_ok' depends on axioms: [propext, Classical.choice, Quot.sound]
'Verif.C76_head_kinds' depends on axioms: [propext, Classical.choice, Quot.sound]
'Verif.C76_head_error' depends on axioms: [propext, Classical.choice, Quot.sound]
'Verif.C76_head_panic' depends on axioms: [propext, Classical.choice, Quot.sound]
'Verif.C76_end' depends on axioms: [propext, Classical.choice, Quot.sound]
'Verif.C76_next_row' depends on axioms: [propext, Classical.choice, Quot.sound]
'Verif.C76_next_end' depends on axioms: [propext, Classical.choice, Quot.sound]
'Verif.C76_next_panic' depends on axioms: [propext, Classical.choice, Quot.sound]
'Verif.C76_collect' depends on axioms: [propext, Classical.choice, Quot.sound]
'Verif.C76_collect_panic' depends on axioms: [propext, Classical.choice, Quot.sound]
'Verif.C76_query' depends on axioms: [propext, Classical.choice, Quot.sound]
'Verif.C76_statement' depends on axioms: [propext, Classical.choice, Quot.sound]
'Verif.C76_example_query' depends on axioms: [propext, Classical.choice, Quot.sound]
'Verif.C77_idle' depends on axioms: [propext, Classical.choice, Quot.sound]
'Verif.C77_idle_panic' depends on axioms: [propext, Classical.choice, Quot.sound]
'Verif.C77_send' depends on axioms: [propext, Classical.choice, Quot.sound]
'Verif.C77_send_statement' depends on axioms: [propext, Classical.choice, Quot.sound]
'Verif.C77_execute_ok' depends on axioms: [propext, Classical.choice, Quot.sound]
'Verif.C77_execute_error' depends on axioms: [propext, Classical.choice, Quot.sound]
'Verif.C77_statement_ok' depends on axioms: [propext, Classical.choice, Quot.sound]
'Verif.C77_statement_error' depends on axioms: [propext, Classical.choice, Quot.sound]
'Verif.C77_prepare' depends on axioms: [propext, Classical.choice, Quot.sound]
'Verif.C77_prepare_error' depends on axioms: [propext, Classical.choice, Quot.sound]
'Verif.C77_query' depends on axioms: [propext, Classical.choice, Quot.sound]
'Verif.C77_statement' depends on axioms: [propext, Classical.choice, Quot.sound]
'Verif.C77_one' depends on axioms: [propext, Classical.choice, Quot.sound]
'Verif.C77_finish' depends on axioms: [propext, Classical.choice, Quot.sound]
'Verif.C77_send_panic' depends on axioms: [propext, Classical.choice, Quot.sound]
'Verif.C77_query_panic' depends on axioms: [propext, Classical.choice, Quot.sound]
'Verif.C77_rows_panic_text' depends on axioms: [propext, Classical.choice, Quot.sound]
'Verif.C77_rows_panic_bin' depends on axioms: [propext, Classical.choice, Quot.sound]
'Verif.C77_example' depends on axioms: [propext, Classical.choice, Quot.sound]
'Verif.C78_accepted' depends on axioms: [propext, Classical.choice, Quot.sound]
'Verif.C78_refused' depends on axioms: [propext, Classical.choice, Quot.sound]
'Verif.C78_panic' depends on axioms: [propext, Classical.choice, Quot.sound]
'Verif.C78_example' depends on axioms: [propext, Classical.choice, Quot.sound]
'Verif.C79_key_text' depends on axioms: [propext, Classical.choice, Quot.sound]
'Verif.C79_encrypts' depends on axioms: [propext, Classical.choice, Quot.sound]
'Verif.C79_encrypt_panics' depends on axioms: [propext, Classical.choice, Quot.sound]
'Verif.C79_version' depends on axioms: [propext, Classical.choice, Quot.sound]
'Verif.C79_version_panics' depends on axioms: [propext, Classical.choice, Quot.sound]
'Verif.C79_greeting' depends on axioms: [propext, Classical.choice, Quot.sound]
'Verif.C79_login' depends on axioms: [propext, Classical.choice, Quot.sound]
'Verif.C79_secure' depends on axioms: [propext, Classical.choice, Quot.sound]
'Verif.C79_example' depends on axioms: [propext, Classical.choice, Quot.sound]
'Verif.C80_tables' depends on axioms: [propext, Quot.sound]
'Verif.C80_becomes' depends on axioms: [propext, Quot.sound]
'Verif.C80_update_query' depends on axioms: [propext, Classical.choice, Quot.sound]
'Verif.C80_example' depends on axioms: [propext, Classical.choice, Quot.sound]
'Verif.C80_example_update' depends on axioms: [propext, Classical.choice, Quot.sound]
'Verif.C81_lookup_text' depends on axioms: [propext, Classical.choice, Quot.sound]
'Verif.C81_joined' depends on axioms: [propext, Classical.choice, Quot.sound]
'Verif.C81_clause' depends on axioms: [propext, Classical.choice, Quot.sound]
'Verif.C81_statement' depends on axioms: [propext, Classical.choice, Quot.sound]
'Verif.C81_lookup' depends on axioms: [propext, Classical.choice, Quot.sound]
'Verif.C81_example' depends on axioms: [propext, Classical.choice, Quot.sound]
'Verif.C82_literal' depends on axioms: [propext, Classical.choice, Quot.sound]
'Verif.C82_error' depends on axioms: [propext, Classical.choice, Quot.sound]
'Verif.C82_distinct' depends on axioms: [propext, Classical.choice, Quot.sound]
'Verif.C82_progress' depends on axioms: [propext, Classical.choice, Quot.sound]
'Verif.C82_runtime' depends on axioms: [propext, Classical.choice, Quot.sound]
'Verif.C82_printable' depends on axioms: [propext, Quot.sound]
'Verif.C82_reported' depends on axioms: [propext, Classical.choice, Quot.sound]
'Verif.C82_example' depends on axioms: [propext, Classical.choice, Quot.sound]
'Verif.C83_pretty_violated' depends on axioms: [propext, Classical.choice, Quot.sound]
'Verif.C83_options_violated' depends on axioms: [propext, Classical.choice, Quot.sound]
'Verif.C83_connection_violated' depends on axioms: [propext, Classical.choice, Quot.sound]
'Verif.C83_errors_partial' depends on axioms: [propext, Classical.choice, Quot.sound]
'Verif.C83_example_violated' depends on axioms: [propext, Classical.choice, Quot.sound]
'Verif.C84_rows_partial' depends on axioms: [propext, Classical.choice, Quot.sound]
'Verif.C84_reached_partial' depends on axioms: [propext, Classical.choice, Quot.sound]
'Verif.C84_to_version_partial' depends on axioms: [propext, Classical.choice, Quot.sound]
'Verif.C84_program_partial' depends on axioms: [propext, Classical.choice, Quot.sound]
'Verif.C84_one_down_partial' depends on axioms: [propext, Classical.choice, Quot.sound]
'Verif.C84_step' depends on axioms: [propext, Classical.choice, Quot.sound]
'Verif.C84_example' depends on axioms: [propext, Classical.choice, Quot.sound]
'Verif.C85_private_partial' depends on axioms: [propext, Classical.choice, Quot.sound]
'Verif.C85_late_violated' depends on axioms: [propext, Classical.choice, Quot.sound]
'Verif.C85_pool_violated' depends on axioms: [propext, Classical.choice, Quot.sound]
'Verif.C85_example' depends on axioms: [propext, Classical.choice, Quot.sound]
'Verif.C86_one_partial' depends on axioms: [propext, Classical.choice, Quot.sound]
'Verif.C86_careful_partial' depends on axioms: [propext, Classical.choice, Quot.sound]
'Verif.C86_torn_violated' depends on axioms: [propext, Classical.choice, Quot.sound]
'Verif.C86_example' depends on axioms: [propext, Classical.choice, Quot.sound]
'Verif.C87_connected' depends on axioms: [propext, Classical.choice, Quot.sound]
'Verif.C87_refused' depends on axioms: [propext, Classical.choice, Quot.sound]
'Verif.C87_panic' depends on axioms: [propext, Classical.choice, Quot.sound]
'Verif.C87_example' depends on axioms: [propext, Classical.choice, Quot.sound]
'Verif.C88_call' depends on axioms: [propext, Classical.choice, Quot.sound]
'Verif.C88_program' depends on axioms: [propext, Classical.choice, Quot.sound]
'Verif.C88_delivery' depends on axioms: [propext, Classical.choice, Quot.sound]
'Verif.C88_whole' depends on axioms: [propext, Classical.choice, Quot.sound]
'Verif.C88_asks' depends on axioms: [propext, Classical.choice, Quot.sound]
'Verif.C88_dialog_partial' depends on axioms: [propext, Classical.choice, Quot.sound]
'Verif.C88_buffered_violated' depends on axioms: [propext, Classical.choice, Quot.sound]
'Verif.C88_example' depends on axioms: [propext, Classical.choice, Quot.sound]
'Verif.C89_accepts' depends on axioms: [propext, Classical.choice, Quot.sound]
'Verif.C89_refuses' depends on axioms: [propext, Classical.choice, Quot.sound]
'Verif.C89_round_trip_partial' depends on axioms: [propext, Classical.choice, Quot.sound]
'Verif.C89_violated' depends on axioms: [propext, Classical.choice, Quot.sound]
'Verif.C89_example' depends on axioms: [propext, Classical.choice, Quot.sound]
'Verif.C90_tape' depends on axioms: [propext, Classical.choice, Quot.sound]
'Verif.C90_pieces' depends on axioms: [propext, Classical.choice, Quot.sound]
'Verif.C90_real' depends on axioms: [propext, Classical.choice, Quot.sound]
'Verif.C90_unique' depends on axioms: [propext]
'Verif.C90_run' depends on axioms: [propext]
'Verif.C90_example' depends on axioms: [propext, Classical.choice, Quot.sound]
'Verif.C90_total' depends on axioms: [propext, Classical.choice, Quot.sound]
'Verif.C90_ended' depends on axioms: [propext, Quot.sound]
'Verif.C90_resumes' depends on axioms: [propext, Quot.sound]
'Verif.C91_like_failure' depends on axioms: [propext, Classical.choice, Quot.sound]
'Verif.C91_one' depends on axioms: [propext, Classical.choice, Quot.sound]
'Verif.C91_discarding_partial' depends on axioms: [propext, Classical.choice, Quot.sound]
'Verif.C91_reading_partial' depends on axioms: [propext, Classical.choice, Quot.sound]
'Verif.C91_unsent_partial' depends on axioms: [propext, Classical.choice, Quot.sound]
'Verif.C91_sequence' depends on axioms: [propext, Quot.sound]
'Verif.C91_late_violated' depends on axioms: [propext, Classical.choice, Quot.sound]
'Verif.C91_torn_violated' depends on axioms: [propext, Classical.choice, Quot.sound]
'Verif.C91_forged_violated' depends on axioms: [propext, Classical.choice, Quot.sound]
'Verif.C91_example' depends on axioms: [propext, Classical.choice, Quot.sound]
'Verif.C92_operations_partial' depends on axioms: [propext, Quot.sound]
'Verif.C92_silent' depends on axioms: [propext, Quot.sound]
'Verif.C92_clock' depends on axioms: [propext, Quot.sound]
'Verif.C92_endless_violated' depends on axioms: [propext, Quot.sound]
'Verif.C92_steady_violated' depends on axioms: [propext, Classical.choice, Quot.sound]
'Verif.C92_example' depends on axioms: [propext, Classical.choice, Quot.sound]
'Verif.C93_same' depends on axioms: [propext, Classical.choice, Quot.sound]
'Verif.C93_default' depends on axioms: [propext, Classical.choice, Quot.sound]
'Verif.C93_no_sleep' depends on axioms: [propext, Classical.choice, Quot.sound]
'Verif.C93_sleep' depends on axioms: [propext, Classical.choice, Quot.sound]
'Verif.C93_accepted' depends on axioms: [propext, Classical.choice, Quot.sound]
'Verif.C93_refused' depends on axioms: [propext, Classical.choice, Quot.sound]
'Verif.C93_panic' depends on axioms: [propext, Classical.choice, Quot.sound]
'Verif.C93_fewer' depends on axioms: [propext, Classical.choice, Quot.sound]
'Verif.C93_switch' depends on axioms: [propext, Classical.choice, Quot.sound]
'Verif.C93_ignored_partial' depends on axioms: [propext, Classical.choice, Quot.sound]
'Verif.C93_defaults' depends on axioms: [propext, Classical.choice, Quot.sound]
'Verif.C93_ignored_violated' depends on axioms: [propext, Classical.choice, Quot.sound]
'Verif.C93_example' depends on axioms: [propext, Classical.choice, Quot.sound]
'Verif.C94_first_partial' depends on axioms: [propext, Classical.choice, Quot.sound]
'Verif.C94_shifted_violated' depends on axioms: [propext, Classical.choice, Quot.sound]
'Verif.C94_call_violated' depends on axioms: [propext, Classical.choice, Quot.sound]
'Verif.C94_none' depends on axioms: [propext, Classical.choice, Quot.sound]
'Verif.C94_told_violated' depends on axioms: [propext, Classical.choice, Quot.sound]
'Verif.C94_example' depends on axioms: [propext, Classical.choice, Quot.sound]
'Verif.C95_session' depends on axioms: [propext, Quot.sound]
'Verif.C95_models' depends on axioms: [propext, Classical.choice, Quot.sound]
'Verif.C95_others' depends on axioms: [propext, Classical.choice, Quot.sound]
'Verif.C95_two_bits' depends on axioms: [propext, Classical.choice, Quot.sound]
'Verif.C95_connected' depends on axioms: [propext, Classical.choice, Quot.sound]
'Verif.C95_example' depends on axioms: [propext, Classical.choice, Quot.sound]
'Verif.C96_params_partial' depends on axioms: [propext, Classical.choice, Quot.sound]
'Verif.C96_text_violated' depends on axioms: [propext, Quot.sound]
'Verif.C96_params_violated' depends on axioms: [propext, Classical.choice, Quot.sound]
'Verif.C96_ignored_violated' depends on axioms: [propext, Quot.sound]
'Verif.C96_example' depends on axioms: [propext, Classical.choice, Quot.sound]
'Verif.C97_inserted' depends on axioms: [propext, Classical.choice, Quot.sound]
'Verif.C97_stored' depends on axioms: [propext, Quot.sound]
'Verif.C97_found' depends on axioms: [propext, Classical.choice, Quot.sound]
'Verif.C98_hello' depends on axioms: [propext, Classical.choice, Quot.sound]
'Verif.C98_session' depends on axioms: [propext, Classical.choice, Quot.sound]
'Verif.C99_fill' depends on axioms: [propext, Classical.choice, Quot.sound]
'Verif.C99_exactly_one' depends on axioms: [propext, Quot.sound]
'Verif.C99_halfway' depends on axioms: [propext, Quot.sound]
'Verif.C99_down' depends on axioms: [propext, Classical.choice, Quot.sound]
'Verif.C99_pool' depends on axioms: [propext, Quot.sound]
'Verif.C100_simple' depends on axioms: [propext, Classical.choice, Quot.sound]
'Verif.C100_fill' depends on axioms: [propext, Classical.choice, Quot.sound]
'Verif.C100_unfill' depends on axioms: [propext, Classical.choice, Quot.sound]
'Verif.C100_example' depends on axioms: [propext, Classical.choice, Quot.sound]
'Verif.C100_example_records' depends on axioms: [propext, Classical.choice, Quot.sound]
'Verif.C100_pool' depends on axioms: [propext, Classical.choice, Quot.sound]
'Verif.C100_fifo' depends on axioms: [propext, Classical.choice, Quot.sound]
'Verif.C100_limit' depends on axioms: [propext, Classical.choice, Quot.sound]
'Verif.C100_places' depends on axioms: [propext, Classical.choice, Quot.sound]
'Verif.C100_too_few' depends on axioms: [propext, Quot.sound]
'Verif.C100_new' depends on axioms: [propext, Classical.choice, Quot.sound]
'Verif.C100_up' depends on axioms: [propext, Classical.choice, Quot.sound]
'Verif.C100_down' depends on axioms: [propext, Classical.choice, Quot.sound]
'Verif.C100_program' depends on axioms: [propext, Classical.choice, Quot.sound]
'Verif.C101_someone' depends on axioms: [propext, Classical.choice, Quot.sound]
'Verif.C101_twice_violated' depends on axioms: [propext, Classical.choice, Quot.sound]
'Verif.C101_create_violated' depends on axioms: [propext, Classical.choice, Quot.sound]
'Verif.C101_run' depends on axioms: [propext, Classical.choice, Quot.sound]
'Verif.C101_trace' depends on axioms: [propext, Classical.choice, Quot.sound]
'Verif.C101_table' depends on axioms: [propext, Quot.sound]
'Verif.C101_recorded' depends on axioms: [propext, Quot.sound]
'Verif.C101_complete' depends on axioms: [propext, Classical.choice, Quot.sound]
'Verif.C101_one' depends on axioms: [propext, Classical.choice, Quot.sound]
'Verif.C101_once_partial' depends on axioms: [propext, Classical.choice, Quot.sound]
'Verif.C101_ends' depends on axioms: [propext, Classical.choice, Quot.sound]
'Verif.C102_polls' depends on axioms: [propext, Classical.choice, Quot.sound]
'Verif.C102_dropped' depends on axioms: [propext, Classical.choice, Quot.sound]
'Verif.C102_rows' depends on axioms: [propext, Quot.sound]
'Verif.C102_connect' depends on axioms: [propext, Classical.choice, Quot.sound]
'Verif.C102_migrator' depends on axioms: [propext, Classical.choice, Quot.sound]
'Verif.C102_migrator_order' depends on axioms: [propext, Classical.choice, Quot.sound]
'Verif.C102_history' depends on axioms: [propext, Quot.sound]
'Verif.C102_greeting' depends on axioms: [propext, Classical.choice, Quot.sound]
'Verif.C102_greeting_long' depends on axioms: [propext, Quot.sound]
'Verif.C102_fraction' depends on axioms: [propext, Classical.choice, Quot.sound]
'Verif.C102_fraction_lost' depends on axioms: [propext, Classical.choice, Quot.sound]
'Verif.C102_display' depends on axioms: [propext, Quot.sound]
'Verif.C102_display_wraps' depends on axioms: [propext, Quot.sound]
'Verif.C103_attributes' depends on axioms: [propext, Classical.choice, Quot.sound]
'Verif.C103_switch' depends on axioms: [propext, Classical.choice, Quot.sound]
'Verif.C103_switch_header_violated' depends on axioms: [propext, Classical.choice, Quot.sound]
'Verif.C103_switch_accepted_violated' depends on axioms: [propext, Classical.choice, Quot.sound]
'Verif.C103_old_eof_violated' depends on axioms: [propext, Classical.choice, Quot.sound]
'Verif.C103_old_eof_partial' depends on axioms: [propext, Classical.choice, Quot.sound]
'Verif.C103_halves' depends on axioms: [propext, Classical.choice, Quot.sound]
'Verif.C103_unchecked' depends on axioms: [propext]
'Verif.C104_reads' depends on axioms: [propext, Classical.choice, Quot.sound]
'Verif.C104_parts' depends on axioms: [propext, Classical.choice, Quot.sound]
'Verif.C104_slices' depends on axioms: [propext, Quot.sound]
'Verif.C104_error' depends on axioms: [propext, Classical.choice, Quot.sound]
'Verif.C104_state' depends on axioms: [propext, Quot.sound]
'Verif.C104_state_connect' depends on axioms: [propext, Classical.choice, Quot.sound]
'Verif.C104_state_models' depends on axioms: [propext, Classical.choice, Quot.sound]
'Verif.C104_reset' depends on axioms: [propext, Quot.sound]
'Verif.C104_leak_violated' does not depend on any axioms
'Verif.C105_login_partial' depends on axioms: [propext, Classical.choice, Quot.sound]
'Verif.C105_connect_partial' depends on axioms: [propext, Classical.choice, Quot.sound]
'Verif.C105_connect_same_partial' depends on axioms: [propext, Classical.choice, Quot.sound]
'Verif.C105_tame' depends on axioms: [propext, Quot.sound]
'Verif.C105_login_violated' depends on axioms: [propext, Classical.choice, Quot.sound]
'Verif.C105_models_partial' depends on axioms: [propext, Classical.choice, Quot.sound]
'Verif.C105_models_same' depends on axioms: [propext, Classical.choice, Quot.sound]
'Verif.C105_open_partial' depends on axioms: [propext, Classical.choice, Quot.sound]
'Verif.C105_few' depends on axioms: [propext, Classical.choice, Quot.sound]
'Verif.C105_move_partial' depends on axioms: [propext, Classical.choice, Quot.sound]
'Verif.C105_migrator_same' depends on axioms: [propext, Classical.choice, Quot.sound]
'Verif.C105_open_violated' depends on axioms: [propext, Classical.choice, Quot.sound]
'Verif.C105_lengths' depends on axioms: [propext, Classical.choice, Quot.sound]
'Verif.C105_rows_partial' depends on axioms: [propext, Classical.choice, Quot.sound]
'Verif.C105_rows_violated' depends on axioms: [propext, Classical.choice, Quot.sound]
'Verif.C105_ok' depends on axioms: [propext, Classical.choice, Quot.sound]
'Verif.C105_ok_sent' depends on axioms: [propext, Classical.choice, Quot.sound]
'Verif.C105_ok_violated' depends on axioms: [propext, Classical.choice, Quot.sound]
'Verif.C105_errors' depends on axioms: [propext, Classical.choice, Quot.sound]
'Verif.C105_results_partial' depends on axioms: [propext, Classical.choice, Quot.sound]
'Verif.C105_results_violated' depends on axioms: [propext, Classical.choice, Quot.sound]
'Verif.C105_calls_partial' depends on axioms: [propext, Classical.choice, Quot.sound]
'Verif.C105_columns_violated' depends on axioms: [propext, Classical.choice, Quot.sound]
'Verif.C105_same' depends on axioms: [propext, Classical.choice, Quot.sound]
'Verif.C105_same_streams' depends on axioms: [propext, Quot.sound]
'Verif.C105_key_partial' depends on axioms: [propext, Classical.choice, Quot.sound]
'Verif.C105_key_violated' depends on axioms: [propext, Quot.sound]
'Verif.C105_mask' depends on axioms: [propext, Quot.sound]
'Verif.C105_size_partial' depends on axioms: [propext, Quot.sound]
'Verif.C105_size_violated' depends on axioms: [propext, Classical.choice, Quot.sound]
'Verif.C105_limit' depends on axioms: [propext, Classical.choice, Quot.sound]
'Verif.C106_agree_partial' depends on axioms: [propext, Classical.choice, Quot.sound]
'Verif.C106_fails' depends on axioms: [propext, Classical.choice, Quot.sound]
'Verif.C106_agree_violated' depends on axioms: [propext, Classical.choice, Quot.sound]
'Verif.C106_goal_violated' depends on axioms: [propext, Classical.choice, Quot.sound]
'Verif.C106_twice_violated' depends on axioms: [propext, Classical.choice, Quot.sound]
'Verif.C106_run' depends on axioms: [propext, Classical.choice, Quot.sound]
'Verif.C106_table' depends on axioms: [propext, Classical.choice, Quot.sound]
'Verif.C106_noted' depends on axioms: [propext, Classical.choice, Quot.sound]
'Verif.C106_decided' depends on axioms: [propext, Classical.choice, Quot.sound]
'Verif.C106_ends' depends on axioms: [propext, Classical.choice, Quot.sound]
'Verif.C106_kept' depends on axioms: [propext, Classical.choice, Quot.sound]
'Verif.C106_gone' depends on axioms: [propext, Classical.choice, Quot.sound]
'Verif.C106_goal_partial' depends on axioms: [propext, Classical.choice, Quot.sound]
'Verif.C106_order' depends on axioms: [propext, Classical.choice, Quot.sound]
'Verif.C106_back' depends on axioms: [propext, Classical.choice, Quot.sound]
'Verif.C106_back_violated' depends on axioms: [propext, Classical.choice, Quot.sound]
'Verif.C106_someone' depends on axioms: [propext, Quot.sound]
'Verif.C106_version' depends on axioms: [propext, Classical.choice, Quot.sound]
'Verif.C107_inserts' depends on axioms: [propext, Quot.sound]
'Verif.C107_kept' depends on axioms: [propext, Quot.sound]
'Verif.C107_found' depends on axioms: [propext, Classical.choice, Quot.sound]
'Verif.C107_run' depends on axioms: [propext, Classical.choice, Quot.sound]
'Verif.C107_swap' depends on axioms: [propext, Classical.choice, Quot.sound]
'Verif.C107_history' depends on axioms: [propext, Quot.sound]
'Verif.C107_ends' depends on axioms: [propext, Quot.sound]
'Verif.C107_columns' depends on axioms: [propext, Quot.sound]
'Verif.C107_disjoint' depends on axioms: [propext, Quot.sound]
'Verif.C108_whole' depends on axioms: [propext, Classical.choice, Quot.sound]
'Verif.C108_sofar' depends on axioms: [propext, Classical.choice, Quot.sound]
'Verif.C108_done' depends on axioms: [propext, Quot.sound]
'Verif.C108_query' depends on axioms: [propext, Classical.choice, Quot.sound]
'Verif.C108_later' depends on axioms: [propext, Classical.choice, Quot.sound]
'Verif.C109_links' depends on axioms: [propext, Classical.choice, Quot.sound]
'Verif.C109_whole' depends on axioms: [propext, Classical.choice, Quot.sound]
'Verif.C109_query' depends on axioms: [propext, Classical.choice, Quot.sound]
'Verif.C109_insert' depends on axioms: [propext, Quot.sound]
'Verif.C110_run' depends on axioms: [propext, Classical.choice, Quot.sound]
'Verif.C110_served' depends on axioms: [propext, Quot.sound]
'Verif.C110_alone' depends on axioms: [propext, Quot.sound]
'Verif.C110_tasks' depends on axioms: [propext, Quot.sound]
'Verif.C110_history' depends on axioms: [propext, Quot.sound]
'Verif.C110_kept' depends on axioms: [propext, Quot.sound]
'Verif.C110_found' depends on axioms: [propext, Classical.choice, Quot.sound]
'Verif.C110_bound' depends on axioms: [propext, Classical.choice, Quot.sound]
'Verif.C110_goes' depends on axioms: [propext, Classical.choice, Quot.sound]
'Verif.C111_tree' depends on axioms: [propext, Classical.choice, Quot.sound]
'Verif.C111_distinct' depends on axioms: [propext, Classical.choice, Quot.sound]
'Verif.C111_value' depends on axioms: [propext, Classical.choice, Quot.sound]
'Verif.C111_refusal' depends on axioms: [propext, Classical.choice, Quot.sound]
'Verif.C111_convert' depends on axioms: [propext, Classical.choice, Quot.sound]
'Verif.C111_calendar' depends on axioms: [propext, Classical.choice, Quot.sound]
'Verif.C111_compact' depends on axioms: [propext, Classical.choice, Quot.sound]
'Verif.C111_error' depends on axioms: [propext, Classical.choice, Quot.sound]
'Verif.C111_server' depends on axioms: [propext, Classical.choice, Quot.sound]
'Verif.C111_reported' depends on axioms: [propext, Classical.choice, Quot.sound]
'Verif.C111_unexpected' depends on axioms: [propext, Classical.choice, Quot.sound]
'Verif.C111_wrong_example' depends on axioms: [propext, Classical.choice, Quot.sound]
'Verif.C111_server_example' depends on axioms: [propext, Classical.choice, Quot.sound]
'Verif.C112_awake_partial' depends on axioms: [propext, Classical.choice, Quot.sound]
'Verif.C112_enough_partial' depends on axioms: [propext, Classical.choice, Quot.sound]
'Verif.C112_fair_partial' depends on axioms: [propext, Classical.choice, Quot.sound]
'Verif.C112_kept' depends on axioms: [propext, Classical.choice, Quot.sound]
'Verif.C112_found' depends on axioms: [propext, Classical.choice, Quot.sound]
'Verif.C112_finish_partial' depends on axioms: [propext, Classical.choice, Quot.sound]
'Verif.C112_hang_violated' depends on axioms: [propext, Classical.choice, Quot.sound]
'Verif.C112_store' depends on axioms: [propext, Classical.choice, Quot.sound]
'Verif.C112_taken' depends on axioms: [propext, Classical.choice, Quot.sound]
'Verif.C112_run' depends on axioms: [propext, Classical.choice, Quot.sound]
'Verif.C112_served' depends on axioms: [propext, Classical.choice, Quot.sound]
'Verif.C112_history' depends on axioms: [propext, Classical.choice, Quot.sound]
'Verif.C113_deadlock' depends on axioms: [propext, Classical.choice, Quot.sound]
'Verif.C113_migrators' depends on axioms: [propext, Classical.choice, Quot.sound]
'Verif.C113_fair' depends on axioms: [propext, Classical.choice, Quot.sound]
'Verif.C113_migrators_fair' depends on axioms: [propext, Classical.choice, Quot.sound]
'Verif.C113_no_deadlock' depends on axioms: [propext, Classical.choice, Quot.sound]
'Verif.C114_every_violated' depends on axioms: [propext, Classical.choice, Quot.sound]
'Verif.C114_starved_violated' depends on axioms: [propext, Classical.choice, Quot.sound]
'Verif.C114_poll_partial' depends on axioms: [propext, Quot.sound]
'Verif.C114_full_partial' depends on axioms: [propext, Quot.sound]
'Verif.C114_finite_partial' depends on axioms: [propext, Classical.choice, Quot.sound]
'Verif.C115_awake' depends on axioms: [propext, Quot.sound]
'Verif.C115_served' depends on axioms: [propext, Quot.sound]
'Verif.C115_fair' depends on axioms: [propext, Classical.choice, Quot.sound]
'Verif.C115_sharp' depends on axioms: [propext, Classical.choice, Quot.sound]
