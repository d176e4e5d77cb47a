{
 "claims": [
  {
   "property": "C01",
   "status": "proved",
   "theorems": [
    "Verif.C01_lenenc_int_roundtrip",
    "Verif.C01_lenenc_str_roundtrip",
    "Verif.C01_conforms",
    "Verif.C01_conforms_str",
    "Verif.C01_predicted_size",
    "Verif.C01_first_byte",
    "Verif.C01_read_consumes",
    "Verif.C01_markers_read_as_zero",
    "Verif.C01_short_prefix",
    "Verif.C01_read_u32"
   ],
   "note": ""
  },
  {
   "property": "C02",
   "status": "proved",
   "theorems": [
    "Verif.C02_write_frames",
    "Verif.C02_receiver_recovers",
    "Verif.C02_wire_size",
    "Verif.C02_faulty_write",
    "Verif.C02_injective"
   ],
   "note": ""
  },
  {
   "property": "C03",
   "status": "proved",
   "theorems": [
    "Verif.C03_read_frames",
    "Verif.C03_roundtrip",
    "Verif.C03_accepts_what_spec_accepts"
   ],
   "note": ""
  },
  {
   "property": "C04",
   "status": "proved",
   "theorems": [
    "Verif.C04_only_in_sync",
    "Verif.C04_wrong_seq_is_error",
    "Verif.C04_wrong_first_seq",
    "Verif.C04_no_panic",
    "Verif.C04_truncated_is_error"
   ],
   "note": ""
  },
  {
   "property": "C05",
   "status": "proved",
   "theorems": [
    "Verif.C05_params_reach_server",
    "Verif.C05_params_with_long_data",
    "Verif.C05_value_self_delimiting",
    "Verif.C05_meaning_injective",
    "Verif.C05_types"
   ],
   "note": "C05_types compares the announced parameter types with a table of the protocol's type codes."
  },
  {
   "property": "C06",
   "status": "proved",
   "theorems": [
    "Verif.C06_params_reach_server",
    "Verif.C06_large_uses_long_data"
   ],
   "note": ""
  },
  {
   "property": "C07",
   "status": "partial",
   "theorems": [
    "Verif.C07_size_partial",
    "Verif.C07_zero_date_violated",
    "Verif.C07_exact_partial",
    "Verif.C07_zero_iff_null",
    "Verif.C07_error_bound"
   ],
   "note": "The code breaks the property for one value: bin_len of DATE 0000-00-00 is 1, five bytes are written (C07_zero_date_violated). Proved for all other values; C07_error_bound bounds the effect. C07_exact_partial: it is the only such value."
  },
  {
   "property": "C08",
   "status": "proved",
   "theorems": [
    "Verif.C08_bitmap",
    "Verif.C08_set_isolated",
    "Verif.C08_read_agrees"
   ],
   "note": ""
  },
  {
   "property": "C09",
   "status": "proved",
   "theorems": [
    "Verif.C09_row_decodes",
    "Verif.C09_null_bits",
    "Verif.C09_row_roundtrip"
   ],
   "note": ""
  },
  {
   "property": "C10",
   "status": "proved",
   "theorems": [
    "Verif.C10_integers_exact",
    "Verif.C10_row_decodes",
    "Verif.C10_long_blob_violated",
    "Verif.C10_long_fraction_violated"
   ],
   "note": "Proved for every form a server sends. C10_long_blob_violated and C10_long_fraction_violated document panics on LONG_BLOB column codes and fractions longer than six digits, neither of which a conforming server sends in a text row."
  },
  {
   "property": "C11",
   "status": "proved",
   "theorems": [
    "Verif.C11_row_is_not_the_end",
    "Verif.C11_terminator_is_the_end",
    "Verif.C11_skipping_stops_at_the_terminator",
    "Verif.C11_ambiguous_marker"
   ],
   "note": ""
  },
  {
   "property": "C12",
   "status": "proved",
   "theorems": [
    "Verif.C12_next",
    "Verif.C12_after_the_end",
    "Verif.C12_collect",
    "Verif.C12_one",
    "Verif.C12_query_collect",
    "Verif.C12_statement_collect"
   ],
   "note": ""
  },
  {
   "property": "C13",
   "status": "proved",
   "theorems": [
    "Verif.C13_command_after_abandoning",
    "Verif.C13_second_query"
   ],
   "note": ""
  },
  {
   "property": "C14",
   "status": "proved",
   "theorems": [
    "Verif.C14_execute_query",
    "Verif.C14_query",
    "Verif.C14_prepare",
    "Verif.C14_statement_execute",
    "Verif.C14_statement_query"
   ],
   "note": ""
  },
  {
   "property": "C15",
   "status": "proved",
   "theorems": [
    "Verif.C15_execute_query",
    "Verif.C15_statement_execute",
    "Verif.C15_query",
    "Verif.C15_session_state",
    "Verif.C15_status_bits"
   ],
   "note": ""
  },
  {
   "property": "C16",
   "status": "partial",
   "theorems": [
    "Verif.C16_summary_partial",
    "Verif.C16_exact_partial",
    "Verif.C16_violated"
   ],
   "note": "The code breaks it: status flags and warnings of the end-of-result packet are read one byte too early (C16_violated). C16_summary_partial says what is reported instead; C16_exact_partial: it is right for status 0 without warnings and never else."
  },
  {
   "property": "C17",
   "status": "proved",
   "theorems": [
    "Verif.C17_mismatch_refused",
    "Verif.C17_match_sent"
   ],
   "note": ""
  },
  {
   "property": "C18",
   "status": "proved",
   "theorems": [
    "Verif.C18_prepare",
    "Verif.C18_param_count_bound"
   ],
   "note": ""
  },
  {
   "property": "C19",
   "status": "proved",
   "theorems": [
    "Verif.C19_sent",
    "Verif.C19_any_state",
    "Verif.C19_short_query_bytes"
   ],
   "note": ""
  },
  {
   "property": "C20",
   "status": "partial",
   "theorems": [
    "Verif.C20_no_break_out",
    "Verif.C20_content_partial",
    "Verif.C20_injective_partial",
    "Verif.C20_exact_partial",
    "Verif.C20_text_injective",
    "Verif.C20_ctrl_z_violated"
   ],
   "note": "The code breaks it for U+001A only, which is written as \\z instead of \\Z (C20_ctrl_z_violated). Proved for all strings without that character. C20_exact_partial: what the server reads of every string, and that this is the string exactly if the character is not in it; the literals differ as texts in any case (C20_text_injective)."
  },
  {
   "property": "C21",
   "status": "proved",
   "theorems": [
    "Verif.C21_one_identifier",
    "Verif.C21_only_whitespace",
    "Verif.C21_proper_unchanged"
   ],
   "note": ""
  },
  {
   "property": "C22",
   "status": "proved",
   "theorems": [
    "Verif.C22_only_allowed",
    "Verif.C22_keeps_allowed",
    "Verif.C22_allowed_unchanged",
    "Verif.C22_idempotent"
   ],
   "note": ""
  },
  {
   "property": "C23",
   "status": "partial",
   "theorems": [
    "Verif.C23_integers",
    "Verif.C23_one_literal",
    "Verif.C23_date_partial",
    "Verif.C23_date_exact_partial",
    "Verif.C23_time_partial",
    "Verif.C23_datetime_partial",
    "Verif.C23_bytes",
    "Verif.C23_bytes_exact_partial",
    "Verif.C23_empty_bytes_violated",
    "Verif.C23_wide_violated",
    "Verif.C23_time_exact_partial",
    "Verif.C23_datetime_exact_partial"
   ],
   "note": "The code breaks it for the empty byte string and for dates and times outside MySQL's literal ranges (C23_empty_bytes_violated, C23_wide_violated). Proved for all others. C23_date_exact_partial, C23_time_exact_partial, C23_datetime_exact_partial: exactly which dates, times and datetimes are read back. C23_bytes_exact_partial: all byte strings but the empty one."
  },
  {
   "property": "C24",
   "status": "partial",
   "theorems": [
    "Verif.C24_from_str_exact",
    "Verif.C24_try_from_hex_partial",
    "Verif.C24_round_trip",
    "Verif.C24_short_violated",
    "Verif.C24_exact_partial"
   ],
   "note": "The code panics in try_from_hex for fewer than two bytes (C24_short_violated) and, by C24_exact_partial, for nothing else. Proved for all other inputs."
  },
  {
   "property": "C25",
   "status": "partial",
   "theorems": [
    "Verif.C25_round_trip",
    "Verif.C25_option_round_trip",
    "Verif.C25_other_kind_rejected",
    "Verif.C25_same_kind_accepted",
    "Verif.C25_bool",
    "Verif.C25_negative_bool_violated",
    "Verif.C25_exact",
    "Verif.C25_option_exact"
   ],
   "note": "Round trips, ranges and rejections are proved for all values; negative integers convert to false (C25_negative_bool_violated)."
  },
  {
   "property": "C26",
   "status": "proved",
   "theorems": [
    "Verif.C26_read_date",
    "Verif.C26_read_datetime",
    "Verif.C26_date_round_trip",
    "Verif.C26_datetime_round_trip",
    "Verif.C26_datetime_exact",
    "Verif.C26_other_kinds"
   ],
   "note": ""
  },
  {
   "property": "C27",
   "status": "partial",
   "theorems": [
    "Verif.C27_from_time",
    "Verif.C27_no_overflow",
    "Verif.C27_to_time_partial",
    "Verif.C27_sign_violated",
    "Verif.C27_days_violated",
    "Verif.C27_round_trip_partial",
    "Verif.C27_written_partial",
    "Verif.C27_survives_partial"
   ],
   "note": "The code loses the sign between -1 s and 0 and cuts days to 32 bits (C27_sign_violated, C27_days_violated). Proved for all other durations and for all TIME values. C27_survives_partial gives exactly the durations for which the full statement holds, C27_written_partial what happens to all others."
  },
  {
   "property": "C28",
   "status": "proved",
   "theorems": [
    "Verif.C28_only_through_digests",
    "Verif.C28_messages",
    "Verif.C28_permission"
   ],
   "note": ""
  },
  {
   "property": "C29",
   "status": "proved",
   "theorems": [
    "Verif.C29_only_forced",
    "Verif.C29_switch_refused"
   ],
   "note": ""
  },
  {
   "property": "C30",
   "status": "proved",
   "theorems": [
    "Verif.C30_terminates",
    "Verif.C30_bounded",
    "Verif.C30_second_switch"
   ],
   "note": ""
  },
  {
   "property": "C31",
   "status": "proved",
   "theorems": [
    "Verif.C31_native",
    "Verif.C31_sha2",
    "Verif.C31_empty"
   ],
   "note": ""
  },
  {
   "property": "C32",
   "status": "partial",
   "theorems": [
    "Verif.C32_accepted_partial",
    "Verif.C32_native_accepted",
    "Verif.C32_fast_path_violated"
   ],
   "note": "The code does not read the verdict after a successful fast authentication (C32_fast_path_violated). Proved for all other ways to be accepted."
  },
  {
   "property": "C33",
   "status": "partial",
   "theorems": [
    "Verif.C33_decodes",
    "Verif.C33_size",
    "Verif.C33_too_long",
    "Verif.C33_exact_partial",
    "Verif.C33_limit_violated"
   ],
   "note": "The OAEP block is proved correct for all messages and keys; the code refuses messages of the two longest admissible lengths (C33_limit_violated). C33_exact_partial: exactly which messages are padded, and which a block of that size can hold."
  },
  {
   "property": "C34",
   "status": "partial",
   "theorems": [
    "Verif.C34_block_partial",
    "Verif.C34_decrypts_partial",
    "Verif.C34_no_panic_partial",
    "Verif.C34_bits_one_violated",
    "Verif.C34_short_violated",
    "Verif.C34_exact_partial"
   ],
   "note": "The code is one octet short if the bit length of the modulus is 1 mod 8 (C34_bits_one_violated); C34_short_violated: with each such key everything encrypted is refused by the owner of the key. Proved for all other keys. C34_exact_partial: the owner understands what is encrypted exactly with these."
  },
  {
   "property": "C35",
   "status": "partial",
   "theorems": [
    "Verif.C35_pkcs1",
    "Verif.C35_pkcs8",
    "Verif.C35_other_markers",
    "Verif.C35_overlap_violated",
    "Verif.C35_exact",
    "Verif.C35_short_violated"
   ],
   "note": "C35_exact characterises the accepted texts without exception; two classes of malformed keys panic (C35_overlap_violated, C35_short_violated)."
  },
  {
   "property": "C36",
   "status": "partial",
   "theorems": [
    "Verif.C36_recorded_partial",
    "Verif.C36_data_len_violated",
    "Verif.C36_version_violated",
    "Verif.C36_mariadb_violated"
   ],
   "note": "The code panics on two kinds of greeting and misreads MariaDB's version prefix (C36_*_violated). Proved for greetings that announce a challenge of less than 128 bytes, do not set the undeclared status bit 2 and have a version of three numbers; what is made of every other version text is C79_version, and which greetings panic is C79_greeting."
  },
  {
   "property": "C37",
   "status": "partial",
   "theorems": [
    "Verif.C37_login_partial",
    "Verif.C37_exact_partial",
    "Verif.C37_nul_violated",
    "Verif.C37_long_violated"
   ],
   "note": "User names with a zero byte and passwords over 255 bytes are misread by the server (C37_nul_violated, C37_long_violated). C37_exact_partial: user, database and answer are understood exactly if the names have no zero byte and the negotiated form can carry the answer."
  },
  {
   "property": "C38",
   "status": "proved",
   "theorems": [
    "Verif.C38_limit",
    "Verif.C38_exclusive"
   ],
   "note": ""
  },
  {
   "property": "C39",
   "status": "proved",
   "theorems": [
    "Verif.C39_kept",
    "Verif.C39_returned",
    "Verif.C39_handed_out"
   ],
   "note": ""
  },
  {
   "property": "C40",
   "status": "partial",
   "theorems": [
    "Verif.C40_never_woken_violated",
    "Verif.C40_asleep_violated",
    "Verif.C40_after_register_partial"
   ],
   "note": "The code breaks it: the waker queue is never read (C40_never_woken_violated, C40_asleep_violated). Proved: an object returned after the registration of a waker is found by the next poll."
  },
  {
   "property": "C41",
   "status": "partial",
   "theorems": [
    "Verif.C41_capacity_partial",
    "Verif.C41_exhausted_violated",
    "Verif.C41_history_violated"
   ],
   "note": "The code breaks it: failed or cancelled creations use up slots for good (C41_exhausted_violated). Proved for all histories: exactly the limit minus the number of such creations remains usable."
  },
  {
   "property": "C42",
   "status": "proved",
   "theorems": [
    "Verif.C42_buffers",
    "Verif.C42_buffer_pool"
   ],
   "note": ""
  },
  {
   "property": "C43",
   "status": "proved",
   "theorems": [
    "Verif.C43_timeout",
    "Verif.C43_pending"
   ],
   "note": ""
  },
  {
   "property": "C44",
   "status": "proved",
   "theorems": [
    "Verif.C44_runs",
    "Verif.C44_records",
    "Verif.C44_again",
    "Verif.C44_same_name"
   ],
   "note": ""
  },
  {
   "property": "C45",
   "status": "proved",
   "theorems": [
    "Verif.C45_runs",
    "Verif.C45_records",
    "Verif.C45_one_none",
    "Verif.C45_one"
   ],
   "note": ""
  },
  {
   "property": "C46",
   "status": "proved",
   "theorems": [
    "Verif.C46_exact"
   ],
   "note": ""
  },
  {
   "property": "C47",
   "status": "partial",
   "theorems": [
    "Verif.C47_up_partial",
    "Verif.C47_down_partial",
    "Verif.C47_new",
    "Verif.C47_resume",
    "Verif.C47_up_runs_partial",
    "Verif.C47_down_runs_partial",
    "Verif.C47_to_version_partial",
    "Verif.C47_reuse_violated"
   ],
   "note": "The code breaks it if a migrator is used again after a failed bookkeeping insert (C47_reuse_violated). Proved for all runs otherwise."
  },
  {
   "property": "C48",
   "status": "proved",
   "theorems": [
    "Verif.C48_lexicographic",
    "Verif.C48_operators",
    "Verif.C48_total",
    "Verif.C48_ordered",
    "Verif.C48_display"
   ],
   "note": ""
  },
  {
   "property": "C49",
   "status": "partial",
   "theorems": [
    "Verif.C49_literal_partial",
    "Verif.C49_insert_plain_partial",
    "Verif.C49_delete_plain_partial",
    "Verif.C49_insert_partial",
    "Verif.C49_delete_partial",
    "Verif.C49_quote_violated",
    "Verif.C49_backslash_violated"
   ],
   "note": "The code breaks it for names with quotes or backslashes (C49_quote_violated, C49_backslash_violated). Proved for all other names. C49_literal_partial: a name is read as itself exactly if it has no quote, and no backslash but before % and _; for these names both statements are read as they should be (C49_insert_plain_partial, C49_delete_plain_partial)."
  },
  {
   "property": "C50",
   "status": "proved",
   "theorems": [
    "Verif.C50_query",
    "Verif.C50_fits",
    "Verif.C50_own_table",
    "Verif.C50_own_table_nested"
   ],
   "note": ""
  },
  {
   "property": "C51",
   "status": "proved",
   "theorems": [
    "Verif.C51_insert",
    "Verif.C51_update",
    "Verif.C51_insert_sent",
    "Verif.C51_update_sent"
   ],
   "note": ""
  },
  {
   "property": "C52",
   "status": "proved",
   "theorems": [
    "Verif.C52_insert",
    "Verif.C52_insert_fails",
    "Verif.C52_fields",
    "Verif.C52_update",
    "Verif.C52_update_fails",
    "Verif.C52_update_nothing",
    "Verif.C52_whole"
   ],
   "note": ""
  },
  {
   "property": "C53",
   "status": "partial",
   "theorems": [
    "Verif.C53_packets",
    "Verif.C53_fields",
    "Verif.C53_binary_rows_partial",
    "Verif.C53_text_rows_partial",
    "Verif.C53_calls_partial",
    "Verif.C53_execute_partial",
    "Verif.C53_head_partial",
    "Verif.C53_empty_row_violated",
    "Verif.C53_empty_leftover_violated",
    "Verif.C53_local_infile_violated",
    "Verif.C53_columns_violated",
    "Verif.C53_text_types_violated",
    "Verif.C53_binary_types_violated",
    "Verif.C53_fraction_violated",
    "Verif.C53_refused_violated",
    "Verif.C53_key_violated"
   ],
   "note": "Every panic that a server or a caller can provoke is listed as a _violated theorem; proved panic-free otherwise, for all calls and all bytes received."
  },
  {
   "property": "C54",
   "status": "partial",
   "theorems": [
    "Verif.C54_column_partial",
    "Verif.C54_result_columns_partial",
    "Verif.C54_type_codes",
    "Verif.C54_long_name_violated",
    "Verif.C54_exact_partial"
   ],
   "note": "The code cannot decode names of 251 bytes and more (C54_long_name_violated). C54_exact_partial: given a short database name, exactly the descriptions whose other names are shorter than 251 bytes are decoded right; a long database name could by chance contain another description."
  },
  {
   "property": "C55",
   "status": "partial",
   "theorems": [
    "Verif.C55_used",
    "Verif.C55_database",
    "Verif.C55_words",
    "Verif.C55_status_word",
    "Verif.C55_claim_violated",
    "Verif.C55_flags"
   ],
   "note": "What is claimed is proved exactly; the code claims plugin authentication and a database also towards servers that offer neither (C55_claim_violated)."
  },
  {
   "property": "C56",
   "status": "partial",
   "theorems": [
    "Verif.C56_answers_partial",
    "Verif.C56_answers_violated"
   ],
   "note": "The code breaks it after a timeout (C56_answers_violated). Proved for all histories in which no call is cut off."
  },
  {
   "property": "C57",
   "status": "proved",
   "theorems": [
    "Verif.C57_asked",
    "Verif.C57_not_asked",
    "Verif.C57_configured",
    "Verif.C57_question"
   ],
   "note": ""
  },
  {
   "property": "C58",
   "status": "proved",
   "theorems": [
    "Verif.C58_classified"
   ],
   "note": ""
  },
  {
   "property": "C59",
   "status": "partial",
   "theorems": [
    "Verif.C59_not_the_end_partial",
    "Verif.C59_reported_violated",
    "Verif.C59_row_from_error_violated",
    "Verif.C59_stuck_violated"
   ],
   "note": "The code breaks it: an error packet between rows is decoded as a row or as malformed (C59_*_violated). Proved: it is never taken for the end of the result."
  },
  {
   "property": "C60",
   "status": "partial",
   "theorems": [
    "Verif.C60_columns_partial",
    "Verif.C60_rows_violated",
    "Verif.C60_next_command_violated"
   ],
   "note": "The code breaks it for rows (C60_rows_violated): the EOF packet after the column definitions is taken for the end of the rows and cannot be decoded, so that the first read of every such result fails, and so does the next command (C60_next_command_violated). Proved: the column definitions are read correctly and what follows them is left on the stream."
  },
  {
   "property": "C61",
   "status": "partial",
   "theorems": [
    "Verif.C61_usable_partial",
    "Verif.C61_desync_violated",
    "Verif.C61_misattributed_violated"
   ],
   "note": "The code breaks it for commands that answer with unexpected rows (C61_*_violated). Proved whenever the answer has a shape the call expects, whatever is in it (errors of the server, rows that cannot be decoded, rows left unread)."
  },
  {
   "property": "C62",
   "status": "partial",
   "theorems": [
    "Verif.C62_only_commands_partial",
    "Verif.C62_never_closed_violated"
   ],
   "note": "The code never closes statements (C62_never_closed_violated). Proved: it sends nothing but the commands asked for."
  },
  {
   "property": "C63",
   "status": "proved",
   "theorems": [
    "Verif.C63_login"
   ],
   "note": ""
  },
  {
   "property": "C64",
   "status": "proved",
   "theorems": [
    "Verif.C64_session"
   ],
   "note": ""
  },
  {
   "property": "C65",
   "status": "proved",
   "theorems": [
    "Verif.C65_rows",
    "Verif.C65_models"
   ],
   "note": ""
  },
  {
   "property": "C66",
   "status": "proved",
   "theorems": [
    "Verif.C66_insert",
    "Verif.C66_update"
   ],
   "note": ""
  },
  {
   "property": "C67",
   "status": "proved",
   "theorems": [
    "Verif.C67_stored",
    "Verif.C67_round_trip"
   ],
   "note": ""
  },
  {
   "property": "C68",
   "status": "proved",
   "theorems": [
    "Verif.C68_up",
    "Verif.C68_down",
    "Verif.C68_to_version",
    "Verif.C68_one_down",
    "Verif.C68_sent",
    "Verif.C68_new"
   ],
   "note": ""
  },
  {
   "property": "C69",
   "status": "partial",
   "theorems": [
    "Verif.C69_new",
    "Verif.C69_up_partial",
    "Verif.C69_down_partial",
    "Verif.C69_rows_partial",
    "Verif.C69_sound",
    "Verif.C69_rows_down",
    "Verif.C69_migrate_partial",
    "Verif.C69_retry_partial",
    "Verif.C69_collation_violated",
    "Verif.C69_long_violated"
   ],
   "note": "The code breaks it for names with quotes or backslashes, names over 255 characters, and names equal under the collation (C69_*_violated). Proved for all other migrations, databases and faults of other statements."
  },
  {
   "property": "C70",
   "status": "partial",
   "theorems": [
    "Verif.C70_accepts",
    "Verif.C70_says",
    "Verif.C70_columns_partial",
    "Verif.C70_sides_partial",
    "Verif.C70_sound_partial",
    "Verif.C70_models_partial",
    "Verif.C70_example",
    "Verif.C70_example_sound",
    "Verif.C70_example_says",
    "Verif.C70_example_messages",
    "Verif.C70_raw_violated",
    "Verif.C70_raw_column_violated",
    "Verif.C70_raw_key_violated",
    "Verif.C70_silent_violated",
    "Verif.C70_index_violated"
   ],
   "note": "The code breaks it for raw identifiers, tuple indices and silently ignored attributes (C70_*_violated). Proved for all other declarations."
  },
  {
   "property": "C71",
   "status": "partial",
   "theorems": [
    "Verif.C71_duration_partial",
    "Verif.C71_datetime_partial",
    "Verif.C71_value_partial",
    "Verif.C71_params_partial",
    "Verif.C71_echo_partial",
    "Verif.C71_text_partial",
    "Verif.C71_sign_violated",
    "Verif.C71_nanos_violated",
    "Verif.C71_example",
    "Verif.C71_example_values"
   ],
   "note": "The code breaks it for durations strictly between -1 s and 0 (C71_sign_violated) and drops nanoseconds (C71_nanos_violated). Proved for all other values. C71_duration_partial and C71_datetime_partial: exactly which durations and datetimes come back unchanged."
  },
  {
   "property": "C72",
   "status": "partial",
   "theorems": [
    "Verif.C72_reads_partial",
    "Verif.C72_fails_partial",
    "Verif.C72_example",
    "Verif.C72_example_missing",
    "Verif.C72_foreign_violated",
    "Verif.C72_foreign_nested_violated"
   ],
   "note": "The code breaks it for columns of tables the model does not know (C72_foreign_violated). Proved for all results with columns of the model's tables."
  },
  {
   "property": "C73",
   "status": "proved",
   "theorems": [
    "Verif.C73_error",
    "Verif.C73_progress",
    "Verif.C73_prepared",
    "Verif.C73_column",
    "Verif.C73_ok",
    "Verif.C73_switch",
    "Verif.C73_greeting",
    "Verif.C73_state",
    "Verif.C73_example_error",
    "Verif.C73_example_progress",
    "Verif.C73_example_ok"
   ],
   "note": ""
  },
  {
   "property": "C74",
   "status": "proved",
   "theorems": [
    "Verif.C74_value",
    "Verif.C74_panic",
    "Verif.C74_row",
    "Verif.C74_row_panic",
    "Verif.C74_example"
   ],
   "note": ""
  },
  {
   "property": "C75",
   "status": "proved",
   "theorems": [
    "Verif.C75_value",
    "Verif.C75_row",
    "Verif.C75_row_panic",
    "Verif.C75_example_shift"
   ],
   "note": ""
  },
  {
   "property": "C76",
   "status": "proved",
   "theorems": [
    "Verif.C76_packet",
    "Verif.C76_execute_ok",
    "Verif.C76_execute_error",
    "Verif.C76_prepare",
    "Verif.C76_prepare_error",
    "Verif.C76_head_rows",
    "Verif.C76_head_ok",
    "Verif.C76_head_kinds",
    "Verif.C76_head_error",
    "Verif.C76_head_panic",
    "Verif.C76_end",
    "Verif.C76_next_row",
    "Verif.C76_next_end",
    "Verif.C76_next_panic",
    "Verif.C76_collect",
    "Verif.C76_collect_panic",
    "Verif.C76_query",
    "Verif.C76_statement",
    "Verif.C76_example_query"
   ],
   "note": ""
  },
  {
   "property": "C77",
   "status": "proved",
   "theorems": [
    "Verif.C77_idle",
    "Verif.C77_idle_panic",
    "Verif.C77_send",
    "Verif.C77_send_statement",
    "Verif.C77_execute_ok",
    "Verif.C77_execute_error",
    "Verif.C77_statement_ok",
    "Verif.C77_statement_error",
    "Verif.C77_prepare",
    "Verif.C77_prepare_error",
    "Verif.C77_query",
    "Verif.C77_statement",
    "Verif.C77_one",
    "Verif.C77_finish",
    "Verif.C77_send_panic",
    "Verif.C77_query_panic",
    "Verif.C77_rows_panic_text",
    "Verif.C77_rows_panic_bin",
    "Verif.C77_example"
   ],
   "note": ""
  },
  {
   "property": "C78",
   "status": "proved",
   "theorems": [
    "Verif.C78_accepted",
    "Verif.C78_refused",
    "Verif.C78_panic",
    "Verif.C78_example"
   ],
   "note": ""
  },
  {
   "property": "C79",
   "status": "proved",
   "theorems": [
    "Verif.C79_key_text",
    "Verif.C79_encrypts",
    "Verif.C79_encrypt_panics",
    "Verif.C79_version",
    "Verif.C79_version_panics",
    "Verif.C79_greeting",
    "Verif.C79_login",
    "Verif.C79_secure",
    "Verif.C79_example"
   ],
   "note": ""
  },
  {
   "property": "C80",
   "status": "proved",
   "theorems": [
    "Verif.C80_tables",
    "Verif.C80_becomes",
    "Verif.C80_update_query",
    "Verif.C80_example",
    "Verif.C80_example_update"
   ],
   "note": ""
  },
  {
   "property": "C81",
   "status": "proved",
   "theorems": [
    "Verif.C81_lookup_text",
    "Verif.C81_joined",
    "Verif.C81_clause",
    "Verif.C81_statement",
    "Verif.C81_lookup",
    "Verif.C81_example"
   ],
   "note": ""
  },
  {
   "property": "C82",
   "status": "proved",
   "theorems": [
    "Verif.C82_literal",
    "Verif.C82_error",
    "Verif.C82_distinct",
    "Verif.C82_progress",
    "Verif.C82_runtime",
    "Verif.C82_printable",
    "Verif.C82_reported",
    "Verif.C82_example"
   ],
   "note": ""
  },
  {
   "property": "C83",
   "status": "partial",
   "theorems": [
    "Verif.C83_pretty_violated",
    "Verif.C83_options_violated",
    "Verif.C83_connection_violated",
    "Verif.C83_errors_partial",
    "Verif.C83_example_violated"
   ],
   "note": "The code breaks it: options and connections print the password (C83_options_violated, C83_connection_violated). Proved for the errors of connect and the connection data."
  },
  {
   "property": "C84",
   "status": "partial",
   "theorems": [
    "Verif.C84_rows_partial",
    "Verif.C84_reached_partial",
    "Verif.C84_to_version_partial",
    "Verif.C84_program_partial",
    "Verif.C84_one_down_partial",
    "Verif.C84_step",
    "Verif.C84_example"
   ],
   "note": "Partial as C69: names with quotes or backslashes (C49) or more than 255 characters (C69_long_violated), and migrations that touch the table `migrations` themselves."
  },
  {
   "property": "C85",
   "status": "partial",
   "theorems": [
    "Verif.C85_private_partial",
    "Verif.C85_late_violated",
    "Verif.C85_pool_violated",
    "Verif.C85_example"
   ],
   "note": "Violated after a failure to read an answer in time (C85_late_violated, C85_pool_violated: a dropped PoolItem returns the connection whatever its state). Proved: every history without failures of the stream."
  },
  {
   "property": "C86",
   "status": "partial",
   "theorems": [
    "Verif.C86_one_partial",
    "Verif.C86_careful_partial",
    "Verif.C86_torn_violated",
    "Verif.C86_example"
   ],
   "note": "Violated if the connection is used after a failed write (C86_torn_violated, C86_example: a quoted text is executed). Proved: each call by itself, and any number of calls of a caller who stops at the first I/O error."
  },
  {
   "property": "C87",
   "status": "proved",
   "theorems": [
    "Verif.C87_connected",
    "Verif.C87_refused",
    "Verif.C87_panic",
    "Verif.C87_example"
   ],
   "note": ""
  },
  {
   "property": "C88",
   "status": "partial",
   "theorems": [
    "Verif.C88_call",
    "Verif.C88_program",
    "Verif.C88_delivery",
    "Verif.C88_whole",
    "Verif.C88_asks",
    "Verif.C88_dialog_partial",
    "Verif.C88_buffered_violated",
    "Verif.C88_example"
   ],
   "note": "Violated behind a stream that buffers what is written, since nothing flushes it (C88_buffered_violated). Proved: for every program of library calls, independence of the moments at which answers arrive (C88_call, C88_program, C88_delivery), whole packets and the complete command before waiting (C88_whole, C88_asks), and that a dialog of statements gets to its end on a stream that passes on what is written."
  },
  {
   "property": "C89",
   "status": "partial",
   "theorems": [
    "Verif.C89_accepts",
    "Verif.C89_refuses",
    "Verif.C89_round_trip_partial",
    "Verif.C89_violated",
    "Verif.C89_example"
   ],
   "note": "Violated in every format that stores structs of one field by name or does not lend texts from its input: Hex is serialized as a newtype struct but read as a borrowed &str, so every stored value is refused (C89_violated). Proved for formats that do neither, with an exact account of what is accepted."
  },
  {
   "property": "C90",
   "status": "proved",
   "theorems": [
    "Verif.C90_tape",
    "Verif.C90_pieces",
    "Verif.C90_real",
    "Verif.C90_unique",
    "Verif.C90_run",
    "Verif.C90_example",
    "Verif.C90_total",
    "Verif.C90_ended",
    "Verif.C90_resumes"
   ],
   "note": ""
  },
  {
   "property": "C91",
   "status": "partial",
   "theorems": [
    "Verif.C91_like_failure",
    "Verif.C91_one",
    "Verif.C91_discarding_partial",
    "Verif.C91_reading_partial",
    "Verif.C91_unsent_partial",
    "Verif.C91_sequence",
    "Verif.C91_late_violated",
    "Verif.C91_torn_violated",
    "Verif.C91_forged_violated",
    "Verif.C91_example"
   ],
   "note": "Violated: dropped while an answer is due (C91_late_violated), inside a command (C91_torn_violated), inside a row (C91_forged_violated). Proved: a dropped call leaves what a call leaves that fails there (C91_like_failure, C91_one), and no harm is done between rows (C91_discarding_partial, C91_reading_partial) and before the first byte of a statement is accepted (C91_unsent_partial)."
  },
  {
   "property": "C92",
   "status": "partial",
   "theorems": [
    "Verif.C92_operations_partial",
    "Verif.C92_silent",
    "Verif.C92_clock",
    "Verif.C92_endless_violated",
    "Verif.C92_steady_violated",
    "Verif.C92_example"
   ],
   "note": "Violated for calls as wholes: a server that keeps sending rows of an abandoned result holds up the next command forever (C92_endless_violated); and a frame that keeps arriving fails after the timeout (C92_steady_violated). Proved: the bound for each operation, so for calls by their number of operations (C92_operations_partial), and for a server that sends nothing (C92_silent)."
  },
  {
   "property": "C93",
   "status": "partial",
   "theorems": [
    "Verif.C93_same",
    "Verif.C93_default",
    "Verif.C93_no_sleep",
    "Verif.C93_sleep",
    "Verif.C93_accepted",
    "Verif.C93_refused",
    "Verif.C93_panic",
    "Verif.C93_fewer",
    "Verif.C93_switch",
    "Verif.C93_ignored_partial",
    "Verif.C93_defaults",
    "Verif.C93_ignored_violated",
    "Verif.C93_example"
   ],
   "note": "Violated in one part: the plugin named in the greeting is not ignored if the build does not know it (C93_ignored_violated); for names it knows it is (C93_ignored_partial)."
  },
  {
   "property": "C94",
   "status": "partial",
   "theorems": [
    "Verif.C94_first_partial",
    "Verif.C94_shifted_violated",
    "Verif.C94_call_violated",
    "Verif.C94_none",
    "Verif.C94_told_violated",
    "Verif.C94_example"
   ],
   "note": "For every procedure with result sets: the rows of the first one are returned and exactly the rest of the answer is left on the stream (C94_first_partial); the following statements then fail or are told the answers of others (C94_call_violated, C94_shifted_violated, C94_told_violated). Without result sets everything is in step (C94_none)."
  },
  {
   "property": "C95",
   "status": "proved",
   "theorems": [
    "Verif.C95_session",
    "Verif.C95_models",
    "Verif.C95_others",
    "Verif.C95_two_bits",
    "Verif.C95_connected",
    "Verif.C95_example"
   ],
   "note": "Pairs of runs of all calls; the two bits are CLIENT_DEPRECATE_EOF and CLIENT_PROTOCOL_41 (C95_two_bits)."
  },
  {
   "property": "C96",
   "status": "partial",
   "theorems": [
    "Verif.C96_params_partial",
    "Verif.C96_text_violated",
    "Verif.C96_params_violated",
    "Verif.C96_ignored_violated",
    "Verif.C96_example"
   ],
   "note": "The limit is not used at all (C96_ignored_violated, C96_text_violated, C96_params_violated); statements with parameters are sent in commands of at most 16 MiB (C96_params_partial)."
  },
  {
   "property": "C97",
   "status": "proved",
   "theorems": [
    "Verif.C97_inserted",
    "Verif.C97_stored",
    "Verif.C97_found"
   ],
   "note": ""
  },
  {
   "property": "C98",
   "status": "proved",
   "theorems": [
    "Verif.C98_hello",
    "Verif.C98_session"
   ],
   "note": ""
  },
  {
   "property": "C99",
   "status": "proved",
   "theorems": [
    "Verif.C99_fill",
    "Verif.C99_exactly_one",
    "Verif.C99_halfway",
    "Verif.C99_down",
    "Verif.C99_pool"
   ],
   "note": ""
  },
  {
   "property": "C100",
   "status": "proved",
   "theorems": [
    "Verif.C100_simple",
    "Verif.C100_fill",
    "Verif.C100_unfill",
    "Verif.C100_example",
    "Verif.C100_example_records",
    "Verif.C100_pool",
    "Verif.C100_fifo",
    "Verif.C100_limit",
    "Verif.C100_places",
    "Verif.C100_too_few",
    "Verif.C100_new",
    "Verif.C100_up",
    "Verif.C100_down",
    "Verif.C100_program"
   ],
   "note": ""
  },
  {
   "property": "C101",
   "status": "partial",
   "theorems": [
    "Verif.C101_someone",
    "Verif.C101_twice_violated",
    "Verif.C101_create_violated",
    "Verif.C101_run",
    "Verif.C101_trace",
    "Verif.C101_table",
    "Verif.C101_recorded",
    "Verif.C101_complete",
    "Verif.C101_one",
    "Verif.C101_once_partial",
    "Verif.C101_ends"
   ],
   "note": "The code has no lock around migrating, so the property is false: C101_twice_violated, C101_create_violated. Proved for every schedule of the statements of any number of programs: records, successes, losers, termination; C101_once_partial delimits exactly when a migration can take effect again. Statements are executed as a whole by the server; migrations are single statements (simple_migration!)."
  },
  {
   "property": "C102",
   "status": "proved",
   "theorems": [
    "Verif.C102_polls",
    "Verif.C102_dropped",
    "Verif.C102_rows",
    "Verif.C102_connect",
    "Verif.C102_migrator",
    "Verif.C102_migrator_order",
    "Verif.C102_history",
    "Verif.C102_greeting",
    "Verif.C102_greeting_long",
    "Verif.C102_fraction",
    "Verif.C102_fraction_lost",
    "Verif.C102_display",
    "Verif.C102_display_wraps"
   ],
   "note": "The two builds are modelled separately where they differ (Model/Release.lean lists all places, Model/AsyncRelease.lean has the futures that reach them); calls that do not reach these places are the same definition in both. The interactive clients of C88 and the futures of C90 and C91 include those of a release build. The pool has no arithmetic that can leave its type and takes a connection as made or not."
  },
  {
   "property": "C103",
   "status": "partial",
   "theorems": [
    "Verif.C103_attributes",
    "Verif.C103_switch",
    "Verif.C103_switch_header_violated",
    "Verif.C103_switch_accepted_violated",
    "Verif.C103_old_eof_violated",
    "Verif.C103_old_eof_partial",
    "Verif.C103_halves",
    "Verif.C103_unchecked"
   ],
   "note": "False of the switch request and the old end-of-rows packet as written (C103_switch_header_violated, C103_switch_accepted_violated, C103_old_eof_violated); C103_old_eof_partial and C103_switch say exactly what these functions do. Attributes, halves of integers and readers without checks are proved in full."
  },
  {
   "property": "C104",
   "status": "partial",
   "theorems": [
    "Verif.C104_reads",
    "Verif.C104_parts",
    "Verif.C104_slices",
    "Verif.C104_error",
    "Verif.C104_state",
    "Verif.C104_state_connect",
    "Verif.C104_state_models",
    "Verif.C104_reset",
    "Verif.C104_leak_violated"
   ],
   "note": "Soundness is proved in full; the part about dropping is false of vectors of owning values (C104_leak_violated). ManuallyDrop::take in Drop for PoolItem (pool_item.rs 45) is called once per item by the rules of the language (drop runs once, the field is private) and is not modelled beyond C38/C39: an item is in one place at a time."
  },
  {
   "property": "C105",
   "status": "partial",
   "theorems": [
    "Verif.C105_login_partial",
    "Verif.C105_connect_partial",
    "Verif.C105_connect_same_partial",
    "Verif.C105_tame",
    "Verif.C105_login_violated",
    "Verif.C105_models_partial",
    "Verif.C105_models_same",
    "Verif.C105_open_partial",
    "Verif.C105_few",
    "Verif.C105_move_partial",
    "Verif.C105_migrator_same",
    "Verif.C105_open_violated",
    "Verif.C105_lengths",
    "Verif.C105_rows_partial",
    "Verif.C105_rows_violated",
    "Verif.C105_ok",
    "Verif.C105_ok_sent",
    "Verif.C105_ok_violated",
    "Verif.C105_errors",
    "Verif.C105_results_partial",
    "Verif.C105_results_violated",
    "Verif.C105_calls_partial",
    "Verif.C105_columns_violated",
    "Verif.C105_same",
    "Verif.C105_same_streams",
    "Verif.C105_key_partial",
    "Verif.C105_key_violated",
    "Verif.C105_mask",
    "Verif.C105_size_partial",
    "Verif.C105_size_violated",
    "Verif.C105_limit"
   ],
   "note": "From 64 bits to 32 everything that succeeds is the same (proved in full for connecting, the calls on a connection, storing and updating models, and the migrator; for connecting the keys in use must be read alike by both, which C105_key_partial shows of keys encoded as the standards say). The converse is false of malformed packets (C105_rows_violated, C105_ok_violated, C105_results_violated, C105_columns_violated, C105_open_violated) and keys with long forms of lengths are refused with 32 bits, which makes a login fail there (C105_key_violated, C105_login_violated). Assumed: data in memory, including all parameters of one call together, is smaller than 2^32 bytes."
  },
  {
   "property": "C106",
   "status": "partial",
   "theorems": [
    "Verif.C106_agree_partial",
    "Verif.C106_fails",
    "Verif.C106_agree_violated",
    "Verif.C106_goal_violated",
    "Verif.C106_twice_violated",
    "Verif.C106_run",
    "Verif.C106_table",
    "Verif.C106_noted",
    "Verif.C106_decided",
    "Verif.C106_ends",
    "Verif.C106_kept",
    "Verif.C106_gone",
    "Verif.C106_goal_partial",
    "Verif.C106_order",
    "Verif.C106_back",
    "Verif.C106_back_violated",
    "Verif.C106_someone",
    "Verif.C106_version"
   ],
   "note": "The code has no lock around migrating, so the property is false: C106_agree_violated, C106_goal_violated, C106_twice_violated. Proved for every schedule: the records and their reasons, decisions, termination, causes of failures, programs with one goal (C106_goal_partial), programs one after the other (C106_agree_partial), migrations on which goals do not contradict each other (C106_kept, C106_gone). Of programs with the same migrations and any goals one gets through (C106_someone), so the version is reached in the end (C106_version). Statements are executed as a whole by the server; migrations are single statements (simple_migration!)."
  },
  {
   "property": "C107",
   "status": "proved",
   "theorems": [
    "Verif.C107_inserts",
    "Verif.C107_kept",
    "Verif.C107_found",
    "Verif.C107_run",
    "Verif.C107_swap",
    "Verif.C107_history",
    "Verif.C107_ends",
    "Verif.C107_columns",
    "Verif.C107_disjoint"
   ],
   "note": "Statements are executed as a whole by the server, one after the other; the server's ids, defaults and refusals are parameters. C107_run ties the programs of the schedule to the code on connections of their own; C107_swap shows that preparing and closing in between commute with what other connections do, if statement numbers do not depend on the tables. C107_kept and C107_found are about inserts, C107_columns and C107_disjoint about updates of rows whose key is not itself set."
  },
  {
   "property": "C108",
   "status": "proved",
   "theorems": [
    "Verif.C108_whole",
    "Verif.C108_sofar",
    "Verif.C108_done",
    "Verif.C108_query",
    "Verif.C108_later"
   ],
   "note": "As in C107 statements are executed as a whole. Programs here only insert; updates are in C107_columns and C107_disjoint. C108_whole needs that the models the programs store in the table are of the type queried and that the tables' keys are keys."
  },
  {
   "property": "C109",
   "status": "proved",
   "theorems": [
    "Verif.C109_links",
    "Verif.C109_whole",
    "Verif.C109_query",
    "Verif.C109_insert"
   ],
   "note": "As in C107 statements are executed as a whole. Programs do not delete rows: the code has no operation on models that does. C109_query needs that keys are keys at that time (Keyed), as a key that occurs twice would return objects twice."
  },
  {
   "property": "C110",
   "status": "proved",
   "theorems": [
    "Verif.C110_run",
    "Verif.C110_served",
    "Verif.C110_alone",
    "Verif.C110_tasks",
    "Verif.C110_history",
    "Verif.C110_kept",
    "Verif.C110_found",
    "Verif.C110_bound",
    "Verif.C110_goes"
   ],
   "note": "The pool is taken as: a connection nobody holds may be taken, any of them (C38 proves that connections are never held twice, C85 what a failing stream does to the next holder). Statements are executed as a whole, as in C107; tasks that are dropped between are in C91, streams that fail in C85. The bound needs finitely many tasks with jobs. That a given task gets its turn is up to the executor."
  },
  {
   "property": "C111",
   "status": "proved",
   "theorems": [
    "Verif.C111_tree",
    "Verif.C111_distinct",
    "Verif.C111_value",
    "Verif.C111_refusal",
    "Verif.C111_convert",
    "Verif.C111_calendar",
    "Verif.C111_compact",
    "Verif.C111_error",
    "Verif.C111_server",
    "Verif.C111_reported",
    "Verif.C111_unexpected",
    "Verif.C111_wrong_example",
    "Verif.C111_server_example"
   ],
   "note": "The builders of the standard library (debug_struct, debug_tuple, debug_list, PadAdapter) are modelled for the calls the code makes. What other code prints (I/O errors, errors about UTF-8, digits of floating point numbers, the value inside SerializeError::InvalidValue) and the constant texts in UnexpectedPacket and InvalidPacket are parameters that have to be readable themselves; C111ex.prints is one choice. Of floating point numbers the text has the digits; different bit patterns can have the same digits (NaN). Connections and pools are not covered in the indented form, options are (C83_pretty_violated: the password is in the text)."
  },
  {
   "property": "C112",
   "status": "partial",
   "theorems": [
    "Verif.C112_awake_partial",
    "Verif.C112_enough_partial",
    "Verif.C112_fair_partial",
    "Verif.C112_kept",
    "Verif.C112_found",
    "Verif.C112_finish_partial",
    "Verif.C112_hang_violated",
    "Verif.C112_store",
    "Verif.C112_taken",
    "Verif.C112_run",
    "Verif.C112_served",
    "Verif.C112_history"
   ],
   "note": "Everything about results, connections and tables holds as stated. The tasks can always come to their end by polls, but an executor that polls only what was woken does not make these polls: no waker is ever called when a connection is given back, so a task that was polled once after registering waits for ever while the connection is idle (C112_hang_violated, from C40_never_woken_violated). C112_finish_partial is the existence of an end under an executor that also polls tasks that were not woken, while fewer than N places are lost (C41_exhausted_violated). C112_fair_partial: all tasks end if every one is polled again and again; what is missing is an executor that polls only what was woken (C112_hang_violated). With such an executor, too, all tasks end if there are at least as many places left as tasks (C112_enough_partial); no task then ever waits to be woken by another (C112_awake_partial)."
  },
  {
   "property": "C113",
   "status": "proved",
   "theorems": [
    "Verif.C113_deadlock",
    "Verif.C113_migrators",
    "Verif.C113_fair",
    "Verif.C113_migrators_fair",
    "Verif.C113_no_deadlock"
   ],
   "note": "Coming to the end is possible from everywhere, and happens when every task is polled again and again; that an executor which polls only what was woken does not get there is C112_hang_violated and C40."
  },
  {
   "property": "C114",
   "status": "partial",
   "theorems": [
    "Verif.C114_every_violated",
    "Verif.C114_starved_violated",
    "Verif.C114_poll_partial",
    "Verif.C114_full_partial",
    "Verif.C114_finite_partial"
   ],
   "note": "C114_starved_violated is an infinite execution in which the request is polled for ever and never served. The rest says when a poll succeeds, and that it is served when there are finitely many others (C114_finite_partial, by C113_fair). Waiting for a wake-up instead of polling again is C40. C114_every_violated: this is so for every size of the pool."
  },
  {
   "property": "C115",
   "status": "proved",
   "theorems": [
    "Verif.C115_awake",
    "Verif.C115_served",
    "Verif.C115_fair",
    "Verif.C115_sharp"
   ],
   "note": "The condition counts also the places that are lost for good (C38); without it requests do wait, and what happens then is C39, C40 and C114. Loads of the counter return its current value in C115_fair (a load that never sees the current value fails for ever); C115_awake holds for stale loads as well. C115_sharp: with one request more than places, one may be left asleep for good while all connections are idle, for every size."
  }
 ]
}