# Axioms of the property theorems

Generated by tools/axioms.py with `#print axioms`.

| property | theorem | axioms |
|---|---|---|
| C01 | `Num.c01_parsenum_accepts` | Classical.choice, Quot.sound, propext |
| C01 | `Num.c01_parsenum_rejects` | Classical.choice, Quot.sound, propext |
| C01 | `Num.c01_denotes_unique` | propext |
| C01 | `Num.c01_parsenum_decimal` | Classical.choice, Quot.sound, propext |
| C01 | `Num.c01_parsenum_neg_decimal` | Classical.choice, Quot.sound, propext |
| C01 | `Num.c01_silent` | Classical.choice, Quot.sound, propext |
| C02 | `Num.c02_parseport_accepts` | Classical.choice, Quot.sound, propext |
| C02 | `Num.c02_parseport_total` | Classical.choice, Quot.sound, propext |
| C02 | `Num.c02_porttostr_prints` | Quot.sound, propext |
| C02 | `Num.c02_port_roundtrip` | Classical.choice, Quot.sound, propext |
| C03 | `Name.c03_parsename_accepts` | Classical.choice, Quot.sound, propext |
| C03 | `Name.c03_null` | Quot.sound, propext |
| C03 | `Name.c03_parsename_rejects` | Classical.choice, Quot.sound, propext |
| C04 | `Name.c04_unwire_parsename` | Classical.choice, Quot.sound, propext |
| C04 | `Name.c04_wire_injective` | Classical.choice, Quot.sound, propext |
| C04 | `Name.c04_nameOf_functional` | Quot.sound, propext |
| C05 | `HostPort.c05_accepts` | Classical.choice, Quot.sound, propext |
| C05 | `HostPort.c05_rejects` | Classical.choice, Quot.sound, propext |
| C05 | `HostPort.c05_unambiguous` | Classical.choice, Quot.sound, propext |
| C05 | `HostPort.c05_pieces` | propext |
| C05 | `HostPort.c05_noport_accepts` | Classical.choice, Quot.sound, propext |
| C05 | `HostPort.c05_noport_rejects` | Classical.choice, Quot.sound, propext |
| C06 | `HostPort.c06_bounds` | Classical.choice, Quot.sound, propext |
| C06 | `HostPort.c06_null` | Quot.sound, propext |
| C07 | `Proxy.c07_emit` | Classical.choice, Quot.sound, propext |
| C07 | `Proxy.c07_header_length` | Quot.sound, propext |
| C07 | `Proxy.c07_roundtrip` | Classical.choice, Quot.sound, propext |
| C07 | `Proxy.c07_mixed_families_rejected` | Quot.sound, propext |
| C08 | `Proxy.c08_consumes` | Classical.choice, Quot.sound, propext |
| C08 | `Proxy.c08_payload_kept` | Classical.choice, Quot.sound, propext |
| C09 | `Proxy.c09_memory_safe` | Classical.choice, Quot.sound, propext |
| C09 | `Proxy.c09_sizes` | Classical.choice, Quot.sound, propext |
| C10 | `Proxy.c10_exact` | Classical.choice, Quot.sound, propext |
| C10 | `Proxy.c10_accepted_is_strict_partial` | propext |
| C10 | `Proxy.c10_strict_accepted` | propext |
| C10 | `Proxy.c10_violation_lf_only` | Quot.sound, propext |
| C10 | `Proxy.c10_violation_nul` | Quot.sound, propext |
| C10 | `Proxy.c10_violation_trailing` | Quot.sound, propext |
| C11 | `Path.c11_exact` | Classical.choice, Quot.sound, propext |
| C11 | `Path.c11_safe` | Classical.choice, Quot.sound, propext |
| C11 | `Path.c11_no_escape` | Classical.choice, Quot.sound, propext |
| C11 | `Path.c11_idempotent` | Classical.choice, Quot.sound, propext |
| C11 | `Path.c11_length` | Classical.choice, Quot.sound, propext |
| C11 | `Path.c11_unchanged` | Classical.choice, Quot.sound, propext |
| C12 | `Path.c12_cut` | propext |
| C12 | `Path.c12_same` | propext |
| C12 | `Path.c12_prefix` | Classical.choice, Quot.sound, propext |
| C13 | `Rw.c13_readall` | Classical.choice, Quot.sound, propext |
| C13 | `Rw.c13_readall_returns` | Quot.sound, propext |
| C13 | `Rw.c13_readall_succeeds` | Classical.choice, Quot.sound, propext |
| C14 | `Rw.c14_writeall` | Quot.sound, propext |
| C14 | `Rw.c14_writeall_returns` | Quot.sound, propext |
| C15 | `Rw.c15_timed` | Classical.choice, Quot.sound, propext |
| C15 | `Rw.c15_no_overflow` | Quot.sound, propext |
| C15 | `Rw.c15_invalid` | none |
| C16 | `Pipe.c16_pack` | Classical.choice, Quot.sound, propext |
| C16 | `Pipe.c16_unpack_pack` | Classical.choice, Quot.sound, propext |
| C16 | `Pipe.c16_pack_unpack` | Classical.choice, Quot.sound, propext |
| C17 | `Pipe.c17_write` | Classical.choice, Quot.sound, propext |
| C17 | `Pipe.c17_write_fails` | Classical.choice, Quot.sound, propext |
| C17 | `Pipe.c17_readmax` | Classical.choice, Quot.sound, propext |
| C17 | `Pipe.c17_readall` | Classical.choice, Quot.sound, propext |
| C17 | `Pipe.c17_readalloc` | Classical.choice, Quot.sound, propext |
| C17 | `Pipe.c17_end_to_end` | Classical.choice, Quot.sound, propext |
| C17 | `Pipe.c17_delivered` | Classical.choice, Quot.sound, propext |
| C18 | `Pipe.c18_readmax` | Classical.choice, Quot.sound, propext |
| C18 | `Pipe.c18_readall` | Classical.choice, Quot.sound, propext |
| C18 | `Pipe.c18_readalloc` | Classical.choice, Quot.sound, propext |
| C18 | `Pipe.c18_error_frame` | Classical.choice, Quot.sound, propext |
| C18 | `Pipe.c18_error_write` | Classical.choice, Quot.sound, propext |
| C18 | `Pipe.c18_error_refused` | Classical.choice, Quot.sound, propext |
| C18 | `Pipe.c18_errno_zero_is_empty_message` | propext |
| C19 | `Buffer.c19_stream` | Classical.choice, Quot.sound, propext |
| C19 | `Buffer.c19_flush` | Classical.choice, Quot.sound, propext |
| C19 | `Buffer.c19_retry_duplicates` | none |
| C20 | `Buffer.c20_stream` | Classical.choice, Quot.sound, propext |
| C20 | `Buffer.c20_eof` | Classical.choice, Quot.sound, propext |
| C20 | `Buffer.c20_get_bound` | Classical.choice, Quot.sound, propext |
| C21 | `Buffer.c21_copy` | Classical.choice, Quot.sound, propext |
| C21 | `Buffer.c21_zero_size_input` | propext |
| C22 | `Alloc.c22_safe` | Classical.choice, Quot.sound, propext |
| C22 | `Alloc.c22_block` | Classical.choice, Quot.sound, propext |
| C22 | `Alloc.c22_live_disjoint` | Classical.choice, Quot.sound, propext |
| C22 | `Alloc.c22_free_keeps_others` | Classical.choice, Quot.sound, propext |
| C23 | `Alloc.c23_accounting` | Classical.choice, Quot.sound, propext |
| C23 | `Alloc.c23_limit` | Classical.choice, Quot.sound, propext |
| C23 | `Alloc.c23_limit_stays` | Quot.sound, propext |
| C23 | `Alloc.c23_first_limit` | Classical.choice, Quot.sound, propext |
| C23 | `Alloc.c23_grants` | Classical.choice, Quot.sound, propext |
| C23 | `Alloc.c23_refuse` | Quot.sound, propext |
| C23 | `Alloc.c23_failure_no_effect` | Classical.choice, Quot.sound, propext |
| C23 | `Alloc.c22_safe` | Classical.choice, Quot.sound, propext |
| C24 | `Alloc.c24_freed_zero` | Classical.choice, Quot.sound, propext |
| C24 | `Alloc.c24_free` | Classical.choice, Quot.sound, propext |
| C24 | `Alloc.c24_freeall` | Classical.choice, Quot.sound, propext |
| C24 | `Alloc.c24_arena_not_reused` | Classical.choice, Quot.sound, propext |
| C24 | `Alloc.c24_arena_free_keeps_contents` | none |
| C25 | `Stralloc.c25_call` | Classical.choice, Quot.sound, propext |
| C25 | `Stralloc.c25_history` | Classical.choice, Quot.sound, propext |
| C25 | `Stralloc.c25_fresh` | none |
| C25 | `Stralloc.c25_reserve` | Classical.choice, Quot.sound, propext |
| C25 | `Stralloc.c25_self_append` | Classical.choice, Quot.sound, propext |
| C25 | `Stralloc.c25_contents` | Quot.sound, propext |
| C25 | `Stralloc.c25_violation_failed_copy` | Quot.sound, propext |
| C25 | `Stralloc.c25_violation_failed_number` | Quot.sound, propext |
| C25 | `Stralloc.c25_violation_self_append` | Quot.sound, propext |
| C25 | `Stralloc.c25_violation_self_copy` | Quot.sound, propext |
| C25 | `Stralloc.c25_violation_append_unused` | Quot.sound, propext |
| C26 | `Stralloc.c26_exact` | Classical.choice, Quot.sound, propext |
| C26 | `Stralloc.c26_text` | Classical.choice, Quot.sound, propext |
| C26 | `Stralloc.c26_readback` | Classical.choice, Quot.sound, propext |
| C26 | `Stralloc.c26_huge_width` | Quot.sound, propext |
| C27 | `Str.c27_len` | propext |
| C27 | `Str.c27_start` | Classical.choice, Quot.sound, propext |
| C27 | `Str.c27_chr` | Classical.choice, Quot.sound, propext |
| C27 | `Str.c27_rchr` | Quot.sound, propext |
| C27 | `Str.c27_diff` | Quot.sound, propext |
| C27 | `Str.c27_copy` | Classical.choice, Quot.sound, propext |
| C27 | `Str.c27_copy_needs_room` | Quot.sound, propext |
| C28 | `Str.c28_diffb` | Classical.choice, Quot.sound, propext |
| C28 | `Str.c28_diffb_short` | Quot.sound, propext |
| C28 | `Str.c28_diffs` | propext |
| C28 | `Str.c28_zero_iff` | Quot.sound, propext |
| C28 | `Str.c28_startb` | Quot.sound, propext |
| C28 | `Str.c28_starts` | Quot.sound, propext |
| C28 | `Str.c28_lowerb` | Quot.sound, propext |
| C28 | `Str.c28_lowers` | Quot.sound, propext |
| C28 | `Str.c28_fold` | propext |
| C29 | `Pem.c29_split` | Classical.choice, Quot.sound, propext |
| C29 | `Pem.c29_load` | Classical.choice, Quot.sound, propext |
| C29 | `Pem.c29_load_safe` | Classical.choice, Quot.sound, propext |
| C30 | `Pem.c30_partial` | Classical.choice, Quot.sound, propext |
| C30 | `Pem.c30_outside` | Classical.choice, Quot.sound, propext |
| C30 | `Pem.c30_violation_open_block` | Quot.sound, propext |
| C31 | `Pem.c31_roundtrip` | Quot.sound, propext |
| C31 | `Pem.c31_load` | Classical.choice, Quot.sound, propext |
| C31 | `Pem.c31_at_rest` | Classical.choice, Quot.sound, propext |
| C32 | `Resolve.c32_value` | Quot.sound, propext |
| C32 | `Resolve.c32_range` | Quot.sound, propext |
| C32 | `Resolve.c32_uniform` | Quot.sound, propext |
| C32 | `Resolve.draws_spec` | Classical.choice, Quot.sound, propext |
| C32 | `Resolve.c32_large_bound` | none |
| C33 | `Resolve.c33_permutes` | Classical.choice, Quot.sound, propext |
| C33 | `Resolve.c33_reachable` | Classical.choice, Quot.sound, propext |
| C34 | `Resolve.c34_resolve` | Classical.choice, Quot.sound, propext |
| C34 | `Resolve.c34_failure` | Classical.choice, Quot.sound, propext |
| C34 | `Resolve.c34_request` | Classical.choice, Quot.sound, propext |
| C34 | `Resolve.c34_helper` | Classical.choice, Quot.sound, propext |
| C34 | `Resolve.c34_end_to_end` | Classical.choice, Quot.sound, propext |
| C34 | `Resolve.c34_end_to_end_failure` | Classical.choice, Quot.sound, propext |
| C34 | `Resolve.c34_long_name` | Classical.choice, Quot.sound, propext |
| C34 | `Resolve.c34_reply_in_bounds` | Classical.choice, Quot.sound, propext |
| C35 | `Log.c35_one_line` | Classical.choice, Quot.sound, propext |
| C35 | `Log.c35_layout` | Classical.choice, Quot.sound, propext |
| C35 | `Log.c35_usage` | Classical.choice, Quot.sound, propext |
| C35 | `Log.c35_history` | Classical.choice, Quot.sound, propext |
| C35 | `Log.c35_unambiguous_partial` | Quot.sound, propext |
| C35 | `Log.c35_violation_backslash` | none |
| C35 | `Log.c35_lost_newline` | propext |
| C36 | `Log.c36_text` | Classical.choice, Quot.sound, propext |
| C36 | `Log.c36_survives` | Classical.choice, Quot.sound, propext |
| C36 | `Log.c36_number` | Classical.choice, Quot.sound, propext |
| C36 | `Log.c36_id` | Quot.sound, propext |
| C36 | `Log.c36_env_id` | Quot.sound, propext |
| C36 | `Log.c36_random_id` | Quot.sound, propext |
| C37 | `Log.c37_range` | Quot.sound, propext |
| C37 | `Log.c37_step` | Quot.sound, propext |
| C37 | `Log.c37_emitted_iff` | Classical.choice, Quot.sound, propext |
| C37 | `Log.c37_whitelist` | propext |
| C37 | `Log.c37_whitelist_fails` | propext |
| C38 | `Relay.Tcp.c38_relay` | Classical.choice, Quot.sound, propext |
| C38 | `Relay.Tcp.c38_prefix` | Classical.choice, Quot.sound, propext |
| C39 | `Relay.Tcp.c39_close` | Classical.choice, Quot.sound, propext |
| C39 | `Relay.Tcp.c39_finished` | Classical.choice, Quot.sound, propext |
| C39 | `Relay.Tcp.c39_complete` | Classical.choice, Quot.sound, propext |
| C39 | `Relay.Tcp.c39_never_stuck` | Classical.choice, Quot.sound, propext |
| C40 | `Relay.Tcp.c40_header` | Classical.choice, Quot.sound, propext |
| C40 | `Relay.Tcp.c40_no_header` | Classical.choice, Quot.sound, propext |
| C41 | `Relay.Clear.c41_relay` | Classical.choice, Quot.sound, propext |
| C41 | `Relay.Clear.c41_prefix` | Classical.choice, Quot.sound, propext |
| C41 | `Relay.Clear.c41_close` | Classical.choice, Quot.sound, propext |
| C41 | `Relay.Clear.c41_finished` | Classical.choice, Quot.sound, propext |
| C41 | `Relay.Clear.c41_goes_on` | Classical.choice, Quot.sound, propext |
| C42 | `Relay.Clear.c42_discard` | Classical.choice, Quot.sound, propext |
| C42 | `Relay.Clear.c42_nothing_after` | Classical.choice, Quot.sound, propext |
| C43 | `Relay.Clear.c43_switch` | Classical.choice, Quot.sound, propext |
| C43 | `Relay.Clear.c43_no_ack` | Classical.choice, Quot.sound, propext |
| C43 | `Relay.Clear.c43_output_first` | Classical.choice, Quot.sound, propext |
| C43 | `Relay.Clear.c43_poll_dependence` | Classical.choice, Quot.sound, propext |
| C44 | `Relay.Tls.c44_at_most_once` | Classical.choice, Quot.sound, propext |
| C44 | `Relay.Tls.c44_before_data` | Classical.choice, Quot.sound, propext |
| C44 | `Relay.Tls.c44_exactly_once` | Classical.choice, Quot.sound, propext |
| C44 | `Relay.Tls.c44_name` | Classical.choice, Quot.sound, propext |
| C44 | `Relay.Tls.c44_needs_ordered` | Classical.choice, Quot.sound, propext |
| C45 | `Relay.Tls.c45_defined` | Classical.choice, Quot.sound, propext |
| C45 | `Relay.Tls.c45_allowed` | Classical.choice, Quot.sound, propext |
| C45 | `Relay.Tls.c45_moved` | Classical.choice, Quot.sound, propext |
| C45 | `Relay.Tls.c45_engine` | Classical.choice, Quot.sound, propext |
| C45 | `Relay.Tls.c45_stream` | Classical.choice, Quot.sound, propext |
| C45 | `Relay.Tls.c45_flushed` | Classical.choice, Quot.sound, propext |
| C46 | `Relay.Tls.c46_wait` | Classical.choice, Quot.sound, propext |
| C46 | `Relay.Tls.c46_end` | Classical.choice, Quot.sound, propext |
| C46 | `Relay.Tls.c46_goes_on` | Classical.choice, Quot.sound, propext |
| C47 | `Smtp.c47_ends` | Classical.choice, Quot.sound, propext |
| C47 | `Smtp.c47_trace` | Classical.choice, Quot.sound, propext |
| C47 | `Smtp.c47_forward_partial` | Classical.choice, Quot.sound, propext |
| C47 | `Smtp.c47_lines` | Classical.choice, Quot.sound, propext |
| C47 | `Smtp.c47_command` | Classical.choice, Quot.sound, propext |
| C47 | `Smtp.c47_nul_splits` | propext |
| C48 | `Smtp.c48_dispatch` | Classical.choice, Quot.sound, propext |
| C48 | `Smtp.c48_verbs_partial` | Quot.sound, propext |
| C48 | `Smtp.c48_case` | none |
| C48 | `Smtp.c48_word` | Quot.sound, propext |
| C48 | `Smtp.c48_abbreviations` | Quot.sound, propext |
| C48 | `Smtp.c48_empty_line` | propext |
| C49 | `Smtp.c49_session` | Classical.choice, Quot.sound, propext |
| C49 | `Smtp.c49_body` | Classical.choice, Quot.sound, propext |
| C49 | `Smtp.c49_data` | Classical.choice, Quot.sound, propext |
| C50 | `Smtp.c50_limits` | Classical.choice, Quot.sound, propext |
| C50 | `Smtp.c50_line` | Quot.sound, propext |
| C50 | `Smtp.c50_reply` | Classical.choice, Quot.sound, propext |
| C50 | `Smtp.c50_sender` | Classical.choice, Quot.sound, propext |
| C50 | `Smtp.c50_recipient` | Classical.choice, Quot.sound, propext |
| C51 | `Smtp.c51_refused_partial` | Classical.choice, Quot.sound, propext |
| C51 | `Smtp.c51_closed` | Classical.choice, Quot.sound, propext |
| C51 | `Smtp.c51_passed_partial` | Classical.choice, Quot.sound, propext |
| C51 | `Smtp.c51_decision` | Classical.choice, Quot.sound, propext |
| C51 | `Smtp.c51_failing` | Classical.choice, Quot.sound, propext |
| C51 | `Smtp.c51_question` | Quot.sound, propext |
| C51 | `Smtp.c51_overlong_passes` | Classical.choice, Quot.sound, propext |
| C51 | `Smtp.c51_unrecognised_form_passes` | propext |
| C51 | `Smtp.c51_stale_recipient` | propext |
| C52 | `Smtp.c52_order` | Classical.choice, Quot.sound, propext |
| C52 | `Smtp.c52_once` | Classical.choice, Quot.sound, propext |
| C52 | `Smtp.c52_discarded_partial` | Classical.choice, Quot.sound, propext |
| C52 | `Smtp.c52_discard` | Quot.sound, propext |
| C52 | `Smtp.c52_race` | Classical.choice, Quot.sound, propext |
| C53 | `Smtp.c53_client_partial` | Classical.choice, Quot.sound, propext |
| C53 | `Smtp.c53_all` | Classical.choice, Quot.sound, propext |
| C53 | `Smtp.c53_reply` | Classical.choice, Quot.sound, propext |
| C53 | `Smtp.c53_code` | Quot.sound, propext |
| C53 | `Smtp.c53_code_exact` | Classical.choice, Quot.sound, propext |
| C53 | `Smtp.c53_logid` | propext |
| C53 | `Smtp.c53_no_logid` | propext |
| C53 | `Smtp.c53_starttls_line` | propext |
| C53 | `Smtp.c53_nul_truncates` | propext |
| C53 | `Smtp.c53_bare_code` | propext |
| C54 | `Key.c54_protocol` | Classical.choice, Quot.sound, propext |
| C54 | `Key.c54_once` | Classical.choice, Quot.sound, propext |
| C54 | `Key.c54_order` | Classical.choice, Quot.sound, propext |
| C54 | `Key.c54_jailed` | Classical.choice, Quot.sound, propext |
| C54 | `Key.c54_key` | Classical.choice, Quot.sound, propext |
| C54 | `Key.c54_name` | Classical.choice, Quot.sound, propext |
| C54 | `Key.c54_agree` | Classical.choice, Quot.sound, propext |
| C55 | `Key.c55_own_buffers` | Classical.choice, Quot.sound, propext |
| C55 | `Key.c55_fields` | Classical.choice, Quot.sound, propext |
| C55 | `Key.c55_answers` | Classical.choice, Quot.sound, propext |
| C55 | `Key.c55_safe_partial` | Classical.choice, Quot.sound, propext |
| C55 | `Key.c55_label` | Quot.sound, propext |
| C55 | `Key.c55_digest` | Quot.sound, propext |
| C55 | `Key.c55_encrypt_overrun` | Classical.choice, Quot.sound, propext |
| C56 | `Key.c56_getcert` | Classical.choice, Quot.sound, propext |
| C56 | `Key.c56_getcert_failure` | Classical.choice, Quot.sound, propext |
| C56 | `Key.c56_mulgen` | Classical.choice, Quot.sound, propext |
| C56 | `Key.c56_sign` | Classical.choice, Quot.sound, propext |
| C56 | `Key.c56_mul` | Classical.choice, Quot.sound, propext |
| C56 | `Key.c56_prf` | Classical.choice, Quot.sound, propext |
| C56 | `Key.c56_prf_other` | propext |
| C56 | `Key.c56_decrypt_partial` | Classical.choice, Quot.sound, propext |
| C56 | `Key.c56_decrypt_failure` | Classical.choice, Quot.sound, propext |
| C56 | `Key.c56_empty_record` | Classical.choice, Quot.sound, propext |
| C56 | `Key.c56_encrypt` | Classical.choice, Quot.sound, propext |
| C57 | `Conf.c57_sequence` | Classical.choice, Quot.sound, propext |
| C57 | `Conf.c57_bounded` | Classical.choice, Quot.sound, propext |
| C57 | `Conf.c57_served` | Quot.sound, propext |
| C57 | `Conf.c57_unknown_clears_defaults` | propext |
| C58 | `Conf.c58_choose` | Classical.choice, Quot.sound, propext |
| C58 | `Conf.c58_permitted` | Classical.choice, Quot.sound, propext |
| C58 | `Conf.c58_enabled` | Quot.sound, propext |
| C58 | `Conf.c58_refused` | Classical.choice, Quot.sound, propext |
| C58 | `Conf.c58_hash_partial` | Quot.sound, propext |
| C58 | `Conf.c58_no_hash` | Quot.sound, propext |
| C59 | `Conf.c59_version` | Quot.sound, propext |
| C59 | `Conf.c59_curve` | Quot.sound, propext |
| C59 | `Conf.c59_names_unique` | Quot.sound, propext |
| C59 | `Conf.c59_curve_text` | Quot.sound, propext |
| C59 | `Conf.c59_texts_distinct` | Quot.sound, propext |
| C59 | `Conf.c59_unknown_codes` | Quot.sound, propext |
| C60 | `Conf.c60_starts` | Classical.choice, Quot.sound, propext |
| C60 | `Conf.c60_refuses` | Classical.choice, Quot.sound, propext |
| C60 | `Conf.c60_reads_unique` | propext |
| C60 | `Conf.c60_starts_iff` | Classical.choice, Quot.sound, propext |
| C60 | `Conf.c60_proxy_stays_on` | Quot.sound, propext |
| C60 | `Conf.c60_versions_not_compared` | Quot.sound, propext |
| C61 | `Jail.c61_jailed` | Quot.sound, propext |
| C61 | `Jail.c61_order` | Quot.sound, propext |
| C61 | `Jail.c61_failure` | Quot.sound, propext |
| C61 | `Jail.c61_refused` | propext |
| C61 | `Jail.c61_memory` | Quot.sound, propext |
| C61 | `Jail.c61_environment` | Quot.sound, propext |
| C61 | `Jail.c61_environment_rest` | Quot.sound, propext |
| C61 | `Jail.c61_irrevocable` | Classical.choice, Quot.sound, propext |
| C61 | `Jail.c61_never_root` | Classical.choice, Quot.sound, propext |
| C61 | `Jail.c61_distinct` | Classical.choice, Quot.sound, propext |
| C61 | `Jail.c61_succeeds` | Classical.choice, Quot.sound, propext |
| C61 | `Jail.c61_needs_root` | propext |
| C61 | `Jail.c61_memory_soft_only` | propext |
| C62 | `Conn.c62_init` | Quot.sound, propext |
| C62 | `Conn.c62_conn` | Classical.choice, Quot.sound, propext |
| C62 | `Conn.c62_whole` | Classical.choice, Quot.sound, propext |
| C62 | `Conn.c62_extra_slots_leak` | Quot.sound, propext |
| C63 | `Main.c63_main` | Classical.choice, Quot.sound, propext |
| C63 | `Main.c63_main_failure` | Classical.choice, Quot.sound, propext |
| C63 | `Main.c63_main_lost` | Quot.sound, propext |
| C63 | `Main.c63_main_zero` | Classical.choice, Quot.sound, propext |
| C63 | `Main.c63_closes_first` | Quot.sound, propext |
| C63 | `Main.c63_waits` | propext |
| C63 | `Main.c63_tcp` | Classical.choice, Quot.sound, propext |
| C63 | `Main.c63_main_vital` | Quot.sound, propext |
| C63 | `Main.c63_tcp_vital` | Quot.sound, propext |
| C63 | `Main.c63_smtp_vital` | Quot.sound, propext |
| C63 | `Main.c63_smtp_partial` | Classical.choice, Quot.sound, propext |
| C63 | `Main.c63_smtp_lost` | Quot.sound, propext |
| C63 | `Main.c63_in_time` | Classical.choice, Quot.sound, propext |
| C63 | `Main.c63_late` | Classical.choice, Quot.sound, propext |
| C63 | `Main.c63_smtp_in_time` | Classical.choice, Quot.sound, propext |
| C63 | `Main.c63_smtp_late` | Quot.sound, propext |
| C64 | `Ec.c64_base` | Classical.choice, Quot.sound, propext |
| C64 | `Ec.c64_mul` | Classical.choice, Quot.sound, propext |
| C64 | `Ec.c64_same_scalar` | Classical.choice, Quot.sound, propext |
| C64 | `Ec.c64_unknown` | Quot.sound, propext |
| C65 | `ConnInfo.c65_get` | Classical.choice, Quot.sound, propext |
| C65 | `ConnInfo.c65_sized` | Classical.choice, Quot.sound, propext |
| C65 | `ConnInfo.c65_set` | Classical.choice, Quot.sound, propext |
| C65 | `ConnInfo.c65_roundtrip` | Classical.choice, Quot.sound, propext |
| C65 | `ConnInfo.c65_failure_keeps_part` | Quot.sound, propext |
| C66 | `Str.c66_diffn_partial` | Quot.sound, propext |
| C66 | `Str.c66_diffn_short` | Classical.choice, Quot.sound, propext |
| C66 | `Str.c66_diffn_violation` | none |
| C67 | `Conf.c67_requests` | Classical.choice, Quot.sound, propext |
| C67 | `Conf.c67_opened` | Classical.choice, Quot.sound, propext |
| C68 | `Conn.c68_attempt` | Classical.choice, Quot.sound, propext |
| C68 | `Conn.c68_refused` | Quot.sound, propext |
| C69 | `JailPoll.c69_poll` | Quot.sound, propext |
| C69 | `JailPoll.c69_refused` | Classical.choice, Quot.sound, propext |
| C69 | `JailPoll.c69_ready` | Quot.sound, propext |
| C70 | `Main.c70_program` | Classical.choice, Quot.sound, propext |
| C70 | `Main.c70_never_root_partial` | Classical.choice, Quot.sound, propext |
| C70 | `Main.c70_both` | Quot.sound, propext |
| C70 | `Main.c70_refused` | Quot.sound, propext |
| C70 | `Main.c70_starts` | Classical.choice, Quot.sound, propext |
| C70 | `Main.c70_exits` | Quot.sound, propext |
| C70 | `Main.c70_reported` | Classical.choice, Quot.sound, propext |
| C70 | `Main.c70_no_field` | propext |
| C70 | `Main.c70_empty_field` | Classical.choice, Quot.sound, propext |
| C71 | `Main.c71_program` | Classical.choice, Quot.sound, propext |
| C71 | `Main.c71_starts` | Classical.choice, Quot.sound, propext |
| C71 | `Main.c71_taken` | Classical.choice, Quot.sound, propext |
| C71 | `Main.c71_key` | Classical.choice, Quot.sound, propext |
| C71 | `Main.c71_net` | Classical.choice, Quot.sound, propext |
| C71 | `Main.c71_connection` | Classical.choice, Quot.sound, propext |
| C72 | `Main.c72_confined` | Quot.sound, propext |
| C72 | `Main.c72_limited_partial` | Quot.sound, propext |
| C72 | `Main.c72_helpers` | Quot.sound, propext |
| C72 | `Main.c72_deadlines` | Quot.sound, propext |
| C72 | `Main.c72_tcp_unlimited` | Quot.sound, propext |
| C73 | `Relay.Tcp.c73_tcp` | Classical.choice, Quot.sound, propext |
| C73 | `Relay.Clear.c73_clear` | Classical.choice, Quot.sound, propext |
| C73 | `Relay.Tls.c73_tls_partial` | Classical.choice, Quot.sound, propext |
| C73 | `Relay.Tls.c73_handshake_unlimited` | Quot.sound, propext |
| C74 | `Key.Net.c74_mulgen` | Classical.choice, Quot.sound, propext |
| C74 | `Key.Net.c74_sign` | Classical.choice, Quot.sound, propext |
| C74 | `Key.Net.c74_prf` | Classical.choice, Quot.sound, propext |
| C74 | `Key.Net.c74_decrypt_partial` | Classical.choice, Quot.sound, propext |
| C74 | `Key.Net.c74_encrypt_partial` | Classical.choice, Quot.sound, propext |
| C74 | `Key.Net.c74_getcert_partial` | Classical.choice, Quot.sound, propext |
| C74 | `Key.Net.c74_before_buffer` | propext |
| C74 | `Key.Net.c74_getcert_negation` | propext |
| C75 | `Crt.c75_chain` | Classical.choice, Quot.sound, propext |
| C75 | `Crt.c75_aligned` | Quot.sound, propext |
| C75 | `Crt.c75_needs_names` | Quot.sound, propext |
| C76 | `Crt.c76_key` | Quot.sound, propext |
| C77 | `Cmd.c77_name` | Quot.sound, propext |
| C77 | `Cmd.named_exists` | propext |
| C77 | `Cmd.c77_tcp` | Classical.choice, Quot.sound, propext |
| C77 | `Cmd.c77_tcp_refuses` | Classical.choice, Quot.sound, propext |
| C77 | `Cmd.c77_smtp` | Classical.choice, Quot.sound, propext |
| C77 | `Cmd.c77_smtp_refuses` | Classical.choice, Quot.sound, propext |
| C78 | `Crt.c78_file` | Classical.choice, Quot.sound, propext |
| C78 | `Crt.c78_signature` | Classical.choice, Quot.sound, propext |
| C79 | `Fd.c79_released` | Quot.sound, propext |
| C79 | `Fd.c79_inactive` | propext |
| C79 | `Fd.c79_write` | Quot.sound, propext |
| C79 | `Fd.c79_read` | Quot.sound, propext |
| C79 | `Fd.c79_pipe` | Quot.sound, propext |
| C79 | `Fd.c79_both` | Quot.sound, propext |
| C79 | `Fd.c79_needs_dup` | Quot.sound, propext |
| C80 | `Fd.c80_once` | Quot.sound, propext |
| C80 | `Fd.c80_bound` | Classical.choice, Quot.sound, propext |
| C80 | `Fd.c80_flags` | Classical.choice, Quot.sound, propext |
| C80 | `Fd.c80_flags_closed` | Quot.sound, propext |
| C81 | `Conf.c81_engine` | Classical.choice, Quot.sound, propext |
| C81 | `Conf.c81_anchors` | Classical.choice, Quot.sound, propext |
| C81 | `Conf.c81_clients` | Classical.choice, Quot.sound, propext |
| C81 | `Conf.c81_without` | Classical.choice, Quot.sound, propext |
| C81 | `Conf.c81_unreadable` | Classical.choice, Quot.sound, propext |
| C82 | `Key.c82_noninterference` | Classical.choice, Quot.sound, propext |
| C82 | `Key.c82_prf_partial` | Classical.choice, Quot.sound, propext |
| C82 | `Key.c82_label_violation` | propext |
| C82 | `Key.c82_label_accepted` | Quot.sound, propext |
| C83 | `Wipe.c83_filled` | Classical.choice, Quot.sound, propext |
| C83 | `Wipe.c83_nothing` | Classical.choice, Quot.sound, propext |
| C83 | `Wipe.c83_returns` | Quot.sound, propext |
| C83 | `Wipe.c83_opens_once` | propext |
| C84 | `Wipe.c84_tlswrapper` | Classical.choice, Quot.sound, propext |
| C84 | `Wipe.c84_tcp` | Classical.choice, Quot.sound, propext |
| C84 | `Wipe.c84_smtp_partial` | Classical.choice, Quot.sound, propext |
| C84 | `Wipe.c84_smtp_keeps` | Classical.choice, Quot.sound, propext |
| C84 | `Wipe.c84_log_keeps` | Classical.choice, Quot.sound, propext |
| C84 | `Wipe.c84_ends` | Classical.choice, Quot.sound, propext |
| C85 | `Relay.Tcp.c85_tcp_partial` | Classical.choice, Quot.sound, propext |
| C85 | `Relay.Tcp.c85_tcp_starved` | Classical.choice, Quot.sound, propext |
| C85 | `Relay.Clear.c85_clear_partial` | Classical.choice, Quot.sound, propext |
| C85 | `Relay.Clear.c85_clear_starved` | Quot.sound, propext |
| C85 | `Relay.Tls.c85_tls_partial` | Classical.choice, Quot.sound, propext |
| C85 | `Relay.Tls.c85_tls_starved` | Quot.sound, propext |
| C86 | `Fd.c86_socket` | Quot.sound, propext |
| C86 | `Fd.c86_pipe` | Quot.sound, propext |
| C86 | `Fd.c86_open` | Quot.sound, propext |
| C86 | `Fd.c86_private` | Classical.choice, Quot.sound, propext |
| C86 | `Fd.c86_address` | Quot.sound, propext |
| C86 | `Fd.c86_scope` | Quot.sound, propext |
| C86 | `Fd.c86_address_distinct` | Quot.sound, propext |
| C86 | `Fd.c86_connected` | Quot.sound, propext |
| C86 | `Fd.c86_connected_other` | Quot.sound, propext |
| C86 | `Fd.c86_fsync` | propext |
| C87 | `Diag.c87_normal` | Quot.sound, propext |
| C87 | `Diag.c87_alert` | Quot.sound, propext |
| C87 | `Diag.c87_fault` | Quot.sound, propext |
| C87 | `Diag.c87_line` | Classical.choice, Quot.sound, propext |
| C87 | `Diag.c87_summary_partial` | Quot.sound, propext |
| C87 | `Diag.c87_direction_lost` | Quot.sound, propext |
| C87 | `Diag.c87_errno` | Quot.sound, propext |
| C87 | `Diag.c87_errno_reached` | none |
| C87 | `Diag.c87_keytype` | Classical.choice, Quot.sound, propext |
| C88 | `Relay.Tcp.c88_tcp_complete` | Classical.choice, Quot.sound, propext |
| C88 | `Relay.Clear.c88_clear_complete` | Classical.choice, Quot.sound, propext |
| C88 | `Relay.Clear.c88_starttls` | Classical.choice, Quot.sound, propext |
| C88 | `Relay.Tls.c88_tls_ends_partial` | Classical.choice, Quot.sound, propext |
| C88 | `Relay.Clear.c88_clear_lingers` | Quot.sound, propext |
| C88 | `Relay.Tls.c88_tls_halfclose` | Classical.choice, Quot.sound, propext |
| C89 | `Session.c89_defined` | Classical.choice, Quot.sound, propext |
| C89 | `Session.c89_switch` | Classical.choice, Quot.sound, propext |
| C89 | `Session.c89_direct` | Classical.choice, Quot.sound, propext |
| C89 | `Session.c89_clear` | Classical.choice, Quot.sound, propext |
| C89 | `Session.c89_program_delayed` | Classical.choice, Quot.sound, propext |
| C89 | `Session.c89_program` | Classical.choice, Quot.sound, propext |
| C89 | `Session.c89_fds` | Classical.choice, Quot.sound, propext |
| C90 | `Session.Joint.c90_request` | Classical.choice, Quot.sound, propext |
| C90 | `Session.Joint.c90_told` | Classical.choice, Quot.sound, propext |
| C90 | `Session.Joint.c90_replies` | Classical.choice, Quot.sound, propext |
| C90 | `Session.Joint.c90_answer_partial` | Classical.choice, Quot.sound, propext |
| C90 | `Session.Joint.c90_commands` | Classical.choice, Quot.sound, propext |
| C90 | `Session.Joint.c90_encrypted_partial` | Classical.choice, Quot.sound, propext |
| C90 | `Session.Joint.c90_race` | Quot.sound, propext |
| C90 | `Session.Joint.c90_lost` | Quot.sound, propext |
| C90 | `Session.Joint.c90_answer_late` | Quot.sound, propext |
| C91 | `Key.c91_connection` | Classical.choice, Quot.sound, propext |
| C91 | `Key.c91_records` | Classical.choice, Quot.sound, propext |
| C91 | `Key.c91_same_partial` | Quot.sound, propext |
| C91 | `Key.c91_empty` | propext |
| C92 | `Conn.c92_ends_partial` | Classical.choice, Quot.sound, propext |
| C92 | `Conn.c92_waits_partial` | Classical.choice, Quot.sound, propext |
| C92 | `Conn.c92_set_back` | Quot.sound, propext |
| C92 | `Conn.c92_no_limit` | Quot.sound, propext |
| C92 | `Conn.c92_set_forward` | Quot.sound, propext |
| C93 | `Key.c93_connection` | Classical.choice, Quot.sound, propext |
| C93 | `Key.c93_takes_getcert` | Classical.choice, Quot.sound, propext |
| C93 | `Key.c93_takes_mulgen` | Classical.choice, Quot.sound, propext |
| C93 | `Key.c93_takes_sign` | Classical.choice, Quot.sound, propext |
| C93 | `Key.c93_takes_decrypt` | Classical.choice, Quot.sound, propext |
| C93 | `Key.c93_takes_encrypt` | Classical.choice, Quot.sound, propext |
| C93 | `Key.c93_takes_prf` | Classical.choice, Quot.sound, propext |
| C93 | `Key.c93_key_ends` | Quot.sound, propext |
| C94 | `Main.c94_program_partial` | Classical.choice, Quot.sound, propext |
| C94 | `Main.c94_front` | Classical.choice, Quot.sound, propext |
| C94 | `Main.c94_ends` | Classical.choice, Quot.sound, propext |
| C94 | `Main.c94_starts` | Classical.choice, Quot.sound, propext |
| C94 | `Main.c94_under_wrapper` | Classical.choice, Quot.sound, propext |
| C94 | `Main.c94_answer_pipe` | Classical.choice, Quot.sound, propext |
| C95 | `Sig.c95_errno` | Quot.sound, propext |
| C95 | `Sig.c95_once` | Classical.choice, Quot.sound, propext |
| C95 | `Sig.c95_term_partial` | Classical.choice, Quot.sound, propext |
| C95 | `Sig.c95_alarm` | Classical.choice, Quot.sound, propext |
| C95 | `Sig.c95_child` | Classical.choice, Quot.sound, propext |
| C95 | `Sig.c95_bytes` | propext |
| C95 | `Sig.c95_tcp` | Classical.choice, Quot.sound, propext |
| C95 | `Sig.c95_no_pipe` | Quot.sound, propext |
| C95 | `Sig.c95_early` | propext |
| C95 | `Sig.c95_never_kills` | Quot.sound, propext |
| C95 | `Sig.c95_tcp_lives` | Quot.sound, propext |
| C95 | `Sig.c95_late` | propext |
| C96 | `Log.c96_errno` | Quot.sound, propext |
| C96 | `Log.c96_same_output` | Quot.sound, propext |
| C96 | `Log.c96_read_write` | Quot.sound, propext |
| C96 | `Log.c96_plain` | Quot.sound, propext |
| C96 | `Log.c96_calls_partial` | Classical.choice, Quot.sound, propext |
| C96 | `Log.c96_stuck` | Classical.choice, Quot.sound, propext |
| C97 | `Resolve.c97_tcp_partial` | Classical.choice, Quot.sound, propext |
| C97 | `Resolve.c97_tcp_addresses` | Classical.choice, Quot.sound, propext |
| C97 | `Resolve.c97_smtp_partial` | Classical.choice, Quot.sound, propext |
| C97 | `Resolve.c97_tcp_overread` | Quot.sound, propext |
| C97 | `Resolve.c97_smtp_overread` | Quot.sound, propext |
| C97 | `Resolve.c97_none` | propext |
| C97 | `Resolve.c97_short` | Classical.choice, Quot.sound, propext |
| C97 | `Resolve.c97_honest` | Classical.choice, Quot.sound, propext |
| C98 | `Resolve.c98_own_answer_partial` | Classical.choice, Quot.sound, propext |
| C98 | `Resolve.c98_addresses` | Classical.choice, Quot.sound, propext |
| C98 | `Resolve.c98_close` | Classical.choice, Quot.sound, propext |
| C98 | `Resolve.c98_orphan_partial` | Quot.sound, propext |
| C98 | `Resolve.c98_known` | propext |
| C98 | `Resolve.c98_progress` | Classical.choice, Quot.sound, propext |
| C98 | `Resolve.c98_interrupted` | Quot.sound, propext |
| C98 | `Resolve.c98_close_unsent` | Quot.sound, propext |
| C98 | `Resolve.c98_orphan_early` | none |
| C99 | `Smtp.c99_same` | Quot.sound, propext |
| C99 | `Smtp.c99_exact` | Classical.choice, Quot.sound, propext |
| C99 | `Smtp.c99_acts` | Classical.choice, Quot.sound, propext |
| C99 | `Smtp.c99_true_partial` | Classical.choice, Quot.sound, propext |
| C99 | `Smtp.c99_false` | propext |
| C99 | `Smtp.c99_untrue` | propext |
| C99 | `Smtp.c99_password` | propext |
| C100 | `TcpMain.c100_defined` | Classical.choice, Quot.sound, propext |
| C100 | `TcpMain.c100_refuses` | Classical.choice, Quot.sound, propext |
| C100 | `TcpMain.c100_confined` | Classical.choice, Quot.sound, propext |
| C100 | `TcpMain.c100_addresses` | Classical.choice, Quot.sound, propext |
| C100 | `TcpMain.c100_stream` | Classical.choice, Quot.sound, propext |
| C100 | `TcpMain.c100_header_first` | Classical.choice, Quot.sound, propext |
| C100 | `TcpMain.c100_complete` | Classical.choice, Quot.sound, propext |
| C100 | `TcpMain.c100_chain` | Classical.choice, Quot.sound, propext |
| C101 | `TcpMain.c101_failure` | Classical.choice, Quot.sound, propext |
| C101 | `TcpMain.c101_success_partial` | Classical.choice, Quot.sound, propext |
| C101 | `TcpMain.c101_cut_is_success` | Classical.choice, Quot.sound, propext |
| C101 | `TcpMain.c101_lost_is_success` | Classical.choice, Quot.sound, propext |
| C102 | `Smtp.c102_own_answer_partial` | Classical.choice, Quot.sound, propext |
| C102 | `Smtp.c102_decided_by_own_partial` | Classical.choice, Quot.sound, propext |
| C102 | `Smtp.c102_outcome_partial` | Classical.choice, Quot.sound, propext |
| C102 | `Smtp.c102_split_answer` | propext |
| C102 | `Smtp.c102_late_answer` | propext |
| C102 | `Smtp.c102_not_decided_by_own` | Quot.sound, propext |
| C103 | `Smtp.c103_same` | Quot.sound, propext |
| C103 | `Smtp.c103_nothing_held` | Classical.choice, Quot.sound, propext |
| C103 | `Smtp.c103_prefix` | Classical.choice, Quot.sound, propext |
| C103 | `Smtp.c103_bytes` | Classical.choice, Quot.sound, propext |
| C103 | `Smtp.c103_body_held` | propext |
| C104 | `SmtpMain.c104_defined` | Classical.choice, Quot.sound, propext |
| C104 | `SmtpMain.c104_refuses` | Classical.choice, Quot.sound, propext |
| C104 | `SmtpMain.c104_starts` | Classical.choice, Quot.sound, propext |
| C104 | `SmtpMain.c104_confined` | Classical.choice, Quot.sound, propext |
| C104 | `SmtpMain.c104_server` | Classical.choice, Quot.sound, propext |
| C104 | `SmtpMain.c104_session` | Classical.choice, Quot.sound, propext |
| C104 | `SmtpMain.c104_questions` | Classical.choice, Quot.sound, propext |
| C104 | `SmtpMain.c104_exit` | Classical.choice, Quot.sound, propext |
| C105 | `SmtpMain.c105_tried_partial` | Classical.choice, Quot.sound, propext |
| C105 | `SmtpMain.c105_plain_partial` | Classical.choice, Quot.sound, propext |
| C105 | `SmtpMain.c105_unresolved` | Classical.choice, Quot.sound, propext |
| C105 | `SmtpMain.c105_turned_away` | Quot.sound, propext |
| C105 | `SmtpMain.c105_refused_connection` | Quot.sound, propext |
| C106 | `TlsMain.c106_defined` | Classical.choice, Quot.sound, propext |
| C106 | `TlsMain.c106_refuses` | Classical.choice, Quot.sound, propext |
| C106 | `TlsMain.c106_order` | Classical.choice, Quot.sound, propext |
| C106 | `TlsMain.c106_confined` | Classical.choice, Quot.sound, propext |
| C106 | `TlsMain.c106_header` | Classical.choice, Quot.sound, propext |
| C106 | `TlsMain.c106_no_jail` | Classical.choice, Quot.sound, propext |
| C107 | `TlsMain.c107_encrypted` | Classical.choice, Quot.sound, propext |
| C107 | `TlsMain.c107_delayed` | Classical.choice, Quot.sound, propext |
| C107 | `TlsMain.c107_program` | Classical.choice, Quot.sound, propext |
| C107 | `TlsMain.c107_program_delayed` | Classical.choice, Quot.sound, propext |
| C107 | `TlsMain.c107_exit` | Classical.choice, Quot.sound, propext |
| C107 | `TlsMain.c107_ends` | Classical.choice, Quot.sound, propext |
| C108 | `Chain.c108_announced` | Classical.choice, Quot.sound, propext |
| C108 | `Chain.c108_terminator` | Classical.choice, Quot.sound, propext |
| C108 | `Chain.c108_greylist` | Classical.choice, Quot.sound, propext |
| C108 | `Chain.c108_row` | Classical.choice, Quot.sound, propext |
| C109 | `TcpMain.c109_named` | Classical.choice, Quot.sound, propext |
| C109 | `TcpMain.c109_unknown` | Classical.choice, Quot.sound, propext |
| C109 | `TcpMain.c109_reason` | Classical.choice, Quot.sound, propext |
| C110 | `Conn.c110_log` | Classical.choice, Quot.sound, propext |
| C110 | `Conn.c110_wait_refused` | Quot.sound, propext |
| C110 | `Conn.connTold_erase` | propext |
| C111 | `Cmd.c111_tlswrapper` | Classical.choice, Quot.sound, propext |
| C111 | `Cmd.c111_tcp` | Classical.choice, Quot.sound, propext |
| C111 | `Cmd.c111_smtp` | Classical.choice, Quot.sound, propext |
| C111 | `Cmd.same_swap` | propext |
| C111 | `Cmd.c111_certs_ordered` | Quot.sound, propext |
| C112 | `Relay.Tls.c112_lines` | Classical.choice, Quot.sound, propext |
| C112 | `Relay.Tls.c112_close_notify_partial` | Classical.choice, Quot.sound, propext |
| C112 | `Relay.Tls.c112_vanished` | Quot.sound, propext |
| C113 | `Smtp.c113_cut` | Classical.choice, Quot.sound, propext |
| C113 | `Smtp.c113_plain` | Classical.choice, Quot.sound, propext |
| C113 | `Smtp.c113_bytewise` | Classical.choice, Quot.sound, propext |
| C113 | `Smtp.c113_pause` | propext |
| C114 | `Fresh.c114_tlswrapper` | Quot.sound, propext |
| C114 | `Fresh.c114_smtp` | Quot.sound, propext |
| C114 | `Fresh.c114_row` | Quot.sound, propext |
| C114 | `Fresh.c114_limits_partial` | Classical.choice, Quot.sound, propext |
| C114 | `Fresh.c114_smtp_limits_partial` | Quot.sound, propext |
| C114 | `Fresh.c114_memory` | Quot.sound, propext |
| C114 | `Fresh.c114_term_waits` | Quot.sound, propext |
| C115 | `Conf.c115_written` | Classical.choice, Quot.sound, propext |
| C115 | `Conf.c115_same` | Quot.sound, propext |
| C115 | `Conf.c115_tells` | Quot.sound, propext |
| C115 | `Conf.c115_sni` | Quot.sound, propext |
| C116 | `Conf.c116_same` | Quot.sound, propext |
| C116 | `Conf.c116_why` | Classical.choice, Quot.sound, propext |
| C116 | `Conf.c116_refused` | Classical.choice, Quot.sound, propext |
| C116 | `Conf.c116_available` | Quot.sound, propext |
| C116 | `Conf.c116_names` | Quot.sound, propext |
| C116 | `Conf.c116_silent` | Classical.choice, Quot.sound, propext |
| C116 | `Conf.c116_silent_sample` | Quot.sound, propext |
| C117 | `Cmd.c117_tcp_same` | Quot.sound, propext |
| C117 | `Cmd.c117_tcp_why` | Classical.choice, Quot.sound, propext |
| C117 | `Cmd.c117_tcp_refused` | Classical.choice, Quot.sound, propext |
| C117 | `Cmd.c117_smtp_same` | Quot.sound, propext |
| C117 | `Cmd.c117_smtp_why` | Classical.choice, Quot.sound, propext |
| C117 | `Cmd.c117_smtp_refused` | Classical.choice, Quot.sound, propext |
| C117 | `Cmd.c117_silent` | Classical.choice, Quot.sound, propext |
| C117 | `Cmd.c117_tcp_sample` | Quot.sound, propext |
| C118 | `Smtp.c118_end_partial` | Classical.choice, Quot.sound, propext |
| C118 | `Smtp.c118_verbatim_partial` | Classical.choice, Quot.sound, propext |
| C118 | `Smtp.c118_bare_lf` | propext |
| C118 | `Smtp.c118_bare_lf_text` | Quot.sound, propext |
| C118 | `Smtp.c118_nul` | propext |
| C118 | `Smtp.c118_sample` | Quot.sound, propext |
| C119 | `Smtp.c119_question_partial` | Classical.choice, Quot.sound, propext |
| C119 | `Smtp.c119_read_unique` | Quot.sound, propext |
| C119 | `Smtp.c119_sample` | propext |
| C119 | `Smtp.c119_nul_attribute` | propext |
| C119 | `Smtp.c119_nul_request` | propext |
| C120 | `Smtp.c120_accepted` | Classical.choice, Quot.sound, propext |
| C120 | `Smtp.c120_exact` | Classical.choice, Quot.sound, propext |
| C120 | `Smtp.c120_sample` | propext |
| C121 | `Smtp.c121_in_step_partial` | Classical.choice, Quot.sound, propext |
| C121 | `Smtp.c121_once` | Classical.choice, Quot.sound, propext |
| C121 | `Smtp.c121_nul` | propext |
| C121 | `Smtp.c121_sample` | propext |
