c("C01","proved",["Num.c01_parsenum_accepts","Num.c01_parsenum_rejects","Num.c01_denotes_unique","Num.c01_parsenum_decimal","Num.c01_parsenum_neg_decimal","Num.c01_silent"])
c("C02","proved",["Num.c02_parseport_accepts","Num.c02_parseport_total","Num.c02_porttostr_prints","Num.c02_port_roundtrip"])
c("C03","proved",["Name.c03_parsename_accepts","Name.c03_null","Name.c03_parsename_rejects"])
c("C04","proved",["Name.c04_unwire_parsename","Name.c04_wire_injective","Name.c04_nameOf_functional"])
c("C05","proved",["HostPort.c05_accepts","HostPort.c05_rejects","HostPort.c05_unambiguous","HostPort.c05_pieces","HostPort.c05_noport_accepts","HostPort.c05_noport_rejects"],"inet_pton(AF_INET6) is an arbitrary predicate")
c("C06","proved",["HostPort.c06_bounds","HostPort.c06_null"])
c("C11","proved",["Path.c11_exact","Path.c11_safe","Path.c11_no_escape","Path.c11_idempotent","Path.c11_length","Path.c11_unchanged"])
c("C12","proved",["Path.c12_cut","Path.c12_same","Path.c12_prefix"])
c("C13","proved",["Rw.c13_readall","Rw.c13_readall_returns","Rw.c13_readall_succeeds"])
c("C14","proved",["Rw.c14_writeall","Rw.c14_writeall_returns"])
c("C15","proved",["Rw.c15_timed","Rw.c15_no_overflow","Rw.c15_invalid"])
c("C16","proved",["Pipe.c16_pack","Pipe.c16_unpack_pack","Pipe.c16_pack_unpack"])
c("C17","proved",["Pipe.c17_write","Pipe.c17_write_fails","Pipe.c17_readmax","Pipe.c17_readall","Pipe.c17_readalloc","Pipe.c17_end_to_end","Pipe.c17_delivered"])
c("C18","proved",["Pipe.c18_readmax","Pipe.c18_readall","Pipe.c18_readalloc","Pipe.c18_error_frame","Pipe.c18_error_write","Pipe.c18_error_refused","Pipe.c18_errno_zero_is_empty_message"],"an error report carrying errno 0 cannot be told from an empty message; proved as c18_errno_zero_is_empty_message")
c("C27","proved",["Str.c27_len","Str.c27_start","Str.c27_chr","Str.c27_rchr","Str.c27_diff","Str.c27_copy","Str.c27_copy_needs_room"])
c("C28","proved",["Str.c28_diffb","Str.c28_diffb_short","Str.c28_diffs","Str.c28_zero_iff","Str.c28_startb","Str.c28_starts","Str.c28_lowerb","Str.c28_lowers","Str.c28_fold"])
c("C66","partial",["Str.c66_diffn_partial","Str.c66_diffn_short","Str.c66_diffn_violation"],"false of the code when the bound is reached: c66_diffn_violation is a concrete witness")
c("C19","proved",["Buffer.c19_stream","Buffer.c19_flush","Buffer.c19_retry_duplicates"],"c19_retry_duplicates records the limit: after a reported error a retry may write bytes twice")
c("C20","proved",["Buffer.c20_stream","Buffer.c20_eof","Buffer.c20_get_bound"])
c("C21","proved",["Buffer.c21_copy","Buffer.c21_zero_size_input"],"c21_zero_size_input records why a nonempty input buffer is required")
c("C07","proved",["Proxy.c07_emit","Proxy.c07_header_length","Proxy.c07_roundtrip","Proxy.c07_mixed_families_rejected"],"inet_pton/inet_ntop are any codec satisfying Proxy.IpCodec.Lawful (satisfied by Proxy.cCodec)")
c("C08","proved",["Proxy.c08_consumes","Proxy.c08_payload_kept"],"for any codec satisfying IpCodec.Lawful")
c("C09","proved",["Proxy.c09_memory_safe","Proxy.c09_sizes"],"for any codec satisfying IpCodec.Lawful: safety relies on inet_pton rejecting texts that contain LF")
c("C10","partial",["Proxy.c10_exact","Proxy.c10_accepted_is_strict_partial","Proxy.c10_strict_accepted","Proxy.c10_violation_lf_only","Proxy.c10_violation_nul","Proxy.c10_violation_trailing"],"the exact accepted language is proved (c10_exact); the strict grammar is false of the code: LF alone, NUL separators and text after CR are accepted (violation witnesses)")
c("C22","proved",["Alloc.c22_safe","Alloc.c22_block","Alloc.c22_live_disjoint","Alloc.c22_free_keeps_others"],"malloc is any allocator satisfying Alloc.MallocOk; heap blocks have malloc's alignment (16), arena blocks 32")
c("C23","proved",["Alloc.c23_accounting","Alloc.c23_limit","Alloc.c23_limit_stays","Alloc.c23_first_limit","Alloc.c23_grants","Alloc.c23_refuse","Alloc.c23_failure_no_effect","Alloc.c22_safe"])
c("C24","proved",["Alloc.c24_freed_zero","Alloc.c24_free","Alloc.c24_freeall","Alloc.c24_arena_not_reused","Alloc.c24_arena_free_keeps_contents"],"a block of the static arena keeps its contents after alloc_free until alloc_freeall (c24_arena_free_keeps_contents); it is never handed out again before that")
c("C25","proved",["Stralloc.c25_call","Stralloc.c25_history","Stralloc.c25_fresh","Stralloc.c25_reserve","Stralloc.c25_self_append","Stralloc.c25_contents","Stralloc.c25_violation_failed_copy","Stralloc.c25_violation_failed_number","Stralloc.c25_violation_self_append","Stralloc.c25_violation_self_copy","Stralloc.c25_violation_append_unused"],"total size below 2^62 - 64; the violation theorems show why the exceptions in the statement are there")
c("C26","proved",["Stralloc.c26_exact","Stralloc.c26_text","Stralloc.c26_readback","Stralloc.c26_huge_width"],"widths below 2^62 - 128 (c26_huge_width: a width near 2^63 overflows)")
c("C29","proved",["Pem.c29_split","Pem.c29_load","Pem.c29_load_safe"],"a line of more than 64 bytes drops the rest of the file; empty lines are dropped (Pem.usable)")
c("C30","partial",["Pem.c30_partial","Pem.c30_outside","Pem.c30_violation_open_block"],"false for files whose certificate block is not ended (c30_violation_open_block); proved for files of complete blocks, and for every line outside certificate blocks")
c("C31","proved",["Pem.c31_roundtrip","Pem.c31_load","Pem.c31_at_rest"],"for any keystream cipher; ChaCha20 itself is not modelled")
c("C32","proved",["Resolve.c32_value","Resolve.c32_range","Resolve.c32_uniform","Resolve.draws_spec","Resolve.c32_large_bound"])
c("C33","proved",["Resolve.c33_permutes","Resolve.c33_reachable"])
c("C34","proved",["Resolve.c34_resolve","Resolve.c34_failure","Resolve.c34_request","Resolve.c34_helper","Resolve.c34_end_to_end","Resolve.c34_end_to_end_failure","Resolve.c34_long_name","Resolve.c34_reply_in_bounds"],"at most 8 addresses through the helper; fork, jail and socket handling of the helper are not modelled here")
c("C35","partial",["Log.c35_one_line","Log.c35_layout","Log.c35_usage","Log.c35_history","Log.c35_unambiguous_partial","Log.c35_violation_backslash","Log.c35_lost_newline"],"one line per record and no control or non-ASCII byte from attacker strings: proved. Unambiguous escapes: proved for texts without backslash; false in general (c35_violation_backslash) because the backslash is not escaped")
c("C36","proved",["Log.c36_text","Log.c36_survives","Log.c36_number","Log.c36_id","Log.c36_env_id","Log.c36_random_id"],"inet_ntop is a parameter (IpCodec.Lawful)")
c("C37","proved",["Log.c37_range","Log.c37_step","Log.c37_emitted_iff","Log.c37_whitelist","Log.c37_whitelist_fails"])
c("C62","proved",["Conn.c62_init","Conn.c62_conn","Conn.c62_whole","Conn.c62_extra_slots_leak"],"requires that as many slots were prepared as there are candidates (as the callers do); c62_extra_slots_leak shows why")
c("C38","proved",["Relay.Tcp.c38_relay","Relay.Tcp.c38_prefix"])
c("C39","proved",["Relay.Tcp.c39_close","Relay.Tcp.c39_finished","Relay.Tcp.c39_complete","Relay.Tcp.c39_never_stuck"])
c("C40","proved",["Relay.Tcp.c40_header","Relay.Tcp.c40_no_header"])
c("C41","proved",["Relay.Clear.c41_relay","Relay.Clear.c41_prefix","Relay.Clear.c41_close","Relay.Clear.c41_finished","Relay.Clear.c41_goes_on"])
c("C42","proved",["Relay.Clear.c42_discard","Relay.Clear.c42_nothing_after"])
c("C43","proved",["Relay.Clear.c43_switch","Relay.Clear.c43_no_ack","Relay.Clear.c43_output_first","Relay.Clear.c43_poll_dependence"],"everything read from the child was written before the switch; that output written by the child before its request is also read first needs poll to report both descriptors (c43_poll_dependence shows the dependence)")
c("C44","proved",["Relay.Tls.c44_at_most_once","Relay.Tls.c44_before_data","Relay.Tls.c44_exactly_once","Relay.Tls.c44_name","Relay.Tls.c44_needs_ordered"],"the TLS engine is an arbitrary state machine; c44_needs_ordered shows that the assumption on the order of its announcements is needed")
c("C45","proved",["Relay.Tls.c45_defined","Relay.Tls.c45_allowed","Relay.Tls.c45_moved","Relay.Tls.c45_engine","Relay.Tls.c45_stream","Relay.Tls.c45_flushed"],"BearSSL itself is a parameter")
c("C46","proved",["Relay.Tls.c46_wait","Relay.Tls.c46_end","Relay.Tls.c46_goes_on"])
c("C47","partial",["Smtp.c47_ends","Smtp.c47_trace","Smtp.c47_forward_partial","Smtp.c47_lines","Smtp.c47_command","Smtp.c47_nul_splits"],"holds for lines without NUL bytes; c47_nul_splits: a NUL byte in a client line becomes a line feed for the child")
c("C48","partial",["Smtp.c48_dispatch","Smtp.c48_verbs_partial","Smtp.c48_case","Smtp.c48_word","Smtp.c48_abbreviations","Smtp.c48_empty_line"],"every verb is recognised in any letter case; the converse fails: c48_abbreviations and c48_empty_line show that proper prefixes of a verb, and the empty word, are taken for it")
c("C49","proved",["Smtp.c49_session","Smtp.c49_body","Smtp.c49_data"])
c("C50","proved",["Smtp.c50_limits","Smtp.c50_line","Smtp.c50_reply","Smtp.c50_sender","Smtp.c50_recipient"])
c("C51","partial",["Smtp.c51_refused_partial","Smtp.c51_closed","Smtp.c51_passed_partial","Smtp.c51_decision","Smtp.c51_failing","Smtp.c51_question","Smtp.c51_overlong_passes","Smtp.c51_unrecognised_form_passes","Smtp.c51_stale_recipient"],"violated for answers of 4096 bytes without line feed, and for RCPT lines whose recipient is not recognised (asked about the previous recipient, or not at all); the violations are theorems")
c("C52","partial",["Smtp.c52_order","Smtp.c52_once","Smtp.c52_discarded_partial","Smtp.c52_discard","Smtp.c52_race"],"what is queued in the front end is discarded, nothing continues without the acknowledgement; c52_race: cleartext the relay writes between the discard and the acknowledgement is interpreted after the switch")
c("C53","partial",["Smtp.c53_client_partial","Smtp.c53_all","Smtp.c53_reply","Smtp.c53_code","Smtp.c53_code_exact","Smtp.c53_logid","Smtp.c53_no_logid","Smtp.c53_starttls_line","Smtp.c53_nul_truncates","Smtp.c53_bare_code"],"holds for replies without NUL bytes; a NUL truncates the reply, and a bare 250 line gets a STARTTLS line that makes it two replies (theorems)")
c("C64","proved",["Ec.c64_base","Ec.c64_mul","Ec.c64_same_scalar","Ec.c64_unknown"])
c("C54","proved",["Key.c54_protocol","Key.c54_once","Key.c54_order","Key.c54_jailed","Key.c54_key","Key.c54_name","Key.c54_agree"])
c("C55","partial",["Key.c55_own_buffers","Key.c55_fields","Key.c55_answers","Key.c55_safe_partial","Key.c55_label","Key.c55_digest","Key.c55_encrypt_overrun"],"every field is stored within its buffer and undefined behaviour can only arise in an external function; violated for a label without NUL, a digest longer than the signer's buffer, and a record that fills the buffer before encryption (theorems)")
c("C56","partial",["Key.c56_getcert","Key.c56_getcert_failure","Key.c56_mulgen","Key.c56_sign","Key.c56_mul","Key.c56_prf","Key.c56_prf_other","Key.c56_decrypt_partial","Key.c56_decrypt_failure","Key.c56_empty_record","Key.c56_encrypt"],"holds for every operation except a record that decrypts to nothing, which the network side takes for a failure (c56_empty_record)")
c("C57","proved",["Conf.c57_sequence","Conf.c57_bounded","Conf.c57_served","Conf.c57_unknown_clears_defaults"])
c("C59","proved",["Conf.c59_version","Conf.c59_curve","Conf.c59_names_unique","Conf.c59_curve_text","Conf.c59_texts_distinct","Conf.c59_unknown_codes"])
c("C60","proved",["Conf.c60_starts","Conf.c60_refuses","Conf.c60_reads_unique","Conf.c60_starts_iff","Conf.c60_proxy_stays_on","Conf.c60_versions_not_compared"],"the options whose last value does not decide are -p (1 stays on) and the lists; a lowest version above the highest is not refused (theorems)")
c("C58","partial",["Conf.c58_choose","Conf.c58_permitted","Conf.c58_enabled","Conf.c58_refused","Conf.c58_hash_partial","Conf.c58_no_hash"],"everything but the hash of a client that accepts none of SHA-512, SHA-384, SHA-256 and SHA-1: it is not refused (c58_no_hash); the list of common suites comes from the TLS engine, whose contract is the hypothesis Engine")
c("C67","proved",["Conf.c67_requests","Conf.c67_opened"])
c("C68","proved",["Conn.c68_attempt","Conn.c68_refused"],"the clock is an arbitrary sequence of readings; as many slots prepared as candidates, as the callers do")
c("C61","proved",["Jail.c61_jailed","Jail.c61_order","Jail.c61_failure","Jail.c61_refused","Jail.c61_memory","Jail.c61_environment","Jail.c61_environment_rest","Jail.c61_irrevocable","Jail.c61_never_root","Jail.c61_distinct","Jail.c61_succeeds","Jail.c61_needs_root","Jail.c61_memory_soft_only"],"on a kernel model with Linux's rules for setuid, setgid, setgroups, chroot and setrlimit, every call also able to fail; capabilities all or nothing; c61_needs_root and c61_memory_soft_only show limits of the claim")
c("C69","proved",["JailPoll.c69_poll","JailPoll.c69_refused","JailPoll.c69_ready"])
c("C65","proved",["ConnInfo.c65_get","ConnInfo.c65_sized","ConnInfo.c65_set","ConnInfo.c65_roundtrip","ConnInfo.c65_failure_keeps_part"],"inet_pton/inet_ntop are parameters with the laws IpCodec.Lawful and Apart; after a failure, which the callers ignore, the buffers may hold part of the environment (c65_failure_keeps_part)")
c("C70","partial",["Main.c70_program","Main.c70_never_root_partial","Main.c70_both","Main.c70_refused","Main.c70_starts","Main.c70_exits","Main.c70_reported","Main.c70_no_field","Main.c70_empty_field"],"all but the last sentence: with -U, a certificate field that cannot be represented, or that starts with '@', gives an empty record and the program keeps the wrapper's privileges (c70_empty_field); kernel model as for C61")
c("C71","proved",["Main.c71_program","Main.c71_starts","Main.c71_taken","Main.c71_key","Main.c71_net","Main.c71_connection"],"lowest free number rule of POSIX; fcntl on an open descriptor taken to succeed; before fork both processes share one table; randombytes may keep one descriptor")
c("C63","partial",["Main.c63_main","Main.c63_main_failure","Main.c63_main_lost","Main.c63_main_zero","Main.c63_closes_first","Main.c63_waits","Main.c63_tcp","Main.c63_main_vital","Main.c63_tcp_vital","Main.c63_smtp_vital","Main.c63_smtp_partial","Main.c63_smtp_lost","Main.c63_in_time","Main.c63_late","Main.c63_smtp_in_time","Main.c63_smtp_late"],"full for tlswrapper-tcp, and for tlswrapper when the program ends before the last alarm of the relay: otherwise SIGALRM kills the wrapper while it waits (c63_late); tlswrapper-smtp exits with 0 when waitpid itself fails (c63_smtp_lost) and with 111 when the session timeout ends while it waits after QUIT (c63_smtp_late); a process killed by SIGALRM's default action before the handler is installed has no exit code")
c("C73","partial",["Relay.Tcp.c73_tcp","Relay.Clear.c73_clear","Relay.Tls.c73_tls_partial","Relay.Tls.c73_handshake_unlimited"],"all but the last sentence: the first bytes of the handshake replace the handshake timeout by the inactivity timeout, so a client that sends a byte at a time is not limited (c73_handshake_unlimited)")
c("C72","partial",["Main.c72_confined","Main.c72_limited_partial","Main.c72_helpers","Main.c72_deadlines","Main.c72_tcp_unlimited"],"confinement in full; deadline for tlswrapper and tlswrapper-smtp, and tlswrapper-tcp without -p; with -p the TCP wrapper waits for the PROXY header without any deadline (c72_tcp_unlimited); steps are abstract, in the order of the source")
c("C74","partial",["Key.Net.c74_mulgen","Key.Net.c74_sign","Key.Net.c74_prf","Key.Net.c74_decrypt_partial","Key.Net.c74_encrypt_partial","Key.Net.c74_getcert_partial","Key.Net.c74_before_buffer","Key.Net.c74_getcert_negation"],"full for points, signatures and PRF; for records only if the buffer extends 64 bytes before and after the record, which BearSSL's does not in front (c74_before_buffer: 59 bytes before the buffer are reachable); the chain's length -2^63 is negated (c74_getcert_negation)")
c("C75","proved",["Crt.c75_chain","Crt.c75_aligned","Crt.c75_needs_names"],"BearSSL's PEM and certificate decoders are parameters; contract: an object ends under the name it began with (c75_needs_names), bytes are only handed over within objects, nothing decoded exceeds 2^60 bytes")
c("C76","proved",["Crt.c76_key"],"BearSSL's decoders are parameters; contract: the key decoder reports no error only for an RSA or EC key")
c("C77","proved",["Cmd.c77_name","Cmd.named_exists","Cmd.c77_tcp","Cmd.c77_tcp_refuses","Cmd.c77_smtp","Cmd.c77_smtp_refuses"],"the command line of tlswrapper itself is C60; -p 1 -p 0 leaves the PROXY protocol on; arguments of tlswrapper-tcp after the port are ignored")
c("C78","proved",["Crt.c78_file","Crt.c78_signature"],"BearSSL's PEM, X.509 and key decoders and its signing are parameters with contracts (ReadsPem, Small, Sound); files with an unfinished certificate block are C30's finding")
c("C79","proved",["Fd.c79_released","Fd.c79_inactive","Fd.c79_write","Fd.c79_read","Fd.c79_pipe","Fd.c79_both","Fd.c79_needs_dup"],"kernel model of descriptors, open files, sockets and pipes in Fd/Spec; shutdown is taken to succeed on a connected socket for the statements about the peer; c79_needs_dup shows why the two slots need separate descriptors")
c("C80","proved",["Fd.c80_once","Fd.c80_bound","Fd.c80_flags","Fd.c80_flags_closed"],"flag values of Linux")
c("C81","proved",["Conf.c81_engine","Conf.c81_anchors","Conf.c81_clients","Conf.c81_without","Conf.c81_unreadable"],"BearSSL's setters store their arguments (Conf/Profile); that a completed handshake respects the validation engine is the hypothesis Authenticates; a lowest version above the highest is not refused (Conf.c60_versions_not_compared)")
c("C82","partial",["Key.c82_noninterference","Key.c82_prf_partial","Key.c82_label_violation","Key.c82_label_accepted"],"non-interference in full, for the modelled key process with signing, curve arithmetic, PRF and record processing as parameters; PRF separation for labels with a NUL; without one (undefined behaviour, C55) and with the seed behind the label in memory the network process gets the first bytes of the record keys (c82_label_violation)")
c("C83","proved",["Wipe.c83_filled","Wipe.c83_nothing","Wipe.c83_returns","Wipe.c83_opens_once"],"the version that reads /dev/urandom; that reads of it bring random bytes is the kernel's part")
c("C84","partial",["Wipe.c84_tlswrapper","Wipe.c84_tcp","Wipe.c84_smtp_partial","Wipe.c84_smtp_keeps","Wipe.c84_log_keeps","Wipe.c84_ends"],"for the TLS and TCP wrappers; the SMTP wrapper leaves its four payload buffers and the client's address in memory (c84_smtp_keeps), and all leave the last log record (c84_log_keeps); the compiler is trusted to keep the stores (the source has a barrier)")
c("C85","partial",["Relay.Tcp.c85_tcp_partial","Relay.Tcp.c85_tcp_starved","Relay.Clear.c85_clear_partial","Relay.Clear.c85_clear_starved","Relay.Tls.c85_tls_partial","Relay.Tls.c85_tls_starved"],"the last sentence is false of the code: one descriptor is served per round in a fixed order with the signal pipe last, so a side that keeps sending holds up the other direction and a stop signal for as long as it likes (c85_*_starved); everything else is proved")
c("C86","proved",["Fd.c86_socket","Fd.c86_pipe","Fd.c86_open","Fd.c86_private","Fd.c86_address","Fd.c86_scope","Fd.c86_address_distinct","Fd.c86_connected","Fd.c86_connected_other","Fd.c86_fsync"],"fcntl with F_SETFD or F_SETFL on an open descriptor is assumed not to fail where the code ignores its result; the version of open_read for systems with O_CLOEXEC")
c("C87","partial",["Diag.c87_normal","Diag.c87_alert","Diag.c87_fault","Diag.c87_line","Diag.c87_summary_partial","Diag.c87_direction_lost","Diag.c87_errno","Diag.c87_errno_reached","Diag.c87_keytype"],"missing because the code does not do it: when the handshake was not completed the log does not say whether an alert was sent or received (Diag.c87_direction_lost); the numbers of the errors are those of BearSSL's headers, which are not in /repo")
c("C88","partial",["Relay.Tcp.c88_tcp_complete","Relay.Clear.c88_clear_complete","Relay.Clear.c88_starttls","Relay.Tls.c88_tls_ends_partial","Relay.Clear.c88_clear_lingers","Relay.Tls.c88_tls_halfclose"],"missing because the code does not do it: after the child has exited the cleartext phase can wait for the full inactivity timeout (Relay.Clear.c88_clear_lingers), and a child that closes only its output loses what the peer sends (Relay.Tls.c88_tls_halfclose)")
c("C89","proved",["Session.c89_defined","Session.c89_switch","Session.c89_direct","Session.c89_clear","Session.c89_program_delayed","Session.c89_program","Session.c89_fds"],"c89_program needs the assumption of C44 on the engine (it announces send readiness no later than received data)")
c("C90","partial",["Session.Joint.c90_request","Session.Joint.c90_told","Session.Joint.c90_replies","Session.Joint.c90_answer_partial","Session.Joint.c90_commands","Session.Joint.c90_encrypted_partial","Session.Joint.c90_race","Session.Joint.c90_lost","Session.Joint.c90_answer_late"],"missing because the code does not do it: cleartext the relay writes between the request and its acknowledgement is obeyed after the switch (c90_race); a decrypted command that arrives before the front end throws away its input is lost (c90_lost); the 220 is encrypted if the poll sees the request but not the answer written before it (c90_answer_late)")
c("C91","partial",["Key.c91_connection","Key.c91_records","Key.c91_same_partial","Key.c91_empty"],"c91_connection is complete for what the code does; missing because the code does not do it: a record that opens to nothing is reported as a bad record (c91_empty)")
c("C92","partial",["Conn.c92_ends_partial","Conn.c92_waits_partial","Conn.c92_set_back","Conn.c92_no_limit","Conn.c92_set_forward"],"proved for clocks that are not set back (end) or forward (patience); missing because the code does not do it: it reads the wall clock, so an attempt lasts longer when the clock is set back (c92_set_back), without any bound from 25 days on because the wait no longer fits an int (c92_no_limit), and ends early when it is set forward (c92_set_forward)")
c("C93","proved",["Key.c93_connection","Key.c93_takes_getcert","Key.c93_takes_mulgen","Key.c93_takes_sign","Key.c93_takes_decrypt","Key.c93_takes_encrypt","Key.c93_takes_prf","Key.c93_key_ends"],"c93_connection: for every prefix of the answers of a living key process. c93_takes_*: for any bytes on the pipe, success takes exactly the complete messages it reports. c93_key_ends: the key process ends at the end of its input. The engine's reaction to a failure is BearSSL's and not modelled.")
c("C94","partial",["Main.c94_program_partial","Main.c94_front","Main.c94_ends","Main.c94_starts","Main.c94_under_wrapper","Main.c94_answer_pipe"],"missing because the code does not do it: descriptor 6, the pipe on which the wrapper acknowledges STARTTLS, stays open in the mail program (c94_answer_pipe)")
c("C95","partial",["Sig.c95_errno","Sig.c95_once","Sig.c95_term_partial","Sig.c95_alarm","Sig.c95_child","Sig.c95_bytes","Sig.c95_tcp","Sig.c95_no_pipe","Sig.c95_early","Sig.c95_never_kills","Sig.c95_tcp_lives","Sig.c95_late"],"proved for tlswrapper-tcp, and for tlswrapper from the moment its signal pipe exists until its relay ends; missing because the code does not do it: tlswrapper handles SIGTERM before the pipe exists (c95_early) and after the relay is over (c95_late), and both are lost")
c("C96","partial",["Log.c96_errno","Log.c96_same_output","Log.c96_read_write","Log.c96_plain","Log.c96_calls_partial","Log.c96_stuck"],"that only bytes of the record are written, in order, is c35_one_line through c96_same_output; missing because the code does not do it: a log call does not return while standard error is a full pipe that nobody reads, whatever signals arrive (c96_stuck)")
c("C97","partial",["Resolve.c97_tcp_partial","Resolve.c97_tcp_addresses","Resolve.c97_smtp_partial","Resolve.c97_tcp_overread","Resolve.c97_smtp_overread","Resolve.c97_none","Resolve.c97_short","Resolve.c97_honest"],"missing because the code does not do it: an answer of a single byte is taken for the number of address bytes, so both programs read behind their buffers (c97_tcp_overread, c97_smtp_overread); the resolver process as it is never sends that (c97_honest)")
c("C98","partial",["Resolve.c98_own_answer_partial","Resolve.c98_addresses","Resolve.c98_close","Resolve.c98_orphan_partial","Resolve.c98_known","Resolve.c98_progress","Resolve.c98_interrupted","Resolve.c98_close_unsent","Resolve.c98_orphan_early"],"missing because the code does not do it: after a lookup whose wait was interrupted the next one gets the previous answer (c98_interrupted); closing waits for ever if its datagram is not sent (c98_close_unsent); a program that goes before the resolver process has asked for its parent's number leaves it behind (c98_orphan_early)")
c("C99","partial",["Smtp.c99_same","Smtp.c99_exact","Smtp.c99_acts","Smtp.c99_true_partial","Smtp.c99_false","Smtp.c99_untrue","Smtp.c99_password"],"the records are exactly those of the specification in every session (c99_exact). Missing because the code does not do it: the sender and recipients of the record are those of the commands tried, not of those the child accepted (c99_false, c99_untrue); c99_true_partial holds where every MAIL and RCPT command is accepted and recognised and no message is given up")
c("C100","proved",["TcpMain.c100_defined","TcpMain.c100_refuses","TcpMain.c100_confined","TcpMain.c100_addresses","TcpMain.c100_stream","TcpMain.c100_header_first","TcpMain.c100_complete","TcpMain.c100_chain"],"the chain needs two addresses of one family (C07); when neither the environment nor the socket gives endpoints the header announces whatever connectioninfo left (C65)")
c("C101","partial",["TcpMain.c101_failure","TcpMain.c101_success_partial","TcpMain.c101_cut_is_success","TcpMain.c101_lost_is_success"],"missing because the code does not do it: a transfer cut by the timer or SIGTERM ends with 0 (c101_cut_is_success), and so does one whose bytes could not be written (c101_lost_is_success)")
c("C102","partial",["Smtp.c102_own_answer_partial","Smtp.c102_decided_by_own_partial","Smtp.c102_outcome_partial","Smtp.c102_split_answer","Smtp.c102_late_answer","Smtp.c102_not_decided_by_own"],"missing because the code does not do it: the rest of an answer that arrives after its first line was read, or an answer that arrives after the timeout, is taken for the answer to the next question (c102_split_answer, c102_late_answer, c102_not_decided_by_own); proved for answers that arrive in time and of which nothing arrives after the read that completes the first line")
c("C103","proved",["Smtp.c103_same","Smtp.c103_nothing_held","Smtp.c103_prefix","Smtp.c103_bytes","Smtp.c103_body_held"],"the operations of buffer.c as the session calls them, run through the model of C19; c103_same: with the marks erased it is the session of C44-C52; c103_body_held: lines of a message are held back until the buffer is full or the message ends")
c("C104","proved",["SmtpMain.c104_defined","SmtpMain.c104_refuses","SmtpMain.c104_starts","SmtpMain.c104_confined","SmtpMain.c104_server","SmtpMain.c104_session","SmtpMain.c104_questions","SmtpMain.c104_exit"],"the sessions are those of C44-C52, C99 and C103 (Smtp.Ran); the alarms, which end the process with 111 at any moment, are not in the model; if waiting for the program fails (its status is lost, C63) the code is 0")
c("C105","partial",["SmtpMain.c105_tried_partial","SmtpMain.c105_plain_partial","SmtpMain.c105_unresolved","SmtpMain.c105_turned_away","SmtpMain.c105_refused_connection"],"missing because the code does not do it: if the name of the server cannot be resolved the client is turned away with code 111 although fail-open is the default (c105_unresolved, c105_turned_away); proved: once there is an address the session takes place whether the connection succeeds or not")
c("C106","proved",["TlsMain.c106_defined","TlsMain.c106_refuses","TlsMain.c106_order","TlsMain.c106_confined","TlsMain.c106_header","TlsMain.c106_no_jail"],"composition of the models of the command line (C60), paths, PROXY header, endpoints and session (C89); signals before the relay (C95), log texts and the set-up of descriptors are not in this model; a key process that does not answer leaves the run waiting")
c("C107","proved",["TlsMain.c107_encrypted","TlsMain.c107_delayed","TlsMain.c107_program","TlsMain.c107_program_delayed","TlsMain.c107_exit","TlsMain.c107_ends"],"the session is that of C89 and the process of the program that of C70; the account theorem needs that the engine hands out no plaintext before the handshake is complete (Ordered); a program that outlives the last alarm is C63 (c63_late)")
c("C108","proved",["Chain.c108_announced","Chain.c108_terminator","Chain.c108_greylist","Chain.c108_row"],"composition of C100, C104 and C107 through the stream between two programs and through the environment of execvp (Inherits); the claims across the PROXY header need 16-byte addresses of one family (a header for mixed families is refused, c07_mixed_families_rejected); with encryption from the start the engine hands out no plaintext before the handshake is complete (Ordered)")
c("C109","proved",["TcpMain.c109_named","TcpMain.c109_unknown","TcpMain.c109_reason"],"unknown endpoints are the all-zero ones; the connection to the server is opened before the client is turned away")
c("C110","proved",["Conn.c110_log","Conn.c110_wait_refused","Conn.connTold_erase"],"apart from its log the attempt is that of C62 and C68 (connTold_erase); the text made of an address is that of C36 (log_ipport); the exception (poll fails with something else than EINTR) is real: c110_wait_refused")
c("C111","proved",["Cmd.c111_tlswrapper","Cmd.c111_tcp","Cmd.c111_smtp","Cmd.same_swap","Cmd.c111_certs_ordered"],"what an option is about is the specification's topic; among options about the same thing the order matters (c111_certs_ordered); the name the program is invoked by may differ as long as it selects the same program (C77)")
c("C112","partial",["Relay.Tls.c112_lines","Relay.Tls.c112_close_notify_partial","Relay.Tls.c112_vanished"],"missing because the code does not do it: a client that closes its TCP connection during the handshake is logged as a session that finished with close_notify sent, although the engine was never told to close and nothing was sent (c112_vanished); proved when the connection was established")
c("C113","proved",["Smtp.c113_cut","Smtp.c113_plain","Smtp.c113_bytewise","Smtp.c113_pause"],"the exception is real: the same bytes with and without a pause after STARTTLS (c113_pause); every way to cut has its session (C47)")
c("C114","partial",["Fresh.c114_tlswrapper","Fresh.c114_smtp","Fresh.c114_row","Fresh.c114_limits_partial","Fresh.c114_smtp_limits_partial","Fresh.c114_memory","Fresh.c114_term_waits"],"missing because the code does not do it: with -u or -U the program gets the memory limits of 128 MiB meant for the wrapper's own processes (c114_memory); everything else proved; descriptors are C71 and C94, account and environment C70")
c("C115","proved",["Conf.c115_written","Conf.c115_same","Conf.c115_tells","Conf.c115_sni"],"standard error accepting the line, as for C35; the getters of the engine return what was negotiated (BearSSL)")
c("C116","proved",["Conf.c116_same","Conf.c116_why","Conf.c116_refused","Conf.c116_available","Conf.c116_names","Conf.c116_silent","Conf.c116_silent_sample"],"the messages as records of level, text and error; how a record becomes a line is C35")
c("C117","proved",["Cmd.c117_tcp_same","Cmd.c117_tcp_why","Cmd.c117_tcp_refused","Cmd.c117_smtp_same","Cmd.c117_smtp_why","Cmd.c117_smtp_refused","Cmd.c117_silent","Cmd.c117_tcp_sample"],"the messages as records of level, text and error; how a record becomes a line is C35")
c("C118","partial",["Smtp.c118_end_partial","Smtp.c118_verbatim_partial","Smtp.c118_bare_lf","Smtp.c118_bare_lf_text","Smtp.c118_nul","Smtp.c118_sample"],"false in general, by bare line feeds and by NUL bytes: c118_bare_lf and c118_nul give sessions. Proved: for clients that send no NUL the mail program sees an end only where the client sent a line with only a dot; for clients that also end all lines with CR LF it is given the message byte for byte")
c("C119","partial",["Smtp.c119_question_partial","Smtp.c119_read_unique","Smtp.c119_sample","Smtp.c119_nul_attribute","Smtp.c119_nul_request"],"false for clients that send NUL bytes, which become LF: c119_nul_attribute, c119_nul_request. Proved for all others; the recipient is then that of the last RCPT in a form the front end recognises (see c51_stale_recipient). The text of the client's address is taken to have no LF")
c("C120","proved",["Smtp.c120_accepted","Smtp.c120_exact","Smtp.c120_sample"],"that the bytes have also left the buffers when the reply is awaited is C103")
c("C121","partial",["Smtp.c121_in_step_partial","Smtp.c121_once","Smtp.c121_nul","Smtp.c121_sample"],"false for clients that send NUL bytes (c121_nul: QUIT is answered by the reply to a hidden command); proved for all other streams; the client's side (c121_once) holds for all")
