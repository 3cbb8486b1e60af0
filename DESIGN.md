# Formal model of tlswrapper: design

The model is written in Lean 4 under `lean/Verif/`. Nothing in `/repo` is built
or run; every definition cites the file and lines it models and says what it
simplifies.

* `properties.jsonl`: the properties (C01, C02, ...).
* `MANIFEST.json`: for each property its status and its theorems.
* `AXIOMS.md`: the axioms of each of these theorems (`#print axioms`, written by
  `tools/axioms.py`).
* `seeded/LOG.jsonl`: wrong programs tried against the theorems.
* `tools/`: scripts that write `properties.jsonl` and `MANIFEST.json`.

## Trusted base

1. **Lean 4.33.0's kernel.** Axioms used: at most `propext`, `Classical.choice`
   and `Quot.sound`, per theorem in `AXIOMS.md`. No own axioms, no `sorry`, no
   `native_decide`, no `bv_decide`. Mathlib is not imported.
2. **The reading of the C source.** The model is hand-written; a mistake in the
   reading is not detected by the kernel.
3. **A 64-bit machine**: `long long` and `size_t` of 64 bits, `int` of 32, two's
   complement conversion.
4. **Contracts of external code.** External behaviour is a parameter or a
   universally quantified schedule. Where a theorem needs something of it, that
   is a hypothesis of the theorem, or part of the kernel model as listed:

| external | what is assumed | where |
|----------|-----------------|-------|
| `read`, `write` | transfer a prefix of what was asked; any failure, any division, any delay | `Io` |
| `poll`, `select` | report only what was asked for; any time, any failure | `Io`, `JailPoll`, `Relay` |
| clocks | any value at any time unless a theorem says "monotone" | `Rw`, `Conn` |
| `malloc`, `getrlimit` | fresh, non-overlapping, aligned blocks, or NULL | `Alloc` |
| `inet_pton`, `inet_ntop` | `IpCodec.Lawful` (a printed address parses back), `Apart` (v4 and v6 texts differ) | `Proxy`, `ConnInfo` |
| `getaddrinfo` | any answer list | `Resolve` |
| random bytes | any bytes | `Resolve`, `Pem`, `Ec`, `Smtp` |
| credentials (`setuid`, `setgid`, `setgroups`, `chroot`, `setrlimit`, `prctl`) | Linux's rules; every call may fail, `setuid`/`setgid` may lie | `Jail` |
| descriptors | POSIX lowest free number; calls may fail | `Main.Fds` |
| `fork`, `execvp`, `waitpid` | may fail; wait status is exit code or signal | `Main` |
| BearSSL engine | an arbitrary state machine with flags and buffers; what a theorem needs (application data only after the handshake etc.) is its hypothesis | `Relay.Tls` |
| BearSSL suite negotiation | the list of common suites is the preferred side's list restricted to the other's: hypothesis `Engine` | `Conf.Choose` |
| BearSSL PEM decoder | reports of objects as in `Crt.Stream`: an object ends before the next begins, bytes only within objects | `Crt` |
| BearSSL X.509 and key decoders | arbitrary functions of the bytes; sizes below 2^60 | `Crt` |
| BearSSL signing, record encryption, PRF, point multiplication | arbitrary functions of their inputs; what they may touch is stated per operation | `Key`, `Ec` |
| ChaCha20 (`br_chacha20_ct_run`) | a keystream that depends on key, nonce and position only | `Pem` |

## Conventions

* Bytes are `UInt8`, byte strings `List UInt8`, C integers `Int`/`Nat`, with
  wrap-around or range guards explicit where the code depends on them.
* Undefined behaviour (access outside an object, signed overflow, `memcpy` of
  overlapping ranges where relevant) is an explicit outcome (`Out.ub`).
* A system call schedule is a list of outcomes supplied by the environment; a
  loop consumes it. Running out of schedule means "still blocked", a distinct
  outcome, so theorems cover every finite prefix of every execution.
* Each area has a directory: `Model.lean` (the code), `Spec.lean` (independent
  specification), `Lemmas.lean`, `Props.lean` (property theorems `cNN_...`, with
  examples that meet their hypotheses). `Base.lean`, `BaseLemmas.lean` and
  `Io.lean` are shared.
* If a property is false of the code, the largest true part is proved under a
  name ending in `_partial`, and a theorem with a concrete witness shows what is
  false. The property keeps its full statement and status "partial".

## Plan per property

| id | area | model | proof |
|----|------|-------|-------|
| C01 | Num | `parsenum_` on byte lists, unsigned 64-bit arithmetic | induction on the digits; equivalence with a grammar and value |
| C02 | Num | `parseport_`, `porttostr` | corollary of C01 and a digits lemma |
| C03, C04 | Name | `parsename_` loop with its output buffer | loop invariant against a label-list grammar; decoder as left inverse |
| C05, C06 | HostPort | `parsehostport_split_`, `parsehostport` | case analysis with list splitting |
| C07-C10 | Proxy | PROXY v1 writer, byte-at-a-time reader, tokenizer on an indexed buffer | round trip; reader invariant over schedules; exact accepted language; witnesses |
| C11, C12 | Path | `fixpath`, `fixname` in place | invariants on adjacent bytes |
| C13-C15 | Rw | `readall`, `writeall`, `timeoutread`, `timeoutwrite` | induction over schedules; trace invariant |
| C16-C18 | Pipe | pack, unpack, framing over byte streams | induction over message lists |
| C19-C21 | Buffer | input and output buffers as state machines | refinement to byte streams |
| C22-C24 | Alloc | allocator with memory contents | invariant over operation histories |
| C25, C26 | Stralloc | growable strings with failing allocation | refinement to byte lists |
| C27, C28, C66 | Str | `str.c`, `case.c` on memory | exact specifications; `str_diffn` deviation as witness |
| C29-C31 | Pem | line parser and in-place splitter, stream cipher | loop invariants; witness for a missing END line |
| C32-C34 | Resolve | `randommod`, ordering, `resolvehost` | arithmetic, permutations |
| C35-C37 | Log | escaping, formatting, record layout, verbosity | output-alphabet invariants; histories of records |
| C38-C40 | Relay.Tcp | TCP forwarding loop | trace invariant over all events |
| C41-C43 | Relay.Clear | cleartext phase | trace invariant over all events |
| C44-C46 | Relay.Tls | TLS phase over an abstract engine | trace invariant; engine assumptions explicit |
| C47-C53 | Smtp | session loop, dispatcher, DATA, greylist, STARTTLS, replies | action traces checked against an independent specification automaton |
| C54-C56 | Key | key process and the network side's requests | trace of calls; bounded-buffer invariants; encode/decode round trips |
| C57, C59, C60 | Conf | option loop, name tables, startup checks | options as a fold; decision logic |
| C58, C67 | Conf.Choose | choice of certificate, suite and hash; file names | characterisation of the choice |
| C61 | Jail | system calls with abstract credentials | stages of a successful run; failures |
| C62, C68 | Conn | connection attempts, descriptor bookkeeping, deadline | invariant over completion schedules |
| C63, C72 | Main.Start, Main.Late | the steps of the three programs, exit codes, the alarm while waiting | all prefixes of the step lists, every failure |
| C64 | Ec | scalar and point sizes, clamping | bit-level lemmas, finite tables over bytes |
| C65 | ConnInfo | environment and socket sources, exports | case analysis |
| C69 | Jail.Poll | `jail_poll` on descriptor sets | bit-set lemmas |
| C70 | Main.Child | the child's account and arguments | kernel model of C61 |
| C71 | Main.Fds | descriptors of the three processes | symbolic execution of the descriptor table, every failure |
| C73 | Relay.Timer | timer assignments of the relay loops | trace invariant |
| C74 | Key.Net | what the network process stores of answers | predicate over all answers |
| C75, C76 | Crt | `tls_pubcrt_parse`, `tls_seccrt_parse` | loop invariant over the decoder's reports |
| C77 | Cmd | `main`, option loops of tlswrapper-tcp and tlswrapper-smtp | options as a fold, generic in the letters |
| C78 | Crt | `sign` of tls_keyjail.c with the two parsers | composition of C29-C31, C56, C75, C76 over the list of blocks |
| C79 | Fd | `fd_close_read`, `fd_close_write` on a small kernel of descriptors, open files and connections | frame lemmas per system call |
| C80 | Fd | `fd_read`, `fd_write` and the flag helpers | case analysis, bits of the flag word |
| C81 | Conf | `tls_profile`, `tls_ecdhe_get_default`, loading of the anchors | the engine as a record of its settings; composition of C60 and C78 |
| C82 | Key | the whole key process, twice | relational logic over two runs (`Both`): equal requests and equal released values give equal answers; lengths of PRF inputs from the protocol automaton of C54 |
| C83 | Wipe | `randombytes`, `init` | induction over the schedule of reads |
| C84 | Wipe | `cleanup` of the three programs over static objects, allocator of C22-C24 | offsets in the random stream depend on the list of objects alone |
| C85 | Relay | the three loops of C38-C46, one more iteration after a waiting state | invariants of C38-C46 give the poll set from the trace; case analysis of the iteration; induction on the length of the traffic for the violation |
| C86 | Fd | `socket.c`, `open_pipe.c`, `open_read.c`, `fsyncfile.c` over the kernel of C79 | frame conditions of each call, induction on the sequence of calls, decoding of the address structure |
| C87 | Diag | tables of `tls_error.c`, `tls_keytype.c`, `tls_engine_close_reason`; causes encoded as the library documents | tables without repeated texts, lookup by induction, ranges of one byte by evaluation in the kernel |
| C88 | Relay | the relay models; schedules where productive answers are mixed with any harmless ones; for the encrypted phase any engine with a measure of its own remaining work | the work left never grows and shrinks at every productive answer; two violations as theorems over all later schedules |
| C89 | Session | `main_tlswrapper` from the connection information to the closing of the descriptors, over the relay models, and the second process of Main | composition of the invariants of both phases with the uniqueness of frames |
| C90 | Session.Joint | the session of C89 and the front end of C47-C53 side by side: a history of both, with faithful pipes between them | the invariants of both sides, related at the cuts of the history; concrete histories for the violations |
| C91 | Key.Whole | the requests of tls_pipe.c in the order of a connection against the whole of tls_keyjail.c, with an adaptive caller | the exchanges of C56 composed by induction over the names and over the caller; the reference is the same caller with keys at hand |
| C92 | Conn | the attempt of C68 in real time, with an arbitrary wall clock | the waits of C68 related to the clock by induction over the history; concrete histories for the violations |
| C93 | Key | a connection whose key process stops after any byte of its answers, or whose pipes break | a failure-aware version of the C56 exchanges (answer complete and right, or failed for good), composed over the connection of C91 by induction; soundness of success for arbitrary bytes |
| C94 | Main.SmtpFds | descriptors of the SMTP front end and the mail program, alone and under the wrapper | symbolic execution of the descriptor table as for C71, composed with C71 across execvp |
| C95 | Main.Sig | both signal handlers as interruptible step machines, nested, with pending signals that merge, errno, the self-pipe and the program's own order of installing them | invariants over all histories: a chain of saved errno values, a count of bytes per handler, and one tracking predicate per signal |
| C96 | Log.Harm | the log call with errno and every outcome of its writes; fd_read and fd_write with their log calls | case analysis over the model of C35 to C37, induction on the writes for the bound |
| C97 | Resolve.Trust | what tlswrapper-tcp, tlswrapper-smtp and conn do with an arbitrary datagram from the resolver process, with checked reads of the address buffer | case analysis over the datagram, induction on the loops |
| C98 | Resolve.Helper | the resolver process and its user as a transition system with two queues of datagrams, a check of the parent, and failures at every call | invariant over all runs; induction on runs from the state in which the user is gone; concrete runs for the three violations |
| C99 | Smtp.Mail | the SMTP front end with the log calls that carry text of the session put in their places; the history of actions and records | the log calls erased give the model of C47; the records are computed from the actions by a separate fold, by an invariant over all sessions; truth of the records by comparing two folds; witnesses where they are untrue |
| C100 | Tcp | tlswrapper-tcp from argv to exit: command line (C77), resolver (C97), connection attempt (C62), endpoints (C65), headers (C07-C10) and relay (C38) in the order of the source; trace of what others can see | the possible courses of a run as an inductive predicate; the parts' theorems put together stage by stage; the chain by uniqueness of the header line |
| C101 | Tcp | the same | by the courses; witnesses where exit code 0 is given for a cut transfer |
| C102 | Smtp | each question is followed by the first line of the answer with its number | invariant over the whole session relating the questions in the log to the answers left (`Spec.OwnAnswers`); witnesses for late and split answers |
| C103 | Smtp.Held | the session with its calls of buffer.c and its waits marked | erasing the marks gives the session; invariant over all sessions (what was put is out unless within a message), then C19 for what the descriptors took |
| C104 | SmtpMain | the whole of `main_tlswrapper_smtp`: options, start, jail, lookup, connection, client, session, die | composition of C77, C34, C62, C65, C47 and C63: the possible courses of a run, then each claim by cases |
| C105 | SmtpMain | the same | the same; refuted for names that cannot be resolved |
| C106 | TlsMain | the whole of `main_tlswrapper` (network process): options, both processes, jail, anchors, header, endpoints, session, end | composition of the areas Conf, Path, Proxy, ConnInfo and Session: the possible courses of a run (`Course`), then each claim by cases |
| C107 | TlsMain | the same, with the process of the program (`Main.childMain`) | the courses with a session, then C89, C70 and C63 |
| C108 | Chain | the three whole programs, connected by what one sends and by the environment | C100, C104 and C107 with the round trips of C07 and C65 |
| C109 | Tcp | the whole of `main_tlswrapper_tcp` | the courses of a run (`Course`), with the reason a header is not made |
| C110 | Conn.Told | the attempt of C62 with its warnings and its debug line | erasure to the model of C62, then induction over connects, poll results and rounds |
| C111 | Cmd.Order | the option loops of the three programs (C60, C77) | the settings after a list of options depend on the options about each thing only, by filtering |
| C112 | Relay.Ended | the line logged at the end of `run_tls_phase` (C46, C87) | the output to the network stays open while the loop goes on; the last iteration taken apart; texts told apart by one character or by the tables of C87; one violation for every engine |
| C113 | Smtp.Cut | the model of C47 run on two inputs | relation between states that forgets the cutting; every operation respects it and only adds to the actions; loops bounded by the input do not depend on the bound because a line takes at least one byte; at the upgrade equal amounts left mean equal bytes left |
| C114 | Main.Fresh | the signal and alarm calls from the start to execvp; the child's part of C70 and jail.c of C61 | dispositions and timer as a fold over the calls; what jail() keeps, operation by operation; the memory limits as violation for every account |
| C115 | Conf.ConnLine | the call at main_tlswrapper.c:571-574 on the model of log.c (C35) and the text functions (C59) | an own table of texts; none contains a comma, so the line splits at the commas; the server name comes last |
| C116 | Conf.Refuse | main_tlswrapper.c:205-288, 302-526, 1134-1284 as for C60, now with every call of log and usage on the way | the reasons as an inductive relation over the options read, independent of the loop; erasing the records gives the model of C60 |
| C117 | Cmd.Refuse | main_tlswrapper_tcp.c:116-192, 244-297 and main_tlswrapper_smtp.c:145-181, 848-908 as for C77, now with every call of log and usage on the way | the reasons as inductive relations over the options read; erasing the records gives the model of C77 |
| C118 | Smtp.MessageEnd | the SMTP session model; no new definitions of the code | the shape of the actions after a 354 reply, from the grammar of C47; an end mark in a sequence of lines is one of the lines; the counterexamples by evaluation |
| C119 | Smtp.Question | the SMTP session model; no new definitions of the code | requests of the policy protocol as a grammar read in one way; what the grammar of C47 remembers is what the client said last, by induction over the actions |
| C120 | Smtp.Accepted | the SMTP session model; no new definitions of the code | the shape of the actions after a 354 reply up to the report; the first bytes of a tagged reply |
| C121 | Smtp.InStep | the SMTP session model; a separate account of what the mail program sees, line by line | an invariant over the phases: how many answers are due and whether text is read |

No property is planned as not applicable.

## What of the code is modelled

| file | modelled | left out |
|------|----------|----------|
| `alloc.c` `buffer.c` `case.c` `str.c` `stralloc.c` `fixname.c` `fixpath.c` `parsenum.c` `parseport.c` `porttostr.c` `parsename.c` `parsehostport.c` `parseip.c` `iptostr.c` `randommod.c` `readall.c` `writeall.c` `timeoutread.c` `timeoutwrite.c` `pipe.c` `proxyprotocol.c` `connectioninfo.c` `jail_poll.c` | every function | log output |
| `fd.c` | every function | log output |
| `log.c` | escaping, formatting, levels, record layout, output | the clock |
| `e.c` | errno to text table | |
| `conn.c` | everything | log output of the level trace |
| `resolvehost.c` | ordering, copying, subprocess protocol | getaddrinfo itself |
| `jail.c` | all system calls in order | non-Linux branches |
| `tls_version.c` `tls_cipher.c` `tls_ecdhe.c` `tls_certfile.c` `tls_anchor.c` | tables and add functions | |
| `tls_profile.c` `tls_ecdsa.c` | everything: choice of suite, certificate and hash, certificate lookup, the settings of the engine | what BearSSL does with the settings |
| `tls_pem.c` `tls_pubcrt.c` `tls_seccrt.c` | everything | BearSSL decoders |
| `tls_keyjail.c` | requests and answers, buffers | BearSSL functions, logging |
| `tls_pipe.c` | requests and answers | vtables and their initialisation |
| `tls_crypto_scalarmult.c` | sizes, clamping, dispatch | curve arithmetic |
| `tls_engine.c` | as the interface of the engine parameter; `tls_engine_close_reason` | BearSSL |
| `main_tlswrapper.c` | the whole program from arguments to exit, options, startup order, descriptors, child, cleartext and TLS phases, timers, exit codes | log texts, signals other than SIGTERM, SIGALRM, SIGCHLD |
| `main_tlswrapper_tcp.c` | everything: options, startup, relay loop, the whole program from arguments to exit | log texts |
| `main_tlswrapper_smtp.c` | main as a whole, options, whole SMTP session with its buffer operations and waits, startup order, exit codes, log records with text of the session | log records with a fixed text |
| `tlswrapper.c` | everything | |
| `randombytes.c` | everything (version with /dev/urandom) | librandombytes |
| `socket.c` `open_pipe.c` `open_read.c` `fsyncfile.c` | everything | the effect of IPV6_V6ONLY |
| `tls_error.c` `tls_keytype.c` | tables and lookup | |
| `milliseconds.c` | as an arbitrary clock (C92) | gettimeofday itself |
| `has*.c` | none (build probes) | everything |

Not modelled at all: TLS cryptography, the BearSSL engine's internals, DNS, the
kernel beyond the contracts above, process scheduling below the granularity of
system calls, the compiler.

## Findings

Places where the code does not do what the properties ask, or deserves a second
look. Each is a theorem unless marked (reading).

* PROXY header: LF alone, NUL as separator and text after CR are accepted
  (`c10_violation_*`).
* PEM: a certificate block without END line lets a private key enter the public
  part (`c30_violation_open_block`).
* Log: the backslash is not escaped (`c35_violation_backslash`); a failed write
  of the line feed joins two records (`c35_lost_newline`).
* `str_diffn` reports a difference for strings that agree up to the bound when the
  first ends there (`c66_diffn_violation`).
* `resolvehost` swaps an element with itself by `memcpy` (reading).
* Relay: `select` is not atomic, so the STARTTLS request may be seen before
  output the child wrote earlier (`c43_poll_dependence`). If the engine reports
  received data before it can send, application bytes precede the account
  record (`c44_needs_ordered`).
* SMTP: a NUL in a client line becomes a line feed for the child
  (`c47_nul_splits`), also in the greylist question; abbreviations and the empty
  line are taken for verbs (`c48_abbreviations`, `c48_empty_line`); a greylist
  answer without line feed passes even fail-closed (`c51_overlong_passes`);
  `RCPT TO :` forms are passed without a question, or asked about the previous
  recipient (`c51_unrecognised_form_passes`, `c51_stale_recipient`); cleartext
  may be interpreted after the switch to TLS (`c52_race`); a NUL in a reply
  truncates it, a bare `250` line becomes two replies (`c53_nul_truncates`,
  `c53_bare_code`); descriptor 6 is not closed in the child (`c94_answer_pipe`).
* Key process: a PRF label without NUL is read beyond its end (`c55_label`), a
  digest length is not checked (`c55_digest`), a record that fills the buffer
  overruns on encryption (`c55_encrypt_overrun`); an empty record is taken for a
  failure by the network side (`c56_empty_record`).
* Network process: an offset sent by the key process is trusted; 59 bytes before
  the record buffer are reachable (`c74_before_buffer`), a length of -2^63 is
  negated (`c74_getcert_negation`).
* Configuration: an unknown cipher name clears the defaults (`c57_unknown_clears_defaults`);
  `-p 1 -p 0` leaves the PROXY protocol on (`c60_proxy_stays_on`); a minimum version above the
  maximum is not refused (`c60_versions_not_compared`); no common hash is not refused (`c58_no_hash`).
* Jail: the hard memory limit is not lowered when the soft limit is low already
  (`c61_memory_soft_only`); a process that is not root keeps its capabilities
  (`c61_needs_root`).
* Child: `-U` with an empty certificate field runs the program with the wrapper's
  privileges (`c70_empty_field`); `-U` with `-u` never starts it (`c70_both`).
* Deadlines: the TCP wrapper waits for the PROXY header without a deadline
  (`c72_tcp_unlimited`); the handshake timeout ends with the first byte of the
  handshake (`c73_handshake_unlimited`).
* `tlswrapper-smtp` exits with 0 when `waitpid` fails (`c63_smtp_lost`).
* `conn`: preparing more slots than candidates leaks (`c62_extra_slots_leak`).
* `connectioninfo`: a failure leaves partial buffers and is ignored
  (`c65_failure_keeps_part`).
* Key process: a PRF label need not contain a NUL but is used as a string. If the
  seed lies behind it in memory, a compromised network process that picks the
  server random gets the first twelve bytes of the record keys
  (`c82_label_violation`).
* `tlswrapper-smtp` leaves mail payload and the client's address in memory when it
  exits, the other programs only the last log record (`c84_smtp_keeps`,
  `c84_log_keeps`).
* The relays serve one descriptor per round in a fixed order, the signal pipe last. A
  side that keeps sending holds up the other direction, SIGTERM and the child's end for
  as long as it likes (`c85_tcp_starved`, `c85_clear_starved`, `c85_tls_starved`).
* C87: an alert that ends the handshake is logged by name only; whether it was sent or received is lost,
  because `tls_engine_close_reason` says so only after a completed handshake.
* C88: after the child has exited and its output has ended, the cleartext phase keeps waiting, no longer
  watches the network, and may have re-armed the full inactivity timeout (`c88_clear_lingers`).
* C88: in the encrypted phase a child that closes its output but goes on reading loses everything the peer
  sends later, unless network input happened to be waiting at that moment (`c88_tls_halfclose`).
* C90: cleartext that the relay passes on between the STARTTLS request and its acknowledgement is obeyed after
  the switch (`c90_race`); a decrypted command that arrives before the front end throws away its input is lost
  (`c90_lost`); if the relay's poll sees the request but not the 220 written before it, the 220 is encrypted
  (`c90_answer_late`).
* C92: the deadline of a connection attempt is kept by the wall clock (gettimeofday). Set back by an hour, it lasts an
  hour longer (`c92_set_back`); from 25 days on the wait does not fit the `int` of `jail_poll`, becomes negative and
  has no limit (`c92_no_limit`); set forward, it is given up at once (`c92_set_forward`).
* C95: `tlswrapper` handles SIGTERM from its first line on but makes the pipe that carries it only after it has
  started the wrapped program and the key process. A SIGTERM before that is swallowed (`c95_early`), and so is one
  while it waits for the wrapped program at the end (`c95_late`).
* C96: a log call waits for standard error without limit; the timeout signal interrupts the write and the write is
  made again (`c96_stuck`). A stopped log reader holds every session that logs.
* C97: the answer of the resolver process is trusted. A datagram of one byte is taken for a number of address bytes:
  from 32 on, tlswrapper-smtp reads memory behind its 16-byte buffer as addresses and logs them as unreachable
  (`c97_smtp_overread`); from 129 on, tlswrapper-tcp prints 128 bytes behind its buffer when debugging
  (`c97_tcp_overread`).
* C98: resolvehost_do does not match answers with requests. A lookup that fails while it waits for the answer (a
  signal without SA_RESTART) leaves the answer in the socket for the next lookup. Both programs give up at the first failed lookup.
* C98: resolvehost_close ignores a failure of its `send` and then waits for the resolver process without limit.
* C98: the resolver process asks for its parent's number only after the fork; a parent that has gone by then is not noticed.
* The information logged about an accepted message is not always true (`c99_false`): a second MAIL command
  the child refuses replaces sender and recipients, refused recipients are listed, and recipients accepted in
  an unusual form ("RCPT  TO:") are missing. With debugging on, AUTH lines and so passwords are logged (`c99_password`).
* C101: `tlswrapper-tcp` exits with 0 when the transfer is cut by the timer or SIGTERM (`c101_cut_is_success`) and when what
  it has read cannot be written (`c101_lost_is_success`).
* C102: the greylist client forgets what is left in its buffer but not what is left in the socket. If the empty line that
  ends an answer arrives on its own, it is taken for the answer to the next question, whose answer is taken for the one
  after it: a rejected recipient can pass, even in fail-closed mode (`c102_split_answer`). In the default mode an answer
  that comes after the timeout decides about the next recipient (`c102_late_answer`).
* C105: fail-open (-C, the default) covers a greylist server that refuses or does not answer, but not one whose name
  cannot be resolved: then every client is turned away with code 111 for as long as the resolver fails
  (`c105_unresolved`, `c105_turned_away`). The same holds of a connection attempt that outlasts the 30 seconds of the
  first alarm (-T of 30 or more), which the model leaves out.
* C63: the last alarm of the relay stays set while tlswrapper waits for its processes, with SIGALRM back at its default
  action: a program that needs longer than the rest of the timeout (1 second after a timeout or SIGCHLD) costs the wrapper
  its exit status (`c63_late`). tlswrapper-smtp waits under the session timeout and exits with 111 when it ends, after a
  session without fault (`c63_smtp_late`).
* C109: tlswrapper-tcp with -p 1 and -P 1 turns away every client announced as PROXY UNKNOWN (health checks of proxies, say) with
  code 100, and only after it has opened the connection to the server (`c109_unknown`, `sample_unknown`); it does not forward
  UNKNOWN. Without -P the same client is served.
* C112: when the client closes its TCP connection before the handshake is complete, the session is logged as "tls phase: finished,
  close_notify sent, not waiting for peer". Nothing was sent, the engine was not told to close, and the handshake failed
  (`c112_vanished`, for every engine that waits for a handshake record). The test at main_tlswrapper.c:1018 takes "nothing can be
  done" for "close_notify sent".
* C114: `jail()` applies the limits of 128 MiB on address space and data whether or not its argument `limits` is set, so a program run with
  -u or -U gets them as well (`c114_memory`); without -u and -U it does not. The manual says nothing about it.
* C114: while the program's process waits for the handshake, SIGTERM is caught in it by the wrapper's handler, which has no pipe to write to
  there: the signal neither ends the process nor reaches the program (`c114_term_waits`).

### C116: messages about a refused command line

- After `-q` a refused value says nothing: the process exits 100 without a word. Only the usage is still shown.
- `-p` with a wrong value lists `available: 1`, though `0` is accepted too (`c116_available`).
- The message about a time limit does not say whether `-t` or `-T` is meant.

### C117: messages of the other two programs

- `tlswrapper-tcp host` without a port does not show the usage but the message about the port, and its text breaks off
  after the opening quote, since the missing port is a NULL argument of the log call (`c117_tcp_sample`).
- After `-q` every refusal but the usage is silent.

### C118: SMTP smuggling

- `readline` ends a line at a bare LF and passes it on with CR LF. A message that contains LF . LF, which a sending relay
  following RFC 5321 passes as text, so ends there for the mail program, and what follows in the text is taken as commands:
  a second message with any sender, sent with the relay's address (`c118_bare_lf`, `c118_bare_lf_text`). This holds also if
  the mail program itself is strict about line ends, since it never sees the bare LF.
- `readline` turns NUL bytes into LF. A line of the text with CR NUL . CR NUL in it is one line for the front end, but ends
  the message for the mail program; commands after it are not seen by the front end, so their recipients are not greylisted
  (`c118_nul`).

### C119: attributes of the client's choice

- NUL bytes in MAIL or RCPT become LF, and so end the line `sender=` or `recipient=` of the question to the greylist server.
  The client can add attributes, for example a second `client_address` (`c119_nul_attribute`), or end the request and begin
  another one (`c119_nul_request`), whose answer then stays for the next recipient.

### C121: replies out of step

- A NUL inside a command reaches the mail program as LF, so one command of the client is two to the mail program.
  From then on every reply the client sees belongs to an earlier command (`c121_nul`: QUIT is answered by the reply to VRFY).
