{"id": "C01", "title": "Decimal option values are parsed exactly", "statement": "Parsing a number with a range [min,max] succeeds exactly when the text is an optional '+' or '-' followed by a decimal numeral without leading zeros whose mathematical value lies in the range, and the number delivered is that value; otherwise the call fails and delivers 0. No numeral, however long, wraps around into an accepted value.", "quantifier": "every byte string of every length and every signed 64-bit min and max", "why_tests_cant": "The wrap-around cases are numerals of arbitrary length; a test can only try a few lengths.", "anchors": ["parsenum.c: parsenum_, parsenum", "parsenum.h"]}
{"id": "C02", "title": "Ports print and parse back", "statement": "Printing any 2-byte port and parsing the text gives the same port back; text is accepted as a port exactly when it is a canonical unsigned decimal in 0..65535; the printed text always fits the 6-byte buffer and is NUL terminated.", "quantifier": "all 65536 ports and every byte string offered as a port", "why_tests_cant": "The acceptance half ranges over all byte strings.", "anchors": ["parseport.c: parseport_, parseport", "porttostr.c: porttostr"]}
{"id": "C03", "title": "Host names are validated and encoded to DNS wire format", "statement": "A host name is accepted exactly when it is the root name or a dot-separated sequence of labels of 1..63 letters, digits, '-' or '_' that neither start nor end with '-', with at most one trailing dot and at most 255 bytes on the wire; the output is the DNS wire encoding (length-prefixed labels, zero terminated) padded with zeros to 256 bytes.", "quantifier": "every byte string of every length", "why_tests_cant": "Boundary lengths (63, 255) combine with label structure in infinitely many ways.", "anchors": ["parsename.c: parsename_, parsename"]}
{"id": "C04", "title": "Wire-encoded names decode to the labels that were typed", "statement": "Decoding the wire form of an accepted host name yields exactly the labels of the text, so two accepted names have the same wire form only when they have the same label sequence.", "quantifier": "every pair of accepted names", "why_tests_cant": "Injectivity is a statement about all pairs of inputs.", "anchors": ["parsename.c: parsename_"]}
{"id": "C05", "title": "host:port strings are split unambiguously", "statement": "When a host:port string is accepted, the host and port delivered are substrings of the input that rebuild it (host, or host:port, or [host]:port), the host is non-empty, the port delivered is a valid decimal port, and a host containing ':' is only ever accepted when it is an IPv6 literal.", "quantifier": "every byte string offered as host:port", "why_tests_cant": "Combinations of brackets and colons at every position cannot be enumerated.", "anchors": ["parsehostport.c: parsehostport_split_, parsehostport"]}
{"id": "C06", "title": "host:port output buffers are never overrun", "statement": "For every input the delivered host occupies at most 256 bytes and the port at most 6 bytes including terminating NULs, and on failure both outputs are empty strings.", "quantifier": "every byte string, including ones longer than any buffer", "why_tests_cant": "Overflow needs long adversarial inputs at unknown offsets.", "anchors": ["parsehostport.c: parsehostport", "parsehostport.h: parsehostport_HOSTBYTES, parsehostport_PORTBYTES"]}
{"id": "C07", "title": "PROXY v1 header round-trips", "statement": "For every pair of endpoints of the same address family, the header text that one side emits is parsed by the other side to exactly the same source and destination address and port.", "quantifier": "all addresses and ports of either family, for any address text codec that itself round-trips", "why_tests_cant": "2^288 endpoint combinations.", "anchors": ["proxyprotocol.c: proxyprotocol_v1, proxyprotocol_v1_get", "main_tlswrapper_tcp.c", "main_tlswrapper.c"]}
{"id": "C08", "title": "PROXY header reading never eats payload", "statement": "Reading the incoming PROXY v1 header consumes exactly the bytes up to and including the first LF (at most 127 bytes); every later byte stays unread in the connection for TLS, whatever the segmentation of the stream.", "quantifier": "every incoming byte stream and every read schedule", "why_tests_cant": "TCP segmentation and header length combine without bound.", "anchors": ["proxyprotocol.c: proxyprotocol_v1_get"]}
{"id": "C09", "title": "PROXY header parsing is memory safe", "statement": "For every header content, including embedded NULs and missing fields, the parser never reads outside the received bytes and never writes outside its output fields.", "quantifier": "every byte string accepted by the header reader", "why_tests_cant": "Memory safety must hold for all malformed inputs.", "anchors": ["proxyprotocol.c: proxyprotocol_v1_get"]}
{"id": "C10", "title": "Only well-formed PROXY headers are accepted", "statement": "A header is accepted only if it is 'PROXY UNKNOWN...' or 'PROXY TCP4|TCP6 src dst sport dport' with single spaces, addresses of the announced family and decimal ports, ended by CRLF; on rejection the delivered endpoints are not from a partially parsed header.", "quantifier": "every byte string presented as a header", "why_tests_cant": "Grammar conformance over all malformed headers.", "anchors": ["proxyprotocol.c: proxyprotocol_v1_get"]}
{"id": "C11", "title": "Certificate path sanitising stops directory escape", "statement": "After sanitising, no path component after the first slash begins with a dot and no two slashes are adjacent, so a client-chosen server name appended to a certificate directory can never address '.', '..' or a hidden file; sanitising is idempotent, never lengthens the path, and leaves paths without dot components and double slashes unchanged.", "quantifier": "every path string of every length", "why_tests_cant": "The attacker picks the server name freely.", "anchors": ["fixpath.c: fixpath", "tls_keyjail.c: tls_keyjail", "tls_profile.c: copyfn"]}
{"id": "C12", "title": "Certificate-derived account names are cut at '@'", "statement": "The account name taken from a client certificate is the longest prefix without '@'; it never contains '@' and names without '@' are unchanged.", "quantifier": "every NUL-terminated name", "why_tests_cant": "All strings.", "anchors": ["fixname.c: fixname"]}
{"id": "C13", "title": "Exact-length reads are exact under every read schedule", "statement": "An exact-length read that succeeds returned exactly the next n bytes of the stream and left the rest unread; it fails only on end of stream or a hard error; interrupted and not-ready reads never lose, duplicate or reorder bytes.", "quantifier": "every stream, every length and every finite schedule of partial reads, interruptions, would-block results and errors", "why_tests_cant": "Schedules are unbounded.", "anchors": ["readall.c: readall"]}
{"id": "C14", "title": "Exact-length writes are exact under every write schedule", "statement": "A full write that succeeds put exactly the given bytes on the descriptor, in order and once; if it fails, what was put is a prefix of them.", "quantifier": "every payload and every schedule of partial writes, interruptions, would-block results and errors", "why_tests_cant": "Schedules are unbounded.", "anchors": ["writeall.c: writeall"]}
{"id": "C15", "title": "Timed reads and writes respect their deadline", "statement": "A timed read or write reports a timeout only if the clock has reached the deadline, performs no transfer attempt after having observed the deadline pass, transfers at most once, and never waits for longer than the time that remains.", "quantifier": "every timeout value, clock behaviour and sequence of readiness results", "why_tests_cant": "Clock and readiness schedules are unbounded.", "anchors": ["timeoutread.c: timeoutread", "timeoutwrite.c: timeoutwrite", "milliseconds.c"]}
{"id": "C16", "title": "64-bit frame lengths round-trip", "statement": "Packing a 64-bit value into eight bytes and unpacking gives the same value, and unpacking then packing any eight bytes gives the same bytes (little-endian).", "quantifier": "all 2^64 values", "why_tests_cant": "2^64 values cannot be enumerated.", "anchors": ["pipe.c: uint64_pack, uint64_unpack"]}
{"id": "C17", "title": "Framed pipe messages are delivered intact and in order", "statement": "Whatever sequence of messages one process writes to a pipe, the other process reads back the same sequence with the same boundaries, independent of how the kernel splits reads and writes.", "quantifier": "every sequence of messages (each up to the receiver's limit) and every split of the byte stream", "why_tests_cant": "Message sequences and splits are unbounded.", "anchors": ["pipe.c: pipe_write, pipe_readall, pipe_readmax, pipe_readalloc"]}
{"id": "C18", "title": "Pipe readers enforce their limits", "statement": "A bounded pipe read never stores more than the caller's buffer, an exact-size pipe read succeeds only for a frame of that exact size, a reader never accepts a frame above its maximum, and an error frame makes the reader fail with the sender's errno without delivering data.", "quantifier": "every byte stream from the other side, including a hostile one", "why_tests_cant": "The frame header is an arbitrary 64-bit number chosen by a possibly compromised process.", "anchors": ["pipe.c: pipe_readall, pipe_readmax, pipe_readalloc, pipe_writeerrno"]}
{"id": "C19", "title": "Buffered output is a faithful stream", "statement": "For every sequence of put, puts, putflush, putsflush, single-character put and flush operations in which no write error is reported, the bytes handed to the descriptor followed by the bytes still buffered are exactly the concatenation of everything put, and after a successful flush nothing is left buffered; at the first reported write error the bytes handed to the descriptor are a proper prefix of everything put; the buffer is never overrun.", "quantifier": "every operation sequence, every buffer size including 0, every partial-write schedule", "why_tests_cant": "Operation sequences and write schedules are unbounded.", "anchors": ["buffer.c: buffer_put, buffer_puts, buffer_flush, buffer_putflush, buffer_putsflush, allwrite", "buffer.h: buffer_PUTC"]}
{"id": "C20", "title": "Buffered input is a faithful stream", "statement": "For every sequence of get, single-character get and feed/peek/seek operations, the bytes delivered followed by the bytes buffered and the bytes still unread are exactly the original stream; a get of more than 0 bytes returns 0 only at end of stream and less only on a read error.", "quantifier": "every operation sequence, every stream and every partial-read schedule", "why_tests_cant": "Operation sequences and read schedules are unbounded.", "anchors": ["buffer.c: buffer_get, buffer_feed, getthis, oneread", "buffer.h: buffer_GETC, buffer_PEEK, buffer_SEEK"]}
{"id": "C21", "title": "Buffer-to-buffer copy copies everything", "statement": "Copying one buffered stream (with a nonempty buffer) to another returns 0 only after every remaining input byte was put to the output in order; -2 only on input failure and -3 only on output failure.", "quantifier": "every stream, read schedule and write schedule", "why_tests_cant": "Unbounded streams.", "anchors": ["buffer.c: buffer_copy"]}
{"id": "C22", "title": "Allocator blocks never overlap and are zeroed", "statement": "Every block handed out by the allocator is large enough, zero-filled, aligned, disjoint from every other live block and from allocator metadata, whatever the history of allocations, frees and writes by users.", "quantifier": "every history of allocate, free, write and release-all operations", "why_tests_cant": "Histories are unbounded.", "anchors": ["alloc.c: alloc, alloc_free, alloc_freeall"]}
{"id": "C23", "title": "Allocator accounting respects the memory limit", "statement": "The total of live heap-backed requests is exactly tracked and never exceeds the configured limit unless the limit was lowered afterwards; negative and over-large requests are refused without side effects and arithmetic never overflows.", "quantifier": "every history of allocator operations and limits", "why_tests_cant": "Histories are unbounded.", "anchors": ["alloc.c: alloc, alloc_limit, alloc_free"]}
{"id": "C24", "title": "Freed secrets are wiped", "statement": "Freeing a block wipes its contents before the memory can be reused or returned, and the release-all operation wipes every block ever handed out that is still in memory.", "quantifier": "every history of allocator operations", "why_tests_cant": "Histories are unbounded; the wiped memory is not observable in a test without undefined behaviour.", "anchors": ["alloc.c: alloc_free, alloc_freeall, cleanup"]}
{"id": "C25", "title": "Growable strings behave like byte lists", "statement": "Every sequence of copy, append, concatenate, terminate and number operations on growable strings has exactly the effect of the same operations on plain byte lists, independent of reallocation points; capacity is never exceeded. A failed append leaves the string unchanged (the sign of a negative number may remain) and a failed replacement leaves it empty; failure is reported only when memory is refused or an argument is unusable. A string is never appended to or copied onto itself.", "quantifier": "every operation sequence and every point where allocation may fail", "why_tests_cant": "Histories and failure points are unbounded.", "anchors": ["stralloc.c: stralloc_readyplus, stralloc_catb, stralloc_cats, stralloc_cat, stralloc_copyb, stralloc_copys, stralloc_copy, stralloc_append, stralloc_0, stralloc_free"]}
{"id": "C26", "title": "Growable-string number formatting is exact", "statement": "Appending a signed or unsigned 64-bit number in decimal with optional zero padding appends its canonical decimal text of at least the requested width, including the most negative value; the numeric option parser reads unpadded text back to the same number.", "quantifier": "all 64-bit values and widths", "why_tests_cant": "2^64 values.", "anchors": ["stralloc.c: stralloc_catunum0, stralloc_catnum0, stralloc_catnum, stralloc_copynum", "parsenum.c: parsenum"]}
{"id": "C27", "title": "C-string helpers meet their contracts", "statement": "Length, prefix test, first/last-occurrence search, full comparison and copy of NUL-terminated strings return what their documentation says, read no byte past the first NUL and write no byte past the copied terminator.", "quantifier": "all strings, of any length, including bytes above 127", "why_tests_cant": "All strings.", "anchors": ["str.c: str_len, str_start, str_chr, str_rchr, str_diff, str_copy"]}
{"id": "C28", "title": "Case-insensitive helpers fold exactly A-Z", "statement": "Case-insensitive comparison reports equality exactly when the two byte strings become equal after mapping only A-Z to a-z; prefix tests and lowercasing use the same folding; no byte outside A-Z is changed; no read goes past the first NUL (or past the given length).", "quantifier": "all byte strings", "why_tests_cant": "All strings of all lengths, including bytes above 127.", "anchors": ["case.c: case_diffb, case_diffs, case_startb, case_starts, case_lowerb, case_lowers"]}
{"id": "C29", "title": "PEM files are split without losing or duplicating data", "statement": "Splitting a PEM file sends every well-formed line to exactly one of the public part and the secret part, in file order, certificate blocks going to the public part; neither part overruns its buffer although the secret part is rewritten in place.", "quantifier": "every file content", "why_tests_cant": "All file contents.", "anchors": ["tls_pem.c: lineparser, pemparse, tls_pem_load"]}
{"id": "C30", "title": "Private keys never enter the public PEM part", "statement": "No line of a private-key block of a PEM file ends up in the public part that is sent to the network process.", "quantifier": "every file content", "why_tests_cant": "All file contents.", "anchors": ["tls_pem.c: pemparse", "tls_keyjail.c: tls_keyjail"]}
{"id": "C31", "title": "In-memory PEM encryption is reversible", "statement": "Decrypting the in-memory secret part with the same key and nonce restores exactly the loaded bytes, for every key, and the at-rest buffer never keeps plaintext beyond the encrypted length.", "quantifier": "every content, key and nonce, for any stream cipher that is an XOR with a keystream", "why_tests_cant": "All contents and keys.", "anchors": ["tls_pem.c: tls_pem_encrypt", "tls.h: tls_pem_decrypt"]}
{"id": "C32", "title": "Random index selection is in range and nearly uniform", "statement": "A random number modulo n is always in [0,n) and is the 256-bit random integer modulo n, so any two residues have preimage counts differing by at most one; n<=1 gives 0.", "quantifier": "all n below 2^55 and all 2^256 random draws", "why_tests_cant": "2^256 draws.", "anchors": ["randommod.c: randommod"]}
{"id": "C33", "title": "Address ordering only permutes", "statement": "Shuffling resolved addresses yields a permutation of the resolver's answers for every random draw; if any address is IPv6 then the first address is IPv6; every permutation that respects this is reachable.", "quantifier": "every list of addresses and every random draw", "why_tests_cant": "All lists and all draws.", "anchors": ["resolvehost.c: sortip, resolvehost"]}
{"id": "C34", "title": "Resolver results are complete and in bounds", "statement": "The address buffer delivered contains only addresses that the resolver returned, never overruns the requested length, and fails when there are none.", "quantifier": "every resolver answer list and every buffer length", "why_tests_cant": "All answer lists.", "anchors": ["resolvehost.c: resolvehost, resolvehost_do"]}
{"id": "C35", "title": "Log lines cannot be forged", "statement": "Every log record is written as exactly one line: attacker-controlled strings can contribute no LF, no control byte and no byte outside printable ASCII; escapes are unambiguous.", "quantifier": "all message parts", "why_tests_cant": "All attacker-chosen strings.", "anchors": ["log.c: outsescape, log_9_, flush"]}
{"id": "C36", "title": "Log fields are formatted faithfully and in bounds", "statement": "Numbers in log records are printed exactly for all signed 64-bit values, hex dumps print every byte as two digits up to the limit then '...', long strings are truncated at 64 characters with '...', and no formatter overruns its static buffer.", "quantifier": "all numbers, strings and byte blocks", "why_tests_cant": "2^64 values and all strings.", "anchors": ["log.c: numtostr, log_num, log_str, tohex, log_hex, log_ipport"]}
{"id": "C37", "title": "Log verbosity stays in range", "statement": "Any sequence of quieter/louder options leaves the verbosity between usage-only and tracing, and a record is emitted exactly when its level does not exceed the verbosity.", "quantifier": "all option sequences", "why_tests_cant": "Unbounded sequences.", "anchors": ["log.c: log_set_level, log_inc_level, log_dec_level, log_9_"]}
{"id": "C38", "title": "TCP relay forwards both directions faithfully", "statement": "In every execution of the TCP relay, the bytes written to one side are a prefix of the bytes read from the other side (plus the leading PROXY header towards the child), with no loss, duplication or reordering, and bytes read but not yet written are exactly those in the bounded relay buffer.", "quantifier": "every schedule of readiness, partial I/O, EOF, errors and signals", "why_tests_cant": "Interleavings are unbounded.", "anchors": ["main_tlswrapper_tcp.c: main_tlswrapper_tcp relay loop"]}
{"id": "C39", "title": "TCP relay propagates EOF only after delivery", "statement": "The relay closes a writing side because the opposite reading side ended only after every byte read was written; when it ends without a write error or signal, both directions were delivered completely.", "quantifier": "every schedule", "why_tests_cant": "Interleavings are unbounded.", "anchors": ["main_tlswrapper_tcp.c: main_tlswrapper_tcp relay loop"]}
{"id": "C40", "title": "The PROXY header is the first thing the child receives", "statement": "When PROXY output is enabled the bytes delivered to the child start with the complete header, before any byte from the network.", "quantifier": "every schedule", "why_tests_cant": "Interleavings are unbounded.", "anchors": ["main_tlswrapper_tcp.c"]}
{"id": "C41", "title": "Cleartext phase forwards faithfully", "statement": "Before STARTTLS, the bytes delivered to each side are a prefix of those received from the other side in order, buffers are bounded, and each EOF is propagated only after delivery.", "quantifier": "every schedule", "why_tests_cant": "Interleavings are unbounded.", "anchors": ["main_tlswrapper.c: run_cleartext_phase"]}
{"id": "C42", "title": "No plaintext injection across STARTTLS", "statement": "Once the child requested TLS, no byte received from the network in cleartext is delivered to the child afterwards: pending cleartext is discarded before the acknowledgement is sent.", "quantifier": "every schedule, including attackers that pipeline data behind STARTTLS", "why_tests_cant": "The injection window depends on scheduling.", "anchors": ["main_tlswrapper.c: run_cleartext_phase"]}
{"id": "C43", "title": "TLS starts only on an explicit request, after the cleartext reply was sent", "statement": "The session switches to TLS only if the child sent the one-byte zero signal with both network descriptors open; every byte of the child's output that was read before the switch has been written to the network before TLS begins and before the acknowledgement.", "quantifier": "every schedule", "why_tests_cant": "Interleavings are unbounded.", "anchors": ["main_tlswrapper.c: run_cleartext_phase"]}
{"id": "C44", "title": "TLS phase: nothing before the account record", "statement": "In the encrypted phase, the framed account record is written to the child exactly once and before any application byte, provided the TLS engine announces send readiness no later than received data.", "quantifier": "every sequence of engine states and I/O events", "why_tests_cant": "Engine and network schedules are unbounded.", "anchors": ["main_tlswrapper.c: run_tls_phase, report_tls_handshake, report_tls_user"]}
{"id": "C45", "title": "TLS phase: plaintext is moved intact", "statement": "In the encrypted phase, application bytes from the engine reach the child in order without loss or duplication, and child output reaches the engine likewise; record bytes are treated the same way; acknowledged counts never exceed what the engine offered.", "quantifier": "every sequence of engine states and I/O events", "why_tests_cant": "Schedules are unbounded.", "anchors": ["main_tlswrapper.c: run_tls_phase", "tls_engine.c"]}
{"id": "C46", "title": "TLS phase ends when the session is over", "statement": "The encrypted relay loop ends only when the engine is closed, or no further progress is possible in either direction, or a write to the child or the network failed, or a terminating signal/timeout arrives, or the account cannot be reported; while it continues at least one descriptor is being waited for.", "quantifier": "every state", "why_tests_cant": "All state combinations.", "anchors": ["main_tlswrapper.c: run_tls_phase, handle_selfpipe_event"]}
{"id": "C47", "title": "SMTP command lines reach the child one-to-one", "statement": "Each command line that the SMTP front end forwards is one line, CRLF-terminated, whose content is the client's line; a client line can never become two lines for the child.", "quantifier": "every client byte stream", "why_tests_cant": "All byte streams.", "anchors": ["main_tlswrapper_smtp.c: readline, copy, commands"]}
{"id": "C48", "title": "SMTP verbs are recognised case-insensitively", "statement": "A client line is handled as QUIT, DATA, MAIL, RCPT, EHLO or STARTTLS exactly when its first word is that verb in any letter case; all other lines are passed through.", "quantifier": "every client line", "why_tests_cant": "All lines.", "anchors": ["main_tlswrapper_smtp.c: commands, smtpcommands"]}
{"id": "C49", "title": "SMTP message bodies are forwarded up to the final dot", "statement": "After a 354 reply, the body lines are forwarded in order until and including the first line consisting of a single dot, after which command processing resumes; the front end never interprets a body line as a command nor a command as body.", "quantifier": "every client byte stream", "why_tests_cant": "All byte streams.", "anchors": ["main_tlswrapper_smtp.c: smtp_data, readline"]}
{"id": "C50", "title": "SMTP limits hold", "statement": "Lines over 4096 bytes, senders or recipients over 2048 bytes, more than 256 recipients or 65536 bytes of recipient list end the session; no accumulator ever exceeds its limit.", "quantifier": "every session", "why_tests_cant": "All sessions.", "anchors": ["main_tlswrapper_smtp.c: smtp_line_append, smtp_mail, smtp_rcpt"]}
{"id": "C51", "title": "Greylisted recipients are never passed on", "statement": "If a greylist server is configured and answers anything but 'dunno', the RCPT command is answered with 450 or 553 and not forwarded to the child; in fail-closed mode an unreachable or failing server never lets a recipient through.", "quantifier": "every session and every greylist response", "why_tests_cant": "All responses and failure points.", "anchors": ["main_tlswrapper_smtp.c: greylist, smtp_rcpt"]}
{"id": "C52", "title": "SMTP STARTTLS resets the session", "statement": "After STARTTLS nothing the client sent in cleartext is interpreted as an SMTP command and sender and recipients recorded before are forgotten; the session continues only after the acknowledgement byte.", "quantifier": "every session", "why_tests_cant": "Schedules and pipelined data are unbounded.", "anchors": ["main_tlswrapper_smtp.c: smtp_starttls, smtp_discard_starttls_cleartext"]}
{"id": "C53", "title": "SMTP replies are forwarded completely", "statement": "Each reply of the child, including multi-line ones, is relayed exactly (with the log id appended when configured, and with the STARTTLS line added to a 250 EHLO reply as a well-formed multi-line reply) and the numeric code used for decisions is the reply's code.", "quantifier": "every child reply", "why_tests_cant": "All replies.", "anchors": ["main_tlswrapper_smtp.c: smtpline, smtp_ehlo"]}
{"id": "C54", "title": "The key process serves a fixed one-shot protocol", "statement": "Whatever the network process sends, the key process performs at most one signature and at most one key agreement per session, in that order, and only after it jailed itself; any deviation terminates it.", "quantifier": "every request byte stream from a possibly compromised network process", "why_tests_cant": "Attacker-controlled streams are unbounded.", "anchors": ["tls_keyjail.c: tls_keyjail"]}
{"id": "C55", "title": "The key process never overruns its request buffers", "statement": "For every request stream, each stored field is within its declared buffer (file name, hash data, public key, seed, record data) and record offsets stay within the permitted slack.", "quantifier": "every request byte stream", "why_tests_cant": "Attacker-controlled streams are unbounded.", "anchors": ["tls_keyjail.c: tls_keyjail"]}
{"id": "C56", "title": "Network and key process agree on the request encoding", "statement": "Each request the network process encodes is decoded by the key process to the same operation and arguments, and each reply is decoded to the same result.", "quantifier": "all requests and arguments within limits", "why_tests_cant": "All argument values.", "anchors": ["tls_pipe.c: tls_pipe_getcert, tls_pipe_mulgen, tls_pipe_dosign, tls_pipe_mul, tls_pipe_prf, decrypt, encrypt", "tls_keyjail.c: tls_keyjail"]}
{"id": "C57", "title": "Cipher configuration keeps the user's order", "statement": "After any sequence of cipher options, exactly the known names were accepted and the enabled list is both variants (ECDSA, RSA) of each of them in order of first appearance (or the defaults when no option was given), without duplicates, never more than the 16 entries there is room for, and only suites the key process implements. A refused name contributes nothing (a refused first option still discards the defaults; the program ends on any refused option).", "quantifier": "all option sequences", "why_tests_cant": "Unbounded sequences.", "anchors": ["tls_cipher.c: tls_cipher_add, tls_ciphers, tls_cipher_str"]}
{"id": "C58", "title": "The negotiated suite is permitted", "statement": "A cipher suite chosen for a connection was offered by the client, enabled by the configuration, matches the key type of the certificate chain presented, and is usable with the negotiated version; no such suite comes before it in the order of the configuration (if that is enforced) or of the client; the signature hash is the strongest the client accepts with that key type. The chain is that of the first certificate source that has one fit for some suite; a directory source without a matching file is passed over unless it is the last, any other failure to load refuses the handshake, and so does having no source left.", "quantifier": "all client hellos, configurations and certificates", "why_tests_cant": "All combinations.", "anchors": ["tls_profile.c: tls_choose"]}
{"id": "C59", "title": "Configuration names are unambiguous", "statement": "Every version, curve and cipher name maps to exactly one code and every code has one name; unknown names are refused and then neither the versions nor the explicitly chosen curves change; printing a curve gives its name back, and versions and cipher suites have pairwise different descriptions, different also from those of unknown codes.", "quantifier": "all strings and codes", "why_tests_cant": "All strings.", "anchors": ["tls_version.c", "tls_ecdhe.c", "tls_cipher.c"]}
{"id": "C60", "title": "Startup refuses unsafe option combinations", "statement": "A command line has at most one meaning as options and a program. The wrapper starts serving exactly when it has one with a program and at least one certificate source, where a certificate-derived user comes with an anchor and without delayed encryption, there are at most four certificate sources (each an existing directory or regular file, as announced) and one anchor, all names of versions, curves, ciphers and certificate fields are known, and timeouts are numerals for 1..86400; what it serves is then what the options say, the last one given deciding. Every other command line ends the program with status 100.", "quantifier": "all command lines", "why_tests_cant": "All command lines.", "anchors": ["main_tlswrapper.c: main_tlswrapper option parsing", "tls_certfile.c", "tls_anchor.c"]}
{"id": "C61", "title": "Jail drops privileges irrevocably and in a safe order", "statement": "If jailing succeeds then the process has no root uid or gid, supplementary groups were reset before the uid was dropped, chroot happened before the uid was dropped, and limits forbid files, processes and core dumps; if any step fails jailing reports failure.", "quantifier": "every outcome of every system call, every account database answer and pid", "why_tests_cant": "Failure combinations.", "anchors": ["jail.c: jail", "jail.h: jail_droppriv"]}
{"id": "C62", "title": "Connect returns exactly one live socket", "statement": "A successful connection attempt leaves exactly one new socket (and its duplicate descriptor) open, connected to one of the candidate addresses, which is reported; an unsuccessful one leaves none; every other descriptor opened on the way was closed.", "quantifier": "every candidate list, every result of each socket operation and every completion order", "why_tests_cant": "Completion orders and failures are unbounded.", "anchors": ["conn.c: conn_init, conn"]}
{"id": "C63", "title": "Wrapper exit status mirrors the child", "statement": "When a session ends normally the wrapper exits with the child's exit status, and 111 if the child was killed by a signal; internal failures exit with a nonzero code.", "quantifier": "every wait status and every failure point", "why_tests_cant": "All statuses.", "anchors": ["main_tlswrapper.c: main_tlswrapper end", "main_tlswrapper_tcp.c: die", "main_tlswrapper_smtp.c: die"]}
{"id": "C64", "title": "Elliptic-curve scalar and point handling is bounded", "statement": "For every curve name the generated scalar has the curve's length and clamping, the public point has the curve's length, and unknown curves or wrong-size points are refused before any secret is used.", "quantifier": "all curve ids and byte strings", "why_tests_cant": "All inputs.", "anchors": ["tls_crypto_scalarmult.c", "tls_keyjail.c"]}
{"id": "C65", "title": "Connection information from the environment is all or nothing per source", "statement": "Connection endpoints are taken from the environment only when all four variables are present and valid; otherwise from the socket; the result is a valid address pair and ports, and failure is reported when neither is available.", "quantifier": "all environments and socket answers", "why_tests_cant": "All strings.", "anchors": ["connectioninfo.c"]}
{"id": "C66", "title": "Bounded string comparison equals comparison of the first n bytes", "statement": "Comparing two strings up to n bytes reports exactly the order of their first n bytes, reading nothing past a terminator.", "quantifier": "all strings and all n", "why_tests_cant": "All strings.", "anchors": ["str.c: str_diffn"]}
{"id": "C67", "title": "Certificate lookup never leaves the configured directories", "statement": "Every file the network process asks the key process for is one of the configured certificate files (sanitised) or lies directly in a configured certificate directory and is named like the server name in the client hello, which then is a valid host name; it contains no slash and no leading dot (the root name '.' is looked up as ':'). At most one file is asked for per configured source, the name always fits its buffer, and the key process opens exactly the file asked for.", "quantifier": "every client hello, every list of certificate sources, every behaviour of the key process and the allocator", "why_tests_cant": "The server name is chosen by the client; all byte strings are possible.", "anchors": ["tls_profile.c: tls_choose, copyfn", "fixpath.c", "parsename.c", "tls_keyjail.c"]}
{"id": "C68", "title": "A connection attempt gives up only for a reason, and in time", "statement": "A connection attempt never waits past its timeout; it succeeds exactly when, and as soon as, one candidate is reported connected; it fails only because every candidate failed, the timeout expired, or waiting itself failed; a timeout below one second or an empty candidate list is refused without using any socket.", "quantifier": "every candidate list, every result of each socket operation, every completion order and every clock reading", "why_tests_cant": "Completion orders, clock readings and failures are unbounded.", "anchors": ["conn.c: conn"]}
{"id": "C69", "title": "Waiting reports exactly the readiness asked about", "statement": "Waiting on descriptors asks the kernel about exactly the descriptors and directions given, for exactly the time given; each entry is reported exactly the events it asked for that are ready, the value returned is their number, and a timeout or error reports nothing; a descriptor too large for the sets is refused and nothing outside the sets is written.", "quantifier": "every list of descriptors and events, every timeout and every answer of the kernel", "why_tests_cant": "Descriptor lists and answers are unbounded.", "anchors": ["jail_poll.c: jail_poll"]}
{"id": "C70", "title": "The program runs under the account asked for, on exactly the client's bytes", "statement": "The program is started only after the connection endpoints and the account record have been read completely; its standard input then starts at exactly the first application byte; its endpoints are in its environment; with an account from the certificate or from the command line it runs with that account's ids and never as root, and it is not started at all when the account does not exist or its privileges cannot be dropped. A certificate field without a usable name must not leave it with more privileges.", "quantifier": "every stream written by the network process, every cut into reads, every account database, every failure of a call", "why_tests_cant": "Streams, read boundaries and account databases are unbounded; failures can strike any call.", "anchors": ["main_tlswrapper.c: main_tlswrapper (child branch), report_tls_handshake, report_tls_user", "jail.h: jail_droppriv"]}
{"id": "C71", "title": "Each process holds exactly the descriptors it needs", "statement": "If the program is started, it finds its input at 0, its output at 1, the two control pipes at 5 and 6 exactly with delayed encryption, all in blocking mode, and otherwise only what the wrapper was started with and is not close-on-exec. The key process reads requests at 0 and answers at 1 and can reach neither the connection nor the program's pipes. The network process holds only its own end of each pipe, so that end of file is seen when the other side goes, and leaves the mode of inherited descriptors alone while the processes are set up.", "quantifier": "every set of descriptors the wrapper is started with, open or closed, close-on-exec or not, and every failure of a call", "why_tests_cant": "Inherited descriptor tables are unbounded and any of the pipes' numbers can collide with the fixed numbers 0, 1, 5 and 6.", "anchors": ["main_tlswrapper.c: main_tlswrapper", "open_pipe.c: open_pipe"]}
{"id": "C72", "title": "Nothing is taken from the client before the process is confined, nor without a deadline", "statement": "Unless started without a jail, each of the three programs has successfully confined itself before it takes any input from the client, and takes none if that failed; the program and the key process are started before that and only after the options have been accepted. Whenever one of them waits for the client, an alarm of at least one second is set.", "quantifier": "every combination of options and every pattern of failing steps", "why_tests_cant": "Any step may fail; the order must be right on every path.", "anchors": ["main_tlswrapper.c: main_tlswrapper", "main_tlswrapper_tcp.c: main_tlswrapper_tcp", "main_tlswrapper_smtp.c: main_tlswrapper_smtp"]}
{"id": "C73", "title": "A connection is ended for inactivity only", "statement": "In each of the three relays (TCP, before STARTTLS, encrypted) every arrival of bytes from either side grants the full inactivity timeout again, at once; writing, waiting or failing does not, so a connection on which nothing arrives is ended; the short time to finish is set only after a signal. The handshake is limited by the handshake timeout.", "quantifier": "all byte streams, all kernel answers, all TLS engines, all moments of a connection", "why_tests_cant": "needs all interleavings of reads, writes, signals and engine states", "anchors": ["main_tlswrapper.c:run_tls_phase", "main_tlswrapper.c:run_cleartext_phase", "main_tlswrapper.c:handle_selfpipe_event", "main_tlswrapper_tcp.c:main_tlswrapper_tcp"]}
{"id": "C74", "title": "What the network process takes from the key process is bounded", "statement": "Whatever bytes the key process sends, and however the calls end, the operations the network process asks for neither read nor write outside their buffers: a public point is at most 133 bytes, a signature fits the space for it, PRF output has exactly the requested length, and a decrypted or encrypted record is stored within the record buffer, at most 64 bytes from where the record was, not longer than the record (plus 85 bytes for encryption), with every other byte of the buffer unchanged.", "quantifier": "every byte stream from the key process, every schedule of the pipe calls, every record position and length, every buffer content", "why_tests_cant": "A test drives the two processes with honest answers; a compromised key process can answer with any offsets and lengths.", "anchors": ["tls_pipe.c: tls_pipe_getcert, tls_pipe_mulgen, tls_pipe_dosign, tls_pipe_prf, decrypt, encrypt", "pipe.c: pipe_readall, pipe_readmax, pipe_readalloc"]}
{"id": "C75", "title": "A bundle is parsed to exactly its certificates", "statement": "Parsing a PEM bundle succeeds exactly for a complete, well-formed bundle with 1 to 16 certificates, each of which decodes and has an RSA or EC key (memory permitting). The chain is then the contents of exactly the bundle's certificate objects, in order; the i-th trust anchor consists of the i-th certificate's own subject name, public key and CA flag; the chain's key type is that of its first certificate. Private keys and other objects have no influence, and nothing is written outside the 16 slots.", "quantifier": "every sequence of PEM objects, every division of their contents into pieces, every behaviour of the certificate decoder and of the allocator", "why_tests_cant": "Tests try a few bundles; the number, order and kinds of objects, the pieces in which the decoder delivers them and the allocation failures cannot be enumerated.", "anchors": ["tls_pubcrt.c: tls_pubcrt_parse, append, xmemdup", "tls.h: struct tls_pubcrt"]}
{"id": "C76", "title": "The private key is the bundle's only one", "statement": "A private key is obtained from a PEM bundle exactly if the bundle is complete and well-formed and contains exactly one private key object (EC, RSA or PKCS#8), which decodes without error; the key used is that one and the key type is its type. Certificates and other objects have no influence; two keys, an unfinished object or a malformed bundle yield none.", "quantifier": "every sequence of PEM objects, every division into pieces, every behaviour of the key decoder", "why_tests_cant": "The order and number of objects and the decoder's pieces are unbounded; a test sees a handful of files.", "anchors": ["tls_seccrt.c: tls_seccrt_parse"]}
{"id": "C77", "title": "Name and command line select program and settings", "statement": "The last component of the name the program is invoked by selects tlswrapper-tcp, tlswrapper-smtp or tlswrapper. tlswrapper-tcp starts exactly for options, host and port with a valid port, valid time limits (1 to 86400 s, the last given counts) and PROXY versions 0 or 1; tlswrapper-smtp exactly for options and a program with valid time limits and, if a greylist server is given, a host with a port. The settings used are those the options mean; every other command line ends the process with exit code 100 before anything is done.", "quantifier": "every path of invocation and every list of arguments", "why_tests_cant": "Options may be joined, separated, repeated and ended in unboundedly many ways; tests check a few.", "anchors": ["tlswrapper.c: main, basename", "main_tlswrapper_tcp.c: main_tlswrapper_tcp, pp_incoming, pp_outgoing, timeout_parse", "main_tlswrapper_smtp.c: main_tlswrapper_smtp, timeout_parse"]}
{"id": "C78", "title": "One file supplies both the chain and the signing key", "statement": "When a client's server name leads to a file made of complete PEM blocks (and any other lines), the network-facing process receives either exactly that file's certificates, all of them and in the file's order, together with the matching trust anchors and the key type of the first one, or nothing; it does receive them if they are one to sixteen, each usable, and memory suffices. The key process from then on signs with the file's private key if the file contains exactly one private-key block and it is valid, and refuses to sign otherwise; a signature the network process obtains is the one made with that key.", "quantifier": "every file of text lines and complete blocks, every certificate and key decoder within its contract, every server name, every request to sign", "why_tests_cant": "A test pairs one file with one handshake; the loss or mixing of a block depends on the interplay of the splitter, the pipe and two parsers for every arrangement of blocks.", "anchors": ["tls_pem.c:tls_pem_load", "tls_keyjail.c:tls_keyjail", "tls_keyjail.c:sign", "tls_pipe.c:tls_pipe_getcert", "tls_pubcrt.c:tls_pubcrt_parse", "tls_seccrt.c:tls_seccrt_parse"]}
{"id": "C79", "title": "Closing one direction ends exactly that direction", "statement": "Closing the read or the write side of a connection through its slot makes the slot inactive and frees the descriptor number, whatever the system calls answer; errno and every other descriptor, open file and connection are left alone, and an inactive slot is a no-op. Closing the write side of a connected socket gives the peer end-of-file even while other descriptors in this or another process refer to the socket, and as long as one does the other direction continues as before; symmetrically for the read side. For a pipe the other end notices exactly when no descriptor of that end is left. With separate descriptors for the two sides, closing both in either order ends both directions.", "quantifier": "every descriptor table, set of open files shared with other processes, state of the connections and answer of shutdown and close", "why_tests_cant": "Tests run one socket pair in one process; sharing of open files between processes and the order of closes are not enumerated, and a leaked half-open direction shows only as a hang.", "anchors": ["fd.c:fd_close_read", "fd.c:fd_close_write", "fd.c:tryshutdown", "fd.c:tryclose"]}
{"id": "C80", "title": "Descriptor helpers do one thing", "statement": "A read or write with a null buffer or a negative length is refused with EINVAL without touching the descriptor; any other is exactly one system call for the length asked but at most 1 MiB, whose result is passed on, with a descriptor that is not ready always reported as EAGAIN; so no more than the length asked is ever transferred. The four flag helpers change exactly the one flag they are named after: blocking mode of the open file, close-on-exec of the descriptor number; all other flags, files and descriptors keep their state.", "quantifier": "every length, every answer of the system call, every value of the flags, every descriptor table", "why_tests_cant": "Flag words have 2^32 values and lengths 2^64; tests try a handful, and a helper that clears a foreign flag goes unnoticed until that flag matters.", "anchors": ["fd.c:fd_read_", "fd.c:fd_read", "fd.c:fd_write_", "fd.c:fd_write", "fd.c:fd_blocking_enable", "fd.c:fd_blocking_disable", "fd.c:fd_coe_enable", "fd.c:fd_coe_disable"]}
{"id": "C81", "title": "The TLS engine is what the command line asks for", "statement": "A wrapper started with an acceptable command line sets its TLS engine to the protocol versions, cipher suites, curves and order of preference given by the options, never allows renegotiation, and leaves signing, key exchange, key derivation and the record protection of every enabled suite to the key process. If and only if an anchor file is given, clients are asked for a certificate: the engine's trust anchors are exactly those of that file's certificates, in order and at least one, or the wrapper ends before serving; then only a client whose chain is verified against them gets a session. Chain verification itself never goes through the key process's key-exchange functions and accepts only SHA-2 signatures.", "quantifier": "every command line, every anchor file of complete PEM blocks, every decoder and engine within its contract", "why_tests_cant": "Tests check single configurations; that no option order, suite choice or anchor file leaves the engine with a local secret operation or an unauthenticated client is a statement about all of them.", "anchors": ["tls_profile.c:tls_profile", "tls_ecdhe.c:tls_ecdhe_get_default", "tls_ecdsa.c:tls_ecdsa_vrfy_asn1", "main_tlswrapper.c:main_tlswrapper"]}
{"id": "C82", "title": "The network process learns nothing of the secrets but what it is meant to", "statement": "Whatever requests the network process sends to the key process, the bytes it gets back depend on the private keys, the ephemeral scalar, the shared and master secrets, the record keys, the in-memory encryption keys and uninitialised memory only through: which files load and their certificates, signatures, the ephemeral public key, whether the key agreement succeeds, the processing of records, and twelve PRF bytes per request. No PRF request makes the PRF take the input from which the master secret or the record keys are derived.", "quantifier": "all pairs of key processes with different secrets that agree on those values, all request streams, all splits of reads and writes; all client randoms and server randoms", "why_tests_cant": "non-interference relates two executions for every request stream of a compromised peer; tests compare single runs", "anchors": ["tls_keyjail.c:tls_keyjail", "tls_keyjail.c:sign", "tls_keyjail.c:prf", "tls_pem.c:tls_pem_load", "tls_crypto_scalarmult.c"]}
{"id": "C83", "title": "Buffers are filled with random bytes completely", "statement": "When the random generator returns, exactly the requested bytes were overwritten with consecutive bytes of the system's random stream, none skipped or left out, even if reads are short, interrupted, empty or fail; it returns as soon as enough reads succeeded; the source is opened once, before confinement.", "quantifier": "all buffers, lengths (also negative), outcomes of open and read", "why_tests_cant": "short and failing reads of the random device do not occur in tests; the property must hold for every schedule", "anchors": ["randombytes.c:randombytes", "randombytes.c:init"]}
{"id": "C84", "title": "Nothing of a session is left in memory", "statement": "When a process of a wrapper ends by itself, the TLS context, the payload buffers, the addresses, the heap and the arena hold nothing of the session any more: static objects hold fresh random bytes at stream positions that do not depend on what was in memory, the heap is zero; and the clean-up ends.", "quantifier": "all memory contents, all histories of the allocator, all outcomes of reads of the random source", "why_tests_cant": "tests do not look at the memory of a process that has exited; the claim is about all contents", "anchors": ["main_tlswrapper.c:cleanup", "main_tlswrapper_tcp.c:cleanup", "main_tlswrapper_smtp.c:cleanup", "alloc.c:alloc_freeall", "randombytes.c:randombytes"]}
{"id": "C85", "title": "A ready descriptor is served, and nobody can be held up for good", "statement": "Each relay (TCP forwarding, the cleartext phase, the encrypted phase) waits for exactly the descriptors it has work for, so it neither sleeps over work nor spins; whenever it is woken, one reported descriptor is read from or written to in that very round, and nothing happens only if the kernel says to try again. Bytes already taken in are written before more are read for the same destination. No amount of traffic on one side holds up the other direction, or a stop signal, without bound.", "quantifier": "all streams, all split points and kernel answers, every waiting state reached by any run, every poll result; for the violation all lengths of traffic", "why_tests_cant": "starvation and spinning show only for particular long interleavings of readiness on several descriptors", "anchors": ["main_tlswrapper_tcp.c: forwarding loop", "main_tlswrapper.c: run_cleartext_phase", "main_tlswrapper.c: run_tls_phase"]}
{"id": "C86", "title": "What is opened stays private, and a connection goes to the given address", "statement": "Every socket, pipe and file the programs open is marked close-on-exec and non-blocking before the caller sees it; an attempt that fails leaves all descriptors as they were. After any number of such calls, with any failures, a program started by execve inherits exactly the descriptors it would have inherited before. A connection attempt carries exactly the 16-byte address and the port it was given, and a socket is reported connected exactly when it is.", "quantifier": "all kernel states, all numbers the kernel may pick, every combination of failing calls, all sequences of calls, all addresses and ports", "why_tests_cant": "leaks appear only on failure paths and in combinations with later exec", "anchors": ["socket.c: socket_tcp", "socket.c: socket_connect", "socket.c: socket_connected", "open_pipe.c: open_pipe", "open_read.c: open_read", "fsyncfile.c: fsyncfile"]}
{"id": "C87", "title": "The log says why a TLS connection ended", "statement": "When a TLS connection ends, the log tells the cause: closed normally, a fault found here, an alert received or an alert sent, and which fault or alert. Different causes never produce the same log, alerts appear under their names in the RFCs, and numbers without a name are reported as unknown.", "quantifier": "all causes the TLS library can report, before and after the handshake is complete; all errno values", "why_tests_cant": "a table with a repeated or swapped entry passes every test that does not look at that entry", "anchors": ["tls_engine.c: tls_engine_close_reason", "tls_error.c: tls_error_str", "tls_error.c: tls_alert_str", "tls_keytype.c: tls_keytype_str", "e.c: e_str"]}
{"id": "C88", "title": "A session comes to an end with everything delivered", "statement": "As long as both sides keep cooperating (they accept what is written to them, what they send comes to an end, and nobody sends a signal), the TCP relay and the cleartext phase deliver both streams completely and then end by themselves, however often calls are interrupted, deferred or split; a STARTTLS request made by the child is answered after finitely many steps, with everything the child wrote before delivered to the network; the encrypted phase ends too, and a child that has closed its output still receives what the peer sends; after the child has exited the session is over within the second granted to finish.", "quantifier": "all streams, all buffer contents, all schedules of poll results, partial reads and writes, EINTR and EAGAIN, all histories before the request, every TLS engine whose own work is finite", "why_tests_cant": "a test runs one schedule to its end; that every schedule with enough progress ends, and that no wait is left without a descriptor that can wake it, is a liveness claim about unboundedly many interleavings", "anchors": ["main_tlswrapper.c: handle_selfpipe_event", "main_tlswrapper.c: main_tlswrapper", "main_tlswrapper_tcp.c: main_tlswrapper_tcp"]}
{"id": "C89", "title": "The parts of a session fit together", "statement": "From the client's connection to the program's standard input and back, nothing is lost, repeated or mixed up where one part of a session hands over to the next. The program starts with this connection's endpoints; its input is exactly the bytes delivered in clear followed by the decrypted ones. At the STARTTLS switch the TLS engine is given the client's bytes from exactly where the cleartext phase stopped reading, what was received and not delivered is dropped, and afterwards the client receives nothing but TLS records. Without delayed encryption the program is not started before the handshake is complete. Over the whole session each descriptor is closed exactly once and not used afterwards.", "quantifier": "all client and child streams, all TLS engines, all schedules of both phases and of both processes, all points at which the session stops", "why_tests_cant": "the parts are tested one by one; where one stops and the next goes on depends on how the kernel splits the streams, and the two processes run concurrently", "anchors": ["main_tlswrapper.c: main_tlswrapper", "main_tlswrapper.c: run_cleartext_phase", "main_tlswrapper.c: run_tls_phase", "main_tlswrapper.c: report_tls_user"]}
{"id": "C90", "title": "STARTTLS across the relay and the SMTP front end", "statement": "When tlswrapper with delayed encryption runs tlswrapper-smtp, in every history of the two processes: the session is switched to TLS only after the client gave STARTTLS and the front end answered 220 and asked for the switch; the front end is told so only if the relay has switched; everything the front end says after it was told is encrypted, everything before, the 220 included, is sent in clear; and every command obeyed after that was encrypted by the client, none of them being lost.", "quantifier": "all inputs of the client and of the SMTP server behind the front end, all behaviours of the kernel and the TLS engine, and all interleavings of the two processes", "why_tests_cant": "whether a command that arrived in clear is obeyed after STARTTLS depends on the interleaving of two processes around four pipes; tests see a few schedules", "anchors": ["main_tlswrapper.c: main_tlswrapper, run_cleartext_phase", "main_tlswrapper_smtp.c: smtp_starttls, smtp_discard_starttls_cleartext"]}
{"id": "C91", "title": "A connection whose keys are in another process is like one with the keys at hand", "statement": "Whatever certificates a connection asks for, whatever digest it has signed, whatever point the peer sends and whatever the TLS engine then asks (verify data, records to open and seal, in any order and depending on earlier answers), the network process obtains exactly what it would obtain if it held the files and keys itself. The key process uses files and secrets for exactly these questions, in the same order, and the same secret number makes its public point and the shared secret.", "quantifier": "all sequences of names, present or missing files, curves, digests, peer points, session parameters, adaptive sequences of later questions of any length, and all ways reads and writes on the two pipes are split or delayed", "why_tests_cant": "A test exercises one handshake over one schedule; the two processes could fall out of step after any question, answer size or split of a read.", "anchors": ["tls_pipe.c:tls_pipe_getcert", "tls_pipe.c:tls_pipe_mul", "tls_pipe.c:tls_pipe_prf", "tls_keyjail.c:tls_keyjail"]}
{"id": "C92", "title": "Setting the system clock does not change how long a connection attempt lasts", "statement": "An attempt to connect ends after its timeout at the latest, and while a candidate may still answer it is not given up earlier, in real time: also if the system's clock is set while it runs.", "quantifier": "all clocks, candidate lists, kernel answers, interruptions by signals and timeouts the options allow", "why_tests_cant": "Needs the clock to be set at a particular moment of an attempt, and a bound over all moments and amounts.", "anchors": ["conn.c:conn", "milliseconds.c:milliseconds", "jail_poll.c:jail_poll"]}
{"id": "C93", "title": "Either process may go away at any point and the other fails closed", "statement": "If the key process ends or is killed at any point of a connection, even in the middle of an answer, then the questions answered so far were answered correctly and every later one is reported to the TLS engine as failed: no certificate, no point, no signature, no record, and random bytes in place of verify data; no partial answer is ever used. If the network process goes away, the key process ends at its next wait without using its files or secrets again.", "quantifier": "every connection (names, digest, peer's point, adaptive sequence of questions), every prefix of the answers, every division into reads and writes, every point from which reads or writes fail for good; for success, every content of the pipe", "why_tests_cant": "A crash can happen after any byte of any message, and tests kill a process at a few points at most.", "anchors": ["tls_pipe.c:tls_pipe_getcert", "tls_pipe.c:tls_pipe_mulgen", "tls_pipe.c:tls_pipe_dosign", "tls_pipe.c:tls_pipe_prf", "tls_pipe.c:decrypt", "tls_pipe.c:encrypt", "pipe.c:pipe_readall", "pipe.c:pipe_readmax", "pipe.c:pipe_readalloc", "readall.c:readall", "tls_keyjail.c:tls_keyjail"]}
{"id": "C94", "title": "The mail program gets its own pipes and nothing of the connection", "statement": "The mail program that tlswrapper-smtp starts reads the commands at descriptor 0 and writes its answers to descriptor 1, both in blocking mode. It holds no end of the pipes to the wrapper, none of the STARTTLS control pipes and not the connection; besides its own pipes it has only what the operator left open. The front end holds the other two ends only, so each side sees the end when the other goes away, and it offers STARTTLS exactly if it was started with both control descriptors.", "quantifier": "every set of descriptors the wrapper or the front end is started with, every failing call", "why_tests_cant": "Depends on which numbers happen to be free; tests start the programs with one fixed set of descriptors.", "anchors": ["main_tlswrapper_smtp.c:main_tlswrapper_smtp", "open_pipe.c:open_pipe", "fd.c:fd_blocking_enable", "main_tlswrapper.c:main_tlswrapper"]}
{"id": "C95", "title": "A signal reaches the relay exactly once and disturbs nothing", "statement": "SIGTERM, SIGALRM and the end of the wrapped program may arrive at any moment, also inside one another's handlers and inside interrupted system calls. The code they interrupt never sees errno changed. Every signal that is handled while the relay can be told is told to it exactly once, in order: SIGTERM always ends the loop, the end of the wrapped program closes its input and lets its output drain, a timeout first closes the wrapped program's descriptors and then ends the loop. No SIGTERM is lost from the start of the process to its end.", "quantifier": "All histories of signals sent, merged, delivered and nested, all interruptions of the handlers' writes, all positions relative to the program's own steps.", "why_tests_cant": "The outcome depends on the instruction at which a signal arrives and on the nesting of handlers; a test can neither choose nor enumerate these.", "anchors": ["main_tlswrapper.c:signalhandler", "main_tlswrapper.c:handle_selfpipe_event", "main_tlswrapper.c:main_tlswrapper", "main_tlswrapper_tcp.c:signalhandler", "main_tlswrapper_tcp.c:main_tlswrapper_tcp"]}
{"id": "C96", "title": "Logging changes nothing the program does", "statement": "Whatever the verbosity, the whitelist, the clock and the state of standard error: a log call leaves errno as it was, so that a logged read or write gives its caller exactly the result and errno of the plain call; it writes to standard error only, only bytes of its record in order, with a bounded number of attempts; and it always returns.", "quantifier": "All log calls, settings and errno values; all outcomes of all writes to standard error; all results of the read or write being logged.", "why_tests_cant": "A log call that disturbed errno would matter only for one failing call at one verbosity with one state of standard error; tests run with standard error in good order.", "anchors": ["log.c:log_9_", "log.c:flush", "log.h:log_t", "fd.c:fd_read", "fd.c:fd_read_", "fd.c:fd_write", "fd.c:fd_write_"]}
{"id": "C97", "title": "A resolver process taken over can only choose addresses", "statement": "The programs that resolve names do so in a jailed process of their own. Whatever that process answers, the program that asked writes and reads its address buffer only inside its bounds; it prints and connects to nothing but addresses it was sent, in the order sent, at most eight of them (the greylist client: one); without a usable address it ends or goes on without a connection as if the name did not resolve.", "quantifier": "All datagrams, or none; both programs, all verbosities, all outcomes of the connection attempts.", "why_tests_cant": "The interesting answers are those the real resolver process never gives; no test takes it over.", "anchors": ["resolvehost.c:resolvehost_do", "main_tlswrapper_tcp.c:main_tlswrapper_tcp", "main_tlswrapper_smtp.c:main_tlswrapper_smtp", "conn.c:conn"]}
{"id": "C98", "title": "The resolver process gives each lookup its own answer and ends with its user", "statement": "A program that looks names up through the resolver process gets, for each lookup, the answer to that lookup and not to another one, in whatever order the two processes run. Closing the resolver returns only when the process has exited, and the datagram it sends is what ends it. If the program goes without closing, or is killed, the resolver process sends at most one more answer and then exits by itself; it is not left behind.", "quantifier": "all interleavings of the steps of the two processes, all numbers of lookups, all points at which a lookup fails or the program ends, all answers of the system's resolver", "why_tests_cant": "Which answer a lookup gets depends on the order of two processes and on where a signal or a crash falls; a test runs the two in one order and does not kill either of them between two given instructions.", "anchors": ["resolvehost.c:resolvehost_init", "resolvehost.c:resolvehost_do", "resolvehost.c:resolvehost_close"]}
{"id": "C99", "title": "The mail log tells what happened", "statement": "In every SMTP session, wherever it ends, the log at the normal verbosity contains exactly these records about mail, each directly after the reply it is about was given to the client: a warning with sender and reply for every refused MAIL command, a warning with sender, recipient and reply for every refused RCPT command (by the mail program or the greylist server), a warning with sender, recipients and reply for a refused DATA command or message, and an information with sender, recipients and reply for every accepted message. Sender and recipients in the information are those the mail program accepted.", "quantifier": "all clients, mail programs, greylist servers and failures of reads and writes, and all points at which a session ends", "why_tests_cant": "the log is evidence about arbitrary histories of commands and replies; tests see a few", "anchors": ["main_tlswrapper_smtp.c:copy", "main_tlswrapper_smtp.c:smtp_data", "main_tlswrapper_smtp.c:smtp_mail", "main_tlswrapper_smtp.c:smtp_rcpt", "main_tlswrapper_smtp.c:smtp_starttls", "main_tlswrapper_smtp.c:smtp_reset_transaction"]}
{"id": "C100", "title": "A TCP connection is passed on to the right place, whole and announced", "statement": "tlswrapper-tcp as a whole, from its arguments to its exit: it never leaves its buffers. On a bad command line it does nothing. Before it reads a byte of the client or opens a connection it is in the jail its options name. It connects only to addresses the resolver gave for the host of the command line, on its port, each at most once per answer and all of them before it gives up. With -p 1 nothing is connected or forwarded before a valid PROXY header has been read and taken off the stream. At every moment the server has been sent an initial part of the header about this client (with -P 1) and what the client sent after its own header; the client has been sent an initial part of what the server sent. With a kernel that answers, everything is delivered and the exit code is 0. Two such programs in a row pass on the client's endpoints and bytes unchanged.", "quantifier": "All arguments; all answers of the resolver and the network; all clients, servers and ways of cutting the streams; all environments.", "why_tests_cant": "Composes command line, resolver, connection attempts, header and relay; a test fixes all but one of them.", "anchors": ["main_tlswrapper_tcp.c:main_tlswrapper_tcp", "resolvehost.c:resolvehost_do", "conn.c:conn", "proxyprotocol.c:proxyprotocol_v1_get", "proxyprotocol.c:proxyprotocol_v1", "connectioninfo.c:connectioninfo_get", "jail.c:jail"]}
{"id": "C101", "title": "The exit code of tlswrapper-tcp tells whether the transfer took place", "statement": "With an exit code other than 0 (100 or 111) nothing has been relayed. With exit code 0 both sides have ended their streams and everything that was read has been delivered.", "quantifier": "All runs of tlswrapper-tcp.", "why_tests_cant": "The interesting runs are those cut at some point by a failed write or a signal.", "anchors": ["main_tlswrapper_tcp.c:main_tlswrapper_tcp", "main_tlswrapper_tcp.c:die"]}
{"id": "C102", "title": "A recipient is decided by the greylist server's answer to its own question", "statement": "If the SMTP front end asks the greylist server about several recipients, one after the other, each of them is let through or refused by what the server answered to the question about that recipient, whenever its answers arrive and however they are cut into reads: a recipient for which the server answered anything but dunno is not given to the mail program.", "quantifier": "All sessions, all answers, all ways in which they are delayed and cut into pieces.", "why_tests_cant": "Depends on how the network cuts the server's answers into reads and on their delays, over several questions; a test server on the same host answers at once and in one piece.", "anchors": ["main_tlswrapper_smtp.c:greylist", "main_tlswrapper_smtp.c:_gread", "main_tlswrapper_smtp.c:smtp_rcpt"]}
{"id": "C103", "title": "The SMTP front end holds nothing back while it waits", "statement": "Whenever tlswrapper-smtp waits for a command of the client, an answer of the mail program or the greylist server, or the acknowledgement of STARTTLS, every byte it has for the mail program and the client has been written to them, whatever the sizes of its buffers; so neither side waits for bytes the front end holds. Within a message only lines of that message may be held back. What each side has been sent is at every moment a beginning of what was for it, also when a write fails, and after QUIT all of it has been sent before the front end waits for the program to end.", "quantifier": "every session, every moment of it, every size of the buffers, every way the descriptors take the bytes", "why_tests_cant": "A forgotten flush shows only if the bytes happen not to fill the buffer and the other side waits for them; needs all sequences of commands, answers and partial writes.", "anchors": ["main_tlswrapper_smtp.c:copy", "main_tlswrapper_smtp.c:smtp_data", "main_tlswrapper_smtp.c:smtp_starttls", "buffer.c:buffer_put", "buffer.c:buffer_putsflush"]}
{"id": "C104", "title": "tlswrapper-smtp as a whole: confined, one greylist server, the mail program's exit code", "statement": "Run with any arguments in any surroundings, tlswrapper-smtp stays within its memory. A bad command line ends with code 100 before anything is done. Otherwise it starts exactly the program of the command line, confines itself with the account and directory of -j and -J before it talks to the client, to the program or to the greylist server, tries at most one connection, to an address the resolver gave for the host of -g and to its port, asks it only about the client named by the environment or the socket, and with -c has no session without it. It ends with 111 unless a QUIT was answered and the answer passed on; then it ends with the code of the mail program, 111 if that was killed.", "quantifier": "all argument vectors, resolver answers, kernel answers to sockets, connections and waits, environments, clients, mail programs and greylist servers", "why_tests_cant": "The order of start, jail, lookup, connection and session and the exit code depend on every combination of failures of the surroundings; tests see one of them.", "anchors": ["main_tlswrapper_smtp.c:main_tlswrapper_smtp", "main_tlswrapper_smtp.c:die", "resolvehost.c:resolvehost_do", "conn.c:conn"]}
{"id": "C105", "title": "In fail-open mode an unusable greylist server does not stop the mail", "statement": "Without -c, whatever is wrong with the greylist server named by -g, clients are served as if it had not been named.", "quantifier": "all resolver answers, all kernel answers to the connection attempt, all sessions", "why_tests_cant": "Needs every way in which the lookup and the connection can fail, which a test of a working set-up never meets.", "anchors": ["main_tlswrapper_smtp.c:main_tlswrapper_smtp"]}
{"id": "C106", "title": "tlswrapper as a whole: confined before it touches the client", "statement": "Run with any arguments in any surroundings, tlswrapper stays within its memory. A bad command line ends with code 100 before anything is done. Otherwise it starts the process of the program and the key process with the certificates of the command line, confines itself with the account and directory of -j and -J, and asks the key process for the anchors of -a, in this order and once each, before it takes a byte of the client or tells the program anything; if one of these fails it ends with 111 without having touched the client. With -p 1 the client's bytes up to the first line end are the PROXY header and belong to nobody else; without a valid header it ends with 100 and the program is told nothing.", "quantifier": "all argument vectors, all failures of pipe, fork, jail and the key process, all environments, clients, programs and TLS engines", "why_tests_cant": "The order of start, jail, anchors, header and relay depends on every combination of failures of the surroundings; tests see one of them.", "anchors": ["main_tlswrapper.c:main_tlswrapper", "proxyprotocol.c:proxyprotocol_v1_get", "jail.c:jail"]}
{"id": "C107", "title": "tlswrapper as a whole: the two streams, the program's account and the exit code", "statement": "In every run of tlswrapper the TLS engine is given exactly the client's own bytes from the first on, the program gets nothing but what the engine decrypted and the client nothing but the engine's records; with -n the same holds after the program has asked for TLS and has been acknowledged, and before that both get a first part of what the other sent. If the program is started, its four environment variables are the client's endpoints, its input is exactly what was decrypted, the handshake is complete, and it runs under the account of -u, or else, with -U, the one of the certificate. A run that ends after the program ended in time ends with the program's code, unless the account could not be told, in which case the program never got it.", "quantifier": "all argument vectors, clients, programs, key processes, TLS engines, kernel answers and moments of a run", "why_tests_cant": "Needs the composition of options, header, endpoints, relay, the process of the program and the end, for every interleaving and failure.", "anchors": ["main_tlswrapper.c:main_tlswrapper", "main_tlswrapper.c: run_tls_phase", "main_tlswrapper.c: run_cleartext_phase"]}
{"id": "C108", "title": "The client stays the same one along a row of the programs", "statement": "If tlswrapper-tcp with -P 1 connects to tlswrapper with -p 1, whom tlswrapper takes for its client is the client of tlswrapper-tcp and the bytes it takes for the client's are that client's, with none of tlswrapper-tcp's own. If tlswrapper runs tlswrapper-tcp as its program, the header sent to the server names tlswrapper's client and after it comes nothing but what was decrypted for it; if it runs tlswrapper-smtp, the greylist server is asked about tlswrapper's client and nobody else. The same holds of all three in a row.", "quantifier": "all runs of the programs, all clients, servers, TLS engines, options that connect the programs this way, and moments of a run", "why_tests_cant": "Needs the composition of the header written by one program, read by another, exported through the environment and read back by a third, for all addresses and all schedules.", "anchors": ["main_tlswrapper_tcp.c:main_tlswrapper_tcp", "main_tlswrapper.c:main_tlswrapper", "main_tlswrapper_smtp.c:main_tlswrapper_smtp", "connectioninfo.c:connectioninfo_set", "proxyprotocol.c:proxyprotocol_v1"]}
{"id": "C109", "title": "With -P no byte goes to the server for a client that cannot be named", "statement": "With -P 1 tlswrapper-tcp sends the server nothing unless it knows endpoints of the client, and then the header naming them comes first. A client that cannot be named (announced as PROXY UNKNOWN, say) is turned away with code 100 and nothing is sent for it. Code 100 on a good command line means this, a lack of memory for the header, or that the client's own header was refused, in which case no connection was opened.", "quantifier": "all good command lines, clients, resolvers, networks, servers and moments of a run", "why_tests_cant": "Depends on the combination of incoming header, environment, socket and memory with the start of the relay.", "anchors": ["main_tlswrapper_tcp.c:main_tlswrapper_tcp", "proxyprotocol.c:proxyprotocol_v1", "proxyprotocol.c:proxyprotocol_v1_get"]}
{"id": "C110", "title": "The log names each candidate that could not be reached", "statement": "In every attempt to connect to one of several addresses the log warns of candidates by their own address, none of them twice. If the attempt succeeds, exactly as many are warned of as were refused, the connected one is not among them, and the address reported as connected is the one handed to the caller. If it fails, each of the (at most eight) candidates has been warned of once, unless the system refused to wait at all.", "quantifier": "all candidate lists, all kernel answers, all orders in which the candidates answer, all clocks", "why_tests_cant": "The address is looked up from a descriptor in tables that change while the answers arrive; the orders of answers cannot be enumerated.", "anchors": ["conn.c:conn", "conn.c:conn_getip", "conn.c:conn_closefd"]}
{"id": "C111", "title": "How the options are written and ordered does not matter", "statement": "For each of the three programs: two command lines with the same command, host or port whose options say the same about each thing (verbosity, preference, delayed encryption, fate of mail without greylist server, certificates, and each other option by itself) are the same to the program, whether options are written together or apart, with the argument attached or separate, and in whatever order options about different things come: it starts with the same settings or ends with the same code.", "quantifier": "all command lines", "why_tests_cant": "All command lines and all their rearrangements.", "anchors": ["main_tlswrapper.c:main_tlswrapper", "main_tlswrapper_tcp.c:main_tlswrapper_tcp", "main_tlswrapper_smtp.c:main_tlswrapper_smtp"]}
{"id": "C112", "title": "The log says truthfully how an encrypted session ended", "statement": "When an encrypted session ends, one line says why. A failed write to the child or to the network is named as such, exactly then. 'handshake failed' and 'finished' with a reason of the TLS engine are written only when the engine is closed. 'close_notify sent' is written only when the engine was told to close the connection and everything it had to send after that was sent, with the child gone in both directions.", "quantifier": "All TLS engines, traffic, timings, failures of reads and writes, signals.", "why_tests_cant": "The line is derived from the absence of anything left to do; a test sees the ending it sets up, not the other endings that reach the same line.", "anchors": ["main_tlswrapper.c:run_tls_phase", "tls_engine.c:tls_engine_close_reason"]}
{"id": "C113", "title": "How an SMTP client's bytes are cut into packets does not matter", "statement": "Two SMTP clients that send the same bytes before they end, in whatever pieces and with whatever pauses, one ending cleanly and the other by a broken connection or not, get the same session from the front end: the same lines are taken, the same bytes go to the mail server, the policy server and the client in the same order, and it ends with the same code. The one exception is the upgrade to TLS: until the front end asks for TLS all is the same, and from there on too unless different amounts of what was sent before the upgrade are thrown away.", "quantifier": "All client bytes and all ways to cut them, all replies of the mail server and the policy server, all failures of writes.", "why_tests_cant": "A byte stream of n bytes can be cut in 2^n ways; tests use a few.", "anchors": ["main_tlswrapper_smtp.c:readline", "main_tlswrapper_smtp.c:smtp_data", "main_tlswrapper_smtp.c:smtp_discard_starttls_cleartext", "main_tlswrapper_smtp.c:smtp_starttls"]}
{"id": "C114", "title": "The wrapped program starts without the wrapper's own settings", "statement": "The program a wrapper runs has no timer left over from it, ignores no signal because of it (one is ignored only if the wrapper was itself started with it ignored, and SIGPIPE, SIGCHLD and SIGTERM, or SIGPIPE and SIGALRM, never are), and has the limits on memory, files, processes and core dumps, the directories and the dump setting the wrapper was started with, whether or not it is put under another account. The same holds of a mail program behind both wrappers.", "quantifier": "All dispositions, timers and limits at the start, all accounts, all failures of calls.", "why_tests_cant": "What a program inherits shows up only when it depends on it, for instance when a pipe breaks or memory runs short.", "anchors": ["main_tlswrapper.c:main_tlswrapper", "main_tlswrapper_smtp.c:main_tlswrapper_smtp", "jail.c:jail", "jail.h:jail_droppriv"]}
{"id": "C115", "title": "The line about a TLS connection tells what was negotiated", "statement": "When a handshake is done and information is logged, exactly one line about it is written. It names the protocol version, the cipher suite and key type, the group of the key exchange and the server name the client asked for. Two connections with the same line have the same version, suite and group, whatever bytes the clients sent as server names; and server names without backslash can be read back from it.", "quantifier": "All versions, suites and groups the options allow, all server names, all log settings.", "why_tests_cant": "A client chooses the server name freely, so forging is a question about all byte strings.", "anchors": ["main_tlswrapper.c:report_tls_handshake", "tls_version.c:tls_version_str", "tls_cipher.c:tls_cipher_str", "tls_ecdhe.c:tls_ecdhe_str", "log.c:log_9_"]}
{"id": "C116", "title": "A refused command line is explained", "statement": "tlswrapper refuses every command line it does not serve with exit status 100, and what it writes then is the reason: the usage when the words cannot be read as options (and those before were acceptable) or nothing to serve with or to run is given, otherwise lines about the first option that is not acceptable after those before it, about options that contradict each other, or about a time limit. The line about an option not acceptable by itself shows its value; a path that cannot be examined comes with the system's reason, and an unknown name with the list of the names that are accepted. Nothing at all is said only after -q.", "quantifier": "All command lines, all file systems, all errors of the system.", "why_tests_cant": "The first mistake decides what is said, at the verbosity asked for up to there; tests can only sample command lines.", "anchors": ["main_tlswrapper.c:main_tlswrapper", "main_tlswrapper.c:usage", "main_tlswrapper.c:pp_incoming", "main_tlswrapper.c:certuser_add", "main_tlswrapper.c:version_setmax", "main_tlswrapper.c:version_setmin", "main_tlswrapper.c:certfile_add_dir", "main_tlswrapper.c:certfile_add_file", "main_tlswrapper.c:anchor_add", "main_tlswrapper.c:ecdhe_add", "main_tlswrapper.c:cipher_add", "main_tlswrapper.c:timeout_parse"]}
{"id": "C117", "title": "A refused command line of tlswrapper-tcp or tlswrapper-smtp is explained", "statement": "tlswrapper-tcp and tlswrapper-smtp refuse every command line they do not serve with exit status 100, and what they write then is the reason: the usage when the words cannot be read as options or the host or the program is missing, otherwise a line with the value that is wrong: a protocol version (with the version available), a port, a time limit, or the greylist server. Nothing at all is said only after -q.", "quantifier": "All command lines.", "why_tests_cant": "The first mistake decides what is said, at the verbosity asked for up to there; tests can only sample command lines.", "anchors": ["main_tlswrapper_tcp.c:main_tlswrapper_tcp", "main_tlswrapper_tcp.c:usage", "main_tlswrapper_tcp.c:pp_incoming", "main_tlswrapper_tcp.c:pp_outgoing", "main_tlswrapper_tcp.c:timeout_parse", "main_tlswrapper_smtp.c:main_tlswrapper_smtp", "main_tlswrapper_smtp.c:usage", "main_tlswrapper_smtp.c:timeout_parse"]}
{"id": "C118", "title": "Messages cannot be smuggled through the SMTP front end", "statement": "The mail program behind tlswrapper-smtp finds the end of a message (CR LF . CR LF) only where the client's own bytes have it. So text inside a message never becomes a second message or a command for the mail program, also when the session is cut off at any moment.", "quantifier": "All client byte streams, all ways they are cut into reads, all replies of the mail program, all failures.", "why_tests_cant": "Smuggling depends on rare byte sequences at line ends; tests can only sample them.", "anchors": ["main_tlswrapper_smtp.c:readline", "main_tlswrapper_smtp.c:smtp_data"]}
{"id": "C119", "title": "The greylist server is asked one question, about this client", "statement": "Each time the SMTP front end asks the greylist server, what it sends is one request of the policy protocol with exactly four attributes: the kind of request, the address of the client that is connected, the sender of the client's last MAIL and the recipient of its last RCPT since. The client cannot add attributes or requests of its own.", "quantifier": "All client byte streams, all ways they are cut into reads, all answers of the mail program and the greylist server.", "why_tests_cant": "Injection depends on bytes that no ordinary client sends; tests can only sample them.", "anchors": ["main_tlswrapper_smtp.c:greylist", "main_tlswrapper_smtp.c:readline", "main_tlswrapper_smtp.c:smtp_mail", "main_tlswrapper_smtp.c:smtp_rcpt"]}
{"id": "C120", "title": "A message is reported as accepted only if the mail program accepted all of it", "statement": "After a 354 reply the client is told nothing until the mail program has been given every line of the message in order and the line that ends it, and has replied. What the client is told is that reply (with the log id if there is one), with the same first digit: a message is never reported as accepted that the mail program did not accept, and no session that breaks off earlier reports one. If the client ends its lines with CR LF and sends no NUL, the mail program has then been given the message byte for byte.", "quantifier": "All client byte streams, all ways they are cut into reads, all replies of the mail program, all failures, at every message of a session.", "why_tests_cant": "Loss of mail shows only at particular moments of failure; tests can only sample them.", "anchors": ["main_tlswrapper_smtp.c:smtp_data", "main_tlswrapper_smtp.c:smtpline", "main_tlswrapper_smtp.c:readline"]}
{"id": "C121", "title": "Client, front end and mail program stay in step", "statement": "Whenever the front end takes a reply from the mail program, exactly one line given to it awaits an answer, so the reply is the answer to that line; whenever it takes a line from the client, no answer is due, and the line is taken as message text exactly if the mail program is reading message text. The client is told exactly one thing for each command and for the end of each message, and nothing for a line of text. It is assumed that the mail program answers 354 to DATA only.", "quantifier": "All client byte streams, all ways they are cut into reads, all replies of the mail program, all settings, at every point of a session.", "why_tests_cant": "Losing step needs a particular stream of bytes and then affects every later command; tests only see the streams they send.", "anchors": ["main_tlswrapper_smtp.c:smtpline", "main_tlswrapper_smtp.c:smtp_data", "main_tlswrapper_smtp.c:readline"]}
