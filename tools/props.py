#!/usr/bin/env python3
# Regenerates properties.jsonl.  Edit the list, run from /verif.
import json
P=[]
def p(title, statement, quantifier, why, anchors):
    P.append(dict(id="C%02d"%(len(P)+1), title=title, statement=statement, quantifier=quantifier,
                  why_tests_cant=why, anchors=anchors))

p("Decimal option values are parsed exactly",
  "Parsing a number with a range [min,max] succeeds exactly when the text is an optional '+' or '-' followed by a decimal numeral without leading zeros whose mathematical value lies in the range, and the number delivered is that value; otherwise the call fails and delivers 0. No numeral, however long, wraps around into an accepted value.",
  "every byte string of every length and every signed 64-bit min and max",
  "The wrap-around cases are numerals of arbitrary length; a test can only try a few lengths.",
  ["parsenum.c: parsenum_, parsenum", "parsenum.h"])
p("Ports print and parse back",
  "Printing any 2-byte port and parsing the text gives the same port back; text is accepted as a port exactly when it is a canonical unsigned decimal in 0..65535; the printed text always fits the 6-byte buffer and is NUL terminated.",
  "all 65536 ports and every byte string offered as a port",
  "The acceptance half ranges over all byte strings.",
  ["parseport.c: parseport_, parseport", "porttostr.c: porttostr"])
p("Host names are validated and encoded to DNS wire format",
  "A host name is accepted exactly when it is the root name or a dot-separated sequence of labels of 1..63 letters, digits, '-' or '_' that neither start nor end with '-', with at most one trailing dot and at most 255 bytes on the wire; the output is the DNS wire encoding (length-prefixed labels, zero terminated) padded with zeros to 256 bytes.",
  "every byte string of every length",
  "Boundary lengths (63, 255) combine with label structure in infinitely many ways.",
  ["parsename.c: parsename_, parsename"])
p("Wire-encoded names decode to the labels that were typed",
  "Decoding the wire form of an accepted host name yields exactly the labels of the text, so two accepted names have the same wire form only when they have the same label sequence.",
  "every pair of accepted names",
  "Injectivity is a statement about all pairs of inputs.",
  ["parsename.c: parsename_"])
p("host:port strings are split unambiguously",
  "When a host:port string is accepted, the host and port delivered are substrings of the input that rebuild it (host, or host:port, or [host]:port), the host is non-empty, the port delivered is a valid decimal port, and a host containing ':' is only ever accepted when it is an IPv6 literal.",
  "every byte string offered as host:port",
  "Combinations of brackets and colons at every position cannot be enumerated.",
  ["parsehostport.c: parsehostport_split_, parsehostport"])
p("host:port output buffers are never overrun",
  "For every input the delivered host occupies at most 256 bytes and the port at most 6 bytes including terminating NULs, and on failure both outputs are empty strings.",
  "every byte string, including ones longer than any buffer",
  "Overflow needs long adversarial inputs at unknown offsets.",
  ["parsehostport.c: parsehostport", "parsehostport.h: parsehostport_HOSTBYTES, parsehostport_PORTBYTES"])
p("PROXY v1 header round-trips",
  "For every pair of endpoints of the same address family, the header text that one side emits is parsed by the other side to exactly the same source and destination address and port.",
  "all addresses and ports of either family, for any address text codec that itself round-trips",
  "2^288 endpoint combinations.",
  ["proxyprotocol.c: proxyprotocol_v1, proxyprotocol_v1_get", "main_tlswrapper_tcp.c", "main_tlswrapper.c"])
p("PROXY header reading never eats payload",
  "Reading the incoming PROXY v1 header consumes exactly the bytes up to and including the first LF (at most 127 bytes); every later byte stays unread in the connection for TLS, whatever the segmentation of the stream.",
  "every incoming byte stream and every read schedule",
  "TCP segmentation and header length combine without bound.",
  ["proxyprotocol.c: proxyprotocol_v1_get"])
p("PROXY header parsing is memory safe",
  "For every header content, including embedded NULs and missing fields, the parser never reads outside the received bytes and never writes outside its output fields.",
  "every byte string accepted by the header reader",
  "Memory safety must hold for all malformed inputs.",
  ["proxyprotocol.c: proxyprotocol_v1_get"])
p("Only well-formed PROXY headers are accepted",
  "A header is accepted only if it is 'PROXY UNKNOWN...' or 'PROXY TCP4|TCP6 src dst sport dport' with single spaces, addresses of the announced family and decimal ports, ended by CRLF; on rejection the delivered endpoints are not from a partially parsed header.",
  "every byte string presented as a header",
  "Grammar conformance over all malformed headers.",
  ["proxyprotocol.c: proxyprotocol_v1_get"])
p("Certificate path sanitising stops directory escape",
  "After sanitising, no path component after the first slash begins with a dot and no two slashes are adjacent, so a client-chosen server name appended to a certificate directory can never address '.', '..' or a hidden file; sanitising is idempotent, never lengthens the path, and leaves paths without dot components and double slashes unchanged.",
  "every path string of every length",
  "The attacker picks the server name freely.",
  ["fixpath.c: fixpath", "tls_keyjail.c: tls_keyjail", "tls_profile.c: copyfn"])
p("Certificate-derived account names are cut at '@'",
  "The account name taken from a client certificate is the longest prefix without '@'; it never contains '@' and names without '@' are unchanged.",
  "every NUL-terminated name",
  "All strings.",
  ["fixname.c: fixname"])
p("Exact-length reads are exact under every read schedule",
  "An exact-length read that succeeds returned exactly the next n bytes of the stream and left the rest unread; it fails only on end of stream or a hard error; interrupted and not-ready reads never lose, duplicate or reorder bytes.",
  "every stream, every length and every finite schedule of partial reads, interruptions, would-block results and errors",
  "Schedules are unbounded.",
  ["readall.c: readall"])
p("Exact-length writes are exact under every write schedule",
  "A full write that succeeds put exactly the given bytes on the descriptor, in order and once; if it fails, what was put is a prefix of them.",
  "every payload and every schedule of partial writes, interruptions, would-block results and errors",
  "Schedules are unbounded.",
  ["writeall.c: writeall"])
p("Timed reads and writes respect their deadline",
  "A timed read or write reports a timeout only if the clock has reached the deadline, performs no transfer attempt after having observed the deadline pass, transfers at most once, and never waits for longer than the time that remains.",
  "every timeout value, clock behaviour and sequence of readiness results",
  "Clock and readiness schedules are unbounded.",
  ["timeoutread.c: timeoutread", "timeoutwrite.c: timeoutwrite", "milliseconds.c"])
p("64-bit frame lengths round-trip",
  "Packing a 64-bit value into eight bytes and unpacking gives the same value, and unpacking then packing any eight bytes gives the same bytes (little-endian).",
  "all 2^64 values",
  "2^64 values cannot be enumerated.",
  ["pipe.c: uint64_pack, uint64_unpack"])
p("Framed pipe messages are delivered intact and in order",
  "Whatever sequence of messages one process writes to a pipe, the other process reads back the same sequence with the same boundaries, independent of how the kernel splits reads and writes.",
  "every sequence of messages (each up to the receiver's limit) and every split of the byte stream",
  "Message sequences and splits are unbounded.",
  ["pipe.c: pipe_write, pipe_readall, pipe_readmax, pipe_readalloc"])
p("Pipe readers enforce their limits",
  "A bounded pipe read never stores more than the caller's buffer, an exact-size pipe read succeeds only for a frame of that exact size, a reader never accepts a frame above its maximum, and an error frame makes the reader fail with the sender's errno without delivering data.",
  "every byte stream from the other side, including a hostile one",
  "The frame header is an arbitrary 64-bit number chosen by a possibly compromised process.",
  ["pipe.c: pipe_readall, pipe_readmax, pipe_readalloc, pipe_writeerrno"])
p("Buffered output is a faithful stream",
  "For every sequence of put, puts, putflush, putsflush, single-character put and flush operations in which no write error is reported, the bytes handed to the descriptor followed by the bytes still buffered are exactly the concatenation of everything put, and after a successful flush nothing is left buffered; at the first reported write error the bytes handed to the descriptor are a proper prefix of everything put; the buffer is never overrun.",
  "every operation sequence, every buffer size including 0, every partial-write schedule",
  "Operation sequences and write schedules are unbounded.",
  ["buffer.c: buffer_put, buffer_puts, buffer_flush, buffer_putflush, buffer_putsflush, allwrite", "buffer.h: buffer_PUTC"])
p("Buffered input is a faithful stream",
  "For every sequence of get, single-character get and feed/peek/seek operations, the bytes delivered followed by the bytes buffered and the bytes still unread are exactly the original stream; a get of more than 0 bytes returns 0 only at end of stream and less only on a read error.",
  "every operation sequence, every stream and every partial-read schedule",
  "Operation sequences and read schedules are unbounded.",
  ["buffer.c: buffer_get, buffer_feed, getthis, oneread", "buffer.h: buffer_GETC, buffer_PEEK, buffer_SEEK"])
p("Buffer-to-buffer copy copies everything",
  "Copying one buffered stream (with a nonempty buffer) to another returns 0 only after every remaining input byte was put to the output in order; -2 only on input failure and -3 only on output failure.",
  "every stream, read schedule and write schedule",
  "Unbounded streams.",
  ["buffer.c: buffer_copy"])
p("Allocator blocks never overlap and are zeroed",
  "Every block handed out by the allocator is large enough, zero-filled, aligned, disjoint from every other live block and from allocator metadata, whatever the history of allocations, frees and writes by users.",
  "every history of allocate, free, write and release-all operations",
  "Histories are unbounded.",
  ["alloc.c: alloc, alloc_free, alloc_freeall"])
p("Allocator accounting respects the memory limit",
  "The total of live heap-backed requests is exactly tracked and never exceeds the configured limit unless the limit was lowered afterwards; negative and over-large requests are refused without side effects and arithmetic never overflows.",
  "every history of allocator operations and limits",
  "Histories are unbounded.",
  ["alloc.c: alloc, alloc_limit, alloc_free"])
p("Freed secrets are wiped",
  "Freeing a block wipes its contents before the memory can be reused or returned, and the release-all operation wipes every block ever handed out that is still in memory.",
  "every history of allocator operations",
  "Histories are unbounded; the wiped memory is not observable in a test without undefined behaviour.",
  ["alloc.c: alloc_free, alloc_freeall, cleanup"])
p("Growable strings behave like byte lists",
  "Every sequence of copy, append, concatenate, terminate and number operations on growable strings has exactly the effect of the same operations on plain byte lists, independent of reallocation points; capacity is never exceeded. A failed append leaves the string unchanged (the sign of a negative number may remain) and a failed replacement leaves it empty; failure is reported only when memory is refused or an argument is unusable. A string is never appended to or copied onto itself.",
  "every operation sequence and every point where allocation may fail",
  "Histories and failure points are unbounded.",
  ["stralloc.c: stralloc_readyplus, stralloc_catb, stralloc_cats, stralloc_cat, stralloc_copyb, stralloc_copys, stralloc_copy, stralloc_append, stralloc_0, stralloc_free"])
p("Growable-string number formatting is exact",
  "Appending a signed or unsigned 64-bit number in decimal with optional zero padding appends its canonical decimal text of at least the requested width, including the most negative value; the numeric option parser reads unpadded text back to the same number.",
  "all 64-bit values and widths",
  "2^64 values.",
  ["stralloc.c: stralloc_catunum0, stralloc_catnum0, stralloc_catnum, stralloc_copynum", "parsenum.c: parsenum"])
p("C-string helpers meet their contracts",
  "Length, prefix test, first/last-occurrence search, full comparison and copy of NUL-terminated strings return what their documentation says, read no byte past the first NUL and write no byte past the copied terminator.",
  "all strings, of any length, including bytes above 127",
  "All strings.",
  ["str.c: str_len, str_start, str_chr, str_rchr, str_diff, str_copy"])
p("Case-insensitive helpers fold exactly A-Z",
  "Case-insensitive comparison reports equality exactly when the two byte strings become equal after mapping only A-Z to a-z; prefix tests and lowercasing use the same folding; no byte outside A-Z is changed; no read goes past the first NUL (or past the given length).",
  "all byte strings",
  "All strings of all lengths, including bytes above 127.",
  ["case.c: case_diffb, case_diffs, case_startb, case_starts, case_lowerb, case_lowers"])
p("PEM files are split without losing or duplicating data",
  "Splitting a PEM file sends every well-formed line to exactly one of the public part and the secret part, in file order, certificate blocks going to the public part; neither part overruns its buffer although the secret part is rewritten in place.",
  "every file content",
  "All file contents.",
  ["tls_pem.c: lineparser, pemparse, tls_pem_load"])
p("Private keys never enter the public PEM part",
  "No line of a private-key block of a PEM file ends up in the public part that is sent to the network process.",
  "every file content",
  "All file contents.",
  ["tls_pem.c: pemparse", "tls_keyjail.c: tls_keyjail"])
p("In-memory PEM encryption is reversible",
  "Decrypting the in-memory secret part with the same key and nonce restores exactly the loaded bytes, for every key, and the at-rest buffer never keeps plaintext beyond the encrypted length.",
  "every content, key and nonce, for any stream cipher that is an XOR with a keystream",
  "All contents and keys.",
  ["tls_pem.c: tls_pem_encrypt", "tls.h: tls_pem_decrypt"])
p("Random index selection is in range and nearly uniform",
  "A random number modulo n is always in [0,n) and is the 256-bit random integer modulo n, so any two residues have preimage counts differing by at most one; n<=1 gives 0.",
  "all n below 2^55 and all 2^256 random draws",
  "2^256 draws.",
  ["randommod.c: randommod"])
p("Address ordering only permutes",
  "Shuffling resolved addresses yields a permutation of the resolver's answers for every random draw; if any address is IPv6 then the first address is IPv6; every permutation that respects this is reachable.",
  "every list of addresses and every random draw",
  "All lists and all draws.",
  ["resolvehost.c: sortip, resolvehost"])
p("Resolver results are complete and in bounds",
  "The address buffer delivered contains only addresses that the resolver returned, never overruns the requested length, and fails when there are none.",
  "every resolver answer list and every buffer length",
  "All answer lists.",
  ["resolvehost.c: resolvehost, resolvehost_do"])
p("Log lines cannot be forged",
  "Every log record is written as exactly one line: attacker-controlled strings can contribute no LF, no control byte and no byte outside printable ASCII; escapes are unambiguous.",
  "all message parts",
  "All attacker-chosen strings.",
  ["log.c: outsescape, log_9_, flush"])
p("Log fields are formatted faithfully and in bounds",
  "Numbers in log records are printed exactly for all signed 64-bit values, hex dumps print every byte as two digits up to the limit then '...', long strings are truncated at 64 characters with '...', and no formatter overruns its static buffer.",
  "all numbers, strings and byte blocks",
  "2^64 values and all strings.",
  ["log.c: numtostr, log_num, log_str, tohex, log_hex, log_ipport"])
p("Log verbosity stays in range",
  "Any sequence of quieter/louder options leaves the verbosity between usage-only and tracing, and a record is emitted exactly when its level does not exceed the verbosity.",
  "all option sequences",
  "Unbounded sequences.",
  ["log.c: log_set_level, log_inc_level, log_dec_level, log_9_"])
p("TCP relay forwards both directions faithfully",
  "In every execution of the TCP relay, the bytes written to one side are a prefix of the bytes read from the other side (plus the leading PROXY header towards the child), with no loss, duplication or reordering, and bytes read but not yet written are exactly those in the bounded relay buffer.",
  "every schedule of readiness, partial I/O, EOF, errors and signals",
  "Interleavings are unbounded.",
  ["main_tlswrapper_tcp.c: main_tlswrapper_tcp relay loop"])
p("TCP relay propagates EOF only after delivery",
  "The relay closes a writing side because the opposite reading side ended only after every byte read was written; when it ends without a write error or signal, both directions were delivered completely.",
  "every schedule",
  "Interleavings are unbounded.",
  ["main_tlswrapper_tcp.c: main_tlswrapper_tcp relay loop"])
p("The PROXY header is the first thing the child receives",
  "When PROXY output is enabled the bytes delivered to the child start with the complete header, before any byte from the network.",
  "every schedule",
  "Interleavings are unbounded.",
  ["main_tlswrapper_tcp.c"])
p("Cleartext phase forwards faithfully",
  "Before STARTTLS, the bytes delivered to each side are a prefix of those received from the other side in order, buffers are bounded, and each EOF is propagated only after delivery.",
  "every schedule",
  "Interleavings are unbounded.",
  ["main_tlswrapper.c: run_cleartext_phase"])
p("No plaintext injection across STARTTLS",
  "Once the child requested TLS, no byte received from the network in cleartext is delivered to the child afterwards: pending cleartext is discarded before the acknowledgement is sent.",
  "every schedule, including attackers that pipeline data behind STARTTLS",
  "The injection window depends on scheduling.",
  ["main_tlswrapper.c: run_cleartext_phase"])
p("TLS starts only on an explicit request, after the cleartext reply was sent",
  "The session switches to TLS only if the child sent the one-byte zero signal with both network descriptors open; every byte of the child's output that was read before the switch has been written to the network before TLS begins and before the acknowledgement.",
  "every schedule",
  "Interleavings are unbounded.",
  ["main_tlswrapper.c: run_cleartext_phase"])
p("TLS phase: nothing before the account record",
  "In the encrypted phase, the framed account record is written to the child exactly once and before any application byte, provided the TLS engine announces send readiness no later than received data.",
  "every sequence of engine states and I/O events",
  "Engine and network schedules are unbounded.",
  ["main_tlswrapper.c: run_tls_phase, report_tls_handshake, report_tls_user"])
p("TLS phase: plaintext is moved intact",
  "In the encrypted phase, application bytes from the engine reach the child in order without loss or duplication, and child output reaches the engine likewise; record bytes are treated the same way; acknowledged counts never exceed what the engine offered.",
  "every sequence of engine states and I/O events",
  "Schedules are unbounded.",
  ["main_tlswrapper.c: run_tls_phase", "tls_engine.c"])
p("TLS phase ends when the session is over",
  "The encrypted relay loop ends only when the engine is closed, or no further progress is possible in either direction, or a write to the child or the network failed, or a terminating signal/timeout arrives, or the account cannot be reported; while it continues at least one descriptor is being waited for.",
  "every state",
  "All state combinations.",
  ["main_tlswrapper.c: run_tls_phase, handle_selfpipe_event"])
p("SMTP command lines reach the child one-to-one",
  "Each command line that the SMTP front end forwards is one line, CRLF-terminated, whose content is the client's line; a client line can never become two lines for the child.",
  "every client byte stream",
  "All byte streams.",
  ["main_tlswrapper_smtp.c: readline, copy, commands"])
p("SMTP verbs are recognised case-insensitively",
  "A client line is handled as QUIT, DATA, MAIL, RCPT, EHLO or STARTTLS exactly when its first word is that verb in any letter case; all other lines are passed through.",
  "every client line",
  "All lines.",
  ["main_tlswrapper_smtp.c: commands, smtpcommands"])
p("SMTP message bodies are forwarded up to the final dot",
  "After a 354 reply, the body lines are forwarded in order until and including the first line consisting of a single dot, after which command processing resumes; the front end never interprets a body line as a command nor a command as body.",
  "every client byte stream",
  "All byte streams.",
  ["main_tlswrapper_smtp.c: smtp_data, readline"])
p("SMTP limits hold",
  "Lines over 4096 bytes, senders or recipients over 2048 bytes, more than 256 recipients or 65536 bytes of recipient list end the session; no accumulator ever exceeds its limit.",
  "every session",
  "All sessions.",
  ["main_tlswrapper_smtp.c: smtp_line_append, smtp_mail, smtp_rcpt"])
p("Greylisted recipients are never passed on",
  "If a greylist server is configured and answers anything but 'dunno', the RCPT command is answered with 450 or 553 and not forwarded to the child; in fail-closed mode an unreachable or failing server never lets a recipient through.",
  "every session and every greylist response",
  "All responses and failure points.",
  ["main_tlswrapper_smtp.c: greylist, smtp_rcpt"])
p("SMTP STARTTLS resets the session",
  "After STARTTLS nothing the client sent in cleartext is interpreted as an SMTP command and sender and recipients recorded before are forgotten; the session continues only after the acknowledgement byte.",
  "every session",
  "Schedules and pipelined data are unbounded.",
  ["main_tlswrapper_smtp.c: smtp_starttls, smtp_discard_starttls_cleartext"])
p("SMTP replies are forwarded completely",
  "Each reply of the child, including multi-line ones, is relayed exactly (with the log id appended when configured, and with the STARTTLS line added to a 250 EHLO reply as a well-formed multi-line reply) and the numeric code used for decisions is the reply's code.",
  "every child reply",
  "All replies.",
  ["main_tlswrapper_smtp.c: smtpline, smtp_ehlo"])
p("The key process serves a fixed one-shot protocol",
  "Whatever the network process sends, the key process performs at most one signature and at most one key agreement per session, in that order, and only after it jailed itself; any deviation terminates it.",
  "every request byte stream from a possibly compromised network process",
  "Attacker-controlled streams are unbounded.",
  ["tls_keyjail.c: tls_keyjail"])
p("The key process never overruns its request buffers",
  "For every request stream, each stored field is within its declared buffer (file name, hash data, public key, seed, record data) and record offsets stay within the permitted slack.",
  "every request byte stream",
  "Attacker-controlled streams are unbounded.",
  ["tls_keyjail.c: tls_keyjail"])
p("Network and key process agree on the request encoding",
  "Each request the network process encodes is decoded by the key process to the same operation and arguments, and each reply is decoded to the same result.",
  "all requests and arguments within limits",
  "All argument values.",
  ["tls_pipe.c: tls_pipe_getcert, tls_pipe_mulgen, tls_pipe_dosign, tls_pipe_mul, tls_pipe_prf, decrypt, encrypt", "tls_keyjail.c: tls_keyjail"])
p("Cipher configuration keeps the user's order",
  "After any sequence of cipher options, exactly the known names were accepted and the enabled list is both variants (ECDSA, RSA) of each of them in order of first appearance (or the defaults when no option was given), without duplicates, never more than the 16 entries there is room for, and only suites the key process implements. A refused name contributes nothing (a refused first option still discards the defaults; the program ends on any refused option).",
  "all option sequences",
  "Unbounded sequences.",
  ["tls_cipher.c: tls_cipher_add, tls_ciphers, tls_cipher_str"])
p("The negotiated suite is permitted",
  "A cipher suite chosen for a connection was offered by the client, enabled by the configuration, matches the key type of the certificate chain presented, and is usable with the negotiated version; no such suite comes before it in the order of the configuration (if that is enforced) or of the client; the signature hash is the strongest the client accepts with that key type. The chain is that of the first certificate source that has one fit for some suite; a directory source without a matching file is passed over unless it is the last, any other failure to load refuses the handshake, and so does having no source left.",
  "all client hellos, configurations and certificates",
  "All combinations.",
  ["tls_profile.c: tls_choose"])
p("Configuration names are unambiguous",
  "Every version, curve and cipher name maps to exactly one code and every code has one name; unknown names are refused and then neither the versions nor the explicitly chosen curves change; printing a curve gives its name back, and versions and cipher suites have pairwise different descriptions, different also from those of unknown codes.",
  "all strings and codes",
  "All strings.",
  ["tls_version.c", "tls_ecdhe.c", "tls_cipher.c"])
p("Startup refuses unsafe option combinations",
  "A command line has at most one meaning as options and a program. The wrapper starts serving exactly when it has one with a program and at least one certificate source, where a certificate-derived user comes with an anchor and without delayed encryption, there are at most four certificate sources (each an existing directory or regular file, as announced) and one anchor, all names of versions, curves, ciphers and certificate fields are known, and timeouts are numerals for 1..86400; what it serves is then what the options say, the last one given deciding. Every other command line ends the program with status 100.",
  "all command lines",
  "All command lines.",
  ["main_tlswrapper.c: main_tlswrapper option parsing", "tls_certfile.c", "tls_anchor.c"])
p("Jail drops privileges irrevocably and in a safe order",
  "If jailing succeeds then the process has no root uid or gid, supplementary groups were reset before the uid was dropped, chroot happened before the uid was dropped, and limits forbid files, processes and core dumps; if any step fails jailing reports failure.",
  "every outcome of every system call, every account database answer and pid",
  "Failure combinations.",
  ["jail.c: jail", "jail.h: jail_droppriv"])
p("Connect returns exactly one live socket",
  "A successful connection attempt leaves exactly one new socket (and its duplicate descriptor) open, connected to one of the candidate addresses, which is reported; an unsuccessful one leaves none; every other descriptor opened on the way was closed.",
  "every candidate list, every result of each socket operation and every completion order",
  "Completion orders and failures are unbounded.",
  ["conn.c: conn_init, conn"])
p("Wrapper exit status mirrors the child",
  "When a session ends normally the wrapper exits with the child's exit status, and 111 if the child was killed by a signal; internal failures exit with a nonzero code.",
  "every wait status and every failure point",
  "All statuses.",
  ["main_tlswrapper.c: main_tlswrapper end", "main_tlswrapper_tcp.c: die", "main_tlswrapper_smtp.c: die"])
p("Elliptic-curve scalar and point handling is bounded",
  "For every curve name the generated scalar has the curve's length and clamping, the public point has the curve's length, and unknown curves or wrong-size points are refused before any secret is used.",
  "all curve ids and byte strings",
  "All inputs.",
  ["tls_crypto_scalarmult.c", "tls_keyjail.c"])
p("Connection information from the environment is all or nothing per source",
  "Connection endpoints are taken from the environment only when all four variables are present and valid; otherwise from the socket; the result is a valid address pair and ports, and failure is reported when neither is available.",
  "all environments and socket answers",
  "All strings.",
  ["connectioninfo.c"])
p("Bounded string comparison equals comparison of the first n bytes",
  "Comparing two strings up to n bytes reports exactly the order of their first n bytes, reading nothing past a terminator.",
  "all strings and all n",
  "All strings.",
  ["str.c: str_diffn"])
p("Certificate lookup never leaves the configured directories",
  "Every file the network process asks the key process for is one of the configured certificate files (sanitised) or lies directly in a configured certificate directory and is named like the server name in the client hello, which then is a valid host name; it contains no slash and no leading dot (the root name '.' is looked up as ':'). At most one file is asked for per configured source, the name always fits its buffer, and the key process opens exactly the file asked for.",
  "every client hello, every list of certificate sources, every behaviour of the key process and the allocator",
  "The server name is chosen by the client; all byte strings are possible.",
  ["tls_profile.c: tls_choose, copyfn", "fixpath.c", "parsename.c", "tls_keyjail.c"])
p("A connection attempt gives up only for a reason, and in time",
  "A connection attempt never waits past its timeout; it succeeds exactly when, and as soon as, one candidate is reported connected; it fails only because every candidate failed, the timeout expired, or waiting itself failed; a timeout below one second or an empty candidate list is refused without using any socket.",
  "every candidate list, every result of each socket operation, every completion order and every clock reading",
  "Completion orders, clock readings and failures are unbounded.",
  ["conn.c: conn"])
p("Waiting reports exactly the readiness asked about",
  "Waiting on descriptors asks the kernel about exactly the descriptors and directions given, for exactly the time given; each entry is reported exactly the events it asked for that are ready, the value returned is their number, and a timeout or error reports nothing; a descriptor too large for the sets is refused and nothing outside the sets is written.",
  "every list of descriptors and events, every timeout and every answer of the kernel",
  "Descriptor lists and answers are unbounded.",
  ["jail_poll.c: jail_poll"])
p("The program runs under the account asked for, on exactly the client's bytes",
  "The program is started only after the connection endpoints and the account record have been read completely; its standard input then starts at exactly the first application byte; its endpoints are in its environment; with an account from the certificate or from the command line it runs with that account's ids and never as root, and it is not started at all when the account does not exist or its privileges cannot be dropped. A certificate field without a usable name must not leave it with more privileges.",
  "every stream written by the network process, every cut into reads, every account database, every failure of a call",
  "Streams, read boundaries and account databases are unbounded; failures can strike any call.",
  ["main_tlswrapper.c: main_tlswrapper (child branch), report_tls_handshake, report_tls_user", "jail.h: jail_droppriv"])
p("Each process holds exactly the descriptors it needs",
  "If the program is started, it finds its input at 0, its output at 1, the two control pipes at 5 and 6 exactly with delayed encryption, all in blocking mode, and otherwise only what the wrapper was started with and is not close-on-exec. The key process reads requests at 0 and answers at 1 and can reach neither the connection nor the program's pipes. The network process holds only its own end of each pipe, so that end of file is seen when the other side goes, and leaves the mode of inherited descriptors alone while the processes are set up.",
  "every set of descriptors the wrapper is started with, open or closed, close-on-exec or not, and every failure of a call",
  "Inherited descriptor tables are unbounded and any of the pipes' numbers can collide with the fixed numbers 0, 1, 5 and 6.",
  ["main_tlswrapper.c: main_tlswrapper", "open_pipe.c: open_pipe"])
p("Nothing is taken from the client before the process is confined, nor without a deadline",
  "Unless started without a jail, each of the three programs has successfully confined itself before it takes any input from the client, and takes none if that failed; the program and the key process are started before that and only after the options have been accepted. Whenever one of them waits for the client, an alarm of at least one second is set.",
  "every combination of options and every pattern of failing steps",
  "Any step may fail; the order must be right on every path.",
  ["main_tlswrapper.c: main_tlswrapper", "main_tlswrapper_tcp.c: main_tlswrapper_tcp", "main_tlswrapper_smtp.c: main_tlswrapper_smtp"])
p("A connection is ended for inactivity only",
  "In each of the three relays (TCP, before STARTTLS, encrypted) every arrival of bytes from either side grants the full inactivity timeout again, at once; writing, waiting or failing does not, so a connection on which nothing arrives is ended; the short time to finish is set only after a signal. The handshake is limited by the handshake timeout.",
  "all byte streams, all kernel answers, all TLS engines, all moments of a connection",
  "needs all interleavings of reads, writes, signals and engine states",
  ["main_tlswrapper.c:run_tls_phase", "main_tlswrapper.c:run_cleartext_phase", "main_tlswrapper.c:handle_selfpipe_event", "main_tlswrapper_tcp.c:main_tlswrapper_tcp"])
p("What the network process takes from the key process is bounded",
  "Whatever bytes the key process sends, and however the calls end, the operations the network process asks for neither read nor write outside their buffers: a public point is at most 133 bytes, a signature fits the space for it, PRF output has exactly the requested length, and a decrypted or encrypted record is stored within the record buffer, at most 64 bytes from where the record was, not longer than the record (plus 85 bytes for encryption), with every other byte of the buffer unchanged.",
  "every byte stream from the key process, every schedule of the pipe calls, every record position and length, every buffer content",
  "A test drives the two processes with honest answers; a compromised key process can answer with any offsets and lengths.",
  ["tls_pipe.c: tls_pipe_getcert, tls_pipe_mulgen, tls_pipe_dosign, tls_pipe_prf, decrypt, encrypt", "pipe.c: pipe_readall, pipe_readmax, pipe_readalloc"])
p("A bundle is parsed to exactly its certificates",
  "Parsing a PEM bundle succeeds exactly for a complete, well-formed bundle with 1 to 16 certificates, each of which decodes and has an RSA or EC key (memory permitting). The chain is then the contents of exactly the bundle's certificate objects, in order; the i-th trust anchor consists of the i-th certificate's own subject name, public key and CA flag; the chain's key type is that of its first certificate. Private keys and other objects have no influence, and nothing is written outside the 16 slots.",
  "every sequence of PEM objects, every division of their contents into pieces, every behaviour of the certificate decoder and of the allocator",
  "Tests try a few bundles; the number, order and kinds of objects, the pieces in which the decoder delivers them and the allocation failures cannot be enumerated.",
  ["tls_pubcrt.c: tls_pubcrt_parse, append, xmemdup", "tls.h: struct tls_pubcrt"])
p("The private key is the bundle's only one",
  "A private key is obtained from a PEM bundle exactly if the bundle is complete and well-formed and contains exactly one private key object (EC, RSA or PKCS#8), which decodes without error; the key used is that one and the key type is its type. Certificates and other objects have no influence; two keys, an unfinished object or a malformed bundle yield none.",
  "every sequence of PEM objects, every division into pieces, every behaviour of the key decoder",
  "The order and number of objects and the decoder's pieces are unbounded; a test sees a handful of files.",
  ["tls_seccrt.c: tls_seccrt_parse"])
p("Name and command line select program and settings",
  "The last component of the name the program is invoked by selects tlswrapper-tcp, tlswrapper-smtp or tlswrapper. tlswrapper-tcp starts exactly for options, host and port with a valid port, valid time limits (1 to 86400 s, the last given counts) and PROXY versions 0 or 1; tlswrapper-smtp exactly for options and a program with valid time limits and, if a greylist server is given, a host with a port. The settings used are those the options mean; every other command line ends the process with exit code 100 before anything is done.",
  "every path of invocation and every list of arguments",
  "Options may be joined, separated, repeated and ended in unboundedly many ways; tests check a few.",
  ["tlswrapper.c: main, basename", "main_tlswrapper_tcp.c: main_tlswrapper_tcp, pp_incoming, pp_outgoing, timeout_parse", "main_tlswrapper_smtp.c: main_tlswrapper_smtp, timeout_parse"])
p("One file supplies both the chain and the signing key",
  "When a client's server name leads to a file made of complete PEM blocks (and any other lines), the network-facing process receives either exactly that file's certificates, all of them and in the file's order, together with the matching trust anchors and the key type of the first one, or nothing; it does receive them if they are one to sixteen, each usable, and memory suffices. The key process from then on signs with the file's private key if the file contains exactly one private-key block and it is valid, and refuses to sign otherwise; a signature the network process obtains is the one made with that key.",
  "every file of text lines and complete blocks, every certificate and key decoder within its contract, every server name, every request to sign",
  "A test pairs one file with one handshake; the loss or mixing of a block depends on the interplay of the splitter, the pipe and two parsers for every arrangement of blocks.",
  ["tls_pem.c:tls_pem_load", "tls_keyjail.c:tls_keyjail", "tls_keyjail.c:sign", "tls_pipe.c:tls_pipe_getcert", "tls_pubcrt.c:tls_pubcrt_parse", "tls_seccrt.c:tls_seccrt_parse"])
p("Closing one direction ends exactly that direction",
  "Closing the read or the write side of a connection through its slot makes the slot inactive and frees the descriptor number, whatever the system calls answer; errno and every other descriptor, open file and connection are left alone, and an inactive slot is a no-op. Closing the write side of a connected socket gives the peer end-of-file even while other descriptors in this or another process refer to the socket, and as long as one does the other direction continues as before; symmetrically for the read side. For a pipe the other end notices exactly when no descriptor of that end is left. With separate descriptors for the two sides, closing both in either order ends both directions.",
  "every descriptor table, set of open files shared with other processes, state of the connections and answer of shutdown and close",
  "Tests run one socket pair in one process; sharing of open files between processes and the order of closes are not enumerated, and a leaked half-open direction shows only as a hang.",
  ["fd.c:fd_close_read", "fd.c:fd_close_write", "fd.c:tryshutdown", "fd.c:tryclose"])
p("Descriptor helpers do one thing",
  "A read or write with a null buffer or a negative length is refused with EINVAL without touching the descriptor; any other is exactly one system call for the length asked but at most 1 MiB, whose result is passed on, with a descriptor that is not ready always reported as EAGAIN; so no more than the length asked is ever transferred. The four flag helpers change exactly the one flag they are named after: blocking mode of the open file, close-on-exec of the descriptor number; all other flags, files and descriptors keep their state.",
  "every length, every answer of the system call, every value of the flags, every descriptor table",
  "Flag words have 2^32 values and lengths 2^64; tests try a handful, and a helper that clears a foreign flag goes unnoticed until that flag matters.",
  ["fd.c:fd_read_", "fd.c:fd_read", "fd.c:fd_write_", "fd.c:fd_write", "fd.c:fd_blocking_enable", "fd.c:fd_blocking_disable", "fd.c:fd_coe_enable", "fd.c:fd_coe_disable"])
p("The TLS engine is what the command line asks for",
  "A wrapper started with an acceptable command line sets its TLS engine to the protocol versions, cipher suites, curves and order of preference given by the options, never allows renegotiation, and leaves signing, key exchange, key derivation and the record protection of every enabled suite to the key process. If and only if an anchor file is given, clients are asked for a certificate: the engine's trust anchors are exactly those of that file's certificates, in order and at least one, or the wrapper ends before serving; then only a client whose chain is verified against them gets a session. Chain verification itself never goes through the key process's key-exchange functions and accepts only SHA-2 signatures.",
  "every command line, every anchor file of complete PEM blocks, every decoder and engine within its contract",
  "Tests check single configurations; that no option order, suite choice or anchor file leaves the engine with a local secret operation or an unauthenticated client is a statement about all of them.",
  ["tls_profile.c:tls_profile", "tls_ecdhe.c:tls_ecdhe_get_default", "tls_ecdsa.c:tls_ecdsa_vrfy_asn1", "main_tlswrapper.c:main_tlswrapper"])
p("The network process learns nothing of the secrets but what it is meant to",
  "Whatever requests the network process sends to the key process, the bytes it gets back depend on the private keys, the ephemeral scalar, the shared and master secrets, the record keys, the in-memory encryption keys and uninitialised memory only through: which files load and their certificates, signatures, the ephemeral public key, whether the key agreement succeeds, the processing of records, and twelve PRF bytes per request. No PRF request makes the PRF take the input from which the master secret or the record keys are derived.",
  "all pairs of key processes with different secrets that agree on those values, all request streams, all splits of reads and writes; all client randoms and server randoms",
  "non-interference relates two executions for every request stream of a compromised peer; tests compare single runs",
  ["tls_keyjail.c:tls_keyjail", "tls_keyjail.c:sign", "tls_keyjail.c:prf", "tls_pem.c:tls_pem_load", "tls_crypto_scalarmult.c"])
p("Buffers are filled with random bytes completely",
  "When the random generator returns, exactly the requested bytes were overwritten with consecutive bytes of the system's random stream, none skipped or left out, even if reads are short, interrupted, empty or fail; it returns as soon as enough reads succeeded; the source is opened once, before confinement.",
  "all buffers, lengths (also negative), outcomes of open and read",
  "short and failing reads of the random device do not occur in tests; the property must hold for every schedule",
  ["randombytes.c:randombytes", "randombytes.c:init"])
p("Nothing of a session is left in memory",
  "When a process of a wrapper ends by itself, the TLS context, the payload buffers, the addresses, the heap and the arena hold nothing of the session any more: static objects hold fresh random bytes at stream positions that do not depend on what was in memory, the heap is zero; and the clean-up ends.",
  "all memory contents, all histories of the allocator, all outcomes of reads of the random source",
  "tests do not look at the memory of a process that has exited; the claim is about all contents",
  ["main_tlswrapper.c:cleanup", "main_tlswrapper_tcp.c:cleanup", "main_tlswrapper_smtp.c:cleanup", "alloc.c:alloc_freeall", "randombytes.c:randombytes"])
p("A ready descriptor is served, and nobody can be held up for good",
  "Each relay (TCP forwarding, the cleartext phase, the encrypted phase) waits for exactly the descriptors it has work for, so it neither sleeps over work nor spins; whenever it is woken, one reported descriptor is read from or written to in that very round, and nothing happens only if the kernel says to try again. Bytes already taken in are written before more are read for the same destination. No amount of traffic on one side holds up the other direction, or a stop signal, without bound.",
  "all streams, all split points and kernel answers, every waiting state reached by any run, every poll result; for the violation all lengths of traffic",
  "starvation and spinning show only for particular long interleavings of readiness on several descriptors",
  ["main_tlswrapper_tcp.c: forwarding loop", "main_tlswrapper.c: run_cleartext_phase", "main_tlswrapper.c: run_tls_phase"])
p("What is opened stays private, and a connection goes to the given address",
  "Every socket, pipe and file the programs open is marked close-on-exec and non-blocking before the caller sees it; an attempt that fails leaves all descriptors as they were. After any number of such calls, with any failures, a program started by execve inherits exactly the descriptors it would have inherited before. A connection attempt carries exactly the 16-byte address and the port it was given, and a socket is reported connected exactly when it is.",
  "all kernel states, all numbers the kernel may pick, every combination of failing calls, all sequences of calls, all addresses and ports",
  "leaks appear only on failure paths and in combinations with later exec",
  ["socket.c: socket_tcp", "socket.c: socket_connect", "socket.c: socket_connected", "open_pipe.c: open_pipe", "open_read.c: open_read", "fsyncfile.c: fsyncfile"])
p("The log says why a TLS connection ended",
  "When a TLS connection ends, the log tells the cause: closed normally, a fault found here, an alert received or an alert sent, and which fault or alert. Different causes never produce the same log, alerts appear under their names in the RFCs, and numbers without a name are reported as unknown.",
  "all causes the TLS library can report, before and after the handshake is complete; all errno values",
  "a table with a repeated or swapped entry passes every test that does not look at that entry",
  ["tls_engine.c: tls_engine_close_reason", "tls_error.c: tls_error_str", "tls_error.c: tls_alert_str", "tls_keytype.c: tls_keytype_str", "e.c: e_str"])
p("A session comes to an end with everything delivered",
  "As long as both sides keep cooperating (they accept what is written to them, what they send comes to an end, and nobody sends a signal), the TCP relay and the cleartext phase deliver both streams completely and then end by themselves, however often calls are interrupted, deferred or split; a STARTTLS request made by the child is answered after finitely many steps, with everything the child wrote before delivered to the network; the encrypted phase ends too, and a child that has closed its output still receives what the peer sends; after the child has exited the session is over within the second granted to finish.",
  "all streams, all buffer contents, all schedules of poll results, partial reads and writes, EINTR and EAGAIN, all histories before the request, every TLS engine whose own work is finite",
  "a test runs one schedule to its end; that every schedule with enough progress ends, and that no wait is left without a descriptor that can wake it, is a liveness claim about unboundedly many interleavings",
  ["main_tlswrapper.c: handle_selfpipe_event", "main_tlswrapper.c: main_tlswrapper", "main_tlswrapper_tcp.c: main_tlswrapper_tcp"])
p("The parts of a session fit together",
  "From the client's connection to the program's standard input and back, nothing is lost, repeated or mixed up where one part of a session hands over to the next. The program starts with this connection's endpoints; its input is exactly the bytes delivered in clear followed by the decrypted ones. At the STARTTLS switch the TLS engine is given the client's bytes from exactly where the cleartext phase stopped reading, what was received and not delivered is dropped, and afterwards the client receives nothing but TLS records. Without delayed encryption the program is not started before the handshake is complete. Over the whole session each descriptor is closed exactly once and not used afterwards.",
  "all client and child streams, all TLS engines, all schedules of both phases and of both processes, all points at which the session stops",
  "the parts are tested one by one; where one stops and the next goes on depends on how the kernel splits the streams, and the two processes run concurrently",
  ["main_tlswrapper.c: main_tlswrapper", "main_tlswrapper.c: run_cleartext_phase", "main_tlswrapper.c: run_tls_phase", "main_tlswrapper.c: report_tls_user"])
p("STARTTLS across the relay and the SMTP front end",
  "When tlswrapper with delayed encryption runs tlswrapper-smtp, in every history of the two processes: the session is switched to TLS only after the client gave STARTTLS and the front end answered 220 and asked for the switch; the front end is told so only if the relay has switched; everything the front end says after it was told is encrypted, everything before, the 220 included, is sent in clear; and every command obeyed after that was encrypted by the client, none of them being lost.",
  "all inputs of the client and of the SMTP server behind the front end, all behaviours of the kernel and the TLS engine, and all interleavings of the two processes",
  "whether a command that arrived in clear is obeyed after STARTTLS depends on the interleaving of two processes around four pipes; tests see a few schedules",
  ["main_tlswrapper.c: main_tlswrapper, run_cleartext_phase", "main_tlswrapper_smtp.c: smtp_starttls, smtp_discard_starttls_cleartext"])
p("A connection whose keys are in another process is like one with the keys at hand",
  "Whatever certificates a connection asks for, whatever digest it has signed, whatever point the peer sends and whatever the TLS engine then asks (verify data, records to open and seal, in any order and depending on earlier answers), the network process obtains exactly what it would obtain if it held the files and keys itself. The key process uses files and secrets for exactly these questions, in the same order, and the same secret number makes its public point and the shared secret.",
  "all sequences of names, present or missing files, curves, digests, peer points, session parameters, adaptive sequences of later questions of any length, and all ways reads and writes on the two pipes are split or delayed",
  "A test exercises one handshake over one schedule; the two processes could fall out of step after any question, answer size or split of a read.",
  ["tls_pipe.c:tls_pipe_getcert", "tls_pipe.c:tls_pipe_mul", "tls_pipe.c:tls_pipe_prf", "tls_keyjail.c:tls_keyjail"])
p("Setting the system clock does not change how long a connection attempt lasts",
  "An attempt to connect ends after its timeout at the latest, and while a candidate may still answer it is not given up earlier, in real time: also if the system's clock is set while it runs.",
  "all clocks, candidate lists, kernel answers, interruptions by signals and timeouts the options allow",
  "Needs the clock to be set at a particular moment of an attempt, and a bound over all moments and amounts.",
  ["conn.c:conn", "milliseconds.c:milliseconds", "jail_poll.c:jail_poll"])
p("Either process may go away at any point and the other fails closed",
  "If the key process ends or is killed at any point of a connection, even in the middle of an answer, then the questions answered so far were answered correctly and every later one is reported to the TLS engine as failed: no certificate, no point, no signature, no record, and random bytes in place of verify data; no partial answer is ever used. If the network process goes away, the key process ends at its next wait without using its files or secrets again.",
  "every connection (names, digest, peer's point, adaptive sequence of questions), every prefix of the answers, every division into reads and writes, every point from which reads or writes fail for good; for success, every content of the pipe",
  "A crash can happen after any byte of any message, and tests kill a process at a few points at most.",
  ["tls_pipe.c:tls_pipe_getcert", "tls_pipe.c:tls_pipe_mulgen", "tls_pipe.c:tls_pipe_dosign", "tls_pipe.c:tls_pipe_prf", "tls_pipe.c:decrypt", "tls_pipe.c:encrypt", "pipe.c:pipe_readall", "pipe.c:pipe_readmax", "pipe.c:pipe_readalloc", "readall.c:readall", "tls_keyjail.c:tls_keyjail"])
p("The mail program gets its own pipes and nothing of the connection",
  "The mail program that tlswrapper-smtp starts reads the commands at descriptor 0 and writes its answers to descriptor 1, both in blocking mode. It holds no end of the pipes to the wrapper, none of the STARTTLS control pipes and not the connection; besides its own pipes it has only what the operator left open. The front end holds the other two ends only, so each side sees the end when the other goes away, and it offers STARTTLS exactly if it was started with both control descriptors.",
  "every set of descriptors the wrapper or the front end is started with, every failing call",
  "Depends on which numbers happen to be free; tests start the programs with one fixed set of descriptors.",
  ["main_tlswrapper_smtp.c:main_tlswrapper_smtp", "open_pipe.c:open_pipe", "fd.c:fd_blocking_enable", "main_tlswrapper.c:main_tlswrapper"])
p("A signal reaches the relay exactly once and disturbs nothing",
  "SIGTERM, SIGALRM and the end of the wrapped program may arrive at any moment, also inside one another's handlers and inside interrupted system calls. The code they interrupt never sees errno changed. Every signal that is handled while the relay can be told is told to it exactly once, in order: SIGTERM always ends the loop, the end of the wrapped program closes its input and lets its output drain, a timeout first closes the wrapped program's descriptors and then ends the loop. No SIGTERM is lost from the start of the process to its end.",
  "All histories of signals sent, merged, delivered and nested, all interruptions of the handlers' writes, all positions relative to the program's own steps.",
  "The outcome depends on the instruction at which a signal arrives and on the nesting of handlers; a test can neither choose nor enumerate these.",
  ["main_tlswrapper.c:signalhandler", "main_tlswrapper.c:handle_selfpipe_event", "main_tlswrapper.c:main_tlswrapper", "main_tlswrapper_tcp.c:signalhandler", "main_tlswrapper_tcp.c:main_tlswrapper_tcp"])
p("Logging changes nothing the program does",
  "Whatever the verbosity, the whitelist, the clock and the state of standard error: a log call leaves errno as it was, so that a logged read or write gives its caller exactly the result and errno of the plain call; it writes to standard error only, only bytes of its record in order, with a bounded number of attempts; and it always returns.",
  "All log calls, settings and errno values; all outcomes of all writes to standard error; all results of the read or write being logged.",
  "A log call that disturbed errno would matter only for one failing call at one verbosity with one state of standard error; tests run with standard error in good order.",
  ["log.c:log_9_", "log.c:flush", "log.h:log_t", "fd.c:fd_read", "fd.c:fd_read_", "fd.c:fd_write", "fd.c:fd_write_"])
p("A resolver process taken over can only choose addresses",
  "The programs that resolve names do so in a jailed process of their own. Whatever that process answers, the program that asked writes and reads its address buffer only inside its bounds; it prints and connects to nothing but addresses it was sent, in the order sent, at most eight of them (the greylist client: one); without a usable address it ends or goes on without a connection as if the name did not resolve.",
  "All datagrams, or none; both programs, all verbosities, all outcomes of the connection attempts.",
  "The interesting answers are those the real resolver process never gives; no test takes it over.",
  ["resolvehost.c:resolvehost_do", "main_tlswrapper_tcp.c:main_tlswrapper_tcp", "main_tlswrapper_smtp.c:main_tlswrapper_smtp", "conn.c:conn"])
p("The resolver process gives each lookup its own answer and ends with its user",
  "A program that looks names up through the resolver process gets, for each lookup, the answer to that lookup and not to another one, in whatever order the two processes run. Closing the resolver returns only when the process has exited, and the datagram it sends is what ends it. If the program goes without closing, or is killed, the resolver process sends at most one more answer and then exits by itself; it is not left behind.",
  "all interleavings of the steps of the two processes, all numbers of lookups, all points at which a lookup fails or the program ends, all answers of the system's resolver",
  "Which answer a lookup gets depends on the order of two processes and on where a signal or a crash falls; a test runs the two in one order and does not kill either of them between two given instructions.",
  ["resolvehost.c:resolvehost_init", "resolvehost.c:resolvehost_do", "resolvehost.c:resolvehost_close"])
p("The mail log tells what happened",
  "In every SMTP session, wherever it ends, the log at the normal verbosity contains exactly these records about mail, each directly after the reply it is about was given to the client: a warning with sender and reply for every refused MAIL command, a warning with sender, recipient and reply for every refused RCPT command (by the mail program or the greylist server), a warning with sender, recipients and reply for a refused DATA command or message, and an information with sender, recipients and reply for every accepted message. Sender and recipients in the information are those the mail program accepted.",
  "all clients, mail programs, greylist servers and failures of reads and writes, and all points at which a session ends",
  "the log is evidence about arbitrary histories of commands and replies; tests see a few",
  ["main_tlswrapper_smtp.c:copy", "main_tlswrapper_smtp.c:smtp_data", "main_tlswrapper_smtp.c:smtp_mail", "main_tlswrapper_smtp.c:smtp_rcpt", "main_tlswrapper_smtp.c:smtp_starttls", "main_tlswrapper_smtp.c:smtp_reset_transaction"])
p("A TCP connection is passed on to the right place, whole and announced",
  "tlswrapper-tcp as a whole, from its arguments to its exit: it never leaves its buffers. On a bad command line it does nothing. Before it reads a byte of the client or opens a connection it is in the jail its options name. It connects only to addresses the resolver gave for the host of the command line, on its port, each at most once per answer and all of them before it gives up. With -p 1 nothing is connected or forwarded before a valid PROXY header has been read and taken off the stream. At every moment the server has been sent an initial part of the header about this client (with -P 1) and what the client sent after its own header; the client has been sent an initial part of what the server sent. With a kernel that answers, everything is delivered and the exit code is 0. Two such programs in a row pass on the client's endpoints and bytes unchanged.",
  "All arguments; all answers of the resolver and the network; all clients, servers and ways of cutting the streams; all environments.",
  "Composes command line, resolver, connection attempts, header and relay; a test fixes all but one of them.",
  ["main_tlswrapper_tcp.c:main_tlswrapper_tcp", "resolvehost.c:resolvehost_do", "conn.c:conn", "proxyprotocol.c:proxyprotocol_v1_get", "proxyprotocol.c:proxyprotocol_v1", "connectioninfo.c:connectioninfo_get", "jail.c:jail"])
p("The exit code of tlswrapper-tcp tells whether the transfer took place",
  "With an exit code other than 0 (100 or 111) nothing has been relayed. With exit code 0 both sides have ended their streams and everything that was read has been delivered.",
  "All runs of tlswrapper-tcp.",
  "The interesting runs are those cut at some point by a failed write or a signal.",
  ["main_tlswrapper_tcp.c:main_tlswrapper_tcp", "main_tlswrapper_tcp.c:die"])
p("A recipient is decided by the greylist server's answer to its own question",
  "If the SMTP front end asks the greylist server about several recipients, one after the other, each of them is let through or refused by what the server answered to the question about that recipient, whenever its answers arrive and however they are cut into reads: a recipient for which the server answered anything but dunno is not given to the mail program.",
  "All sessions, all answers, all ways in which they are delayed and cut into pieces.",
  "Depends on how the network cuts the server's answers into reads and on their delays, over several questions; a test server on the same host answers at once and in one piece.",
  ["main_tlswrapper_smtp.c:greylist", "main_tlswrapper_smtp.c:_gread", "main_tlswrapper_smtp.c:smtp_rcpt"])
p("The SMTP front end holds nothing back while it waits",
  "Whenever tlswrapper-smtp waits for a command of the client, an answer of the mail program or the greylist server, or the acknowledgement of STARTTLS, every byte it has for the mail program and the client has been written to them, whatever the sizes of its buffers; so neither side waits for bytes the front end holds. Within a message only lines of that message may be held back. What each side has been sent is at every moment a beginning of what was for it, also when a write fails, and after QUIT all of it has been sent before the front end waits for the program to end.",
  "every session, every moment of it, every size of the buffers, every way the descriptors take the bytes",
  "A forgotten flush shows only if the bytes happen not to fill the buffer and the other side waits for them; needs all sequences of commands, answers and partial writes.",
  ["main_tlswrapper_smtp.c:copy", "main_tlswrapper_smtp.c:smtp_data", "main_tlswrapper_smtp.c:smtp_starttls", "buffer.c:buffer_put", "buffer.c:buffer_putsflush"])
p("tlswrapper-smtp as a whole: confined, one greylist server, the mail program's exit code",
  "Run with any arguments in any surroundings, tlswrapper-smtp stays within its memory. A bad command line ends with code 100 before anything is done. Otherwise it starts exactly the program of the command line, confines itself with the account and directory of -j and -J before it talks to the client, to the program or to the greylist server, tries at most one connection, to an address the resolver gave for the host of -g and to its port, asks it only about the client named by the environment or the socket, and with -c has no session without it. It ends with 111 unless a QUIT was answered and the answer passed on; then it ends with the code of the mail program, 111 if that was killed.",
  "all argument vectors, resolver answers, kernel answers to sockets, connections and waits, environments, clients, mail programs and greylist servers",
  "The order of start, jail, lookup, connection and session and the exit code depend on every combination of failures of the surroundings; tests see one of them.",
  ["main_tlswrapper_smtp.c:main_tlswrapper_smtp", "main_tlswrapper_smtp.c:die", "resolvehost.c:resolvehost_do", "conn.c:conn"])
p("In fail-open mode an unusable greylist server does not stop the mail",
  "Without -c, whatever is wrong with the greylist server named by -g, clients are served as if it had not been named.",
  "all resolver answers, all kernel answers to the connection attempt, all sessions",
  "Needs every way in which the lookup and the connection can fail, which a test of a working set-up never meets.",
  ["main_tlswrapper_smtp.c:main_tlswrapper_smtp"])
p("tlswrapper as a whole: confined before it touches the client",
  "Run with any arguments in any surroundings, tlswrapper stays within its memory. A bad command line ends with code 100 before anything is done. Otherwise it starts the process of the program and the key process with the certificates of the command line, confines itself with the account and directory of -j and -J, and asks the key process for the anchors of -a, in this order and once each, before it takes a byte of the client or tells the program anything; if one of these fails it ends with 111 without having touched the client. With -p 1 the client's bytes up to the first line end are the PROXY header and belong to nobody else; without a valid header it ends with 100 and the program is told nothing.",
  "all argument vectors, all failures of pipe, fork, jail and the key process, all environments, clients, programs and TLS engines",
  "The order of start, jail, anchors, header and relay depends on every combination of failures of the surroundings; tests see one of them.",
  ["main_tlswrapper.c:main_tlswrapper", "proxyprotocol.c:proxyprotocol_v1_get", "jail.c:jail"])
p("tlswrapper as a whole: the two streams, the program's account and the exit code",
  "In every run of tlswrapper the TLS engine is given exactly the client's own bytes from the first on, the program gets nothing but what the engine decrypted and the client nothing but the engine's records; with -n the same holds after the program has asked for TLS and has been acknowledged, and before that both get a first part of what the other sent. If the program is started, its four environment variables are the client's endpoints, its input is exactly what was decrypted, the handshake is complete, and it runs under the account of -u, or else, with -U, the one of the certificate. A run that ends after the program ended in time ends with the program's code, unless the account could not be told, in which case the program never got it.",
  "all argument vectors, clients, programs, key processes, TLS engines, kernel answers and moments of a run",
  "Needs the composition of options, header, endpoints, relay, the process of the program and the end, for every interleaving and failure.",
  ["main_tlswrapper.c:main_tlswrapper", "main_tlswrapper.c: run_tls_phase", "main_tlswrapper.c: run_cleartext_phase"])
p("The client stays the same one along a row of the programs",
  "If tlswrapper-tcp with -P 1 connects to tlswrapper with -p 1, whom tlswrapper takes for its client is the client of tlswrapper-tcp and the bytes it takes for the client's are that client's, with none of tlswrapper-tcp's own. If tlswrapper runs tlswrapper-tcp as its program, the header sent to the server names tlswrapper's client and after it comes nothing but what was decrypted for it; if it runs tlswrapper-smtp, the greylist server is asked about tlswrapper's client and nobody else. The same holds of all three in a row.",
  "all runs of the programs, all clients, servers, TLS engines, options that connect the programs this way, and moments of a run",
  "Needs the composition of the header written by one program, read by another, exported through the environment and read back by a third, for all addresses and all schedules.",
  ["main_tlswrapper_tcp.c:main_tlswrapper_tcp", "main_tlswrapper.c:main_tlswrapper", "main_tlswrapper_smtp.c:main_tlswrapper_smtp", "connectioninfo.c:connectioninfo_set", "proxyprotocol.c:proxyprotocol_v1"])
p("With -P no byte goes to the server for a client that cannot be named",
  "With -P 1 tlswrapper-tcp sends the server nothing unless it knows endpoints of the client, and then the header naming them comes first. A client that cannot be named (announced as PROXY UNKNOWN, say) is turned away with code 100 and nothing is sent for it. Code 100 on a good command line means this, a lack of memory for the header, or that the client's own header was refused, in which case no connection was opened.",
  "all good command lines, clients, resolvers, networks, servers and moments of a run",
  "Depends on the combination of incoming header, environment, socket and memory with the start of the relay.",
  ["main_tlswrapper_tcp.c:main_tlswrapper_tcp", "proxyprotocol.c:proxyprotocol_v1", "proxyprotocol.c:proxyprotocol_v1_get"])
p("The log names each candidate that could not be reached",
  "In every attempt to connect to one of several addresses the log warns of candidates by their own address, none of them twice. If the attempt succeeds, exactly as many are warned of as were refused, the connected one is not among them, and the address reported as connected is the one handed to the caller. If it fails, each of the (at most eight) candidates has been warned of once, unless the system refused to wait at all.",
  "all candidate lists, all kernel answers, all orders in which the candidates answer, all clocks",
  "The address is looked up from a descriptor in tables that change while the answers arrive; the orders of answers cannot be enumerated.",
  ["conn.c:conn", "conn.c:conn_getip", "conn.c:conn_closefd"])
p("How the options are written and ordered does not matter",
  "For each of the three programs: two command lines with the same command, host or port whose options say the same about each thing (verbosity, preference, delayed encryption, fate of mail without greylist server, certificates, and each other option by itself) are the same to the program, whether options are written together or apart, with the argument attached or separate, and in whatever order options about different things come: it starts with the same settings or ends with the same code.",
  "all command lines",
  "All command lines and all their rearrangements.",
  ["main_tlswrapper.c:main_tlswrapper", "main_tlswrapper_tcp.c:main_tlswrapper_tcp", "main_tlswrapper_smtp.c:main_tlswrapper_smtp"])
p("The log says truthfully how an encrypted session ended",
  "When an encrypted session ends, one line says why. A failed write to the child or to the network is named as such, exactly then. 'handshake failed' and 'finished' with a reason of the TLS engine are written only when the engine is closed. 'close_notify sent' is written only when the engine was told to close the connection and everything it had to send after that was sent, with the child gone in both directions.",
  "All TLS engines, traffic, timings, failures of reads and writes, signals.",
  "The line is derived from the absence of anything left to do; a test sees the ending it sets up, not the other endings that reach the same line.",
  ["main_tlswrapper.c:run_tls_phase", "tls_engine.c:tls_engine_close_reason"])
p("How an SMTP client's bytes are cut into packets does not matter",
  "Two SMTP clients that send the same bytes before they end, in whatever pieces and with whatever pauses, one ending cleanly and the other by a broken connection or not, get the same session from the front end: the same lines are taken, the same bytes go to the mail server, the policy server and the client in the same order, and it ends with the same code. The one exception is the upgrade to TLS: until the front end asks for TLS all is the same, and from there on too unless different amounts of what was sent before the upgrade are thrown away.",
  "All client bytes and all ways to cut them, all replies of the mail server and the policy server, all failures of writes.",
  "A byte stream of n bytes can be cut in 2^n ways; tests use a few.",
  ["main_tlswrapper_smtp.c:readline", "main_tlswrapper_smtp.c:smtp_data", "main_tlswrapper_smtp.c:smtp_discard_starttls_cleartext", "main_tlswrapper_smtp.c:smtp_starttls"])
p("The wrapped program starts without the wrapper's own settings",
  "The program a wrapper runs has no timer left over from it, ignores no signal because of it (one is ignored only if the wrapper was itself started with it ignored, and SIGPIPE, SIGCHLD and SIGTERM, or SIGPIPE and SIGALRM, never are), and has the limits on memory, files, processes and core dumps, the directories and the dump setting the wrapper was started with, whether or not it is put under another account. The same holds of a mail program behind both wrappers.",
  "All dispositions, timers and limits at the start, all accounts, all failures of calls.",
  "What a program inherits shows up only when it depends on it, for instance when a pipe breaks or memory runs short.",
  ["main_tlswrapper.c:main_tlswrapper", "main_tlswrapper_smtp.c:main_tlswrapper_smtp", "jail.c:jail", "jail.h:jail_droppriv"])

p("The line about a TLS connection tells what was negotiated",
  "When a handshake is done and information is logged, exactly one line about it is written. It names the protocol version, the cipher suite and key type, the group of the key exchange and the server name the client asked for. Two connections with the same line have the same version, suite and group, whatever bytes the clients sent as server names; and server names without backslash can be read back from it.",
  "All versions, suites and groups the options allow, all server names, all log settings.",
  "A client chooses the server name freely, so forging is a question about all byte strings.",
  ["main_tlswrapper.c:report_tls_handshake", "tls_version.c:tls_version_str", "tls_cipher.c:tls_cipher_str", "tls_ecdhe.c:tls_ecdhe_str", "log.c:log_9_"])

p("A refused command line is explained",
  "tlswrapper refuses every command line it does not serve with exit status 100, and what it writes then is the reason: the usage when the words cannot be read as options (and those before were acceptable) or nothing to serve with or to run is given, otherwise lines about the first option that is not acceptable after those before it, about options that contradict each other, or about a time limit. The line about an option not acceptable by itself shows its value; a path that cannot be examined comes with the system's reason, and an unknown name with the list of the names that are accepted. Nothing at all is said only after -q.",
  "All command lines, all file systems, all errors of the system.",
  "The first mistake decides what is said, at the verbosity asked for up to there; tests can only sample command lines.",
  ["main_tlswrapper.c:main_tlswrapper", "main_tlswrapper.c:usage", "main_tlswrapper.c:pp_incoming", "main_tlswrapper.c:certuser_add", "main_tlswrapper.c:version_setmax", "main_tlswrapper.c:version_setmin", "main_tlswrapper.c:certfile_add_dir", "main_tlswrapper.c:certfile_add_file", "main_tlswrapper.c:anchor_add", "main_tlswrapper.c:ecdhe_add", "main_tlswrapper.c:cipher_add", "main_tlswrapper.c:timeout_parse"])

p("A refused command line of tlswrapper-tcp or tlswrapper-smtp is explained",
  "tlswrapper-tcp and tlswrapper-smtp refuse every command line they do not serve with exit status 100, and what they write then is the reason: the usage when the words cannot be read as options or the host or the program is missing, otherwise a line with the value that is wrong: a protocol version (with the version available), a port, a time limit, or the greylist server. Nothing at all is said only after -q.",
  "All command lines.",
  "The first mistake decides what is said, at the verbosity asked for up to there; tests can only sample command lines.",
  ["main_tlswrapper_tcp.c:main_tlswrapper_tcp", "main_tlswrapper_tcp.c:usage", "main_tlswrapper_tcp.c:pp_incoming", "main_tlswrapper_tcp.c:pp_outgoing", "main_tlswrapper_tcp.c:timeout_parse", "main_tlswrapper_smtp.c:main_tlswrapper_smtp", "main_tlswrapper_smtp.c:usage", "main_tlswrapper_smtp.c:timeout_parse"])

p("Messages cannot be smuggled through the SMTP front end",
  "The mail program behind tlswrapper-smtp finds the end of a message (CR LF . CR LF) only where the client's own bytes have it. So text inside a message never becomes a second message or a command for the mail program, also when the session is cut off at any moment.",
  "All client byte streams, all ways they are cut into reads, all replies of the mail program, all failures.",
  "Smuggling depends on rare byte sequences at line ends; tests can only sample them.",
  ["main_tlswrapper_smtp.c:readline", "main_tlswrapper_smtp.c:smtp_data"])

p("The greylist server is asked one question, about this client",
  "Each time the SMTP front end asks the greylist server, what it sends is one request of the policy protocol with exactly four attributes: the kind of request, the address of the client that is connected, the sender of the client's last MAIL and the recipient of its last RCPT since. The client cannot add attributes or requests of its own.",
  "All client byte streams, all ways they are cut into reads, all answers of the mail program and the greylist server.",
  "Injection depends on bytes that no ordinary client sends; tests can only sample them.",
  ["main_tlswrapper_smtp.c:greylist", "main_tlswrapper_smtp.c:readline", "main_tlswrapper_smtp.c:smtp_mail", "main_tlswrapper_smtp.c:smtp_rcpt"])

p("A message is reported as accepted only if the mail program accepted all of it",
  "After a 354 reply the client is told nothing until the mail program has been given every line of the message in order and the line that ends it, and has replied. What the client is told is that reply (with the log id if there is one), with the same first digit: a message is never reported as accepted that the mail program did not accept, and no session that breaks off earlier reports one. If the client ends its lines with CR LF and sends no NUL, the mail program has then been given the message byte for byte.",
  "All client byte streams, all ways they are cut into reads, all replies of the mail program, all failures, at every message of a session.",
  "Loss of mail shows only at particular moments of failure; tests can only sample them.",
  ["main_tlswrapper_smtp.c:smtp_data", "main_tlswrapper_smtp.c:smtpline", "main_tlswrapper_smtp.c:readline"])

p("Client, front end and mail program stay in step",
  "Whenever the front end takes a reply from the mail program, exactly one line given to it awaits an answer, so the reply is the answer to that line; whenever it takes a line from the client, no answer is due, and the line is taken as message text exactly if the mail program is reading message text. The client is told exactly one thing for each command and for the end of each message, and nothing for a line of text. It is assumed that the mail program answers 354 to DATA only.",
  "All client byte streams, all ways they are cut into reads, all replies of the mail program, all settings, at every point of a session.",
  "Losing step needs a particular stream of bytes and then affects every later command; tests only see the streams they send.",
  ["main_tlswrapper_smtp.c:smtpline", "main_tlswrapper_smtp.c:smtp_data", "main_tlswrapper_smtp.c:readline"])

with open("properties.jsonl","w") as f:
    for x in P: f.write(json.dumps(x, ensure_ascii=False)+"\n")
print(len(P))
