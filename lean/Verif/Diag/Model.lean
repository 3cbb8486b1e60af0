/-
Model of tls_error.c, tls_keytype.c and tls_engine_close_reason in tls_engine.c:
what the log says about the end of a TLS connection. Strings are Lean strings;
the C strings are literals without NUL and without escape sequences. The error
numbers are those of BearSSL's bearssl_ssl.h and bearssl_x509.h, which are not
part of /repo.
-/
namespace Diag

/-- tls_error.c:11-245, `errors` without its end mark. -/
def errors : List (Int × String) := [
  (1, "Caller-provided parameter is incorrect."),
  (2, "Operation requested by the caller cannot be applied with the current context state (e.g. reading data while outgoing data is waiting to be sent)."),
  (3, "Incoming protocol or record version is unsupported."),
  (4, "Incoming record version does not match the expected version."),
  (5, "Incoming record length is invalid."),
  (6, "Incoming record is too large to be processed, or buffer is too small for the handshake message to send."),
  (7, "Decryption found an invalid padding, or the record MAC is not correct."),
  (8, "No initial entropy was provided, and none can be obtained from the OS."),
  (9, "Incoming record type is unknown."),
  (10, "Incoming record or message has wrong type with regards to the current engine state."),
  (12, "ChangeCipherSpec message from the peer has invalid contents."),
  (13, "Alert message from the peer has invalid contents (odd length)."),
  (14, "Incoming handshake message decoding failed."),
  (15, "ServerHello contains a session ID which is larger than 32 bytes."),
  (16, "Server wants to use a cipher suite that we did not claim to support. This is also reported if we tried to advertise a cipher suite that we do not support."),
  (17, "Server wants to use a compression that we did not claim to support."),
  (18, "Server's max fragment length does not match client's."),
  (19, "Secure renegotiation failed."),
  (20, "Server sent an extension type that we did not announce, or used the same extension type several times in a single ServerHello."),
  (21, "Invalid Server Name Indication contents (when used by the server, this extension shall be empty)."),
  (22, "Invalid ServerHelloDone from the server (length is not 0)."),
  (23, "Internal limit exceeded (e.g. server's public key is too large)."),
  (24, "Finished message from peer does not match the expected value."),
  (25, "Session resumption attempt with distinct version or cipher suite."),
  (26, "Unsupported or invalid algorithm (ECDHE curve, signature algorithm, hash function)."),
  (27, "Invalid signature in ServerKeyExchange or CertificateVerify message."),
  (28, "Peer's public key does not have the proper type or is not allowed for the requested operation."),
  (29, "Client did not send a certificate upon request, or the client certificate could not be validated."),
  (31, "I/O error or premature close on transport stream."),
  (33, "Invalid value in an ASN.1 structure."),
  (34, "Truncated certificate or other ASN.1 object."),
  (35, "Empty certificate chain (no certificate at all)."),
  (36, "Decoding error: inner element extends beyond outer element size."),
  (37, "Decoding error: unsupported tag class (application or private)."),
  (38, "Decoding error: unsupported tag value."),
  (39, "Decoding error: indefinite length."),
  (40, "Decoding error: extraneous element."),
  (41, "Decoding error: unexpected element."),
  (42, "Decoding error: expected constructed element, but is primitive."),
  (43, "Decoding error: expected primitive element, but is constructed."),
  (44, "Decoding error: BIT STRING length is not multiple of 8."),
  (45, "Decoding error: BOOLEAN value has invalid length."),
  (46, "Decoding error: value is off-limits."),
  (47, "Invalid distinguished name."),
  (48, "Invalid date/time representation."),
  (49, "Certificate contains unsupported features that cannot be ignored."),
  (50, "Key or signature size exceeds internal limits."),
  (51, "Key type does not match that which was expected."),
  (52, "Signature is invalid."),
  (53, "Validation time is unknown."),
  (54, "Certificate is expired or not yet valid."),
  (55, "Issuer/Subject DN mismatch in the chain."),
  (56, "Expected server name was not found in the chain."),
  (57, "Unknown critical extension in certificate."),
  (58, "Not a CA, or path length constraint violation."),
  (59, "Key Usage extension prohibits intended usage."),
  (60, "Public key found in certificate is too small."),
  (62, "Chain could not be linked to a trust anchor.")]

/-- tls_error.c:268-298, `alerts` without its end mark. -/
def alerts : List (Int × String) := [
  (0, "close_notify"),
  (10, "unexpected_message"),
  (20, "bad_record_mac"),
  (21, "decryption_failed"),
  (22, "record_overflow"),
  (30, "decompression_failure"),
  (40, "handshake_failure"),
  (42, "bad_certificate"),
  (43, "unsupported_certificate"),
  (44, "certificate_revoked"),
  (45, "certificate_expired"),
  (46, "certificate_unknown"),
  (47, "illegal_parameter"),
  (48, "unknown_ca"),
  (49, "access_denied"),
  (50, "decode_error"),
  (51, "decrypt_error"),
  (70, "protocol_version"),
  (71, "insufficient_security"),
  (80, "internal_error"),
  (86, "inappropriate_fallback"),
  (90, "user_canceled"),
  (100, "no_renegotiation"),
  (110, "unsupported_extension"),
  (112, "unrecognized_name")]

/-- The loops of tls_error.c:260-262 and 312-314: the text of the first entry
with the number, or the given text when there is none. -/
def first (t : List (Int × String)) (d : String) (n : Int) : String :=
  match t with
  | [] => d
  | (m, s) :: t => if m = n then s else first t d n

/-- tls_error.c:256-264. -/
def tls_error_str (err : Int) : String := first errors "unknown" err

/-- tls_error.c:308-316. -/
def tls_alert_str (alert : Int) : String := first alerts "unknown_alert" alert

/-- tls_keytype.c:20-24; BR_KEYTYPE_RSA is 1, BR_KEYTYPE_EC is 2. -/
def tls_keytype_str (i : Int) : String :=
  if i = 1 then "RSA" else if i = 2 then "EC" else "UNKNOWN"

/-- tls_engine.c:187-208. The result is the text returned and the line logged at
level error, if any. `err` is what br_ssl_engine_last_error returns and `done` is
`ctx->flaghandshakedone`; BR_ERR_OK is 0, BR_ERR_RECV_FATAL_ALERT 256 and
BR_ERR_SEND_FATAL_ALERT 512. -/
def tls_engine_close_reason (done : Bool) (err : Int) : String × Option String :=
  if err = 0 then ("TLS closed normally", none)
  else if err ≥ 512 then
    let alert := err - 512
    (tls_alert_str alert, if done then some ("TLS sent alert: " ++ tls_alert_str alert) else none)
  else if err ≥ 256 then
    let alert := err - 256
    (tls_alert_str alert, if done then some ("TLS received alert: " ++ tls_alert_str alert) else none)
  else
    (tls_error_str err, if done then some ("TLS error: " ++ tls_error_str err) else none)

end Diag
