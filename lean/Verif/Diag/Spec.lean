/-
What the log should say about the end of a TLS connection, without reference to
the code.
-/
namespace Diag

/-- Why a TLS connection ended. -/
inductive Cause where
  /-- Both sides closed it properly. -/
  | normal
  /-- This side found a fault (the number of the library's list of errors). -/
  | fault (n : Nat)
  /-- The peer sent this fatal alert. -/
  | received (alert : Nat)
  /-- This side sent this fatal alert. -/
  | sent (alert : Nat)
deriving DecidableEq, Repr

/-- How the library passes a cause on in one number: 0, the number of the fault,
256 + a received alert, 512 + a sent alert. Alerts are one byte. -/
def Cause.code : Cause → Int
  | .normal => 0
  | .fault n => n
  | .received a => 256 + a
  | .sent a => 512 + a

/-- The causes the library can report. -/
def Cause.Ok : Cause → Prop
  | .normal => True
  | .fault n => 1 ≤ n ∧ n < 256
  | .received a => a < 256
  | .sent a => a < 256

/-- The library's list of faults: the errors of the TLS engine and of the
certificate check, with the gaps it leaves. -/
def Known (n : Nat) : Prop :=
  1 ≤ n ∧ n ≤ 62 ∧ n ≠ 11 ∧ n ≠ 30 ∧ n ≠ 32 ∧ n ≠ 61

/-- The names of alerts in RFC 5246 section 7.2 without the reserved ones, in
RFC 6066 section 9 (112) and RFC 7507 (86). -/
def alertName (n : Nat) : Option String :=
  match n with
  | 0 => "close_notify" | 10 => "unexpected_message"
  | 20 => "bad_record_mac" | 21 => "decryption_failed" | 22 => "record_overflow"
  | 30 => "decompression_failure" | 40 => "handshake_failure"
  | 42 => "bad_certificate" | 43 => "unsupported_certificate"
  | 44 => "certificate_revoked" | 45 => "certificate_expired"
  | 46 => "certificate_unknown" | 47 => "illegal_parameter"
  | 48 => "unknown_ca" | 49 => "access_denied"
  | 50 => "decode_error" | 51 => "decrypt_error"
  | 70 => "protocol_version" | 71 => "insufficient_security"
  | 80 => "internal_error" | 86 => "inappropriate_fallback"
  | 90 => "user_canceled" | 100 => "no_renegotiation"
  | 110 => "unsupported_extension" | 112 => "unrecognized_name"
  | _ => none

/-- The causes that have a text of their own. -/
def Cause.Named : Cause → Prop
  | .normal => True
  | .fault n => Known n
  | .received a => (alertName a).isSome
  | .sent a => (alertName a).isSome

end Diag
