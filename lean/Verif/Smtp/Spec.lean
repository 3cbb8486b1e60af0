import Verif.Base
import Verif.Str.Spec
import Verif.Smtp.Model
/-
Specification of an SMTP session seen from outside: which actions may follow
which. From the model only the type of actions and the configuration record are
used.
-/
namespace Smtp.Spec
open Str.Spec

/-- The line the client wrote, without the CR of its line ending. -/
def content (raw : Bytes) : Bytes := if raw.getLast? = some (c! '\r') then raw.dropLast else raw

/-- What the child gets for a client's line: its content and CRLF. NUL bytes
arrive as LF; see `c47_nul_splits` for what that means. -/
def forward (raw : Bytes) : Bytes :=
  (content raw).map (fun b => if b = 0 then c! '\n' else b) ++ b!"\r\n"

/-- The first word of what is forwarded for a line. -/
def word (raw : Bytes) : Bytes :=
  (forward raw).takeWhile fun b => b ≠ c! ' ' ∧ b ≠ c! '\r' ∧ b ≠ c! '\n'

/-- The verbs with special treatment, in order of precedence. -/
def verbs : List (Bytes × Verb) :=
  [(b!"quit", .quit), (b!"data", .data), (b!"mail", .mail), (b!"rcpt", .rcpt), (b!"ehlo", .ehlo),
    (b!"starttls", .starttls)]

/-- How a line is treated: by the first verb that starts with its first word,
in any letter case. (C48 wants: that equals its first word.) -/
def verb (raw : Bytes) : Verb :=
  match verbs.find? (fun v => (lcs (word raw)).isPrefixOf v.1) with
  | some v => v.2
  | none => .default

/-- How C48 wants a line to be treated. -/
def exactVerb (raw : Bytes) : Verb :=
  match verbs.find? (fun v => lcs (word raw) = v.1) with
  | some v => v.2
  | none => .default

/-- The argument of a line starting with `key`: what follows, up to the first
space. -/
def arg (key raw : Bytes) : Option Bytes :=
  let l := (forward raw).take ((forward raw).length - 2)
  if key.isPrefixOf (lcs l) then some ((l.drop key.length).takeWhile (· ≠ c! ' ')) else none

/-- What a session remembers: whether STARTTLS is still possible, the sender and
the last recipient of the current message. -/
structure Ctx where
  tls : Bool
  sender : Option Bytes
  rcpt : Option Bytes
  deriving Repr, DecidableEq

/-- A command's effect on what is remembered, before anything else happens. -/
def Ctx.after (c : Ctx) (raw : Bytes) : Ctx :=
  match verb raw with
  | .mail => { c with sender := arg b!"mail from:" raw, rcpt := none }
  | .rcpt => match arg b!"rcpt to:" raw with
    | some a => { c with rcpt := some a }
    | none => c
  | _ => c

/-- Sender and recipient forgotten. -/
def Ctx.clear (c : Ctx) : Ctx := { c with sender := none, rcpt := none }

/-- The log id in brackets. -/
def withId (cfg : Cfg) (s : Bytes) : Bytes :=
  match cfg.id with
  | some id => s ++ b!" [" ++ id ++ b!"]"
  | none => s

/-- A one-line reply of the front end itself. -/
def own (cfg : Cfg) (s : Bytes) : Bytes := withId cfg s ++ b!"\r\n"

/-- `s` without its line ending. -/
def chomp (s : Bytes) : Bytes :=
  let s := if s.getLast? = some (c! '\n') then s.dropLast else s
  if s.getLast? = some (c! '\r') then s.dropLast else s

/-- A reply with the log id at the end of its last line, if there is one. -/
def tagged (cfg : Cfg) (r : Bytes) : Bytes := if cfg.id.isSome then own cfg (chomp r) else r

/-- The value of the first three characters of a reply as a decimal number. -/
def code : Bytes → Int
  | a :: b :: c :: _ => 100 * ((a.toNat : Int) - 48) + 10 * ((b.toNat : Int) - 48) + ((c.toNat : Int) - 48)
  | _ => 0

/-- Any number of continuation lines `xyz-text LF`, then three more bytes. -/
inductive Head : Bytes → Prop
  | last (a b c : Byte) : Head [a, b, c]
  | more (a b c : Byte) (t h : Bytes) : c! '\n' ∉ t → Head h →
      Head (a :: b :: c :: c! '-' :: (t ++ c! '\n' :: h))

/-- `r` is one reply: continuation lines, then a last line whose fourth byte
`sep` is not a hyphen; `t` is what follows that byte, up to the LF. -/
def Reply (r h : Bytes) (sep : Byte) (t : Bytes) : Prop :=
  Head h ∧ sep ≠ c! '-' ∧ r = h ++ sep :: t ∧
    (sep = c! '\n' ∧ t = [] ∨ sep ≠ c! '\n' ∧ ∃ t', c! '\n' ∉ t' ∧ t = t' ++ [c! '\n'])

/-- The reply to EHLO: with the STARTTLS line as a new last line if encryption is
on offer and the reply is positive. -/
def Ehlo (tls : Bool) (r d : Bytes) : Prop :=
  if tls ∧ code r = 250 then
    ∃ h sep t, Reply r h sep t ∧
      d = h ++ (if sep = c! ' ' then c! '-' else sep) :: t ++ b!"250 STARTTLS\r\n"
  else d = r

/-- The bytes of `s` before the first NUL. -/
def beforeNul (s : Bytes) : Bytes := s.takeWhile (· ≠ 0)

/-- The question asked about a recipient. -/
def question (cfg : Cfg) (sender rcpt : Bytes) : Bytes :=
  b!"request=smtpd_access_policy\nclient_address=" ++ beforeNul cfg.ip ++ b!"\nsender=" ++ sender ++
    b!"\nrecipient=" ++ rcpt ++ b!"\n\n"

/-- Greylisting applies to a line: a server is connected, the line is a RCPT, and
sender and recipient are known. -/
def Greylisted (cfg : Cfg) (c : Ctx) (raw : Bytes) : Prop :=
  cfg.grey = true ∧ verb raw = .rcpt ∧ c.sender.isSome ∧ c.rcpt.isSome

/-- The answer lets the recipient through. -/
def Dunno (a : Bytes) : Prop := b!"action=dunno" <+: lcs a
/-- The answer rejects the recipient. -/
def Rejects (a : Bytes) : Prop := b!"action=reject" <+: lcs a

/-- Where a session stands. -/
inductive Phase where
  | start
  | greeting (r : Bytes)
  | ready (c : Ctx)
  | got (c : Ctx) (raw : Bytes)
  | asked (c : Ctx) (raw : Bytes)
  | answered (c : Ctx) (raw a : Bytes)
  | sent (c : Ctx) (raw : Bytes)
  | replied (c : Ctx) (raw r : Bytes)
  | body (c : Ctx)
  | bodyLine (c : Ctx) (raw : Bytes)
  | bodySent (c : Ctx)
  | bodyReplied (c : Ctx) (r : Bytes)
  | offered (c : Ctx)
  | requested (c : Ctx)
  | drained (c : Ctx)
  | acked (c : Ctx)
  | reset (c : Ctx)
  | refused
  | over

/-- The actions a session may take; `tls0` tells whether STARTTLS is possible at
the start. -/
inductive Step (cfg : Cfg) (tls0 : Bool) : Phase → Act → Phase → Prop
  /- The greeting goes to the client. -/
  | greeting (r h sep t) : Reply r h sep t → Step cfg tls0 .start (.reply r) (.greeting r)
  | greeted (r) : Step cfg tls0 (.greeting r) (.client (beforeNul (tagged cfg r))) (.ready ⟨tls0, none, none⟩)
  /- A command line. -/
  | line (c raw) : raw.length ≤ 4096 → c! '\n' ∉ raw →
      Step cfg tls0 (.ready c) (.line raw) (.got (c.after raw) raw)
  /- It is forwarded, if greylisting does not apply, -/
  | forward (c raw) : verb raw ≠ .starttls → ¬ Greylisted cfg c raw →
      Step cfg tls0 (.got c raw) (.child (forward raw)) (.sent c raw)
  /- or if it applies but the server cannot be asked and that is tolerated, -/
  | unasked (c raw) : Greylisted cfg c raw → cfg.closed = false →
      Step cfg tls0 (.got c raw) (.child (forward raw)) (.sent c raw)
  | ask (c raw a b) : Greylisted cfg c raw → c.sender = some a → c.rcpt = some b →
      Step cfg tls0 (.got c raw) (.ask (question cfg a b)) (.asked c raw)
  /- or does not answer and that is tolerated, -/
  | unanswered (c raw) : cfg.closed = false →
      Step cfg tls0 (.asked c raw) (.child (forward raw)) (.sent c raw)
  | answer (c raw a) : Step cfg tls0 (.asked c raw) (.answer a) (.answered c raw a)
  /- or answers dunno, -/
  | pass (c raw a) : Dunno a → Step cfg tls0 (.answered c raw a) (.child (forward raw)) (.sent c raw)
  /- or sends more than fits (see `c51_overlong_passes`); -/
  | overlong (c raw a) : a.length = 4096 → c! '\n' ∉ a →
      Step cfg tls0 (.answered c raw a) (.child (forward raw)) (.sent c raw)
  /- any other answer is reported to the client. -/
  | refuse (c raw a) : ¬ Dunno a → Rejects a →
      Step cfg tls0 (.answered c raw a) (.client (beforeNul (own cfg b!"553 bad reputation (#5.7.1)"))) (.ready c)
  | defer (c raw a) : ¬ Dunno a → ¬ Rejects a →
      Step cfg tls0 (.answered c raw a) (.client (beforeNul (own cfg b!"450 greylisted (#4.3.0)"))) (.ready c)
  /- A forwarded command is answered by one reply of the child, which goes to the
  client. -/
  | reply (c raw r h sep t) : Reply r h sep t → Step cfg tls0 (.sent c raw) (.reply r) (.replied c raw r)
  | default (c raw r) : verb raw = .default →
      Step cfg tls0 (.replied c raw r) (.client (beforeNul r)) (.ready c)
  | ehlo (c raw r d) : verb raw = .ehlo → Ehlo c.tls r d →
      Step cfg tls0 (.replied c raw r) (.client (beforeNul d)) (.ready c)
  | envelope (c raw r) : verb raw = .mail ∨ verb raw = .rcpt →
      Step cfg tls0 (.replied c raw r) (.client (beforeNul (tagged cfg r))) (.ready c)
  | quit (c raw r) : verb raw = .quit →
      Step cfg tls0 (.replied c raw r) (.client (beforeNul (tagged cfg r))) .over
  | nodata (c raw r) : verb raw = .data → code r ≠ 354 →
      Step cfg tls0 (.replied c raw r) (.client (beforeNul (tagged cfg r))) (.ready c)
  /- After DATA and a 354 reply the body follows, up to the line with a dot. -/
  | data (c raw r) : verb raw = .data → code r = 354 →
      Step cfg tls0 (.replied c raw r) (.client (beforeNul (tagged cfg r))) (.body c)
  | bodyLine (c raw) : raw.length ≤ 4096 → c! '\n' ∉ raw →
      Step cfg tls0 (.body c) (.line raw) (.bodyLine c raw)
  | bodyForward (c raw) : content raw ≠ b!"." →
      Step cfg tls0 (.bodyLine c raw) (.child (Spec.forward raw)) (.body c)
  | bodyDot (c raw) : content raw = b!"." →
      Step cfg tls0 (.bodyLine c raw) (.child b!".\r\n") (.bodySent c)
  | bodyReply (c r h sep t) : Reply r h sep t → Step cfg tls0 (.bodySent c) (.reply r) (.bodyReplied c r)
  | bodyEnd (c r) : Step cfg tls0 (.bodyReplied c r) (.client (beforeNul (tagged cfg r))) (.ready c.clear)
  /- STARTTLS. -/
  | notls (c raw) : verb raw = .starttls → c.tls = false →
      Step cfg tls0 (.got c raw) (.client (beforeNul (own cfg b!"502 unimplemented (#5.5.1)"))) (.ready c)
  | tls (c raw) : verb raw = .starttls → c.tls = true →
      Step cfg tls0 (.got c raw) (.client (beforeNul (own cfg b!"220 ready to start TLS (#2.0.0)"))) (.offered c)
  | request (c) : Step cfg tls0 (.offered c) (.ctl [0]) (.requested c)
  | discard (c n) : Step cfg tls0 (.requested c) (.discard n) (.drained c)
  | ack (c) : Step cfg tls0 (.drained c) (.ack 0) (.acked c)
  | nack (c b) : b ≠ 0 → Step cfg tls0 (.drained c) (.ack b) .refused
  | rset (c) : Step cfg tls0 (.acked c) (.child b!"RSET\r\n") (.reset c)
  | rsetReply (c r h sep t) : Reply r h sep t →
      Step cfg tls0 (.reset c) (.reply r) (.ready ⟨false, none, none⟩)

/-- A sequence of actions. -/
inductive Trace (cfg : Cfg) (tls0 : Bool) : Phase → List Act → Phase → Prop
  | nil (p) : Trace cfg tls0 p [] p
  | snoc (p l q a r) : Trace cfg tls0 p l q → Step cfg tls0 q a r → Trace cfg tls0 p (l ++ [a]) r

end Smtp.Spec
