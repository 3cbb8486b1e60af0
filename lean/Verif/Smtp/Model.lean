import Verif.Base
import Verif.Str.Model
/-
Model of the SMTP front end, /repo/main_tlswrapper_smtp.c: the session loop
from the greeting on (lines 1019-1025 and everything it calls).

What is simplified, once for the whole file:
* Buffered streams are byte streams. `ssin`, `sscin` and `gssin` deliver the
  bytes of successive reads in order (C19 and C20 prove that of buffer.c);
  `_read`/`_write` (lines 208-231) end the process on failure, so a read past
  the end of a stream is `die(111)`. Bytes given to `buffer_puts(&sscout, ..)`
  are recorded when they are put, although they may leave the process only at
  the next flush (`Smtp.Held` has the flushes).
* `stralloc`s are byte strings (C25 proves that of stralloc.c); an allocation
  failure is `die(111)`, as is a write failure, and is not a separate event.
* Writing to the log is left out.
* `errno` is left out.
-/
namespace Smtp
open Str

/-- What the operating system does on descriptor 0, in order: a `read` that
returns bytes (none: end of input), a moment at which nothing is readable
(EAGAIN for the non-blocking reads of main_tlswrapper_smtp.c:268-280; a blocking read just
waits), or a failing read (an error, or the timeout of `_read`). -/
inductive Ev where
  | data (d : Bytes)
  | gap
  | fail
  deriving Repr, DecidableEq

/-- Observable actions of the front end (the writes of main_tlswrapper_smtp.c:203-210 and what the
session is asked to do by main_tlswrapper_smtp.c:529-809). -/
inductive Act where
  /-- The client's line `raw` (without its LF) was taken from the input. -/
  | line (raw : Bytes)
  /-- Bytes for the child's standard input. -/
  | child (d : Bytes)
  /-- The bytes of one reply were taken from the child's standard output. -/
  | reply (d : Bytes)
  /-- Bytes for the client. -/
  | client (d : Bytes)
  /-- A request to the greylist server. -/
  | ask (d : Bytes)
  /-- The line of the greylist server's answer, with its LF; without it if the
  front end gave up reading at the length limit. -/
  | answer (d : Bytes)
  /-- The STARTTLS request byte on descriptor 5. -/
  | ctl (d : Bytes)
  /-- Queued cleartext was thrown away; `left`: how many bytes descriptor 0 delivers afterwards
  (for the record only). -/
  | discard (left : Nat)
  /-- A byte was received on descriptor 6. -/
  | ack (b : Byte)
  deriving Repr, DecidableEq

/-- What is fixed during a session: the log identifier (log.c, `log_get_id`),
whether a greylist server is connected (`greylistfd != -1`), the fail-closed
flag, and the client's address in text form. -/
structure Cfg where
  id : Option Bytes
  grey : Bool
  closed : Bool
  ip : Bytes
  deriving Repr, DecidableEq

/-- The state: `buf` is what `ssin` holds, `net` what descriptor 0 will deliver;
`cin` what the child will still write; `wr` tells for each write whether it
succeeds (past the end: it does); `gwr` and `gin` the same for the greylist
socket, `gin` being the results of successive reads; `acks` what descriptor 6
delivers; `ctl` whether descriptors 5 and 6 are open (main_tlswrapper_smtp.c:250-254, with
`flagstarttls` set in main_tlswrapper_smtp.c:914 only if they were). The rest are the static
variables of main_tlswrapper_smtp.c:239-247; `mailfrom` and `rcptto` hold their terminating NUL
once set, because main_tlswrapper_smtp.c:683 and 728 do not take it back from `len`. -/
structure S where
  buf : Bytes
  net : List Ev
  cin : Bytes
  wr : List Bool
  gwr : List Bool
  gin : List Bytes
  acks : Bytes
  ctl : Bool
  line : Bytes
  cline : Bytes
  mailfrom : Bytes
  rcptto : Bytes
  rcpttodata : Bytes
  rcptcount : Nat
  log : List Act
  deriving Repr, DecidableEq

/-- Outcome of a part of the session: it goes on, the process ended by `die(x)`,
or undefined behaviour (control flow of main_tlswrapper_smtp.c:250-1022). -/
inductive R (α : Type) where
  | ok (a : α) (s : S)
  | die (x : Int) (s : S)
  | ub
  deriving Repr, DecidableEq

/-- Code of the front end (main_tlswrapper_smtp.c:250-1022). -/
def M (α : Type) := S → R α

instance : Monad M where
  pure a := fun s => .ok a s
  bind m f := fun s => match m s with
    | .ok a s => f a s
    | .die x s => .die x s
    | .ub => .ub

/-- `die(x)`, main_tlswrapper_smtp.c:88-108 (what happens after: `Main.smtpExit`). -/
def die {α : Type} (x : Int) : M α := fun s => .die x s
/-- A library call (e.g. main_tlswrapper_smtp.c:337-343). -/
def lift {α : Type} (x : Out α) : M α := fun s => match x with
  | .ok a => .ok a s
  | .ub => .ub
/-- Read the state (state of main_tlswrapper_smtp.c:231-248). -/
def get : M S := fun s => .ok s s
/-- Change the state (state of main_tlswrapper_smtp.c:231-248). -/
def modify (f : S → S) : M Unit := fun s => .ok () (f s)
/-- Record an action (for the record only; the effects of main_tlswrapper_smtp.c:250-1022). -/
def act (a : Act) : M Unit := modify fun s => { s with log := s.log ++ [a] }

/-- main_tlswrapper_smtp.c:159-163. -/
def maxLine : Nat := 4096
/-- main_tlswrapper_smtp.c:159-163. -/
def maxMailfrom : Nat := 2048
/-- main_tlswrapper_smtp.c:159-163. -/
def maxRcptto : Nat := 2048
/-- main_tlswrapper_smtp.c:159-163. -/
def maxRcpts : Nat := 256
/-- main_tlswrapper_smtp.c:159-163. -/
def maxRcpttodata : Nat := 65536

/-- The bytes `buffer_puts` takes from a string (buffer.c, `str_len`): those
before the first NUL. -/
def upToNul (s : Bytes) : Bytes := s.takeWhile (· ≠ 0)

/-- `_write`, main_tlswrapper_smtp.c:203-210: a failing write ends the session. -/
def write : M Unit := fun s => match s.wr with
  | false :: t => .die 111 { s with wr := t }
  | true :: t => .ok () { s with wr := t }
  | [] => .ok () s

/-- `buffer_putsflush(&ssout, s)` (e.g. main_tlswrapper_smtp.c:599-600). -/
def toClient (d : Bytes) : M Unit := do write; act (.client (upToNul d))
/-- `buffer_putsflush(&sscout, s)` and `buffer_puts(&sscout, s)` (main_tlswrapper_smtp.c:598, 639).
-/
def toChild (d : Bytes) : M Unit := do write; act (.child (upToNul d))

/-- `_read` on descriptor 0 as `ssin` calls it: wait for bytes (main_tlswrapper_smtp.c:221-229). -/
def refill : List Ev → Option (Byte × Bytes × List Ev)
  | .data (b :: d) :: t => some (b, d, t)
  | .gap :: t => refill t
  | .data [] :: _ => none
  | .fail :: _ => none
  | [] => none

/-- `buffer_GETC(&ssin, &ch)` (main_tlswrapper_smtp.c:535). -/
def getc : M Byte := fun s => match s.buf with
  | b :: d => .ok b { s with buf := d }
  | [] => match refill s.net with
    | some (b, d, t) => .ok b { s with buf := d, net := t }
    | none => .die 111 s

/-- `buffer_GETC(&sscin, &ch)` (main_tlswrapper_smtp.c:474, 482). -/
def cgetc : M Byte := fun s => match s.cin with
  | b :: t => .ok b { s with cin := t }
  | [] => .die 111 s

/-- main_tlswrapper_smtp.c:337-343, on `line`. -/
def lineAppend (ch : Byte) : M Unit := do
  let s ← get
  if s.line.length ≥ maxLine then die 111
  modify fun s => { s with line := s.line ++ [ch] }

/-- main_tlswrapper_smtp.c:337-343, on `cline`. -/
def clineAppend (ch : Byte) : M Unit := do
  let s ← get
  if s.cline.length ≥ maxLine then die 111
  modify fun s => { s with cline := s.cline ++ [ch] }

/-- `if (len > 0) if (s[len - 1] == c) --len;` (main_tlswrapper_smtp.c:540-541, 640-641). -/
def strip (c : Byte) (s : Bytes) : Bytes :=
  if s.getLast? = some c then s.dropLast else s

/-- `_catlogid`, main_tlswrapper_smtp.c:296-304. -/
def catlogid (cfg : Cfg) (s : Bytes) : Bytes :=
  match cfg.id with
  | some id => s ++ b!" [" ++ id ++ b!"]"
  | none => s

/-- main_tlswrapper_smtp.c:323-328 (with 312-316). -/
def resetTransaction : M Unit :=
  modify fun s => { s with mailfrom := [], rcptto := [], rcpttodata := [], rcptcount := 0 }

/-- How many bytes descriptor 0 can still deliver: bounds the loops that read (a bound for the
loops of main_tlswrapper_smtp.c:533-539, 637-645). -/
def evBytes : List Ev → Nat
  | .data d :: t => d.length + evBytes t
  | _ :: t => evBytes t
  | [] => 0
/-- The bytes descriptor 0 will still deliver before the end of input or a failure (the reads of
main_tlswrapper_smtp.c:221-229). -/
def evStream : List Ev → Bytes
  | .data (b :: d) :: t => b :: d ++ evStream t
  | .gap :: t => evStream t
  | .data [] :: _ => []
  | .fail :: _ => []
  | [] => []
/-- How many bytes the client's side can still deliver (a bound for the loops of
main_tlswrapper_smtp.c:533-539, 637-645). -/
def avail (s : S) : Nat := s.buf.length + evBytes s.net

/-- The loop of main_tlswrapper_smtp.c:533-539; `raw` collects what was read. The first argument
only bounds the recursion: `avail` is enough (`getc` ends the session when
nothing is left). -/
def readlineLoop : Nat → Bytes → M Unit
  | 0, _ => die 111
  | n + 1, raw => do
    let ch ← getc
    if ch = c! '\n' then act (.line raw)
    else do
      lineAppend (if ch = 0 then c! '\n' else ch)
      readlineLoop n (raw ++ [ch])

/-- `readline`, main_tlswrapper_smtp.c:529-546. -/
def readline : M Unit := do
  modify fun s => { s with line := [] }
  let s ← get
  readlineLoop (avail s + 1) []
  modify fun s => { s with line := strip (c! '\r') s.line ++ b!"\r\n" }

/-- `while (ch != '\n') { buffer_GETC; smtp_line_append }`, main_tlswrapper_smtp.c:481-484 and
491-494. The first argument bounds the recursion. -/
def restOfLine : Nat → Byte → M Unit
  | 0, _ => die 111
  | n + 1, ch =>
    if ch = c! '\n' then pure ()
    else do
      let ch ← cgetc
      clineAppend ch
      restOfLine n ch

/-- main_tlswrapper_smtp.c:473-490: the loop over the lines of a reply; returns the byte that
ended it. -/
def replyLoop (append : Bool) (code : Nat) : Nat → M Byte
  | 0 => die 111
  | n + 1 => do
    let ch ← cgetc
    if append ∧ code = 250 ∧ ch = c! ' ' then clineAppend (c! '-') else clineAppend ch
    if ch ≠ c! '-' then pure ch
    else do
      let s ← get
      restOfLine (s.cin.length + 2) ch
      let ch ← cgetc; clineAppend ch
      let ch ← cgetc; clineAppend ch
      let ch ← cgetc; clineAppend ch
      replyLoop append code n

/-- main_tlswrapper_smtp.c:495-521: the end of `smtpline`. -/
def finish (cfg : Cfg) (append : Option Bytes) (addlogid : Bool) (code : Nat) : M Nat := do
  match append with
  | some a => if code = 250 then do
      let s ← get
      if s.cline.length + a.length > maxLine then die 111
      modify fun s => { s with cline := s.cline ++ a }
  | none => pure ()
  if addlogid ∧ cfg.id.isSome then
    modify fun s =>
      { s with cline := catlogid cfg (strip (c! '\r') (strip (c! '\n') s.cline)) ++ b!"\r\n" }
  pure code

/-- `smtpline`, main_tlswrapper_smtp.c:459-522. `append` is the extra line, if any. The result is
the `unsigned long long` code. -/
def smtpline (cfg : Cfg) (append : Option Bytes) (addlogid : Bool) : M Nat := do
  modify fun s => { s with cline := [] }
  let s0 ← get
  let ch ← cgetc
  let code := toU64 ((ch.toNat : Int) - 48)
  clineAppend ch
  let ch ← cgetc
  let code := toU64 ((code : Int) * 10 + ((ch.toNat : Int) - 48))
  clineAppend ch
  let ch ← cgetc
  let code := toU64 ((code : Int) * 10 + ((ch.toNat : Int) - 48))
  clineAppend ch
  let s ← get
  let ch ← replyLoop append.isSome code (s.cin.length + 1)
  let s ← get
  restOfLine (s.cin.length + 2) ch
  modify fun s => { s with log := s.log ++ [.reply (s0.cin.take (s0.cin.length - s.cin.length))] }
  finish cfg append addlogid code

/-- `smtp_greet`, main_tlswrapper_smtp.c:581-585. -/
def smtpGreet (cfg : Cfg) : M Unit := do
  let _ ← smtpline cfg none true
  let s ← get
  toClient s.cline

/-- `copy`, main_tlswrapper_smtp.c:594-603. -/
def copy (cfg : Cfg) (logid : Bool) : M Nat := do
  let s ← get
  toChild s.line
  let code ← smtpline cfg none logid
  let s ← get
  toClient s.cline
  pure code

/-- `smtp_default`, main_tlswrapper_smtp.c:608. -/
def smtpDefault (cfg : Cfg) : M Unit := do
  let _ ← copy cfg false

/-- `smtp_quit`, main_tlswrapper_smtp.c:613-616. -/
def smtpQuit (cfg : Cfg) : M Unit := do
  let _ ← copy cfg true
  die 0

/-- The body loop, main_tlswrapper_smtp.c:637-645. The first argument bounds the recursion. -/
def bodyLoop : Nat → M Unit
  | 0 => die 111
  | n + 1 => do
    readline
    let s ← get
    toChild s.line
    modify fun s => { s with line := strip (c! '\r') (strip (c! '\n') s.line) }
    let s ← get
    if s.line = b!"." then pure () else bodyLoop n

/-- `smtp_data`, main_tlswrapper_smtp.c:624-655. -/
def smtpData (cfg : Cfg) : M Unit := do
  let s ← get
  toChild s.line
  let code ← smtpline cfg none true
  let s ← get
  toClient s.cline
  if code ≠ 354 then pure ()
  else do
    let s ← get
    bodyLoop (avail s + 1)
    let _ ← smtpline cfg none true
    let s ← get
    toClient s.cline
    resetTransaction

/-- main_tlswrapper_smtp.c:671-679 and 706-717: the argument up to its first space, without the
line ending. -/
def argument (s : Bytes) : Bytes :=
  (strip (c! '\r') (strip (c! '\n') s)).takeWhile (· ≠ c! ' ')

/-- `smtp_mail`, main_tlswrapper_smtp.c:663-689. `line` is followed by its NUL in memory. -/
def smtpMail (cfg : Cfg) : M Unit := do
  resetTransaction
  let s ← get
  if s.line.length ≥ 10 then do
    let d ← lift (case_diffb (s.line ++ [0]) 10 b!"mail from:\x00")
    if d = 0 then do
      let a := argument (s.line.drop 10)
      if a.length > maxMailfrom then die 111
      modify fun s => { s with mailfrom := a ++ [0] }
  let _ ← copy cfg true

/-- `_gwrite`, main_tlswrapper_smtp.c:366-377, and the checks of main_tlswrapper_smtp.c:417-425: false means
`greylist` returns 0. -/
def greyWrite (cfg : Cfg) : M Bool := fun s => match s.gwr with
  | false :: t => if cfg.closed then .die 111 { s with gwr := t } else .ok false { s with gwr := t }
  | true :: t => .ok true { s with gwr := t }
  | [] => .ok true s

/-- main_tlswrapper_smtp.c:429-436: read the answer's line from the buffered bytes `buf` and the
further reads; none means `greylist` returns 0. A read that fails, ends or takes longer than the
timeout (`[]`) is over: what the server sends later is there for the next question. What is left
in the buffer is forgotten (main_tlswrapper_smtp.c:415, 427). `n` bounds the recursion. -/
def greyRead (cfg : Cfg) : Nat → Bytes → Bytes → M (Option Bytes)
  | 0, _, _ => die 111
  | n + 1, buf, resp => do
    let s ← get
    match buf, s.gin with
    | [], [] => if cfg.closed then die 111 else pure none
    | [], [] :: t => do
      modify fun s => { s with gin := t }
      if cfg.closed then die 111 else pure none
    | [], (b :: d) :: t => do
      modify fun s => { s with gin := t }
      greyRead cfg n (b :: d) resp
    | ch :: buf, _ =>
      if resp.length ≥ maxLine then do
        act (.answer resp)
        pure none
      else if ch = c! '\n' then pure (some (resp ++ [ch]))
      else greyRead cfg n buf (resp ++ [ch])

/-- The number of steps `greyRead` can take (a bound for main_tlswrapper_smtp.c:429-436). -/
def greyBytes (l : List Bytes) : Nat := (l.map fun d => d.length + 1).sum

/-- The request, main_tlswrapper_smtp.c:417-424. -/
def request (cfg : Cfg) (s : S) : Bytes :=
  b!"request=smtpd_access_policy\n" ++ b!"client_address=" ++ upToNul cfg.ip ++
    b!"\nsender=" ++ upToNul s.mailfrom ++ b!"\nrecipient=" ++ upToNul s.rcptto ++ b!"\n\n"

/-- main_tlswrapper_smtp.c:439-446: `greylistresp.len` counts the NUL appended in main_tlswrapper_smtp.c:437. -/
def answerIs (resp : Bytes) (n : Nat) (key : Bytes) : Out Bool := do
  if resp.length + 1 ≥ n then
    let d ← case_diffb (resp ++ [0]) n key
    .ok (d = 0)
  else .ok false

/-- `greylist`, main_tlswrapper_smtp.c:409-448. -/
def greylist (cfg : Cfg) : M (Option Bytes) := do
  let s ← get
  let ok ← greyWrite cfg
  if !ok then pure none
  else do
    act (.ask (request cfg s))
    match ← greyRead cfg (greyBytes s.gin + 1) [] [] with
    | none => pure none
    | some resp => do
      act (.answer resp)
      if ← lift (answerIs resp 12 b!"action=dunno\x00") then pure none
      else if ← lift (answerIs resp 13 b!"action=reject\x00") then
        pure (some b!"553 bad reputation (#5.7.1)")
      else pure (some b!"450 greylisted (#4.3.0)")

/-- main_tlswrapper_smtp.c:701-738: remember the recipient. -/
def rememberRcpt : M Unit := do
  let s ← get
  if s.line.length ≥ 8 then do
    let d ← lift (case_diffb (s.line ++ [0]) 8 b!"rcpt to:\x00")
    if d = 0 then do
      let a := argument (s.line.drop 8)
      if a.length > maxRcptto then die 111
      if s.rcptcount ≥ maxRcpts then die 111
      if s.rcpttodata.length + a.length + 1 > maxRcpttodata then die 111
      modify fun s => { s with
        rcpttodata := s.rcpttodata ++ a ++ b!",", rcptto := a ++ [0], rcptcount := s.rcptcount + 1 }

/-- `smtp_rcpt`, main_tlswrapper_smtp.c:697-753. -/
def smtpRcpt (cfg : Cfg) : M Unit := do
  rememberRcpt
  let s ← get
  let msg ← if s.mailfrom ≠ [] ∧ s.rcptto ≠ [] ∧ cfg.grey then greylist cfg else pure none
  match msg with
  | some msg => do
    modify fun s => { s with cline := catlogid cfg msg ++ b!"\r\n" }
    let s ← get
    toClient s.cline
  | none => do
    let _ ← copy cfg true

/-- `smtp_ehlo`, main_tlswrapper_smtp.c:758-767. -/
def smtpEhlo (cfg : Cfg) : M Unit := do
  let s ← get
  toChild s.line
  let _ ← smtpline cfg (if s.ctl then some b!"250 STARTTLS\r\n" else none) false
  let s ← get
  toClient s.cline

/-- The reads of main_tlswrapper_smtp.c:268-279: what is left after throwing away everything that
is readable at once; none if a read fails. At the end of input the next read
finds the end of input again. -/
def drain : List Ev → Option (List Ev)
  | .data (_ :: _) :: t => drain t
  | .data [] :: t => some (.data [] :: t)
  | .gap :: t => some t
  | .fail :: _ => none
  | [] => some []

/-- `smtp_discard_starttls_cleartext`, main_tlswrapper_smtp.c:262-287. -/
def discard : M Unit := fun s => match drain s.net with
  | some t => .ok () { s with buf := [], net := t, log := s.log ++ [.discard (evStream t).length] }
  | none => .die 111 { s with buf := [] }

/-- main_tlswrapper_smtp.c:801: read the acknowledgement through the unbuffered `ssin6`. -/
def readAck : M Unit := fun s => match s.acks with
  | b :: t =>
    let s := { s with acks := t, log := s.log ++ [.ack b] }
    if b = 0 then .ok () s else .die 111 s
  | [] => .die 111 s

/-- `smtp_starttls`, main_tlswrapper_smtp.c:777-809. -/
def smtpStarttls (cfg : Cfg) : M Unit := do
  let s ← get
  if !s.ctl then do
    modify fun s => { s with cline := catlogid cfg b!"502 unimplemented (#5.5.1)" ++ b!"\r\n" }
    let s ← get
    toClient s.cline
  else do
    modify fun s => { s with cline := catlogid cfg b!"220 ready to start TLS (#2.0.0)" ++ b!"\r\n" }
    let s ← get
    toClient s.cline
    write
    act (.ctl [0])
    modify fun s => { s with ctl := false }
    discard
    readAck
    toChild b!"RSET\r\n"
    let _ ← smtpline cfg none true
    resetTransaction

/-- The commands of the table, main_tlswrapper_smtp.c:812-820. -/
inductive Verb where
  | quit | data | mail | rcpt | ehlo | starttls | default
  deriving Repr, DecidableEq

/-- The verbs of the table in memory, in its order, with what they stand for
(main_tlswrapper_smtp.c:812-820). -/
def table : List (Bytes × Verb) :=
  [(b!"quit\x00", .quit), (b!"data\x00", .data), (b!"mail\x00", .mail), (b!"rcpt\x00", .rcpt),
    (b!"ehlo\x00", .ehlo), (b!"starttls\x00", .starttls)]

/-- main_tlswrapper_smtp.c:565-569: the length of the first word. -/
def wordLen (line : Bytes) : Nat :=
  (line.takeWhile fun b => b ≠ c! ' ' ∧ b ≠ c! '\r' ∧ b ≠ c! '\n').length

/-- main_tlswrapper_smtp.c:571-573. -/
def lookup (line : Bytes) (len : Nat) : List (Bytes × Verb) → Out Verb
  | [] => .ok .default
  | (v, a) :: t => do
    if (← case_diffb (line ++ [0]) len v) = 0 then .ok a else lookup line len t

/-- The action of a command (main_tlswrapper_smtp.c:574). -/
def run (cfg : Cfg) : Verb → M Unit
  | .quit => smtpQuit cfg
  | .data => smtpData cfg
  | .mail => smtpMail cfg
  | .rcpt => smtpRcpt cfg
  | .ehlo => smtpEhlo cfg
  | .starttls => smtpStarttls cfg
  | .default => smtpDefault cfg

/-- One round of the loop of main_tlswrapper_smtp.c:562-575. -/
def command (cfg : Cfg) : M Unit := do
  readline
  let s ← get
  let v ← lift (lookup s.line (wordLen s.line) table)
  run cfg v

/-- `commands`, main_tlswrapper_smtp.c:558-576, for at most `n` commands. -/
def commands (cfg : Cfg) : Nat → M Unit
  | 0 => pure ()
  | n + 1 => do command cfg; commands cfg n

/-- main_tlswrapper_smtp.c:1021-1022: greet and serve. Every command takes at least one byte of
the finite input, so `avail + 1` rounds are all there can be. -/
def session (cfg : Cfg) : M Unit := do
  smtpGreet cfg
  let s ← get
  commands cfg (avail s + 1)

/-- The state when the session starts (main_tlswrapper_smtp.c:1014-1020). -/
def start (net : List Ev) (cin : Bytes) (ctl : Bool) (acks : Bytes) (gin : List Bytes)
    (wr gwr : List Bool) : S :=
  ⟨[], net, cin, wr, gwr, gin, acks, ctl, [], [], [], [], [], 0, []⟩

end Smtp
