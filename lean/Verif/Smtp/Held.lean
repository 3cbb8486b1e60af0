import Verif.Smtp.Mail
import Verif.Smtp.MailErase
import Verif.Buffer.Spec
/-
Which operations on its output buffers the SMTP front end makes, and when it waits
(main_tlswrapper_smtp.c:409-1027). `Smtp.Model` records bytes for the mail program when they are
put into the buffer; here the operations of buffer.c are recorded as they are called, together with
the moments at which the front end waits for somebody. The functions of `Smtp.Model` are run
unchanged (`upH`), the marks are put in their places.
Left out: the buffer of the greylist request, which is a fresh one for each request and flushed
before the answer is read (main_tlswrapper_smtp.c:415-425), and descriptor 5, whose buffer has no
storage (main_tlswrapper_smtp.c:238).
-/
namespace Smtp
open Str
open Buffer (OOp)

/-- What the front end waits for: an answer of the mail program (main_tlswrapper_smtp.c:470), a
command of the client (:563), a line of a message (:638), the answer of the greylist server (:430),
the acknowledgement of STARTTLS (:801). -/
inductive Wait where
  | reply | command | body | answer | ack
  deriving Repr, DecidableEq

/-- An operation on `sscout` (the mail program), one on `ssout` (the client), or a wait
(main_tlswrapper_smtp.c:409-1027). -/
inductive Mark where
  | program (o : OOp)
  | client (o : OOp)
  | wait (w : Wait)
  deriving Repr, DecidableEq

/-- Outcome with marks (control flow of main_tlswrapper_smtp.c:250-1022, as `R`). -/
inductive RH (α : Type) where
  | ok (a : α) (s : S) (h : List Mark)
  | die (x : Int) (s : S) (h : List Mark)
  | ub
  deriving Repr, DecidableEq

/-- Code with marks (main_tlswrapper_smtp.c:250-1022, as `M`). -/
def MH (α : Type) := S → List Mark → RH α

instance : Monad MH where
  pure a := fun s h => .ok a s h
  bind m f := fun s h => match m s h with
    | .ok a s h => f a s h
    | .die x s h => .die x s h
    | .ub => .ub

/-- Code that touches neither buffer and does not wait, or whose marks are put beside it
(any of main_tlswrapper_smtp.c:250-1022). -/
def upH {α : Type} (m : M α) : MH α := fun s h => match m s with
  | .ok a s => .ok a s h
  | .die x s => .die x s h
  | .ub => .ub

/-- A mark (e.g. main_tlswrapper_smtp.c:598). -/
def mark (m : Mark) : MH Unit := fun s h => .ok () s (h ++ [m])

/-- `buffer_putsflush(&sscout, s)`, e.g. main_tlswrapper_smtp.c:598. -/
def putsflushChild (d : Bytes) : MH Unit := do
  mark (.program (.putsflush (upToNul d) []))
  upH (toChild d)
/-- `buffer_puts(&sscout, s)`, main_tlswrapper_smtp.c:639. -/
def putsChild (d : Bytes) : MH Unit := do
  mark (.program (.puts (upToNul d) []))
  upH (toChild d)
/-- `buffer_flush(&sscout)`, main_tlswrapper_smtp.c:646. -/
def flushChild : MH Unit := mark (.program .flush)
/-- `buffer_putsflush(&ssout, s)`, e.g. main_tlswrapper_smtp.c:600. -/
def putsflushClient (d : Bytes) : MH Unit := do
  mark (.client (.putsflush (upToNul d) []))
  upH (toClient d)

/-- `smtpline`, main_tlswrapper_smtp.c:459-522. -/
def smtplineH (cfg : Cfg) (append : Option Bytes) (addlogid : Bool) : MH Nat := do
  mark (.wait .reply)
  upH (smtpline cfg append addlogid)

/-- `readline`, main_tlswrapper_smtp.c:529-546. -/
def readlineH (w : Wait) : MH Unit := do
  mark (.wait w)
  upH readline

/-- `smtp_greet`, main_tlswrapper_smtp.c:581-585. -/
def greetH (cfg : Cfg) : MH Unit := do
  let _ ← smtplineH cfg none true
  let s ← upH get
  putsflushClient s.cline

/-- `copy`, main_tlswrapper_smtp.c:594-603. -/
def copyH (cfg : Cfg) (logid : Bool) : MH Nat := do
  let s ← upH get
  putsflushChild s.line
  let code ← smtplineH cfg none logid
  let s ← upH get
  putsflushClient s.cline
  pure code

/-- `smtp_quit`, main_tlswrapper_smtp.c:613-616. -/
def quitH (cfg : Cfg) : MH Unit := do
  let _ ← copyH cfg true
  upH (die 0)

/-- The body loop, main_tlswrapper_smtp.c:637-645. The first argument bounds the recursion. -/
def bodyLoopH : Nat → MH Unit
  | 0 => upH (die 111)
  | n + 1 => do
    readlineH .body
    let s ← upH get
    putsChild s.line
    upH (modify fun s => { s with line := strip (c! '\r') (strip (c! '\n') s.line) })
    let s ← upH get
    if s.line = b!"." then pure () else bodyLoopH n

/-- `smtp_data`, main_tlswrapper_smtp.c:624-655. -/
def dataH (cfg : Cfg) : MH Unit := do
  let s ← upH get
  putsflushChild s.line
  let code ← smtplineH cfg none true
  let s ← upH get
  putsflushClient s.cline
  if code ≠ 354 then pure ()
  else do
    let s ← upH get
    bodyLoopH (avail s + 1)
    flushChild                                                   -- :646
    let _ ← smtplineH cfg none true
    let s ← upH get
    putsflushClient s.cline
    upH resetTransaction

/-- `smtp_mail`, main_tlswrapper_smtp.c:663-689. -/
def mailH (cfg : Cfg) : MH Unit := do
  upH rememberMail
  let _ ← copyH cfg true

/-- `greylist`, main_tlswrapper_smtp.c:409-448. -/
def greylistH (cfg : Cfg) : MH (Option Bytes) := do
  mark (.wait .answer)
  upH (greylist cfg)

/-- `smtp_rcpt`, main_tlswrapper_smtp.c:697-753. -/
def rcptH (cfg : Cfg) : MH Unit := do
  upH rememberRcpt
  let s ← upH get
  let msg ← if s.mailfrom ≠ [] ∧ s.rcptto ≠ [] ∧ cfg.grey then greylistH cfg else pure none
  match msg with
  | some msg => do
    upH (modify fun s => { s with cline := catlogid cfg msg ++ b!"\r\n" })
    let s ← upH get
    putsflushClient s.cline
  | none => do
    let _ ← copyH cfg true

/-- `smtp_ehlo`, main_tlswrapper_smtp.c:758-767. -/
def ehloH (cfg : Cfg) : MH Unit := do
  let s ← upH get
  putsflushChild s.line
  let _ ← smtplineH cfg (if s.ctl then some b!"250 STARTTLS\r\n" else none) false
  let s ← upH get
  putsflushClient s.cline

/-- main_tlswrapper_smtp.c:801. -/
def readAckH : MH Unit := do
  mark (.wait .ack)
  upH readAck

/-- `smtp_starttls`, main_tlswrapper_smtp.c:777-809. -/
def starttlsH (cfg : Cfg) : MH Unit := do
  let s ← upH get
  if !s.ctl then do
    upH (modify fun s => { s with cline := catlogid cfg b!"502 unimplemented (#5.5.1)" ++ b!"\r\n" })
    let s ← upH get
    putsflushClient s.cline
  else do
    upH (modify fun s => { s with cline := catlogid cfg b!"220 ready to start TLS (#2.0.0)" ++ b!"\r\n" })
    let s ← upH get
    putsflushClient s.cline
    upH write
    upH (act (.ctl [0]))
    upH (modify fun s => { s with ctl := false })
    upH discard
    readAckH
    putsflushChild b!"RSET\r\n"
    let _ ← smtplineH cfg none true
    upH resetTransaction

/-- The action of a command (main_tlswrapper_smtp.c:574); `.default`: :608. -/
def runH (cfg : Cfg) : Verb → MH Unit
  | .quit => quitH cfg
  | .data => dataH cfg
  | .mail => mailH cfg
  | .rcpt => rcptH cfg
  | .ehlo => ehloH cfg
  | .starttls => starttlsH cfg
  | .default => do
    let _ ← copyH cfg false

/-- One round of the loop of main_tlswrapper_smtp.c:562-575. -/
def commandH (cfg : Cfg) : MH Unit := do
  readlineH .command
  let s ← upH get
  let v ← upH (lift (lookup s.line (wordLen s.line) table))
  runH cfg v

/-- `commands`, main_tlswrapper_smtp.c:558-576, for at most `n` commands. -/
def commandsH (cfg : Cfg) : Nat → MH Unit
  | 0 => pure ()
  | n + 1 => do commandH cfg; commandsH cfg n

/-- main_tlswrapper_smtp.c:1021-1022: greet and serve. -/
def sessionH (cfg : Cfg) : MH Unit := do
  greetH cfg
  let s ← upH get
  commandsH cfg (avail s + 1)

end Smtp
