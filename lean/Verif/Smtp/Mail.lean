import Verif.Smtp.Trace
/-
What the SMTP front end writes to its log about the session (the calls of log_t3, log_d3, log_d2,
log_w4, log_w6 and log_i6 of main_tlswrapper_smtp.c:500-809 that carry text of the session).
The functions of `Smtp.Model` are run unchanged (`up`), and the log calls are put in their places.
Left out: records with a fixed text or a number only, which come directly before the session ends
or at tracing level, and the trace of the greylist server's answer (main_tlswrapper_smtp.c:438).
-/
namespace Smtp
open Str

/-- The level of a record: log_t, log_d, log_w, log_i as used at main_tlswrapper_smtp.c:500-809. -/
inductive Lvl where
  | trace | debug | warn | info
  deriving Repr, DecidableEq

/-- A record: its level and its text (log.c joins the arguments; each argument ends at its NUL;
calls at main_tlswrapper_smtp.c:500-809). -/
structure Rec where
  level : Lvl
  text : Bytes
  deriving Repr, DecidableEq

/-- Actions and records in the order in which they happen (main_tlswrapper_smtp.c:500-809). -/
abbrev Hist := List (Act ⊕ Rec)

/-- Outcome of code with its log calls (control flow of main_tlswrapper_smtp.c:250-1022, as `R`). -/
inductive RL (α : Type) where
  | ok (a : α) (s : S) (h : Hist)
  | die (x : Int) (s : S) (h : Hist)
  | ub
  deriving Repr, DecidableEq

/-- Code with its log calls (main_tlswrapper_smtp.c:250-1022, as `M`). -/
def ML (α : Type) := S → Hist → RL α

instance : Monad ML where
  pure a := fun s h => .ok a s h
  bind m f := fun s h => match m s h with
    | .ok a s h => f a s h
    | .die x s h => .die x s h
    | .ub => .ub

/-- What `s'` has done since `s`. (For the record only; models no line of /repo.) -/
def since (s s' : S) : Hist := (s'.log.drop s.log.length).map .inl

/-- Code without log calls (any of main_tlswrapper_smtp.c:250-1022). -/
def up {α : Type} (m : M α) : ML α := fun s h => match m s with
  | .ok a s' => .ok a s' (h ++ since s s')
  | .die x s' => .die x s' (h ++ since s s')
  | .ub => .ub

/-- A log call (e.g. main_tlswrapper_smtp.c:601). -/
def say (l : Lvl) (text : Bytes) : ML Unit := fun s h => .ok () s (h ++ [.inr ⟨l, text⟩])

/-- `readline` with main_tlswrapper_smtp.c:545. -/
def readlineL : ML Unit := do
  up readline
  let s ← up get
  say .trace (b!"line: '" ++ upToNul s.line ++ b!"'")

/-- `smtpline` with main_tlswrapper_smtp.c:507 or 519 (simplified: where both are made, the second
only). -/
def smtplineL (cfg : Cfg) (append : Option Bytes) (addlogid : Bool) : ML Nat := do
  let code ← up (smtpline cfg append addlogid)
  let s ← up get
  say .trace (b!"child line: '" ++ upToNul s.cline ++ b!"'")
  pure code

/-- `log_d3(line.s, ": ", cline.s)`, e.g. main_tlswrapper_smtp.c:601. -/
def sayLine : ML Unit := do
  let s ← up get
  say .debug (upToNul s.line ++ b!": " ++ upToNul s.cline)

/-- `log_w6("F=", mailfrom.s, " T=", rcpttodata.s, ": ", cline.s)` and the same with log_i6,
main_tlswrapper_smtp.c:633, 651, 653. (The strings are never null, at which a record would stop:
main_tlswrapper_smtp.c:1020.) -/
def sayMessage (l : Lvl) : ML Unit := do
  let s ← up get
  say l (b!"F=" ++ upToNul s.mailfrom ++ b!" T=" ++ upToNul s.rcpttodata ++ b!": " ++ upToNul s.cline)

/-- `log_w6("F=", mailfrom.s, " T=", rcptto.s, ": ", cline.s)`, main_tlswrapper_smtp.c:744, 751. -/
def sayRcpt : ML Unit := do
  let s ← up get
  say .warn (b!"F=" ++ upToNul s.mailfrom ++ b!" T=" ++ upToNul s.rcptto ++ b!": " ++ upToNul s.cline)

/-- `smtp_greet`, main_tlswrapper_smtp.c:581-585. -/
def greetL (cfg : Cfg) : ML Unit := do
  let _ ← smtplineL cfg none true
  let s ← up get
  up (toClient s.cline)

/-- `copy`, main_tlswrapper_smtp.c:594-603. -/
def copyL (cfg : Cfg) (logid : Bool) : ML Nat := do
  let s ← up get
  up (toChild s.line)
  let code ← smtplineL cfg none logid
  let s ← up get
  up (toClient s.cline)
  sayLine
  pure code

/-- `smtp_default`, main_tlswrapper_smtp.c:608. -/
def defaultL (cfg : Cfg) : ML Unit := do
  let _ ← copyL cfg false

/-- `smtp_quit`, main_tlswrapper_smtp.c:613-616. -/
def quitL (cfg : Cfg) : ML Unit := do
  let _ ← copyL cfg true
  up (die 0)

/-- The body loop, main_tlswrapper_smtp.c:637-645. The first argument bounds the recursion. -/
def bodyLoopL : Nat → ML Unit
  | 0 => up (die 111)
  | n + 1 => do
    readlineL
    let s ← up get
    up (toChild s.line)
    up (modify fun s => { s with line := strip (c! '\r') (strip (c! '\n') s.line) })
    let s ← up get
    if s.line = b!"." then pure () else bodyLoopL n

/-- `smtp_data`, main_tlswrapper_smtp.c:624-655. -/
def dataL (cfg : Cfg) : ML Unit := do
  let s ← up get
  up (toChild s.line)
  let code ← smtplineL cfg none true
  let s ← up get
  up (toClient s.cline)
  if code ≠ 354 then do
    sayLine                                                       -- :632
    sayMessage .warn                                              -- :633
  else do
    let s ← up get
    bodyLoopL (avail s + 1)
    let code ← smtplineL cfg none true
    let s ← up get
    up (toClient s.cline)
    say .debug (b!"DATA: " ++ upToNul s.cline)                    -- :649
    if code ≠ 250 then sayMessage .warn else sayMessage .info     -- :650-653
    up resetTransaction

/-- `smtp_mail` up to its `copy`, main_tlswrapper_smtp.c:667-686. -/
def rememberMail : M Unit := do
  resetTransaction
  let s ← get
  if s.line.length ≥ 10 then do
    let d ← lift (case_diffb (s.line ++ [0]) 10 b!"mail from:\x00")
    if d = 0 then do
      let a := argument (s.line.drop 10)
      if a.length > maxMailfrom then die 111
      modify fun s => { s with mailfrom := a ++ [0] }

/-- `smtp_mail`, main_tlswrapper_smtp.c:663-689. -/
def mailL (cfg : Cfg) : ML Unit := do
  up rememberMail
  let code ← copyL cfg true
  if code ≠ 250 then do                                           -- :688
    let s ← up get
    say .warn (b!"F=" ++ upToNul s.mailfrom ++ b!": " ++ upToNul s.cline)

/-- `smtp_rcpt`, main_tlswrapper_smtp.c:697-753. -/
def rcptL (cfg : Cfg) : ML Unit := do
  up rememberRcpt
  let s ← up get
  let msg ← if s.mailfrom ≠ [] ∧ s.rcptto ≠ [] ∧ cfg.grey then up (greylist cfg) else pure none
  match msg with
  | some msg => do
    up (modify fun s => { s with cline := catlogid cfg msg ++ b!"\r\n" })
    let s ← up get
    up (toClient s.cline)
    sayLine                                                       -- :743
    sayRcpt                                                       -- :744
  | none => do
    let code ← copyL cfg true
    if code ≠ 250 then sayRcpt                                    -- :750-752

/-- `smtp_ehlo`, main_tlswrapper_smtp.c:758-767. -/
def ehloL (cfg : Cfg) : ML Unit := do
  let s ← up get
  up (toChild s.line)
  let _ ← smtplineL cfg (if s.ctl then some b!"250 STARTTLS\r\n" else none) false
  let s ← up get
  up (toClient s.cline)
  sayLine                                                         -- :766

/-- `smtp_starttls`, main_tlswrapper_smtp.c:777-809. -/
def starttlsL (cfg : Cfg) : ML Unit := do
  let s ← up get
  if !s.ctl then do
    up (modify fun s => { s with cline := catlogid cfg b!"502 unimplemented (#5.5.1)" ++ b!"\r\n" })
    let s ← up get
    up (toClient s.cline)
    sayLine                                                       -- :787
  else do
    up (modify fun s => { s with cline := catlogid cfg b!"220 ready to start TLS (#2.0.0)" ++ b!"\r\n" })
    let s ← up get
    up (toClient s.cline)
    up write
    up (act (.ctl [0]))
    up (modify fun s => { s with ctl := false })
    sayLine                                                       -- :797
    up discard
    up readAck
    up (toChild b!"RSET\r\n")
    let _ ← smtplineL cfg none true
    up resetTransaction

/-- The action of a command (main_tlswrapper_smtp.c:574). -/
def runL (cfg : Cfg) : Verb → ML Unit
  | .quit => quitL cfg
  | .data => dataL cfg
  | .mail => mailL cfg
  | .rcpt => rcptL cfg
  | .ehlo => ehloL cfg
  | .starttls => starttlsL cfg
  | .default => defaultL cfg

/-- One round of the loop of main_tlswrapper_smtp.c:562-575. -/
def commandL (cfg : Cfg) : ML Unit := do
  readlineL
  let s ← up get
  let v ← up (lift (lookup s.line (wordLen s.line) table))
  runL cfg v

/-- `commands`, main_tlswrapper_smtp.c:558-576, for at most `n` commands. -/
def commandsL (cfg : Cfg) : Nat → ML Unit
  | 0 => pure ()
  | n + 1 => do commandL cfg; commandsL cfg n

/-- main_tlswrapper_smtp.c:1021-1022: greet and serve. -/
def sessionL (cfg : Cfg) : ML Unit := do
  greetL cfg
  let s ← up get
  commandsL cfg (avail s + 1)

end Smtp
