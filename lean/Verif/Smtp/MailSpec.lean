import Verif.Smtp.Mail
/-
The mail log: which records of the session the log must contain, computed from what
the front end did (its actions), and nothing else.
-/
namespace Smtp.Spec
open Str Str.Spec

/-- The message under way: its sender and its recipients, as far as the commands were
recognised. -/
structure Tx where
  sender : Option Bytes
  rcpts : List Bytes
  deriving Repr, DecidableEq

/-- No message. -/
def Tx.none : Tx := ⟨.none, []⟩

/-- A command's effect: MAIL starts a message, RCPT adds a recipient. -/
def Tx.after (t : Tx) (raw : Bytes) : Tx :=
  match verb raw with
  | .mail => ⟨arg b!"mail from:" raw, []⟩
  | .rcpt => match arg b!"rcpt to:" raw with
    | some a => { t with rcpts := t.rcpts ++ [a] }
    | .none => t
  | _ => t

/-- `F=` and the sender. -/
def Tx.from (t : Tx) : Bytes := b!"F=" ++ t.sender.getD []
/-- `T=` and all recipients, each with a comma. -/
def Tx.to (t : Tx) : Bytes := b!" T=" ++ t.rcpts.flatMap fun a => a ++ b!","
/-- `T=` and the last recipient. -/
def Tx.last (t : Tx) : Bytes := b!" T=" ++ t.rcpts.getLast?.getD []

/-- Where the session stands, as far as the mail log is concerned. -/
inductive Stage where
  /-- between commands -/
  | idle
  /-- a command line was taken -/
  | got (raw : Bytes)
  /-- and the child replied to it -/
  | replied (raw r : Bytes)
  /-- inside a message -/
  | body
  /-- its last line was taken -/
  | dot
  /-- and the child replied to the message -/
  | done (r : Bytes)
  /-- encryption was requested -/
  | tls
  deriving Repr, DecidableEq

/-- One action: the message under way and the stage afterwards, and the record that must follow
the action, if any. Only what is told to the client is logged. -/
def mailStep (t : Tx) : Stage → Act → Tx × Stage × List Rec
  | .idle, .line raw => (t.after raw, .got raw, [])
  | .idle, .ctl _ => (t, .tls, [])
  | .got raw, .reply r => (t, .replied raw r, [])
  /- a reply of the front end itself: a recipient was refused because of the greylist server -/
  | .got raw, .client d =>
    (t, .idle, if verb raw = .rcpt then [⟨.warn, t.from ++ t.last ++ b!": " ++ d⟩] else [])
  | .replied raw r, .client d =>
    match verb raw with
    | .mail => (t, .idle, if code r = 250 then [] else [⟨.warn, t.from ++ b!": " ++ d⟩])
    | .rcpt => (t, .idle, if code r = 250 then [] else [⟨.warn, t.from ++ t.last ++ b!": " ++ d⟩])
    | .data =>
      if code r = 354 then (t, .body, []) else (t, .idle, [⟨.warn, t.from ++ t.to ++ b!": " ++ d⟩])
    | _ => (t, .idle, [])
  | .body, .line raw => (t, if content raw = b!"." then .dot else .body, [])
  | .dot, .reply r => (t, .done r, [])
  | .done r, .client d =>
    (.none, .idle, [⟨if code r = 250 then .info else .warn, t.from ++ t.to ++ b!": " ++ d⟩])
  | .tls, .reply _ => (.none, .idle, [])
  | st, _ => (t, st, [])

/-- All actions: the actions with the records that must follow them. -/
def mailLog : List Act → Tx × Stage × Hist :=
  List.foldl (fun x a =>
    let y := mailStep x.1 x.2.1 a
    (y.1, y.2.1, x.2.2 ++ .inl a :: y.2.2.map .inr)) (Tx.none, .idle, [])

/-- The history at the verbosity at which mail is logged: without records for debugging and
tracing. -/
def mailOnly (h : Hist) : Hist := h.filter fun
  | .inl _ => true
  | .inr r => r.level = .info ∨ r.level = .warn

/-! ### The truth -/

/-- What the child and the client agreed on: the MAIL line and the RCPT lines the child accepted. -/
structure Deal where
  mail : Option Bytes
  rcpts : List Bytes
  deriving Repr, DecidableEq

/-- Nothing agreed. -/
def Deal.none : Deal := ⟨.none, []⟩

/-- Commands that end the message under way if accepted (RFC 5321, 4.1.1.1 and 4.1.1.5). -/
def Clears (raw : Bytes) : Prop := lcs (word raw) = b!"rset" ∨ lcs (word raw) = b!"helo" ∨ lcs (word raw) = b!"ehlo"

instance (raw : Bytes) : Decidable (Clears raw) := by unfold Clears; infer_instance

/-- The child replied `r` to `raw`. -/
def Deal.after (e : Deal) (raw r : Bytes) : Deal :=
  if code r = 250 then
    if verb raw = .mail then ⟨some raw, []⟩
    else if verb raw = .rcpt then { e with rcpts := e.rcpts ++ [raw] }
    else if Clears raw then .none
    else e
  else e

/-- One action; `st` is the stage before it. -/
def Deal.step (e : Deal) : Stage → Act → Deal
  | .got raw, .reply r => e.after raw r
  | .done _, .client _ => .none
  | .tls, .reply r => if code r = 250 then .none else e
  | _, _ => e

/-- Sender and recipients as the log shows them. -/
def Deal.text (e : Deal) : Bytes :=
  b!"F=" ++ (e.mail.bind (arg b!"mail from:")).getD [] ++
    b!" T=" ++ e.rcpts.flatMap fun raw => (arg b!"rcpt to:" raw).getD [] ++ b!","

/-- What was agreed, the message under way and the stage after some actions. -/
def deal : List Act → Deal × Tx × Stage :=
  List.foldl (fun x a => (x.1.step x.2.2 a, (mailStep x.2.1 x.2.2 a).1, (mailStep x.2.1 x.2.2 a).2.1))
    (Deal.none, Tx.none, .idle)

/-- The actions of a history. -/
def acts (h : Hist) : List Act := h.filterMap fun
  | .inl a => some a
  | .inr _ => none

/-- The records of accepted messages tell the truth: sender and recipients are those the child
accepted. -/
def Truthful (h : Hist) : Prop := ∀ pre d rec post, h = pre ++ .inl (.client d) :: .inr rec :: post →
  rec.level = .info → rec.text = (deal (acts pre)).1.text ++ b!": " ++ d

/-- Nothing out of the ordinary: every MAIL and RCPT command is accepted, RCPT commands are in the usual
form, and no message under way is given up. -/
def TidyStep : Deal × Tx × Stage → Act → Prop
  | (e, _, .got raw), .reply r =>
    (verb raw = .mail → code r = 250) ∧
    (verb raw = .rcpt → code r = 250 ∧ (arg b!"rcpt to:" raw).isSome) ∧
    (Clears raw → e = .none)
  | (_, _, .got raw), .client _ => verb raw ≠ .rcpt ∧ verb raw ≠ .mail
  | (_, _, .tls), .reply r => code r = 250
  | _, _ => True

/-- All along. -/
def Tidy (l : List Act) : Prop := ∀ l1 a l2, l = l1 ++ a :: l2 → TidyStep (deal l1) a

end Smtp.Spec
