import Verif.Relay.Base
import Verif.Rw.Model
/-
main_tlswrapper.c:135-176 `handle_selfpipe_event` and 658-876
`run_cleartext_phase`: the relay before STARTTLS.

One `Ev` is what the kernel answers in one iteration. Not modelled: log lines and
timer values.
-/
namespace Relay
open Io

/-- Which descriptor variables are not -1, and the trace of actions so far
(main_tlswrapper.c:658-880). -/
structure W where
  op : Fd → Bool
  log : List (Act Fd)

/-- fd.c `fd_close_read`/`fd_close_write`: nothing if the variable is -1. -/
def W.close (w : W) (f : Fd) : W :=
  if w.op f then ⟨fun g => if g = f then false else w.op g, w.log ++ [.close f]⟩ else w

/-- Record an action (for the record only; the calls of main_tlswrapper.c:658-880). -/
def W.act (w : W) (a : Act Fd) : W := { w with log := w.log ++ [a] }

/-- Outcome of reading one command from the signal pipe (main_tlswrapper.c:135-160). -/
inductive SigEv where
  | byte (c : Byte)
  | again
  | failed
  deriving Repr, DecidableEq

/-- main_tlswrapper.c:135-176 `handle_selfpipe_event`; true: end the loop. -/
def selfpipeEvent (w : W) : SigEv → W × Bool
  | .again => (w, false)
  | .failed => (w, true)
  | .byte c =>
    let w := w.act (.sig c)
    if c = c! 'C' then ((w.close .childin).act (.alarm true), false)
    else if c = c! 'A' ∧ (w.op .childin ∨ w.op .childout ∨ w.op .ctl ∨ w.op .ack) then
      (((((w.close .childin).close .childout).close .ctl).close .ack).act (.alarm true), false)
    else (w, true)

namespace Clear

/-- main_tlswrapper.c:86 CLEARTEXT_BUFSIZE. -/
def size : Nat := 8192

/-- State of the cleartext phase: descriptors and trace, the two pending buffers,
and the bytes still to arrive from the network, from the child's output and from
the child's control pipe (main_tlswrapper.c:658-700). -/
structure St where
  w : W
  tochild : Buf
  tonet : Buf
  net : Bytes
  chd : Bytes
  csrc : Bytes

/-- The watched descriptors that the poll reported (main_tlswrapper.c:747-765). -/
structure Ready where
  topeer : Bool
  tochild : Bool
  frompeer : Bool
  fromchild : Bool
  fromctl : Bool
  selfpipe : Bool
  deriving Repr, DecidableEq

/-- The kernel's answers in one iteration: the poll (`none`: it failed), the read or
write the iteration may make, the writes of the one-byte acknowledgement, and the
read from the signal pipe (main_tlswrapper.c:747, 769, 781, 802, 843, 855). -/
structure Ev where
  poll : Option Ready
  rd : RdEv
  wr : WrEv
  ackw : List WrEv
  sig : SigEv
  deriving Repr, DecidableEq

/-- Why the phase ended. `starttls` is return value 1, all others are 0;
`ackBlocked`: the acknowledgement write has not returned (the returns of
main_tlswrapper.c:658-876). -/
inductive Why where
  | starttls
  | finished
  | peerWrite
  | childWrite
  | ctlError
  | ctlLength
  | ctlValue
  | netClosed
  | ackFailed
  | ackBlocked
  | signal
  deriving Repr, DecidableEq

/-- main_tlswrapper.c:676-683. -/
def propagate (s : St) : St :=
  let s := if s.w.op .peerin = false ∧ s.w.op .childin = true ∧ s.tochild.len = 0 then
    { s with w := s.w.close .childin } else s
  if s.w.op .childout = false ∧ s.w.op .peerout = true ∧ s.tonet.len = 0 then
    { s with w := s.w.close .peerout } else s

/-- main_tlswrapper.c:686-689. -/
def finished (s : St) : Bool :=
  !s.w.op .peerin && !s.w.op .childin && !s.w.op .childout && !s.w.op .peerout

/-- main_tlswrapper.c:691-744. -/
def watches (s : St) : Ready where
  topeer := s.w.op .peerout && decide (s.tonet.len ≠ 0)
  tochild := decide (s.tochild.len ≠ 0) && s.w.op .childin
  frompeer := s.w.op .peerin && decide (s.tochild.len < size) && s.w.op .childin
  fromchild := s.w.op .childout && decide (s.tonet.len < size)
  fromctl := s.w.op .peerout && s.w.op .ctl && decide (s.tonet.len = 0)
  selfpipe := true

/-- main_tlswrapper.c:746-757. -/
def after (w : Ready) : Option Ready → Ready
  | none => ⟨false, false, false, false, false, false⟩
  | some r => ⟨w.topeer && r.topeer, w.tochild && r.tochild, w.frompeer && r.frompeer,
      w.fromchild && r.fromchild, w.fromctl && r.fromctl, w.selfpipe && r.selfpipe⟩

/-- main_tlswrapper.c:768-777. -/
def doToPeer (s : St) (ev : Ev) : Out (St × Option Why) := do
  let (r, b) ← writeFrom s.tonet ev.wr
  match r with
  | .again => return (s, none)
  | .failed => return ({ s with w := (s.w.act (.failed .peerout)).close .peerout }, some .peerWrite)
  | .put d => return ({ s with tonet := b, w := s.w.act (.write .peerout d) }, none)

/-- main_tlswrapper.c:780-791. -/
def doFromChild (s : St) (ev : Ev) : Out (St × Option Why) := do
  let (r, b, src) ← readInto size s.tonet s.chd ev.rd
  match r with
  | .again => return (s, none)
  | .ended => return ({ s with w := (s.w.act (.ended .childout)).close .childout }, none)
  | .got d => return ({ s with tonet := b, chd := src, w := (s.w.act (.read .childout d)).act .alarm }, none)

/-- main_tlswrapper.c:822-838: the part after the control pipe delivered exactly one
zero byte. -/
def accept (s : St) (ev : Ev) : St × Option Why :=
  let s := { s with w := s.w.close .ctl }
  if s.w.op .peerin = false ∨ s.w.op .peerout = false then (s, some .netClosed)
  else
    let s := if s.tochild.len ≠ 0 then { s with tochild := { s.tochild with len := 0 } } else s
    match Rw.writeall ⟨[], ev.ackw⟩ [0] with
    | none => (s, some .ackBlocked)
    | some (r, fd) =>
      let s := if fd.out = [] then s else { s with w := s.w.act (.write .ack fd.out) }
      if r = -1 then (s, some .ackFailed)
      else ({ s with w := s.w.close .ack }, some .starttls)

/-- main_tlswrapper.c:799-839: the control pipe. The local buffer has two bytes. -/
def doFromCtl (s : St) (ev : Ev) : St × Option Why :=
  match ev.rd with
  | .eintr => (s, none)
  | .eagain => (s, none)
  | .err _ => ({ s with w := (s.w.act (.ended .ctl)).close .ctl }, some .ctlError)
  | .data m =>
    let d := got s.csrc 2 m
    if d.length = 0 then ({ s with w := (s.w.act (.ended .ctl)).close .ctl }, none)
    else
      let s := { s with csrc := s.csrc.drop d.length, w := s.w.act (.read .ctl d) }
      if d.length ≠ 1 then (s, some .ctlLength)
      else if d ≠ [0] then (s, some .ctlValue)
      else accept s ev

/-- main_tlswrapper.c:842-851. -/
def doToChild (s : St) (ev : Ev) : Out (St × Option Why) := do
  let (r, b) ← writeFrom s.tochild ev.wr
  match r with
  | .again => return (s, none)
  | .failed => return ({ s with w := (s.w.act (.failed .childin)).close .childin }, some .childWrite)
  | .put d => return ({ s with tochild := b, w := s.w.act (.write .childin d) }, none)

/-- main_tlswrapper.c:854-866. -/
def doFromPeer (s : St) (ev : Ev) : Out (St × Option Why) := do
  let (r, b, src) ← readInto size s.tochild s.net ev.rd
  match r with
  | .again => return (s, none)
  | .ended => return ({ s with w := (s.w.act (.ended .peerin)).close .peerin }, none)
  | .got d => return ({ s with tochild := b, net := src, w := (s.w.act (.read .peerin d)).act .alarm }, none)

/-- main_tlswrapper.c:870-874. -/
def doSelfpipe (s : St) (ev : Ev) : St × Option Why :=
  let (w, stop) := selfpipeEvent s.w ev.sig
  ({ s with w := w }, if stop then some .signal else none)

/-- main_tlswrapper.c:691-874, one iteration after the top part. -/
def body (s : St) (ev : Ev) : Out (St × Option Why) :=
  let w := after (watches s) ev.poll
  if w.topeer then doToPeer s ev
  else if w.fromchild then doFromChild s ev
  else if w.fromctl then .ok (doFromCtl s ev)
  else if w.tochild then doToChild s ev
  else if w.frompeer then doFromPeer s ev
  else if w.selfpipe then .ok (doSelfpipe s ev)
  else .ok (s, none)

/-- main_tlswrapper.c:663-875, the loop. `none`: the answers are used up. -/
def loop (s : St) : List Ev → Out (St × Option Why)
  | [] =>
    let s := propagate s
    if finished s then .ok (s, some .finished) else .ok (s, none)
  | ev :: evs =>
    let s := propagate s
    if finished s then .ok (s, some .finished)
    else do
      let (s, why) ← body s ev
      match why with
      | some w => return (s, some w)
      | none => loop s evs

/-- main_tlswrapper.c:658-661: entry of the phase with all descriptors open. `m1`,
`m2`: the storage of the two buffers. -/
def start (m1 m2 net chd csrc : Bytes) : St :=
  ⟨⟨fun _ => true, []⟩, ⟨m1, 0⟩, ⟨m2, 0⟩, net, chd, csrc⟩

end Clear
end Relay
