import Verif.Relay.Base
import Verif.Proxy.Model
/-
main_tlswrapper_tcp.c:278-519, the forwarding loop.

One `Ev` is what the kernel answers in one iteration: the result of the poll and
the outcome of the single read or write that the iteration may make. Not
modelled: log lines, the timer value, and the close calls' own failures.
-/
namespace Relay.Tcp
open Io Relay

/-- The four descriptors (main_tlswrapper_tcp.c: localinfd, localoutfd,
remoteinfd, remoteoutfd). -/
inductive Fd where
  | localin | localout | remotein | remoteout
  deriving Repr, DecidableEq

/-- `sizeof inbuf`, `sizeof outbuf` (main_tlswrapper_tcp.c:40, 42). -/
def size : Nat := 8192

/-- The variables of the loop, the bytes still to arrive on each side, and the
trace of actions so far. A descriptor flag is true while the variable is not -1
(main_tlswrapper_tcp.c:36-60, 378-400). -/
structure St where
  localin : Bool
  localout : Bool
  remotein : Bool
  remoteout : Bool
  inb : Buf
  outb : Buf
  lsrc : Bytes
  rsrc : Bytes
  log : List (Act Fd)
  deriving Repr, DecidableEq

/-- The watched descriptors that the poll reported (main_tlswrapper_tcp.c:435-446). -/
structure Ready where
  toremote : Bool
  tolocal : Bool
  fromlocal : Bool
  fromremote : Bool
  selfpipe : Bool
  deriving Repr, DecidableEq

/-- What the kernel answers in one iteration; `poll = none`: the poll failed
(main_tlswrapper_tcp.c:435, 454, 468, 481, 495). -/
structure Ev where
  poll : Option Ready
  rd : RdEv
  wr : WrEv
  deriving Repr, DecidableEq

/-- Why the loop ended (main_tlswrapper_tcp.c:378-519). -/
inductive Why where
  | finished
  | remoteWrite
  | localWrite
  | signal
  deriving Repr, DecidableEq

/-- fd.c `fd_close_write`/`fd_close_read` on the named variable: nothing if it is -1. -/
def closeRemoteout (s : St) : St :=
  if s.remoteout then { s with remoteout := false, log := s.log ++ [.close .remoteout] } else s
/-- `fd_close_write("localoutfd", &localoutfd)`, main_tlswrapper_tcp.c:393, 472. -/
def closeLocalout (s : St) : St :=
  if s.localout then { s with localout := false, log := s.log ++ [.close .localout] } else s
/-- `fd_close_read("localinfd", &localinfd)`, main_tlswrapper_tcp.c:486. -/
def closeLocalin (s : St) : St :=
  if s.localin then { s with localin := false, log := s.log ++ [.close .localin] } else s
/-- `fd_close_read("remoteinfd", &remoteinfd)`, main_tlswrapper_tcp.c:500. -/
def closeRemotein (s : St) : St :=
  if s.remotein then { s with remotein := false, log := s.log ++ [.close .remotein] } else s

/-- main_tlswrapper_tcp.c:388-395, propagation of EOF at the top of the loop. -/
def propagate (s : St) : St :=
  let s := if s.localin = false ∧ s.remoteout = true ∧ s.inb.len = 0 then closeRemoteout s else s
  if s.remotein = false ∧ s.localout = true ∧ s.outb.len = 0 then closeLocalout s else s

/-- main_tlswrapper_tcp.c:396-400. -/
def finished (s : St) : Bool :=
  !s.localin && !s.remotein && !s.remoteout && !s.localout && s.inb.len == 0 && s.outb.len == 0

/-- main_tlswrapper_tcp.c:402-434, the descriptors placed into the poll set. -/
def watches (s : St) : Ready where
  fromlocal := s.localin && s.remoteout && decide (s.inb.len < size)
  tolocal := s.localout && decide (0 < s.outb.len)
  toremote := s.remoteout && (decide (0 < s.inb.len) || !s.localin)
  fromremote := s.remotein && s.localout && decide (s.outb.len < size)
  selfpipe := true

/-- main_tlswrapper_tcp.c:434-450, the watches that remain after the poll. -/
def after (w : Ready) : Option Ready → Ready
  | none => ⟨false, false, false, false, false⟩
  | some r => ⟨w.toremote && r.toremote, w.tolocal && r.tolocal, w.fromlocal && r.fromlocal,
      w.fromremote && r.fromremote, w.selfpipe && r.selfpipe⟩

/-- main_tlswrapper_tcp.c:452-465. -/
def doToRemote (s : St) (ev : Ev) : Out (St × Option Why) :=
  if 0 < s.inb.len then do
    let (r, b) ← writeFrom s.inb ev.wr
    match r with
    | .again => return (s, none)
    | .failed => return (closeRemoteout { s with log := s.log ++ [.failed .remoteout] }, some .remoteWrite)
    | .put d => return ({ s with inb := b, log := s.log ++ [.write .remoteout d] }, none)
  else return (s, none)

/-- main_tlswrapper_tcp.c:467-478. -/
def doToLocal (s : St) (ev : Ev) : Out (St × Option Why) := do
  let (r, b) ← writeFrom s.outb ev.wr
  match r with
  | .again => return (s, none)
  | .failed => return (closeLocalout { s with log := s.log ++ [.failed .localout] }, some .localWrite)
  | .put d => return ({ s with outb := b, log := s.log ++ [.write .localout d] }, none)

/-- main_tlswrapper_tcp.c:480-492. -/
def doFromLocal (s : St) (ev : Ev) : Out (St × Option Why) := do
  let (r, b, src) ← readInto size s.inb s.lsrc ev.rd
  match r with
  | .again => return (s, none)
  | .ended => return (closeLocalin { s with log := s.log ++ [.ended .localin] }, none)
  | .got d => return ({ s with inb := b, lsrc := src, log := s.log ++ [.read .localin d, .alarm] }, none)

/-- main_tlswrapper_tcp.c:494-506. -/
def doFromRemote (s : St) (ev : Ev) : Out (St × Option Why) := do
  let (r, b, src) ← readInto size s.outb s.rsrc ev.rd
  match r with
  | .again => return (s, none)
  | .ended => return (closeRemotein { s with log := s.log ++ [.ended .remotein] }, none)
  | .got d => return ({ s with outb := b, rsrc := src, log := s.log ++ [.read .remotein d, .alarm] }, none)

/-- main_tlswrapper_tcp.c:402-513, one iteration after the top part. -/
def body (s : St) (ev : Ev) : Out (St × Option Why) :=
  let w := after (watches s) ev.poll
  if w.toremote then doToRemote s ev
  else if w.tolocal then doToLocal s ev
  else if w.fromlocal then doFromLocal s ev
  else if w.fromremote then doFromRemote s ev
  else if w.selfpipe then .ok (s, some .signal)
  else .ok (s, none)

/-- main_tlswrapper_tcp.c:378-514, the loop. `none`: the answers are used up, the
loop waits in the poll. -/
def loop (s : St) : List Ev → Out (St × Option Why)
  | [] =>
    let s := propagate s
    if finished s then .ok (s, some .finished) else .ok (s, none)
  | ev :: evs =>
    let s := propagate s
    if finished s then .ok (s, some .finished)
    else do
      let (s, why) ← body s ev
      match why with
      | some w => return (s, some w)
      | none => loop s evs

/-- The state on entry: both connections open, `hdr` the bytes already placed in
the buffer towards the child's side (empty without PROXY output), `imem`/`omem`
the storage of the two buffers (main_tlswrapper_tcp.c:355-376). -/
def start (imem omem : Bytes) (hdrlen : Nat) (lsrc rsrc : Bytes) : St :=
  ⟨true, true, true, true, ⟨imem, hdrlen⟩, ⟨omem, 0⟩, lsrc, rsrc, []⟩

/-- main_tlswrapper_tcp.c:361-368: placing the PROXY header into `inbuf`.
`pp`: outgoing PROXY protocol was requested (the only supported version is 1, see
Verif/Proxy). `none`: the program ends with die_ppout before relaying. -/
def prepare (C : Proxy.IpCodec) (alloc : Bool) (static imem : Bytes) (e : Proxy.Ends) (pp : Bool) :
    Out (Option (Bytes × Nat)) :=
  if pp then do
    let (n, mem) ← Proxy.v1 C alloc static (some imem) size e
    match mem with
    | some mem => if n = 0 then return none else return some (mem, n)
    | none => return none
  else .ok (some (imem, 0))

/-- main_tlswrapper_tcp.c:361-514. The first component is `none` if the program
ended before the loop. -/
def relay (C : Proxy.IpCodec) (alloc : Bool) (static imem omem : Bytes) (e : Proxy.Ends) (pp : Bool)
    (L R : Bytes) (evs : List Ev) : Out (Option (St × Option Why)) := do
  match ← prepare C alloc static imem e pp with
  | none => return none
  | some (imem, n) =>
    let r ← loop (start imem omem n L R) evs
    return some r

end Relay.Tcp
