import Verif.Relay.Clear
import Verif.Pipe.Model
import Verif.Path.Model
import Verif.Str.Model
/-
main_tlswrapper.c:540-577 `report_tls_user`, `report_tls_handshake`, 876-900
`fd_read_pending_now` and 907-1130 `run_tls_phase`: the relay between the network,
the TLS engine and the child.

The TLS engine (tls_engine.c:26-250, thin wrappers around BearSSL) is a parameter:
any state machine with these operations. Not modelled: log lines, timer values.
-/
namespace Relay.Tls
open Io Relay

/-- The operations of the TLS engine that the loop uses. `E`: its state.
`recvapp`, `sendrec`: the bytes it offers; `sendapp`, `recvrec`: the contents of the
space it offers for bytes. The acknowledgement of space also gets the bytes that are
in the space by then. `crt`: status and contents of the 256-byte buffer with the name
from the client's certificate (tls.h:53-54). -/
structure Engine (E : Type) where
  state : E → Flags
  recvapp : E → Bytes
  recvappAck : E → Nat → E
  sendrec : E → Bytes
  sendrecAck : E → Nat → E
  sendapp : E → Bytes
  sendappAck : E → Bytes → Nat → E
  recvrec : E → Bytes
  recvrecAck : E → Bytes → Nat → E
  flush : E → E
  close : E → E
  crt : E → Int × Bytes

/-- Descriptors and trace, engine, ctx.flaghandshakedone, *flaguserreported, and the
bytes still to arrive from the network and from the child (main_tlswrapper.c:907-930). -/
structure St (E : Type) where
  w : W
  e : E
  hs : Bool
  rep : Bool
  net : Bytes
  chd : Bytes

/-- The five poll entries: main_tlswrapper.c:1024-1051. -/
structure Ready where
  topeer : Bool
  frompeer : Bool
  tochild : Bool
  fromchild : Bool
  selfpipe : Bool
  deriving Repr, DecidableEq

/-- The kernel's answers in one iteration: whether the network has something to read
right now, the writes of the account record, the poll (`none`: it failed), the read or
write the iteration may make, and the read from the signal pipe (main_tlswrapper.c:945, 1053, 1066,
1079, 1092, 1105). -/
structure Ev where
  pend : Bool
  usr : List WrEv
  poll : Option Ready
  rd : RdEv
  wr : WrEv
  sig : SigEv
  deriving Repr, DecidableEq

/-- Why the phase ended. `noName`, `userFailed`: the process died
(main_tlswrapper.c:563, 542); `userBlocked`: the account record's write has not
returned. -/
inductive Why where
  | handshakeFailed
  | closed
  | noProgress
  | childWrite
  | peerWrite
  | signal
  | noName
  | userFailed
  | userBlocked
  deriving Repr, DecidableEq

variable {E : Type} (g : Engine E)

/-- `st = tls_engine_current_state(&ctx)` (main_tlswrapper.c:924 and 970). -/
def look (s : St E) : Flags × St E :=
  (g.state s.e, { s with w := s.w.act (.eng (.state (g.state s.e))) })

/-- main_tlswrapper.c:930-959: the three closes at the top of the loop. The second one
asks for pending network input only when its other conditions hold; the answer is 0
for a closed descriptor (main_tlswrapper.c:888). -/
def closes (st : Flags) (pend : Bool) (w : W) : W :=
  let w := if w.op .peerin = false ∧ w.op .childin = true ∧ st.recvapp = false then w.close .childin else w
  let w := if w.op .childout = false ∧ w.op .childin = true ∧ st.recvapp = false ∧
      ¬ (w.op .peerin = true ∧ pend = true) then w.close .childin else w
  if w.op .childout = false ∧ w.op .peerout = true ∧ st.closed = true ∧ st.sendrec = false then
    w.close .peerout else w

/-- main_tlswrapper.c:965-972. -/
def shutdown (st : Flags) (s : St E) : Flags × St E :=
  if s.w.op .childout = false ∧ s.w.op .childin = false ∧ st.closed = false then
    look g { s with e := g.flush (g.close s.e), w := (s.w.act (.eng .close)).act (.eng .flush) }
  else (st, s)

/-- main_tlswrapper.c:978-988: what the loop may do next. -/
def can (st : Flags) (w : W) : Ready where
  frompeer := st.recvrec && w.op .peerin && (w.op .childin || st.sendrec || w.op .childout)
  topeer := st.sendrec && w.op .peerout
  fromchild := st.sendapp && w.op .childout && w.op .peerout
  tochild := st.recvapp && w.op .childin
  selfpipe := true

/-- main_tlswrapper.c:540-545 `report_tls_user`: `m` is the memory of the string.
A closed descriptor makes the write fail. -/
def reportUser (s : St E) (m : Bytes) (evs : List WrEv) : Out (St E × Option Why) := do
  let n ← Str.str_len m
  if s.w.op .childin = false then return (s, some .userFailed)
  match Pipe.pipe_write ⟨[], evs⟩ (m.take (n + 1)) with
  | none => return (s, some .userBlocked)
  | some (r, fd) =>
    let s := { s with w := s.w.act (.eng (.user fd.out)) }
    if r = -1 then return (s, some .userFailed)
    else return ({ s with rep := true }, none)

/-- main_tlswrapper.c:561 and 562-566: `clientcrtbuf[sizeof clientcrtbuf - 1] = 0`, and
with -U also `fixname(clientcrtbuf)`. -/
def nameBuf (fromcert : Bool) (buf : Bytes) : Out Bytes := do
  let buf ← copyN buf 255 [0] 1
  if fromcert then Path.fixname buf else .ok buf

/-- main_tlswrapper.c:553-577 `report_tls_handshake`; `fromcert`: option -U was
given. The status test of line 563 is made before the (invisible) write of line 561. -/
def reportHandshake (fromcert : Bool) (st : Flags) (s : St E) (evs : List WrEv) : Out (St E × Option Why) := do
  if s.hs then return (s, none)
  if !st.sendapp then return (s, none)
  let s := { s with hs := true }
  if s.rep then return ({ s with w := s.w.act .alarm }, none)
  if fromcert && (g.crt s.e).1 == 0 then return (s, some .noName)
  let buf ← nameBuf fromcert (g.crt s.e).2
  let (s, why) ← reportUser s buf evs
  match why with
  | some y => return (s, some y)
  | none => return ({ s with w := s.w.act .alarm }, none)

/-- main_tlswrapper.c:1053-1062. -/
def after (c : Ready) : Option Ready → Ready
  | none => ⟨false, false, false, false, false⟩
  | some r => ⟨c.topeer && r.topeer, c.frompeer && r.frompeer, c.tochild && r.tochild,
      c.fromchild && r.fromchild, c.selfpipe && r.selfpipe⟩

/-- The cap in fd.c:36 and fd.c:102 on one read or write. -/
def cap (n : Nat) : Nat := min n 1048576

/-- How the loop sees `r = fd_write(…, buf, len)` (main_tlswrapper.c:1066-1073, 1079-1086). -/
def tryWrite (buf : Bytes) : WrEv → WRes
  | .data m => if (put buf (cap buf.length) m).length = 0 then .failed else .put (put buf (cap buf.length) m)
  | .zero => .failed
  | .eintr _ => .again
  | .eagain _ => .again
  | .err _ => .failed

/-- How the loop sees `r = fd_read(…, buf, len)` with `src` still to arrive
(main_tlswrapper.c:1092-1098, 1105-1112). -/
def tryRead (len : Nat) (src : Bytes) : RdEv → RRes
  | .data m => if (got src (cap len) m).length = 0 then .ended else .got (got src (cap len) m)
  | .eintr => .again
  | .eagain => .again
  | .err _ => .ended

/-- main_tlswrapper.c:1064-1075. -/
def doToChild (s : St E) (ev : Ev) : St E × Option Why :=
  match tryWrite (g.recvapp s.e) ev.wr with
  | .again => (s, none)
  | .failed => ({ s with w := (s.w.act (.failed .childin)).close .childin }, some .childWrite)
  | .put d => ({ s with
      e := g.recvappAck s.e d.length
      w := (s.w.act (.write .childin d)).act (.eng (.recvapp (g.recvapp s.e) d.length)) }, none)

/-- main_tlswrapper.c:1077-1088. -/
def doToPeer (s : St E) (ev : Ev) : St E × Option Why :=
  match tryWrite (g.sendrec s.e) ev.wr with
  | .again => (s, none)
  | .failed => ({ s with w := (s.w.act (.failed .peerout)).close .peerout }, some .peerWrite)
  | .put d => ({ s with
      e := g.sendrecAck s.e d.length
      w := (s.w.act (.write .peerout d)).act (.eng (.sendrec (g.sendrec s.e) d.length)) }, none)

/-- main_tlswrapper.c:1090-1101. The space after the read: the bytes read, then what
was there. -/
def doFromPeer (s : St E) (ev : Ev) : Out (St E × Option Why) :=
  match tryRead (g.recvrec s.e).length s.net ev.rd with
  | .again => .ok (s, none)
  | .ended => .ok ({ s with w := (s.w.act (.ended .peerin)).close .peerin }, none)
  | .got d => do
    let mem ← copyN (g.recvrec s.e) 0 d d.length
    return ({ s with
      net := s.net.drop d.length
      e := g.recvrecAck s.e mem d.length
      w := ((s.w.act (.read .peerin d)).act (.eng (.recvrec mem d.length))).act .alarm }, none)

/-- main_tlswrapper.c:1103-1115. -/
def doFromChild (s : St E) (ev : Ev) : Out (St E × Option Why) :=
  match tryRead (g.sendapp s.e).length s.chd ev.rd with
  | .again => .ok (s, none)
  | .ended => .ok ({ s with w := (s.w.act (.ended .childout)).close .childout }, none)
  | .got d => do
    let mem ← copyN (g.sendapp s.e) 0 d d.length
    return ({ s with
      chd := s.chd.drop d.length
      e := g.flush (g.sendappAck s.e mem d.length)
      w := (((s.w.act (.read .childout d)).act (.eng (.sendapp mem d.length))).act (.eng .flush)).act .alarm }, none)

/-- main_tlswrapper.c:1117-1121. -/
def doSelfpipe (s : St E) (ev : Ev) : St E × Option Why :=
  let (w, stop) := selfpipeEvent s.w ev.sig
  ({ s with w := w }, if stop then some .signal else none)

/-- main_tlswrapper.c:924-972: the top part of an iteration. Result: the flags used by
the rest of the iteration. -/
def top (s : St E) (pend : Bool) : Flags × St E :=
  let (st, s) := look g s
  let s := { s with w := closes st pend s.w }
  shutdown g st s

/-- main_tlswrapper.c:1064-1121. -/
def serve (c : Ready) (s : St E) (ev : Ev) : Out (St E × Option Why) :=
  if c.tochild then .ok (doToChild g s ev)
  else if c.topeer then .ok (doToPeer g s ev)
  else if c.frompeer then doFromPeer g s ev
  else if c.fromchild then doFromChild g s ev
  else if c.selfpipe then .ok (doSelfpipe s ev)
  else .ok (s, none)

/-- main_tlswrapper.c:1024-1051: the polled descriptors. -/
def watched (c : Ready) : List Fd :=
  (if c.topeer then [.peerout] else []) ++ (if c.frompeer then [.peerin] else []) ++
  (if c.tochild then [.childin] else []) ++ (if c.fromchild then [.childout] else [])

/-- main_tlswrapper.c:978-1121: from the handshake report to the end of the iteration.
`c`: the can_* values, computed before the report. -/
def rest (fromcert : Bool) (st : Flags) (s : St E) (ev : Ev) : Out (St E × Option Why) := do
  let c := can st s.w
  let (s, why) ← reportHandshake g fromcert st s ev.usr
  match why with
  | some y => return (s, some y)
  | none =>
    if st.closed && !s.hs then return (s, some .handshakeFailed)
    else if st.closed && !st.sendrec then return (s, some .closed)
    else if !c.frompeer && !c.topeer && !c.fromchild && !c.tochild then return (s, some .noProgress)
    else serve g (after c ev.poll) { s with w := s.w.act (.eng (.wait (watched c))) } ev

/-- main_tlswrapper.c:913-1122, the loop. `none`: the answers are used up. -/
def loop (fromcert : Bool) (s : St E) : List Ev → Out (St E × Option Why)
  | [] => .ok (s, none)
  | ev :: evs => do
    let (st, s) := top g s ev.pend
    let (s, why) ← rest g fromcert st s ev
    match why with
    | some y => return (s, some y)
    | none => loop fromcert s evs

/-- Entry of the phase: `op`: which descriptors are open; `rep`: the account record was
sent before (delayed encryption, main_tlswrapper.c:1471). -/
def start (op : Fd → Bool) (e : E) (rep : Bool) (net chd : Bytes) : St E :=
  ⟨⟨op, []⟩, e, false, rep, net, chd⟩

end Relay.Tls
