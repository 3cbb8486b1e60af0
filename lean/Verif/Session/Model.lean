import Verif.Relay.Clear
import Verif.Relay.Tls
import Verif.Pipe.Model
import Verif.Proxy.Model
/-
main_tlswrapper.c:1461-1541 without the log lines, the timers and the waiting for the
child processes: the session in the network process, from the connection information for
the child to the closing of the descriptors.
-/
namespace Session
open Io Relay

/-- main_tlswrapper.c:1462-1465 and 541: consecutive `pipe_write` calls on the child's
input; `none`: one has not returned; `some none`: one failed and the process died
(die_writetopipe). -/
def sendAll (fd : WFd) : List Bytes → Option (Option WFd)
  | [] => some (some fd)
  | m :: ms =>
    match Pipe.pipe_write fd m with
    | none => none
    | some (r, fd) => if r = -1 then some none else sendAll fd ms

/-- main_tlswrapper.c:1462-1465, and 1471 with delayed encryption: the empty account
record, one NUL. -/
def preamble (delayed : Bool) (e : Proxy.Ends) : List Bytes :=
  [e.localip, [e.localport.1, e.localport.2], e.remoteip, [e.remoteport.1, e.remoteport.2]] ++
    if delayed then [[0]] else []

/-- How far a session got; `pre`: the bytes written to the child's input before the
relaying began.
`boot`: not beyond these writes.
`clear`: in the cleartext phase or ended by it.
`tls`: in the encrypted phase or ended by it; `cl`: the actions before this phase (the course of
main_tlswrapper.c:1461-1541). -/
inductive Run (E : Type) where
  | boot
  | clear (pre : Bytes) (s : Clear.St) (why : Option Clear.Why)
  | tls (pre : Bytes) (cl : List (Act Fd)) (s : Tls.St E) (why : Option Tls.Why)

/-- main_tlswrapper.c:1486-1492 after the cleartext phase: `goto waitchildren` unless TLS
was requested; then the encrypted phase on the same descriptors, with the account record
marked as delivered. The engine starts in state `e0` (`tls_profile`). -/
def afterClear {E : Type} (g : Tls.Engine E) (e0 : E) (fromcert : Bool) (pre : Bytes) (evs : List Tls.Ev) (s : Clear.St)
    (why : Option Clear.Why) : Out (Run E) :=
  if why = some .starttls then do
    let (t, y) ← Tls.loop g fromcert (Tls.start s.w.op e0 true s.net s.chd) evs
    return .tls pre s.w.log t y
  else return .clear pre s why

/-- main_tlswrapper.c:1475-1476: without delayed encryption the control and the
acknowledgement pipe are closed. -/
def noCtl : W := ((⟨fun _ => true, []⟩ : W).close .ctl).close .ack

/-- main_tlswrapper.c:1461-1498. `N`, `C`, `K`: what arrives from the network, from the
child's output and from its control pipe. `wevs`, `evs1`, `evs2`: the kernel's answers
to the first writes, in the cleartext and in the encrypted phase. `m1`, `m2`: the storage
of the cleartext buffers. -/
def session {E : Type} (g : Tls.Engine E) (e0 : E) (fromcert delayed : Bool) (ends : Proxy.Ends) (m1 m2 N C K : Bytes)
    (wevs : List WrEv) (evs1 : List Clear.Ev) (evs2 : List Tls.Ev) : Out (Run E) :=
  match sendAll ⟨[], wevs⟩ (preamble delayed ends) with
  | none => .ok .boot
  | some none => .ok .boot
  | some (some fd) =>
    if delayed then do
      let (s, why) ← Clear.loop (Clear.start m1 m2 N C K) evs1
      afterClear g e0 fromcert fd.out evs2 s why
    else do
      let (t, y) ← Tls.loop g fromcert (Tls.start noCtl.op e0 false N C) evs2
      return .tls fd.out noCtl.log t y

/-- main_tlswrapper.c:1504-1505 and 1524-1527: the descriptors that are still open at the end
of the session are closed. -/
def finish (w : W) : W :=
  (((((w.close .peerin).close .peerout).close .ctl).close .ack).close .childout).close .childin

end Session
