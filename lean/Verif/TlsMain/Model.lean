import Verif.Conf.Model
import Verif.Path.Model
import Verif.ConnInfo.Model
import Verif.Session.Model
import Verif.Main.Late
/-
main_tlswrapper.c:1154-1541, the network process of tlswrapper as a whole: the models of the
command line, the path of the anchor, the PROXY header, the endpoints of the client, the
session and the end put together in the order of the source. The program's process is
`Main.childMain`, the key process the area Key. Left out: signals before the relay, log texts,
randombytes(), and what the set-up of the descriptors does (the areas Fd and Start).
-/
namespace TlsMain
open Io
open Main (Outcome)

/-- What the network process does that others can see, in order. -/
inductive Obs where
  /-- the process that is to become the program was started: its arguments, the account of -u, and whether -U was
  given (main_tlswrapper.c:1303) -/
  | program (argv : List Bytes) (user : Option Bytes) (fromcert : Bool)
  /-- the key process was started with these certificate files and directories (:1387) -/
  | keys (certs : List (Bytes × Bool))
  /-- jail() has succeeded for this account and directory (:1426) -/
  | jailed (account : Option Bytes) (dir : Bytes)
  /-- the key process was asked for the file with the anchors of the clients' certificates (:1434) -/
  | anchor (name : Bytes)
  /-- these bytes of the client were taken as PROXY header (:1443) -/
  | header (used : Bytes)
  /-- these bytes were written to the program's process before the relay (:1462-1471) -/
  | told (d : Bytes)
  /-- an action of the session (:1475-1497) -/
  | relay (a : Relay.Act Relay.Fd)
  deriving Repr, DecidableEq

/-- What the key process answers to the request for the anchors (main_tlswrapper.c:1434-1436): nothing so far; the
request cannot be written, or there is no answer; or the contents of the file. -/
inductive Reply where
  | waits
  | refused
  | pem (d : Bytes)
  deriving Repr, DecidableEq

/-- What the program finds in the world (main_tlswrapper.c:1154-1541, with the calls named below). `E`: the states of
the TLS engine. -/
structure World (E : Type) where
  /-- the third argument of main_tlswrapper -/
  nojail : Bool
  /-- the file system, as the command line sees it (:1240-1253) -/
  fs : Conf.Env
  /-- descriptor 5 or 6 is open (:1289-1290) -/
  busy : Bool
  /-- /dev/null can be opened as often as needed (:1291-1295) -/
  devnull : Bool
  /-- pipe() and fork() for the program succeed (:1299-1303) -/
  pipes : Bool
  fork : Bool
  /-- pipe() and fork() for the key process succeed (:1385-1387) -/
  keypipes : Bool
  keyfork : Bool
  /-- pipe() for the signals succeeds (:1422) -/
  selfpipe : Bool
  /-- jail() succeeds (:1426) -/
  jail : Bool
  /-- the anchors: the key process and tls_pubcrt_parse (:1434-1437) -/
  anchor : Bytes → Reply
  parse : Bytes → Bool
  /-- inet_pton and inet_ntop -/
  codec : Proxy.IpCodec
  /-- environment and socket of descriptor 0 (:1449) -/
  env : ConnInfo.Env
  loc : ConnInfo.Sock
  peer : ConnInfo.Sock
  /-- what the client sends, and the answers to the read calls of the PROXY header (:1443) -/
  client : RFd
  /-- what the program writes to its output and its control pipe -/
  output : Bytes
  control : Bytes
  /-- the answers of the kernel to the first writes, in the cleartext phase and in the encrypted phase -/
  wevs : List WrEv
  evs1 : List Relay.Clear.Ev
  evs2 : List Relay.Tls.Ev
  /-- the storage of the cleartext buffers (:88, 90) -/
  m1 : Bytes
  m2 : Bytes
  /-- the TLS engine, and its first state (`tls_profile`, :1495) -/
  engine : Relay.Tls.Engine E
  profile : Conf.Ctx → E
  /-- what is left of the alarm when the session ends, and what happens then (:1500-1541) -/
  left : Option Nat
  waits : List Main.Wait

/-- What has happened, and how the process ended; `none`: it waits (main_tlswrapper.c:1154-1541). -/
structure Res where
  trace : List Obs
  fate : Option Outcome
  deriving Repr, DecidableEq

/-- How the session ends (main_tlswrapper.c:1499-1541 after the two phases; die() at :542 and :563). -/
def over {E : Type} (w : World E) : Session.Run E → Option Outcome
  | .boot => none
  | .clear _ _ none => none
  | .clear _ _ (some .ackBlocked) => none
  | .clear _ _ (some _) => Main.endUnder w.left w.waits
  | .tls _ _ _ none => none
  | .tls _ _ _ (some .userBlocked) => none
  | .tls _ _ _ (some .userFailed) => some (.exit 111)
  | .tls _ _ _ (some .noName) => some (.exit 111)
  | .tls _ _ _ (some _) => Main.endUnder w.left w.waits

/-- What of a session is seen. The closing of the descriptors at its end (`Session.finish`,
main_tlswrapper.c:1504-1505, 1524-1527) is left out. -/
def seen {E : Type} : Session.Run E → List Obs
  | .boot => []
  | .clear pre s _ => .told pre :: s.w.log.map .relay
  | .tls pre cl s _ => .told pre :: (cl ++ s.w.log).map .relay

/-- main_tlswrapper.c:1461-1541: the endpoints are written, then the session and the end. A write that fails or waits
is not recorded in the trace. -/
def converse {E : Type} (w : World E) (st : Conf.Started) (e : Proxy.Ends) (rest : Bytes) (tr : List Obs) : Out Res := do
  match Session.sendAll ⟨[], w.wevs⟩ (Session.preamble st.opts.ctx.flagdelayedenc e) with
  | none => return ⟨tr, none⟩
  | some none => return ⟨tr, some (.exit 111)⟩
  | some (some _) => do
    let r ← Session.session w.engine (w.profile st.opts.ctx) st.opts.userfromcert.isSome st.opts.ctx.flagdelayedenc e w.m1 w.m2
      rest w.output w.control w.wevs w.evs1 w.evs2
    return ⟨tr ++ seen r, over w r⟩

/-- main_tlswrapper.c:1441-1450: the endpoints of the client. -/
def meet {E : Type} (w : World E) (st : Conf.Started) (tr : List Obs) : Out Res :=
  if st.opts.ppin then do
    match ← Proxy.get w.codec w.client with
    | none => return ⟨tr, none⟩
    | some (r, fd) =>
      let tr := tr ++ [.header (w.client.src.take (w.client.src.length - fd.src.length))]
      match r with
      | none => return ⟨tr, some (.exit 100)⟩                                 -- :1444
      | some e => converse w st e fd.src tr
  else do
    let (_, e) ← ConnInfo.get w.codec w.env w.loc w.peer Proxy.zeroEnds        -- :1449
    converse w st e w.client.src tr

/-- main_tlswrapper.c:1429-1439: the anchors are fetched and parsed. -/
def trust {E : Type} (w : World E) (st : Conf.Started) (tr : List Obs) : Out Res :=
  match st.opts.ctx.anchorfn with
  | none => meet w st tr
  | some fn => do
    let m ← Path.fixpath (fn ++ [0])                                           -- :1433
    let fn ← cstrOf m
    let tr := tr ++ [.anchor fn]
    match w.anchor fn with
    | .waits => return ⟨tr, none⟩
    | .refused => return ⟨tr, some (.exit 111)⟩                                -- :1434, 1436
    | .pem d => if w.parse d then meet w st tr else return ⟨tr, some (.exit 111)⟩   -- :1437

/-- main_tlswrapper.c:1421-1427. -/
def confine {E : Type} (w : World E) (st : Conf.Started) (tr : List Obs) : Out Res :=
  if !w.selfpipe then .ok ⟨tr, some (.exit 111)⟩
  else if w.nojail then trust w st tr
  else if w.jail then trust w st (tr ++ [.jailed st.opts.ctx.jailaccount st.opts.ctx.jaildir])
  else .ok ⟨tr, some (.exit 111)⟩

/-- main_tlswrapper.c:1285-1390: the two processes. -/
def boot {E : Type} (w : World E) (st : Conf.Started) : Out Res :=
  if st.opts.ctx.flagdelayedenc && (w.busy || !w.devnull) then .ok ⟨[], some (.exit 111)⟩      -- :1287-1296
  else if !w.pipes || !w.fork then .ok ⟨[], some (.exit 111)⟩                                  -- :1299-1306
  else
    let tr := [.program st.prog st.opts.user st.opts.userfromcert.isSome]
    if !w.keypipes || !w.keyfork then .ok ⟨tr, some (.exit 111)⟩                               -- :1385-1390
    else confine w st (tr ++ [.keys st.opts.ctx.certfiles])

/-- `main_tlswrapper`, main_tlswrapper.c:1154-1541; `emptydir` is the compiled-in jail directory. -/
def program {E : Type} (w : World E) (emptydir : Bytes) (argv : List Bytes) : Out Res :=
  match Conf.start w.fs emptydir argv with
  | .ub => .ub
  | .exit code => .ok ⟨[], some (.exit code)⟩
  | .ok st => boot w st

end TlsMain
