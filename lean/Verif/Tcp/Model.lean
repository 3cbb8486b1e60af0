import Verif.Cmd.Model
import Verif.Resolve.Trust
import Verif.Conn.Model
import Verif.ConnInfo.Model
import Verif.Relay.Tcp
/-
main_tlswrapper_tcp.c:226-519, the whole program: the models of the command line, the
resolver, the connection attempt, the endpoints of the client, the PROXY header and the
relay put together in the order of the source. Left out: signals before the relay, the
alarm, log texts (except that the addresses are read for them) and the descriptors of the
resolver process.
-/
namespace TcpMain
open Io

/-- What tlswrapper-tcp does that others can see, in order. -/
inductive Obs where
  /-- jail() has succeeded for this account and directory (main_tlswrapper_tcp.c:337) -/
  | jailed (account : Option Bytes) (dir : Bytes)
  /-- these bytes of the client were taken as PROXY header (:342) -/
  | header (used : Bytes)
  /-- a connection to this address and port was started (:354, conn.c:239) -/
  | connect (a : Bytes) (port : Byte × Byte)
  /-- an action of the relay (:378-516) -/
  | relay (a : Relay.Act Relay.Tcp.Fd)
  deriving Repr, DecidableEq

/-- What the program finds in the world and in memory it has not initialised itself
(main_tlswrapper_tcp.c:226-519, with the calls named below). -/
structure World where
  /-- the third argument of main_tlswrapper_tcp -/
  nojail : Bool
  /-- resolvehost_init succeeds (:308) -/
  fork : Bool
  /-- send or recv of resolvehost_do fails (resolvehost.c:249-252) -/
  lost : Bool
  /-- getaddrinfo and randombytes, in whichever process they are called (resolvehost.c:92, 43) -/
  gai : Bytes → Resolve.Gai
  rnd : Nat → Bytes
  /-- the buffers of the resolver process (resolvehost.c:147-149) -/
  buf0 : Bytes
  ip0 : Bytes
  /-- pipe() succeeds (:327) -/
  pipe : Bool
  /-- descriptors open before conn_init -/
  fds : List Nat
  /-- answers of the kernel to conn_init and conn (:330, 354) -/
  kern : List Conn.Ev
  /-- jail() succeeds (:337) -/
  jail : Bool
  /-- inet_pton and inet_ntop -/
  codec : Proxy.IpCodec
  /-- environment and socket of descriptor 0 (:348) -/
  env : ConnInfo.Env
  loc : ConnInfo.Sock
  peer : ConnInfo.Sock
  /-- what the client sends, and the answers to the read calls of the PROXY header (:342) -/
  client : RFd
  /-- memory for the outgoing header is available (:363) -/
  alloc : Bool
  /-- the static buffer of porttostr, inbuf and outbuf (:39-42) -/
  static : Bytes
  imem : Bytes
  omem : Bytes
  /-- what the server sends -/
  server : Bytes
  /-- answers of the kernel in the relay (:378-513) -/
  evs : List Relay.Tcp.Ev

/-- What has happened, and the exit code; `none`: the program waits for the kernel
(die at main_tlswrapper_tcp.c:80-92). -/
structure Res where
  trace : List Obs
  code : Option Nat
  deriving Repr, DecidableEq

/-- main_tlswrapper_tcp.c:306, 312: the addresses of the host. -/
def lookup (w : World) (host : Bytes) : Out (Int × Bytes) :=
  if w.nojail then Resolve.resolvehost (List.replicate 128 0) 128 (w.gai host) w.rnd
  else Resolve.resolvehostDo (List.replicate 128 0) 128 (host ++ [0])
    (fun msg => if w.lost then .ok none else do return some (← Resolve.helperReply w.buf0 w.ip0 msg w.gai w.rnd))

/-- main_tlswrapper_tcp.c:361-518: header, relay, close, exit code 0. -/
def forward (w : World) (pp : Bool) (e : Proxy.Ends) (rest : Bytes) (tr : List Obs) : Out Res := do
  match ← Relay.Tcp.relay w.codec w.alloc w.static w.imem w.omem e pp rest w.server w.evs with
  | none => return ⟨tr, some 100⟩                                              -- :365
  | some (s, none) => return ⟨tr ++ s.log.map .relay, none⟩
  | some (s, some _) => return ⟨tr ++ (Relay.Tcp.closeRemoteout (Relay.Tcp.closeRemotein s)).log.map .relay, some 0⟩  -- :515-518

/-- main_tlswrapper_tcp.c:354-359: one of the addresses is connected. -/
def reach (w : World) (st : Cmd.TcpStarted) (ip : Bytes) (iplen : Int) (s : Conn.St) (kern : List Conn.Ev) (e : Proxy.Ends)
    (rest : Bytes) (tr : List Obs) : Out Res :=
  match Conn.conn st.connecttimeout ip iplen s kern with
  | none => .ok ⟨tr, none⟩
  | some (d, _) =>
    let tr := tr ++ (d.st.tried.reverse.map (fun t => Obs.connect t.2 st.port))
    match d.ret with
    | .fail => .ok ⟨tr, some 111⟩                                              -- :355-356
    | .ok _ _ => forward w st.opts.ppout e rest tr

/-- main_tlswrapper_tcp.c:341-349: the endpoints of the client. -/
def meet (w : World) (st : Cmd.TcpStarted) (ip : Bytes) (iplen : Int) (s : Conn.St) (kern : List Conn.Ev)
    (tr : List Obs) : Out Res :=
  if st.opts.ppin then do
    match ← Proxy.get w.codec w.client with
    | none => return ⟨tr, none⟩
    | some (r, fd) =>
      let tr := tr ++ [.header (w.client.src.take (w.client.src.length - fd.src.length))]
      match r with
      | none => return ⟨tr, some 100⟩                                          -- :343
      | some e => reach w st ip iplen s kern e fd.src tr
  else do
    let (_, e) ← ConnInfo.get w.codec w.env w.loc w.peer Proxy.zeroEnds         -- :348
    reach w st ip iplen s kern e w.client.src tr

/-- main_tlswrapper_tcp.c:336-338. -/
def confine (w : World) (st : Cmd.TcpStarted) (ip : Bytes) (iplen : Int) (s : Conn.St) (kern : List Conn.Ev) : Out Res :=
  if w.nojail then meet w st ip iplen s kern []
  else if w.jail then meet w st ip iplen s kern [.jailed st.opts.account st.opts.empty_dir]
  else .ok ⟨[], some 111⟩

/-- main_tlswrapper_tcp.c:306-333: after the command line. -/
def boot (w : World) (st : Cmd.TcpStarted) : Out Res :=
  if !w.nojail && !w.fork then .ok ⟨[], some 111⟩                              -- :308-311
  else do
    let (iplen, ip) ← lookup w st.host
    if iplen < 0 then return ⟨[], some 111⟩                                    -- :314-318
    else if iplen = 0 then return ⟨[], some 111⟩                               -- :319-322
    else do
      let _ ← if st.opts.log_level ≥ 3 then Resolve.logLoop ip iplen 256 0 else .ok []   -- :323, log_level_DEBUG
      if !w.pipe then return ⟨[], some 111⟩                                    -- :327
      else
        match Conn.init (iplen.toNat / 16) ⟨fun _ => none, fun _ => none, w.fds, [], []⟩ w.kern with   -- :330
        | none => return ⟨[], none⟩
        | some (false, _, _) => return ⟨[], some 111⟩
        | some (true, s, kern) => confine w st ip iplen s kern

/-- `main_tlswrapper_tcp`, main_tlswrapper_tcp.c:226-519; `emptydir` is the compiled-in jail directory. -/
def program (w : World) (emptydir : Bytes) (argv : List Bytes) : Out Res :=
  match Cmd.tcpStart emptydir argv with
  | .ub => .ub
  | .exit code => .ok ⟨[], some code⟩
  | .ok st => boot w st

end TcpMain
