import Verif.Cmd.Model
import Verif.Resolve.Trust
import Verif.Conn.Model
import Verif.ConnInfo.Model
import Verif.Smtp.Model
import Verif.Main.Start
/-
main_tlswrapper_smtp.c:834-1029 and 88-108, the whole program: the models of the command
line, the resolver, the connection to the greylist server, the address of the client, the
session and the exit code put together in the order of the source. Left out: the alarms
(:842, 1022, which end the process with code 111 wherever it is), log texts (except that the
address is read for one), what the child does before it runs the program, and the
descriptors of the resolver process.
-/
namespace SmtpMain

/-- What tlswrapper-smtp does that others can see, in order. -/
inductive Obs where
  /-- the process that runs the mail program was started; `user`: the account it is to run under
  (main_tlswrapper_smtp.c:919-948) -/
  | started (prog : List Bytes) (user : Option Bytes)
  /-- jail() has succeeded for this account and directory (:977) -/
  | jailed (account : Option Bytes) (dir : Bytes)
  /-- a connection to this address and port was started (:1001, conn.c:239) -/
  | connect (a : Bytes) (port : Byte × Byte)
  /-- an action of the session (:1024-1026) -/
  | session (a : Smtp.Act)
  deriving Repr, DecidableEq

/-- What the program finds in the world and in memory it has not initialised itself
(main_tlswrapper_smtp.c:834-1029, with the calls named below). -/
structure World where
  /-- the third argument of main_tlswrapper_smtp -/
  nojail : Bool
  /-- inet_pton(AF_INET6) accepts the text (parsehostport.c) -/
  ip6 : Bytes → Bool
  /-- the uninitialised buffer of :898 -/
  port0 : Bytes
  /-- descriptors 5 and 6 are open (:914) -/
  ctl : Bool
  /-- both pipe() calls succeed (:917-918) -/
  pipes : Bool
  /-- fork() succeeds (:919) -/
  fork : Bool
  /-- resolvehost_init succeeds (:964) -/
  resolver : Bool
  /-- send or recv of resolvehost_do fails (resolvehost.c:249-252) -/
  lost : Bool
  /-- getaddrinfo and randombytes, in whichever process they are called (resolvehost.c:92, 43) -/
  gai : Bytes → Resolve.Gai
  rnd : Nat → Bytes
  /-- the buffers of the resolver process (resolvehost.c:147-149) -/
  buf0 : Bytes
  ip0 : Bytes
  /-- descriptors open before conn_init -/
  fds : List Nat
  /-- answers of the kernel to conn_init and conn (:969, 1001) -/
  kern : List Conn.Ev
  /-- jail() succeeds (:977) -/
  jail : Bool
  /-- inet_pton and inet_ntop -/
  codec : Proxy.IpCodec
  /-- environment and socket of descriptor 0 (:1016) -/
  env : ConnInfo.Env
  loc : ConnInfo.Sock
  peer : ConnInfo.Sock
  /-- the identifier of the log, if one is set (log.c, log_get_id) -/
  id : Option Bytes
  /-- what the client, the mail program, the other end of descriptor 6 and the greylist server send,
  and which writes fail (`Smtp.S`) -/
  net : List Smtp.Ev
  cin : Bytes
  acks : Bytes
  gin : List Bytes
  wr : List Bool
  gwr : List Bool
  /-- answers to waitpid for the mail program (:100) -/
  wait : List Main.Ans

/-- What has happened, and the exit code; `none`: the program waits for the kernel
(die at main_tlswrapper_smtp.c:88-108). -/
structure Res where
  trace : List Obs
  code : Option Nat
  deriving Repr, DecidableEq

/-- main_tlswrapper_smtp.c:980-987: the address of the greylist server, in a static buffer of 16 bytes
(:350); `host` is the buffer with its name. -/
def lookup (w : World) (host : Bytes) : Out (Int × Bytes) :=
  if w.nojail then do
    let h ← cstrOf host
    Resolve.resolvehost (List.replicate 16 0) 16 (w.gai h) w.rnd
  else Resolve.resolvehostDo (List.replicate 16 0) 16 host
    (fun msg => if w.lost then .ok none else do return some (← Resolve.helperReply w.buf0 w.ip0 msg w.gai w.rnd))

/-- main_tlswrapper_smtp.c:1016-1027: the session; `grey`: the greylist server is connected. -/
def serve (w : World) (st : Cmd.SmtpStarted) (grey : Bool) (tr : List Obs) : Out Res := do
  let (_, e) ← ConnInfo.get w.codec w.env w.loc w.peer Proxy.zeroEnds            -- :1016
  let cfg : Smtp.Cfg := ⟨w.id, grey, st.opts.flaggreyfailclosed, Proxy.iptostr w.codec e.remoteip⟩   -- :1017
  match Smtp.session cfg (Smtp.start w.net w.cin w.ctl w.acks w.gin w.wr w.gwr) with
  | .ub => .ub
  | .ok _ s => return ⟨tr ++ s.log.map .session, Main.smtpDie true 111 0 w.wait⟩   -- :1027
  | .die x s => return ⟨tr ++ s.log.map .session, Main.smtpDie true x.toNat 0 w.wait⟩

/-- main_tlswrapper_smtp.c:980-1013: the greylist server is looked up and connected. -/
def reach (w : World) (st : Cmd.SmtpStarted) (host : Bytes) (port : Byte × Byte) (s : Conn.St) (kern : List Conn.Ev)
    (tr : List Obs) : Out Res := do
  let (iplen, ip) ← lookup w host
  if iplen < 0 then return ⟨tr, some 111⟩                                         -- :989-992
  else if iplen = 0 then return ⟨tr, some 111⟩                                    -- :993-997
  else do
    let _ ← if st.opts.log_level ≥ 3 then Resolve.addrAt ip 0 else .ok []          -- :998, log_level_DEBUG
    match Conn.conn st.crwtimeout ip iplen s kern with                             -- :1001
    | none => return ⟨tr, none⟩
    | some (d, _) =>
      let tr := tr ++ (d.st.tried.reverse.map (fun t => Obs.connect t.2 port))
      match d.ret with
      | .fail => if st.opts.flaggreyfailclosed then return ⟨tr, some 111⟩ else serve w st false tr   -- :1003-1007
      | .ok _ _ => serve w st true tr                                              -- :1009-1012

/-- main_tlswrapper_smtp.c:975-978. -/
def confine (w : World) (st : Cmd.SmtpStarted) (k : List Obs → Out Res) (tr : List Obs) : Out Res :=
  if w.nojail then k tr
  else if w.jail then k (tr ++ [.jailed st.opts.jailaccount st.opts.jaildir])
  else .ok ⟨tr, some 111⟩

/-- main_tlswrapper_smtp.c:914-973: after the command line. -/
def boot (w : World) (st : Cmd.SmtpStarted) : Out Res :=
  if !w.pipes then .ok ⟨[], some 111⟩                                             -- :917-918
  else if !w.fork then .ok ⟨[], some 111⟩                                         -- :921-922
  else
    let tr := [.started st.prog st.opts.user]
    match st.greylist with
    | none => confine w st (serve w st false) tr
    | some (host, port) =>
      if !w.nojail && !w.resolver then .ok ⟨tr, some 111⟩                         -- :963-967
      else
        match Conn.init 1 ⟨fun _ => none, fun _ => none, w.fds, [], []⟩ w.kern with  -- :969
        | none => .ok ⟨tr, none⟩
        | some (false, _, _) => .ok ⟨tr, some 111⟩
        | some (true, s, kern) => confine w st (reach w st host port s kern) tr

/-- `main_tlswrapper_smtp`, main_tlswrapper_smtp.c:834-1029; `emptydir` is the compiled-in jail directory. -/
def program (w : World) (emptydir : Bytes) (argv : List Bytes) : Out Res :=
  match Cmd.smtpStart w.ip6 emptydir w.port0 argv with
  | .ub => .ub
  | .exit code => .ok ⟨[], some code⟩
  | .ok st => boot w st

end SmtpMain
