import Verif.Base
/-
Model of the order in which the three programs start, work and end, and of their exit
codes: main_tlswrapper.c:1162-1541, main_tlswrapper_tcp.c:236-518 and
main_tlswrapper_smtp.c:840-1027. A program is the list of its steps in the order of
the source; each step may fail, and then ends the process with the code the source
gives. What the steps do is modelled elsewhere (options: Conf; descriptors: Main/Fds;
jail: Jail; relay: Relay; the SMTP dialogue: Smtp).
-/
namespace Main

/-- A step of the start-up of one of the programs (main_tlswrapper.c:1154-1541, main_tlswrapper_tcp.c:226-519, main_tlswrapper_smtp.c:834-1029). -/
inductive Step where
  /-- sigaction/signal: what a signal does from now on -/
  | handler
  /-- alarm(n) -/
  | alarm (n : Int)
  | options
  | pipes
  | forkProgram
  | forkKey
  /-- the resolver's own process -/
  | forkResolver
  | resolve
  | sockets
  | jail
  | anchor
  /-- the PROXY header is read from the client -/
  | proxyIn
  /-- endpoints from the environment or the socket -/
  | conninfo
  | connect
  | proxyOut
  /-- endpoints and account record to the program -/
  | tellProgram
  /-- SIGALRM no longer kills but wakes the loop -/
  | alarmHandler
  /-- relay before STARTTLS -/
  | clear
  | tlsInit
  /-- the encrypted relay, or the plain one of the TCP wrapper -/
  | relay
  /-- the SMTP dialogue with the client -/
  | dialogue
  deriving Repr, DecidableEq

/-- A program: steps and the code with which a failure ends the process; `none`: the
step cannot fail or its result is not looked at (the statements of main_tlswrapper.c:1154-1541,
main_tlswrapper_tcp.c:226-519, main_tlswrapper_smtp.c:834-1029). -/
abbrev Prog := List (Step × Option Nat)

/-- Runs a program: the steps begun, and the code if one of them failed. `ok n`: the
n-th step succeeds (control flow of the same statements; a failure calls `die`, e.g.
main_tlswrapper.c:210-245). -/
def runFrom (ok : Nat → Bool) : Nat → Prog → List Step × Option Nat
  | _, [] => ([], none)
  | n, (s, none) :: p => (s :: (runFrom ok (n + 1) p).1, (runFrom ok (n + 1) p).2)
  | n, (s, some code) :: p =>
    if ok n then (s :: (runFrom ok (n + 1) p).1, (runFrom ok (n + 1) p).2)
    else ([s], some code)

/-- A program from its first step (main_tlswrapper.c:1154-1541). -/
def run (ok : Nat → Bool) (p : Prog) : List Step × Option Nat := runFrom ok 0 p

/-- What decides the order in main_tlswrapper. `starttls`: the relay before STARTTLS
ended with a request for TLS (the flags tested at main_tlswrapper.c:1286-1541). -/
structure Cfg where
  nojail : Bool
  anchor : Bool
  ppin : Bool
  delayed : Bool
  starttls : Bool
  timeout : Int
  hstimeout : Int
  deriving Repr

/-- `b` ? these steps : none (e.g. main_tlswrapper.c:1286, 1467, 1484). -/
def whenever (b : Bool) (p : Prog) : Prog := if b then p else []

/-- main_tlswrapper.c:1162-1483, the network process up to the relay. -/
def mainBoot (c : Cfg) : Prog :=
  [(.handler, some 111), (.handler, some 111),                          -- :1167-1168
   (.alarm 10, none),                                          -- :1169
   (.options, some 100),                                           -- :1178-1279, usage and the options' own die(100)
   (.alarm c.hstimeout, none)] ++                              -- :1280
  whenever c.delayed [(.pipes, some 111)] ++                       -- :1287-1296
  [(.pipes, some 111), (.forkProgram, some 111),                        -- :1299-1303
   (.pipes, some 111), (.forkKey, some 111),                            -- :1385-1387
   (.pipes, some 111)] ++                                          -- :1422
  whenever (!c.nojail) [(.jail, some 111)] ++                      -- :1425-1427
  whenever c.anchor [(.anchor, some 111)] ++                       -- :1429-1440
  (if c.ppin then [(.proxyIn, some 100)] else [(.conninfo, none)]) ++   -- :1443-1451; the result of connectioninfo_get is not looked at
  [(.tellProgram, some 111),                                       -- :1462-1477
   (.alarmHandler, some 111)]                                      -- :1483

/-- main_tlswrapper.c:1485-1497, the relays. In the encrypted phase die_writetopipe and
die_extractcn end the process with 111. -/
def mainRelay (c : Cfg) : Prog :=
  whenever c.delayed [(.alarm c.timeout, none), (.clear, none)] ++      -- :1486-1487
  whenever (c.delayed && c.starttls) [(.alarm c.hstimeout, none)] ++   -- :1490
  whenever (!c.delayed || c.starttls) [(.tlsInit, none), (.relay, some 111)] -- :1495-1497

/-- `main_tlswrapper`, main_tlswrapper.c:1154-1541. -/
def mainProg (c : Cfg) : Prog := mainBoot c ++ mainRelay c

/-- main_tlswrapper_tcp.c:236-518. -/
def tcpProg (c : Cfg) (ppout : Bool) : Prog :=
  [(.options, some 100)] ++                                        -- :246-297
  whenever (!c.nojail) [(.forkResolver, some 111)] ++              -- :308-311
  [(.resolve, some 111),                                           -- :306, 312-322
   (.pipes, some 111),                                             -- :327
   (.sockets, some 111)] ++                                        -- :330-333
  whenever (!c.nojail) [(.jail, some 111)] ++                      -- :336-338
  (if c.ppin then [(.proxyIn, some 100)] else [(.conninfo, none)]) ++   -- :341-349
  [(.connect, some 111)] ++                                        -- :354-357
  whenever ppout [(.proxyOut, some 100)] ++                        -- :362-365
  [(.handler, none), (.alarmHandler, none),                     -- :373-374
   (.alarm c.timeout, none),                                   -- :375
   (.relay, none)]                                             -- :378-513

/-- main_tlswrapper_smtp.c:840-1027; `grey`: a greylist server is given;
`closed`: mail is refused without it. -/
def smtpProg (c : Cfg) (grey closed : Bool) : Prog :=
  [(.alarmHandler, none), (.alarm 30, none),                    -- :841-842
   (.options, some 100),                                           -- :850-908
   (.pipes, some 111), (.forkProgram, some 111)] ++                     -- :917-919
  whenever (grey && !c.nojail) [(.forkResolver, some 111)] ++      -- :963-967
  whenever grey [(.sockets, some 111)] ++                          -- :969-972
  whenever (!c.nojail) [(.jail, some 111)] ++                      -- :976-978
  whenever grey [(.resolve, some 111), (.connect, if closed then some 111 else none)] ++ -- :981-1008
  [(.conninfo, none),                                          -- :1016
   (.alarm c.timeout, none),                                   -- :1022
   (.dialogue, some 111)]                                          -- :1024-1027, and die(111) in _read and _write

/- Waiting. -/

/-- What waitpid() does (main_tlswrapper.c:1511, 1529, main_tlswrapper_smtp.c:100). -/
inductive Ans where
  | eintr
  | failed
  | reaped (status : Nat)
  deriving Repr, DecidableEq

/-- main_tlswrapper.c:1510-1512: `do r = waitpid(…) while (r == -1 && errno == EINTR)`;
`none`: still waiting. -/
def waitLoop : List Ans → Option Ans
  | [] => none
  | .eintr :: l => waitLoop l
  | a :: _ => some a

/-- sys/wait.h on Linux. -/
def WIFEXITED (s : Nat) : Bool := s % 128 == 0
/-- WEXITSTATUS (main_tlswrapper.c:1540-1541). -/
def WEXITSTATUS (s : Nat) : Nat := s / 256 % 256

/-- What the end of main_tlswrapper does, main_tlswrapper.c:1499-1541. -/
inductive End where
  | closePeer | closeKey | waitKey | closeProgram | waitProgram
  deriving Repr, DecidableEq

/-- main_tlswrapper.c:1531-1541. -/
def exitCode : Ans → Nat
  | .reaped s => if WIFEXITED s then WEXITSTATUS s else 111
  | _ => 111

/-- main_tlswrapper.c:1499-1541: the steps begun and the exit code; `none` while it waits.
The answer about the key process is only logged. -/
def waitChildren (key program : List Ans) : List End × Option Nat :=
  match waitLoop key with
  | none => ([.closePeer, .closeKey, .waitKey], none)
  | some _ => ([.closePeer, .closeKey, .waitKey, .closeProgram, .waitProgram], (waitLoop program).map exitCode)

/-- main_tlswrapper.c:1162-1541; `none`: it has not ended. (SIGALRM's default action, up to
:1483, is not a step.) -/
def mainExit (ok : Nat → Bool) (c : Cfg) (key program : List Ans) : Option Nat :=
  match (run ok (mainProg c)).2 with
  | some code => some code
  | none => (waitChildren key program).2

/-- main_tlswrapper_tcp.c:518. -/
def tcpExit (ok : Nat → Bool) (c : Cfg) (ppout : Bool) : Nat :=
  match (run ok (tcpProg c ppout)).2 with
  | some code => code
  | none => 0

/-- main_tlswrapper_smtp.c:88-108, die(x): `child`: a child was started; `status`: what
the variable holds before. -/
def smtpDie (child : Bool) (x : Nat) (status : Nat) (program : List Ans) : Option Nat :=
  if child = false then some x                                        -- :94
  else if x ≠ 0 then some x                                           -- :95
  else
    match waitLoop program with                                       -- :100
    | none => none
    | some a =>
      let status := match a with | .reaped s => s | _ => status
      if WIFEXITED status then some (WEXITSTATUS status) else some 111   -- :102-107

/-- main_tlswrapper_smtp.c:615: a dialogue that ended with QUIT ends with die(0), at a
time when the child exists and nothing has been written to `status`, a static
variable. -/
def smtpExit (ok : Nat → Bool) (c : Cfg) (grey closed : Bool) (program : List Ans) : Option Nat :=
  match (run ok (smtpProg c grey closed)).2 with
  | some code => some code
  | none => smtpDie true 0 0 program

end Main
