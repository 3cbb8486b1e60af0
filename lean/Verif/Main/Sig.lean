import Verif.Relay.Clear
/-
Signals: the handlers of tlswrapper and tlswrapper-tcp, which may interrupt the program
between any two of its own steps and each other, and the pipe through which they tell the
relay loop (main_tlswrapper.c:79, 100-128, 1162-1169, 1422, 1483, 1500-1501 and
main_tlswrapper_tcp.c:196-212, 327, 373-374).

Trusted about the kernel (POSIX): a signal that is pending is not queued a second time; a
handler runs with its own signal blocked and the others open (sa_mask is empty); write to
a pipe stores the byte, or fails with EAGAIN when the pipe is full, EBADF when there is no
pipe and EINTR when a signal came first, and changes errno only when it fails.
tlswrapper-tcp's pipe is a blocking one, so its write would wait where this model says
EAGAIN; every theorem that speaks of the bytes assumes that the pipe was never full.
-/
namespace Sig

/-- The signals with a handler (main_tlswrapper.c:1165-1166, 1483; main_tlswrapper_tcp.c:373-374). -/
inductive Signal where
  | term
  | chld
  | alrm
  deriving Repr, DecidableEq

/-- Which of the two programs (main_tlswrapper.c:111, main_tlswrapper_tcp.c:206). -/
inductive Prog where
  | wrapper
  | tcp
  deriving Repr, DecidableEq

/-- errno.h: EINTR, as compared at main_tlswrapper.c:125. -/
def EINTR : Int := 4
/-- errno.h: EBADF (write to descriptor -1, main_tlswrapper.c:79,124). -/
def EBADF : Int := 9
/-- errno.h: EAGAIN (write to a full pipe, main_tlswrapper.c:124). -/
def EAGAIN : Int := 11

/-- main_tlswrapper.c:112-122 and main_tlswrapper_tcp.c:210: the byte a handler will write.
`pid` is si_pid, `child` the variable of main_tlswrapper.c:81. -/
def code (p : Prog) (child : Int) (s : Signal) (pid : Int) : Byte :=
  match p with
  | .tcp => 0
  | .wrapper =>
    let ch : Byte := 0
    let ch := if s = .chld ∧ pid = child then c! 'C' else ch
    if s = .alrm then c! 'A' else ch

/-- Where a handler is: about to call write, or about to test its result
(main_tlswrapper.c:123-126). -/
inductive Pc where
  | write
  | test (w : Int)
  deriving Repr, DecidableEq

/-- One running handler (main_tlswrapper.c:111-127): the signal, its byte, the saved errno
and the place. `mine` is for the record only: errno as this handler last left it. -/
structure Frame where
  sig : Signal
  ch : Byte
  saved : Int
  pc : Pc
  mine : Int
  deriving Repr, DecidableEq

/-- Steps of the program itself that matter for signals. (the places cited at its constructors) -/
inductive Act where
  /-- sigaction / signal(s, signalhandler) (main_tlswrapper.c:1165-1166,1483; main_tlswrapper_tcp.c:373-374). -/
  | handle (s : Signal)
  /-- signal(s, SIG_DFL) (main_tlswrapper.c:1500-1501). -/
  | dflt (s : Signal)
  /-- child = fork() (main_tlswrapper.c:1303). -/
  | fork (pid : Int)
  /-- the pipe is made (main_tlswrapper.c:1422, main_tlswrapper_tcp.c:327). -/
  | pipe
  /-- one byte is read from it (main_tlswrapper.c:139). -/
  | read
  /-- any other step; errno becomes `e`. -/
  | other (e : Int)
  deriving Repr, DecidableEq

/-- One event of a history. (main_tlswrapper.c:100-128, main_tlswrapper_tcp.c:196-212) -/
inductive Ev where
  /-- someone sends the signal (the process `pid`, or the kernel about it). -/
  | raise (s : Signal) (pid : Int)
  /-- the kernel delivers it: the handler starts, on top of whatever runs. -/
  | deliver (s : Signal)
  /-- the newest handler calls write; `intr`: the call is interrupted (main_tlswrapper.c:124). -/
  | write (intr : Bool)
  /-- the newest handler tests the result (main_tlswrapper.c:125-126). -/
  | test
  /-- the program itself takes a step (only when no handler runs). -/
  | main (a : Act)
  deriving Repr, DecidableEq

/-- The process as far as signals go. `wrote`, `got`, `lost` and `sent` are for the record:
the bytes the pipe accepted, the bytes read from it, the bytes that a handler could not
write, and the bytes of all handlers ever started. `alive` is false once the default
action of a signal has ended the process (main_tlswrapper.c:79-81). -/
structure St where
  hand : List Signal
  child : Int
  pipe : Option Bytes
  errno : Int
  frames : List Frame
  pend : List (Signal × Int)
  alive : Bool
  wrote : Bytes
  got : Bytes
  lost : Bytes
  sent : Bytes
  deriving Repr, DecidableEq

/-- At program start: no handler, no pipe (selfpipe = {-1,-1}), child = -1
(main_tlswrapper.c:79-81, main_tlswrapper_tcp.c:196). -/
def St.init : St := ⟨[], -1, none, 0, [], [], true, [], [], [], []⟩

/-- One step of the program (the places cited at `Act`). (main_tlswrapper.c:1162-1169, 1422-1501) -/
def act (t : St) : Act → St
  | .handle s => { t with hand := s :: t.hand }
  | .dflt s => { t with hand := t.hand.filter (· ≠ s) }
  | .fork pid => { t with child := pid }
  | .pipe => { t with pipe := some [] }
  | .read =>
    match t.pipe with
    | some (b :: rest) => { t with pipe := some rest, got := t.got ++ [b] }
    | _ => t
  | .other e => { t with errno := e }

/-- The call write(selfpipe[1], &ch, 1) (main_tlswrapper.c:124): its result, errno, the pipe
(`cap`: how many bytes it holds), and whether the byte is in. -/
def writeByte (cap : Nat) (pipe : Option Bytes) (errno : Int) (intr : Bool) (ch : Byte) :
    Int × Int × Option Bytes :=
  match pipe with
  | none => (-1, EBADF, none)
  | some q =>
    if intr then (-1, EINTR, some q)
    else if q.length < cap then (1, errno, some (q ++ [ch]))
    else (-1, EAGAIN, some q)

/-- One event; `none`: it cannot happen now. (main_tlswrapper.c:100-128, main_tlswrapper_tcp.c:196-212) -/
def step (p : Prog) (cap : Nat) (t : St) (ev : Ev) : Option St :=
  if !t.alive then none
  else match ev with
  | .raise s pid =>
    -- a pending signal is not queued a second time
    if t.pend.any (·.1 = s) then some t
    else some { t with pend := t.pend ++ [(s, pid)] }
  | .deliver s =>
    match t.pend.find? (·.1 = s) with
    | none => none
    | some (_, pid) =>
      -- blocked while its own handler runs
      if t.frames.any (·.sig = s) then none
      else
        let t := { t with pend := t.pend.filter (·.1 ≠ s) }
        if s ∈ t.hand then
          let ch := code p t.child s pid
          -- :114 int saved_errno = errno
          some { t with frames := ⟨s, ch, t.errno, .write, t.errno⟩ :: t.frames,
                        sent := t.sent ++ [ch] }
        -- default action: SIGCHLD is ignored, SIGTERM and SIGALRM end the process
        else if s = .chld then some t
        else some { t with alive := false }
  | .write intr =>
    match t.frames with
    | f :: fs =>
      if f.pc = .write then
        let r := writeByte cap t.pipe t.errno intr f.ch
        let t := { t with frames := { f with pc := .test r.1, mine := r.2.1 } :: fs,
                          errno := r.2.1, pipe := r.2.2 }
        if r.1 = 1 then some { t with wrote := t.wrote ++ [f.ch] }
        else if r.2.1 = EINTR then some t
        else some { t with lost := t.lost ++ [f.ch] }
      else none
    | [] => none
  | .test =>
    match t.frames with
    | f :: fs =>
      match f.pc with
      | .write => none
      | .test w =>
        -- :125 while (w == -1 && errno == EINTR)
        if w = -1 ∧ t.errno = EINTR then
          some { t with frames := { f with pc := .write } :: fs }
        -- :126 errno = saved_errno
        else some { t with frames := fs, errno := f.saved }
    | [] => none
  | .main a => if t.frames = [] then some (act t a) else none

/-- A history from a state. (any interleaving of main_tlswrapper.c:100-128 with the program) -/
def run (p : Prog) (cap : Nat) (t : St) : List Ev → Option St
  | [] => some t
  | e :: es => (step p cap t e).bind fun t' => run p cap t' es

/-- The program's own steps in a history. (Specification or proof notion; models no line of /repo.) -/
def acts : List Ev → List Act
  | [] => []
  | .main a :: es => a :: acts es
  | _ :: es => acts es

/-- The program's steps without those that do not touch signals.
(Specification or proof notion; models no line of /repo.) -/
def order (h : List Ev) : List Act := (acts h).filter fun
  | .other _ => false
  | .read => false
  | _ => true

/-- Specification: errno as the program's own steps `as` alone would leave it (the value
the code between two signals relies on, main_tlswrapper.c:114,126). -/
def errnoOf (e : Int) : List Act → Int
  | [] => e
  | .other e' :: as => errnoOf e' as
  | _ :: as => errnoOf e as

/-- tlswrapper's order (main_tlswrapper.c:1165-1166 SIGCHLD and SIGTERM, :1303 fork, :1422
the pipe, :1483 SIGALRM, :1500-1501 the two back to default). -/
def wrapperOrder (pid : Int) : List Act :=
  [.handle .chld, .handle .term, .fork pid, .pipe, .handle .alrm, .dflt .chld, .dflt .alrm]

/-- tlswrapper-tcp's order (main_tlswrapper_tcp.c:327, 373-374). -/
def tcpOrder : List Act := [.pipe, .handle .term, .handle .alrm]

/-- What handle_selfpipe_event's read gives in a state (main_tlswrapper.c:139-142). -/
def readEv (t : St) : Relay.SigEv :=
  match t.pipe with
  | some (b :: _) => .byte b
  | some [] => .again
  | none => .failed

end Sig
