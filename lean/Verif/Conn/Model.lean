import Verif.Base
/-
Model of conn.c. Descriptors are numbers; the kernel's answers are consumed from a list of events, `none` meaning
that the list does not describe the calls the code makes. `opened` is the set of open descriptors of the process.
-/
namespace Conn

/-- conn.c:21. -/
def maxip : Nat := 8

/-- conn.c:23-24 (an unused slot is `none`, -1 in C; the arrays have `maxip` entries), together with the descriptors open in
the process and, for the specification, the connects issued and the descriptors reported connected. -/
structure St where
  fds : Nat → Option Nat
  dups : Nat → Option Nat
  opened : List Nat
  tried : List (Nat × Bytes)
  success : List Nat

/-- Result of socket_connect (conn.c:233-248). -/
inductive ConnRes where
  | connected
  | inProgress
  | failed
  deriving Repr, DecidableEq

/-- Result of jail_poll (conn.c:285-292). -/
inductive PollRes where
  | eintr
  | failed
  | ready (revents : List Bool)
  deriving Repr, DecidableEq

/-- The kernel's answers (the calls at conn.c:160-178, 233, 285, 301). -/
inductive Ev where
  | socket (r : Option Nat)
  | dup (r : Option Nat)
  | connect (r : ConnRes)
  | time (ms : Int)
  /-- jail_poll() with a timeout of `tm` milliseconds -/
  | poll (tm : Int) (r : PollRes)
  /-- socket_connected() -/
  | isConnected (b : Bool)
  deriving Repr, DecidableEq

/-- One element of `fds` or `dupfds` changed (conn.c:63-64, 124). -/
def upd (f : Nat → Option Nat) (i : Nat) (v : Option Nat) : Nat → Option Nat := fun j => if j = i then v else f j

/-- close() of a possibly unused descriptor (conn.c:59-60). -/
def closeFd (o : List Nat) (f : Option Nat) : List Nat :=
  match f with
  | none => o
  | some f => o.filter (fun x => x ≠ f)

/-- conn.c:33-40: index of the slot holding `fd`, among the slots from `i` on, `k` left. -/
def findslot (s : St) (fd : Nat) : Nat → Nat → Option Nat
  | 0, _ => none
  | k + 1, i => if s.fds i = some fd then some i else findslot s fd k (i + 1)

/-- conn.c:50-65. -/
def closeslot (s : St) (i : Nat) : St :=
  if i ≥ maxip then s
  else { s with
    opened := closeFd (closeFd s.opened (s.fds i)) (s.dups i)
    fds := upd s.fds i none
    dups := upd s.dups i none }

/-- conn.c:73-76: slots from `i` on, `k` left. -/
def resetLoop (s : St) : Nat → Nat → St
  | 0, _ => s
  | k + 1, i => resetLoop (closeslot s i) k (i + 1)

/-- `conn_reset`, conn.c:73-76. -/
def reset (s : St) : St := resetLoop s maxip 0

/-- conn.c:141. -/
def closefd (s : St) (fd : Nat) : St :=
  match findslot s fd maxip 0 with
  | none => s
  | some i => closeslot s i

/-- conn.c:164-178: slot `i`, `k` slots left. -/
def initLoop : Nat → Nat → St → List Ev → Option (Bool × St × List Ev)
  | 0, _, s, ev => some (true, s, ev)
  | k + 1, i, s, .socket r :: ev =>
    match r with
    | none => some (false, reset { s with fds := upd s.fds i none }, ev)
    | some f =>
      if f ∈ s.opened then none
      else
        let s := { s with fds := upd s.fds i (some f), opened := f :: s.opened }
        match ev with
        | .dup none :: ev => some (false, reset { s with dups := upd s.dups i none }, ev)
        | .dup (some d) :: ev =>
          if d ∈ s.opened then none
          else initLoop k (i + 1) { s with dups := upd s.dups i (some d), opened := d :: s.opened } ev
        | _ => none
  | _ + 1, _, _, _ => none

/-- conn.c:156-180. -/
def init (num : Nat) (s : St) (ev : List Ev) : Option (Bool × St × List Ev) :=
  initLoop (min num maxip) 0 (reset s) ev

/-- conn.c:116-130: the loop of conn_copyip over the slots from `i` on, `k` left; `won` is the winning slot. -/
def copyLoop (won : Nat) : Nat → Nat → St → Option Nat → St × Option Nat
  | 0, _, s, d => (s, d)
  | k + 1, i, s, d =>
    if i = won then copyLoop won k (i + 1) { s with dups := upd s.dups i none, fds := upd s.fds i none } (s.dups i)
    else if s.fds i ≠ none ∨ s.dups i ≠ none then copyLoop won k (i + 1) (closeslot s i) d
    else copyLoop won k (i + 1) s d

/-- conn.c:107-131: state, duplicate descriptor and address buffer; `n` is iplen / 16. -/
def copyip (s : St) (fd : Nat) (ip : Bytes) (n : Nat) : St × Option Nat × Bytes :=
  match findslot s fd maxip 0 with
  | none => (s, none, ip)
  | some slot =>
    if slot ≥ n then (s, none, ip)
    else
      let (s, d) := copyLoop slot n 0 s none
      (s, d, (ip.drop (16 * slot)).take 16 ++ ip.drop 16)

/-- What conn() reports: failure, or the descriptor pair (conn.c:206-317). -/
inductive Ret where
  | fail
  | ok (fd : Nat) (dup : Option Nat)
  deriving Repr, DecidableEq

/-- What a call of conn leaves behind (conn.c:206-317). -/
structure Done where
  ret : Ret
  st : St
  ip : Bytes

/-- conn.c:241-248 and 301-308: the descriptor `fd` is connected. -/
def win (s : St) (fd : Nat) (ip : Bytes) (n : Nat) : Done :=
  let (s', d, ip') := copyip s fd ip n
  ⟨.ok fd d, s', ip'⟩

/-- conn.c:231-256: connects for the slots from `i` on, `k` left. A connect on an unused slot (-1) fails. -/
def connectLoop (ip : Bytes) (n : Nat) : Nat → Nat → St → List Ev → Option (Sum Done St × List Ev)
  | 0, _, s, ev => some (.inr s, ev)
  | k + 1, i, s, .connect r :: ev =>
    match s.fds i with
    | none => if r = .failed then connectLoop ip n k (i + 1) (closeslot s i) ev else none
    | some fd =>
      let s := { s with tried := (fd, (ip.drop (16 * i)).take 16) :: s.tried
                        success := if r = .connected then fd :: s.success else s.success }
      match r with
      | .connected => some (.inl (win s fd ip n), ev)
      | .inProgress => connectLoop ip n k (i + 1) s ev
      | .failed => connectLoop ip n k (i + 1) (closeslot s i) ev
  | _ + 1, _, _, _ => none

/-- conn.c:261-268: the descriptors still in flight. -/
def pending (s : St) (n : Nat) : List Nat := (List.range n).filterMap s.fds

/-- conn.c:296-314: the scan of the poll results. -/
def scan (ip : Bytes) (n : Nat) : List (Nat × Bool) → St → List Ev → Option (Sum Done St × List Ev)
  | [], s, ev => some (.inr s, ev)
  | (_, false) :: p, s, ev => scan ip n p s ev
  | (fd, true) :: p, s, .isConnected b :: ev =>
    let s := { s with success := if b then fd :: s.success else s.success }
    if b then some (.inl (win s fd ip n), ev)
    else scan ip n p (closefd s fd) ev
  | (_, true) :: _, _, _ => none

/-- The conversion of a `long long` to the `int` parameter of jail_poll (conn.c:291, jail_poll.c:38;
implementation-defined, here modulo 2^32 as with gcc and clang). -/
def asInt (x : Int) : Int := x.bmod (2 ^ 32)

/-- conn.c:258-316, at most `fuel` rounds. -/
def pollLoop (ip : Bytes) (n : Nat) (deadline : Int) : Nat → St → List Ev → Option (Done × List Ev)
  | 0, _, _ => none
  | fuel + 1, s, ev =>
    if pending s n = [] then some (⟨.fail, reset s, ip⟩, ev)             -- :270-274
    else match ev with
      | .time t :: ev =>
        if deadline - t ≤ 0 then some (⟨.fail, reset s, ip⟩, ev)         -- :278-288
        else match ev with
          | .poll tm r :: ev =>
            if tm ≠ asInt (deadline - t) then none                         -- :278, 291
            else match r with
              | .eintr => pollLoop ip n deadline fuel s ev               -- :292-295
              | .failed => some (⟨.fail, reset s, ip⟩, ev)               -- :296-298
              | .ready rev =>
                if rev.length ≠ (pending s n).length then none
                else match scan ip n ((pending s n).zip rev) s ev with
                  | none => none
                  | some (.inl d, ev) => some (d, ev)
                  | some (.inr s, ev) => pollLoop ip n deadline fuel s ev
          | _ => none
      | _ => none

/-- conn.c:206-317 with non-null pointers. -/
def conn (timeout : Int) (ip : Bytes) (iplen : Int) (s : St) (ev : List Ev) : Option (Done × List Ev) :=
  match ev with
  | .time t0 :: ev =>
    let iplen := min iplen (maxip * 16 : Nat)
    if timeout < 1 ∨ iplen < 16 then some (⟨.fail, s, ip⟩, ev)
    else
      let n := iplen.toNat / 16
      match connectLoop ip n n 0 s ev with
      | none => none
      | some (.inl d, ev) => some (d, ev)
      | some (.inr s, ev) => pollLoop ip n (t0 + 1000 * timeout) (ev.length + 1) s ev
  | _ => none

end Conn
