import Verif.Resolve.Model
/-
What the programs do with the answer of the resolver process: main_tlswrapper_tcp.c:312-358,
main_tlswrapper_smtp.c:986-1008 and the part of conn.c that uses the addresses. The address
buffers are byte lists of their size; reading outside of one is `ub`. The resolver process is
an arbitrary datagram.
-/
namespace Resolve

/-- What a program does with a 16-byte address.
(main_tlswrapper_tcp.c:323 prints it, conn.c:233 connects to it) -/
inductive Use where
  /-- prints it in the log (main_tlswrapper_tcp.c:323, main_tlswrapper_smtp.c:998) -/
  | log (a : Bytes)
  /-- starts a connection to it on a slot (conn.c:239) -/
  | connect (slot : Nat) (a : Bytes)
  deriving Repr, DecidableEq

/-- The 16 bytes at `ip + o` (read by log_ip, log.c:617-619, and socket_connect, socket.c:58-69). -/
def addrAt (ip : Bytes) (o : Nat) : Out Bytes :=
  if o + 16 ≤ ip.length then .ok ((ip.drop o).take 16) else .ub

/-- main_tlswrapper_tcp.c:323: `k` rounds left of `for (i = 0; i < iplen; i += 16)`. -/
def logLoop (ip : Bytes) (iplen : Int) : Nat → Nat → Out (List Use)
  | 0, _ => .ok []
  | k + 1, i =>
    if (i : Int) < iplen then do
      let a ← addrAt ip i
      let us ← logLoop ip iplen k (i + 16)
      return .log a :: us
    else .ok []

/-- conn.c:237-260: `n` addresses from slot `i` on; `now i` says whether the connection on slot `i` is
there at once (then the others are not tried). A slot that was not prepared (descriptor -1)
is tried all the same and fails. -/
def tryLoop (ip : Bytes) (now : Nat → Bool) : Nat → Nat → Out (List Use)
  | 0, _ => .ok []
  | n + 1, i => do
    let a ← addrAt ip (16 * i)
    if now i then return [.connect i a]
    else do
      let us ← tryLoop ip now n (i + 1)
      return .connect i a :: us

/-- conn.c:206-260 for a timeout of at least a second: the addresses tried; `none` if refused. -/
def tryAll (ip : Bytes) (iplen : Int) (now : Nat → Bool) : Out (Option (List Use)) :=
  let iplen := if iplen > 8 * 16 then 8 * 16 else iplen           -- :219
  if iplen < 16 then .ok none                                      -- :220-223
  else do
    let us ← tryLoop ip now (iplen.toNat / 16) 0
    return some us

/-- main_tlswrapper_tcp.c:312-358: what tlswrapper-tcp does with the addresses after the resolver
process has sent `reply` (`none`: no answer), and whether it ends with code 111 because of it.
`debug`: the verbosity is at least that of log_d3. -/
def tcpUses (debug : Bool) (reply : Option Bytes) (now : Nat → Bool) : Out (List Use × Bool) := do
  -- the static buffer of :53 (NUMIP is 8)
  let (iplen, ip) ← answer (List.replicate 128 0) 128 reply       -- :312
  if iplen < 0 then return ([], true)                              -- :314-318
  else if iplen = 0 then return ([], true)                         -- :319-322
  else do
    let logs ← (if debug then logLoop ip iplen 256 0 else .ok [])  -- :323
    match ← tryAll ip iplen now with                               -- :353
    | none => return (logs, true)
    | some us => return (logs ++ us, false)

/-- main_tlswrapper_smtp.c:986-1008, likewise; `closed`: the option that refuses mail when the greylist
server is not reached (-c, :1002). -/
def smtpUses (debug closed : Bool) (reply : Option Bytes) (now : Nat → Bool) : Out (List Use × Bool) := do
  -- the static buffer of :350
  let (iplen, ip) ← answer (List.replicate 16 0) 16 reply         -- :987
  if iplen < 0 then return ([], true)                              -- :989-992
  else if iplen = 0 then return ([], true)                         -- :993-997
  else do
    let logs ← (if debug then do return [.log (← addrAt ip 0)] else .ok [])  -- :998
    match ← tryAll ip iplen now with                               -- :1001
    | none => return (logs, closed)
    | some us => return (logs ++ us, false)

end Resolve
