import Verif.Resolve.Model
/-
The resolver process and its user as two processes with a pair of datagram sockets between
them: resolvehost.c:150-288. The processes take turns in any order; datagrams keep their
order and are not lost (socketpair, AF_UNIX).
-/
namespace Resolve

/-- Where the resolver process is in its loop (resolvehost.c:171-198). -/
inductive Helper where
  /-- just forked: has not asked for its parent's number yet (:164) -/
  | fork
  /-- at the condition of the loop (:171) -/
  | check
  /-- waiting for a datagram (:174-177) -/
  | wait
  /-- has exited with this code (:167, :184, :197, :200) -/
  | done (code : Nat)
  deriving Repr, DecidableEq

/-- Where the program that asks is. (resolvehost.c:226-288) -/
inductive User where
  /-- outside of this module -/
  | idle
  /-- in resolvehost_do: has sent the request, waits for the answer (resolvehost.c:251) -/
  | asked (request : Bytes)
  /-- in resolvehost_close: waits for the resolver process to exit (resolvehost.c:282-285) -/
  | closing
  /-- the same, when the datagram that ends the resolver process could not be sent (:276 ignores it) -/
  | unsent
  /-- resolvehost_close has returned -/
  | closed
  /-- has exited or was killed -/
  | gone
  deriving Repr, DecidableEq

/-- Both processes and the datagrams under way. (resolvehost.c:150-288) -/
structure Sys where
  helper : Helper
  /-- the number the resolver process keeps (resolvehost.c:164) is that of the program that asks -/
  known : Bool
  user : User
  up : List Bytes
  down : List Bytes
  /-- the lookups that have returned: request and answer (`none`: failed) -/
  log : List (Bytes × Option Bytes)
  deriving Repr, DecidableEq

/-- The state after resolvehost_init (resolvehost.c:150-205). -/
def Sys.start : Sys := ⟨.fork, false, .idle, [], [], []⟩

/-- What the resolver process does with a datagram it receives (resolvehost.c:177-196): its reply, or the
code it exits with. The receive buffer has 257 bytes, so a longer datagram is cut. `Rep m r`:
`r` is a possible reply to `m` (`helperReply`). -/
inductive Serve (Rep : Bytes → Bytes → Prop) (m : Bytes) : Sum Bytes Nat → Prop where
  | long : 257 ≤ m.length → Serve Rep m (.inr 0)                          -- :178
  | empty : m.length = 0 → Serve Rep m (.inr 0)                           -- :185
  | reply (r : Bytes) : 0 < m.length → m.length < 257 → Rep m r → Serve Rep m (.inl r)  -- :187-195
  | sendFails : 0 < m.length → m.length < 257 → Serve Rep m (.inr 111)    -- :196

/-- One step of one of the processes. (resolvehost.c:150-288) -/
inductive Step (Rep : Bytes → Bytes → Prop) : Sys → Sys → Prop where
  /-- :164, :169: asks for its parent's number (that of init if the parent has gone already), and
  goes into the jail -/
  | fork {s} : s.helper = .fork →
      Step Rep s { s with helper := .check, known := decide (s.user ≠ .gone) }
  /-- :169: the jail fails -/
  | jailFails {s} : s.helper = .fork → Step Rep s { s with helper := .done 111 }
  /-- :171: the parent is still the one it knows -/
  | checkOk {s} : s.helper = .check → (s.known = true → s.user ≠ .gone) → Step Rep s { s with helper := .wait }
  /-- :171, :199: the parent has gone -/
  | checkGone {s} : s.helper = .check → s.known = true → s.user = .gone → Step Rep s { s with helper := .done 0 }
  /-- :174-176, :179-183: nothing there, or the wait was interrupted -/
  | nothing {s} : s.helper = .wait → Step Rep s { s with helper := .check }
  /-- :184: receiving fails -/
  | recvFails {s} : s.helper = .wait → Step Rep s { s with helper := .done 111 }
  /-- :177-196: a datagram is served -/
  | serve {s m us r} : s.helper = .wait → s.up = m :: us → Serve Rep m (.inl r) →
      Step Rep s { s with helper := .check, up := us, down := s.down ++ [r] }
  /-- :178, :185, :196: a datagram after which it exits -/
  | stop {s m us c} : s.helper = .wait → s.up = m :: us → Serve Rep m (.inr c) →
      Step Rep s { s with helper := .done c, up := us }
  /-- :249: resolvehost_do sends the 256-byte request -/
  | ask {s} (m : Bytes) : s.user = .idle → m.length = 256 →
      Step Rep s { s with user := .asked m, up := s.up ++ [m] }
  /-- :249: sending fails -/
  | askFails {s} (m : Bytes) : s.user = .idle → m.length = 256 →
      Step Rep s { s with log := s.log ++ [(m, none)] }
  /-- :251-262: the answer is received -/
  | answer {s m r ds} : s.user = .asked m → s.down = r :: ds →
      Step Rep s { s with user := .idle, down := ds, log := s.log ++ [(m, some r)] }
  /-- :252: receiving fails, for instance because a signal interrupts it -/
  | answerFails {s m} : s.user = .asked m →
      Step Rep s { s with user := .idle, log := s.log ++ [(m, none)] }
  /-- :274-278: resolvehost_close sends 257 bytes and closes its socket -/
  | close {s} : s.user = .idle →
      Step Rep s { s with user := .closing, up := s.up ++ [List.replicate 257 0] }
  /-- :276: sending it fails -/
  | closeFails {s} : s.user = .idle → Step Rep s { s with user := .unsent }
  /-- :282-286: waitpid returns -/
  | reap {s c} : s.user = .closing ∨ s.user = .unsent → s.helper = .done c → Step Rep s { s with user := .closed }
  /-- the program ends, in whatever state it is -/
  | die {s} : Step Rep s { s with user := .gone }

/-- Any number of steps. (resolvehost.c:150-288, any interleaving) -/
inductive Steps (Rep : Bytes → Bytes → Prop) : Sys → Sys → Prop where
  | refl {s} : Steps Rep s s
  | tail {s t u} : Steps Rep s t → Step Rep t u → Steps Rep s u

end Resolve
