import Verif.Io
/-
Model of readall.c, writeall.c, timeoutread.c, timeoutwrite.c.
-/
namespace Rw
open Io

/-- readall.c:29, writeall.c:29: largest single transfer. -/
def CHUNK : Nat := 1048576

/-- readall.c:27-41. `x` is what has been stored in the destination so far,
`xlen` the bytes still wanted. `none`: the call has not returned yet. The
result is (return value, bytes stored, descriptor afterwards). -/
def readallLoop : (evs : List RdEv) → (src : Bytes) → (xlen : Nat) → (x : Bytes) →
    Option (Int × Bytes × RFd)
  | evs, src, 0, x => some (0, x, ⟨src, evs⟩)
  | [], _, _ + 1, _ => none
  | .data m :: evs, src, xlen + 1, x =>
    let g := got src (min (xlen + 1) CHUNK) m
    if g.length = 0 then some (-1, x, ⟨src, evs⟩)                   -- :31, :36 (EPIPE)
    else readallLoop evs (src.drop g.length) (xlen + 1 - g.length) (x ++ g)
  | .eintr :: evs, src, xlen + 1, x => readallLoop evs src (xlen + 1) x      -- :33
  | .eagain :: evs, src, xlen + 1, x => readallLoop evs src (xlen + 1) x     -- :34-35
  | .err _ :: evs, src, xlen + 1, x => some (-1, x, ⟨src, evs⟩)              -- :36

/-- readall.c:22-42. A negative length reads nothing and returns 0. -/
def readall (fd : RFd) (xlen : Int) : Option (Int × Bytes × RFd) :=
  readallLoop fd.evs fd.src xlen.toNat []

/-- writeall.c:27-45; `x` is what remains to be written, `out` what the
descriptor has accepted. -/
def writeallLoop : (evs : List WrEv) → (out : Bytes) → (x : Bytes) → Option (Int × WFd)
  | evs, out, [] => some (0, ⟨out, evs⟩)
  | [], _, _ :: _ => none
  | .data m :: evs, out, b :: x =>
    let p := put (b :: x) (min (b :: x).length CHUNK) m
    writeallLoop evs (out ++ p) ((b :: x).drop p.length)
  | .zero :: evs, out, _ :: _ => some (-1, ⟨out, evs⟩)               -- :31, :40 (EPIPE)
  | .eintr p :: evs, out, b :: x =>                                   -- :33-39
    if p = .err then some (-1, ⟨out, evs⟩) else writeallLoop evs out (b :: x)
  | .eagain p :: evs, out, b :: x =>
    if p = .err then some (-1, ⟨out, evs⟩) else writeallLoop evs out (b :: x)
  | .err _ :: evs, out, _ :: _ => some (-1, ⟨out, evs⟩)              -- :40

/-- writeall.c:23-46 with `xlen` the whole buffer `x`. -/
def writeall (fd : WFd) (x : Bytes) : Option (Int × WFd) := writeallLoop fd.evs fd.out x

/-! ### Timed I/O -/

/-- Outcome of one select call (timeoutread.c:61, timeoutwrite.c:61). -/
inductive Sel where
  | ready
  | notReady
  | eintr
  | err
  deriving Repr, DecidableEq

/-- An observable action of a timed transfer, in order (timeoutread.c:45-67, timeoutwrite.c:45-67).
-/
inductive Act where
  /-- the clock was read and showed this many microseconds -/
  | clock (us : Int)
  /-- select was called with this time limit (microseconds) -/
  | wait (us : Int)
  /-- the single read or write call -/
  | transfer
  deriving Repr, DecidableEq

/-- How a timed transfer ends (the returns at timeoutread.c:42, 56, 63, 67 and their counterparts
in timeoutwrite.c). -/
inductive TEnd where
  | invalid
  | timeout
  | failed
  | transferred
  deriving Repr, DecidableEq

/-- timeoutread.c:48-67 and timeoutwrite.c:48-67 (identical up to the fd set
used and the final call). One element of the schedule per iteration: clock
reading in microseconds and select outcome. The descriptor number and the
buffer do not influence the control flow. -/
def timedLoop (deadline : Int) : List (Int × Sel) → List Act → Option (TEnd × List Act)
  | [], _ => none
  | (now, sel) :: evs, tr =>
    let tr := tr ++ [.clock now]
    let tm := deadline - now                                         -- :53
    if tm ≤ 0 then some (.timeout, tr)                               -- :54-57
    else
      let tm := if tm > 1000000000 then 1000000000 else tm           -- :58
      let tr := tr ++ [.wait tm]                                     -- :59-61
      match sel with
      | .ready => some (.transferred, tr ++ [.transfer])             -- :65, :67
      | .notReady => timedLoop deadline evs tr
      | .eintr => timedLoop deadline evs tr                          -- :62
      | .err => some (.failed, tr)                                   -- :63

/-- timeoutread.c:34-68, timeoutwrite.c:34-68. `t` seconds, `start` the first
clock reading (microseconds). Signed overflow of the deadline is undefined. -/
def timed (t : Int) (len fd fdsetsize : Int) (start : Int) (evs : List (Int × Sel)) :
    Out (Option (TEnd × List Act)) :=
  if t < 0 ∨ len < 0 ∨ fd < 0 ∨ fd ≥ fdsetsize then .ok (some (.invalid, []))
  else
    let deadline := 1000000 * (t + start / 1000000) + start % 1000000   -- :46
    if deadline ≤ llmax then .ok (timedLoop deadline evs [.clock start]) else .ub

end Rw
