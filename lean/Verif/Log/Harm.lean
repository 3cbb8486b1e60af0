import Verif.Log.Model
/-
errno through the logging module, and the logged read and write calls of fd.c. The models
of the relays leave logging out; what is proved here is why they may.
-/
namespace Log

/-- errno after one write(2, …) (log.c:227-230); `other` is the code of any other failure. -/
def writeErrno (other : Int) (errno : Int) : W → Int
  | .data _ => errno
  | .zero => errno
  | .eintr => 4
  | .eagain => 11
  | .err => other

/-- The writes made between two states of the output side (log.c:227). -/
def used (s s' : St) : List W := s.evs.take (s.evs.length - s'.evs.length)

/-- log.c:384: is the record wanted? -/
def wanted (w : Whitelist) (a : Args) : Out Nat :=
  if a.level ≥ 4 then whitelist_match w a.f else .ok 1

/-- log.c:372-553 `log_9_` with errno: the new output side and errno afterwards. `tz` is what
gettimeofday and localtime leave in errno (log.c:449-453), `other` see `writeErrno`. -/
def log_9E (other tz : Int) (c : Cfg) (w : Whitelist) (lv : Levels) (a : Args) (s : St) :
    Out (St × Int) := do
  let saved_errno := a.errno                                              -- :378
  let errno := a.errno
  if a.level > lv.gate then return (s, errno)                             -- :383
  else
    let m ← wanted w a                                                    -- :384
    if m = 0 then return (s, errno)
    else
      -- :449-453
      let errno := if a.level = 0 ∨ !c.logtime then errno
        else if c.clock = none then saved_errno else tz
      let r ← record c lv a
      let s' ← emit s r
      let errno := (used s s').foldl (writeErrno other) errno
      -- a write that has not returned
      if s'.blocked then return (s', errno)
      else
        let errno := saved_errno                                          -- :551
        return (s', errno)

/-- log.h:47-51 and the other macros, with errno: nothing happens below the verbosity `lv0`. -/
def logMacroE (other tz : Int) (c : Cfg) (w : Whitelist) (lv0 : Int) (lv : Levels) (a : Args)
    (s : St) : Out (St × Int) :=
  if lv0 < a.level then .ok (s, a.errno) else log_9E other tz c w lv a s

/-- fd.c:29-43 `fd_read_` and fd.c:95-109 `fd_write_`: result and errno. `buf`: the pointer is not
NULL; `call n` is what the system call does when asked for `n` bytes: its result, and errno if
that is -1. `wouldblock` is EWOULDBLOCK, which need not be EAGAIN (11). -/
def fdCall (wouldblock : Int) (buf : Bool) (len : Int) (call : Int → Int × Int) : Int × Int :=
  if !buf then (-1, 22)                                                   -- :32
  else if len < 0 then (-1, 22)                                           -- :33
  else
    -- :35-36
    let (r, e) := call (if len > 1048576 then 1048576 else len)
    let errno := if r = -1 then e else 0
    if r = -1 ∧ errno = wouldblock then (r, 11)                           -- :37
    else (r, errno)

/-- The settings of the logging module at one call (log.c:25-45). -/
structure Logger where
  other : Int
  tz : Int
  cfg : Cfg
  w : Whitelist
  lv0 : Int
  lv : Levels

/-- fd.c:57-83 `fd_read` and fd.c:123-149 `fd_write`: the same call, then a record about it.
`named`: fdname is not NULL. `bug`, `rec` are the log calls (their texts do not matter here). -/
def fdLogged (wouldblock : Int) (named buf : Bool) (len : Int) (call : Int → Int × Int)
    (g : Logger) (bug : Args) (rec : Int → Args) (s : St) : Out (St × Int × Int) := do
  if !buf then                                                            -- :60-64
    let (s, e) ← logMacroE g.other g.tz g.cfg g.w g.lv0 g.lv { bug with errno := 22 } s
    return (s, -1, e)
  else if len < 0 then                                                    -- :65-69
    let (s, e) ← logMacroE g.other g.tz g.cfg g.w g.lv0 g.lv { bug with errno := 22 } s
    return (s, -1, e)
  else
    let (r, e) := fdCall wouldblock buf len call                          -- :71
    if !named then return (s, r, e)                                       -- :72
    else
      -- :73-80
      let (s, e) ← logMacroE g.other g.tz g.cfg g.w g.lv0 g.lv { rec r with errno := e } s
      return (s, r, e)

end Log
