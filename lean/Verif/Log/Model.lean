import Verif.Proxy.Model
import Verif.Resolve.Model
import Verif.Log.Errno
/-
Model of log.c: verbosity, the tracing whitelist, buffered output to standard error, the
escaping and layout of a record, and the formatters that fill the rotating static buffers.

What a record is made of does not depend on the output buffer, so the functions that
call outch are modelled as returning the sequence of characters they pass to outch;
`emit` runs that sequence through the buffer. Strings are pointers: `none` is NULL and
`some m` a pointer with accessible memory `m`.
-/
namespace Log
open Proxy (IpCodec)

/-! ### Verbosity -/

/-- log.c:161-165 `log_set_level`. -/
def set_level (level : Int) : Int :=
  let log_level := level                                  -- :162
  let log_level := if level < 0 then 0 else log_level     -- :163
  if level > 4 then 4 else log_level                      -- :164

/-- log.c:174-181 `log_inc_level`. -/
def inc_level (log_level : Int) : Int :=
  if log_level < 4 then log_level + 1 else log_level

/-- log.c:190-197 `log_dec_level`. -/
def dec_level (log_level : Int) : Int :=
  if log_level > 0 then log_level - 1 else log_level

/-! ### Tracing whitelist -/

/-- log.c:47-51, 53: the list of registered prefixes, newest first. The nodes' own
memory management is not modelled. -/
abbrev Whitelist := List Bytes

/-- log.c:68-92 `log_whitelist_add`: `a1`, `a2` say whether the two mallocs succeed. -/
def whitelist_add (w : Whitelist) (name : Option Bytes) (a1 a2 : Bool) : Out (Nat × Whitelist) :=
  match name with
  | none => .ok (0, w)                                    -- :74
  | some m => do
    let s ← cstrOf m                                      -- :76
    if !a1 then return (0, w)                             -- :78
    else if !a2 then return (0, w)                        -- :82-85
    else return (1, s :: w)                               -- :86-91

/-- log.c:100-112 `log_whitelist_free`. -/
def whitelist_free (_ : Whitelist) : Whitelist := []

/-- log.c:135-138: the loop over the nodes. -/
def matchLoop (file : Bytes) : Whitelist → Nat
  | [] => 0                                               -- :139
  | name :: w =>
    if name.length > file.length then matchLoop file w    -- :136
    else if file.take name.length = name then 1           -- :137
    else matchLoop file w

/-- log.c:124-140 `log_whitelist_match`. -/
def whitelist_match (w : Whitelist) (file : Option Bytes) : Out Nat :=
  if w = [] then .ok 1                                    -- :130
  else
    match file with
    | none => .ok 1                                       -- :131
    | some m => do
      let f ← cstrOf m                                    -- :133
      return matchLoop f w

/-! ### Output buffer -/

/-- Outcome of one write(2, …): `data m` accepts up to m + 1 bytes (log.c:227). -/
inductive W where
  | data (m : Nat)
  | zero
  | eintr
  | eagain
  | err
  deriving Repr, DecidableEq

/-- The output side: the 256-byte buffer (log.c:210-211), what standard error has
received, and the outcomes of the writes still to come. `blocked`: the last write has not
returned, so nothing after it happens. -/
structure St where
  buf : Bytes
  buflen : Nat
  err : Bytes
  evs : List W
  blocked : Bool
  deriving Repr, DecidableEq

/-- log.c:226-239: the loop of flush; `b` is what remains of the buffered bytes. -/
def flushLoop (b : Bytes) (retries : Nat) : List W → Bytes → Bytes × List W × Bool
  | evs, err =>
    if b.length > 0 then
      match evs with
      | [] => (err, [], true)
      | .data m :: evs =>
        let r := min b.length (m + 1)                                     -- :227
        flushLoop (b.drop r) 0 evs (err ++ b.take r)                      -- :235-238
      | .zero :: evs => (err, evs, false)                                 -- :236
      | .eintr :: evs => flushLoop b retries evs err                      -- :229
      | .eagain :: evs =>
        if retries + 1 < 64 then flushLoop b (retries + 1) evs err        -- :230-232
        else (err, evs, false)
      | .err :: evs => (err, evs, false)                                  -- :233
    else (err, evs, false)
termination_by evs _ => evs.length

/-- log.c:220-241 `flush`. -/
def flush (s : St) : St :=
  let (err, evs, blocked) := flushLoop (s.buf.take s.buflen) 0 s.evs s.err
  { s with buflen := 0, err := err, evs := evs, blocked := blocked }      -- :240

/-- log.c:250-253 `outch`. -/
def outch (s : St) (x : Byte) : Out St :=
  if s.blocked then .ok s
  else
    let s := if s.buflen ≥ 256 then flush s else s                        -- :251
    if s.blocked then .ok s
    else do
      let buf ← wr s.buf s.buflen x                                       -- :252
      return { s with buf := buf, buflen := s.buflen + 1 }

/-- A sequence of outch calls followed by the flush of log.c:550. -/
def emit (s : St) : Bytes → Out St
  | [] => .ok (if s.blocked then s else flush s)
  | x :: xs => do
    let s ← outch s x
    emit s xs

/-! ### Escaping -/

/-- `"0123456789abcdef"[v]` (log.c:288-289, 741-742). -/
def hexchar (v : Nat) : Byte :=
  if v < 10 then UInt8.ofNat (48 + v) else UInt8.ofNat (87 + v)

/-- log.c:269-291: the characters passed to outch for one character of the string. -/
def escchar (flaglf : Bool) (x : Byte) : Bytes :=
  if x = c! '\n' then
    if flaglf then [c! '\n'] else [c! '\\', c! 'n']                       -- :270-276
  else if x = c! '\r' then [c! '\\', c! 'r']                              -- :277-280
  else if x = c! '\t' then [c! '\\', c! 't']                              -- :281-284
  else if x.toNat < 32 ∨ x.toNat > 126 then
    [c! '\\', c! 'x', hexchar (x.toNat / 16 % 16), hexchar (x.toNat % 16)] -- :285-290
  else [x]                                                                -- :291

/-- log.c:264-293 `outsescape`. -/
def outsescape (flaglf : Bool) : Bytes → Out Bytes
  | [] => .ub
  | x :: mem =>
    if x = 0 then .ok []                                                  -- :268
    else do
      let r ← outsescape flaglf mem
      return escchar flaglf x ++ r

/-- log.c:294 `outs`, for a string constant of the program. -/
def outs (s : Bytes) : Out Bytes := outsescape true (s ++ [0])

/-! ### Numbers -/

/-- log.c:43. -/
def STATICBUFSIZE : Nat := 68

/-- log.c:332-335: `*--strbuf = '0' + n2 % 10`, `strbuf` at index `pos` of `buf`. -/
def putDown (buf : Bytes) (pos : Nat) (n2 : Nat) : Out (Bytes × Nat) :=
  match pos with
  | 0 => .ub
  | pos + 1 =>
    if pos < buf.length then
      let buf := buf.set pos (UInt8.ofNat (48 + n2 % 10))
      if n2 / 10 = 0 then .ok (buf, pos) else putDown buf pos (n2 / 10)
    else .ub
termination_by pos

/-- log.c:336-339: `k` times `*--strbuf = '0'`. -/
def padDown (buf : Bytes) (pos : Nat) : Nat → Out (Bytes × Nat)
  | 0 => .ok (buf, pos)
  | k + 1 =>
    match pos with
    | 0 => .ub
    | pos + 1 => do
      let buf ← wr buf pos (c! '0')
      padDown buf pos k

/-- log.c:307-343 `numtostr`; the result is the index in `strbuf` of the returned pointer. -/
def numtostr (strbuf : Bytes) (strbuflen : Int) (n cnt : Int) : Out (Bytes × Nat) := do
  let cnt := if cnt > strbuflen - 1 then strbuflen - 1 else cnt           -- :314
  let n1 := toU64 n                                                       -- :316
  let n2 := if n < 0 then toU64 (-(n1 : Int)) else n1                     -- :317-321
  let flagsign := decide (n < 0)
  let len : Int := Num.countLoop n2                                       -- :323-326
  let len := if flagsign then len + 1 else len                            -- :327
  let pos := if cnt > len then cnt else len                               -- :328-329
  let buf ← wr strbuf pos.toNat 0                                         -- :330
  let (buf, p) ← putDown buf pos.toNat n2                                 -- :332-335
  let (buf, p) ← padDown buf p (cnt - len).toNat                          -- :336-339
  if flagsign then
    match p with
    | 0 => .ub
    | p + 1 => do
      let buf ← wr buf p (c! '-')                                         -- :340
      return (buf, p)
  else return (buf, p)

/-- log.c:351-355 `outnum`; `junk` is the uninitialised array. -/
def outnum (junk : Bytes) (n cnt : Int) : Out Bytes := do
  let (buf, p) ← numtostr junk STATICBUFSIZE n cnt
  outsescape true (buf.drop p)

/-! ### Records -/

/-- What localtime/gettimeofday deliver (log.c:449-467): broken-down time and microseconds. -/
structure Tm where
  year : Int
  mon : Int
  mday : Int
  hour : Int
  min : Int
  sec : Int
  usec : Int
  deriving Repr, DecidableEq

/-- The settings of the module (log.c:146-152), except the verbosity. `clock` is the answer of
localtime; `junk` the uninitialised contents of numbuf. -/
structure Cfg where
  logname : Option Bytes
  logtime : Bool
  logipstr : Option Bytes
  logid : Option Bytes
  logcolor : Bool
  clock : Option Tm
  junk : Bytes
  deriving Repr, DecidableEq

/-- The three values read from log_level during one call (log.c:383, 516, 531). It is a
volatile variable that a signal handler may change in between. -/
structure Levels where
  gate : Int
  loc : Int
  id : Int
  deriving Repr, DecidableEq

/-- The arguments of log_9_. `s` are the up to nine fragments (log.c:372-376). -/
structure Args where
  level : Int
  flagerror : Int
  f : Option Bytes
  l : Nat
  fce : Option Bytes
  s : List (Option Bytes)
  errno : Int
  deriving Repr, DecidableEq

/-- log.c:396-430: level name and colour. -/
def levelName (level flagerror : Int) : Bytes × Option Bytes :=
  if level = 1 then
    if flagerror = 2 then (b!"bug", some b!"[95m") else (b!"fatal", some b!"[91m")
  else if level = 2 then
    if flagerror = 1 then (b!"error", some b!"[31m")
    else if flagerror = 2 then (b!"warning", some b!"[93m")
    else (b!"info", some b!"[34m")
  else if level = 3 then (b!"debug", none)
  else if level = 4 then (b!"tracing", none)
  else (b!"unknown", none)

/-- log.c:435-440. -/
def colorOn (c : Cfg) (a : Args) : Out Bytes :=
  if !c.logcolor then .ok []
  else
    match (levelName a.level a.flagerror).2 with
    | none => .ok []
    | some col => do
      let x ← outs col
      return 27 :: x

/-- log.c:443-469. -/
def timePart (c : Cfg) (a : Args) : Out Bytes :=
  if a.level = 0 then .ok []
  else if !c.logtime then .ok []
  else
    match c.clock with
    | none => .ok []
    | some t => do
      let y ← outnum c.junk (t.year + 1900) 4
      let mo ← outnum c.junk (t.mon + 1) 2
      let d ← outnum c.junk t.mday 2
      let h ← outnum c.junk t.hour 2
      let mi ← outnum c.junk t.min 2
      let s ← outnum c.junk t.sec 2
      let us ← outnum c.junk t.usec 6
      let dash ← outs b!"-"
      let sp ← outs b!" "
      let col ← outs b!":"
      let dot ← outs b!"."
      let fin ← outs b!": "
      return y ++ dash ++ mo ++ dash ++ d ++ sp ++ h ++ col ++ mi ++ col ++ s ++ dot ++ us ++ fin

/-- log.c:472-477 and 487-492: an optional string followed by ": ". -/
def prefixPart (a : Args) (x : Option Bytes) : Out Bytes :=
  if a.level = 0 then .ok []
  else
    match x with
    | none => .ok []
    | some m => do
      let t ← outsescape false m
      let fin ← outs b!": "
      return t ++ fin

/-- log.c:480-484. -/
def levelPart (a : Args) : Out Bytes :=
  if a.level = 0 then .ok []
  else do
    let t ← outs (levelName a.level a.flagerror).1
    let fin ← outs b!": "
    return t ++ fin

/-- log.c:495: the fragments up to the first NULL, at most `k`. -/
def message (flaglf : Bool) : Nat → List (Option Bytes) → Out Bytes
  | 0, _ => .ok []
  | _, [] => .ok []
  | _, none :: _ => .ok []
  | k + 1, some m :: s => do
    let t ← outsescape flaglf m
    let r ← message flaglf k s
    return t ++ r

/-- log.c:503-504, 517-518, 534-535: the separator in front of the first suffix. -/
def space (flagspace : Bool) : Out Bytes := if flagspace then .ok [] else outs b!" "

/-- log.c:498-508; the flag is `flagspace`. -/
def errPart (a : Args) : Out (Bytes × Bool) :=
  if a.level = 0 then .ok ([], false)
  else if a.errno = 0 then .ok ([], false)
  else if a.flagerror = 0 then .ok ([], false)
  else if a.level ≥ 3 then .ok ([], false)
  else do
    let sp ← space false
    let o ← outs b!"("
    let e ← outs (e_str a.errno)
    let cl ← outs b!")"
    return (sp ++ o ++ e ++ cl, true)

/-- log.c:511-526. -/
def locPart (c : Cfg) (lv : Levels) (a : Args) (flagspace : Bool) : Out (Bytes × Bool) :=
  if a.level = 0 then .ok ([], flagspace)
  else
    match a.f, a.fce with
    | some f, some fce =>
      if a.l = 0 then .ok ([], flagspace)
      else if lv.loc ≤ 2 then .ok ([], flagspace)
      else do
        let sp ← space flagspace
        let o ← outs b!"{"
        let x ← outsescape true f
        let co ← outs b!":"
        let y ← outsescape true fce
        let n ← outnum c.junk a.l 0
        let cl ← outs b!"}"
        return (sp ++ o ++ x ++ co ++ y ++ co ++ n ++ cl, true)
    | _, _ => .ok ([], flagspace)

/-- log.c:529-539. -/
def idPart (c : Cfg) (lv : Levels) (a : Args) (flagspace : Bool) : Out Bytes :=
  if a.level = 0 then .ok []
  else if lv.id ≤ 1 then .ok []
  else
    match c.logid with
    | none => .ok []
    | some m => do
      let b ← rd m 0
      if b = 0 then return []                                             -- :533
      else
        let sp ← space flagspace
        let o ← outs b!"["
        let x ← outsescape false m
        let cl ← outs b!"]"
        return sp ++ o ++ x ++ cl

/-- log.c:542-547. -/
def colorOff (c : Cfg) (a : Args) : Out Bytes :=
  if !c.logcolor then .ok []
  else
    match (levelName a.level a.flagerror).2 with
    | none => .ok []
    | some _ => do
      let x ← outs b!"[0m"
      return 27 :: x

/-- log.c:434-549: the characters of one record. -/
def record (c : Cfg) (lv : Levels) (a : Args) : Out Bytes := do
  let con ← colorOn c a
  let tm ← timePart c a
  let nm ← prefixPart a c.logname
  let le ← levelPart a
  let ip ← prefixPart a c.logipstr
  let msg ← message (decide (a.level = 0)) 9 a.s
  let (er, sp) ← errPart a
  let (loc, sp) ← locPart c lv a sp
  let id ← idPart c lv a sp
  let coff ← colorOff c a
  let nl ← outs b!"\n"
  return con ++ tm ++ nm ++ le ++ ip ++ msg ++ er ++ loc ++ id ++ coff ++ nl

/-- log.c:372-553 `log_9_`. -/
def log_9_ (c : Cfg) (w : Whitelist) (lv : Levels) (a : Args) (s : St) : Out St :=
  if a.level > lv.gate then .ok s                                         -- :383
  else do
    let m ← if a.level ≥ 4 then whitelist_match w a.f else .ok 1          -- :384
    if m = 0 then return s
    else
      let r ← record c lv a
      emit s r

/-- log.h:47-51 and the other seven macros: test the verbosity `lv0`, then call log_9_. -/
def logMacro (c : Cfg) (w : Whitelist) (lv0 : Int) (lv : Levels) (a : Args) (s : St) : Out St :=
  if lv0 < a.level then .ok s else log_9_ c w lv a s

/-! ### Formatters and their rotating buffers -/

/-- log.c:555-556. -/
structure Static where
  bufs : List Bytes
  counter : Nat
  deriving Repr, DecidableEq

/-- Content of the current buffer replaced (the stores into staticbuf[staticbufcounter],
log.c:578-768). -/
def Static.put (z : Static) (b : Bytes) : Static := { z with bufs := z.bufs.set z.counter b }

/-- `staticbufcounter = (staticbufcounter + 1) % 9`, and the contents of the buffer (log.c:582-583,
612, 643, 664, 700, 714, 758). -/
def Static.next (z : Static) : Out (Static × Bytes) :=
  let k := (z.counter + 1) % 9
  match z.bufs[k]? with
  | none => .ub
  | some b => .ok ({ z with counter := k }, b)

/-- log.c:45 with its terminator. -/
def NULLSTR : Bytes := b!"(null)" ++ [0]

/-- log.c:585-595: the copying loop from index `i`. -/
def strLoop (x : Bytes) (i : Nat) : Bytes → Out Bytes
  | [] => .ub
  | b :: s =>
    if b = 0 then wr x i 0                                                -- :595
    else if i = STATICBUFSIZE - 4 then do
      let x ← wr x (STATICBUFSIZE - 4) (c! '.')
      let x ← wr x (STATICBUFSIZE - 3) (c! '.')
      let x ← wr x (STATICBUFSIZE - 2) (c! '.')
      wr x (STATICBUFSIZE - 1) 0                                          -- :586-591
    else do
      let x ← wr x i b                                                    -- :593
      strLoop x (i + 1) s

/-- log.c:570-597 `log_str`; the pointer returned is (buffer number, offset). -/
def log_str (z : Static) (sv : Option Bytes) : Out (Static × Nat × Nat) := do
  let (z, x) ← z.next
  match sv with
  | none => do
    let x ← copyN x 0 NULLSTR 7
    return (z.put x, z.counter, 0)
  | some s => do
    let x ← strLoop x 0 s
    return (z.put x, z.counter, 0)

/-- inet_ntop writing `text` and a NUL at offset `off` of `x`. (Its size argument is at least the
longest text, so it does not fail; that is `IpCodec.Lawful`.) (log.c:620, 627, 674, 683). -/
def ntopAt (x : Bytes) (off : Nat) (text : Bytes) : Out Bytes :=
  copyN x off (text ++ [0]) (text.length + 1)

/-- log.c:611-632 `log_ip`. -/
def log_ip (C : IpCodec) (z : Static) (ip : Option Bytes) : Out (Static × Nat × Nat) := do
  let (z, x) ← z.next
  match ip with
  | none => do
    let x ← copyN x 0 NULLSTR 7
    return (z.put x, z.counter, 0)
  | some ip => do
    let x ← ntopAt x 0 (Proxy.iptostr C ip)                               -- :617-630
    return (z.put x, z.counter, 0)

/-- log.c:642-650 `log_port`. -/
def log_port (z : Static) (port : Option (Byte × Byte)) : Out (Static × Nat × Nat) := do
  let (z, x) ← z.next
  match port with
  | none => do
    let x ← copyN x 0 NULLSTR 7
    return (z.put x, z.counter, 0)
  | some (hi, lo) => do
    let (x, p) ← numtostr x STATICBUFSIZE ((hi.toNat * 256 + lo.toNat : Nat) : Int) 0
    return (z.put x, z.counter, p)

/-- numtostr on the part of the buffer from `off` on (log.c:648, 687, 701, 715). -/
def numtostrAt (x : Bytes) (off : Nat) (n cnt : Int) : Out (Bytes × Nat) := do
  let (y, p) ← numtostr (x.drop off) ((STATICBUFSIZE : Int) - off) n cnt
  return (x.take off ++ y, off + p)

/-- log.c:670-684: the address at the start of the buffer. -/
def addrPart (C : IpCodec) (x ip : Bytes) : Out Bytes :=
  if ip.take 12 ≠ Proxy.v4prefix then do
    let x ← wr x 0 (c! '[')                                               -- :673
    let x ← ntopAt x 1 (C.ntop6 ip)                                       -- :674
    let p ← cstrOf x                                                      -- :676
    let x ← wr x p.length (c! ']')                                        -- :677
    wr x (p.length + 1) 0                                                 -- :678
  else ntopAt x 0 (C.ntop4 (ip.drop 12))                                  -- :683

/-- log.c:661-689 `log_ipport`. -/
def log_ipport (C : IpCodec) (z : Static) (ip : Option Bytes) (port : Option (Byte × Byte)) :
    Out (Static × Nat × Nat) := do
  let (z, x) ← z.next
  match ip, port with
  | some ip, some (hi, lo) => do
    let x ← addrPart C x ip
    let p ← cstrOf x                                                      -- :685
    let x ← wr x p.length (c! ':')                                        -- :686
    let (x, _) ← numtostrAt x (p.length + 1) ((hi.toNat * 256 + lo.toNat : Nat) : Int) 0 -- :687
    return (z.put x, z.counter, 0)                                        -- :688
  | _, _ => do
    let x ← copyN x 0 NULLSTR 7
    return (z.put x, z.counter, 0)

/-- log.c:713-716 `log_num0`; log.c:699-702 `log_num` is `log_num0 num 0`. -/
def log_num0 (z : Static) (num cnt : Int) : Out (Static × Nat × Nat) := do
  let (z, x) ← z.next
  let (x, p) ← numtostr x STATICBUFSIZE num cnt
  return (z.put x, z.counter, p)

/-- log.c:733-744: the loop from index `i`; `y` is the memory from `y + i` on, `n` is ylen - i. -/
def hexLoop (x : Bytes) (xlen : Nat) (i : Nat) : Bytes → Nat → Out Bytes
  | _, 0 => wr x (2 * i) 0                                                -- :744
  | [], _ + 1 =>
    if i = (xlen - 4) / 2 then do
      let x ← wr x (2 * i) (c! '.')
      let x ← wr x (2 * i + 1) (c! '.')
      let x ← wr x (2 * i + 2) (c! '.')
      wr x (2 * i + 3) 0
    else .ub
  | b :: y, n + 1 =>
    if i = (xlen - 4) / 2 then do                                         -- :734-739
      let x ← wr x (2 * i) (c! '.')
      let x ← wr x (2 * i + 1) (c! '.')
      let x ← wr x (2 * i + 2) (c! '.')
      wr x (2 * i + 3) 0
    else do
      let x ← wr x (2 * i) (hexchar (b.toNat / 16 % 16))                  -- :741
      let x ← wr x (2 * i + 1) (hexchar (b.toNat % 16))                   -- :742
      hexLoop x xlen (i + 1) y n

/-- log.c:729-745 `tohex`. -/
def tohex (x : Bytes) (xlen : Nat) (y : Bytes) (ylen : Int) : Out Bytes :=
  if xlen ≤ 4 then .ok x else hexLoop x xlen 0 y ylen.toNat

/-- log.c:757-769 `log_hex`. -/
def log_hex (z : Static) (y : Option Bytes) (ylen : Int) : Out (Static × Nat × Nat) := do
  let (z, x) ← z.next
  match y with
  | none => do
    let x ← copyN x 0 NULLSTR 7
    return (z.put x, z.counter, 0)
  | some y =>
    if ylen ≤ 0 then do
      let x ← wr x 0 0                                                    -- :764
      return (z.put x, z.counter, 0)
    else do
      let x ← tohex x STATICBUFSIZE y ylen
      return (z.put x, z.counter, 0)

/-! ### Record identifier -/

/-- log.c:790-791. -/
def idChars : Bytes := b!"abcdefghijklmnopqrstuvwxyzABCDEFGHIJKLMNOPQRSTUVWXYZ0123456789"

/-- log.c:798-800: `k` more random characters from index `i`; `rnd j` are the random bytes of
the call for index j. -/
def randId (rnd : Nat → Bytes) (buf : Bytes) (i : Nat) : Nat → Out Bytes
  | 0 => wr buf i 0                                                       -- :801
  | k + 1 => do
    let r ← Resolve.randommod 62 (rnd i)
    let c ← rd idChars r
    let buf ← wr buf i c
    randId rnd buf (i + 1) k

/-- log.c:805-813 for a string outside logidbuf: copy loop from index `i`, terminator, truncation mark. -/
def idLoop (buf : Bytes) (i : Nat) : Bytes → Out Bytes
  | [] => .ub
  | b :: id =>
    if b ≠ 0 ∧ i < STATICBUFSIZE - 1 then do
      let buf ← wr buf i b                                                -- :805
      idLoop buf (i + 1) id
    else do
      let buf ← wr buf i 0                                                -- :806
      if b ≠ 0 then do                                                    -- :808
        let buf ← wr buf (STATICBUFSIZE - 4) (c! '.')
        let buf ← wr buf (STATICBUFSIZE - 3) (c! '.')
        let buf ← wr buf (STATICBUFSIZE - 2) (c! '.')
        wr buf (STATICBUFSIZE - 1) 0
      else return buf

/-- log.c:788-817 `log_set_id`: the new contents of logidbuf, to which logid then points and
which is exported as LOG_ID. `env` is getenv("LOG_ID"). (For the generated identifier the loop at
:805 copies logidbuf onto itself, which changes nothing; modelled as copying from a copy.) -/
def set_id (buf : Bytes) (id env : Option Bytes) (rnd : Nat → Bytes) : Out Bytes :=
  match id with
  | some m => idLoop buf 0 m
  | none =>
    match env with
    | some m => idLoop buf 0 m                                            -- :794
    | none => do
      let buf ← randId rnd buf 0 16                                       -- :796-801
      idLoop buf 0 buf

end Log
