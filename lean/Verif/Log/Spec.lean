import Verif.Log.Model
import Verif.Proxy.Spec
/-
What a log line looks like, on plain byte strings.
-/
namespace Log
open Num.Spec (decimal)

/-- Printable ASCII. -/
def Printable (b : Byte) : Prop := 32 ≤ b.toNat ∧ b.toNat ≤ 126

instance (b : Byte) : Decidable (Printable b) := by unfold Printable; infer_instance

/-- Lowercase hexadecimal digits. -/
def digit16 : Bytes := b!"0123456789abcdef"

/-- Two hexadecimal digits. -/
def hex2 (b : Byte) : Bytes := [digit16.getD (b.toNat / 16) 0, digit16.getD (b.toNat % 16) 0]

/-- How one byte of text is shown: LF, CR and TAB by letter, other unprintable bytes by value. -/
def showByte (b : Byte) : Bytes :=
  if b = 10 then b!"\\n"
  else if b = 13 then b!"\\r"
  else if b = 9 then b!"\\t"
  else if Printable b then [b]
  else b!"\\x" ++ hex2 b

/-- How a text is shown in a log line. -/
def shown (s : Bytes) : Bytes := s.flatMap showByte

/-- In usage messages LF is kept. -/
def shownUsage (s : Bytes) : Bytes := s.flatMap fun b => if b = 10 then [10] else showByte b

/-- Pointers to C strings: `Ptr p s` says `p` is NULL and there is no text, or `p` points to the
NUL-terminated text `s`. -/
def Ptr (p s : Option Bytes) : Prop :=
  match s with
  | none => p = none
  | some s => NoNul s ∧ ∃ rest, p = some (cstr s rest)

/-- A number in a field of at least `w` characters, padded with zeros after the sign. -/
def numField (n : Int) (w : Nat) : Bytes :=
  if n < 0 then b!"-" ++ List.replicate (w - 1 - (decimal n.natAbs).length) 48 ++ decimal n.natAbs
  else List.replicate (w - (decimal n.natAbs).length) 48 ++ decimal n.natAbs

/-- The settings, as texts. -/
structure Settings where
  name : Option Bytes
  time : Option Tm
  ip : Option Bytes
  id : Option Bytes
  color : Bool

/-- What is being logged, as texts. -/
structure Event where
  level : Nat
  flagerror : Int
  src : Option (Bytes × Bytes × Nat)
  parts : List Bytes
  errno : Int

def kind (level : Nat) (flagerror : Int) : Bytes :=
  match level with
  | 1 => if flagerror = 2 then b!"bug" else b!"fatal"
  | 2 => if flagerror = 1 then b!"error" else if flagerror = 2 then b!"warning" else b!"info"
  | 3 => b!"debug"
  | _ => b!"tracing"

/-- Terminal colour of a level. -/
def color (level : Nat) (flagerror : Int) : Option Bytes :=
  match level with
  | 1 => if flagerror = 2 then some b!"[95m" else some b!"[91m"
  | 2 => if flagerror = 1 then some b!"[31m" else if flagerror = 2 then some b!"[93m" else some b!"[34m"
  | _ => none

def timeText (t : Tm) : Bytes :=
  numField (t.year + 1900) 4 ++ b!"-" ++ numField (t.mon + 1) 2 ++ b!"-" ++ numField t.mday 2 ++
  b!" " ++ numField t.hour 2 ++ b!":" ++ numField t.min 2 ++ b!":" ++ numField t.sec 2 ++
  b!"." ++ numField t.usec 6

/-- Suffixes of a line: the first is preceded by one space, the others follow directly. -/
def suffixes (l : List Bytes) : Bytes := if l = [] then [] else b!" " ++ l.flatten

/-- The source location suffix at verbosity `vl`. -/
def locSuffix (vl : Int) : Option (Bytes × Bytes × Nat) → List Bytes
  | none => []
  | some (f, fce, l) =>
    if vl > 2 then [b!"{" ++ shown f ++ b!":" ++ shown fce ++ b!":" ++ numField l 0 ++ b!"}"] else []

/-- The identifier suffix at verbosity `vi`. -/
def idSuffix (vi : Int) : Option Bytes → List Bytes
  | none => []
  | some s => if vi > 1 ∧ s ≠ [] then [b!"[" ++ shown s ++ b!"]"] else []

/-- The line for an event of level 1 to 4, without its LF:
`time: name: level: ip: message (error){file:function:line}[id]`. `vl`, `vi` are the verbosities that
decide about the source location and about the identifier. -/
def line (c : Settings) (vl vi : Int) (e : Event) : Bytes :=
  let col := if c.color then color e.level e.flagerror else none
  (match col with | some x => 27 :: x | none => []) ++
  (match c.time with | some t => timeText t ++ b!": " | none => []) ++
  (match c.name with | some s => shown s ++ b!": " | none => []) ++
  kind e.level e.flagerror ++ b!": " ++
  (match c.ip with | some s => shown s ++ b!": " | none => []) ++
  shown e.parts.flatten ++
  suffixes (
    (if e.errno ≠ 0 ∧ e.flagerror ≠ 0 ∧ e.level < 3 then [b!"(" ++ e_str e.errno ++ b!")"] else []) ++
    locSuffix vl e.src ++ idSuffix vi c.id) ++
  (match col with | some _ => b!"\x1b[0m" | none => [])

/-- The C settings stand for `c`. (Time fields are ordinary `int` values.) -/
structure Cfg.Holds (m : Cfg) (c : Settings) : Prop where
  name : Ptr m.logname c.name
  ip : Ptr m.logipstr c.ip
  id : Ptr m.logid c.id
  color : m.logcolor = c.color
  time : c.time = if m.logtime then m.clock else none
  tm : ∀ t, m.clock = some t → ∀ x ∈ [t.year, t.mon, t.mday, t.hour, t.min, t.sec, t.usec],
    -2 ^ 62 < x ∧ x < 2 ^ 62
  junk : m.junk.length = 68

/-- The texts of the fragments before the first NULL. -/
inductive Parts : List (Option Bytes) → List Bytes → Prop where
  | nil : Parts [] []
  | null {l} : Parts (none :: l) []
  | cons {s rest l ps} : NoNul s → Parts l ps → Parts (some (cstr s rest) :: l) (s :: ps)

/-- The C arguments stand for `e`: the fragments before the first NULL are the parts; file and function
names are C strings without LF (they are constants of the program, `__FILE__` and `__func__`). -/
structure Args.Holds (a : Args) (e : Event) : Prop where
  level : a.level = e.level
  flagerror : a.flagerror = e.flagerror
  errno : a.errno = e.errno
  parts : Parts (a.s.take 9) e.parts
  src : match e.src with
    | some (f, fce, l) => Ptr a.f (some f) ∧ Ptr a.fce (some fce) ∧ a.l = l ∧ 0 < l ∧ l < 2 ^ 62 ∧
        (10 : Byte) ∉ f ∧ (10 : Byte) ∉ fce
    | none => (a.f = none ∨ ∃ f, Ptr a.f (some f)) ∧ (a.f = none ∨ a.fce = none ∨ a.l = 0)

/-- The output buffer between two records. -/
def St.Idle (s : St) : Prop := s.buf.length = 256 ∧ s.buflen = 0 ∧ s.blocked = false

/-- Tracing is allowed for a file: nothing registered, or a registered prefix. -/
def Traced (w : Whitelist) (f : Option Bytes) : Prop :=
  w = [] ∨ f = none ∨ ∃ s p, f = some s ∧ p ∈ w ∧ p <+: s

/-- A record is due at verbosity `v`: its level does not exceed it, and tracing is allowed for the file. -/
def Due (v : Int) (w : Whitelist) (f : Option Bytes) (level : Nat) : Prop :=
  (level : Int) ≤ v ∧ (level = 4 → Traced w f)

/-- The text a returned pointer points to. -/
def Static.text (z : Static) (p : Nat × Nat) : Out Bytes :=
  match z.bufs[p.1]? with
  | none => .ub
  | some b => cstrOf (b.drop p.2)

/-- The static buffers: nine of 68 bytes. -/
def Static.WF (z : Static) : Prop :=
  z.bufs.length = 9 ∧ (∀ b ∈ z.bufs, b.length = 68) ∧ z.counter < 9

/-- Long texts are cut after 64 characters. -/
def cut (s : Bytes) : Bytes := if s.length ≤ 64 then s else s.take 64 ++ b!"..."

/-- Long dumps are cut after 32 bytes. -/
def dump (y : Bytes) : Bytes :=
  if y.length ≤ 32 then y.flatMap hex2 else (y.take 32).flatMap hex2 ++ b!"..."

/-- A formatter call. -/
inductive Call where
  | str (s : Option Bytes)
  | ip (a : Option Bytes)
  | port (p : Option (Byte × Byte))
  | ipport (a : Option Bytes) (p : Option (Byte × Byte))
  | num (n : Int) (cnt : Int)
  | hex (y : Option Bytes) (ylen : Int)

/-- The C call. -/
def Call.run (C : Proxy.IpCodec) (z : Static) : Call → Out (Static × Nat × Nat)
  | .str s => log_str z s
  | .ip a => log_ip C z a
  | .port p => log_port z p
  | .ipport a p => log_ipport C z a p
  | .num n cnt => log_num0 z n cnt
  | .hex y n => log_hex z y n

/-- Arguments a caller may pass: C strings, 16-byte addresses, 64-bit numbers, blocks of at least
the stated length. -/
def Call.Ok : Call → Prop
  | .str (some m) => ∃ s rest, m = cstr s rest ∧ NoNul s
  | .ip (some a) => a.length = 16
  | .ipport (some a) _ => a.length = 16
  | .num n cnt => IsLL n ∧ IsLL cnt
  | .hex (some y) n => n ≤ y.length
  | _ => True

/-- The text the call is to return. -/
def Call.wanted (C : Proxy.IpCodec) : Call → Bytes
  | .str none => b!"(null)"
  | .str (some m) => cut (m.takeWhile (· ≠ 0))
  | .ip none => b!"(null)"
  | .ip (some a) => Proxy.iptostr C a
  | .port none => b!"(null)"
  | .port (some p) => decimal (p.1.toNat * 256 + p.2.toNat)
  | .ipport (some a) (some p) =>
    (if a.take 12 = [0,0,0,0,0,0,0,0,0,0,255,255] then C.ntop4 (a.drop 12) else b!"[" ++ C.ntop6 a ++ b!"]") ++
    b!":" ++ decimal (p.1.toNat * 256 + p.2.toNat)
  | .ipport _ _ => b!"(null)"
  | .num n cnt => numField n (min cnt.toNat 67)
  | .hex none _ => b!"(null)"
  | .hex (some y) n => dump (y.take n.toNat)

end Log
