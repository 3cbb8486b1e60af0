import Verif.Num.Model
import Verif.Str.Model
import Verif.Buffer.Model
/-
Model of proxyprotocol.c, parseip.c and iptostr.c. inet_pton and inet_ntop are
parameters (`IpCodec`); what is assumed of them is `IpCodec.Lawful` in Spec.lean.
-/
namespace Proxy
open Io

/-- inet_pton(AF_INET/AF_INET6) on the bytes of a string (without terminator) and
inet_ntop. External code, not part of the repository (parseip.c:27, 42, iptostr.c:14, 18). -/
structure IpCodec where
  pton4 : Bytes → Option Bytes
  pton6 : Bytes → Option Bytes
  ntop4 : Bytes → Bytes
  ntop6 : Bytes → Bytes

/-- The v4-mapped prefix "\0\0\0\0\0\0\0\0\0\0\377\377" (parseip.c:43, iptostr.c:44,
proxyprotocol.c:181). -/
def v4prefix : Bytes := [0,0,0,0,0,0,0,0,0,0,255,255]

/-- parseip.c:24-29; the argument is the memory of the string. -/
def parseip6_ (C : IpCodec) (mem : Bytes) : Out (Option Bytes) := do
  let s ← cstrOf mem
  return C.pton6 s

/-- parseip.c:39-47. -/
def parseip4_ (C : IpCodec) (mem : Bytes) : Out (Option Bytes) := do
  let s ← cstrOf mem
  match C.pton4 s with
  | some a => return some (v4prefix ++ a)
  | none => return none

/-- parseip.c:58-82 `parseip` (logging and errno not modelled). -/
def parseip (C : IpCodec) : Option Bytes → Out (Option Bytes)
  | none => .ok none
  | some mem => do
    match ← parseip4_ C mem with
    | some a => return some a
    | none => parseip6_ C mem

/-- iptostr.c:38-48: the text returned for a 16-byte address. -/
def iptostr (C : IpCodec) (ip : Bytes) : Bytes :=
  if ip.take 12 = v4prefix then C.ntop4 (ip.drop 12) else C.ntop6 ip

/-- The four endpoint fields (the arguments of proxyprotocol.c:22-205). -/
structure Ends where
  localip : Bytes
  localport : Byte × Byte
  remoteip : Bytes
  remoteport : Byte × Byte
  deriving Repr, DecidableEq

/-- proxyprotocol.c:55-58: zero-initialised outputs. -/
def zeroIp : Bytes := List.replicate 16 0
/-- All endpoint fields zero (main_tlswrapper.c:68-71). -/
def zeroEnds : Ends := ⟨zeroIp, (0, 0), zeroIp, (0, 0)⟩

/-- proxyprotocol.h:13. -/
def MAX : Nat := 128

/-- proxyprotocol.c:64-70: the reading loop, `k` iterations left, `pos` the index.
Result: (no read failure, pos, buffer, stream). -/
def readLoop : (k pos : Nat) → (buf : Bytes) → Buffer.IBuf → Out (Option (Bool × Nat × Bytes × Buffer.IBuf))
  | 0, pos, buf, b => .ok (some (true, pos, buf, b))
  | k + 1, pos, buf, b =>
    match Buffer.getc b with
    | .ub => .ub
    | .ok none => .ok none
    | .ok (some (r, d, b)) =>
      if r ≠ 1 then .ok (some (false, pos, buf, b))                        -- :65
      else
        match rd d 0 with
        | .ub => .ub
        | .ok c =>
          match wr buf pos c with
          | .ub => .ub
          | .ok buf =>
            if c = c! '\n' then .ok (some (true, pos, buf, b))              -- :69
            else readLoop k (pos + 1) buf b

/-- proxyprotocol.c:97-98 (and 107-108, 117-118): cut the field at the next space.
Result: buffer, offset of the next field. -/
def cut (buf : Bytes) (off : Nat) : Out (Bytes × Nat) := do
  let pos ← Str.str_chr (buf.drop off) (c! ' ')
  let buf ← wr buf (off + pos) 0
  return (buf, off + pos + 1)

/-- proxyprotocol.c:94-133 after the dispatch: the four fields. -/
def fields (parseipop : Bytes → Out (Option Bytes)) (buf : Bytes) (off : Nat) : Out (Option Ends) := do
  let (buf1, off1) ← cut buf off
  match ← parseipop (buf1.drop off) with                                   -- :99
  | none => return none
  | some remoteip =>
    let (buf2, off2) ← cut buf1 off1
    match ← parseipop (buf2.drop off1) with                                -- :109
    | none => return none
    | some localip =>
      let (buf3, off3) ← cut buf2 off2
      match ← Num.parseport_ (some (buf3.drop off2)) with                  -- :119
      | none => return none
      | some remoteport =>
        let nl ← Str.str_chr (buf3.drop off3) (c! '\n')                    -- :126
        let buf4 ← wr buf3 (off3 + nl) 0
        let cr ← Str.str_chr (buf4.drop off3) (c! '\r')                    -- :127
        let buf5 ← wr buf4 (off3 + cr) 0
        match ← Num.parseport_ (some (buf5.drop off3)) with                -- :128
        | none => return none
        | some localport => return some ⟨localip, localport, remoteip, remoteport⟩

/-- proxyprotocol.c:80-133: dispatch on the protocol word. -/
def dispatch (C : IpCodec) (buf : Bytes) : Out (Option Ends) := do
  if ← Str.str_start buf (b!"PROXY UNKNOWN" ++ [0]) then return some zeroEnds
  else if ← Str.str_start buf (b!"PROXY TCP4 " ++ [0]) then fields (parseip4_ C) buf 11
  else if ← Str.str_start buf (b!"PROXY TCP6 " ++ [0]) then fields (parseip6_ C) buf 11
  else return none

/-- proxyprotocol.c:44-143 `proxyprotocol_v1_get`. Outer `none`: still waiting for
input. Inner `none`: return value 0, outputs untouched. The last component is
the descriptor afterwards (the buffer `sin` has no storage). -/
def get (C : IpCodec) (fd : RFd) : Out (Option (Option Ends × RFd)) := do
  match ← readLoop (MAX - 1) 0 (List.replicate MAX 0) (Buffer.iinit [] fd) with
  | none => return none
  | some (ok, pos, buf, b) =>
    if ok = false then return some (none, b.fd)
    else
      let c ← rd buf pos
      if c ≠ c! '\n' then return some (none, b.fd)                          -- :71-75
      else
        let buf ← wr buf (pos + 1) 0                                        -- :77
        let r ← dispatch C buf
        return some (r, b.fd)

/-- proxyprotocol.c:188-194 the text of porttostr(0, port): the string in the static
buffer (any previous contents). -/
def portstr (static : Bytes) (port : Byte × Byte) : Out Bytes := do
  let (buf, pos) ← Num.porttostr static port.1 port.2
  cstrOf (buf.drop pos)

/-- proxyprotocol.c:166-205 `proxyprotocol_v1`. `buf` is the destination object
(`none` for NULL), `buflen` the size argument, `static` the previous contents of
porttostr's static buffer. `alloc` is whether the stralloc operations succeed;
each of their failures has the same effect, so they are merged into one flag.
Result: return value and the destination afterwards. -/
def v1 (C : IpCodec) (alloc : Bool) (static : Bytes) (buf : Option Bytes) (buflen : Nat) (e : Ends) :
    Out (Nat × Option Bytes) := do
  if e.localip = zeroIp ∧ e.remoteip = zeroIp ∧ e.localport = (0, 0) ∧ e.remoteport = (0, 0) then
    return (0, buf)                                                         -- :174-178
  else if alloc = false then return (0, buf)
  else
    let proto := if e.remoteip.take 12 = v4prefix then b!"PROXY TCP4 " else b!"PROXY TCP6 "
    let rp ← portstr static e.remoteport
    let lp ← portstr static e.localport
    let sa := proto ++ iptostr C e.remoteip ++ b!" " ++ iptostr C e.localip ++ b!" " ++ rp ++ b!" " ++
      lp ++ b!"\r\n"
    match buf with
    | none => return (0, none)
    | some buf =>
      if buflen ≥ sa.length then
        let buf ← copyN buf 0 sa sa.length
        return (sa.length, some buf)
      else return (0, some buf)

end Proxy
