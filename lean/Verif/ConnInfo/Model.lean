import Verif.Proxy.Model
/-
Model of connectioninfo.c: the endpoints of the connection, read from the
environment or from the socket on descriptor 0, and exported to the environment
of the child. parseip/parseport/iptostr/porttostr are the models of Verif/Proxy
and Verif/Num. Logging is not modelled. A failed inet_pton is taken to leave its
output alone (glibc); this only concerns what the buffers hold after a failure.
-/
namespace ConnInfo
open Proxy

/-- The environment of a process: getenv(3) finds the first entry of that name (environ(7), read at
connectioninfo.c:94-97). -/
abbrev Env := List (Bytes × Bytes)

/-- getenv(3); the result is the memory of the value (connectioninfo.c:94-97). -/
def getenv (env : Env) (name : Bytes) : Option Bytes :=
  (env.find? (fun e => e.1 == name)).map (fun e => cstr e.2 [])

/-- setenv(3) with overwrite = 1 when it succeeds (connectioninfo.c:139-142). -/
def setenv : Env → Bytes → Bytes → Env
  | [], n, v => [(n, v)]
  | e :: env, n, v => if e.1 = n then (n, v) :: env else e :: setenv env n v

/-- The answer of getsockname(2) or getpeername(2): failure, an AF_INET address
(sin_addr, sin_port), an AF_INET6 address, or another family (connectioninfo.c:43, 59). -/
inductive Sock where
  | failed
  | inet (addr : Bytes) (port : Byte × Byte)
  | inet6 (addr : Bytes) (port : Byte × Byte)
  | other
  deriving Repr, DecidableEq

/-- connectioninfo.c:43-56, the local half: `none` is `return 0`. -/
def putLocal (e : Ends) : Sock → Option Ends
  | .failed => none                                                                 -- :43
  | .inet a p => some { e with localip := v4prefix ++ a, localport := p }           -- :45-50
  | .inet6 a p => some { e with localip := a, localport := p }                      -- :51-55
  | .other => none                                                                  -- :56

/-- connectioninfo.c:59-72, the remote half. -/
def putRemote (e : Ends) : Sock → Option Ends
  | .failed => none                                                                 -- :59
  | .inet a p => some { e with remoteip := v4prefix ++ a, remoteport := p }         -- :61-66
  | .inet6 a p => some { e with remoteip := a, remoteport := p }                    -- :67-71
  | .other => none                                                                  -- :72

/-- connectioninfo.c:34-76 `connectioninfo_fromfd`: the return value and the four
output buffers. -/
def fromfd (loc peer : Sock) (e : Ends) : Bool × Ends :=
  match putLocal e loc with
  | none => (false, e)
  | some e =>
    match putRemote e peer with
    | none => (false, e)
    | some e => (true, e)

/-- connectioninfo.c:97. -/
def envRemotePort (env : Env) (e : Ends) : Out (Bool × Ends) := do
  match ← Num.parseport (getenv env b!"TCPREMOTEPORT") with
  | none => return (false, e)
  | some p => return (true, { e with remoteport := p })

/-- connectioninfo.c:96. -/
def envRemoteIp (C : IpCodec) (env : Env) (e : Ends) : Out (Bool × Ends) := do
  match ← parseip C (getenv env b!"TCPREMOTEIP") with
  | none => return (false, e)
  | some a => envRemotePort env { e with remoteip := a }

/-- connectioninfo.c:95. -/
def envLocalPort (C : IpCodec) (env : Env) (e : Ends) : Out (Bool × Ends) := do
  match ← Num.parseport (getenv env b!"TCPLOCALPORT") with
  | none => return (false, e)
  | some p => envRemoteIp C env { e with localport := p }

/-- connectioninfo.c:89-101 `connectioninfo_fromenv`. -/
def fromenv (C : IpCodec) (env : Env) (e : Ends) : Out (Bool × Ends) := do
  match ← parseip C (getenv env b!"TCPLOCALIP") with                                -- :94
  | none => return (false, e)
  | some a => envLocalPort C env { e with localip := a }

/-- connectioninfo.c:116-124 `connectioninfo_get`. -/
def get (C : IpCodec) (env : Env) (loc peer : Sock) (e : Ends) : Out (Bool × Ends) := do
  let r ← fromenv C env e
  if r.1 then return r else return fromfd loc peer r.2

/-- porttostr.c:28-55 with a null `strbuf`: the text, read back as a C string, and the
static buffer afterwards. -/
def portText (sb : Bytes) (p : Byte × Byte) : Out (Bytes × Bytes) := do
  let (sb, pos) ← Num.porttostr sb p.1 p.2
  let t ← cstrOf (sb.drop pos)
  return (t, sb)

/-- setenv(3); `ok = false` is a failure (out of memory), which leaves the
environment as it is. The return value is ignored by connectioninfo.c. -/
def setenvIf (ok : Bool) (env : Env) (n v : Bytes) : Env := if ok then setenv env n v else env

/-- connectioninfo.c:137-145 `connectioninfo_set`. `sb` is the static buffer of
porttostr, the booleans are the outcomes of the four setenv calls. -/
def set (C : IpCodec) (sb : Bytes) (ok1 ok2 ok3 ok4 : Bool) (env : Env) (e : Ends) : Out Env := do
  let env := setenvIf ok1 env b!"TCPREMOTEIP" (iptostr C e.remoteip)                -- :139
  let (t, sb) ← portText sb e.remoteport
  let env := setenvIf ok2 env b!"TCPREMOTEPORT" t                                   -- :140
  let env := setenvIf ok3 env b!"TCPLOCALIP" (iptostr C e.localip)                  -- :141
  let (t, _) ← portText sb e.localport
  return setenvIf ok4 env b!"TCPLOCALPORT" t                                        -- :142

end ConnInfo
