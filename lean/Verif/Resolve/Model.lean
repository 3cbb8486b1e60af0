import Verif.Base
/-
Model of randommod.c and of the name resolver resolvehost.c: the bytes delivered by randombytes
and the answer of getaddrinfo are parameters; buffers are byte lists of exactly the accessible size.
-/
namespace Resolve

/-- randommod.c:29-31: the loop over the random bytes `r`; `result * 256` is a signed product. -/
def randLoop (n : Nat) : Nat → Bytes → Out Nat
  | acc, [] => .ok acc
  | acc, b :: r => if acc * 256 ≥ 2 ^ 63 then .ub else randLoop n ((acc * 256 + b.toNat) % n) r

/-- randommod.c:23-33; `r` are the 32 random bytes. -/
def randommod (n : Int) (r : Bytes) : Out Nat :=
  if n ≤ 1 then .ok 0 else randLoop n.toNat 0 r

/-- resolvehost.c:24-31: exchanges the 16 bytes at offsets `x` and `y` of `s`. (When `x = y` the C code calls
memcpy on identical objects; taken to be a no-op.) -/
def swap (s : Bytes) (x y : Nat) : Out Bytes := do
  let t ← copyN (List.replicate 16 0) 0 (s.drop x) 16            -- :28
  let s ← copyN s x (s.drop y) 16                                -- :29
  copyN s y t 16                                                 -- :30

/-- resolvehost.c:41-45: `rnd n` are the random bytes of the call randommod(n). -/
def shuffle (rnd : Nat → Bytes) : Nat → Bytes → Out Bytes
  | 0, s => .ok s
  | 1, s => .ok s
  | n + 2, s => do
    let i ← randommod (n + 2 : Nat) (rnd (n + 2))
    let s ← swap s (16 * i) (16 * (n + 1))
    shuffle rnd (n + 1) s

/-- The twelve bytes in front of an IPv4 address (resolvehost.c:48, 111). -/
def v4prefix : Bytes := [0, 0, 0, 0, 0, 0, 0, 0, 0, 0, 255, 255]

/-- resolvehost.c:47-52 from offset `i`, `k` rounds left: the first native IPv6 address goes first. -/
def preferV6 (s : Bytes) (nn : Nat) : Nat → Nat → Out Bytes
  | 0, _ => .ok s
  | k + 1, i =>
    if i + 16 ≤ nn then
      if s.length < i + 12 then .ub
      else if (s.drop i).take 12 ≠ v4prefix then swap s i 0      -- :48-50
      else preferV6 s nn k (i + 16)
    else .ok s

/-- resolvehost.c:33-53. -/
def sortip (s : Bytes) (nn : Nat) (rnd : Nat → Bytes) : Out Bytes := do
  let s ← shuffle rnd (nn / 16) s
  preferV6 s nn (nn / 16 + 1) 0

/-- One entry of the list getaddrinfo returns: an IPv4 or an IPv6 address, or something of another
size (resolvehost.c:109-122). -/
inductive Answer where
  | v4 (a : Bytes)
  | v6 (a : Bytes)
  | other
  deriving Repr, DecidableEq

/-- Result of getaddrinfo: failure (`noData`: the name has no data), or a list
(resolvehost.c:92-104). -/
inductive Gai where
  | fail (noData : Bool)
  | list (as : List Answer)
  deriving Repr, DecidableEq

/-- resolvehost.c:107-124. -/
def collect (iplen : Nat) : List Answer → Bytes → Nat → Out (Bytes × Nat)
  | [], ip, len => .ok (ip, len)
  | .v4 a :: as, ip, len =>
    if len + 16 ≤ iplen then
      match copyN ip len v4prefix 12 with                        -- :111
      | .ub => .ub
      | .ok ip =>
        match copyN ip (len + 12) a 4 with                       -- :112
        | .ub => .ub
        | .ok ip => collect iplen as ip (len + 16)
    else collect iplen as ip len
  | .v6 a :: as, ip, len =>
    if len + 16 ≤ iplen then
      match copyN ip len a 16 with                               -- :119
      | .ub => .ub
      | .ok ip => collect iplen as ip (len + 16)
    else collect iplen as ip len
  | .other :: as, ip, len => collect iplen as ip len

/-- resolvehost.c:128: `ip[len + i] = ip[i]` for `k` values of `i`. -/
def refill (len : Nat) : Nat → Nat → Bytes → Out Bytes
  | 0, _, ip => .ok ip
  | k + 1, i, ip => do
    let b ← rd ip i
    let ip ← wr ip (len + i) b
    refill len k (i + 1) ip

/-- resolvehost.c:74-134 with non-null pointers: the value returned and the buffer. -/
def resolvehost (ip : Bytes) (iplen : Int) (gai : Gai) (rnd : Nat → Bytes) : Out (Int × Bytes) :=
  if iplen < 16 then .ok (-1, ip)                                -- :82
  else match gai with
    | .fail noData => .ok (if noData then 0 else -1, ip)         -- :93-104
    | .list as => do
      let (ip, len) ← collect iplen.toNat as ip 0
      if len > 0 then do
        let ip ← sortip ip len rnd                               -- :127
        let ip ← refill len (iplen.toNat - len) 0 ip             -- :128
        return ((len : Int), ip)
      else return ((len : Int), ip)

/-- resolvehost.c:230-249: the request sent for the host name at `host`: 256 bytes; `none` if refused. -/
def request (host : Bytes) : Out (Option Bytes) := do
  let h ← cstrOf host                                            -- :240
  if h.length > 255 then return none                             -- :242
  else do
    let buf ← copyN (List.replicate 256 0) 0 host h.length       -- :247
    return some buf

/-- resolvehost.c:186-197: the helper's reply to a received datagram `msg` of fewer than 257 bytes; `buf0` is the
257-byte receive buffer, `ip0` the 129-byte reply buffer. -/
def helperReply (buf0 ip0 msg : Bytes) (getaddrinfo : Bytes → Gai) (rnd : Nat → Bytes) : Out Bytes := do
  let buf ← copyN buf0 0 msg msg.length                          -- recv
  let buf ← wr buf 255 0                                         -- :186
  let host ← cstrOf buf
  let (r, ip) ← resolvehost (ip0.drop 1) 128 (getaddrinfo host) rnd   -- :187
  if r < 0 then return [255]                                     -- :188-191
  else return UInt8.ofNat r.toNat :: ip.take r.toNat             -- :193-196

/-- resolvehost.c:251-262: `reply` is the datagram received (`none`: recv failed). -/
def answer (ip : Bytes) (iplen : Nat) (reply : Option Bytes) : Out (Int × Bytes) :=
  match reply with
  | none => .ok (-1, ip)                                         -- :252
  | some [] => .ok (-1, ip)
  | some [b] => .ok (if b = 255 then -1 else (b.toNat : Int), ip)  -- :253-256
  | some (_ :: m) => do
    let len := min m.length iplen                                -- :257-258
    let ip ← copyN ip 0 m len                                    -- :260
    return ((len : Int), ip)

/-- resolvehost.c:230-263. `io` is the helper seen through the socket: the request's reply, `none` if send or recv
failed. -/
def resolvehostDo (ip : Bytes) (iplen : Int) (host : Bytes) (io : Bytes → Out (Option Bytes)) : Out (Int × Bytes) :=
  if iplen < 16 then .ok (-1, ip)
  else do
    match ← request host with
    | none => return (-1, ip)
    | some msg =>
      let reply ← io msg
      answer ip iplen.toNat reply

end Resolve
