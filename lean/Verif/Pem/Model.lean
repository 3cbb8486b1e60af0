import Verif.Base
/-
Model of tls_pem.c. Buffers are byte lists of exactly the allocated size; reads and
writes outside are undefined behaviour. randombytes and the ChaCha20 keystream are parameters.
-/
namespace Pem

/-- tls.h:176-183 without `alloc` (which is the length of both buffers). -/
structure Ctx where
  sec : Bytes
  seclen : Nat
  pub : Bytes
  publen : Nat
  deriving Repr, DecidableEq

/-- tls_pem.c:50-67: the loop of lineparser from index `i`. Returns the next position, the
line buffer and the line length. -/
def lineLoop (buf : Bytes) (len i : Nat) (out : Bytes) (outlen outmax : Nat) : Out (Nat × Bytes × Nat) :=
  if h : i < len then
    match rd buf i with
    | .ub => .ub
    | .ok b =>
      if b = 13 then .ok (i + 1, out, outlen)                    -- :57
      else if b = 10 then .ok (i + 1, out, outlen)               -- :58
      else if outlen ≥ outmax then .ok (len, out, 0)             -- :59-63
      else
        match wr out outlen b with                               -- :64
        | .ub => .ub
        | .ok out => lineLoop buf len (i + 1) out (outlen + 1) outmax
  else .ok (len, out, outlen)                                    -- :66
termination_by len - i

/-- tls_pem.c:50-67. -/
def lineparser (buf : Bytes) (len pos : Nat) (out : Bytes) (outmax : Nat) : Out (Nat × Bytes × Nat) :=
  lineLoop buf len pos out 0 outmax

/-- `memcmp(line, lit, n)` equals 0 for `n` bytes of both (tls_pem.c:93, 96, 107, 110). -/
def sameN (line lit : Bytes) (n : Nat) : Bool := line.take n = lit.take n

/-- tls_pem.c:92-97 and 106-111: the four marker comparisons. -/
def isBegin (line : Bytes) (linelen : Nat) : Bool :=
  (linelen = 28 ∧ sameN line b!"-----BEGIN CERTIFICATE-----" (linelen - 1)) ∨
  (linelen = 33 ∧ sameN line b!"-----BEGIN X509 CERTIFICATE-----" (linelen - 1))

/-- tls_pem.c:106-111. -/
def isEnd (line : Bytes) (linelen : Nat) : Bool :=
  (linelen = 26 ∧ sameN line b!"-----END CERTIFICATE-----" (linelen - 1)) ∨
  (linelen = 31 ∧ sameN line b!"-----END X509 CERTIFICATE-----" (linelen - 1))

/-- Local state of pemparse (tls_pem.c:80-85). -/
structure PS where
  pos : Nat
  flagpub : Bool
  line : Bytes
  sec : Bytes
  pub : Bytes
  seclen : Nat
  publen : Nat
  deriving Repr, DecidableEq

/-- tls_pem.c:88-111: one round of the loop; `len` is ctx->seclen during the loop. -/
def round (len : Nat) (p : PS) : Out PS := do
  let (pos, line, linelen) ← lineparser p.sec len p.pos p.line 64
  if linelen = 0 then return { p with pos := pos, line := line }          -- :90
  else
    let line ← wr line linelen 10                                        -- :91
    let linelen := linelen + 1
    let flagpub := if isBegin line linelen then true else p.flagpub      -- :92-97
    let p := { p with pos := pos, line := line }
    let p ←
      if flagpub then do
        let pub ← copyN p.pub p.publen line linelen                      -- :99
        pure { p with pub := pub, publen := p.publen + linelen }
      else do
        let sec ← copyN p.sec p.seclen line linelen                      -- :103
        pure { p with sec := sec, seclen := p.seclen + linelen }
    return { p with flagpub := if isEnd line linelen then false else flagpub }  -- :106-111

/-- tls_pem.c:87-112: the loop, `k` rounds at most (`none`: not finished). -/
def loop (len : Nat) : Nat → PS → Out (Option PS)
  | 0, p => if len > p.pos then .ok none else .ok (some p)
  | k + 1, p =>
    if len > p.pos then
      match round len p with
      | .ub => .ub
      | .ok p => loop len k p
    else .ok (some p)

/-- randombytes(buf + off, n): `rnd` supplies the bytes (tls_pem.c:113-115, 150). -/
def fillRandom (buf : Bytes) (off n : Nat) (rnd : Bytes) : Out Bytes := copyN buf off rnd n

/-- tls_pem.c:78-118. `r1`, `r2` are the random bytes; `line0` the uninitialised line buffer. The
wiping of `line` itself (:113) is not modelled. -/
def pemparse (c : Ctx) (alloc : Nat) (line0 r1 r2 : Bytes) : Out (Option Ctx) :=
  match loop c.seclen (c.seclen + 1) ⟨0, false, line0, c.sec, c.pub, 0, 0⟩ with
  | .ub => .ub
  | .ok none => .ok none
  | .ok (some p) => do
    let sec ← fillRandom p.sec p.seclen (alloc - p.seclen) r1             -- :114
    let pub ← fillRandom p.pub p.publen (alloc - p.publen) r2             -- :115
    return some ⟨sec, p.seclen, pub, p.publen⟩

/-- A stream cipher: the keystream byte at each position (the library function called at
tls_pem.c:154). -/
abbrev Stream := Bytes → Bytes → Nat → Byte

/-- br_chacha20_ct_run(key, nonce, 0, buf, len): XOR of the first `len` bytes with the keystream
(tls_pem.c:154). -/
def xorRun (ks : Nat → Byte) (buf : Bytes) (len : Nat) : Bytes :=
  (List.range buf.length).zipWith (fun i b => if i < len then b ^^^ ks i else b) buf

/-- tls_pem.c:139-155: `nonce` is the static state (`none`: not initialised), `rnd` what randombytes would give. -/
def encrypt (cipher : Stream) (nonce : Option Bytes) (rnd key : Bytes) (c : Ctx) : Option Bytes × Ctx :=
  let n := nonce.getD rnd
  (some n, { c with sec := xorRun (cipher key n) c.sec c.seclen })

/-- What the environment answers to tls_pem_load (tls_pem.c:171-189). -/
structure Env where
  opened : Bool
  /-- fstat: `none` if it fails; whether the file is regular and its size -/
  stat : Option (Bool × Nat)
  alloc1 : Bool
  alloc2 : Bool
  /-- readall: `none` on failure (including a short file), else exactly the bytes asked for (C13) -/
  data : Nat → Option Bytes
  line0 : Bytes
  r1 : Bytes
  r2 : Bytes
  nonceRnd : Bytes

/-- tls_pem.c:170-200: `none` is a failed load (the container is then cleared). -/
def load (cipher : Stream) (nonce : Option Bytes) (key : Bytes) (e : Env) : Out (Option (Option Bytes × Ctx)) :=
  if e.opened = false then .ok none
  else match e.stat with
    | none => .ok none
    | some (regular, size) =>
      if regular = false then .ok none
      else
        let alloc := size + 1                                             -- :183-184
        if e.alloc1 = false then .ok none
        else if e.alloc2 = false then .ok none
        else match e.data size with
          | none => .ok none                                              -- :189
          | some d => do
            let sec ← copyN (List.replicate alloc 0) 0 d size
            let sec ← wr sec size 10                                      -- :190
            let r ← pemparse ⟨sec, size + 1, List.replicate alloc 0, 0⟩ alloc e.line0 e.r1 e.r2
            match r with
            | none => return none
            | some c => return some (encrypt cipher nonce e.nonceRnd key c)

end Pem
