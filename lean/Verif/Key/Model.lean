import Verif.Pipe.Model
import Verif.Pem.Model
import Verif.Path.Model
import Verif.Ec.Model
/-
Model of tls_keyjail.c: the process that holds the private key. Its requests
arrive on descriptor 0 and its answers go to descriptor 1, both framed by pipe.c.

Simplified, once for the whole file:
* BearSSL is a parameter: signing (with the parsing of the private key,
  tls_seccrt.c), the derivation of the record keys, the PRF of the session, and
  the record engines. Each is a function of the bytes the key process hands it.
* Log output, and the overwriting of secrets before the process exits, are left
  out, except that the random bytes that become `sk` and `pemkey` are parameters.
* `size_t`, `int`, `unsigned`, `uint16_t` fields in the requests are raw native
  (little-endian) integers of 8, 4, 4 and 2 bytes.
-/
namespace Key
open Io Pipe

/-- A native integer sent as raw bytes (the `sizeof` arguments at tls_keyjail.c:187-229, 309-341).
-/
def leNat : Bytes → Nat
  | [] => 0
  | b :: x => b.toNat + 256 * leNat x

/-- How records are protected: which `br_ssl_engine_switch_*` pair is called, with
which key length (tls_keyjail.c:238-301). -/
inductive Kind where
  | chapol
  | gcm (keylen : Nat)
  | cbc (keylen : Nat)
  deriving Repr, DecidableEq

/-- Identifiers of hash functions (bearssl_hash.h). -/
def sha1 : Nat := 2
/-- br_sha256_ID, tls_keyjail.c:237-301. -/
def sha256 : Nat := 4
/-- br_sha384_ID, tls_keyjail.c:238-301. -/
def sha384 : Nat := 5

/-- tls_keyjail.c:236-301: the cases of the switch, as the PRF hash and the record
protection installed; none is the default case. -/
def suiteOf (suite : Nat) : Option (Nat × Kind) :=
  if suite = 0xCCA9 ∨ suite = 0xCCA8 then some (sha256, .chapol)        -- :238-244
  else if suite = 0xC02C ∨ suite = 0xC030 then some (sha384, .gcm 32)   -- :245-253
  else if suite = 0xC02B ∨ suite = 0xC02F then some (sha256, .gcm 16)   -- :254-262
  else if suite = 0xC024 ∨ suite = 0xC028 then some (sha384, .cbc 32)   -- :263-271
  else if suite = 0xC023 ∨ suite = 0xC027 then some (sha256, .cbc 16)   -- :272-280
  else if suite = 0xC00A ∨ suite = 0xC014 then some (sha1, .cbc 32)     -- :281-289
  else if suite = 0xC009 ∨ suite = 0xC013 then some (sha1, .cbc 16)     -- :290-298
  else none

/-- What the record keys are derived from (tls_keyjail.c:213-236). -/
structure Agreement where
  sessionId : Bytes
  version : Nat
  suite : Nat
  clientRandom : Bytes
  serverRandom : Bytes
  deriving Repr, DecidableEq

/-- What the key process does, in order (tls_keyjail.c:146-408). -/
inductive Act where
  /-- a request message arrived completely -/
  | got (m : Bytes)
  /-- an answer was written completely -/
  | sent (m : Bytes)
  /-- an error answer was written completely -/
  | errno (e : Int)
  /-- `tls_pem_load(fn)` was called and read this content, or failed -/
  | load (fn : Bytes) (content : Option Bytes)
  /-- `jail()` succeeded -/
  | jail
  /-- the ephemeral scalar was created and used, successfully or not -/
  | keygen (curve : Nat) (calls : List Ec.Call) (ok : Bool)
  /-- a digest was signed with the private key in the PEM text `sec` -/
  | sign (sec : Bytes) (hash : Byte) (digest : Bytes)
  /-- the shared secret was computed, successfully or not -/
  | agree (curve : Nat) (calls : List Ec.Call) (a : Agreement) (ok : Bool)
  /-- the master secret was computed with this hash and the record keys installed -/
  | install (prf : Nat) (kind : Kind)
  /-- the PRF was computed with the master secret -/
  | prf (label seed : Bytes)
  /-- a record was given to the decryption engine -/
  | decrypt (type version : Nat) (data : Bytes)
  /-- a record was given to the encryption engine -/
  | encrypt (type version : Nat) (data : Bytes)
  deriving Repr, DecidableEq

/-- What the environment provides to one call of `tls_pem_load`: the random key,
the file system's answers for each name, and errno if it fails (tls_keyjail.c:171-176, 203-205). -/
structure LoadEnv where
  key : Bytes
  env : Bytes → Pem.Env
  errno : Int

/-- What is outside the modelled code (the external calls of tls_keyjail.c:63-136, 146-408). -/
structure P where
  /-- `ctx->flagnojail` -/
  nojail : Bool
  /-- contents of `ctx->certfn` before -/
  certfn : Bytes
  /-- one entry for each `tls_pem_load` that will return -/
  loads : List LoadEnv
  cipher : Pem.Stream
  nonce : Option Bytes
  nonceRnd : Bytes
  /-- whether `jail()` succeeds (C61) -/
  jail : Bool
  /-- random bytes of the scalar; the uninitialised `pk` and `data` -/
  sk : Bytes
  pk : Bytes
  data : Bytes
  ec : Ec.Impl
  /-- tls_keyjail.c:75-95: private key text, hash, digest; the signature, empty on failure -/
  doSign : Bytes → Byte → Bytes → Out Bytes
  /-- state of the record layer -/
  σ : Type
  /-- `br_ssl_engine_compute_master` with the shared secret, and the two
  `br_ssl_engine_switch_*` calls -/
  install : Agreement → (prf : Nat) → Kind → (pms : Bytes) → σ
  /-- tls_keyjail.c:118-130 -/
  prf : σ → (prf : Nat) → (len : Nat) → (label seed : Bytes) → Bytes
  /-- the plaintext and where it lies relative to the record, none on failure -/
  dec : σ → (type version : Nat) → Bytes → Out (σ × Option (Int × Bytes))
  /-- the record and where it lies relative to the plaintext -/
  enc : σ → (type version : Nat) → Bytes → Out (σ × Int × Bytes)
  /-- outcomes of the comparisons in tls_keyjail.c:305 -/
  alive : List Bool

/-- Descriptors 0 and 1, and what was done (tls_keyjail.c:163-400). -/
structure S where
  inp : RFd
  out : WFd
  log : List Act
  deriving Repr, DecidableEq

/-- Outcome: it goes on; `goto cleanup` (the process ends); a call has not
returned; undefined behaviour (the control flow of tls_keyjail.c:146-408). -/
inductive R (α : Type) where
  | ok (a : α) (s : S)
  | stop (s : S)
  | blocked (s : S)
  | ub (s : S)
  deriving Repr, DecidableEq

/-- Code of the key process (tls_keyjail.c:146-408). -/
def K (α : Type) := S → R α

instance : Monad K where
  pure a := fun s => .ok a s
  bind m f := fun s => match m s with
    | .ok a s => f a s
    | .stop s => .stop s
    | .blocked s => .blocked s
    | .ub s => .ub s

/-- `goto cleanup` (e.g. tls_keyjail.c:163, 173, 178). -/
def stop {α : Type} : K α := fun s => .stop s
/-- A call that does not return (inside the pipe calls, e.g. tls_keyjail.c:163). -/
def blocked {α : Type} : K α := fun s => .blocked s
/-- A computation without I/O (e.g. tls_keyjail.c:165-170). -/
def lift {α : Type} (x : Out α) : K α := fun s => match x with
  | .ok a => .ok a s
  | .ub => .ub s
/-- Record an action (for the record only; the actions of tls_keyjail.c:146-408). -/
def act (a : Act) : K Unit := fun s => .ok () { s with log := s.log ++ [a] }

/-- `if (pipe_readmax(0, buf + off, &bound) == -1) goto cleanup;` The new contents
of `buf`, and the length. What arrives is stored even if the call then fails (tls_keyjail.c:163,
202, 321, 340). -/
def readmaxTo (buf : Bytes) (off bound : Nat) : K (Bytes × Nat) := fun s =>
  match pipe_readmax s.inp bound with
  | none => .blocked s
  | some (r, x, n, fd) =>
    match copyN buf off x x.length with
    | .ub => .ub { s with inp := fd }
    | .ok buf =>
      if r = -1 then .stop { s with inp := fd }
      else .ok (buf, n) { s with inp := fd, log := s.log ++ [.got x] }

/-- `if (pipe_readall(0, buf, n) == -1) goto cleanup;` (tls_keyjail.c:187, 199-200, 214-229, 309,
317-318, 335-337). -/
def readallTo (buf : Bytes) (n : Nat) : K Bytes := fun s =>
  match pipe_readall s.inp n with
  | none => .blocked s
  | some (r, x, fd) =>
    match copyN buf 0 x x.length with
    | .ub => .ub { s with inp := fd }
    | .ok buf =>
      if r = -1 then .stop { s with inp := fd }
      else .ok buf { s with inp := fd, log := s.log ++ [.got x] }

/-- `if (pipe_write(1, x, n) == -1) goto cleanup;` (tls_keyjail.c:178, 192, 206, 323, 348-364). -/
def send (x : Bytes) : K Unit := fun s =>
  match pipe_write s.out x with
  | none => .blocked s
  | some (r, fd) =>
    if r = -1 then .stop { s with out := fd }
    else .ok () { s with out := fd, log := s.log ++ [.sent x] }

/-- `if (pipe_writeerrno(1) == -1) goto cleanup;` (tls_keyjail.c:173). -/
def sendErrno (e : Int) : K Unit := fun s =>
  match pipe_writeerrno s.out e with
  | none => .blocked s
  | some (r, fd) =>
    if r = -1 then .stop { s with out := fd }
    else .ok () { s with out := fd, log := s.log ++ [.errno e] }

/-- `struct tls_pem pem`, `pemkey` and the nonce in tls_pem.c. -/
structure Pems where
  ctx : Pem.Ctx
  key : Bytes
  nonce : Option Bytes

/-- tls_keyjail.c:163-167: the name in `certfn`. -/
def cleanName (certfn : Bytes) (n : Nat) : Out Bytes := do
  let certfn ← wr certfn (n - 1) 0                       -- :165
  Path.fixpath certfn                                    -- :167

/-- For the record only: the bytes a load reads (tls_keyjail.c:172). -/
def content (e : Pem.Env) : Option Bytes := e.stat.bind fun st => e.data st.2

/-- tls_keyjail.c:160-179. -/
def loadLoop (cipher : Pem.Stream) : List LoadEnv → Bytes → Pems → K Pems
  | loads, certfn, pem => do
    let (certfn, n) ← readmaxTo certfn 0 1024            -- :163
    if n = 0 then return pem                             -- :164
    else
      match loads with
      | [] => blocked
      | l :: loads => do
        let certfn ← lift (cleanName certfn n)
        let fn ← lift (cstrOf certfn)
        match ← lift (Pem.load cipher pem.nonce l.key (l.env fn)) with   -- :171-172
        | none => do
          act (.load fn none)
          sendErrno l.errno                              -- :173
          loadLoop cipher loads certfn ⟨⟨[], 0, [], 0⟩, l.key, pem.nonce⟩
        | some (nonce, ctx) => do
          act (.load fn (content (l.env fn)))
          let pub ← lift (Ec.readN ctx.pub ctx.publen)
          send pub                                       -- :178
          loadLoop cipher loads certfn ⟨ctx, l.key, nonce⟩

/-- tls_keyjail.c:182-184. -/
def enterJail (nojail : Bool) (jail : Bool) : K Unit :=
  if nojail then pure ()
  else if jail then act .jail
  else stop

/-- tls_keyjail.c:187-192: the curve, `pk`, `pklen` and `sk` afterwards. -/
def keygen (p : P) : K (Nat × Bytes × Nat × Bytes) := do
  let c ← readallTo [0] 1                                -- :187
  let curve := leNat c
  let r ← lift (Ec.base p.ec curve p.pk p.sk)            -- :189
  act (.keygen curve r.calls (r.ret ≠ -1))
  if r.ret = -1 then stop
  else
    let x ← lift (Ec.readN r.p r.plen)
    send x                                               -- :192
    return (curve, r.p, r.plen, r.sk)

/-- tls_keyjail.c:196-206 with 63-101. -/
def signOnce (p : P) (pem : Pems) : K Unit := do
  let h ← readallTo [0] 1                                -- :199
  let l ← readallTo (List.replicate 8 0) 8               -- :200
  if leNat l > 2048 then stop                            -- :201
  else
    let (data, n) ← readmaxTo p.data 0 (leNat l)         -- :202
    let (_, ctx) := Pem.encrypt p.cipher pem.nonce p.nonceRnd pem.key pem.ctx  -- :73
    let sec ← lift (Ec.readN ctx.sec ctx.seclen)
    let digest ← lift (Ec.readN data n)
    let hash ← lift (rd h 0)
    act (.sign sec hash digest)
    let sig ← lift (p.doSign sec hash digest)            -- :95
    let data ← lift (copyN data 0 sig sig.length)
    let sig ← lift (Ec.readN data sig.length)
    send sig                                             -- :206

/-- tls_keyjail.c:214-301: the record layer and the PRF's hash. -/
def agreeOnce (p : P) (curve : Nat) (pk : Bytes) (pklen : Nat) (sk : Bytes) : K (p.σ × Nat) := do
  let pk ← readallTo pk pklen                            -- :214
  let sid ← readallTo (List.replicate 32 0) 32           -- :215
  let ver ← readallTo (List.replicate 2 0) 2             -- :218
  let suite ← readallTo (List.replicate 2 0) 2           -- :221
  let cr ← readallTo (List.replicate 32 0) 32            -- :224
  let sr ← readallTo (List.replicate 32 0) 32            -- :227
  let r ← lift (Ec.mul p.ec curve pk sk)                 -- :230
  let a : Agreement := ⟨sid, leNat ver, leNat suite, cr, sr⟩
  act (.agree curve r.calls a (r.ret ≠ -1))
  if r.ret = -1 then stop
  else
    match suiteOf a.suite with                           -- :237
    | none => stop                                       -- :299-300
    | some (prf, kind) =>
      let pms ← lift (Ec.readN r.p r.plen)
      act (.install prf kind)
      return (p.install a prf kind pms, prf)

/-- Size of the record buffer after its 64 bytes of slack (BR_SSL_BUFSIZE_INPUT)
(tls_keyjail.c:330). -/
def recMax : Nat := 16384 + 325

/-- Storing `x` at `data + 64 + raw`, in a buffer of `recMax + 64` bytes: undefined
outside (tls_keyjail.c:340, 353-366). -/
def place (raw : Int) (x : Bytes) : Out Unit :=
  if 0 ≤ 64 + raw ∧ 64 + raw + x.length ≤ recMax + 64 then .ok () else .ub

/-- A `signed char` as a byte (tls_keyjail.c:346-362). -/
def offByte (raw : Int) : Byte := UInt8.ofNat (raw % 256).toNat

/-- tls_keyjail.c:311-324. -/
def servePrf (p : P) (st : p.σ) (prf : Nat) : K p.σ := do
  let label ← readallTo (List.replicate 16 0) 16         -- :317
  let l ← readallTo (List.replicate 8 0) 8               -- :318
  if leNat l > 48 then stop                              -- :320
  else
    let (seed, n) ← readmaxTo (List.replicate 48 0) 0 (leNat l)   -- :321
    let seed ← lift (Ec.readN seed n)
    act (.prf label seed)
    let label ← lift (cstrOf label)                      -- BearSSL: strlen(label)
    send (p.prf st prf 12 label seed)                    -- :322-323
    return st

/-- tls_keyjail.c:335-341 and 377-383: type, version and data of a record. -/
def readRecord : K (Nat × Nat × Bytes) := do
  let ty ← readallTo (List.replicate 4 0) 4
  let ver ← readallTo (List.replicate 4 0) 4
  let (data, n) ← readmaxTo (List.replicate (recMax + 64) 0) 64 recMax
  let x ← lift (Ec.readN (data.drop 64) n)
  return (leNat ty, leNat ver, x)

/-- tls_keyjail.c:325-366. -/
def serveDecrypt (p : P) (st : p.σ) : K p.σ := do
  let (ty, ver, x) ← readRecord
  act (.decrypt ty ver x)
  match ← lift (p.dec st ty ver x) with                  -- :342
  | (st, none) => do
    send [0]                                             -- :348
    send []                                              -- :350
    return st
  | (st, some (raw, plain)) => do
    lift (place raw plain)
    if raw < -64 ∨ raw > 64 then stop                    -- :356-359
    else
      send [offByte raw]                                 -- :361
      send plain                                         -- :363
      return st

/-- tls_keyjail.c:367-398. -/
def serveEncrypt (p : P) (st : p.σ) : K p.σ := do
  let (ty, ver, x) ← readRecord
  act (.encrypt ty ver x)
  let (st, raw, rec) ← lift (p.enc st ty ver x)          -- :384
  lift (place raw rec)
  if raw < -64 ∨ raw > 64 then stop                      -- :389-392
  else
    send [offByte raw]                                   -- :394
    send rec                                             -- :396
    return st

/-- tls_keyjail.c:309-402: one round of the loop. -/
def serveOne (p : P) (prf : Nat) (st : p.σ) : K p.σ := do
  let ch ← readallTo [0] 1                               -- :309
  if leNat ch = 0 then servePrf p st prf
  else if leNat ch = 1 then serveDecrypt p st
  else if leNat ch = 2 then serveEncrypt p st
  else stop                                              -- :399-400

/-- tls_keyjail.c:305-403. -/
def serve (p : P) (prf : Nat) : List Bool → p.σ → K Unit
  | [], _ => blocked
  | false :: _, _ => stop
  | true :: alive, st => do
    let st ← serveOne p prf st
    serve p prf alive st

/-- tls_keyjail.c:146-408. -/
def keyjail (p : P) : K Unit := do
  let pem ← loadLoop p.cipher p.loads p.certfn ⟨⟨[], 0, [], 0⟩, [], p.nonce⟩
  enterJail p.nojail p.jail
  let (curve, pk, pklen, sk) ← keygen p
  signOnce p pem
  let (st, prf) ← agreeOnce p curve pk pklen sk
  serve p prf p.alive st

end Key
