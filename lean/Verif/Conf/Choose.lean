import Verif.Conf.Model
import Verif.Name.Model
import Verif.Path.Model
/-
Model of tls_profile.c: the choice of certificate, cipher suite and signature hash.
-/
namespace Conf

/-- bearssl.h: identifiers of hash functions. -/
def sha1_ID : Nat := 2
/-- br_sha256_ID, tls_profile.c:27. -/
def sha256_ID : Nat := 4
/-- br_sha384_ID, tls_profile.c:27. -/
def sha384_ID : Nat := 5
/-- br_sha512_ID, tls_profile.c:27. -/
def sha512_ID : Nat := 6

/-- bearssl.h: key types and key exchanges. -/
def KEYTYPE_RSA : Nat := 1
/-- BR_KEYTYPE_EC, tls_profile.c:174. -/
def KEYTYPE_EC : Nat := 2
/-- BR_SSLKEYX_ECDHE_RSA, tls_profile.c:186. -/
def ECDHE_RSA : Nat := 1
/-- BR_SSLKEYX_ECDHE_ECDSA, tls_profile.c:173. -/
def ECDHE_ECDSA : Nat := 2

/-- tls_profile.c:26-37, the loop over the remaining preferences. -/
def hashLoop (bf : Nat) : List Nat → Nat
  | [] => 0
  | x :: pref => if (bf >>> x) &&& 1 ≠ 0 then x else hashLoop bf pref

/-- `hash_choose`, tls_profile.c:26-37. -/
def hash_choose (bf : Nat) : Nat := hashLoop bf [sha512_ID, sha384_ID, sha256_ID, sha1_ID]

/-- tls_profile.c:50-77: the return value and the destination afterwards. `a` and `b` are the
contents of the strings. `alloc` is whether the stralloc operations succeed: all their failures have the
same effect. -/
def copyfn (alloc : Bool) (buf a b : Bytes) : Out (Bool × Bytes) :=
  if alloc = false then .ok (false, buf)
  else do
    let sa := a ++ (if b.length > 0 then c! '/' :: b else []) ++ [0]       -- :58-66
    let mem ← Path.fixpath sa                                             -- :67
    if buf.length ≥ sa.length then                                        -- :69
      let buf ← copyN buf 0 mem sa.length
      return (true, buf)
    else return (false, buf)

/-- What the key process answers to a request for a certificate (tls_pipe_getcert): a chain and its
key
type, or a failure with errno (tls_pipe.c:31-64). -/
inductive Answer (γ : Type) where
  | chain (keytype : Nat) (c : γ)
  | fail (errno : Nat)
  deriving Repr, DecidableEq

/-- What the engine knows about the client (br_ssl_server_get_client_suites, _get_client_hashes,
br_ssl_engine_get_server_name, _get_version): the suites it may use with their translation, the hash
functions with RSA (bits 0-7) and ECDSA (bits 8-15), the server name, the version
(tls_profile.c:102-105, 115, 180). -/
structure Hello where
  suites : List (Nat × Nat)
  hashes : Nat
  name : Option Bytes
  version : Nat
  deriving Repr, DecidableEq

/-- br_ssl_server_choices (tls_profile.c:91-93, 173-200). -/
structure Choice (γ : Type) where
  chain : γ
  suite : Nat
  algo : Nat
  deriving Repr, DecidableEq

/-- tls_profile.c:169-198: suite and algorithm for a key type. -/
def pick (keytype hashes version : Nat) : List (Nat × Nat) → Option (Nat × Nat)
  | [] => none
  | (s, tt) :: st =>
    if tt >>> 12 = ECDHE_ECDSA ∧ keytype = KEYTYPE_EC then
      some (s, if version < 0x0303 then 0xFF00 + sha1_ID else 0xFF00 + hash_choose (hashes >>> 8))
    else if tt >>> 12 = ECDHE_RSA ∧ keytype = KEYTYPE_RSA then
      some (s, if version < 0x0303 then 0xFF00 else 0xFF00 + hash_choose hashes)
    else pick keytype hashes version st

/-- errno.h -/
def ENOENT : Nat := 2

/-- One certificate source: go on with the next, or stop (the control flow of
tls_profile.c:120-170). -/
inductive Next (γ : Type) where
  | cont
  | bad
  | ok (c : Choice γ)
  deriving Repr, DecidableEq

/-- tls_profile.c:169-199 for an obtained chain. -/
def suited {γ} (H : Hello) (keytype : Nat) (c : γ) : Next γ :=
  match pick keytype H.hashes H.version H.suites with
  | some (s, algo) => .ok ⟨c, s, algo⟩
  | none => .cont

/-- tls_profile.c:120-198: one round. `last` is `certfiles_len == i + 1`. `dns` is
server_name_dns, whose contents are never used. Result: the requested file, what happens next, the
buffer certfn. -/
def source {γ} (H : Hello) (alloc : Bool) (getcert : Bytes → Answer γ) (last : Bool) (name : Bytes) (dir : Bool)
    (certfn dns : Bytes) : Out (Option Bytes × Next γ × Bytes) :=
  if dir then
    match H.name with
    | none => .ok (none, .cont, certfn)                              -- :122
    | some sn =>
      if sn.length = 0 then .ok (none, .cont, certfn)                -- :122
      else do
        let (r, _) ← Name.parsename_ dns (some (sn ++ [0]))             -- :124
        if r = 0 then return (none, .cont, certfn)
        else
          let (r, certfn) ← copyfn alloc certfn name sn                   -- :131
          if r = false then return (none, .cont, certfn)
          else
            let fn ← cstrOf certfn
            match getcert fn with                                         -- :138
            | .fail e =>
              if e ≠ ENOENT ∨ last = true then return (some fn, .bad, certfn)   -- :140-145
              else return (some fn, .cont, certfn)
            | .chain k c => return (some fn, suited H k c, certfn)
  else do
    let (r, certfn) ← copyfn alloc certfn name []                         -- :153
    if r = false then return (none, .cont, certfn)
    else
      let fn ← cstrOf certfn
      match getcert fn with                                               -- :161
      | .fail _ => return (some fn, .bad, certfn)
      | .chain k c => return (some fn, suited H k c, certfn)

/-- tls_profile.c:119-207: the loop over the sources. The result is the list of requested files and the
choice (none: the handshake is refused). `alloc` and `getcert` are indexed by what is left to do. -/
def choose {γ} (H : Hello) (alloc : Nat → Bool) (getcert : Nat → Bytes → Answer γ) :
    List (Bytes × Bool) → Bytes → Bytes → Out (List Bytes × Option (Choice γ))
  | [], _, _ => .ok ([], none)
  | (name, dir) :: rest, certfn, dns => do
    let (req, next, certfn) ← source H (alloc rest.length) (getcert rest.length) rest.isEmpty name dir certfn dns
    match next with
    | .bad => return (req.toList, none)
    | .ok c => return (req.toList, some c)
    | .cont =>
      let (reqs, r) ← choose H alloc getcert rest certfn dns
      return (req.toList ++ reqs, r)

end Conf
