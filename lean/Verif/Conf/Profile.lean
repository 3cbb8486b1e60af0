import Verif.Conf.Choose
import Verif.Crt.Model
import Verif.Key.Net
import Verif.Path.Model
/-
Model of tls_profile() (tls_profile.c:223-333) with tls_ecdhe_get_default() (tls_ecdhe.c:136-145), and of the loading of the
trust anchors (main_tlswrapper.c:1429-1440). BearSSL's setters store their arguments; the engine here is the record of what is stored.
-/
namespace Conf

/-- Who does an operation: nobody yet, BearSSL's own code in the network process, or the key process, through tls_pipe.c. -/
inductive Impl where
  | unset
  | bearssl
  | pipe
  deriving Repr, DecidableEq

/-- br_x509_minimal_context: what is needed to check a client's chain (`ctx->xc`,
tls_profile.c:290-308). -/
structure Minimal where
  anchors : List Crt.Anchor
  hashes : List Nat
  rsa : Impl
  ecdsa : Impl
  /-- the field of the client's certificate to be extracted, and the room for it -/
  field : Option (Bytes × Nat)
  deriving Repr, DecidableEq

/-- br_ssl_server_context, as far as the setters go (`ctx->cc`, tls_profile.c:227). -/
structure Server where
  version_min : Nat
  version_max : Nat
  enforce_server_preferences : Bool
  no_renegotiation : Bool
  tolerate_no_client_auth : Bool
  suites : List Nat
  /-- br_ec_impl.supported_curves as a bit mask -/
  curves : Nat
  mulgen : Impl
  mul : Impl
  sign : Impl
  hashes : List Nat
  prf10 : Impl
  prf_sha256 : Impl
  prf_sha384 : Impl
  chapol : Impl
  gcm : Impl
  cbc : Impl
  rsavrfy : Impl
  ecdsavrfy : Impl
  x509 : Option Minimal
  anchorNames : List Crt.Anchor
  buffer : Option (Nat × Bool)
  entropy : List Bytes
  reset : Bool
  deriving Repr, DecidableEq

/-- br_ssl_server_zero (tls_profile.c:232). -/
def Server.zero : Server :=
  ⟨0, 0, false, false, false, [], 0, .unset, .unset, .unset, [], .unset, .unset, .unset, .unset, .unset, .unset, .unset, .unset, none, [], none, [], false⟩

/-- br_ssl_engine_set_versions, tls_profile.c:233. -/
def Server.set_versions (min max : Nat) (e : Server) : Server := { e with version_min := min, version_max := max }
/-- br_ssl_engine_set_all_flags, tls_profile.c:238. -/
def Server.set_all_flags (a b c : Bool) (e : Server) : Server :=
  { e with enforce_server_preferences := a, no_renegotiation := b, tolerate_no_client_auth := c }
/-- br_ssl_engine_set_suites: the engine has room for 48 (bearssl_ssl.h, BR_MAX_CIPHER_SUITES); more are refused. -/
def Server.set_suites (l : List Nat) (e : Server) : Server := if l.length > 48 then e else { e with suites := l }
/-- br_ssl_engine_set_ec, tls_profile.c:249. -/
def Server.set_ec (curves : Nat) (mulgen mul : Impl) (e : Server) : Server := { e with curves := curves, mulgen := mulgen, mul := mul }
/-- br_ssl_server_set_policy, tls_profile.c:255. -/
def Server.set_policy (sign : Impl) (e : Server) : Server := { e with sign := sign }
/-- br_ssl_engine_set_hash, tls_profile.c:260-264. -/
def Server.set_hash (h : Nat) (e : Server) : Server := { e with hashes := e.hashes ++ [h] }
/-- br_ssl_engine_set_prf10, tls_profile.c:269. -/
def Server.set_prf10 (i : Impl) (e : Server) : Server := { e with prf10 := i }
/-- br_ssl_engine_set_prf_sha256, tls_profile.c:270. -/
def Server.set_prf_sha256 (i : Impl) (e : Server) : Server := { e with prf_sha256 := i }
/-- br_ssl_engine_set_prf_sha384, tls_profile.c:271. -/
def Server.set_prf_sha384 (i : Impl) (e : Server) : Server := { e with prf_sha384 := i }
/-- br_ssl_engine_set_chapol, tls_profile.c:276. -/
def Server.set_chapol (i : Impl) (e : Server) : Server := { e with chapol := i }
/-- br_ssl_engine_set_gcm, tls_profile.c:278. -/
def Server.set_gcm (i : Impl) (e : Server) : Server := { e with gcm := i }
/-- br_ssl_engine_set_cbc, tls_profile.c:281. -/
def Server.set_cbc (i : Impl) (e : Server) : Server := { e with cbc := i }
/-- br_ssl_engine_set_default_aes_cbc: BearSSL's ciphers and its own record layer
(tls_profile.c:280). -/
def Server.set_default_aes_cbc (e : Server) : Server := { e with cbc := .bearssl }
/-- br_ssl_engine_set_default_rsavrfy, tls_profile.c:295. -/
def Server.set_default_rsavrfy (e : Server) : Server := { e with rsavrfy := .bearssl }
/-- br_ssl_engine_set_ecdsa, tls_profile.c:296. -/
def Server.set_ecdsa (i : Impl) (e : Server) : Server := { e with ecdsavrfy := i }
/-- br_ssl_engine_set_x509, tls_profile.c:300. -/
def Server.set_x509 (m : Minimal) (e : Server) : Server := { e with x509 := some m }
/-- br_ssl_server_set_trust_anchor_names_alt, tls_profile.c:301. -/
def Server.set_trust_anchor_names (l : List Crt.Anchor) (e : Server) : Server := { e with anchorNames := l }
/-- br_ssl_engine_set_buffer, tls_profile.c:315. -/
def Server.set_buffer (n : Nat) (bidi : Bool) (e : Server) : Server := { e with buffer := some (n, bidi) }
/-- br_ssl_engine_inject_entropy, tls_profile.c:321. -/
def Server.inject_entropy (x : Bytes) (e : Server) : Server := { e with entropy := e.entropy ++ [x] }
/-- br_ssl_server_reset, tls_profile.c:329. -/
def Server.server_reset (e : Server) : Server := { e with reset := true }

/-- BR_SSL_BUFSIZE_BIDI of bearssl_ssl.h: 16384 + 325 and 16384 + 85. -/
def BUFSIZE_BIDI : Nat := 33178

/-- br_md5_ID, tls_profile.c:260. -/
def md5_ID : Nat := 1

/-- tls_profile.c:289-310: the set-up of client authentication. -/
def clientAuth (c : Ctx) (anchors : List Crt.Anchor) (e : Server) : Server :=
  if anchors.length > 0 then                                            -- :289
    let xc : Minimal := ⟨anchors, [], .unset, .unset, none⟩             -- :290-291
    let xc := { xc with hashes := xc.hashes ++ [sha256_ID] }            -- :292
    let xc := { xc with hashes := xc.hashes ++ [sha384_ID] }            -- :293
    let xc := { xc with hashes := xc.hashes ++ [sha512_ID] }            -- :294
    let e := e.set_default_rsavrfy                                      -- :295
    let e := e.set_ecdsa .bearssl                                       -- :296, tls_ecdsa.c:24-31: BearSSL's curves
    let xc := { xc with rsa := .bearssl }                               -- :297
    let xc := { xc with ecdsa := .bearssl }                             -- :298-299
    let e := e.set_trust_anchor_names anchors                           -- :301-302
    let xc := match c.oid with                                          -- :305-309
      | some oid => { xc with field := some (oid, 256) }
      | none => xc
    e.set_x509 xc                                                       -- :300 (a pointer, so the later settings count)
  else e

/-- tls_profile.c:223-333. `seed` is what randombytes gives. -/
def tls_profile (c : Ctx) (anchors : List Crt.Anchor) (seed : Bytes) : Server :=
  let e := Server.zero                                                  -- :232
  let e := e.set_versions c.version_min c.version_max                   -- :233
  let e := e.set_all_flags c.enforce_server_preferences c.no_renegotiation c.tolerate_no_client_auth   -- :238
  let e := e.set_suites c.cipher_enabled                                -- :243-244
  let e := e.set_ec c.ecdhe_enabled .pipe .pipe                         -- :249, tls_ecdhe.c:139-141
  let e := e.set_policy .pipe                                           -- :254-255, 210-212
  let e := e.set_hash md5_ID                                            -- :260-264
  let e := e.set_hash sha1_ID
  let e := e.set_hash sha256_ID
  let e := e.set_hash sha384_ID
  let e := e.set_hash sha512_ID
  let e := e.set_prf10 .pipe                                            -- :269-271
  let e := e.set_prf_sha256 .pipe
  let e := e.set_prf_sha384 .pipe
  let e := e.set_chapol .pipe                                           -- :276-277
  let e := e.set_gcm .pipe                                              -- :278-279
  let e := e.set_default_aes_cbc                                        -- :280
  let e := e.set_cbc .pipe                                              -- :281-282
  let e := clientAuth c anchors e                                       -- :289-310
  let e := e.set_buffer BUFSIZE_BIDI true                               -- :315
  let e := e.inject_entropy seed                                        -- :320-321
  e.server_reset                                                        -- :329

/-! ### The anchors -/

open Key.Net in
/-- main_tlswrapper.c:1429-1440 with an anchor file `f`; none is `die`. -/
def loadAnchors {γ : Type} (allocOk : Nat → Bool) (parse : Bytes → Bytes → Option γ) (f : Bytes) : M (Option γ) := orFail do
  match Path.fixpath (f ++ [0]) with                                    -- :1433
  | .ub => fun n => .ub n
  | .ok mem =>
    let fn := mem.takeWhile (· ≠ 0)
    write (fn ++ [0])                                                   -- :1434
    let pub ← readalloc allocOk                                         -- :1435-1436
    match parse pub fn with                                             -- :1437
    | none => fail
    | some c => return c

open Key.Net in
/-- main_tlswrapper.c:1429-1440 and 1495 (tls_profile): the engine of a wrapper with this configuration, or `die`. -/
def setup (allocOk : Nat → Bool) (parse : Bytes → Bytes → Option Crt.Parsed) (c : Ctx) (seed : Bytes) : M (Option Server) :=
  match c.anchorfn with
  | none => pure (some (tls_profile c [] seed))
  | some f => do
    match ← loadAnchors allocOk parse f with
    | none => pure none
    | some p => pure (some (tls_profile c p.ta seed))

end Conf
