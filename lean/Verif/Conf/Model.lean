import Verif.Str.Model
import Verif.Num.Model
import Verif.Log.Model
/-
Model of the configuration of the wrapper: tls_version.c, tls_cipher.c, tls_ecdhe.c (the tables
and the add functions), tls_certfile.c, tls_anchor.c and the option parsing of main_tlswrapper.c.
The numeric codes are those of bearssl.h (the TLS registry values).
-/
namespace Conf

/-- tls_version.c:12-17: configuration name, code, description. -/
def tls_versions : List (Bytes × Nat × Bytes) :=
  [(b!"tls10", 0x0301, b!"TLS 1.0"),
   (b!"tls11", 0x0302, b!"TLS 1.1"),
   (b!"tls12", 0x0303, b!"TLS 1.2")]

/-- tls.h:120-126. -/
structure Cipher where
  name : Bytes
  ecsuite : Nat
  rsasuite : Nat
  eccomment : Bytes
  rsacomment : Bytes
  deriving Repr, DecidableEq

/-- tls_cipher.c:13-64. -/
def tls_ciphers : List Cipher :=
  [⟨b!"CHACHA20_POLY1305_SHA256", 0xCCA9, 0xCCA8,
    b!"ECDSA + ECDHE + ChaCha20+Poly1305 (TLS 1.2+)", b!"RSA + ECDHE + ChaCha20+Poly1305 (TLS 1.2+)"⟩,
   ⟨b!"AES_256_GCM_SHA384", 0xC02C, 0xC030,
    b!"ECDSA + ECDHE + AES256/GCM (TLS 1.2+)", b!"RSA + ECDHE + AES256/GCM (TLS 1.2+)"⟩,
   ⟨b!"AES_128_GCM_SHA256", 0xC02B, 0xC02F,
    b!"ECDSA + ECDHE + AES128/GCM (TLS 1.2+)", b!"RSA + ECDHE + AES128/GCM (TLS 1.2+)"⟩,
   ⟨b!"AES_256_CBC_SHA384", 0xC024, 0xC028,
    b!"ECDSA + ECDHE + AES256/CBC + SHA384 (TLS 1.2+)", b!"RSA + ECDHE + AES256/CBC + SHA384 (TLS 1.2+)"⟩,
   ⟨b!"AES_128_CBC_SHA256", 0xC023, 0xC027,
    b!"ECDSA + ECDHE + AES128/CBC + SHA256 (TLS 1.2+)", b!"RSA + ECDHE + AES128/CBC + SHA256 (TLS 1.2+)"⟩,
   ⟨b!"AES_256_CBC_SHA", 0xC00A, 0xC014,
    b!"ECDSA + ECDHE + AES256/CBC + SHA1", b!"RSA + ECDHE + AES256/CBC + SHA1"⟩,
   ⟨b!"AES_128_CBC_SHA", 0xC009, 0xC013,
    b!"ECDSA + ECDHE + AES128/CBC + SHA1", b!"RSA + ECDHE + AES128/CBC + SHA1"⟩]

/-- tls_ecdhe.c:13-22; `x448` is whether the program was compiled with X448. -/
def tls_ecdhes (x448 : Bool) : List (Bytes × Nat) :=
  [(b!"x25519", 29), (b!"secp256r1", 23), (b!"secp384r1", 24), (b!"secp521r1", 25)] ++
    (if x448 then [(b!"x448", 30)] else [])

/-- The fields of struct tls_context (tls.h:37-82) that options set, with the two static
`use_default` flags (tls_cipher.c:84, tls_ecdhe.c:43). Fixed-size arrays are the list of their used
entries; what lies behind those is not modelled. `flags` is split into its three bits. -/
structure Ctx where
  enforce_server_preferences : Bool
  no_renegotiation : Bool
  tolerate_no_client_auth : Bool
  version_min : Nat
  version_max : Nat
  ecdhe_enabled : Nat
  ecdhe_default : Bool
  cipher_enabled : List Nat
  cipher_default : Bool
  /-- name and whether it is a directory -/
  certfiles : List (Bytes × Bool)
  anchorfn : Option Bytes
  oid : Option Bytes
  flagdelayedenc : Bool
  jailaccount : Option Bytes
  jaildir : Bytes
  deriving Repr, DecidableEq

/-! ### Names and codes -/

/-- `str_equal(x, name)`, defined as `!str_diff(x, name)` (str.h); `x` is the memory of the string. -/
def str_equal (x name : Bytes) : Out Bool := do
  let r ← Str.str_diff x (name ++ [0])
  return decide (r = 0)

/-- The loops over a table looking for a name: the first entry with this name
(tls_cipher.c:128-136, tls_ecdhe.c:63-70, tls_version.c:52-58, 76-82). -/
def lookup {α} (nameOf : α → Bytes) (x : Bytes) : List α → Out (Option α)
  | [] => .ok none
  | e :: t => do
    if ← str_equal x (nameOf e) then return some e else lookup nameOf x t

/-- tls_version.c:27-35. -/
def tls_version_str (version : Nat) : Bytes :=
  match tls_versions.find? (fun e => e.2.1 == version) with
  | some e => e.2.2
  | none => b!"unknown version"

/-- tls_version.c:48-59. -/
def tls_version_setmin (c : Ctx) (x : Bytes) : Out (Bool × Ctx) := do
  match ← lookup (·.1) x tls_versions with
  | some e => return (true, { c with version_min := e.2.1 })
  | none => return (false, c)

/-- tls_version.c:72-83. -/
def tls_version_setmax (c : Ctx) (x : Bytes) : Out (Bool × Ctx) := do
  match ← lookup (·.1) x tls_versions with
  | some e => return (true, { c with version_max := e.2.1 })
  | none => return (false, c)

/-- tls_cipher.c:73-82. -/
def cipherStrLoop (s : Nat) : List Cipher → Bytes
  | [] => b!"unknown cipher"
  | e :: t => if e.ecsuite = s then e.eccomment else if e.rsasuite = s then e.rsacomment else cipherStrLoop s t

/-- tls_cipher.c:73-82. -/
def tls_cipher_str (s : Nat) : Bytes := cipherStrLoop s tls_ciphers

/-- tls_ecdhe.c:33-41. -/
def tls_ecdhe_str (x448 : Bool) (curve : Nat) : Bytes :=
  match (tls_ecdhes x448).find? (fun e => e.2 == curve) with
  | some e => e.1
  | none => b!"unknown"

/-! ### Ciphers and curves -/

/-- tls.h:81: entries of cipher_enabled. -/
def CIPHERS : Nat := 16

/-- `ctx->cipher_enabled[ctx->cipher_enabled_len++] = s` (tls_cipher.c:96-101, 157-158). -/
def push (l : List Nat) (s : Nat) : Out (List Nat) :=
  if l.length < CIPHERS then .ok (l ++ [s]) else .ub

/-- tls_cipher.c:94-102: the first three entries of the table. -/
def tls_cipher_defaults (c : Ctx) : Out Ctx := do
  let mut l : List Nat := []
  for e in tls_ciphers.take 3 do
    l ← push l e.ecsuite
    l ← push l e.rsasuite
  return { c with cipher_enabled := l }

/-- tls_cipher.c:117-162. -/
def tls_cipher_add (c : Ctx) (x : Bytes) : Out (Bool × Ctx) := do
  let c := if c.cipher_default then { c with cipher_enabled := [], cipher_default := false } else c   -- :123-126
  match ← lookup (·.name) x tls_ciphers with                                       -- :128-133
  | none => return (false, c)
  | some e =>
    let dup := c.cipher_enabled.any (fun s => s == e.ecsuite || s == e.rsasuite)     -- :139-149
    if dup = false then
      if CIPHERS < c.cipher_enabled.length + 2 then return (false, c)                -- :152-156
      else
        let l ← push c.cipher_enabled e.ecsuite                                      -- :157
        let l ← push l e.rsasuite                                                    -- :158
        return (true, { c with cipher_enabled := l })
    else return (true, c)

/-- tls_ecdhe.c:54-70. -/
def tls_ecdhe_add (x448 : Bool) (c : Ctx) (x : Bytes) : Out (Bool × Ctx) := do
  let c := if c.ecdhe_default then { c with ecdhe_enabled := 0, ecdhe_default := false } else c   -- :58-61
  match ← lookup (·.1) x (tls_ecdhes x448) with
  | none => return (false, c)
  | some e => return (true, { c with ecdhe_enabled := c.ecdhe_enabled ||| (1 <<< e.2) })     -- :65

/-! ### Certificate sources and the anchor -/

/-- tls.h:35. -/
def tls_CERTFILES : Nat := 4

/-- tls_certfile.c:20-31 and 42-53; `dir` distinguishes the two functions. -/
def tls_certfile_add (dir : Bool) (c : Ctx) (fn : Bytes) : Out (Bool × Ctx) :=
  if tls_CERTFILES ≤ c.certfiles.length then .ok (false, c)
  else if c.certfiles.length < tls_CERTFILES then .ok (true, { c with certfiles := c.certfiles ++ [(fn, dir)] })
  else .ub

/-- tls_anchor.c:19-24. -/
def tls_anchor_add (c : Ctx) (x : Bytes) : Bool × Ctx :=
  if c.anchorfn.isSome then (false, c) else (true, { c with anchorfn := some x })

/-! ### Options -/

/-- A computation of the program: a value, the end of the process, or undefined behaviour (control
flow of main_tlswrapper.c:302-526, 1135-1284). -/
inductive Res (α : Type u) where
  | ok (a : α)
  | exit (status : Nat)
  | ub
  deriving Repr, DecidableEq

namespace Res
/-- Sequencing of statements.  (control flow of main_tlswrapper.c:302-526, 1135-1284) -/
@[inline] def bind {α β} (x : Res α) (f : α → Res β) : Res β :=
  match x with
  | ok a => f a
  | exit s => exit s
  | ub => ub
instance : Monad Res where
  pure := Res.ok
  bind := Res.bind
/-- A library call (the calls of main_tlswrapper.c:302-526). -/
def lift {α} : Out α → Res α
  | .ok a => .ok a
  | .ub => .ub
end Res

/-- What stat reports about a path (tls_certfile.c:20-53 and the callers
main_tlswrapper.c:391-440). -/
inductive Kind where
  | reg
  | dir
  | other
  deriving Repr, DecidableEq

/-- What the options depend on: compilation with X448 and the file system (stat(2) as used by
main_tlswrapper.c:391-440; HASX448 of tls_ecdhe.c:13-25). -/
structure Env where
  x448 : Bool
  stat : Bytes → Option Kind

/-- The static variables of main_tlswrapper.c:37-67 and 291-292 that options set. -/
structure Opts where
  ctx : Ctx
  hstimeoutstr : Bytes
  timeoutstr : Bytes
  user : Option Bytes
  userfromcert : Option Bytes
  flagverbose : Int
  log_level : Int
  /-- incoming proxy protocol -/
  ppin : Bool
  deriving Repr, DecidableEq

/-- main_tlswrapper.c:302-318. -/
def pp_incoming (x : Bytes) (o : Opts) : Res Opts := do
  if ← .lift (str_equal (b!"0" ++ [0]) x) then return o
  else if ← .lift (str_equal (b!"1" ++ [0]) x) then return { o with ppin := true }
  else .exit 100

/-- main_tlswrapper.c:327-342. -/
def certuser_add (x : Bytes) (o : Opts) : Res Opts := do
  let o := { o with userfromcert := some x }
  if ← .lift (str_equal (b!"commonName" ++ [0]) x) then
    return { o with ctx := { o.ctx with oid := some [3, 85, 4, 3] } }
  else if ← .lift (str_equal (b!"emailAddress" ++ [0]) x) then
    return { o with ctx := { o.ctx with oid := some [9, 42, 134, 72, 134, 247, 13, 1, 9, 1] } }
  else .exit 100

/-- The callers of the add functions: a refusal ends the process (main_tlswrapper.c:351-505). -/
def orDie (o : Opts) (r : Out (Bool × Ctx)) : Res Opts := do
  let (ok, c) ← .lift r
  if ok then return { o with ctx := c } else .exit 100

/-- main_tlswrapper.c:351-362. -/
def version_setmax (x : Bytes) (o : Opts) : Res Opts := orDie o (tls_version_setmax o.ctx (x ++ [0]))
/-- main_tlswrapper.c:371-382. -/
def version_setmin (x : Bytes) (o : Opts) : Res Opts := orDie o (tls_version_setmin o.ctx (x ++ [0]))

/-- main_tlswrapper.c:391-408. -/
def certfile_add_dir (E : Env) (x : Bytes) (o : Opts) : Res Opts :=
  match E.stat x with
  | none => .exit 100
  | some k => if k ≠ .dir then .exit 100 else orDie o (tls_certfile_add true o.ctx x)

/-- main_tlswrapper.c:418-435. -/
def certfile_add_file (E : Env) (x : Bytes) (o : Opts) : Res Opts :=
  match E.stat x with
  | none => .exit 100
  | some k => if k ≠ .reg then .exit 100 else orDie o (tls_certfile_add false o.ctx x)

/-- main_tlswrapper.c:445-461. -/
def anchor_add (E : Env) (x : Bytes) (o : Opts) : Res Opts :=
  match E.stat x with
  | none => .exit 100
  | some k => if k ≠ .reg then .exit 100 else orDie o (.ok (tls_anchor_add o.ctx x))

/-- main_tlswrapper.c:471-482. -/
def ecdhe_add (E : Env) (x : Bytes) (o : Opts) : Res Opts := orDie o (tls_ecdhe_add E.x448 o.ctx (x ++ [0]))
/-- main_tlswrapper.c:492-503. -/
def cipher_add (x : Bytes) (o : Opts) : Res Opts := orDie o (tls_cipher_add o.ctx (x ++ [0]))

/-- main_tlswrapper.c:512-519. -/
def timeout_parse (x : Bytes) : Res Int := do
  let (r, v) ← .lift (Num.parsenum 1 86400 (some (x ++ [0])))
  if r = 0 then .exit 100 else return v

/-- main_tlswrapper.c:1186-1192 and 1268-1269: the options without argument; `none` for other
characters. (Overflow of flagverbose, after 2^31 times 'v', is not modelled.) -/
def flagOpt (c : Byte) (o : Opts) : Option Opts :=
  if c = c! 'q' then some { o with flagverbose := 0, log_level := Log.set_level 0 }
  else if c = c! 'Q' then some { o with flagverbose := 1, log_level := Log.set_level 1 }
  else if c = c! 'v' then some { o with flagverbose := o.flagverbose + 1, log_level := Log.set_level (o.flagverbose + 1) }
  else if c = c! 's' then some { o with ctx := { o.ctx with enforce_server_preferences := true } }
  else if c = c! 'S' then some { o with ctx := { o.ctx with enforce_server_preferences := false } }
  else if c = c! 'n' then some { o with ctx := { o.ctx with flagdelayedenc := true } }
  else if c = c! 'N' then some { o with ctx := { o.ctx with flagdelayedenc := false } }
  else none

/-- main_tlswrapper.c:1195-1266: the options with an argument; `none` for other characters. -/
def argOpt (E : Env) (c : Byte) : Option (Bytes → Opts → Res Opts) :=
  if c = c! 'p' then some pp_incoming
  else if c = c! 'U' then some certuser_add
  else if c = c! 'u' then some (fun x o => .ok { o with user := some x })
  else if c = c! 'm' then some version_setmin
  else if c = c! 'M' then some version_setmax
  else if c = c! 'T' then some (fun x o => .ok { o with hstimeoutstr := x })
  else if c = c! 't' then some (fun x o => .ok { o with timeoutstr := x })
  else if c = c! 'd' then some (certfile_add_dir E)
  else if c = c! 'f' then some (certfile_add_file E)
  else if c = c! 'a' then some (fun x o =>
    anchor_add E x { o with ctx := { o.ctx with tolerate_no_client_auth := false } })     -- :1241
  else if c = c! 'e' then some (ecdhe_add E)
  else if c = c! 'c' then some cipher_add
  else if c = c! 'J' then some (fun x o => .ok { o with ctx := { o.ctx with jaildir := x } })
  else if c = c! 'j' then some (fun x o => .ok { o with ctx := { o.ctx with jailaccount := some x } })
  else none

/-- main_tlswrapper.c:1185-1272: the characters of one word after the dash; `args` is what
follows the word on the command line. Strings are their contents without the terminator. -/
def cluster (E : Env) : Bytes → List Bytes → Opts → Res (Opts × List Bytes)
  | [], args, o => .ok (o, args)
  | c :: w, args, o =>
    match flagOpt c o with
    | some o => cluster E w args o
    | none =>
      match argOpt E c with
      | none => .exit 100                                            -- :1271
      | some f =>
        if w ≠ [] then do return (← f w o, args)
        else match args with
          | v :: args => do return (← f v o, args)
          | [] => .exit 100                                          -- falls through to :1271

theorem cluster_length (E : Env) (w : Bytes) (args : List Bytes) (o o' : Opts) (args' : List Bytes)
    (h : cluster E w args o = .ok (o', args')) : args'.length ≤ args.length := by
  induction w generalizing o with
  | nil => simp only [cluster, Res.ok.injEq, Prod.mk.injEq] at h; rw [h.2]; exact Nat.le_refl _
  | cons c w ih =>
    rw [cluster] at h
    split at h
    · exact ih _ h
    · split at h
      · simp at h
      · rename_i f _
        split at h
        · cases hf : f w o <;> simp only [hf, bind, Res.bind, pure] at h <;> simp at h
          rw [h.2]; exact Nat.le_refl _
        · split at h
          · rename_i v args1
            cases hf : f v o <;> simp only [hf, bind, Res.bind, pure] at h <;> simp at h
            rw [← h.2]; simp
          · simp at h

/-- main_tlswrapper.c:1179-1273: `args` are the arguments after argv[0]; the result holds
the remaining ones. -/
def options (E : Env) (args : List Bytes) (o : Opts) : Res (Opts × List Bytes) :=
  match args with
  | [] => .ok (o, [])                                                -- :1180
  | a :: args =>
    if a.head? ≠ some (c! '-') then .ok (o, a :: args)               -- :1181
    else if a = b!"-" then .ok (o, args)                             -- :1183
    else if a = b!"--" then .ok (o, args)                            -- :1184
    else
      match h : cluster E (a.drop 1) args o with
      | .ok (o, args) => options E args o
      | .exit s => .exit s
      | .ub => .ub
termination_by args.length
decreasing_by
  have := cluster_length _ _ _ _ _ _ h
  simp; omega

/-- main_tlswrapper.c:37-67: the initial values; `emptydir` is the compiled-in jail directory. -/
def initial (emptydir : Bytes) : Opts where
  ctx :=
    { enforce_server_preferences := true
      no_renegotiation := true
      tolerate_no_client_auth := false
      version_min := 0x0303
      version_max := 0x0303
      ecdhe_enabled := (1 <<< 29) ||| (1 <<< 23)
      ecdhe_default := true
      cipher_enabled := []
      cipher_default := true
      certfiles := []
      anchorfn := none
      oid := none
      flagdelayedenc := false
      jailaccount := none
      jaildir := emptydir }
  hstimeoutstr := b!"30"
  timeoutstr := b!"60"
  user := none
  userfromcert := none
  flagverbose := 1
  log_level := 1
  ppin := false

/-- What the program goes on with (the settings after main_tlswrapper.c:1284). -/
structure Started where
  opts : Opts
  prog : List Bytes
  timeout : Int
  hstimeout : Int
  deriving Repr, DecidableEq

/-- main_tlswrapper.c:1175-1279. -/
def start (E : Env) (emptydir : Bytes) (argv : List Bytes) : Res Started := do
  let o := initial emptydir
  let c ← .lift (tls_cipher_defaults o.ctx)                          -- :1175
  let o := { o with ctx := c }
  match argv with
  | [] => .exit 100                                                  -- :1178
  | _ :: args =>
    let (o, prog) ← options E args o
    if prog = [] then .exit 100                                      -- :1274
    else if o.ctx.certfiles = [] then .exit 100                      -- :1275
    else if o.userfromcert.isSome ∧ o.ctx.anchorfn.isNone then .exit 100   -- :1276
    else if o.userfromcert.isSome ∧ o.ctx.flagdelayedenc = true then .exit 100   -- :1277
    else
      let timeout ← timeout_parse o.timeoutstr                       -- :1278
      let hstimeout ← timeout_parse o.hstimeoutstr                   -- :1279
      return ⟨o, prog, timeout, hstimeout⟩

end Conf
