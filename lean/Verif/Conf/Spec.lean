import Verif.Num.Spec
/-
What the configuration of the wrapper means, independent of the code: names, the shape of a
command line, and what each option contributes.
-/
namespace Conf.Spec

/-! ### Names -/

/-- TLS versions by configuration name (RFC 2246, 4346, 5246). -/
def version : Bytes → Option Nat := fun x =>
  if x = b!"tls10" then some 0x0301
  else if x = b!"tls11" then some 0x0302
  else if x = b!"tls12" then some 0x0303
  else none

/-- Named groups by configuration name (RFC 8422). -/
def curve (x448 : Bool) : Bytes → Option Nat := fun x =>
  if x = b!"x25519" then some 29
  else if x = b!"secp256r1" then some 23
  else if x = b!"secp384r1" then some 24
  else if x = b!"secp521r1" then some 25
  else if x448 ∧ x = b!"x448" then some 30
  else none

/-- Cipher suites by configuration name: the variant for ECDSA certificates and the one
for RSA certificates (RFC 5289, 7905, 8422). -/
def cipher : Bytes → Option (Nat × Nat) := fun x =>
  if x = b!"CHACHA20_POLY1305_SHA256" then some (0xCCA9, 0xCCA8)
  else if x = b!"AES_256_GCM_SHA384" then some (0xC02C, 0xC030)
  else if x = b!"AES_128_GCM_SHA256" then some (0xC02B, 0xC02F)
  else if x = b!"AES_256_CBC_SHA384" then some (0xC024, 0xC028)
  else if x = b!"AES_128_CBC_SHA256" then some (0xC023, 0xC027)
  else if x = b!"AES_256_CBC_SHA" then some (0xC00A, 0xC014)
  else if x = b!"AES_128_CBC_SHA" then some (0xC009, 0xC013)
  else none

/-- The names without repetitions, each at its first appearance. -/
def firsts : List Bytes → List Bytes
  | [] => []
  | x :: l => x :: (firsts l).filter (· ≠ x)

/-- The suites for a sequence of cipher names: both variants of each name. -/
def suites (names : List Bytes) : List Nat :=
  (firsts names).flatMap (fun x => match cipher x with
    | some (e, r) => [e, r]
    | none => [])

/-- The suites enabled when no cipher is configured. -/
def defaultSuites : List Nat := [0xCCA9, 0xCCA8, 0xC02C, 0xC030, 0xC02B, 0xC02F]

/-! ### Command lines -/

/-- An option as the user means it. -/
inductive Opt where
  | flag (c : Byte)
  | arg (c : Byte) (v : Bytes)
  deriving Repr, DecidableEq

/-- The letters of the options without argument, and with one. -/
def flags : Bytes := b!"qQvsSnN"
def withArg : Bytes := b!"pUumMTtdfaecJj"

/-- `Word w args opts args'`: the letters `w` of one word, followed on the command line by `args`,
mean the options `opts` and leave `args'`. -/
inductive Word : Bytes → List Bytes → List Opt → List Bytes → Prop where
  | done {args} : Word [] args [] args
  | flag {c w args opts args'} : c ∈ flags → Word w args opts args' → Word (c :: w) args (.flag c :: opts) args'
  | attached {c w args} : c ∈ withArg → w ≠ [] → Word (c :: w) args [.arg c w] args
  | separate {c v args} : c ∈ withArg → Word [c] (v :: args) [.arg c v] args

/-- `Reads args opts prog`: the arguments mean the options `opts` followed by the command `prog`. -/
inductive Reads : List Bytes → List Opt → List Bytes → Prop where
  | empty : Reads [] [] []
  | prog {a args} : a.head? ≠ some (c! '-') → Reads (a :: args) [] (a :: args)
  | dash {args} : Reads (b!"-" :: args) [] args
  | dashes {args} : Reads (b!"--" :: args) [] args
  | word {w args opts args' opts' prog} : w ≠ [] → w ≠ b!"-" → Word w args opts args' → Reads args' opts' prog →
      Reads ((c! '-' :: w) :: args) (opts ++ opts') prog

/-- The arguments given for option `c`, in order. -/
def values (c : Byte) (opts : List Opt) : List Bytes :=
  opts.filterMap (fun | .arg d v => if d = c then some v else none | .flag _ => none)

/-- The argument given last. -/
def last (c : Byte) (opts : List Opt) : Option Bytes := (values c opts).getLast?

/-- Of the two flags `y` and `n`, the one given last decides. -/
def switch (y n : Byte) (d : Bool) (opts : List Opt) : Bool :=
  match (opts.filter (fun o => o = .flag y ∨ o = .flag n)).getLast? with
  | none => d
  | some o => decide (o = .flag y)

/-- The certificate sources in order; the mark is "directory". -/
def certs (opts : List Opt) : List (Bytes × Bool) :=
  opts.filterMap (fun
    | .arg c v => if c = c! 'd' then some (v, true) else if c = c! 'f' then some (v, false) else none
    | .flag _ => none)

/-- Verbosity after the flags: 'q' sets 0, 'Q' sets 1, 'v' adds one. -/
def verbosity (opts : List Opt) : Nat :=
  opts.foldl (fun n o => if o = .flag (c! 'q') then 0 else if o = .flag (c! 'Q') then 1
    else if o = .flag (c! 'v') then n + 1 else n) 1

/-- A time limit: a numeral for 1..86400. -/
def Limit (x : Bytes) (v : Int) : Prop := Num.Spec.Denotes x v ∧ 1 ≤ v ∧ v ≤ 86400

/-- Each option by itself is acceptable. `isDir` and `isReg` say what the file system holds. -/
structure Valid (x448 : Bool) (isDir isReg : Bytes → Prop) (opts : List Opt) : Prop where
  proxy : ∀ v ∈ values (c! 'p') opts, v = b!"0" ∨ v = b!"1"
  certuser : ∀ v ∈ values (c! 'U') opts, v = b!"commonName" ∨ v = b!"emailAddress"
  min : ∀ v ∈ values (c! 'm') opts, (version v).isSome
  max : ∀ v ∈ values (c! 'M') opts, (version v).isSome
  dir : ∀ v ∈ values (c! 'd') opts, isDir v
  file : ∀ v ∈ values (c! 'f') opts, isReg v
  anchor : ∀ v ∈ values (c! 'a') opts, isReg v
  curves : ∀ v ∈ values (c! 'e') opts, (curve x448 v).isSome
  ciphers : ∀ v ∈ values (c! 'c') opts, (cipher v).isSome
  atMost : (values (c! 'd') opts).length + (values (c! 'f') opts).length ≤ 4
  oneAnchor : (values (c! 'a') opts).length ≤ 1

/-- The options together make a configuration that may be served. -/
structure Allowed (opts : List Opt) : Prop where
  cert : values (c! 'd') opts ≠ [] ∨ values (c! 'f') opts ≠ []
  userNeedsAnchor : values (c! 'U') opts ≠ [] → values (c! 'a') opts ≠ []
  userNotDelayed : values (c! 'U') opts ≠ [] → switch (c! 'n') (c! 'N') false opts = false
  timeout : ∃ v, Limit ((last (c! 't') opts).getD b!"60") v
  hstimeout : ∃ v, Limit ((last (c! 'T') opts).getD b!"30") v

end Conf.Spec
