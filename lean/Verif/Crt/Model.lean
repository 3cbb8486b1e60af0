import Verif.Crt.Spec
import Verif.Stralloc.Model
/-
Model of tls_pubcrt.c and tls_seccrt.c. BearSSL's PEM decoder is the list of its reports, one for each
call of br_pem_decoder_push with the event asked for after it; its certificate decoder and private key decoder are functions
of the bytes pushed into them. str_equal(x, y) is equality of the names (Str, C01). Log output and the final
randombytes() over the decoders are left out.
-/
namespace Crt
open Stralloc

/-- Continue unless `goto cleanup` (`none`) (e.g. tls_pubcrt.c:115, 128, 137). -/
def andThen {α β : Type} (x : Out (Option α)) (f : α → Out (Option β)) : Out (Option β) :=
  match x with
  | .ub => .ub
  | .ok none => .ok none
  | .ok (some a) => f a

/-- tls_pubcrt.c:31-39; the copy and the allocator's further answers. -/
def xmemdup (src : Option Bytes) (len : Nat) (ans : List Bool) : Out (Option (Bytes × List Bool)) :=
  match allocate len ans with
  | (none, _) => .ok none
  | (some buf, ans) =>
    match copyN buf 0 (src.getD []) len with
    | .ub => .ub
    | .ok buf => .ok (some (buf, ans))

/-- struct sa, tls_pubcrt.c:41-46: the bytes, and whether an error was stored; with the allocator's answers. -/
structure Sa where
  s : SA
  error : Bool
  ans : List Bool

/-- tls_pubcrt.c:58-72, for each piece handed over. -/
def append (x : Sa) : List Bytes → Out Sa
  | [] => .ok x
  | c :: cs =>
    if x.error then append x cs
    else
      match catb x.s (some c) c.length x.ans with
      | .ub => .ub
      | .ok (ok, s, ans) => append ⟨s, decide (ok = 0), ans⟩ cs

/-- tls.h:9. -/
def MAX : Nat := 16

/-- The variables of tls_pubcrt_parse, and `*crt` up to crtlen and talen; `dest`: decoded bytes go
to `sa` (tls_pubcrt.c:92-106). -/
structure Pub where
  inobj : Bool
  dest : Bool
  sa : Sa
  crt : List Bytes
  ta : List Anchor
  keyType : Option Kt

/-- tls_pubcrt.c:188-222: the key is copied; `n`: number of certificates before. -/
def keyOf (pk : Pkey) (ans : List Bool) : Out (Option (Pkey × List Bool)) :=
  match pk with
  | .ec curve q => andThen (xmemdup (some q) q.length ans) fun r => .ok (some (.ec curve r.1, r.2))
  | .rsa n e =>
    andThen (xmemdup (some n) n.length ans) fun r1 =>
    andThen (xmemdup (some e) e.length r1.2) fun r2 => .ok (some (.rsa r1.1 r2.1, r2.2))
  | .other _ => .ok none

/-- Writing element `l.length` of an array of 16 (tls_pubcrt.c:153-154, 180-206). -/
def store {α : Type} (l : List α) (a : α) : Out (List α) := if l.length < MAX then .ok (l ++ [a]) else .ub

/-- tls_pubcrt.c:181-237: the anchor, after the certificate was decoded as `x` and its name put into `sa`. -/
def anchor (p : Pub) (data : Bytes) (x : X509) (sa : Sa) : Out (Option Pub) :=
  if sa.error then .ok none                                             -- :162-167
  else if x.err ≠ 0 then .ok none                                       -- :169-174
  else
    match x.pkey with
    | none => .ok none                                                  -- :177-181
    | some pk =>
      andThen (xmemdup sa.s.s sa.s.len sa.ans) fun dn =>                -- :182
      andThen (keyOf pk dn.2) fun k =>
        match store p.crt data, store p.ta ⟨dn.1, x.ca, k.1⟩ with
        | .ok crt, .ok ta =>
          let kt := if p.crt.length = 0 then k.1.type else p.keyType    -- :198, :212
          .ok (some { p with sa := { sa with ans := k.2 }, crt := crt, ta := ta, keyType := kt })
        | _, _ => .ub

/-- tls_pubcrt.c:152-237. -/
def endCert (x509 : Bytes → X509) (p : Pub) : Out (Option Pub) :=
  if MAX ≤ p.crt.length then .ub                                        -- crt->crt[crt->crtlen]
  else
    andThen (xmemdup p.sa.s.s p.sa.s.len p.sa.ans) fun d =>             -- :153
    match append ⟨{ p.sa.s with len := 0 }, p.sa.error, d.2⟩ (x509 d.1).dn with     -- :156-159
    | .ub => .ub
    | .ok sa => anchor p d.1 (x509 d.1) sa

/-- tls_pubcrt.c:121-139. -/
def onBegin (p : Pub) (n : Bytes) : Option Pub :=
  if p.inobj then none
  else if isCert n then
    if p.crt.length ≥ MAX then none                                     -- :133-136
    else some { p with inobj := true, dest := true, sa := { p.sa with s := { p.sa.s with len := 0 } } }
  else some { p with inobj := true, dest := false }

/-- tls_pubcrt.c:120-241. -/
def event (x509 : Bytes → X509) (p : Pub) : Ev → Out (Option Pub)
  | .none => .ok (some p)
  | .begin n => .ok (onBegin p n)
  | .fin n =>
    if p.inobj = false then .ok none                                    -- :144-147
    else if isCert n then endCert x509 { p with inobj := false }
    else .ok (some { p with inobj := false })
  | .error => .ok none

/-- br_pem_decoder_push: the decoded bytes go to the destination set last (tls_pubcrt.c:111,
tls_seccrt.c:49). -/
def deliver (p : Pub) (cs : List Bytes) : Out Pub :=
  if p.dest then
    match append p.sa cs with
    | .ub => .ub
    | .ok sa => .ok { p with sa := sa }
  else .ok p

/-- tls_pubcrt.c:108-242, the loop. -/
def pubLoop (x509 : Bytes → X509) (p : Pub) : List Push → Out (Option Pub)
  | [] => .ok (some p)
  | x :: xs =>
    match deliver p x.chunks with
    | .ub => .ub
    | .ok p => if p.sa.error then .ok none                              -- :110-114
      else andThen (event x509 p x.ev) fun p => pubLoop x509 p xs

/-- The result: key_type, the chain and the anchors (tls_pubcrt.c:241-253). -/
structure Parsed where
  keyType : Option Kt
  crt : List Bytes
  ta : List Anchor
  deriving Repr, DecidableEq

/-- tls_pubcrt.c:92-253: `none` is the return value 0. -/
def tls_pubcrt_parse (x509 : Bytes → X509) (ps : List Push) (ans : List Bool) : Out (Option Parsed) :=
  andThen (pubLoop x509 ⟨false, false, ⟨SA.zero, false, ans⟩, [], [], none⟩ ps) fun p =>
    if p.inobj then .ok none                                            -- :244-247
    else if p.crt.length = 0 then .ok none                              -- :249-252
    else .ok (some ⟨p.keyType, p.crt, p.ta⟩)

/-! ### private keys -/

/-- What the TLS library's private key decoder says about the bytes pushed since its
initialisation: an error, or a key. Before it is
initialised (all zero) it reports no key type and no error (tls_seccrt.c:18-20, 68-72, 89-104). -/
structure Skey (κ : Type) where
  err : Bytes → Nat
  /-- br_skey_decoder_key_type: none is 0 -/
  type : Bytes → Option Nat
  key : Bytes → κ

/-- BearSSL's key types (tls_pubcrt.c:199, tls_seccrt.c:97). -/
def RSA : Nat := 1
/-- BR_KEYTYPE_EC (tls_pubcrt.c:189, tls_seccrt.c:103). -/
def EC : Nat := 2

/-- The variables of tls_seccrt_parse, and `*crt`. `keydc`: none when still zero. `dest`: decoded
bytes go to keydc (tls_seccrt.c:33-45). -/
structure Sec (κ : Type) where
  inobj : Bool
  dest : Bool
  keydc : Option Bytes
  keyType : Nat
  key : Option κ

/-- tls_seccrt.c:56-78. -/
def secBegin {κ : Type} (K : Skey κ) (p : Sec κ) (n : Bytes) : Option (Sec κ) :=
  if p.inobj then none
  else if isKey n then
    if (p.keydc.bind K.type).isSome then none                           -- :69-72
    else some { p with inobj := true, dest := true, keydc := some [] }
  else some { p with inobj := true, dest := false }

/-- tls_seccrt.c:86-115. -/
def endKey {κ : Type} (K : Skey κ) (p : Sec κ) : Option (Sec κ) :=
  match p.keydc with
  | none => none                                                        -- zeroed decoder: no key type (:112)
  | some d =>
    if K.err d ≠ 0 then none                                            -- :92-96
    else
      match K.type d with
      | none => none
      | some t => if t = RSA ∨ t = EC then some { p with keyType := t, key := some (K.key d) } else none

/-- tls_seccrt.c:55-121. -/
def secEvent {κ : Type} (K : Skey κ) (p : Sec κ) : Ev → Option (Sec κ)
  | .none => some p
  | .begin n => secBegin K p n
  | .fin n =>
    if p.inobj = false then none
    else if isKey n then endKey K { p with inobj := false }
    else some { p with inobj := false }
  | .error => none

/-- tls_seccrt.c:19-21. -/
def secDeliver {κ : Type} (p : Sec κ) (cs : List Bytes) : Sec κ :=
  if p.dest then { p with keydc := p.keydc.map (· ++ cs.flatten) } else p

/-- tls_seccrt.c:48-122. -/
def secLoop {κ : Type} (K : Skey κ) (p : Sec κ) : List Push → Option (Sec κ)
  | [] => some p
  | x :: xs =>
    match secEvent K (secDeliver p x.chunks) x.ev with
    | none => none
    | some p => secLoop K p xs

/-- tls_seccrt.c:33-138: `none` is the return value 0. -/
def tls_seccrt_parse {κ : Type} (K : Skey κ) (ps : List Push) : Option (Nat × κ) :=
  match secLoop K ⟨false, false, none, 0, none⟩ ps with
  | none => none
  | some p => if p.inobj then none else p.key.map (p.keyType, ·)

end Crt
