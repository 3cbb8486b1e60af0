import Verif.Pipe.Spec
import Verif.Pem.Spec
import Verif.Path.Spec
import Verif.Ec.Spec
import Verif.Key.Model
/-
Specification of the key process's protocol, as an automaton over what the
process does. Only the vocabulary (`Act`, `Agreement`) is shared with the model.
-/
namespace Key.Spec
open Pem Ec.Spec

/-- The file name in a request: the message without its last byte, up to the first
NUL, sanitised. -/
def name (m : Bytes) : Bytes := Path.Spec.undot (Path.Spec.collapse (m.dropLast.takeWhile (· ≠ 0)))

/-- Value of a native integer in a request. -/
def int (m : Bytes) : Nat := m.foldr (fun b n => b.toNat + 256 * n) 0

/-- Where the protocol is. `sec` is the private part of the file loaded last (none:
there is none). -/
inductive Phase where
  /-- before the jail: waiting for a file name -/
  | names (sec : Option Bytes)
  /-- a file name arrived -/
  | named (m : Bytes)
  /-- the file was loaded: public and private part, or not -/
  | loaded (r : Option (Bytes × Bytes))
  /-- the end of the names was announced -/
  | ended (sec : Option Bytes)
  /-- confined: waiting for a curve -/
  | jailed (sec : Option Bytes)
  | curve (sec : Option Bytes) (c : Nat)
  /-- key generation or agreement failed, or an unknown operation was requested:
  nothing more happens -/
  | refused
  /-- the scalar `x` was generated: not yet announced -/
  | keyed (sec : Option Bytes) (c : Curve) (x : Bytes)
  /-- waiting for the signature request -/
  | point (sec : Option Bytes) (c : Curve) (x : Bytes)
  | hash (sec : Option Bytes) (c : Curve) (x : Bytes) (h : Byte)
  | size (sec : Option Bytes) (c : Curve) (x : Bytes) (h : Byte) (n : Nat)
  | digest (sec : Option Bytes) (c : Curve) (x : Bytes) (h : Byte) (d : Bytes)
  | signed (c : Curve) (x : Bytes)
  /-- waiting for the peer's point and the five parameters of the session; `ms`
  are those that arrived -/
  | params (c : Curve) (x : Bytes) (ms : List Bytes)
  /-- the shared secret is known -/
  | agreed (suite : Nat)
  /-- the session's keys are installed -/
  | serving
  /-- a PRF request, with the fields that arrived -/
  | prf (ms : List Bytes)
  /-- an answer of this many bytes is due -/
  | prfDone
  /-- a decryption request, with the fields that arrived -/
  | dec (ms : List Bytes)
  | decDone
  | enc (ms : List Bytes)
  | encDone
  /-- the offset was sent: the data is due -/
  | data

/-- Required length of the parameters of a session. -/
def paramLen (plen i : Nat) : Nat := [plen, 32, 2, 2, 32, 32].getD i 0

/-- The cipher suites: code point (RFC 8422, 5289, 7905), hash of the PRF (2: SHA-1
stands for the PRF of TLS 1.0 or the default of TLS 1.2, 4: SHA-256, 5: SHA-384),
record protection. -/
def suites : List (Nat × Nat × Kind) :=
  [(0xCCA9, 4, .chapol), (0xCCA8, 4, .chapol),
   (0xC02B, 4, .gcm 16), (0xC02F, 4, .gcm 16), (0xC02C, 5, .gcm 32), (0xC030, 5, .gcm 32),
   (0xC023, 4, .cbc 16), (0xC027, 4, .cbc 16), (0xC024, 5, .cbc 32), (0xC028, 5, .cbc 32),
   (0xC009, 2, .cbc 16), (0xC013, 2, .cbc 16), (0xC00A, 2, .cbc 32), (0xC014, 2, .cbc 32)]

/-- The steps of the protocol. `nojail`: the administrator switched the jail off. -/
inductive Step (nojail : Bool) : Phase → Act → Phase → Prop where
  | name {k m} : m ≠ [] → m.length ≤ 1024 → Step nojail (.names k) (.got m) (.named m)
  | load {m d P S} : Selected (usable d) P (InCert (usable d)) → Selected (usable d) S (fun i => ¬ InCert (usable d) i) →
      Step nojail (.named m) (.load (name m) (some d)) (.loaded (some (text P, text S)))
  | noload {m} : Step nojail (.named m) (.load (name m) none) (.loaded none)
  | pub {pub sec} : Step nojail (.loaded (some (pub, sec))) (.sent pub) (.names (some sec))
  | nopub {e} : Step nojail (.loaded none) (.errno e) (.names none)
  | ended {k} : Step nojail (.names k) (.got []) (.ended k)
  | jail {k} : nojail = false → Step nojail (.ended k) .jail (.jailed k)
  | curve {k b} : Step nojail (.jailed k) (.got [b]) (.curve k b.toNat)
  | curveUnjailed {k b} : nojail = true → Step nojail (.ended k) (.got [b]) (.curve k b.toNat)
  | keygen {k c x} : c ∈ Ec.Spec.curves true → Ec.Spec.Scalar c x → Step nojail (.curve k c.id) (.keygen c.id [.gen c.id x] true) (.keyed k c x)
  | keygenFails {k c x} : Step nojail (.curve k c) (.keygen c [.gen c x] false) .refused
  | refuse {k n} : Step nojail (.curve k n) (.keygen n [] false) .refused
  | point {k c x y} : y.length = c.point → Step nojail (.keyed k c x) (.sent y) (.point k c x)
  | hash {k c x b} : Step nojail (.point k c x) (.got [b]) (.hash k c x b)
  | size {k c x h m} : m.length = 8 → Step nojail (.hash k c x h) (.got m) (.size k c x h (int m))
  | digest {k c x h l d} : d.length ≤ l → l ≤ 2048 → Step nojail (.size k c x h l) (.got d) (.digest k c x h d)
  | sign {k c x h d} : Step nojail (.digest k c x h d) (.sign (k.getD []) h d) (.signed c x)
  | signed {c x y} : y.length ≤ 2048 → Step nojail (.signed c x) (.sent y) (.params c x [])
  | param {c x ms m} : ms.length < 6 → m.length = paramLen c.point ms.length →
      Step nojail (.params c x ms) (.got m) (.params c x (ms ++ [m]))
  | agree {c x pk sid ver suite cr sr} :
      Step nojail (.params c x [pk, sid, ver, suite, cr, sr])
        (.agree c.id [.mul c.id pk x] ⟨sid, int ver, int suite, cr, sr⟩ true) (.agreed (int suite))
  | agreeFails {c x pk sid ver suite cr sr} :
      Step nojail (.params c x [pk, sid, ver, suite, cr, sr])
        (.agree c.id [.mul c.id pk x] ⟨sid, int ver, int suite, cr, sr⟩ false) .refused
  | install {s prf kind} : (s, prf, kind) ∈ suites → Step nojail (.agreed s) (.install prf kind) .serving
  | askPrf : Step nojail .serving (.got [0]) (.prf [])
  | askDec : Step nojail .serving (.got [1]) (.dec [])
  | askEnc : Step nojail .serving (.got [2]) (.enc [])
  | askOther {b} : 2 < b.toNat → Step nojail .serving (.got [b]) .refused
  | label {m} : m.length = 16 → Step nojail (.prf []) (.got m) (.prf [m])
  | seedLen {a m} : m.length = 8 → Step nojail (.prf [a]) (.got m) (.prf [a, m])
  | seed {a b m} : m.length ≤ int b → int b ≤ 48 → Step nojail (.prf [a, b]) (.got m) (.prf [a, b, m])
  | prf {a b c} : Step nojail (.prf [a, b, c]) (.prf a c) .prfDone
  | prfSent {x} : x.length = 12 → Step nojail .prfDone (.sent x) .serving
  | decType {m} : m.length = 4 → Step nojail (.dec []) (.got m) (.dec [m])
  | decVersion {a m} : m.length = 4 → Step nojail (.dec [a]) (.got m) (.dec [a, m])
  | decData {a b m} : m.length ≤ 16709 → Step nojail (.dec [a, b]) (.got m) (.dec [a, b, m])
  | dec {a b c} : Step nojail (.dec [a, b, c]) (.decrypt (int a) (int b) c) .decDone
  | decOff {b} : -64 ≤ schar b → schar b ≤ 64 → Step nojail .decDone (.sent [b]) .data
  | encType {m} : m.length = 4 → Step nojail (.enc []) (.got m) (.enc [m])
  | encVersion {a m} : m.length = 4 → Step nojail (.enc [a]) (.got m) (.enc [a, m])
  | encData {a b m} : m.length ≤ 16709 → Step nojail (.enc [a, b]) (.got m) (.enc [a, b, m])
  | enc {a b c} : Step nojail (.enc [a, b, c]) (.encrypt (int a) (int b) c) .encDone
  | encOff {b} : -64 ≤ schar b → schar b ≤ 64 → Step nojail .encDone (.sent [b]) .data
  | data {x} : x.length ≤ 16773 → Step nojail .data (.sent x) .serving

/-- What the process did so far takes the protocol from its start to phase `q`. -/
inductive Trace (nojail : Bool) : List Act → Phase → Prop where
  | start : Trace nojail [] (.names none)
  | step {l p a q} : Trace nojail l p → Step nojail p a q → Trace nojail (l ++ [a]) q

end Key.Spec

namespace Key.Spec
open Pipe.Spec

/-- The requests that arrived. -/
def gots (l : List Act) : List Bytes := l.filterMap fun a => match a with | .got m => some m | _ => none

/-- `g` is the encoding of the answers in `l`: a frame for data; for an error the
eight bytes of the negative number. -/
inductive Answers : Bytes → List Act → Prop where
  | nil : Answers [] []
  | sent {g l f m} : Answers g l → Frame f m → Answers (g ++ f) (l ++ [.sent m])
  | errno {g l e} (f : Bytes) : Answers g l → f.length = 8 → (le f : Int) = (-e) % 2 ^ 64 → Answers (g ++ f) (l ++ [.errno e])
  | other {g l a} : Answers g l → (∀ m, a ≠ .sent m) → (∀ e, a ≠ .errno e) → Answers g (l ++ [a])

end Key.Spec

namespace Key.Spec
open Pem

def isKeygen : Act → Bool | .keygen .. => true | _ => false
def isSign : Act → Bool | .sign .. => true | _ => false
def isAgree : Act → Bool | .agree .. => true | _ => false
def isInstall : Act → Bool | .install .. => true | _ => false
def isJail : Act → Bool | .jail => true | _ => false
def isLoad : Act → Bool | .load .. => true | _ => false
/-- The session's keys are used. -/
def isUse : Act → Bool | .prf .. => true | .decrypt .. => true | .encrypt .. => true | _ => false

/-- `sec` is the private part (the lines outside certificate blocks) of the content;
nothing if there is no content. -/
def Private (content : Option Bytes) (sec : Bytes) : Prop :=
  match content with
  | none => sec = []
  | some d => ∃ S, Selected (usable d) S (fun i => ¬ InCert (usable d) i) ∧ sec = text S

/-- `sec` is the private part of the file loaded last in `l`. -/
def LastLoaded (l : List Act) (sec : Bytes) : Prop :=
  (sec = [] ∧ ∀ a ∈ l, isLoad a = false) ∨
  ∃ l1 fn content l2, l = l1 ++ .load fn content :: l2 ∧ (∀ a ∈ l2, isLoad a = false) ∧ Private content sec

end Key.Spec
