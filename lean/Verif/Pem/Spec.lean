import Verif.Pem.Model
/-
PEM files as lists of lines, and well-formed PEM files as lists of items.
-/
namespace Pem

/-- Lines of a text, ended by CR or LF (so CR LF yields an additional empty line). -/
def splitLines : Bytes → List Bytes
  | [] => []
  | b :: s =>
    if b = 13 ∨ b = 10 then [] :: splitLines s
    else
      match splitLines s with
      | [] => [[b]]
      | l :: ls => (b :: l) :: ls

/-- The lines that count: up to the first line of more than 64 bytes, without empty lines. -/
def usable (content : Bytes) : List Bytes :=
  ((splitLines content).takeWhile (fun l => l.length ≤ 64)).filter (fun l => l ≠ [])

def certBegin : List Bytes := [b!"-----BEGIN CERTIFICATE-----", b!"-----BEGIN X509 CERTIFICATE-----"]
def certEnd : List Bytes := [b!"-----END CERTIFICATE-----", b!"-----END X509 CERTIFICATE-----"]

/-- Line `i` lies in a certificate block: a begin line at or before it, and no end line between. -/
def InCert (ls : List Bytes) (i : Nat) : Prop :=
  ∃ j, j ≤ i ∧ (∃ l, ls[j]? = some l ∧ l ∈ certBegin) ∧
    ∀ k, j ≤ k → k < i → ∀ l, ls[k]? = some l → l ∉ certEnd

/-- Text made of lines, each ended by LF. -/
def text (ls : List Bytes) : Bytes := (ls.map (fun l => l ++ [10])).flatten

/-- `part` consists of exactly those lines of `ls` whose index satisfies `sel`, in order. -/
def Selected (ls part : List Bytes) (sel : Nat → Prop) : Prop :=
  ∃ keep : List Bool, keep.length = ls.length ∧ (∀ i b, keep[i]? = some b → (b = true ↔ sel i)) ∧
    part = ((ls.zip keep).filter (fun p => p.2)).map (fun p => p.1)

/-- An item of a well-formed PEM file: a line of text or a block. -/
inductive Item where
  | line (l : Bytes)
  | block (label : Bytes) (body : List Bytes)
  deriving Repr, DecidableEq

def dashes : Bytes := b!"-----"

def Item.lines : Item → List Bytes
  | .line l => [l]
  | .block label body =>
    [b!"-----BEGIN " ++ label ++ b!"-----"] ++ body ++ [b!"-----END " ++ label ++ b!"-----"]

/-- Text lines and body lines do not look like markers. -/
def Item.Ok : Item → Prop
  | .line l => ¬ dashes <+: l
  | .block _ body => ∀ l ∈ body, ¬ dashes <+: l

def Item.isCert : Item → Bool
  | .line _ => false
  | .block label _ => label = b!"CERTIFICATE" ∨ label = b!"X509 CERTIFICATE"

end Pem
