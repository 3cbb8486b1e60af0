import Verif.Base
/-
Specification of path sanitising.
-/
namespace Path.Spec

/-- Remove every '/' that directly follows a '/'. -/
def collapse : Bytes → Bytes
  | [] => []
  | [a] => [a]
  | a :: b :: s => if a = c! '/' ∧ b = c! '/' then collapse (b :: s) else a :: collapse (b :: s)

/-- Replace every '.' that directly follows a '/' by ':'. -/
def undot : Bytes → Bytes
  | [] => []
  | [a] => [a]
  | a :: b :: s =>
    if a = c! '/' ∧ b = c! '.' then a :: c! ':' :: undot s else a :: undot (b :: s)

/-- No two slashes are adjacent and no component after a slash begins with '.'. -/
def Safe (p : Bytes) : Prop :=
  ∀ pre post, p = pre ++ c! '/' :: post →
    post.head? ≠ some (c! '.') ∧ post.head? ≠ some (c! '/')

end Path.Spec
