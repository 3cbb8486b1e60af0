import Verif.Key.Whole
/-
Specification: the answers of a key process that goes away. It has answered the first so
many questions; every later one goes unanswered.
-/
namespace Key
open Io

/-- The write call fails (the callers' view of writeall.c:31-40). -/
def wrFails : WrEv → Prop
  | .zero | .err _ | .eintr .err | .eagain .err => True
  | _ => False

/-- The read call fails (the callers' view of readall.c:36). -/
def rdFails : RdEv → Prop
  | .err _ => True
  | _ => False

/-- Once a call has failed, all later ones do: the pipe is broken for good.
(Specification or proof notion; models no line of /repo.) -/
def Broken {ε : Type} (fails : ε → Prop) (evs : List ε) : Prop := evs.Pairwise fun e f => fails e → fails f

/-- What an engine is told when no question is answered: the bytes its buffer was filled
with, or that the record is bad. (Specification or proof notion; models no line of /repo.) -/
def unanswered : Caller → List Ans
  | .done => []
  | .prf _ _ rnd next => .bytes rnd :: unanswered (next rnd)
  | .dec _ _ _ next => .record none :: unanswered (next none)
  | .enc _ _ _ next => .record none :: unanswered (next none)

/-- The first `j` questions are answered with the keys at hand, the others are not.
(Specification or proof notion; models no line of /repo.) -/
def atHandUntil (p : P) (see : View) (prf : Nat) : Nat → p.σ → Caller → List Ans
  | 0, _, c => unanswered c
  | _ + 1, _, .done => []
  | j + 1, st, .prf label seed _ next =>
    .bytes (p.prf st prf 12 label seed) :: atHandUntil p see prf j st (next (p.prf st prf 12 label seed))
  | j + 1, st, .dec ty ver x next =>
    match p.dec st ty ver x with
    | .ok (st, y) => .record (see y) :: atHandUntil p see prf j st (next (see y))
    | .ub => []
  | j + 1, st, .enc ty ver x next =>
    match p.enc st ty ver x with
    | .ok (st, y) => .record (some y) :: atHandUntil p see prf j st (next (some y))
    | .ub => []

/-- What a connection gets when the first `j` questions are answered: those for the
certificates, then the point, then the signature, then the engine's. Handing over the
peer's point is not a question: whether that succeeded is `agreed`.
(Specification or proof notion; models no line of /repo.) -/
def gotUntil {γ : Type} (j : Nat) (certs : List (Option γ)) (point sig : Bytes) (agreed : Option Unit) (answers : Nat → List Ans) : Got γ where
  certs := certs.take j ++ List.replicate (certs.length - j) none
  point := if certs.length < j then some point else none
  sig := if certs.length + 1 < j then some sig else none
  agreed := agreed
  answers := answers (j - (certs.length + 2))

end Key
