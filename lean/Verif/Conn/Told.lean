import Verif.Conn.Props
/-
What an attempt to connect writes to the log: the attempt of `Conn.Model` with its warnings ("unable to connect to")
and its debug line ("connected to"). The lines of the level "trace" are left out.
-/
namespace Conn

/-- A line of the log about a candidate: the address given to `log_ipport` (null is `none`; the port is the same in all of
them). `unable`: conn.c:251, 283-284, 311-312; `connected`: conn.c:241, 302-303. -/
inductive Line where
  | unable (a : Option Bytes)
  | connected (a : Option Bytes)
  deriving Repr, DecidableEq

/-- conn.c:88-94; `n` is iplen / 16. -/
def getip (s : St) (fd : Nat) (ip : Bytes) (n : Nat) : Option Bytes :=
  match findslot s fd maxip 0 with
  | none => none
  | some slot => if slot ≥ n then none else some ((ip.drop (16 * slot)).take 16)

/-- A line written before what follows (conn.c:251, 311). -/
def say {α} (l : Line) (r : Option (List Line × α)) : Option (List Line × α) := r.map (fun q => (l :: q.1, q.2))

/-- conn.c:231-256 as `connectLoop`, with the log. -/
def connectTold (ip : Bytes) (n : Nat) : Nat → Nat → St → List Ev → Option (List Line × Sum Done St × List Ev)
  | 0, _, s, ev => some ([], .inr s, ev)
  | k + 1, i, s, .connect r :: ev =>
    match s.fds i with
    | none =>
      if r = .failed then say (.unable (some ((ip.drop (16 * i)).take 16))) (connectTold ip n k (i + 1) (closeslot s i) ev) else none
    | some fd =>
      let s := { s with tried := (fd, (ip.drop (16 * i)).take 16) :: s.tried
                        success := if r = .connected then fd :: s.success else s.success }
      match r with
      | .connected => some ([.connected (some ((ip.drop (16 * i)).take 16))], .inl (win s fd ip n), ev)
      | .inProgress => connectTold ip n k (i + 1) s ev
      | .failed => say (.unable (some ((ip.drop (16 * i)).take 16))) (connectTold ip n k (i + 1) (closeslot s i) ev)
  | _ + 1, _, _, _ => none

/-- conn.c:296-314 as `scan`, with the log. -/
def scanTold (ip : Bytes) (n : Nat) : List (Nat × Bool) → St → List Ev → Option (List Line × Sum Done St × List Ev)
  | [], s, ev => some ([], .inr s, ev)
  | (_, false) :: p, s, ev => scanTold ip n p s ev
  | (fd, true) :: p, s, .isConnected b :: ev =>
    let s := { s with success := if b then fd :: s.success else s.success }
    if b then some ([.connected (getip s fd ip n)], .inl (win s fd ip n), ev)
    else say (.unable (getip s fd ip n)) (scanTold ip n p (closefd s fd) ev)
  | (_, true) :: _, _, _ => none

/-- conn.c:258-316 as `pollLoop`, with the log. -/
def pollTold (ip : Bytes) (n : Nat) (deadline : Int) : Nat → St → List Ev → Option (List Line × Done × List Ev)
  | 0, _, _ => none
  | fuel + 1, s, ev =>
    if pending s n = [] then some ([], ⟨.fail, reset s, ip⟩, ev)
    else match ev with
      | .time t :: ev =>
        if deadline - t ≤ 0 then some ((pending s n).map (fun fd => .unable (getip s fd ip n)), ⟨.fail, reset s, ip⟩, ev)
        else match ev with
          | .poll tm r :: ev =>
            if tm ≠ asInt (deadline - t) then none
            else match r with
              | .eintr => pollTold ip n deadline fuel s ev
              | .failed => some ([], ⟨.fail, reset s, ip⟩, ev)
              | .ready rev =>
                if rev.length ≠ (pending s n).length then none
                else match scanTold ip n ((pending s n).zip rev) s ev with
                  | none => none
                  | some (l, .inl d, ev) => some (l, d, ev)
                  | some (l, .inr s, ev) => (pollTold ip n deadline fuel s ev).map (fun q => (l ++ q.1, q.2))
          | _ => none
      | _ => none

/-- conn.c:206-317 as `conn`, with the log. -/
def connTold (timeout : Int) (ip : Bytes) (iplen : Int) (s : St) (ev : List Ev) : Option (List Line × Done × List Ev) :=
  match ev with
  | .time t0 :: ev =>
    let iplen := min iplen (maxip * 16 : Nat)
    if timeout < 1 ∨ iplen < 16 then some ([], ⟨.fail, s, ip⟩, ev)
    else
      let n := iplen.toNat / 16
      match connectTold ip n n 0 s ev with
      | none => none
      | some (l, .inl d, ev) => some (l, d, ev)
      | some (l, .inr s, ev) => (pollTold ip n (t0 + 1000 * timeout) (ev.length + 1) s ev).map (fun q => (l ++ q.1, q.2))
  | _ => none

end Conn
