import Verif.Key.WholeProps
import Verif.Key.BoundProps
/-
C93: either process may go away at any point, and the other fails closed.
-/
namespace Key
open Io Pipe Rw

/-! ### The key process goes away -/

/-- C93: the key process may be gone at any point: whatever beginning `pre` of its answers is on the
pipe (even in the middle of a message), with whatever division into reads, and from
wherever on writes to it or reads from it fail for good. Then for some `j` the first `j`
questions of the connection are answered as if files and keys were at hand (C91), and
every later one is told as failed, whatever the engine goes on to ask: no certificate, no
point, no signature, no record, and in place of the verify data the random bytes the
buffer was filled with. `ans` are the bytes a key process that lives writes. -/
theorem c93_connection {γ : Type} (p : P) (hp : Lawful p) (hj : p.nojail = true ∨ p.jail = true)
    (allocOk : Nat → Bool) (parse : Bytes → Bytes → Option γ) (ha : ∀ n, allocOk n = true)
    (c : Ec.Spec.Curve) (hc : c ∈ Ec.Spec.curves p.ec.x448.isSome) :
    ∃ x, Ec.Spec.Scalar c x ∧ ∀ (q : Conn) (lds rest : List LoadEnv) (certs : List (Option γ)) (held : Option Bytes) (acts : List Act)
      (sig : Bytes) (prf : Nat) (kind : Kind) (alive : List Bool),
      q.curve = c.id → p.loads = lds ++ rest → Lookups p.cipher parse lds q.names none certs held acts →
      (Ec.Spec.gen p.ec c x).2 = true →
      q.digest.length ≤ q.max → q.max ≤ 2048 → p.doSign (held.getD []) (UInt8.ofNat q.algo) q.digest = .ok sig → sig.length ≤ q.max →
      q.point.length = c.point → (Ec.Spec.mul p.ec c q.point x).2 = true →
      q.agreed.sessionId.length = 32 → q.agreed.clientRandom.length = 32 → q.agreed.serverRandom.length = 32 →
      q.agreed.version < 2 ^ 16 → q.agreed.suite < 2 ^ 16 → suiteOf q.agreed.suite = some (prf, kind) →
      let st := p.install q.agreed prf kind (Ec.Spec.secret c (Ec.Spec.mul p.ec c q.point x).1)
      Fits p emptyFails prf st q.caller → p.alive = List.replicate (atHand p emptyFails prf st q.caller).1.length true ++ alive →
      ∃ req ans : Bytes,
        (∀ i o l s, KAt (req ++ i) o l s → Leads (keyjail p) s (serve p prf alive (atHand p emptyFails prf st q.caller).2.2) fun s' => s'.out.out = o ++ ans) ∧
        ∀ pre to evs, pre <+: ans → Broken rdFails evs → Broken wrFails to.evs →
          Net.Go (Net.connection allocOk parse q) ⟨to, pre, evs⟩ fun r _ => ∃ j agreed,
            r = gotUntil j certs (Ec.Spec.gen p.ec c x).1 sig agreed fun j => atHandUntil p emptyFails prf j st q.caller := by
  obtain ⟨x, hx, h⟩ := connection_go p hp hj allocOk parse ha c hc
  refine ⟨x, hx, fun q lds rest certs held acts sig prf kind alive h1 h2 h3 h4 h5 h6 h7 h8 h9 h10 h11 h12 h13 h14 h15 h16 h17 h18 => ?_⟩
  obtain ⟨req, ans, -, g2, g3⟩ := h q lds rest certs held acts sig prf kind alive h1 h2 h3 h4 h5 h6 h7 h8 h9 h10 h11 h12 h13 h14 h15 h16 h17 h18
  refine ⟨req, ans, fun i o l s hs => (g2 i o l s hs).imp id ?_, fun pre to evs hpre hr hw => g3 [] _ ⟨by simpa using hpre, hr, hw⟩⟩
  rintro ⟨s', e, l', _, hk⟩
  exact ⟨s', e, hk.2.1⟩

/-! What success takes, whoever is at the other end. -/

/-- If the operation succeeds, what it took from the pipe is related to the result by `R`. -/
def Net.Took {α : Type} (m : Net.M α) (R : α → Bytes → Prop) : Prop :=
  ∀ n a n', m n = .ok a n' → ∃ t, n.fr.src = t ++ n'.fr.src ∧ R a t

namespace Net

theorem Took.bind {α β : Type} {m : M α} {f : α → M β} {R1 : α → Bytes → Prop} {R : β → Bytes → Prop} (h : Took m R1)
    (hf : ∀ a t, R1 a t → Took (f a) fun b t' => R b (t ++ t')) : Took (m >>= f) R := by
  intro n b n' e
  have e' : (match m n with | .ok a n => f a n | .fail n => .fail n | .blocked n => .blocked n | .ub n => .ub n) = Net.NR.ok b n' := e
  cases hm : m n with
  | ok a n1 =>
    rw [hm] at e'
    obtain ⟨t, h1, h2⟩ := h n a n1 hm
    obtain ⟨t', h3, h4⟩ := hf a t h2 n1 b n' e'
    exact ⟨t ++ t', by rw [h1, h3, List.append_assoc], h4⟩
  | fail n1 => rw [hm] at e'; cases e'
  | blocked n1 => rw [hm] at e'; cases e'
  | ub n1 => rw [hm] at e'; cases e'

theorem Took.mono {α : Type} {m : M α} {R R' : α → Bytes → Prop} (h : Took m R) (hr : ∀ a t, R a t → R' a t) : Took m R' :=
  fun n a n' e => let ⟨t, h1, h2⟩ := h n a n' e; ⟨t, h1, hr a t h2⟩

theorem Took.pure {α : Type} {a : α} {R : α → Bytes → Prop} (h : R a []) : Took (Pure.pure a : M α) R := by
  intro n a' n' e
  cases e
  exact ⟨[], rfl, h⟩

theorem Took.fail {α : Type} {R : α → Bytes → Prop} : Took (Net.fail : M α) R := nofun

theorem Took.write {x : Bytes} : Took (Net.write x) fun _ t => t = [] := by
  intro n a n' e
  unfold Net.write at e
  cases h : pipe_write n.to x with
  | none => rw [h] at e; cases e
  | some v =>
    obtain ⟨r, fd⟩ := v
    rw [h] at e
    dsimp only at e
    split at e
    · cases e
    · cases e
      exact ⟨[], rfl, rfl⟩

theorem frame_eq {f m : Bytes} (h : Pipe.Spec.Frame f m) : f = frame m := by
  obtain ⟨h8, ⟨e1, e2⟩, rfl⟩ := h
  have := header_pack m.length (by rw [← e2]; have := le_bound h8; rw [e1] at this; exact this)
  unfold frame
  congr 1
  exact le_inj _ _ (by rw [e1, this.1]) (by rw [e2, this.2])

theorem Took.readall {k : Nat} : Took (Net.readall k) fun x t => x.length = k ∧ t = frame x := by
  intro n a n' e
  unfold Net.readall at e
  cases h : pipe_readall n.fr k with
  | none => rw [h] at e; cases e
  | some v =>
    obtain ⟨r, x, fd⟩ := v
    rw [h] at e
    dsimp only at e
    split at e
    · cases e
    · cases e
      rename_i hr
      obtain ⟨-, g, g'⟩ := c18_readall _ _ _ _ _ h
      have h0 : r = 0 := by rcases g' with h | h; · exact h
                            · exact absurd h hr
      obtain ⟨_, hl, f, hf, hsrc⟩ := g h0
      exact ⟨f, hsrc, hl, frame_eq hf⟩

theorem Took.readmax {k : Nat} : Took (Net.readmax k) fun x t => x.length ≤ k ∧ t = frame x := by
  intro n a n' e
  unfold Net.readmax at e
  cases h : pipe_readmax n.fr k with
  | none => rw [h] at e; cases e
  | some v =>
    obtain ⟨r, x, m, fd⟩ := v
    rw [h] at e
    dsimp only at e
    split at e
    · cases e
    · cases e
      rename_i hr
      obtain ⟨g1, -, g, g'⟩ := c18_readmax _ _ _ _ _ _ h
      have h0 : r = 0 := by rcases g' with h | h; · exact h
                            · exact absurd h hr
      obtain ⟨_, _, f, hf, hsrc⟩ := g h0
      exact ⟨f, hsrc, g1, frame_eq hf⟩

theorem Took.readalloc {allocOk : Nat → Bool} : Took (Net.readalloc allocOk) fun x t => t = frame x := by
  intro n a n' e
  unfold Net.readalloc at e
  split at e
  · cases e
  · rename_i x fd h
    cases e
    obtain ⟨-, f, hf, hsrc⟩ := c18_readalloc _ _ _ _ h
    exact ⟨f, hsrc, frame_eq hf⟩
  · cases e
  · cases e
  · cases e

theorem Took.ask {op : Byte} {ty ver : Nat} {x : Bytes} : Took (askRecord op ty ver x) fun r t => ∃ o, t = frame [o] ∧ r = schar o ∧ -64 ≤ r ∧ r ≤ 64 := by
  refine .bind .write fun _ t h1 => .bind .write fun _ t h2 => .bind .write fun _ t h3 => .bind .write fun _ t h4 => .bind .readall fun o t h5 => ?_
  subst h1 h2 h3 h4
  obtain ⟨h5, rfl⟩ := h5
  match o, h5 with
  | [o], _ =>
    split
    · exact .fail
    · rename_i hb
      rw [List.headD_cons] at hb ⊢
      exact .pure ⟨o, by simp, rfl, by omega, by omega⟩

end Net

/-- C93 (certificates): whoever is at the other end of the pipes, if the network process gets a chain then it is
parsed from a complete message that was on the pipe, and this message is what was taken. -/
theorem c93_takes_getcert {γ : Type} (allocOk : Nat → Bool) (parse : Bytes → Bytes → Option γ) (fn : Bytes) (n n' : Net.N) (c : γ)
    (h : Net.getcert allocOk parse fn n = .ok (some c) n') : ∃ pub, n.fr.src = frame pub ++ n'.fr.src ∧ parse pub fn = some c := by
  have : Net.Took (do Net.write (fn ++ [0]); let pub ← Net.readalloc allocOk; match parse pub fn with | none => Net.fail | some c => return c)
      fun c t => ∃ pub, t = frame pub ∧ parse pub fn = some c := by
    refine .bind .write fun _ t h1 => .bind .readalloc fun pub t' h2 => ?_
    subst h1 h2
    cases hp : parse pub fn with
    | none => exact .fail
    | some c => exact .pure ⟨pub, by simp, hp⟩
  obtain ⟨t, h1, pub, rfl, h2⟩ := this _ _ _ (Net.orFail_some h)
  exact ⟨pub, h1, h2⟩

/-- C93 (the point): likewise a complete message of at most 133 bytes. -/
theorem c93_takes_mulgen (curve : Nat) (n n' : Net.N) (x : Bytes) (h : Net.mulgen curve n = .ok (some x) n') :
    n.fr.src = frame x ++ n'.fr.src ∧ x.length ≤ 133 := by
  have : Net.Took (do Net.write []; Net.write [UInt8.ofNat curve]; Net.readmax 133) fun x t => t = frame x ∧ x.length ≤ 133 := by
    refine .bind .write fun _ t h1 => .bind .write fun _ t h2 => Net.Took.readmax.mono fun x t h3 => ?_
    subst h1 h2
    exact ⟨by simpa using h3.2, h3.1⟩
  obtain ⟨t, h1, rfl, h2⟩ := this _ _ _ (Net.orFail_some h)
  exact ⟨h1, h2⟩

/-- C93 (the signature): likewise a complete message that fits the space. -/
theorem c93_takes_sign (algo max : Nat) (d : Bytes) (n n' : Net.N) (x : Bytes) (h : Net.dosign algo d max n = .ok (some x) n') :
    n.fr.src = frame x ++ n'.fr.src ∧ x.length ≤ max := by
  have : Net.Took (do Net.write [UInt8.ofNat algo]; Net.write (Net.raw 8 max); Net.write d; Net.readmax max) fun x t => t = frame x ∧ x.length ≤ max := by
    refine .bind .write fun _ t h1 => .bind .write fun _ t h2 => .bind .write fun _ t h3 => Net.Took.readmax.mono fun x t h4 => ?_
    subst h1 h2 h3
    exact ⟨by simpa using h4.2, h4.1⟩
  obtain ⟨t, h1, rfl, h2⟩ := this _ _ _ (Net.orFail_some h)
  exact ⟨h1, h2⟩

/-- C93 (opening): likewise two complete messages, the offset and a plaintext that is not empty. -/
theorem c93_takes_decrypt (ty ver : Nat) (x : Bytes) (n n' : Net.N) (raw : Int) (z : Bytes) (h : Net.decrypt ty ver x n = .ok (some (raw, z)) n') :
    ∃ o, n.fr.src = frame [o] ++ frame z ++ n'.fr.src ∧ raw = schar o ∧ -64 ≤ raw ∧ raw ≤ 64 ∧ 0 < z.length ∧ z.length ≤ x.length := by
  have : Net.Took (do let offset ← Net.askRecord 1 ty ver x; let z ← Net.readmax x.length; if z.length = 0 then Net.fail else return (offset, z))
      fun r t => ∃ o, t = frame [o] ++ frame r.2 ∧ r.1 = schar o ∧ -64 ≤ r.1 ∧ r.1 ≤ 64 ∧ 0 < r.2.length ∧ r.2.length ≤ x.length := by
    refine .bind .ask fun raw t h1 => .bind .readmax fun z t' h2 => ?_
    obtain ⟨o, rfl, h3, h4, h5⟩ := h1
    obtain ⟨h6, rfl⟩ := h2
    split
    · exact .fail
    · exact .pure ⟨o, by simp, h3, h4, h5, Nat.pos_of_ne_zero ‹_›, h6⟩
  obtain ⟨t, h1, o, rfl, h2⟩ := this _ _ _ (Net.orFail_some h)
  exact ⟨o, h1, h2⟩

/-- C93 (sealing): likewise two complete messages. -/
theorem c93_takes_encrypt (ty ver : Nat) (x : Bytes) (n n' : Net.N) (raw : Int) (z : Bytes) (h : Net.encrypt ty ver x n = .ok (some (raw, z)) n') :
    ∃ o, n.fr.src = frame [o] ++ frame z ++ n'.fr.src ∧ raw = schar o ∧ -64 ≤ raw ∧ raw ≤ 64 ∧ z.length ≤ x.length + 85 := by
  have : Net.Took (do let offset ← Net.askRecord 2 ty ver x; let z ← Net.readmax (x.length + 85); return (offset, z))
      fun r t => ∃ o, t = frame [o] ++ frame r.2 ∧ r.1 = schar o ∧ -64 ≤ r.1 ∧ r.1 ≤ 64 ∧ r.2.length ≤ x.length + 85 := by
    refine .bind .ask fun raw t h1 => .bind .readmax fun z t' h2 => ?_
    obtain ⟨o, rfl, h3, h4, h5⟩ := h1
    obtain ⟨h6, rfl⟩ := h2
    exact .pure ⟨o, by simp, h3, h4, h5, h6⟩
  obtain ⟨t, h1, o, rfl, h2⟩ := this _ _ _ (Net.orFail_some h)
  exact ⟨o, h1, h2⟩

/-- C93 (verify data): what the caller gets is a complete message of that length that was on the pipe, or the random bytes. -/
theorem c93_takes_prf (len : Nat) (label : Bytes) (seeds : List Bytes) (rnd y : Bytes) (n n' : Net.N) (h : Net.prf len label seeds rnd n = .ok y n') :
    y = rnd ∨ (n.fr.src = frame y ++ n'.fr.src ∧ y.length = len) := by
  obtain ⟨r, n1, h1, h2⟩ := Net.bind_ok h
  cases h2
  cases r with
  | none => exact .inl rfl
  | some y =>
    right
    have e := Net.orFail_some h1
    split at e
    · cases e
    split at e
    · rename_i seed
      have took : Net.Took (do Net.write [0]; Net.write (label ++ [0]); Net.write (Net.raw 8 seed.length); Net.write seed; Net.readall len) fun y t => t = frame y ∧ y.length = len := by
        refine .bind .write fun _ t h1 => .bind .write fun _ t h2 => .bind .write fun _ t h3 => .bind .write fun _ t h4 => Net.Took.readall.mono fun x t h5 => ?_
        subst h1 h2 h3 h4
        exact ⟨by simpa using h5.2, h5.1⟩
      obtain ⟨t, g1, rfl, g2⟩ := took _ _ _ e
      exact ⟨g1, g2⟩
    · cases e

/-! ### The network process goes away -/

/-- The code ends, having done nothing, as soon as it is told that the input has ended. -/
def Ends {α : Type} (m : K α) : Prop :=
  ∀ s, s.inp.src = [] → 8 ≤ dataCount s.inp.evs → ∃ s', m s = .stop s' ∧ s'.log = s.log ∧ s'.out = s.out

theorem Ends.bind {α β : Type} {m : K α} {f : α → K β} (h : Ends m) : Ends (m >>= f) := by
  intro s h1 h2
  obtain ⟨s', e, h⟩ := h s h1 h2
  refine ⟨s', ?_, h⟩
  show (match m s with | .ok a s => f a s | .stop n => .stop n | .blocked n => .blocked n | .ub n => .ub n) = _
  rw [e]

theorem readallLoop_eof (evs : List RdEv) (n : Nat) (x : Bytes) : readallLoop evs [] (n + 1) x = none ∨ ∃ fd, readallLoop evs [] (n + 1) x = some (-1, x, fd) := by
  induction evs with
  | nil => exact .inl rfl
  | cons e evs ih =>
    cases e with
    | data m => exact .inr ⟨⟨[], evs⟩, by simp [readallLoop, got]⟩
    | eintr => exact ih
    | eagain => exact ih
    | err k => exact .inr ⟨⟨[], evs⟩, rfl⟩

theorem readall_eof (fd : RFd) (h : fd.src = []) (hd : 8 ≤ dataCount fd.evs) : ∃ fd', readall fd 8 = some (-1, [], fd') := by
  have h1 := c13_readall_returns fd 8 hd
  have h2 : readall fd 8 = none ∨ ∃ fd', readall fd 8 = some (-1, [], fd') := by
    have := readallLoop_eof fd.evs 7 []
    unfold readall
    rw [h]
    exact this
  exact h2.resolve_left h1

theorem Ends.readall {buf : Bytes} {k : Nat} : Ends (readallTo buf k) := by
  intro s h1 h2
  have : ∃ fd, pipe_readall s.inp k = some (-1, [], fd) := by
    unfold pipe_readall
    split
    · exact ⟨_, rfl⟩
    · obtain ⟨fd, e⟩ := readall_eof s.inp h1 h2
      rw [e]
      exact ⟨fd, rfl⟩
  obtain ⟨fd, e⟩ := this
  refine ⟨{ s with inp := fd }, ?_, rfl, rfl⟩
  unfold readallTo
  rw [e]
  simp [copyN]

theorem Ends.readmax {buf : Bytes} {off k : Nat} : Ends (readmaxTo buf off k) := by
  intro s h1 h2
  have : ∃ fd m, pipe_readmax s.inp k = some (-1, [], m, fd) := by
    unfold pipe_readmax
    split
    · exact ⟨_, _, rfl⟩
    · obtain ⟨fd, e⟩ := readall_eof s.inp h1 h2
      rw [e]
      exact ⟨fd, _, rfl⟩
  obtain ⟨fd, m, e⟩ := this
  refine ⟨{ s with inp := fd }, ?_, rfl, rfl⟩
  unfold readmaxTo
  rw [e]
  simp [copyN]

/-- C93 (the network process goes away): wherever the key process waits for it — for a
name, for the curve, for a digest, for the peer's point, for the next record — it ends as
soon as a read tells it that the pipe has ended, without another use of its files and
secrets, without another byte written, and without undefined behaviour. It also ends
when the parent is no longer the one that started it. -/
theorem c93_key_ends (p : P) (loads : List LoadEnv) (certfn pk sk : Bytes) (pem : Pems) (curve pklen prf : Nat) (alive : List Bool) (st : p.σ) :
    Ends (loadLoop p.cipher loads certfn pem) ∧ Ends (keyjail p) ∧ Ends (keygen p) ∧ Ends (signOnce p pem) ∧ Ends (agreeOnce p curve pk pklen sk) ∧
    Ends (serve p prf (true :: alive) st) ∧ ∀ s, serve p prf (false :: alive) st s = .stop s := by
  have hl : ∀ loads certfn pem, Ends (loadLoop p.cipher loads certfn pem) := fun loads certfn pem => by unfold loadLoop; exact .bind .readmax
  exact ⟨hl _ _ _, .bind (hl _ _ _), .bind .readall, .bind .readall, .bind .readall, .bind (.bind .readall), fun _ => rfl⟩

/-! ### Cases that meet the hypotheses

The connection of `Key.toyConn`, whose answers take 268 bytes. -/

/-- The key process is gone after 190 bytes, in the middle of the third record answer. -/
example : (match toyNet ((toyTurns 3).2.take 190) with
    | .ok r _ => some (r.point, r.sig, r.answers)
    | _ => none) =
    some (some (List.replicate 32 9), some [1, 2, 3],
      [.bytes (List.replicate 12 5), .record (some (0, [7, 7, 7, 7])), .record none, .record none, .record none]) := by
  decide +kernel

/-- It is gone before it has answered at all. -/
example : (match toyNet [] with
    | .ok r _ => some (r.certs, r.point, r.sig, r.answers)
    | _ => none) = some ([none], none, none, [.bytes [], .record none, .record none, .record none, .record none]) := by
  decide +kernel

/-- A pipe whose writes fail from the third on. -/
example : Broken wrFails [.data 5, .eagain .ok, .err 32, .err 32] ∧ Broken rdFails [.data 5, .eintr] := by
  constructor
  · simp [Broken, wrFails]
  · simp [Broken, rdFails]

/-- `c93_connection` applies to that connection. -/
example : ∃ ans : Bytes, ∀ pre to evs, pre <+: ans → Broken rdFails evs → Broken wrFails to.evs →
    Net.Go (Net.connection (fun _ => true) (fun t _ => some t) toyConn) ⟨to, pre, evs⟩ fun r _ => r.sig = some [1, 2, 3] ∨ r.sig = none := by
  obtain ⟨x, hx, h⟩ := c93_connection (toy (List.replicate 5 true)) (toy_lawful _) (.inr rfl) (fun _ => true) (fun t _ => some t) (fun _ => rfl)
    Ec.Spec.x25519 (by decide)
  obtain ⟨req, ans, _, h2⟩ := h toyConn _ [] _ _ _ [1, 2, 3] 4 (.gcm 16) [] rfl (List.append_nil _).symm toy_lookups
    (by
      change decide ((x.take 32).length = 32) = true
      have e : x.length = 32 := hx.1
      rw [List.length_take, e]
      rfl) (by decide) (by decide) rfl
    (by decide) rfl rfl rfl rfl rfl (by decide) (by decide) (by decide) (toy_fits _ (.inl rfl)) rfl
  refine ⟨ans, fun pre to evs h3 h4 h5 => (h2 pre to evs h3 h4 h5).mono ?_⟩
  rintro _ _ ⟨j, a, rfl⟩
  unfold gotUntil
  dsimp only
  split
  · exact .inl rfl
  · exact .inr rfl

/-- The network process is gone after 100 bytes of its requests: the key process ends. -/
example : (match toyKey ((toyTurns 3).1.take 100) with
    | .stop s => some (s.log.filter Act.isUse).length
    | _ => none) = some 3 := by decide +kernel

end Key
