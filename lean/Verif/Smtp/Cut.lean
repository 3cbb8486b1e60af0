import Verif.Smtp.Stream
import Verif.Smtp.Props
import Verif.Smtp.ReplyLemmas
/-
C113: how the client's bytes are cut into reads, and where the client pauses, makes no difference to the SMTP front end, except for what
the upgrade to TLS throws away.
-/
namespace Smtp
open Str

/-- The state without the way the client's bytes are cut.
(Specification or proof notion; models no line of /repo.) -/
def norm (s : S) : S := { s with buf := stream s, net := [] }

/-- The state without what the client still has to say. (Specification or proof notion; models no line of /repo.) -/
def bare (s : S) : S := { s with buf := [], net := [] }

theorem bare_norm {s1 s2 : S} (h : norm s1 = norm s2) : bare s1 = bare s2 := by
  have : bare (norm s1) = bare (norm s2) := by rw [h]
  exact this

/-- An outcome without the way the client's bytes are cut. (Specification or proof notion; models no line of /repo.) -/
def normR {α : Type} : R α → R α
  | .ok a s => .ok a (norm s)
  | .die x s => .die x (bare s)
  | .ub => .ub

/-- The actions of an outcome begin with `p`. (Specification or proof notion; models no line of /repo.) -/
def Grown {α : Type} (p : List Act) : R α → Prop
  | .ok _ s => p <+: s.log
  | .die _ s => p <+: s.log
  | .ub => True

/-- After the actions `p` TLS was requested, and then the waiting cleartext was thrown away, so that `n` bytes of what the
client sent are left (`some n`), or throwing it away failed and ended the session (`none`).
(Specification or proof notion; models no line of /repo.) -/
def After {α : Type} (p : List Act) : Option Nat → R α → Prop
  | some n, r => Grown (p ++ [.ctl [0], .discard n]) r
  | none, r => ∃ s, r = .die 111 s ∧ s.log = p ++ [.ctl [0]]

/-- Two outcomes are alike, or the same up to a request for TLS, after which different amounts of cleartext were thrown away.
(Specification or proof notion; models no line of /repo.) -/
def Alike {α : Type} (r1 r2 : R α) : Prop :=
  normR r1 = normR r2 ∨ ∃ p o1 o2, o1 ≠ o2 ∧ After p o1 r1 ∧ After p o2 r2

/-- `m` only adds to the actions and only takes from the input. (Specification or proof notion; models no line of /repo.) -/
def Mono {α : Type} (m : M α) : Prop :=
  (∀ s p, p <+: s.log → Grown p (m s)) ∧ ∀ s a s', m s = .ok a s' → (stream s').length ≤ (stream s).length

/-- `m` does not depend on the cutting. (Specification or proof notion; models no line of /repo.) -/
def Resp {α : Type} (m : M α) : Prop := (∀ s1 s2, norm s1 = norm s2 → Alike (m s1) (m s2)) ∧ Mono m

theorem Mono.bind {α β : Type} {m : M α} {f : α → M β} (h : Mono m) (h' : ∀ a, Mono (f a)) : Mono (m >>= f) := by
  refine ⟨fun s p hp => ?_, fun s b s' e => ?_⟩
  · have h1 := h.1 s p hp
    rw [bind_def]
    cases e : m s with
    | ok a s' => rw [e] at h1; exact (h' a).1 s' p h1
    | die x s' => rw [e] at h1; exact h1
    | ub => trivial
  · rw [bind_def] at e
    cases e1 : m s with
    | ok a s1 => rw [e1] at e; exact Nat.le_trans ((h' a).2 _ _ _ e) (h.2 _ _ _ e1)
    | die x s1 => rw [e1] at e; cases e
    | ub => rw [e1] at e; cases e
theorem Mono.pure {α : Type} (a : α) : Mono (pure a : M α) := ⟨fun _ _ h => h, fun s b s' e => by cases e; exact Nat.le_refl _⟩
theorem Mono.get : Mono get := ⟨fun _ _ h => h, fun s b s' e => by cases e; exact Nat.le_refl _⟩
theorem Mono.die {α : Type} (x : Int) : Mono (die x : M α) := ⟨fun _ _ h => h, fun s b s' e => by cases e⟩
theorem Mono.ite {α : Type} {c : Prop} [Decidable c] {a b : M α} (h : Mono a) (h' : Mono b) : Mono (if c then a else b) := by
  split <;> assumption
theorem Mono.modify {g : S → S} (h : ∀ s, (g s).buf = s.buf ∧ (g s).net = s.net ∧ s.log <+: (g s).log) : Mono (modify g) := by
  refine ⟨fun s p hp => hp.trans (h s).2.2, fun s a s' e => ?_⟩
  cases e
  rw [stream, (h s).1, (h s).2.1]
  exact Nat.le_refl _
theorem Mono.act (a : Act) : Mono (act a) := Mono.modify fun _ => ⟨rfl, rfl, List.prefix_append _ _⟩
theorem Mono.lift {α : Type} (x : Out α) : Mono (lift x) := by
  cases x with
  | ok a => exact Mono.pure a
  | ub => exact ⟨fun _ _ _ => trivial, fun s b s' e => by cases e⟩

theorem After.bind {α β : Type} {m : M α} {f : α → M β} {p : List Act} {o : Option Nat} {s : S} (h : After p o (m s))
    (h' : ∀ a, Mono (f a)) : After p o ((m >>= f) s) := by
  rw [bind_def]
  cases o with
  | none =>
    obtain ⟨t, e, k⟩ := h
    rw [e]
    exact ⟨t, rfl, k⟩
  | some n =>
    have h : Grown (p ++ [.ctl [0], .discard n]) (m s) := h
    show Grown (p ++ [.ctl [0], .discard n]) _
    cases e : m s with
    | ok a t => rw [e] at h; exact (h' a).1 t _ h
    | die x t => rw [e] at h; exact h
    | ub => trivial

theorem Resp.bind {α β : Type} {m : M α} {f : α → M β} (h : Resp m) (h' : ∀ a, Resp (f a)) : Resp (m >>= f) := by
  refine ⟨fun s1 s2 hn => ?_, h.2.bind fun a => (h' a).2⟩
  have h1 := h.1 s1 s2 hn
  rw [bind_def, bind_def]
  rcases h1 with h1 | ⟨p, o1, o2, ho, g1, g2⟩
  · cases e1 : m s1 <;> cases e2 : m s2 <;> rw [e1, e2] at h1 <;> simp only [normR, R.ok.injEq, R.die.injEq, reduceCtorEq] at h1
    · obtain ⟨rfl, h1⟩ := h1
      exact (h' _).1 _ _ h1
    · obtain ⟨rfl, h1⟩ := h1
      exact .inl (by simp only [normR, h1])
    · exact .inl rfl
  · exact .inr ⟨p, o1, o2, ho, g1.bind fun a => (h' a).2, g2.bind fun a => (h' a).2⟩
theorem Resp.pure {α : Type} (a : α) : Resp (pure a : M α) :=
  ⟨fun s1 s2 h => .inl (by simp only [pure_def, normR, h]), Mono.pure a⟩
theorem Resp.die {α : Type} (x : Int) : Resp (die x : M α) :=
  ⟨fun s1 s2 h => .inl (by simp only [die_def, normR, bare_norm h]), Mono.die x⟩
theorem Resp.ite {α : Type} {c : Prop} [Decidable c] {a b : M α} (h : Resp a) (h' : Resp b) : Resp (if c then a else b) := by
  split <;> assumption
/-- What looks at the state, but not at the way the input is cut. -/
theorem Resp.get {β : Type} {f : S → M β} (h : ∀ s, f s = f (norm s)) (h' : ∀ s, Resp (f s)) : Resp (get >>= f) := by
  refine ⟨fun s1 s2 hn => ?_, Mono.get.bind fun s => (h' s).2⟩
  show Alike (f s1 s1) (f s2 s2)
  rw [h s1, h s2, hn]
  exact (h' _).1 _ _ hn
theorem Resp.modify {g : S → S} (h : ∀ s, norm (g s) = g (norm s)) (hm : ∀ s, (g s).buf = s.buf ∧ (g s).net = s.net ∧ s.log <+: (g s).log) :
    Resp (modify g) :=
  ⟨fun s1 s2 hn => .inl (by simp only [modify_def, normR, h, hn]), Mono.modify hm⟩
theorem Resp.act (a : Act) : Resp (act a) := Resp.modify (fun _ => rfl) fun _ => ⟨rfl, rfl, List.prefix_append _ _⟩
theorem Resp.lift {α : Type} (x : Out α) : Resp (lift x) := by
  cases x with
  | ok a => exact Resp.pure a
  | ub => exact ⟨fun _ _ _ => .inl rfl, Mono.lift _⟩

/-- A change that leaves the input and the actions alone. -/
theorem Resp.set {g : S → S} (h : ∀ s, norm (g s) = g (norm s)) (hm : ∀ s, (g s).buf = s.buf ∧ (g s).net = s.net ∧ (g s).log = s.log) :
    Resp (Smtp.modify g) := Resp.modify h fun s => ⟨(hm s).1, (hm s).2.1, (hm s).2.2 ▸ List.prefix_rfl⟩

/-- Steps whose state change can be written down. -/
theorem Resp.step {α : Type} {m : M α} (f : S → R α) (hm : ∀ s, m s = f s) (h1 : ∀ s, normR (f s) = normR (f (norm s)))
    (h2 : Mono m) : Resp m := by
  refine ⟨fun s1 s2 hn => .inl ?_, h2⟩
  rw [hm, hm, h1 s1, h1 s2, hn]

theorem resp_write : Resp write := by
  refine Resp.step write (fun _ => rfl) (fun s => ?_) ⟨fun s p hp => ?_, fun s a s' e => ?_⟩
  · unfold write norm
    cases hw : s.wr with
    | nil => simp [normR, norm, stream, evStream, hw]
    | cons b t => cases b <;> simp [normR, norm, bare, stream, evStream]
  · unfold write
    cases s.wr with
    | nil => exact hp
    | cons b t => cases b <;> exact hp
  · unfold write at e
    cases hw : s.wr with
    | nil => rw [hw] at e; cases e; exact Nat.le_refl _
    | cons b t => rw [hw] at e; cases b <;> cases e; exact Nat.le_refl _

theorem resp_toChild (d : Bytes) : Resp (toChild d) := resp_write.bind fun _ => .act _
theorem resp_toClient (d : Bytes) : Resp (toClient d) := resp_write.bind fun _ => .act _

theorem resp_cgetc : Resp cgetc := by
  refine Resp.step cgetc (fun _ => rfl) (fun s => ?_) ⟨fun s p hp => ?_, fun s a s' e => ?_⟩
  · unfold cgetc norm
    cases hw : s.cin <;> simp [normR, norm, bare, stream, evStream, hw]
  · unfold cgetc
    cases s.cin <;> exact hp
  · unfold cgetc at e
    cases hw : s.cin <;> rw [hw] at e <;> cases e
    exact Nat.le_refl _

theorem resp_clineAppend (ch : Byte) : Resp (clineAppend ch) :=
  Resp.get (fun _ => rfl) fun _ => .ite (.die _) (.set (fun _ => rfl) fun _ => ⟨rfl, rfl, rfl⟩)
theorem resp_lineAppend (ch : Byte) : Resp (lineAppend ch) :=
  Resp.get (fun _ => rfl) fun _ => .ite (.die _) (.set (fun _ => rfl) fun _ => ⟨rfl, rfl, rfl⟩)

theorem resp_restOfLine (n : Nat) : ∀ ch, Resp (restOfLine n ch) := by
  induction n with
  | zero => intro ch; exact Resp.die _
  | succ n ih => intro ch; rw [restOfLine]; exact .ite (.pure _) (resp_cgetc.bind fun ch => (resp_clineAppend ch).bind fun _ => ih _)

theorem resp_cread : Resp cread := resp_cgetc.bind fun ch => (resp_clineAppend ch).bind fun _ => .pure _

theorem resp_replyLoop (append : Bool) (code n : Nat) : Resp (replyLoop append code n) := by
  induction n with
  | zero => exact Resp.die _
  | succ n ih =>
    rw [replyLoop_succ]
    exact resp_cgetc.bind fun ch => (resp_clineAppend _).bind fun _ => .ite (.pure _)
      (.get (fun _ => rfl) fun s => (resp_restOfLine _ _).bind fun _ => resp_cread.bind fun _ => resp_cread.bind fun _ =>
        resp_cread.bind fun _ => ih)

theorem resp_smtpline (cfg : Cfg) (append : Option Bytes) (b : Bool) : Resp (smtpline cfg append b) := by
  have hs : ∀ {g : S → S} (h : ∀ s, norm (g s) = g (norm s)) (_ : ∀ s, (g s).buf = s.buf ∧ (g s).net = s.net ∧ (g s).log = s.log),
    Resp (modify g) := fun h h' => Resp.set h h'
  rw [smtpline_eq]
  refine (hs (by intro s; rfl) (by intro s; exact ⟨rfl, rfl, rfl⟩)).bind fun _ => .get (fun _ => rfl) fun s0 => resp_cread.bind fun _ =>
    resp_cread.bind fun _ => resp_cread.bind fun _ => .get (fun _ => rfl) fun s => (resp_replyLoop _ _ _).bind fun _ =>
    .get (fun _ => rfl) fun s => (resp_restOfLine _ _).bind fun _ =>
    (Resp.modify (by intro s; rfl) (by intro s; exact ⟨rfl, rfl, List.prefix_append _ _⟩)).bind fun _ => ?_
  unfold finish
  have hm : Resp (modify fun s => { s with cline := catlogid cfg (strip (c! '\r') (strip (c! '\n') s.cline)) ++ b!"\r\n" }) :=
    hs (by intro s; rfl) (by intro s; exact ⟨rfl, rfl, rfl⟩)
  cases append with
  | none => exact .ite (hm.bind fun _ => .pure _) (.pure _)
  | some a =>
    exact .ite (.get (fun _ => rfl) fun s => .ite (.die _) ((hs (by intro s; rfl) (by intro s; exact ⟨rfl, rfl, rfl⟩)).bind fun _ =>
        .ite (hm.bind fun _ => .pure _) (.pure _)))
      (.ite (hm.bind fun _ => .pure _) (.pure _))

theorem resp_copy (cfg : Cfg) (b : Bool) : Resp (copy cfg b) :=
  .get (fun _ => rfl) fun _ => (resp_toChild _).bind fun _ => (resp_smtpline _ _ _).bind fun _ => .get (fun _ => rfl) fun _ =>
    (resp_toClient _).bind fun _ => .pure _

/-! ### Reading a line -/

theorem norm_stream {s1 s2 : S} (h : norm s1 = norm s2) : stream s1 = stream s2 := congrArg S.buf h

/-- The same state with other bytes to come. -/
theorem norm_with {s1 s2 : S} (h : norm s1 = norm s2) {b1 b2 : Bytes} {n1 n2 : List Ev} (he : b1 ++ evStream n1 = b2 ++ evStream n2) :
    norm { s1 with buf := b1, net := n1 } = norm { s2 with buf := b2, net := n2 } := by
  have h1 : norm { s1 with buf := b1, net := n1 } = { norm s1 with buf := b1 ++ evStream n1 } := rfl
  have h2 : norm { s2 with buf := b2, net := n2 } = { norm s2 with buf := b2 ++ evStream n2 } := rfl
  rw [h1, h2, h, he]

theorem getc_mono : Mono getc := by
  refine ⟨fun s p hp => ?_, fun s a s' e => ?_⟩
  · cases hs : stream s with
    | nil => rw [getc_nil s hs]; exact hp
    | cons b t => obtain ⟨buf, net, e, -, -⟩ := getc_cons s b t hs; rw [e]; exact hp
  · cases hs : stream s with
    | nil => rw [getc_nil s hs] at e; cases e
    | cons b t =>
      obtain ⟨buf, net, e', h, -⟩ := getc_cons s b t hs
      rw [e'] at e
      cases e
      simp only [stream, h, List.length_cons]
      omega

theorem readlineLoop_mono (n : Nat) : ∀ raw, Mono (readlineLoop n raw) := by
  induction n with
  | zero => intro raw; exact Mono.die _
  | succ n ih => intro raw; exact getc_mono.bind fun ch => .ite (Mono.act _) ((resp_lineAppend _).2.bind fun _ => ih _)

theorem readlineLoop_alike (k : Nat) : ∀ (n1 n2 : Nat) (raw : Bytes) (s1 s2 : S), norm s1 = norm s2 → (stream s1).length = k → k < n1 → k < n2 →
    normR (readlineLoop n1 raw s1) = normR (readlineLoop n2 raw s2) := by
  induction k with
  | zero =>
    intro n1 n2 raw s1 s2 hn hk h1 h2
    obtain ⟨m1, rfl⟩ : ∃ m, n1 = m + 1 := ⟨n1 - 1, by omega⟩
    obtain ⟨m2, rfl⟩ : ∃ m, n2 = m + 1 := ⟨n2 - 1, by omega⟩
    have e1 : stream s1 = [] := List.eq_nil_of_length_eq_zero hk
    have e2 : stream s2 = [] := norm_stream hn ▸ e1
    simp only [readlineLoop, bind_def, getc_nil s1 e1, getc_nil s2 e2, normR, bare_norm hn]
  | succ k ih =>
    intro n1 n2 raw s1 s2 hn hk h1 h2
    obtain ⟨m1, rfl⟩ : ∃ m, n1 = m + 1 := ⟨n1 - 1, by omega⟩
    obtain ⟨m2, rfl⟩ : ∃ m, n2 = m + 1 := ⟨n2 - 1, by omega⟩
    cases e1 : stream s1 with
    | nil => rw [e1] at hk; cases hk
    | cons b t =>
      have e2 : stream s2 = b :: t := norm_stream hn ▸ e1
      obtain ⟨b1, t1, g1, q1, -⟩ := getc_cons s1 b t e1
      obtain ⟨b2, t2, g2, q2, -⟩ := getc_cons s2 b t e2
      have hn' := norm_with hn (q1.trans q2.symm)
      have hl : s1.line = s2.line := by
        have : (norm s1).line = (norm s2).line := by rw [hn]
        exact this
      simp only [readlineLoop, bind_def, g1, g2, ite_app]
      split
      · have : norm { s1 with buf := b1, net := t1, log := s1.log ++ [.line raw] } = norm { s2 with buf := b2, net := t2, log := s2.log ++ [.line raw] } := by
          have := congrArg (fun s => { s with log := s.log ++ [Act.line raw] }) hn'
          exact this
        simp only [act_def, normR, this]
      · by_cases hf : s2.line.length ≥ maxLine
        · simp only [lineAppend, bind_def, get_def, ite_app, die_def, modify_def, hl, hf, if_true, normR]
          rw [hl] at hn'
          exact congrArg (R.die 111) (bare_norm hn')
        · simp only [lineAppend, bind_def, get_def, ite_app, die_def, modify_def, hl, hf, if_false]
          refine ih _ _ _ _ _ ?_ ?_ (by omega) (by omega)
          · have := congrArg (fun s => { s with line := s2.line ++ [if b = 0 then c! '\n' else b] }) hn'
            exact this
          · rw [e1] at hk
            simp only [stream, q1]
            simpa using hk

theorem avail_stream (s : S) : (stream s).length < avail s + 1 := by
  have := stream_le s.net
  simp only [stream, avail, List.length_append]
  omega

theorem resp_readline : Resp readline := by
  unfold readline
  refine (Resp.set (by intro s; rfl) (by intro s; exact ⟨rfl, rfl, rfl⟩)).bind fun _ => ?_
  refine ⟨fun s1 s2 hn => ?_, Mono.get.bind fun s => (readlineLoop_mono _ _).bind fun _ => Mono.modify fun _ => ⟨rfl, rfl, List.prefix_rfl⟩⟩
  have h := readlineLoop_alike _ (avail s1 + 1) (avail s2 + 1) [] s1 s2 hn rfl (avail_stream s1)
    (by rw [norm_stream hn]; exact avail_stream s2)
  show Alike ((readlineLoop (avail s1 + 1) [] >>= fun _ => modify _) s1) ((readlineLoop (avail s2 + 1) [] >>= fun _ => modify _) s2)
  rw [bind_def, bind_def]
  refine .inl ?_
  cases e1 : readlineLoop (avail s1 + 1) [] s1 <;> cases e2 : readlineLoop (avail s2 + 1) [] s2 <;> rw [e1, e2] at h <;>
    simp only [normR, R.ok.injEq, R.die.injEq, reduceCtorEq] at h
  · have := congrArg (fun s => { s with line := strip (c! '\r') s.line ++ b!"\r\n" }) h.2
    simp only [modify_def, normR]
    exact congrArg (R.ok ()) this
  · obtain ⟨rfl, h⟩ := h
    simp only [normR, h]

/-- A line takes at least its LF. -/
theorem readlineLoop_less (n : Nat) : ∀ raw s u s', readlineLoop n raw s = .ok u s' → (stream s').length < (stream s).length := by
  induction n with
  | zero => intro raw s u s' e; cases e
  | succ n ih =>
    intro raw s u s' e
    rw [readlineLoop, bind_def] at e
    cases hs : stream s with
    | nil => rw [getc_nil s hs] at e; cases e
    | cons b t =>
      obtain ⟨b1, t1, g1, q1, -⟩ := getc_cons s b t hs
      rw [g1] at e
      simp only [ite_app] at e
      split at e
      · cases e
        simp only [stream, q1, List.length_cons]; omega
      · rw [bind_def] at e
        cases e1 : lineAppend (if b = 0 then c! '\n' else b) { s with buf := b1, net := t1 } with
        | ok v w =>
          rw [e1] at e
          have h1 := ih _ _ _ _ e
          have h2 := (resp_lineAppend _).2.2 _ _ _ e1
          simp only [stream, q1, List.length_cons] at h1 h2 ⊢
          omega
        | die x w => rw [e1] at e; cases e
        | ub => rw [e1] at e; cases e

theorem readline_less (s : S) (u : Unit) (s' : S) (e : readline s = .ok u s') : (stream s').length < (stream s).length := by
  simp only [readline, bind_def, modify_def, get_def] at e
  cases e1 : readlineLoop (avail { s with line := [] } + 1) [] { s with line := [] } with
  | ok v w =>
    rw [e1] at e
    cases e
    have := readlineLoop_less _ _ _ _ _ e1
    exact this
  | die x w => rw [e1] at e; cases e
  | ub => rw [e1] at e; cases e

/-- Two programs after the same one. -/
theorem Alike.bind {α β : Type} {m : M α} {f1 f2 : α → M β} {s1 s2 : S} (h : Resp m) (hn : norm s1 = norm s2)
    (h1 : ∀ a, Mono (f1 a)) (h2 : ∀ a, Mono (f2 a))
    (h' : ∀ a t1 t2, m s1 = .ok a t1 → m s2 = .ok a t2 → norm t1 = norm t2 → Alike (f1 a t1) (f2 a t2)) :
    Alike ((m >>= f1) s1) ((m >>= f2) s2) := by
  have hh := h.1 s1 s2 hn
  rw [bind_def, bind_def]
  rcases hh with k | ⟨p, o1, o2, ho, g1, g2⟩
  · cases e1 : m s1 <;> cases e2 : m s2 <;> rw [e1, e2] at k <;> simp only [normR, R.ok.injEq, R.die.injEq, reduceCtorEq] at k
    · obtain ⟨rfl, k⟩ := k
      exact h' _ _ _ e1 e2 k
    · obtain ⟨rfl, k⟩ := k
      exact .inl (by simp only [normR, k])
    · exact .inl rfl
  · exact .inr ⟨p, o1, o2, ho, g1.bind h1, g2.bind h2⟩

/-! ### The message body -/

/-- One round of the body loop: true after the final dot. -/
def bodyStep : M Bool := do
  readline
  let s ← get
  toChild s.line
  modify fun s => { s with line := strip (c! '\r') (strip (c! '\n') s.line) }
  let s ← get
  pure (decide (s.line = b!"."))

theorem resp_bodyStep : Resp bodyStep :=
  resp_readline.bind fun _ => .get (fun _ => rfl) fun _ => (resp_toChild _).bind fun _ =>
    (Resp.set (by intro s; rfl) (by intro s; exact ⟨rfl, rfl, rfl⟩)).bind fun _ => .get (fun _ => rfl) fun _ => .pure _

theorem bodyLoop_succ (n : Nat) : bodyLoop (n + 1) = bodyStep >>= fun b => if b then pure () else bodyLoop n := by
  funext s
  simp only [bodyLoop, bodyStep, bind_def, get_def, modify_def, ite_app, pure_def]
  cases readline s with
  | ub => rfl
  | die x s => rfl
  | ok u s =>
    simp only
    cases toChild s.line s with
    | ub => rfl
    | die x s => rfl
    | ok u s => simp only [decide_eq_true_eq]

theorem less_bind {α β : Type} {m : M α} {f : α → M β} (h : ∀ s a s', m s = .ok a s' → (stream s').length < (stream s).length)
    (h' : ∀ a, Mono (f a)) : ∀ s b s', (m >>= f) s = .ok b s' → (stream s').length < (stream s).length := by
  intro s b s' e
  rw [bind_def] at e
  cases e1 : m s with
  | ok a s1 => rw [e1] at e; exact Nat.lt_of_le_of_lt ((h' a).2 _ _ _ e) (h _ _ _ e1)
  | die x s1 => rw [e1] at e; cases e
  | ub => rw [e1] at e; cases e

theorem bodyStep_less : ∀ s b s', bodyStep s = .ok b s' → (stream s').length < (stream s).length :=
  less_bind readline_less fun _ => Mono.get.bind fun _ => (resp_toChild _).2.bind fun _ =>
    (Mono.modify (by intro s; exact ⟨rfl, rfl, List.prefix_rfl⟩)).bind fun _ => Mono.get.bind fun _ => .pure _

theorem bodyLoop_mono (n : Nat) : Mono (bodyLoop n) := by
  induction n with
  | zero => exact Mono.die _
  | succ n ih => rw [bodyLoop_succ]; exact resp_bodyStep.2.bind fun b => .ite (.pure _) ih

/-- A loop whose rounds take from the input does not depend on the bound of its rounds. -/
theorem bodyLoop_alike (k : Nat) : ∀ (n1 n2 : Nat) (s1 s2 : S), norm s1 = norm s2 → (stream s1).length ≤ k → k < n1 → k < n2 →
    Alike (bodyLoop n1 s1) (bodyLoop n2 s2) := by
  induction k with
  | zero =>
    intro n1 n2 s1 s2 hn hk h1 h2
    obtain ⟨m1, rfl⟩ : ∃ m, n1 = m + 1 := ⟨n1 - 1, by omega⟩
    obtain ⟨m2, rfl⟩ : ∃ m, n2 = m + 1 := ⟨n2 - 1, by omega⟩
    rw [bodyLoop_succ, bodyLoop_succ]
    refine Alike.bind resp_bodyStep hn (fun _ => .ite (.pure _) (bodyLoop_mono _)) (fun _ => .ite (.pure _) (bodyLoop_mono _)) ?_
    intro b t1 t2 e1 _ _
    have := bodyStep_less _ _ _ e1
    omega
  | succ k ih =>
    intro n1 n2 s1 s2 hn hk h1 h2
    obtain ⟨m1, rfl⟩ : ∃ m, n1 = m + 1 := ⟨n1 - 1, by omega⟩
    obtain ⟨m2, rfl⟩ : ∃ m, n2 = m + 1 := ⟨n2 - 1, by omega⟩
    rw [bodyLoop_succ, bodyLoop_succ]
    refine Alike.bind resp_bodyStep hn (fun _ => .ite (.pure _) (bodyLoop_mono _)) (fun _ => .ite (.pure _) (bodyLoop_mono _)) ?_
    intro b t1 t2 e1 _ ht
    have := bodyStep_less _ _ _ e1
    cases b with
    | true => exact (Resp.pure ()).1 _ _ ht
    | false => exact ih _ _ _ _ ht (by omega) (by omega) (by omega)

theorem resp_body : Resp (get >>= fun s => bodyLoop (avail s + 1)) := by
  refine ⟨fun s1 s2 hn => ?_, Mono.get.bind fun _ => bodyLoop_mono _⟩
  exact bodyLoop_alike _ (avail s1 + 1) (avail s2 + 1) s1 s2 hn (Nat.le_refl _) (avail_stream s1)
    (by rw [norm_stream hn]; exact avail_stream s2)

theorem resp_reset : Resp resetTransaction := Resp.set (by intro s; rfl) (by intro s; exact ⟨rfl, rfl, rfl⟩)

theorem resp_data (cfg : Cfg) : Resp (smtpData cfg) := by
  refine .get (fun _ => rfl) fun _ => (resp_toChild _).bind fun _ => (resp_smtpline _ _ _).bind fun _ => .get (fun _ => rfl) fun _ =>
    (resp_toClient _).bind fun _ => .ite (.pure _) ?_
  have := resp_body.bind fun _ => (resp_smtpline cfg none true).bind fun _ =>
    Resp.get (f := fun s => toClient s.cline >>= fun _ => resetTransaction) (fun _ => rfl) fun _ => (resp_toClient _).bind fun _ => resp_reset
  rw [bind_assoc'] at this
  exact this

/-! ### The other commands -/

theorem resp_greyWrite (cfg : Cfg) : Resp (greyWrite cfg) := by
  refine Resp.step (greyWrite cfg) (fun _ => rfl) (fun s => ?_) ⟨fun s p hp => ?_, fun s a s' e => ?_⟩
  · unfold greyWrite norm
    cases hw : s.gwr with
    | nil => simp [normR, norm, stream, evStream, hw]
    | cons b t => cases b <;> cases cfg.closed <;> simp [normR, norm, bare, stream, evStream]
  · unfold greyWrite
    cases s.gwr with
    | nil => exact hp
    | cons b t => cases b <;> cases cfg.closed <;> exact hp
  · unfold greyWrite at e
    cases hw : s.gwr with
    | nil => rw [hw] at e; cases e; exact Nat.le_refl _
    | cons b t =>
      rw [hw] at e
      cases b
      · simp only at e
        split at e <;> cases e; exact Nat.le_refl _
      · cases e; exact Nat.le_refl _

theorem resp_greyRead (cfg : Cfg) (n : Nat) : ∀ buf resp, Resp (greyRead cfg n buf resp) := by
  induction n with
  | zero => intro _ _; exact Resp.die _
  | succ n ih =>
    intro buf resp
    rw [greyRead]
    refine .get (fun _ => rfl) fun s => ?_
    cases buf with
    | nil =>
      cases s.gin with
      | nil => exact .ite (.die _) (.pure _)
      | cons d t => cases d with
        | nil => exact (Resp.set (by intro s; rfl) (by intro s; exact ⟨rfl, rfl, rfl⟩)).bind fun _ => .ite (.die _) (.pure _)
        | cons b d => exact (Resp.set (by intro s; rfl) (by intro s; exact ⟨rfl, rfl, rfl⟩)).bind fun _ => ih _ _
    | cons ch buf =>
      exact .ite ((Resp.act _).bind fun _ => .pure _) (.ite (.pure _) (ih _ _))

theorem resp_greylist (cfg : Cfg) : Resp (greylist cfg) := by
  refine .get (fun _ => rfl) fun s => (resp_greyWrite cfg).bind fun ok => .ite (.pure _) <| (Resp.act _).bind fun _ =>
    (resp_greyRead _ _ _ _).bind fun r => ?_
  cases r with
  | none => exact .pure _
  | some resp =>
    exact (Resp.act _).bind fun _ => (Resp.lift _).bind fun _ => .ite (.pure _) ((Resp.lift _).bind fun _ => .ite (.pure _) (.pure _))

theorem resp_mail (cfg : Cfg) : Resp (smtpMail cfg) := by
  refine resp_reset.bind fun _ => .get (fun _ => rfl) fun s => .ite ?_ ((resp_copy _ _).bind fun _ => .pure _)
  exact (Resp.lift _).bind fun _ => .ite (.ite (.die _) <| (Resp.set (by intro s; rfl) (by intro s; exact ⟨rfl, rfl, rfl⟩)).bind
    fun _ => (resp_copy _ _).bind fun _ => .pure _) ((resp_copy _ _).bind fun _ => .pure _)

theorem resp_remember : Resp rememberRcpt := by
  refine .get (fun _ => rfl) fun s => .ite ?_ (.pure _)
  exact (Resp.lift _).bind fun _ => .ite (.ite (.die _) <| .ite (.die _) <| .ite (.die _) <|
    Resp.set (by intro s; rfl) (by intro s; exact ⟨rfl, rfl, rfl⟩)) (.pure _)

theorem resp_rcpt (cfg : Cfg) : Resp (smtpRcpt cfg) := by
  have hk : ∀ msg : Option Bytes, Resp (match msg with
      | some msg => do
        modify fun s => { s with cline := catlogid cfg msg ++ b!"\r\n" }
        let s ← get
        toClient s.cline
      | none => do let _ ← copy cfg true) := by
    intro msg
    cases msg with
    | none => exact (resp_copy _ _).bind fun _ => .pure _
    | some m => exact (Resp.set (by intro s; rfl) (by intro s; exact ⟨rfl, rfl, rfl⟩)).bind fun _ => .get (fun _ => rfl) fun _ => resp_toClient _
  refine resp_remember.bind fun _ => .get (fun _ => rfl) fun s => .ite ((resp_greylist cfg).bind hk) (hk none)

theorem resp_ehlo (cfg : Cfg) : Resp (smtpEhlo cfg) :=
  .get (fun _ => rfl) fun _ => (resp_toChild _).bind fun _ => (resp_smtpline _ _ _).bind fun _ => .get (fun _ => rfl) fun _ => resp_toClient _

theorem mono_discard : Mono discard := by
  refine ⟨fun s p hp => ?_, fun s a s' e => ?_⟩
  · unfold discard
    cases drain s.net with
    | none => exact hp
    | some t => exact hp.trans (List.prefix_append _ _)
  · unfold discard at e
    cases h : drain s.net with
    | none => rw [h] at e; cases e
    | some t =>
      rw [h] at e
      cases e
      obtain ⟨lost, e⟩ := drain_stream _ _ h
      simp only [stream, e, List.nil_append, List.length_append]
      omega

theorem mono_readAck : Mono readAck := by
  refine ⟨fun s p hp => ?_, fun s a s' e => ?_⟩
  · unfold readAck
    cases s.acks with
    | nil => exact hp
    | cons b t => simp only; split <;> exact hp.trans (List.prefix_append _ _)
  · unfold readAck at e
    cases h : s.acks with
    | nil => rw [h] at e; cases e
    | cons b t =>
      rw [h] at e
      simp only at e
      split at e <;> cases e
      exact Nat.le_refl _

/-- Asking for TLS and throwing away what waits. -/
def upgrade : M Unit := do
  act (.ctl [0])
  modify fun s => { s with ctl := false }
  discard

theorem upgrade_def (s : S) : upgrade s = match drain s.net with
    | some t => .ok () { s with ctl := false, buf := [], net := t, log := s.log ++ [.ctl [0], .discard (evStream t).length] }
    | none => .die 111 { s with ctl := false, buf := [], log := s.log ++ [.ctl [0]] } := by
  show discard { s with ctl := false, log := s.log ++ [.ctl [0]] } = _
  unfold discard
  cases drain s.net <;> simp

theorem resp_upgrade : Resp upgrade := by
  refine ⟨fun s1 s2 hn => ?_, (Mono.act _).bind fun _ => (Mono.modify (by intro s; exact ⟨rfl, rfl, List.prefix_rfl⟩)).bind fun _ => mono_discard⟩
  have hl : (norm s1).log = (norm s2).log := by rw [hn]
  replace hl : s1.log = s2.log := hl
  have hb := bare_norm hn
  have hs := norm_stream hn
  rw [upgrade_def, upgrade_def]
  cases e1 : drain s1.net with
  | none =>
    cases e2 : drain s2.net with
    | none =>
      refine .inl ?_
      have := congrArg (fun s => R.die (α := Unit) 111 { s with ctl := false, log := s.log ++ [.ctl [0]] }) hb
      exact this
    | some t2 => exact .inr ⟨s1.log, none, some _, by simp, ⟨_, rfl, rfl⟩, by simp only [After, Grown, hl]; exact List.prefix_rfl⟩
  | some t1 =>
    cases e2 : drain s2.net with
    | none => exact .inr ⟨s1.log, some _, none, by simp, by simp only [After, Grown]; exact List.prefix_rfl, ⟨_, rfl, by simp only [hl]⟩⟩
    | some t2 =>
      by_cases hlen : (evStream t1).length = (evStream t2).length
      · refine .inl ?_
        obtain ⟨l1, d1⟩ := drain_stream _ _ e1
        obtain ⟨l2, d2⟩ := drain_stream _ _ e2
        have he : evStream t1 = evStream t2 := by
          simp only [stream, d1, d2, ← List.append_assoc] at hs
          exact (List.append_inj' hs hlen).2
        have := congrArg (fun s => R.ok () { s with ctl := false, buf := evStream t1, log := s.log ++ [.ctl [0], .discard (evStream t1).length] }) hb
        simp only [normR, norm, stream, List.nil_append, ← he]
        exact this
      · exact .inr ⟨s1.log, some _, some _, by simpa using hlen, by simp only [After, Grown]; exact List.prefix_rfl,
          by simp only [After, Grown, hl]; exact List.prefix_rfl⟩

theorem resp_readAck : Resp readAck := by
  refine Resp.step readAck (fun _ => rfl) (fun s => ?_) mono_readAck
  unfold readAck norm
  cases hw : s.acks with
  | nil => simp [normR, bare, hw]
  | cons b t =>
    by_cases hb : b = 0
    · simp [normR, norm, stream, evStream, hb]
    · simp [normR, bare, hb]

theorem resp_starttls (cfg : Cfg) : Resp (smtpStarttls cfg) := by
  have hm : ∀ m : Bytes, Resp (modify fun s => { s with cline := m }) := fun m =>
    Resp.set (by intro s; rfl) (by intro s; exact ⟨rfl, rfl, rfl⟩)
  have hu := resp_upgrade.bind fun _ => resp_readAck.bind fun _ => (resp_toChild b!"RSET\r\n").bind fun _ =>
    (resp_smtpline cfg none true).bind fun _ => resp_reset
  simp only [upgrade, bind_assoc'] at hu
  exact .get (fun _ => rfl) fun _ => .ite ((hm _).bind fun _ => .get (fun _ => rfl) fun _ => resp_toClient _) <|
    (hm _).bind fun _ => .get (fun _ => rfl) fun _ => (resp_toClient _).bind fun _ => resp_write.bind fun _ =>
    hu

theorem resp_run (cfg : Cfg) (v : Verb) : Resp (run cfg v) := by
  cases v with
  | quit => exact (resp_copy _ _).bind fun _ => .die _
  | data => exact resp_data cfg
  | mail => exact resp_mail cfg
  | rcpt => exact resp_rcpt cfg
  | ehlo => exact resp_ehlo cfg
  | starttls => exact resp_starttls cfg
  | default => exact (resp_copy _ _).bind fun _ => .pure _

theorem resp_command (cfg : Cfg) : Resp (command cfg) :=
  resp_readline.bind fun _ => .get (fun _ => rfl) fun _ => (Resp.lift _).bind fun v => resp_run cfg v

theorem command_less (cfg : Cfg) : ∀ s b s', command cfg s = .ok b s' → (stream s').length < (stream s).length :=
  less_bind readline_less fun _ => Mono.get.bind fun _ => (Mono.lift _).bind fun v => (resp_run cfg v).2

theorem commands_mono (cfg : Cfg) (n : Nat) : Mono (commands cfg n) := by
  induction n with
  | zero => exact Mono.pure _
  | succ n ih => exact (resp_command cfg).2.bind fun _ => ih

theorem commands_alike (cfg : Cfg) (k : Nat) : ∀ (n1 n2 : Nat) (s1 s2 : S), norm s1 = norm s2 → (stream s1).length ≤ k → k < n1 → k < n2 →
    Alike (commands cfg n1 s1) (commands cfg n2 s2) := by
  induction k with
  | zero =>
    intro n1 n2 s1 s2 hn hk h1 h2
    obtain ⟨m1, rfl⟩ : ∃ m, n1 = m + 1 := ⟨n1 - 1, by omega⟩
    obtain ⟨m2, rfl⟩ : ∃ m, n2 = m + 1 := ⟨n2 - 1, by omega⟩
    refine Alike.bind (resp_command cfg) hn (fun _ => commands_mono _ _) (fun _ => commands_mono _ _) ?_
    intro b t1 t2 e1 _ _
    have := command_less cfg _ _ _ e1
    omega
  | succ k ih =>
    intro n1 n2 s1 s2 hn hk h1 h2
    obtain ⟨m1, rfl⟩ : ∃ m, n1 = m + 1 := ⟨n1 - 1, by omega⟩
    obtain ⟨m2, rfl⟩ : ∃ m, n2 = m + 1 := ⟨n2 - 1, by omega⟩
    refine Alike.bind (resp_command cfg) hn (fun _ => commands_mono _ _) (fun _ => commands_mono _ _) ?_
    intro b t1 t2 e1 _ ht
    have := command_less cfg _ _ _ e1
    exact ih _ _ _ _ ht (by omega) (by omega) (by omega)

theorem resp_session (cfg : Cfg) : Resp (session cfg) := by
  refine Resp.bind ((resp_smtpline _ _ _).bind fun _ => .get (fun _ => rfl) fun _ => resp_toClient _) fun _ => ?_
  refine ⟨fun s1 s2 hn => ?_, Mono.get.bind fun _ => commands_mono _ _⟩
  exact commands_alike cfg _ (avail s1 + 1) (avail s2 + 1) s1 s2 hn (Nat.le_refl _) (avail_stream s1)
    (by rw [norm_stream hn]; exact avail_stream s2)

/-! ### C113 -/

/-- The client's bytes up to its end: what its segments say together, before it closes or the connection breaks.
(Specification or proof notion; models no line of /repo.) -/
def Spec.sent (net : List Ev) : Bytes :=
  (net.takeWhile fun e => e != .data [] && e != .fail).flatMap fun e => match e with
    | .data d => d
    | _ => []

theorem sent_eq (net : List Ev) : Spec.sent net = evStream net := by
  induction net with
  | nil => rfl
  | cons e t ih =>
    unfold Spec.sent at ih ⊢
    cases e with
    | data d => cases d with
      | nil => simp [evStream]
      | cons b d => rw [List.takeWhile_cons_of_pos (by simp), List.flatMap_cons, ih]; simp [evStream]
    | gap => rw [List.takeWhile_cons_of_pos (by simp), List.flatMap_cons, ih]; simp [evStream]
    | fail => simp [evStream]

/-- After the actions `p` the session asked for TLS. Then `some n`: it threw away the cleartext that was waiting, and `n` bytes of what
the client sent were still to come; `none`: that failed, and the session ended with code 111.
(Specification or proof notion; models no line of /repo.) -/
def Spec.Upgraded (p : List Act) (x : Int) (log : List Act) : Option Nat → Prop
  | some n => p ++ [.ctl [0], .discard n] <+: log
  | none => x = 111 ∧ log = p ++ [.ctl [0]]

/-- Two clients that send the same bytes, in whatever segments and with whatever pauses, get the same session: the same lines are taken
from them, the child and the client are sent the same bytes in the same order, and the session ends with the same code. The one
exception is the upgrade to TLS: up to it all is the same, and then different amounts of what the two sent were thrown away. -/
theorem c113_cut {cfg : Cfg} {net1 net2 : List Ev} {cin : Bytes} {tls0 : Bool} {acks : Bytes} {gin : List Bytes}
    {wr gwr : List Bool} {x1 x2 : Int} {s1 s2 : S} (hs : Spec.sent net1 = Spec.sent net2)
    (h1 : Ran cfg net1 cin tls0 acks gin wr gwr x1 s1) (h2 : Ran cfg net2 cin tls0 acks gin wr gwr x2 s2) :
    (x1 = x2 ∧ s1.log = s2.log) ∨
    ∃ p o1 o2, o1 ≠ o2 ∧ Spec.Upgraded p x1 s1.log o1 ∧ Spec.Upgraded p x2 s2.log o2 := by
  have hn : norm (start net1 cin tls0 acks gin wr gwr) = norm (start net2 cin tls0 acks gin wr gwr) := by
    rw [sent_eq, sent_eq] at hs
    simp only [norm, start, stream, hs]
  have h := (resp_session cfg).1 _ _ hn
  unfold Ran at h1 h2
  rw [h1, h2] at h
  rcases h with h | ⟨p, o1, o2, ho, g1, g2⟩
  · left
    simp only [normR, R.die.injEq] at h
    have : (bare s1).log = (bare s2).log := by rw [h.2]
    exact ⟨h.1, this⟩
  · right
    refine ⟨p, o1, o2, ho, ?_, ?_⟩
    · cases o1 with
      | none => obtain ⟨t, e, k⟩ := g1; cases e; exact ⟨rfl, k⟩
      | some n => exact g1
    · cases o2 with
      | none => obtain ⟨t, e, k⟩ := g2; cases e; exact ⟨rfl, k⟩
      | some n => exact g2

theorem upgraded_asked {p : List Act} {x : Int} {log : List Act} {o : Option Nat} (h : Spec.Upgraded p x log o) : p ++ [.ctl [0]] <+: log := by
  cases o with
  | none => exact h.2 ▸ List.prefix_rfl
  | some n =>
    have h : p ++ [.ctl [0], .discard n] <+: log := h
    exact List.IsPrefix.trans ⟨[.discard n], by simp⟩ h

/-- If one of them does not upgrade to TLS, then the other does not either, and all is the same. -/
theorem c113_plain {cfg : Cfg} {net1 net2 : List Ev} {cin : Bytes} {tls0 : Bool} {acks : Bytes} {gin : List Bytes}
    {wr gwr : List Bool} {x1 x2 : Int} {s1 s2 : S} (hs : Spec.sent net1 = Spec.sent net2)
    (h1 : Ran cfg net1 cin tls0 acks gin wr gwr x1 s1) (h2 : Ran cfg net2 cin tls0 acks gin wr gwr x2 s2)
    (hc : Act.ctl [0] ∉ s1.log) : x1 = x2 ∧ s1.log = s2.log := by
  rcases c113_cut hs h1 h2 with h | ⟨p, o1, o2, -, g1, -⟩
  · exact h
  · exact absurd ((upgraded_asked g1).subset (by simp)) hc

/-- For every way to cut there is a session, so that the two theorems above speak of all of them: in particular the session of a client that
sends everything in one segment is that of a client that sends byte by byte. -/
theorem c113_bytewise (cfg : Cfg) (d : Bytes) (cin : Bytes) (tls0 : Bool) (acks : Bytes) (gin : List Bytes) (wr gwr : List Bool) :
    ∃ x1 s1 x2 s2, Ran cfg [.data d] cin tls0 acks gin wr gwr x1 s1 ∧
      Ran cfg (d.flatMap fun b => [.data [b], .gap]) cin tls0 acks gin wr gwr x2 s2 ∧
      (Act.ctl [0] ∉ s1.log → x1 = x2 ∧ s1.log = s2.log) := by
  obtain ⟨x1, s1, h1⟩ := c47_ends cfg [.data d] cin tls0 acks gin wr gwr
  obtain ⟨x2, s2, h2⟩ := c47_ends cfg (d.flatMap fun b => [.data [b], .gap]) cin tls0 acks gin wr gwr
  refine ⟨x1, s1, x2, s2, h1, h2, c113_plain ?_ h1 h2⟩
  rw [sent_eq, sent_eq]
  have e1 : evStream [.data d] = d := by cases d <;> simp [evStream]
  rw [e1]
  clear h1 h2 e1
  induction d with
  | nil => rfl
  | cons b t ih => simp [evStream, ← ih]

/-- The upgrade is where the cutting matters: the same bytes, once with and once without a pause after the STARTTLS line. With the pause the
QUIT comes after the upgrade and is served; without it it is thrown away. -/
theorem c113_pause : ∃ (net1 net2 : List Ev) (cin : Bytes) (acks : Bytes), Spec.sent net1 = Spec.sent net2 ∧
    (∃ s1, Ran ⟨none, false, false, []⟩ net1 cin true acks [] [] [] 0 s1 ∧ Act.line b!"QUIT" ∈ s1.log) ∧
    ∃ s2, Ran ⟨none, false, false, []⟩ net2 cin true acks [] [] [] 111 s2 ∧ Act.line b!"QUIT" ∉ s2.log :=
  ⟨[.data b!"STARTTLS\n", .gap, .data b!"QUIT\n"], [.data b!"STARTTLS\nQUIT\n"], b!"220 a\r\n250 b\r\n221 c\r\n", [0],
    by decide +kernel, ran_check _ (by decide +kernel), ran_check _ (by decide +kernel)⟩

/-- Sessions for the theorems above: the NOOP and QUIT of the example of C47, byte soup and in one piece. -/
example : ∃ s1 s2, Ran ⟨some b!"id", false, false, []⟩ [.data b!"NO", .gap, .data b!"OP x\r\nquit\n"]
      b!"220 hi\r\n250-a\r\n250 b\r\n221 bye\r\n" true [] [] [] [] 0 s1 ∧
    Ran ⟨some b!"id", false, false, []⟩ [.gap, .data b!"NOOP x\r", .data b!"\nqui", .gap, .gap, .data b!"t\n", .fail, .data b!"more"]
      b!"220 hi\r\n250-a\r\n250 b\r\n221 bye\r\n" true [] [] [] [] 0 s2 ∧
    s1.log = s2.log ∧ Act.line b!"NOOP x\r" ∈ s2.log := by
  obtain ⟨s1, h1, k1⟩ := ran_check (cfg := ⟨some b!"id", false, false, []⟩) (net := [.data b!"NO", .gap, .data b!"OP x\r\nquit\n"])
    (cin := b!"220 hi\r\n250-a\r\n250 b\r\n221 bye\r\n") (tls0 := true) (acks := []) (gin := []) (wr := []) (gwr := []) (x := 0)
    (fun s => Act.line b!"NOOP x\r" ∈ s.log ∧ Act.ctl [0] ∉ s.log) (by decide +kernel)
  obtain ⟨x2, s2, h2⟩ := c47_ends ⟨some b!"id", false, false, []⟩
    [.gap, .data b!"NOOP x\r", .data b!"\nqui", .gap, .gap, .data b!"t\n", .fail, .data b!"more"]
    b!"220 hi\r\n250-a\r\n250 b\r\n221 bye\r\n" true [] [] [] []
  obtain ⟨rfl, e⟩ := c113_plain (by decide +kernel) h1 h2 k1.2
  exact ⟨s1, s2, h1, h2, e, e ▸ k1.1⟩

end Smtp
