import Verif.Smtp.Stream
/-
C47, C48, C49: what the front end takes from the client and gives to the child.
-/
namespace Smtp
open Str Str.Spec

/-! ### Sessions as a whole -/

/-- A session with the given inputs ended with `die(x)` in state `s`. -/
def Ran (cfg : Cfg) (net : List Ev) (cin : Bytes) (tls0 : Bool) (acks : Bytes) (gin : List Bytes)
    (wr gwr : List Bool) (x : Int) (s : S) : Prop :=
  session cfg (start net cin tls0 acks gin wr gwr) = .die x s

section
variable {cfg : Cfg} {net : List Ev} {cin : Bytes} {tls0 : Bool} {acks : Bytes} {gin : List Bytes}
  {wr gwr : List Bool} {x : Int} {s : S}

/-- Every session ends by itself, without undefined behaviour. -/
theorem c47_ends (cfg : Cfg) (net : List Ev) (cin : Bytes) (tls0 : Bool) (acks : Bytes) (gin : List Bytes)
    (wr gwr : List Bool) : ∃ x s, Ran cfg net cin tls0 acks gin wr gwr x s := by
  have := session_at (cfg := cfg) (tls0 := tls0) net cin acks gin wr gwr
  unfold Ran
  cases e : session cfg (start net cin tls0 acks gin wr gwr) with
  | ub => rw [e] at this; exact this.elim
  | ok a s => rw [e] at this; exact this.elim
  | die x s => exact ⟨x, s, rfl⟩

theorem Ran.dead (h : Ran cfg net cin tls0 acks gin wr gwr x s) : Dead cfg tls0 x s := by
  have := session_at (cfg := cfg) (tls0 := tls0) net cin acks gin wr gwr
  rw [show session _ _ = _ from h] at this
  exact this

/-- Its actions are allowed by the specification. -/
theorem c47_trace (h : Ran cfg net cin tls0 acks gin wr gwr x s) :
    ∃ p, Spec.Trace cfg tls0 .start s.log p ∧ (x = 111 ∧ p ≠ .over ∨ x = 0 ∧ p = .over) := by
  obtain ⟨p, h1, h2⟩ := h.dead
  exact ⟨p, h1.1, h2⟩

theorem Ran.inEnd (h : Ran cfg net cin tls0 acks gin wr gwr x s) : InEnd net cin s := by
  have := session_in (cfg := cfg) net cin tls0 acks gin wr gwr
  rw [show session _ _ = _ from h] at this
  exact this

/-! ### Taking traces apart -/

theorem Trace.split {p r : Spec.Phase} {l1 l2 : List Act} {a : Act}
    (h : Spec.Trace cfg tls0 p (l1 ++ a :: l2) r) :
    ∃ q q', Spec.Trace cfg tls0 p l1 q ∧ Spec.Step cfg tls0 q a q' ∧ Spec.Trace cfg tls0 q' l2 r := by
  generalize hl : l1 ++ a :: l2 = l at h
  induction h generalizing l2 with
  | nil => simp at hl
  | snoc l q b r h hs ih =>
    rcases List.eq_nil_or_concat l2 with rfl | ⟨l2', c, rfl⟩
    · rw [List.append_inj_left' hl rfl]
      have := List.append_inj_right' hl rfl
      cases this
      exact ⟨q, r, h, hs, .nil _⟩
    · rw [List.concat_eq_append, ← List.cons_append, ← List.append_assoc] at hl
      rw [List.concat_eq_append]
      have h1 := List.append_inj_left' hl rfl
      have h2 := List.append_inj_right' hl rfl
      cases h2
      obtain ⟨q1, q2, t1, t2, t3⟩ := ih h1
      exact ⟨q1, q2, t1, t2, .snoc _ _ _ _ _ t3 hs⟩

theorem Trace.head {p r : Spec.Phase} {l : List Act} {a : Act} (h : Spec.Trace cfg tls0 p (a :: l) r) :
    ∃ q, Spec.Step cfg tls0 p a q ∧ Spec.Trace cfg tls0 q l r := by
  obtain ⟨q, q', h1, h2, h3⟩ := Trace.split (l1 := []) h
  generalize hl : ([] : List Act) = l' at h1
  cases h1 with
  | nil => exact ⟨q', h2, h3⟩
  | snoc l _ b => simp at hl

theorem Trace.last {p r : Spec.Phase} {l : List Act} (h : Spec.Trace cfg tls0 p l r) :
    (l = [] ∧ r = p) ∨ ∃ l' a q, l = l' ++ [a] ∧ Spec.Trace cfg tls0 p l' q ∧ Spec.Step cfg tls0 q a r := by
  cases h with
  | nil => exact .inl ⟨rfl, rfl⟩
  | snoc l q a _ h hs => exact .inr ⟨l, a, q, rfl, h, hs⟩

/-! ### C47 -/

/-- What was done before the child gets a client's line. -/
theorem Trace.got {c : Spec.Ctx} {raw : Bytes} {l : List Act}
    (h : Spec.Trace cfg tls0 .start l (.got c raw)) :
    ∃ l', l = l' ++ [.line raw] ∧ c! '\n' ∉ raw := by
  rcases Trace.last h with ⟨_, h⟩ | ⟨l', a, q, rfl, _, hs⟩
  · cases h
  · cases hs; exact ⟨l', rfl, by assumption⟩
theorem Trace.asked {c : Spec.Ctx} {raw : Bytes} {l : List Act}
    (h : Spec.Trace cfg tls0 .start l (.asked c raw)) :
    ∃ l' q, l = l' ++ [.line raw, .ask q] ∧ c! '\n' ∉ raw := by
  rcases Trace.last h with ⟨_, h⟩ | ⟨l', a, q, rfl, h', hs⟩
  · cases h
  · cases hs
    obtain ⟨l'', rfl, h2⟩ := Trace.got h'
    exact ⟨l'', _, List.append_assoc _ _ _, h2⟩
theorem Trace.answered {c : Spec.Ctx} {raw a : Bytes} {l : List Act}
    (h : Spec.Trace cfg tls0 .start l (.answered c raw a)) :
    ∃ l' q, l = l' ++ [.line raw, .ask q, .answer a] ∧ c! '\n' ∉ raw := by
  rcases Trace.last h with ⟨_, h⟩ | ⟨l', a, q, rfl, h', hs⟩
  · cases h
  · cases hs
    obtain ⟨l'', q, rfl, h2⟩ := Trace.asked h'
    exact ⟨l'', q, by simp, h2⟩
theorem Trace.bodyLine {c : Spec.Ctx} {raw : Bytes} {l : List Act}
    (h : Spec.Trace cfg tls0 .start l (.bodyLine c raw)) :
    ∃ l', l = l' ++ [.line raw] ∧ c! '\n' ∉ raw := by
  rcases Trace.last h with ⟨_, h⟩ | ⟨l', a, q, rfl, _, hs⟩
  · cases h
  · cases hs; exact ⟨l', rfl, by assumption⟩
theorem Trace.acked {c : Spec.Ctx} {l : List Act}
    (h : Spec.Trace cfg tls0 .start l (.acked c)) : ∃ l', l = l' ++ [.ack 0] := by
  rcases Trace.last h with ⟨_, h⟩ | ⟨l', a, q, rfl, _, hs⟩
  · cases h
  · cases hs; exact ⟨l', rfl⟩

theorem forward_of_noNul (raw : Bytes) (hn : NoNul raw) : Spec.forward raw = Spec.content raw ++ b!"\r\n" := by
  have : ∀ l : Bytes, NoNul l → l.map (fun b => if b = 0 then c! '\n' else b) = l := by
    intro l h
    induction l with
    | nil => rfl
    | cons b l ih =>
      simp only [List.map_cons, ih h.tail, h.head, if_false]
  unfold Spec.forward
  rw [this]
  unfold Spec.content
  split
  · intro b h; exact hn b (List.dropLast_subset _ h)
  · exact hn

theorem content_sub (raw : Bytes) : ∀ b ∈ Spec.content raw, b ∈ raw := by
  intro b h
  unfold Spec.content at h
  split at h
  · exact List.dropLast_subset _ h
  · exact h

theorem content_dot (raw : Bytes) (h : Spec.content raw = b!".") : Spec.forward raw = b!".\r\n" := by
  unfold Spec.forward; rw [h]; decide

/-- C47, except for lines with NUL bytes (see `c47_nul_splits`): whatever the
client sends, and whenever the session ends, everything the child was given is
the line last taken from the client, once, with CRLF for its line ending and
without any other LF; or the front end's own RSET after STARTTLS. Between taking
a line and passing it on, at most the greylist server was asked. -/
theorem c47_forward_partial (h : Ran cfg net cin tls0 acks gin wr gwr x s) (pre post : List Act) (d : Bytes)
    (hl : s.log = pre ++ .child d :: post) :
    (d = b!"RSET\r\n" ∧ ∃ pre', pre = pre' ++ [.ack 0]) ∨
    ∃ pre' raw mid, pre = pre' ++ .line raw :: mid ∧ (∀ a ∈ mid, ∃ y, a = .ask y ∨ a = .answer y) ∧
      c! '\n' ∉ raw ∧ d = Spec.forward raw ∧
      (NoNul raw → d = Spec.content raw ++ b!"\r\n" ∧ c! '\n' ∉ Spec.content raw) := by
  obtain ⟨p, ht, _⟩ := c47_trace h
  rw [hl] at ht
  obtain ⟨q, q', t1, t2, t3⟩ := Trace.split ht
  have fin : ∀ raw, c! '\n' ∉ raw →
      (NoNul raw → Spec.forward raw = Spec.content raw ++ b!"\r\n" ∧ c! '\n' ∉ Spec.content raw) := fun raw h1 h2 =>
    ⟨forward_of_noNul raw h2, fun h => h1 (content_sub raw _ h)⟩
  cases t2
  case rset => exact .inl ⟨rfl, Trace.acked t1⟩
  case forward c raw _ _ =>
    obtain ⟨l, rfl, hn⟩ := Trace.got t1
    exact .inr ⟨l, raw, [], rfl, by simp, hn, rfl, fin raw hn⟩
  case unasked c raw _ _ =>
    obtain ⟨l, rfl, hn⟩ := Trace.got t1
    exact .inr ⟨l, raw, [], rfl, by simp, hn, rfl, fin raw hn⟩
  case unanswered c raw _ =>
    obtain ⟨l, q, rfl, hn⟩ := Trace.asked t1
    exact .inr ⟨l, raw, [.ask q], rfl, by simp, hn, rfl, fin raw hn⟩
  case pass c raw a _ =>
    obtain ⟨l, q, rfl, hn⟩ := Trace.answered t1
    exact .inr ⟨l, raw, [.ask q, .answer a], rfl, by simp, hn, rfl, fin raw hn⟩
  case overlong c raw a _ _ =>
    obtain ⟨l, q, rfl, hn⟩ := Trace.answered t1
    exact .inr ⟨l, raw, [.ask q, .answer a], rfl, by simp, hn, rfl, fin raw hn⟩
  case bodyForward c raw _ =>
    obtain ⟨l, rfl, hn⟩ := Trace.bodyLine t1
    exact .inr ⟨l, raw, [], rfl, by simp, hn, rfl, fin raw hn⟩
  case bodyDot c raw hd =>
    obtain ⟨l, rfl, hn⟩ := Trace.bodyLine t1
    refine .inr ⟨l, raw, [], rfl, by simp, hn, (content_dot raw hd).symm, ?_⟩
    intro h2; rw [← content_dot raw hd]; exact fin raw hn h2

/-- C47: the lines are the client's lines, in order; nothing the client sent is
skipped or repeated, except what the front end throws away at STARTTLS. (`part`
is the line the session ended in.) -/
theorem c47_lines (h : Ran cfg net cin tls0 acks gin wr gwr x s) :
    ∃ part, Spec.Taken net s.log (part ++ (s.buf ++ evStream s.net)) := h.inEnd.taken

/-- C47 at work: a command without special treatment reaches the child as it is,
and the child's reply the client, if all writes succeed and the lines fit. -/
theorem c47_command (cfg : Cfg) (s : S) (l rest r h : Bytes) (sep : Byte) (t crest : Bytes)
    (hs : stream s = l ++ c! '\n' :: rest) (hn : c! '\n' ∉ l) (hl : l.length ≤ 4096)
    (hv : Spec.verb l = .default) (hw : s.wr = [])
    (hr : Spec.Reply r h sep t) (hc : s.cin = r ++ crest) (hrl : r.length ≤ 4096) :
    ∃ s', command cfg s = .ok () s' ∧ stream s' = rest ∧ s'.cin = crest ∧
      s'.log = s.log ++ [.line l, .child (Spec.forward l), .reply r, .client (Spec.beforeNul r)] := by
  obtain ⟨buf, net, e, hr'⟩ := readline_ok s l rest hs hn hl
  simp only [command, bind_def, e, get_def]
  rw [lookup_eq, hv, lift_ok]
  simp only [run, smtpDefault, copy, bind_def, get_def, toChild, write, hw, act, modify_def]
  rw [smtpline_ok cfg none false _ r h sep t crest hr (by exact hc) hrl (by simp)]
  simp only [toClient, bind_def, write, act, modify_def, pure_def]
  refine ⟨_, rfl, hr', rfl, ?_⟩
  simp only [upToNul_forward, formed, List.append_assoc]
  rfl

end

/-- How to check a session. -/
theorem ran_check {cfg : Cfg} {net : List Ev} {cin : Bytes} {tls0 : Bool} {acks : Bytes} {gin : List Bytes}
    {wr gwr : List Bool} {x : Int} (P : S → Prop) [DecidablePred P]
    (h : (match session cfg (start net cin tls0 acks gin wr gwr) with
      | .die y s => decide (y = x ∧ P s)
      | _ => false) = true) : ∃ s, Ran cfg net cin tls0 acks gin wr gwr x s ∧ P s := by
  split at h
  · rename_i y s e
    simp only [decide_eq_true_eq] at h
    exact ⟨s, by rw [← h.1]; exact e, h.2⟩
  · cases h

/-- C47 is violated by NUL bytes: they reach the child as LF, so that one line of
the client is two lines for the child. -/
theorem c47_nul_splits : ∃ (net : List Ev) (cin : Bytes),
    evStream net = b!"NOOP\x00QUIT\r\n" ∧
    ∃ s, Ran ⟨none, false, false, []⟩ net cin false [] [] [] [] 111 s ∧ Act.child b!"NOOP\nQUIT\r\n" ∈ s.log :=
  ⟨[.data b!"NOOP\x00QUIT\r\n"], b!"220 hi\r\n250 ok\r\n", rfl, ran_check _ (by decide +kernel)⟩

/-- A session for the theorems above: a NOOP in two pieces and a QUIT. -/
example : ∃ s, Ran ⟨some b!"id", false, false, []⟩ [.data b!"NO", .gap, .data b!"OP x\r\nquit\n"]
    b!"220 hi\r\n250-a\r\n250 b\r\n221 bye\r\n" true [] [] [] [] 0 s ∧
    s.log = [.reply b!"220 hi\r\n", .client b!"220 hi [id]\r\n",
      .line b!"NOOP x\r", .child b!"NOOP x\r\n", .reply b!"250-a\r\n250 b\r\n", .client b!"250-a\r\n250 b\r\n",
      .line b!"quit", .child b!"quit\r\n", .reply b!"221 bye\r\n", .client b!"221 bye [id]\r\n"] :=
  ran_check _ (by decide +kernel)

end Smtp
