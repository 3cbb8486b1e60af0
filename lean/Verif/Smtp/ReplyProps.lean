import Verif.Smtp.CommandProps
/-
C53: the child's replies.
-/
namespace Smtp
open Str Str.Spec

section
variable {cfg : Cfg} {net : List Ev} {cin : Bytes} {tls0 : Bool} {acks : Bytes} {gin : List Bytes}
  {wr gwr : List Bool} {x : Int} {s : S}

/-- The front end's own messages. -/
def Spec.Own (cfg : Cfg) (d : Bytes) : Prop :=
  d ∈ [b!"553 bad reputation (#5.7.1)", b!"450 greylisted (#4.3.0)", b!"502 unimplemented (#5.5.1)",
    b!"220 ready to start TLS (#2.0.0)"].map fun m => Spec.beforeNul (Spec.own cfg m)

/-- C53, except for replies with NUL bytes (see `c53_nul_truncates`): whatever
the client is sent is one of the front end's own messages, or the reply just
taken from the child, all of it: as it is, with the log id, or with the STARTTLS
line. -/
theorem c53_client_partial (h : Ran cfg net cin tls0 acks gin wr gwr x s) (pre post : List Act) (d : Bytes)
    (hl : s.log = pre ++ .client d :: post) :
    Spec.Own cfg d ∨ ∃ pre' r hd sep t y, pre = pre' ++ [.reply r] ∧ Spec.Reply r hd sep t ∧ d = Spec.beforeNul y ∧
      (NoNul y → d = y) ∧ (y = r ∨ y = Spec.tagged cfg r ∨ ∃ tls, Spec.Ehlo tls r y) := by
  obtain ⟨p, ht, _⟩ := c47_trace h
  rw [hl] at ht
  obtain ⟨q, q', t1, t2, t3⟩ := Trace.split ht
  have hb : ∀ y, NoNul y → Spec.beforeNul y = y := fun y hy => upToNul_id y hy
  have key : ∀ r y, (q = .greeting r ∨ (∃ c raw, q = .replied c raw r) ∨ ∃ c, q = .bodyReplied c r) →
      (y = r ∨ y = Spec.tagged cfg r ∨ ∃ tls, Spec.Ehlo tls r y) → d = Spec.beforeNul y →
      Spec.Own cfg d ∨ ∃ pre' r hd sep t y, pre = pre' ++ [.reply r] ∧ Spec.Reply r hd sep t ∧ d = Spec.beforeNul y ∧
      (NoNul y → d = y) ∧ (y = r ∨ y = Spec.tagged cfg r ∨ ∃ tls, Spec.Ehlo tls r y) := by
    intro r y hq hy hd
    refine .inr ?_
    have : ∃ pre' hd sep t, pre = pre' ++ [.reply r] ∧ Spec.Reply r hd sep t := by
      rcases Trace.last t1 with ⟨_, e⟩ | ⟨l', a, q1, rfl, _, hs⟩
      · rcases hq with hq | ⟨_, _, hq⟩ | ⟨_, hq⟩ <;> rw [e] at hq <;> cases hq
      · rcases hq with rfl | ⟨_, _, rfl⟩ | ⟨_, rfl⟩ <;> cases hs <;> exact ⟨l', _, _, _, rfl, by assumption⟩
    obtain ⟨pre', hd', sep, t, e1, e2⟩ := this
    exact ⟨pre', r, hd', sep, t, y, e1, e2, hd, fun hn => by rw [hd, hb y hn], hy⟩
  cases t2
  case greeted r => exact key r _ (.inl rfl) (.inr (.inl rfl)) rfl
  case default r _ => exact key r _ (.inr (.inl ⟨_, _, rfl⟩)) (.inl rfl) rfl
  case ehlo r y _ he => exact key r y (.inr (.inl ⟨_, _, rfl⟩)) (.inr (.inr ⟨_, he⟩)) rfl
  case envelope r _ => exact key r _ (.inr (.inl ⟨_, _, rfl⟩)) (.inr (.inl rfl)) rfl
  case quit r _ => exact key r _ (.inr (.inl ⟨_, _, rfl⟩)) (.inr (.inl rfl)) rfl
  case nodata r _ _ => exact key r _ (.inr (.inl ⟨_, _, rfl⟩)) (.inr (.inl rfl)) rfl
  case data r _ _ => exact key r _ (.inr (.inl ⟨_, _, rfl⟩)) (.inr (.inl rfl)) rfl
  case bodyEnd r => exact key r _ (.inr (.inr ⟨_, rfl⟩)) (.inr (.inl rfl)) rfl
  case refuse => exact .inl (by unfold Spec.Own; simp)
  case defer => exact .inl (by unfold Spec.Own; simp)
  case notls => exact .inl (by unfold Spec.Own; simp)
  case tls => exact .inl (by unfold Spec.Own; simp)

/-- C53: every reply taken from the child is sent to the client before anything
else is done, except the reply to the front end's own RSET; and the replies taken
are all the child wrote, in order, up to the one in which the session ended. -/
theorem c53_all (h : Ran cfg net cin tls0 acks gin wr gwr x s) :
    (∃ part, cin = Spec.replies s.log ++ part ++ s.cin) ∧
    ∀ pre post r, s.log = pre ++ .reply r :: post →
      (∃ pre', pre = pre' ++ [.ack 0, .child b!"RSET\r\n"]) ∨ post = [] ∨ ∃ d post', post = .client d :: post' := by
  refine ⟨h.inEnd.replies, ?_⟩
  intro pre post r hl
  obtain ⟨p, ht, _⟩ := c47_trace h
  rw [hl] at ht
  obtain ⟨q, q', t1, t2, t3⟩ := Trace.split ht
  cases post with
  | nil => exact .inr (.inl rfl)
  | cons a post =>
    obtain ⟨q1, u1, u2⟩ := Trace.head t3
    cases t2
    case rsetReply =>
      left
      rcases Trace.last t1 with ⟨_, e⟩ | ⟨l', a, q1, rfl, h', hs⟩
      · cases e
      · cases hs
        obtain ⟨l'', rfl⟩ := Trace.acked h'
        exact ⟨l'', List.append_assoc _ _ _⟩
    all_goals
      refine .inr (.inr ?_)
      cases u1 <;> exact ⟨_, _, rfl⟩

end

/-- C53: `smtpline` takes exactly one complete reply from the child, however many
lines it has, and returns its code. -/
theorem c53_reply (cfg : Cfg) (b : Bool) (s : S) (r h : Bytes) (sep : Byte) (t rest : Bytes)
    (hr : Spec.Reply r h sep t) (hc : s.cin = r ++ rest) (hl : r.length ≤ 4096) :
    smtpline cfg none b s = .ok (toU64 (Spec.code r)) { s with
      cin := rest, cline := (if b then Spec.tagged cfg r else r), log := s.log ++ [.reply r] } := by
  rw [smtpline_ok cfg none b s r h sep t rest hr hc hl (by simp)]
  cases b <;> simp [formed, Spec.tagged]

/-- The code is the reply's code: what its first three digits say. -/
theorem c53_code (a b c : Nat) (w : Bytes) (ha : a < 10) (hb : b < 10) (hc : c < 10) :
    toU64 (Spec.code (UInt8.ofNat (48 + a) :: UInt8.ofNat (48 + b) :: UInt8.ofNat (48 + c) :: w)) =
      100 * a + 10 * b + c := by
  have h : ∀ n, n < 10 → (UInt8.ofNat (48 + n)).toNat = 48 + n := by
    intro n hn; simp [UInt8.toNat_ofNat']; omega
  simp only [Spec.code, h a ha, h b hb, h c hc, toU64]
  omega

/-- No other reply passes for one with code 250 or 354: the code of a reply whose
first three bytes are not digits can be equal to these only by accident of
arithmetic, never by wrapping around. -/
theorem c53_code_exact (r : Bytes) (n : Nat) (hn : n < 2 ^ 63) : toU64 (Spec.code r) = n ↔ Spec.code r = n :=
  toU64_code r n hn

/-- The log id goes to the end of the last line. -/
theorem c53_logid (cfg : Cfg) (l id : Bytes) (hid : cfg.id = some id) (hl : l.getLast? ≠ some (c! '\r')) :
    Spec.tagged cfg (l ++ b!"\r\n") = l ++ b!" [" ++ id ++ b!"]\r\n" ∧
    Spec.tagged cfg (l ++ b!"\n") = l ++ b!" [" ++ id ++ b!"]\r\n" := by
  have h1 : Spec.chomp (l ++ b!"\r\n") = l := by
    have : l ++ b!"\r\n" = (l ++ [c! '\r']) ++ [c! '\n'] := by simp
    unfold Spec.chomp
    rw [this]
    simp
  have h2 : Spec.chomp (l ++ b!"\n") = l := by
    unfold Spec.chomp
    simp [hl]
  constructor
  · simp [Spec.tagged, hid, Spec.own, Spec.withId, h1]
  · simp [Spec.tagged, hid, Spec.own, Spec.withId, h2]

theorem c53_no_logid (cfg : Cfg) (r : Bytes) (hid : cfg.id = none) : Spec.tagged cfg r = r := by
  simp [Spec.tagged, hid]

theorem Head.extend {h : Bytes} (hh : Spec.Head h) (t : Bytes) (ht : c! '\n' ∉ t) (a b c : Byte) :
    Spec.Head (h ++ c! '-' :: (t ++ c! '\n' :: [a, b, c])) := by
  induction hh with
  | last x y z => exact .more x y z t _ ht (.last a b c)
  | more x y z t' h' ht' _ ih =>
    have := Spec.Head.more x y z t' _ ht' ih
    simpa using this

theorem cut_unique (b : Byte) : ∀ (t t' u u' : Bytes), b ∉ t → b ∉ t' → t ++ b :: u = t' ++ b :: u' → t = t' ∧ u = u' := by
  intro t
  induction t with
  | nil =>
    intro t' u u' _ h e
    cases t' with
    | nil => simp at e; exact ⟨rfl, e⟩
    | cons a t' => simp at e h; exact absurd e.1 h.1
  | cons a t ih =>
    intro t' u u' h h' e
    cases t' with
    | nil => simp at e h; exact absurd e.1.symm h.1
    | cons a' t' =>
      simp at e h h'
      obtain ⟨e1, e2⟩ := ih t' u u' h.2 h'.2 e.2
      exact ⟨by rw [e.1, e1], e2⟩

theorem Head.unique {h : Bytes} (hh : Spec.Head h) : ∀ (h' t t' : Bytes) (sep sep' : Byte), Spec.Head h' →
    sep ≠ c! '-' → sep' ≠ c! '-' → h ++ sep :: t = h' ++ sep' :: t' → h = h' ∧ sep = sep' ∧ t = t' := by
  induction hh with
  | last a b c =>
    intro h' t t' sep sep' hh' h1 h2 e
    cases hh' with
    | last => simp at e; obtain ⟨rfl, rfl, rfl, rfl, rfl⟩ := e; exact ⟨rfl, rfl, rfl⟩
    | more => simp at e; exact absurd e.2.2.2.1 h1
  | more a b c u h hu _ ih =>
    intro h' t t' sep sep' hh' h1 h2 e
    cases hh' with
    | last => simp at e; exact absurd e.2.2.2.1.symm h2
    | more _ _ _ u' h'' hu' hh'' =>
      simp only [List.cons_append, List.append_assoc, List.cons.injEq, true_and] at e
      obtain ⟨rfl, rfl, rfl, e⟩ := e
      obtain ⟨rfl, e'⟩ := cut_unique _ _ _ _ _ hu hu' e
      obtain ⟨rfl, rfl, rfl⟩ := ih h'' t t' sep sep' hh'' h1 h2 e'
      exact ⟨rfl, rfl, rfl⟩

/-- A reply can be read in one way only. -/
theorem Reply.unique {r h h' t t' : Bytes} {sep sep' : Byte} (hr : Spec.Reply r h sep t)
    (hr' : Spec.Reply r h' sep' t') : h = h' ∧ sep = sep' ∧ t = t' :=
  Head.unique hr.1 _ _ _ _ _ hr'.1 hr.2.1 hr'.2.1 (by rw [← hr.2.2.1, hr'.2.2.1])

/-- C53: the reply to EHLO with the STARTTLS line added is again one well-formed
reply with code 250: the lines of the child's reply, the last one now a
continuation line, then the new last line. (The child's last line must have a
space after its code, see `c53_bare_code`.) -/
theorem c53_starttls_line (r h t d : Bytes) (hr : Spec.Reply r h (c! ' ') t) (hc : Spec.code r = 250)
    (hd : Spec.Ehlo true r d) :
    d = h ++ c! '-' :: t ++ b!"250 STARTTLS\r\n" ∧
    Spec.Reply d (h ++ c! '-' :: t ++ b!"250") (c! ' ') b!"STARTTLS\r\n" ∧ Spec.code d = 250 := by
  obtain ⟨h', sep', t', hr', hd'⟩ : ∃ h sep t, Spec.Reply r h sep t ∧
      d = h ++ (if sep = c! ' ' then c! '-' else sep) :: t ++ b!"250 STARTTLS\r\n" := by
    unfold Spec.Ehlo at hd
    rwa [if_pos ⟨rfl, hc⟩] at hd
  obtain ⟨rfl, rfl, rfl⟩ := Reply.unique hr' hr
  rw [if_pos rfl] at hd'
  subst hd'
  refine ⟨rfl, ?_, ?_⟩
  · obtain ⟨hh, _, _, ⟨e, _⟩ | ⟨_, t', ht, rfl⟩⟩ := hr
    · exact absurd e (by decide)
    · refine ⟨?_, by decide, ?_, .inr ⟨by decide, b!"STARTTLS\r", by decide, rfl⟩⟩
      · have := Head.extend hh t' ht (c! '2') (c! '5') (c! '0')
        simpa using this
      · simp
  · obtain ⟨hh, _, rfl, _⟩ := hr
    cases hh <;> simpa [Spec.code] using hc

/-- A reply with three lines, for the theorems above. -/
example : Spec.Reply b!"250-mx\r\n250-PIPELINING\r\n250 8BITMIME\r\n" b!"250-mx\r\n250-PIPELINING\r\n250" (c! ' ')
    b!"8BITMIME\r\n" :=
  ⟨.more _ _ _ b!"mx\r" b!"250-PIPELINING\r\n250" (by decide)
    (.more _ _ _ b!"PIPELINING\r" b!"250" (by decide) (.last _ _ _)), by decide, rfl,
    .inr ⟨by decide, b!"8BITMIME\r", by decide, rfl⟩⟩

/-- And a session with it. -/
example : ∃ s, Ran ⟨some b!"id", false, false, []⟩ [.data b!"ehlo x\r\n"]
    b!"220 hi\r\n250-mx\r\n250-PIPELINING\r\n250 8BITMIME\r\n" true [] [] [] [] 111 s ∧
    Act.client b!"250-mx\r\n250-PIPELINING\r\n250-8BITMIME\r\n250 STARTTLS\r\n" ∈ s.log :=
  ran_check _ (by decide +kernel)

/-- C53 is violated by NUL bytes: the client gets only what is before the first
NUL, here not even the end of the line. -/
theorem c53_nul_truncates : ∃ s, Ran ⟨none, false, false, []⟩ [.data b!"HELP\r\n"]
    b!"220 hi\r\n214 a\x00b\r\n" false [] [] [] [] 111 s ∧
    s.log.getLast? = some (.client b!"214 a") := ran_check _ (by decide +kernel)

/-- C53 is violated by a reply to EHLO that has nothing after its code: the
client gets two replies to one command. -/
theorem c53_bare_code : ∃ s, Ran ⟨none, false, false, []⟩ [.data b!"EHLO x\r\n"]
    b!"220 hi\r\n250\r\n" true [] [] [] [] 111 s ∧
    s.log.getLast? = some (.client (b!"250\r\n" ++ b!"250 STARTTLS\r\n")) := ran_check _ (by decide +kernel)

/-- Each of them is a complete reply. -/
example : Spec.Reply b!"250\r\n" b!"250" (c! '\r') b!"\n" ∧
    Spec.Reply b!"250 STARTTLS\r\n" b!"250" (c! ' ') b!"STARTTLS\r\n" :=
  ⟨⟨.last _ _ _, by decide, rfl, .inr ⟨by decide, [], by decide, rfl⟩⟩,
    ⟨.last _ _ _, by decide, rfl, .inr ⟨by decide, b!"STARTTLS\r", by decide, rfl⟩⟩⟩

end Smtp
