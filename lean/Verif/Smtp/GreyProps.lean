import Verif.Smtp.CommandProps
/-
C51: greylisting.
-/
namespace Smtp
open Str Str.Spec

/-- The front end gave up reading this answer at its limit of 4096 bytes. -/
def Overlong (a : Bytes) : Prop := a.length = 4096 ∧ c! '\n' ∉ a

section
variable {cfg : Cfg} {net : List Ev} {cin : Bytes} {tls0 : Bool} {acks : Bytes} {gin : List Bytes}
  {wr gwr : List Bool} {x : Int} {s : S}

/-- C51, except for over-long answers (see `c51_overlong_passes`): after any
answer but dunno the client is told 553 or 450, the line is not given to the
child, and the next thing that happens is the client's next command. -/
theorem c51_refused_partial (h : Ran cfg net cin tls0 acks gin wr gwr x s) (pre post : List Act) (a : Bytes)
    (hl : s.log = pre ++ .answer a :: post) (hd : ¬ Spec.Dunno a) (ho : ¬ Overlong a) :
    post = [] ∨ ∃ d post', post = .client d :: post' ∧
      d = Spec.beforeNul (Spec.own cfg (if Spec.Rejects a then b!"553 bad reputation (#5.7.1)"
        else b!"450 greylisted (#4.3.0)")) ∧
      (post' = [] ∨ ∃ raw post'', post' = .line raw :: post'') := by
  obtain ⟨p, ht, _⟩ := c47_trace h
  rw [hl] at ht
  obtain ⟨q, q', t1, t2, t3⟩ := Trace.split ht
  cases t2
  cases post with
  | nil => exact .inl rfl
  | cons b post =>
    refine .inr ?_
    obtain ⟨q1, u1, u2⟩ := Trace.head t3
    have next : ∀ c, q1 = .ready c → (post = [] ∨ ∃ raw post'', post = .line raw :: post'') := by
      rintro c rfl
      cases post with
      | nil => exact .inl rfl
      | cons e post =>
        obtain ⟨q2, v1, _⟩ := Trace.head u2
        cases v1
        exact .inr ⟨_, _, rfl⟩
    cases u1
    case pass hp => exact absurd hp hd
    case overlong h1 h2 => exact absurd ⟨h1, h2⟩ ho
    case refuse _ hr => exact ⟨_, post, rfl, (by simp only [if_pos, *]), next _ rfl⟩
    case defer _ hr => exact ⟨_, post, rfl, (by simp only [if_neg, not_false_eq_true, *]), next _ rfl⟩

/-- The actions so far determine where a session stands. -/
theorem Step.det' {p q q' : Spec.Phase} {a a' : Act} (h : Spec.Step cfg tls0 p a q)
    (h' : Spec.Step cfg tls0 p a' q') (e : a = a') : q = q' := by
  cases h <;> cases h' <;> first | rfl | (exfalso; simp_all; done) | (injection e with e; subst e; rfl) | simp_all

theorem Step.det {p q q' : Spec.Phase} {a : Act} (h : Spec.Step cfg tls0 p a q) (h' : Spec.Step cfg tls0 p a q') :
    q = q' := Step.det' h h' rfl

theorem Trace.det {l : List Act} {p q : Spec.Phase} (h : Spec.Trace cfg tls0 .start l p)
    (h' : Spec.Trace cfg tls0 .start l q) : p = q := by
  induction h generalizing q with
  | nil =>
    rcases Trace.last h' with ⟨_, rfl⟩ | ⟨l, a, q, e, _⟩
    · rfl
    · simp at e
  | snoc l q1 a r h hs ih =>
    rcases Trace.last h' with ⟨e, _⟩ | ⟨l', a', q', e, h2, hs'⟩
    · simp at e
    · have e1 := List.append_inj_left' e rfl
      have e2 := List.append_inj_right' e rfl
      cases e2; subst e1
      rw [ih h2] at hs
      exact Step.det hs hs'

/-- C51, fail-closed mode: if greylisting applies to a command line (`c` is what
is remembered before it), the server is asked before anything else happens, and
unless it answers, nothing else happens at all: the session is over. The
question names the sender and the recipient. -/
theorem c51_closed (h : Ran cfg net cin tls0 acks gin wr gwr x s) (hclosed : cfg.closed = true)
    (pre post : List Act) (raw : Bytes) (hl : s.log = pre ++ .line raw :: post) (c : Spec.Ctx)
    (hc : Spec.Trace cfg tls0 .start pre (.ready c)) (hg : Spec.Greylisted cfg (c.after raw) raw) :
    post = [] ∨ ∃ u v post', (c.after raw).sender = some u ∧ (c.after raw).rcpt = some v ∧
      post = .ask (Spec.question cfg u v) :: post' ∧ (post' = [] ∨ ∃ a post'', post' = .answer a :: post'') := by
  obtain ⟨p, ht, _⟩ := c47_trace h
  rw [hl] at ht
  obtain ⟨q, q', t1, t2, t3⟩ := Trace.split ht
  have := Trace.det t1 hc
  subst this
  cases t2
  cases post with
  | nil => exact .inl rfl
  | cons b post =>
    refine .inr ?_
    obtain ⟨q1, u1, u2⟩ := Trace.head t3
    cases u1
    case forward => exact absurd hg (by assumption)
    case unasked => simp_all
    case notls => have := hg.2.1; simp_all
    case tls => have := hg.2.1; simp_all
    case ask u v h1 h2 _ =>
      refine ⟨u, v, post, by assumption, by assumption, rfl, ?_⟩
      cases post with
      | nil => exact .inl rfl
      | cons e post =>
        obtain ⟨q2, v1, _⟩ := Trace.head u2
        cases v1
        case answer => exact .inr ⟨_, post, rfl⟩
        case unanswered => simp_all

/-- C51, both together: in fail-closed mode, whatever is given to the child for
a line to which greylisting applies was let through by the server with dunno, or
the server's answer was over-long. (`mid` is what happened
between the line and that.) -/
theorem c51_passed_partial (h : Ran cfg net cin tls0 acks gin wr gwr x s) (hclosed : cfg.closed = true)
    (pre mid post : List Act) (raw d : Bytes) (hl : s.log = pre ++ .line raw :: (mid ++ .child d :: post))
    (hmid : ∀ r, Act.line r ∉ mid ∧ Act.child r ∉ mid) (c : Spec.Ctx)
    (hc : Spec.Trace cfg tls0 .start pre (.ready c)) (hg : Spec.Greylisted cfg (c.after raw) raw) :
    ∃ q a, mid = [.ask q, .answer a] ∧ (Spec.Dunno a ∨ Overlong a) := by
  rcases c51_closed h hclosed pre _ raw hl c hc hg with e | ⟨u, v, post', _, _, e, e'⟩
  · simp at e
  · generalize Spec.question cfg u v = q at e
    rcases e' with rfl | ⟨a, post'', rfl⟩
    · cases mid with
      | nil => simp at e
      | cons m mid => simp at e
    · rw [e] at hl
      by_cases hd : Spec.Dunno a ∨ Overlong a
      · refine ⟨q, a, ?_, hd⟩
        obtain ⟨p, ht, _⟩ := c47_trace h
        rw [show pre ++ Act.line raw :: Act.ask q :: Act.answer a :: post'' =
          (pre ++ [Act.line raw, Act.ask q]) ++ Act.answer a :: post'' by simp] at hl
        rw [hl] at ht
        obtain ⟨q1, q2, t1, t2, t3⟩ := Trace.split ht
        cases t2
        match mid, e with
        | [], e => simp at e
        | [m1], e => simp at e
        | [m1, m2], e => simp at e; rw [e.1, e.2.1]
        | m1 :: m2 :: m3 :: mid, e =>
          exfalso
          simp only [List.cons_append, List.cons.injEq] at e
          obtain ⟨_, _, rfl⟩ := e
          obtain ⟨q3, u1, t4⟩ := Trace.head t3
          have hready : ∀ c, q3 = .ready c → False := by
            rintro c rfl
            cases mid with
            | nil =>
              obtain ⟨q4, u2, t5⟩ := Trace.head t4
              cases u2
            | cons m mid =>
              obtain ⟨q4, u2, t5⟩ := Trace.head t4
              cases u2
              exact (hmid _).1 (.tail _ (.tail _ (.tail _ (.head _))))
          cases u1
          case pass => exact (hmid _).2 (.tail _ (.tail _ (.head _)))
          case overlong => exact (hmid _).2 (.tail _ (.tail _ (.head _)))
          case refuse => exact hready _ rfl
          case defer => exact hready _ rfl
      · exfalso
        rw [not_or] at hd
        have h1 := c51_refused_partial h (pre ++ [.line raw, .ask q]) post'' a (by rw [hl]; simp) hd.1 hd.2
        rcases h1 with rfl | ⟨d', p1, rfl, _, rfl | ⟨raw', p2, rfl⟩⟩
        · match mid, e with
          | [], e => simp at e
          | [m1], e => simp at e
          | [m1, m2], e => simp at e
          | m1 :: m2 :: m3 :: mid, e => simp at e
        · match mid, e with
          | [], e => simp at e
          | [m1], e => simp at e
          | [m1, m2], e => simp at e
          | [m1, m2, m3], e => simp at e
          | m1 :: m2 :: m3 :: m4 :: mid, e => simp at e
        · match mid, e with
          | [], e => simp at e
          | [m1], e => simp at e
          | [m1, m2], e => simp at e
          | [m1, m2, m3], e => simp at e
          | m1 :: m2 :: m3 :: m4 :: mid, e =>
            simp at e
            exact (hmid raw').1 (by simp [e.2.2.2.1])
end

/-! ### Reading the answer -/

/-- However the answer is cut into reads, its first line is what is looked at. -/
theorem greyRead_line (cfg : Cfg) (n : Nat) : ∀ (buf resp a rest : Bytes) (s : S), (∀ d ∈ s.gin, d ≠ []) →
    buf ++ s.gin.flatten = a ++ c! '\n' :: rest → c! '\n' ∉ a → resp.length + a.length < 4096 →
    buf.length + greyBytes s.gin < n →
    ∃ g, greyRead cfg n buf resp s = .ok (some (resp ++ a ++ [c! '\n'])) { s with gin := g } := by
  induction n with
  | zero => intro buf resp a rest s _ _ _ _ h; omega
  | succ n ih =>
    intro buf resp a rest s hne hcat hna hlen hn
    rw [greyRead, bind_def]
    simp only [get_def]
    cases buf with
    | nil =>
      cases hg : s.gin with
      | nil => rw [hg] at hcat; simp at hcat
      | cons d t =>
        cases d with
        | nil => exact absurd rfl (hne [] (by rw [hg]; exact .head _))
        | cons b d =>
          simp only [bind_def, modify_def]
          rw [hg] at hcat hn hne
          simp only [List.flatten_cons, List.nil_append] at hcat
          obtain ⟨g, e⟩ := ih (b :: d) resp a rest { s with gin := t } (fun d h => hne d (.tail _ h)) hcat hna hlen
            (by simp [greyBytes] at hn ⊢; omega)
          exact ⟨g, e⟩
    | cons ch buf =>
      have hm : ¬ resp.length ≥ maxLine := by simp only [maxLine]; omega
      simp only [ite_app, hm, if_false]
      cases a with
      | nil =>
        simp only [List.cons_append, List.nil_append, List.cons.injEq] at hcat
        rw [if_pos hcat.1]
        exact ⟨s.gin, by rw [pure_def, hcat.1]; simp⟩
      | cons a0 a =>
        simp only [List.cons_append, List.cons.injEq] at hcat
        simp only [List.mem_cons, not_or] at hna
        rw [if_neg (fun h => hna.1 (by rw [← hcat.1, h]))]
        obtain ⟨g, e⟩ := ih buf (resp ++ [ch]) a rest s hne hcat.2 hna.2 (by simp at hlen ⊢; omega)
          (by simp at hn ⊢; omega)
        refine ⟨g, ?_⟩
        rw [e, hcat.1]; simp

/-- An answer that does not end within 4096 bytes is given up on. -/
theorem greyRead_overlong (cfg : Cfg) (n : Nat) : ∀ (buf resp a rest : Bytes) (s : S), (∀ d ∈ s.gin, d ≠ []) →
    buf ++ s.gin.flatten = a ++ rest → c! '\n' ∉ a → resp.length + a.length = 4096 → rest ≠ [] →
    buf.length + greyBytes s.gin < n →
    ∃ g, greyRead cfg n buf resp s = .ok none { s with gin := g, log := s.log ++ [.answer (resp ++ a)] } := by
  induction n with
  | zero => intro buf resp a rest s _ _ _ _ _ h; omega
  | succ n ih =>
    intro buf resp a rest s hne hcat hna hlen hr hn
    rw [greyRead, bind_def]
    simp only [get_def]
    cases buf with
    | nil =>
      cases hg : s.gin with
      | nil => rw [hg] at hcat; simp at hcat; exact absurd hcat.2 hr
      | cons d t =>
        cases d with
        | nil => exact absurd rfl (hne [] (by rw [hg]; exact .head _))
        | cons b d =>
          simp only [bind_def, modify_def]
          rw [hg] at hcat hn hne
          simp only [List.flatten_cons, List.nil_append] at hcat
          obtain ⟨g, e⟩ := ih (b :: d) resp a rest { s with gin := t } (fun d h => hne d (.tail _ h)) hcat hna hlen hr
            (by simp [greyBytes] at hn ⊢; omega)
          exact ⟨g, e⟩
    | cons ch buf =>
      cases a with
      | nil =>
        have hm : resp.length ≥ maxLine := by simp only [maxLine]; simp at hlen; omega
        simp only [ite_app, hm, if_true, bind_def, act_def, pure_def, List.append_nil]
        exact ⟨s.gin, rfl⟩
      | cons a0 a =>
        have hm : ¬ resp.length ≥ maxLine := by simp only [maxLine]; simp at hlen; omega
        simp only [ite_app, hm, if_false]
        simp only [List.cons_append, List.cons.injEq] at hcat
        simp only [List.mem_cons, not_or] at hna
        rw [if_neg (fun h => hna.1 (by rw [← hcat.1, h]))]
        obtain ⟨g, e⟩ := ih buf (resp ++ [ch]) a rest s hne hcat.2 hna.2 (by simp at hlen ⊢; omega) hr
          (by simp at hn ⊢; omega)
        refine ⟨g, ?_⟩
        rw [e, hcat.1]; simp

/-- A server that closes or fails before it has sent a line: the session ends in
fail-closed mode, and the recipient is let through otherwise. -/
theorem greyRead_silent (cfg : Cfg) (n : Nat) : ∀ (buf resp : Bytes) (ds tail : List Bytes) (s : S),
    s.gin = ds ++ tail → (∀ d ∈ ds, d ≠ []) → (tail = [] ∨ ∃ t, tail = [] :: t) →
    c! '\n' ∉ buf ++ ds.flatten → resp.length + (buf ++ ds.flatten).length ≤ 4096 →
    buf.length + greyBytes s.gin < n →
    ∃ g, greyRead cfg n buf resp s = if cfg.closed then .die 111 { s with gin := g } else .ok none { s with gin := g } := by
  induction n with
  | zero => intro buf resp ds tail s _ _ _ _ _ h; omega
  | succ n ih =>
    intro buf resp ds tail s hgin hne htail hna hlen hn
    rw [greyRead, bind_def]
    simp only [get_def]
    cases buf with
    | nil =>
      cases ds with
      | nil =>
        rcases htail with rfl | ⟨t, rfl⟩
        · refine ⟨s.gin, ?_⟩
          show _ = if cfg.closed = true then R.die 111 s else R.ok none s
          simp only [List.nil_append] at hgin
          rw [hgin]
          simp only [ite_app, die_def, pure_def]
        · refine ⟨t, ?_⟩
          simp only [List.nil_append] at hgin
          rw [hgin]
          simp only [bind_def, modify_def, ite_app, die_def, pure_def]
      | cons d ds =>
        cases d with
        | nil => exact absurd rfl (hne [] (.head _))
        | cons b d =>
          rw [hgin]
          simp only [List.cons_append, bind_def, modify_def]
          simp only [List.flatten_cons, List.nil_append] at hna hlen
          obtain ⟨g, e⟩ := ih (b :: d) resp ds tail { s with gin := ds ++ tail } rfl (fun d h => hne d (.tail _ h)) htail
            hna hlen (by rw [hgin] at hn; simp [greyBytes] at hn ⊢; omega)
          exact ⟨g, e⟩
    | cons ch buf =>
      have hm : ¬ resp.length ≥ maxLine := by simp only [maxLine]; simp at hlen; omega
      simp only [List.cons_append, List.mem_cons, not_or] at hna
      simp only [ite_app, hm, if_false, if_neg (fun h : ch = c! '\n' => hna.1 h.symm)]
      exact ih buf (resp ++ [ch]) ds tail s hgin hne htail hna.2 (by simp at hlen ⊢; omega) (by simp at hn ⊢; omega)

/-- C51, the question and the decision: the server is asked about the sender and
the recipient; an answer line that fits decides, whatever follows it and however
it is cut into reads. The result is the refusal, or none to let the recipient
through. -/
theorem c51_decision (cfg : Cfg) (s : S) (a rest : Bytes) (hw : s.gwr = []) (hne : ∀ d ∈ s.gin, d ≠ [])
    (hg : s.gin.flatten = a ++ c! '\n' :: rest) (ha : c! '\n' ∉ a) (hl : a.length < 4096) :
    ∃ g, greylist cfg s = .ok
      (if Spec.Dunno (a ++ [c! '\n']) then none
        else if Spec.Rejects (a ++ [c! '\n']) then some b!"553 bad reputation (#5.7.1)"
        else some b!"450 greylisted (#4.3.0)")
      { s with gin := g, log := s.log ++ [.ask (request cfg s), .answer (a ++ [c! '\n'])] } := by
  have kd : answerIs (a ++ [c! '\n']) 12 b!"action=dunno\x00" = .ok (decide (Spec.Dunno (a ++ [c! '\n']))) :=
    answerIs_eq _ b!"action=dunno" (by decide) (by decide)
  have kr : answerIs (a ++ [c! '\n']) 13 b!"action=reject\x00" = .ok (decide (Spec.Rejects (a ++ [c! '\n']))) :=
    answerIs_eq _ b!"action=reject" (by decide) (by decide)
  obtain ⟨g, e⟩ := greyRead_line cfg (greyBytes s.gin + 1) [] [] a rest
    { s with log := s.log ++ [.ask (request cfg s)] } hne hg ha (by simpa using hl) (by simp)
  refine ⟨g, ?_⟩
  simp only [greylist, bind_def, get_def, greyWrite, hw, Bool.not_true, ite_app, act_def,
    Bool.false_eq_true, if_false]
  simp only [hw] at e
  rw [e]
  simp only [List.nil_append, bind_def, act_def, kd, kr, lift_ok, ite_app, decide_eq_true_eq, pure_def]
  split
  · simp
  · split <;> simp

/-- C51, an unreachable or failing server: in fail-closed mode the session ends,
otherwise the recipient is let through. -/
theorem c51_failing (cfg : Cfg) (s : S) :
    (∀ w, s.gwr = false :: w → greylist cfg s =
      if cfg.closed then .die 111 { s with gwr := w } else .ok none { s with gwr := w }) ∧
    (∀ ds tail, s.gwr = [] → s.gin = ds ++ tail → (∀ d ∈ ds, d ≠ []) → (tail = [] ∨ ∃ t, tail = [] :: t) →
      c! '\n' ∉ ds.flatten → ds.flatten.length ≤ 4096 →
      ∃ g, greylist cfg s = if cfg.closed then .die 111 { s with gin := g, log := s.log ++ [.ask (request cfg s)] }
        else .ok none { s with gin := g, log := s.log ++ [.ask (request cfg s)] }) := by
  constructor
  · intro w hw
    simp only [greylist, bind_def, get_def, greyWrite, hw]
    cases cfg.closed <;> simp [ite_app, pure_def]
  · intro ds tail hw hgin hne ht hna hl
    obtain ⟨g, e⟩ := greyRead_silent cfg (greyBytes s.gin + 1) [] [] ds tail
      { s with log := s.log ++ [.ask (request cfg s)] } hgin hne ht (by simpa using hna) (by simpa using hl) (by simp)
    refine ⟨g, ?_⟩
    simp only [greylist, bind_def, get_def, greyWrite, hw, Bool.not_true, ite_app, act_def,
      Bool.false_eq_true, if_false]
    simp only [hw] at e
    rw [e]
    cases cfg.closed <;> simp [pure_def, hw]

/-- The question, in full. -/
theorem c51_question (cfg : Cfg) (s : S) (a b : Bytes) (ha : s.mailfrom = a ++ [0]) (hb : s.rcptto = b ++ [0])
    (hna : NoNul a) (hnb : NoNul b) : request cfg s = Spec.question cfg a b := by
  have h : ∀ l : Bytes, NoNul l → upToNul (l ++ [0]) = l := by
    intro l hl
    unfold upToNul
    rw [List.takeWhile_append_of_pos (by intro b hb; simpa using hl b hb)]
    simp
  have hip : upToNul cfg.ip = Spec.beforeNul cfg.ip := rfl
  rw [request, Spec.question, ha, hb, h a hna, h b hnb, hip]
  simp

/-- A refused recipient, a passed one and a temporary refusal. -/
example : ∃ s, Ran ⟨none, true, true, b!"192.0.2.1"⟩
    [.data b!"MAIL FROM:<a>\r\nRCPT TO:<b>\r\nRCPT TO:<c>\r\nRCPT TO:<d>\r\nQUIT\r\n"]
    b!"220 hi\r\n250 a\r\n250 c\r\n221 bye\r\n" false []
    [b!"action=rej", b!"ect\n\n", b!"action=DUNNO\n\n", b!"action=defer_if_permit\n\n"] [] [] 0 s ∧
    (s.log.filter fun a => match a with | .child _ => true | .client _ => true | _ => false) =
      [.client b!"220 hi\r\n", .child b!"MAIL FROM:<a>\r\n", .client b!"250 a\r\n",
        .client b!"553 bad reputation (#5.7.1)\r\n", .child b!"RCPT TO:<c>\r\n", .client b!"250 c\r\n",
        .client b!"450 greylisted (#4.3.0)\r\n", .child b!"QUIT\r\n", .client b!"221 bye\r\n"] :=
  ran_check _ (by decide +kernel)

/-- C51 is violated by over-long answers: whatever the server says, if its first
4096 bytes have no LF and more follows, the recipient is let through, even in
fail-closed mode and even if the answer begins with a rejection. -/
theorem c51_overlong_passes (cfg : Cfg) (s : S) (a rest : Bytes) (hw : s.gwr = []) (hne : ∀ d ∈ s.gin, d ≠ [])
    (hg : s.gin.flatten = a ++ rest) (ha : c! '\n' ∉ a) (hl : a.length = 4096) (hr : rest ≠ []) :
    ∃ g, greylist cfg s = .ok none
      { s with gin := g, log := s.log ++ [.ask (request cfg s), .answer a] } := by
  obtain ⟨g, e⟩ := greyRead_overlong cfg (greyBytes s.gin + 1) [] [] a rest
    { s with log := s.log ++ [.ask (request cfg s)] } hne hg ha (by simpa using hl) hr (by simp)
  refine ⟨g, ?_⟩
  simp only [greylist, bind_def, get_def, greyWrite, hw, Bool.not_true, ite_app, act_def,
    Bool.false_eq_true, if_false]
  simp only [hw] at e
  rw [e]
  simp [pure_def, hw]

/-- Such an answer: a rejection with a long text. -/
example (n : Nat) (h : n = 4082) : Spec.Rejects (b!"action=reject " ++ List.replicate n (c! 'x')) ∧
    c! '\n' ∉ b!"action=reject " ++ List.replicate n (c! 'x') ∧
    (b!"action=reject " ++ List.replicate n (c! 'x')).length = 4096 := by
  refine ⟨?_, ?_, by rw [List.length_append, List.length_replicate, h]; rfl⟩
  · unfold Spec.Rejects
    rw [lcs_append, show lcs b!"action=reject " = b!"action=reject" ++ b!" " by decide, List.append_assoc]
    exact List.prefix_append _ _
  · simp

/-- C51 is violated by recipients in a form the front end does not recognise: a
space before the colon is enough for the line to reach the child although the
server was not asked, even in fail-closed mode. -/
theorem c51_unrecognised_form_passes : ∃ s, Ran ⟨none, true, true, b!"192.0.2.1"⟩
    [.data b!"MAIL FROM:<a>\r\nRCPT TO :<b>\r\n"] b!"220 hi\r\n250 a\r\n250 b\r\n" false []
    [b!"action=reject\n\n"] [] [] 111 s ∧
    Act.child b!"RCPT TO :<b>\r\n" ∈ s.log ∧ s.gin = [b!"action=reject\n\n"] :=
  ran_check _ (by decide +kernel)

/-- After a recognised recipient the server is asked about that one again. -/
theorem c51_stale_recipient : ∃ s, Ran ⟨none, true, true, []⟩
    [.data b!"MAIL FROM:<a>\r\nRCPT TO:<b>\r\nRCPT TO :<c>\r\n"] b!"220 hi\r\n250 a\r\n250 b\r\n250 c\r\n" false []
    [b!"action=dunno\n\n", b!"action=dunno\n\n"] [] [] 111 s ∧
    (s.log.drop 12).take 4 = [.line b!"RCPT TO :<c>\r",
      .ask b!"request=smtpd_access_policy\nclient_address=\nsender=<a>\nrecipient=<b>\n\n",
      .answer b!"action=dunno\n", .child b!"RCPT TO :<c>\r\n"] :=
  ran_check _ (by decide +kernel)

end Smtp
