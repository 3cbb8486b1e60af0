import Verif.Smtp.Props
/-
C48 and C49: how a client's line is treated.
-/
namespace Smtp
open Str Str.Spec

/-! ### C48 -/

/-- A line is treated according to the first word the child is given for it. -/
theorem c48_dispatch (cfg : Cfg) (s : S) (l rest : Bytes) (hs : stream s = l ++ c! '\n' :: rest)
    (hn : c! '\n' ∉ l) (hl : l.length ≤ 4096) :
    ∃ buf net, command cfg s = run cfg (Spec.verb l) { s with
      buf := buf, net := net, line := Spec.forward l, log := s.log ++ [.line l] } ∧ buf ++ evStream net = rest := by
  obtain ⟨buf, net, e, hr⟩ := readline_ok s l rest hs hn hl
  refine ⟨buf, net, ?_, hr⟩
  simp only [command, bind_def, e, get_def]
  rw [lookup_eq, lift_ok]

/-- C48, except for abbreviated verbs (see `c48_abbreviations`): if the first
word is one of the verbs in any letter case, the line is treated as that; if it
is not the beginning of a verb, the line is passed through. -/
theorem c48_verbs_partial (raw : Bytes) :
    (∀ v ∈ Spec.verbs, lcs (Spec.word raw) = v.1 → Spec.verb raw = v.2) ∧
    ((∀ v ∈ Spec.verbs, ¬ lcs (Spec.word raw) <+: v.1) → Spec.verb raw = .default) := by
  constructor
  · intro v hv hw
    unfold Spec.verb
    rw [hw]
    have : ∀ v ∈ Spec.verbs, (match Spec.verbs.find? (fun u => v.1.isPrefixOf u.1) with
      | some v => v.2
      | none => .default) = v.2 := by decide
    exact this v hv
  · intro h
    unfold Spec.verb
    have : Spec.verbs.find? (fun v => (lcs (Spec.word raw)).isPrefixOf v.1) = none := by
      rw [List.find?_eq_none]
      intro v hv hp
      exact h v hv (List.isPrefixOf_iff_prefix.mp hp)
    rw [this]

/-- The letter case of a line does not matter. -/
theorem c48_case (raw raw' : Bytes) (h : lcs (Spec.word raw) = lcs (Spec.word raw')) :
    Spec.verb raw = Spec.verb raw' := by unfold Spec.verb; rw [h]

/-- The first word of a line without CR, LF and NUL: what is before the first
space. -/
theorem c48_word (w t : Bytes) (hw : ∀ b ∈ w, b ≠ c! ' ' ∧ b ≠ c! '\r' ∧ b ≠ c! '\n' ∧ b ≠ 0) :
    Spec.word (w ++ c! ' ' :: t) = w ∧ Spec.word (w ++ b!"\r") = w ∧ Spec.word w = w := by
  have hmap : w.map (fun b => if b = 0 then c! '\n' else b) = w := by
    have : ∀ l : Bytes, (∀ b ∈ l, b ≠ 0) → l.map (fun b => if b = 0 then c! '\n' else b) = l := by
      intro l h
      induction l with
      | nil => rfl
      | cons b l ih => simp only [List.mem_cons, forall_eq_or_imp] at h; simp [h.1, ih h.2]
    exact this w fun b h => (hw b h).2.2.2
  have htw : ∀ (c : Byte) (u : Bytes), (c = c! ' ' ∨ c = c! '\r' ∨ c = c! '\n') →
      (w ++ c :: u).takeWhile (fun b => decide (b ≠ c! ' ' ∧ b ≠ c! '\r' ∧ b ≠ c! '\n')) = w := by
    intro c u hc
    rw [List.takeWhile_append_of_pos]
    · rw [List.takeWhile_cons_of_neg]
      · simp
      · rcases hc with rfl | rfl | rfl <;> decide
    · intro b hb
      have := hw b hb
      simp only [decide_eq_true_eq]
      exact ⟨this.1, this.2.1, this.2.2.1⟩
  refine ⟨?_, ?_, ?_⟩
  · unfold Spec.word Spec.forward
    have : ∃ u, Spec.content (w ++ c! ' ' :: t) = w ++ c! ' ' :: u := by
      unfold Spec.content
      split
      · rename_i h
        rcases List.eq_nil_or_concat t with rfl | ⟨t, b, rfl⟩
        · simp at h
        · refine ⟨t, ?_⟩
          rw [List.concat_eq_append, ← List.cons_append, ← List.append_assoc, List.dropLast_concat]
      · exact ⟨t, rfl⟩
    obtain ⟨u, e⟩ := this
    rw [e, List.map_append, hmap, List.map_cons, List.append_assoc, List.cons_append]
    exact htw _ _ (.inl (by decide))
  · unfold Spec.word Spec.forward
    have : Spec.content (w ++ b!"\r") = w := by simp [Spec.content]
    rw [this, hmap]
    exact htw (c! '\r') _ (.inr (.inl rfl))
  · unfold Spec.word Spec.forward
    have : Spec.content w = w := by
      unfold Spec.content
      rw [if_neg]
      intro h
      exact (hw _ (List.mem_of_getLast? h)).2.1 rfl
    rw [this, hmap]
    exact htw (c! '\r') _ (.inr (.inl rfl))

example : Spec.verb b!"mAiL FROM:<a@b>\r" = .mail ∧ Spec.verb b!"NOOP\r" = .default ∧
    Spec.verb b!"STARTTLS\r" = .starttls ∧ Spec.verb b!"EHLOX\r" = .default := by decide

/-- C48 is violated by abbreviations: every proper beginning of a verb is treated
as (the first such) verb, and so is the empty line. -/
theorem c48_abbreviations :
    (∀ raw, Spec.exactVerb raw = .default → (∃ v ∈ Spec.verbs, lcs (Spec.word raw) <+: v.1) →
      Spec.verb raw ≠ .default) ∧
    Spec.verb b!"D hello\r" = .data ∧ Spec.exactVerb b!"D hello\r" = .default ∧
    Spec.verb b!"star\r" = .starttls ∧ Spec.exactVerb b!"star\r" = .default ∧
    Spec.verb b!"\r" = .quit ∧ Spec.exactVerb b!"\r" = .default := by
  refine ⟨?_, by decide, by decide, by decide, by decide, by decide, by decide⟩
  rintro raw - ⟨v, hv, hp⟩
  unfold Spec.verb
  cases h : Spec.verbs.find? (fun v => (lcs (Spec.word raw)).isPrefixOf v.1) with
  | none =>
    rw [List.find?_eq_none] at h
    exact absurd (List.isPrefixOf_iff_prefix.mpr hp) (h v hv)
  | some u =>
    have : ∀ u ∈ Spec.verbs, u.2 ≠ .default := by decide
    exact this u (List.mem_of_find?_eq_some h)

/-- So an empty line ends the session with the status for QUIT, although the
client did not send QUIT. -/
theorem c48_empty_line : ∃ s, Ran ⟨none, false, false, []⟩ [.data b!"\r\nNOOP\r\n"] b!"220 hi\r\n500 what\r\n"
    false [] [] [] [] 0 s ∧ s.buf = b!"NOOP\r\n" := ran_check _ (by decide +kernel)

/-! ### C49 -/

/-- After the actions `pre` the front end is inside a message: DATA was forwarded
and answered by 354, and of the lines `ls` taken and forwarded since none was
only a dot. -/
def InBody (pre : List Act) : Prop :=
  ∃ (pre' : List Act) (d r y : Bytes) (ls : List Bytes),
    pre = pre' ++ [.line d, .child (Spec.forward d), .reply r, .client y] ++
      ls.flatMap (fun l => [.line l, .child (Spec.forward l)]) ∧
    Spec.verb d = .data ∧ Spec.code r = 354 ∧ ∀ l ∈ ls, Spec.content l ≠ b!"."

section
variable {cfg : Cfg} {net : List Ev} {cin : Bytes} {tls0 : Bool} {acks : Bytes} {gin : List Bytes}
  {wr gwr : List Bool} {x : Int} {s : S}

theorem Trace.askedGrey {c : Spec.Ctx} {raw : Bytes} {l : List Act}
    (h : Spec.Trace cfg tls0 .start l (.asked c raw)) : Spec.verb raw = .rcpt := by
  rcases Trace.last h with ⟨_, h⟩ | ⟨l', a, q, rfl, h', hs⟩
  · cases h
  · cases hs; rename_i hg; exact hg.2.1

theorem Trace.answeredGrey {c : Spec.Ctx} {raw a : Bytes} {l : List Act}
    (h : Spec.Trace cfg tls0 .start l (.answered c raw a)) : Spec.verb raw = .rcpt := by
  rcases Trace.last h with ⟨_, h⟩ | ⟨l', a, q, rfl, h', hs⟩
  · cases h
  · cases hs; exact Trace.askedGrey h'

theorem Trace.sent {c : Spec.Ctx} {raw : Bytes} {l : List Act} (hv : Spec.verb raw ≠ .rcpt)
    (h : Spec.Trace cfg tls0 .start l (.sent c raw)) :
    ∃ l', l = l' ++ [.line raw, .child (Spec.forward raw)] := by
  rcases Trace.last h with ⟨_, h⟩ | ⟨l', a, q, rfl, h', hs⟩
  · cases h
  · cases hs
    case forward => obtain ⟨l'', rfl, _⟩ := Trace.got h'; exact ⟨l'', List.append_assoc _ _ _⟩
    case unasked _ hg => exact absurd hg.2.1 hv
    case unanswered => exact absurd (Trace.askedGrey h') hv
    case pass => exact absurd (Trace.answeredGrey h') hv
    case overlong => exact absurd (Trace.answeredGrey h') hv

theorem Trace.replied {c : Spec.Ctx} {raw r : Bytes} {l : List Act} (hv : Spec.verb raw ≠ .rcpt)
    (h : Spec.Trace cfg tls0 .start l (.replied c raw r)) :
    ∃ l', l = l' ++ [.line raw, .child (Spec.forward raw), .reply r] := by
  rcases Trace.last h with ⟨_, h⟩ | ⟨l', a, q, rfl, h', hs⟩
  · cases h
  · cases hs
    obtain ⟨l'', rfl⟩ := Trace.sent hv h'
    exact ⟨l'', List.append_assoc _ _ _⟩

theorem Trace.inBody {l : List Act} {p : Spec.Phase} (h : Spec.Trace cfg tls0 .start l p) :
    (∀ c, p = .body c → InBody l) ∧
    (∀ c raw, p = .bodyLine c raw → ∃ l', l = l' ++ [.line raw] ∧ InBody l') := by
  induction h with
  | nil => exact ⟨(by intro c h; cases h), (by intro c raw h; cases h)⟩
  | snoc l q a r h hs ih =>
    constructor
    · rintro c rfl
      cases hs
      case data raw r hv hc =>
        obtain ⟨l', rfl⟩ := Trace.replied (by rw [hv]; decide) h
        refine ⟨l', raw, r, Spec.beforeNul (Spec.tagged cfg r), [], ?_, hv, hc, by simp⟩
        simp only [List.flatMap_nil, List.append_nil, List.append_assoc]; rfl
      case bodyForward raw hc =>
        obtain ⟨l', rfl, pre', d, r, y, ls, rfl, h1, h2, h3⟩ := ih.2 _ _ rfl
        refine ⟨pre', d, r, y, ls ++ [raw], by simp, h1, h2, ?_⟩
        simp only [List.mem_append, List.mem_singleton]
        rintro l (h | rfl)
        · exact h3 l h
        · exact hc
    · rintro c raw rfl
      cases hs
      exact ⟨l, rfl, ih.1 _ rfl⟩

theorem Trace.body {l : List Act} {p : Spec.Phase} (h : Spec.Trace cfg tls0 .start l p) (hb : InBody l) :
    ∃ c, p = .body c := by
  obtain ⟨pre', d, r, y, ls, rfl, h1, h2, h3⟩ := hb
  simp only [List.append_assoc, List.cons_append, List.nil_append] at h
  obtain ⟨q1, q2, t1, t2, t3⟩ := Trace.split h
  obtain ⟨q3, t4, t5⟩ := Trace.head t3
  obtain ⟨q4, t6, t7⟩ := Trace.head t5
  obtain ⟨q5, t8, t9⟩ := Trace.head t7
  have key : ∃ c, q5 = .body c := by
    cases t2
    case line =>
      cases t4
      all_goals
        cases t6
        cases t8
        all_goals first | (simp_all; done) | exact ⟨_, rfl⟩
    case bodyLine =>
      generalize hx : Spec.forward d = fd at t4
      cases t4
      case bodyForward => cases t6
      case bodyDot hd =>
        have := content_dot d hd
        have : Spec.verb d = .default := by
          unfold Spec.verb Spec.word; rw [this]; decide
        rw [this] at h1; cases h1
  clear t1 t2 t3 t4 t5 t6 t7 t8 h
  obtain ⟨c, rfl⟩ := key
  induction ls generalizing c with
  | nil => generalize hl : List.flatMap _ [] = l at t9; cases t9 with
    | nil => exact ⟨c, rfl⟩
    | snoc => simp at hl
  | cons l ls ih =>
    simp only [List.flatMap_cons, List.cons_append, List.nil_append] at t9
    obtain ⟨q6, u1, u2⟩ := Trace.head t9
    obtain ⟨q7, u3, u4⟩ := Trace.head u2
    cases u1
    generalize hx : Spec.forward l = fl at u3
    cases u3
    case bodyForward => exact ih (fun l h => h3 l (.tail _ h)) _ u4
    case bodyDot hd => exact absurd hd (h3 l (.head _))

/-- C49, the decisions: in every session, whatever the client sends, a line is
taken as part of a message exactly if the front end is inside one. It is then
given to the child and nothing else is done about it: if it is not a single dot,
the next line is taken, also as part of the message; if it is, the child's
reply is awaited. Any other line is taken as a command. -/
theorem c49_session (h : Ran cfg net cin tls0 acks gin wr gwr x s) (pre post : List Act) (raw : Bytes)
    (hl : s.log = pre ++ .line raw :: post) :
    (InBody pre → post = [] ∨ ∃ post', post = .child (Spec.forward raw) :: post' ∧
      (Spec.content raw ≠ b!"." → InBody (pre ++ [.line raw, .child (Spec.forward raw)]) ∧
        (post' = [] ∨ ∃ raw' post'', post' = .line raw' :: post'')) ∧
      (Spec.content raw = b!"." → ¬ InBody (pre ++ [.line raw, .child (Spec.forward raw)]) ∧
        (post' = [] ∨ ∃ r post'', post' = .reply r :: post''))) ∧
    (¬ InBody pre → ∃ c, Spec.Trace cfg tls0 .start pre (.ready c)) := by
  obtain ⟨p, ht, _⟩ := c47_trace h
  rw [hl] at ht
  obtain ⟨q, q', t1, t2, t3⟩ := Trace.split ht
  constructor
  · intro hb
    obtain ⟨c, rfl⟩ := Trace.body t1 hb
    cases t2
    cases post with
    | nil => exact .inl rfl
    | cons a post =>
      refine .inr ?_
      obtain ⟨q1, u1, u2⟩ := Trace.head t3
      cases u1
      case bodyForward hc =>
        refine ⟨post, rfl, fun _ => ⟨?_, ?_⟩, fun e => absurd e hc⟩
        · obtain ⟨pre', d, r, y, ls, rfl, h1, h2, h3⟩ := hb
          refine ⟨pre', d, r, y, ls ++ [raw], by simp, h1, h2, ?_⟩
          simp only [List.mem_append, List.mem_singleton]
          rintro l (h | rfl)
          · exact h3 l h
          · exact hc
        · cases post with
          | nil => exact .inl rfl
          | cons a post =>
            obtain ⟨q2, v1, v2⟩ := Trace.head u2
            cases v1
            exact .inr ⟨_, _, rfl⟩
      case bodyDot hc =>
        refine ⟨post, by rw [content_dot raw hc], fun e => absurd hc e, fun _ => ⟨?_, ?_⟩⟩
        · intro hb'
          have : Spec.Trace cfg tls0 .start (pre ++ [.line raw, .child (Spec.forward raw)]) (.bodySent c) := by
            have e := Spec.Trace.snoc _ _ _ _ _ (Spec.Trace.snoc _ _ _ _ _ t1 (.bodyLine c raw (by assumption) (by assumption)))
              (.bodyDot c raw hc)
            rw [content_dot raw hc]
            simpa using e
          obtain ⟨c', e⟩ := Trace.body this hb'
          cases e
        · cases post with
          | nil => exact .inl rfl
          | cons a post =>
            obtain ⟨q2, v1, v2⟩ := Trace.head u2
            cases v1
            exact .inr ⟨_, _, rfl⟩
  · intro hb
    cases t2
    case line c _ _ => exact ⟨c, t1⟩
    case bodyLine c _ _ => exact absurd ((Trace.inBody t1).1 _ rfl) hb

end

/-- C49, the bytes: the lines of a message reach the child in order, each with
CRLF, up to and including the first line that is a single dot, however the input
is cut into reads; what follows that line is left to be read as commands. -/
theorem c49_body (n : Nat) : ∀ (s : S) (ls : List Bytes) (dot rest : Bytes),
    stream s = ls.flatMap (fun l => l ++ [c! '\n']) ++ dot ++ c! '\n' :: rest →
    (∀ l ∈ ls, c! '\n' ∉ l ∧ l.length ≤ 4096 ∧ Spec.content l ≠ b!".") →
    Spec.content dot = b!"." → s.wr = [] → ls.length < n →
    ∃ buf net, bodyLoop n s = .ok () { s with
        buf := buf, net := net, line := b!".",
        log := s.log ++ ls.flatMap (fun l => [.line l, .child (Spec.forward l)]) ++ [.line dot, .child b!".\r\n"] } ∧
      buf ++ evStream net = rest := by
  induction n with
  | zero => intro s ls dot rest _ _ _ _ h; omega
  | succ n ih =>
    intro s ls dot rest hs hls hd hw hn
    have hdl : c! '\n' ∉ dot ∧ dot.length ≤ 4096 := by
      unfold Spec.content at hd
      split at hd
      · rename_i h
        obtain ⟨ys, rfl⟩ := List.getLast?_eq_some_iff.mp h
        rw [List.dropLast_concat] at hd
        rw [hd]; decide
      · rw [hd]; decide
    cases ls with
    | nil =>
      simp only [List.flatMap_nil, List.nil_append] at hs
      obtain ⟨buf, net, e, hr⟩ := readline_ok s dot rest hs hdl.1 hdl.2
      refine ⟨buf, net, ?_, hr⟩
      have hf := content_dot dot hd
      simp only [bodyLoop, bind_def, e, get_def, toChild, write, hw, act, modify_def, hf]
      have hst : strip (c! '\r') (strip (c! '\n') b!".\r\n") = b!"." := by decide
      simp only [hst, if_true, pure_def, upToNul]
      simp
    | cons l ls =>
      have hl := hls l (.head _)
      simp only [List.flatMap_cons, List.append_assoc, List.cons_append, List.nil_append] at hs
      obtain ⟨buf, net, e, hr⟩ := readline_ok s l _ hs hl.1 hl.2.1
      have hne : ¬ strip (c! '\r') (strip (c! '\n') (Spec.forward l)) = b!"." := by
        intro h
        rw [chomp_forward] at h
        exact hl.2.2 ((stored_dot _).mp h)
      simp only [bodyLoop, bind_def, e, get_def, toChild, write, hw, act, modify_def, ite_app, hne, if_false]
      obtain ⟨buf', net', e', hr'⟩ := ih
        { s with buf := buf, net := net, line := strip (c! '\r') (strip (c! '\n') (Spec.forward l)),
                 wr := [],
                 log := s.log ++ [.line l] ++ [.child (upToNul (Spec.forward l))] } ls dot rest
        (by simp only [stream]; rw [hr]; simp) (fun l h => hls l (.tail _ h)) hd rfl (by simp at hn; omega)
      refine ⟨buf', net', ?_, hr'⟩
      rw [e', upToNul_forward]
      simp

/-- C49, a whole message: DATA, the child's 354, the body and the child's reply
to it; then sender and recipients are forgotten. -/
theorem c49_data (cfg : Cfg) (s : S) (d : Bytes) (ls : List Bytes) (dot rest r1 h1 t1 r2 h2 t2 crest : Bytes)
    (sep1 sep2 : Byte)
    (hline : s.line = Spec.forward d)
    (hs : stream s = ls.flatMap (fun l => l ++ [c! '\n']) ++ dot ++ c! '\n' :: rest)
    (hls : ∀ l ∈ ls, c! '\n' ∉ l ∧ l.length ≤ 4096 ∧ Spec.content l ≠ b!".")
    (hd : Spec.content dot = b!".") (hw : s.wr = [])
    (hr1 : Spec.Reply r1 h1 sep1 t1) (hr2 : Spec.Reply r2 h2 sep2 t2) (hc : s.cin = r1 ++ (r2 ++ crest))
    (hl1 : r1.length ≤ 4096) (hl2 : r2.length ≤ 4096) (hcode : Spec.code r1 = 354) :
    ∃ s', smtpData cfg s = .ok () s' ∧ stream s' = rest ∧ s'.cin = crest ∧
      s'.mailfrom = [] ∧ s'.rcptto = [] ∧ s'.rcpttodata = [] ∧ s'.rcptcount = 0 ∧
      s'.log = s.log ++ [.child (Spec.forward d), .reply r1, .client (Spec.beforeNul (Spec.tagged cfg r1))] ++
        ls.flatMap (fun l => [.line l, .child (Spec.forward l)]) ++
        [.line dot, .child b!".\r\n", .reply r2, .client (Spec.beforeNul (Spec.tagged cfg r2))] := by
  have hform : ∀ r h sep t, formed cfg none true r h sep t = Spec.tagged cfg r := by
    intro r h sep t; simp [formed, Spec.tagged]
  have hc354 : ¬ toU64 354 ≠ 354 := by decide
  have hlen : ls.length < avail s + 1 := by
    have h1 : (stream s).length ≤ avail s := by
      have := stream_le s.net; simp [stream, avail]; omega
    rw [hs] at h1
    have : ls.length ≤ (ls.flatMap (fun l => l ++ [c! '\n'])).length := by
      clear hs hls h1
      induction ls with
      | nil => simp
      | cons l ls ih => simp at ih ⊢; omega
    simp only [List.length_append] at h1
    omega
  simp only [smtpData, bind_def, get_def, toChild, write, hw, act, modify_def]
  rw [smtpline_ok cfg none true _ r1 h1 sep1 t1 (r2 ++ crest) hr1 (by exact hc) hl1 (by simp)]
  simp only [toClient, bind_def, write, act, modify_def, get_def, ite_app, hcode, hc354, if_false]
  obtain ⟨buf, net, e, hr⟩ := c49_body (avail s + 1)
    { s with wr := [], cin := r2 ++ crest, cline := formed cfg none true r1 h1 sep1 t1,
             log := s.log ++ [.child (upToNul s.line)] ++ [.reply r1] ++
               [.client (upToNul (formed cfg none true r1 h1 sep1 t1))] }
    ls dot rest hs hls hd rfl hlen
  erw [e]
  simp only []
  rw [smtpline_ok cfg none true _ r2 h2 sep2 t2 crest hr2 rfl hl2 (by simp)]
  simp only [toClient, bind_def, write, act, modify_def, get_def, resetTransaction]
  refine ⟨_, rfl, hr, rfl, rfl, rfl, rfl, rfl, ?_⟩
  simp only [hform, hline, upToNul_forward, List.append_assoc]
  rfl

/-- A session with a message in which lines look like commands, one is empty and
one begins with a dot; the final dot comes with a bare LF. -/
example : ∃ s, Ran ⟨none, false, false, []⟩ [.data b!"daTa\r\nQUIT\r\n\r", .data b!"\n..\r\n.", .data b!"\nQUIT\r\n"]
    b!"220 hi\r\n354 go\r\n250 ok\r\n221 bye\r\n" true [] [] [] [] 0 s ∧
    s.log = [.reply b!"220 hi\r\n", .client b!"220 hi\r\n",
      .line b!"daTa\r", .child b!"daTa\r\n", .reply b!"354 go\r\n", .client b!"354 go\r\n",
      .line b!"QUIT\r", .child b!"QUIT\r\n", .line b!"\r", .child b!"\r\n", .line b!"..\r", .child b!"..\r\n",
      .line b!".", .child b!".\r\n", .reply b!"250 ok\r\n", .client b!"250 ok\r\n",
      .line b!"QUIT\r", .child b!"QUIT\r\n", .reply b!"221 bye\r\n", .client b!"221 bye\r\n"] :=
  ran_check _ (by decide +kernel)

end Smtp
