import Verif.Smtp.Question
/-
C121: client, front end and mail program stay in step.
-/
namespace Smtp
open Str Str.Spec

namespace Spec

/-- The lines of `d`, cut at LF; `acc` is the beginning of the first one. -/
def cut : Bytes → Bytes → List Bytes
  | _, [] => []
  | acc, b :: d => if b = c! '\n' then acc :: cut [] d else cut (acc ++ [b]) d

/-- How the mail program stands: how many of the lines it was given it has not answered yet (the
connection itself counts as one, answered by the greeting), and whether it reads the text of a
message. -/
structure View where
  due : Nat
  text : Bool
  deriving DecidableEq

/-- The mail program reads a line. A line of text is not answered but for the dot, any other is. -/
def View.line (v : View) (l : Bytes) : View :=
  if v.text then if l = b!".\r" then ⟨v.due + 1, false⟩ else v else ⟨v.due + 1, false⟩

/-- The mail program answers; 354 means that it will read text. -/
def View.reply (v : View) (r : Bytes) : View := ⟨v.due - 1, v.text || decide (code r = 354)⟩

/-- What an action does to it: only being given bytes and answering change how it stands. -/
def View.act (v : View) : Act → View
  | .child d => (cut [] d).foldl View.line v
  | .reply r => v.reply r
  | _ => v

/-- How the mail program stands after the actions. -/
def view (l : List Act) : View := l.foldl View.act ⟨1, false⟩

/-- How often the client was told something. -/
def told : List Act → Nat
  | [] => 0
  | .client _ :: l => told l + 1
  | _ :: l => told l

/-- The first word is DATA. -/
def IsData (d : Bytes) : Prop := lcs (d.takeWhile fun b => b ≠ c! ' ' ∧ b ≠ c! '\r' ∧ b ≠ c! '\n') = b!"data"

/-- The mail program answers 354 to DATA only. -/
def DataOnly (l : List Act) : Prop :=
  ∀ pre r post, l = pre ++ .reply r :: post → code r = 354 → ∃ pre' d, pre = pre' ++ [.child d] ∧ IsData d

end Spec
open Spec (View view IsData DataOnly)

theorem cut_line {u : Bytes} (h : c! '\n' ∉ u) : ∀ acc, Spec.cut acc (u ++ [c! '\n']) = [acc ++ u] := by
  induction u with
  | nil => intro acc; simp [Spec.cut]
  | cons b u ih =>
    intro acc
    simp only [List.mem_cons, not_or] at h
    have hb : ¬ b = c! '\n' := fun e => h.1 e.symm
    rw [List.cons_append, Spec.cut, if_neg hb, ih h.2]
    simp

theorem cut_forward {raw : Bytes} (h0 : NoNul raw) (hn : c! '\n' ∉ raw) :
    Spec.cut [] (Spec.forward raw) = [Spec.content raw ++ b!"\r"] := by
  rw [forward_of_noNul raw h0, show Spec.content raw ++ b!"\r\n" = (Spec.content raw ++ b!"\r") ++ [c! '\n'] by simp,
    cut_line]
  · simp
  · intro h
    rcases List.mem_append.mp h with h | h
    · exact hn (content_sub raw _ h)
    · exact absurd h (by decide)

theorem isData_verb {raw : Bytes} (h : IsData (Spec.forward raw)) : Spec.verb raw = .data := by
  have hw : lcs (Spec.word raw) = b!"data" := h
  unfold Spec.verb
  rw [hw]
  decide

theorem view_snoc (l : List Act) (a : Act) : view (l ++ [a]) = (view l).act a := by
  simp [view, List.foldl_append]

/-- How the mail program stands in each phase, and what it was given last when it owes an answer.
(Specification or proof notion; models no line of /repo.) -/
def Standing (l : List Act) : Spec.Phase → Prop
  | .start => view l = ⟨1, false⟩ ∧ l = []
  | .sent _ raw => view l = ⟨1, false⟩ ∧ ∃ l', l = l' ++ [.child (Spec.forward raw)]
  | .replied _ raw r => view l = ⟨0, decide (Spec.code r = 354)⟩ ∧ (Spec.code r = 354 → Spec.verb raw = .data)
  | .body _ => view l = ⟨0, true⟩
  | .bodyLine _ _ => view l = ⟨0, true⟩
  | .bodySent _ => view l = ⟨1, false⟩ ∧ ∃ l', l = l' ++ [.child b!".\r\n"]
  | .reset _ => view l = ⟨1, false⟩ ∧ ∃ l', l = l' ++ [.child b!"RSET\r\n"]
  | _ => view l = ⟨0, false⟩

theorem dataOnly_init {l : List Act} {a : Act} (h : DataOnly (l ++ [a])) : DataOnly l :=
  fun pre r post e => h pre r (post ++ [a]) (by rw [e]; simp)

section
variable {cfg : Cfg} {net : List Ev} {cin : Bytes} {tls0 : Bool} {acks : Bytes} {gin : List Bytes}
  {wr gwr : List Bool} {x : Int} {s : S}

theorem step_standing {l : List Act} {q r : Spec.Phase} {a : Act} (h : Spec.Trace cfg tls0 .start l q)
    (hs : Spec.Step cfg tls0 q a r) (ih : Standing l q)
    (h0 : ∀ raw, .line raw ∈ l ++ [a] → NoNul raw) (hd : DataOnly (l ++ [a])) : Standing (l ++ [a]) r := by
  have nl : ∀ raw l', l = l' ++ [.line raw] → NoNul raw := fun raw l' e => h0 raw (by rw [e]; simp)
  have no354 : ∀ r d l', a = .reply r → l = l' ++ [.child d] → ¬ IsData d → ¬ Spec.code r = 354 := by
    rintro r d l' rfl rfl hnd hc
    obtain ⟨pre', d', e, hd'⟩ := hd _ r [] rfl hc
    have := (List.append_inj' e rfl).2
    simp at this
    exact hnd (this ▸ hd')
  have give : ∀ raw, NoNul raw → c! '\n' ∉ raw → view l = ⟨0, false⟩ →
      view (l ++ [.child (Spec.forward raw)]) = ⟨1, false⟩ := by
    intro raw g1 g2 g3
    rw [view_snoc, g3]; simp [View.act, cut_forward g1 g2, View.line]
  cases hs
  case greeting r hh sep t hr =>
    obtain ⟨e1, rfl⟩ := ih
    have hn : ¬ Spec.code r = 354 := by
      intro hc
      obtain ⟨pre', d, e, _⟩ := hd [] r [] rfl hc
      simp at e
    show view ([] ++ [Act.reply r]) = _
    rw [view_snoc, e1]; simp [View.act, View.reply, hn]
  case forward c raw _ _ =>
    obtain ⟨l', e, hn⟩ := Trace.got h
    exact ⟨give raw (nl raw l' e) hn ih, l, rfl⟩
  case unasked c raw _ _ =>
    obtain ⟨l', e, hn⟩ := Trace.got h
    exact ⟨give raw (nl raw l' e) hn ih, l, rfl⟩
  case unanswered c raw _ =>
    obtain ⟨l', q, e, hn⟩ := Trace.asked h
    exact ⟨give raw (h0 raw (by rw [e]; simp)) hn ih, l, rfl⟩
  case pass c raw a _ =>
    obtain ⟨l', q, e, hn⟩ := Trace.answered h
    exact ⟨give raw (h0 raw (by rw [e]; simp)) hn ih, l, rfl⟩
  case overlong c raw a _ _ =>
    obtain ⟨l', q, e, hn⟩ := Trace.answered h
    exact ⟨give raw (h0 raw (by rw [e]; simp)) hn ih, l, rfl⟩
  case reply c raw r hh sep t hr =>
    obtain ⟨e1, l', e2⟩ := ih
    refine ⟨?_, ?_⟩
    · rw [view_snoc, e1]; simp [View.act, View.reply]
    · intro hc
      obtain ⟨pre', d', e, hd'⟩ := hd l r [] rfl hc
      rw [e2] at e
      have := (List.append_inj' e rfl).2
      simp at this
      exact isData_verb (this ▸ hd')
  case data c raw r hv hc =>
    obtain ⟨e1, _⟩ := ih
    show view _ = _
    rw [view_snoc, e1]; simp [View.act, hc]
  case default c raw r hv =>
    obtain ⟨e1, e2⟩ := ih
    have hn : ¬ Spec.code r = 354 := fun hc => by rw [e2 hc] at hv; cases hv
    show view _ = _
    rw [view_snoc, e1]; simp [View.act, hn]
  case ehlo c raw r d hv _ =>
    obtain ⟨e1, e2⟩ := ih
    have hn : ¬ Spec.code r = 354 := fun hc => by rw [e2 hc] at hv; cases hv
    show view _ = _
    rw [view_snoc, e1]; simp [View.act, hn]
  case envelope c raw r hv =>
    obtain ⟨e1, e2⟩ := ih
    have hn : ¬ Spec.code r = 354 := fun hc => by rw [e2 hc] at hv; rcases hv with h | h <;> cases h
    show view _ = _
    rw [view_snoc, e1]; simp [View.act, hn]
  case quit c raw r hv =>
    obtain ⟨e1, e2⟩ := ih
    have hn : ¬ Spec.code r = 354 := fun hc => by rw [e2 hc] at hv; cases hv
    show view _ = _
    rw [view_snoc, e1]; simp [View.act, hn]
  case nodata c raw r hv hn =>
    obtain ⟨e1, e2⟩ := ih
    show view _ = _
    rw [view_snoc, e1]; simp [View.act, hn]
  case bodyForward c raw hne =>
    obtain ⟨l', e, hn⟩ := Trace.bodyLine h
    have : ¬ Spec.content raw ++ b!"\r" = b!".\r" := by
      intro e'
      have e'' : Spec.content raw ++ b!"\r" = b!"." ++ b!"\r" := e'
      exact hne (List.append_cancel_right e'')
    show view _ = _
    rw [view_snoc, show view l = _ from ih]
    simp only [View.act, cut_forward (nl raw l' e) hn, List.foldl_cons, List.foldl_nil, View.line, if_true, if_neg this]
  case bodyDot c raw he =>
    refine ⟨?_, l, rfl⟩
    rw [view_snoc, show view l = _ from ih]
    decide
  case bodyReply c r hh sep t hr =>
    obtain ⟨e1, l', e2⟩ := ih
    have hn := no354 r _ l' rfl e2 (by unfold IsData; decide)
    show view _ = _
    rw [view_snoc, e1]; simp [View.act, View.reply, hn]
  case rset c =>
    refine ⟨?_, l, rfl⟩
    rw [view_snoc, show view l = _ from ih]
    decide
  case rsetReply c r hh sep t hr =>
    obtain ⟨e1, l', e2⟩ := ih
    have hn := no354 r _ l' rfl e2 (by unfold IsData; decide)
    show view _ = _
    rw [view_snoc, e1]; simp [View.act, View.reply, hn]
  all_goals
    show view _ = _
    rw [view_snoc, show view l = _ from ih]
    rfl

theorem Trace.standing {l : List Act} {p : Spec.Phase} (h : Spec.Trace cfg tls0 .start l p)
    (h0 : ∀ raw, .line raw ∈ l → NoNul raw) (hd : DataOnly l) : Standing l p := by
  induction h with
  | nil => exact ⟨rfl, rfl⟩
  | snoc l q a r h hs ih =>
    exact step_standing h hs (ih (fun raw hm => h0 raw (List.mem_append.mpr (.inl hm))) (dataOnly_init hd)) h0 hd

/-- **C121** for clients without NUL bytes and a mail program that answers 354 to DATA only: when the
front end takes a reply, exactly one answer is due, so it is the answer to the line given last; when
it takes a line from the client, none is due, and it takes it as text exactly if the mail program
reads text. -/
theorem c121_in_step_partial (h : Ran cfg net cin tls0 acks gin wr gwr x s) (h0 : 0 ∉ evStream net)
    (hd : DataOnly s.log) (pre post : List Act) :
    (∀ r, s.log = pre ++ .reply r :: post → (view pre).due = 1 ∧ (view pre).text = false) ∧
    (∀ raw, s.log = pre ++ .line raw :: post → (view pre).due = 0 ∧ ((view pre).text = true ↔ InBody pre)) := by
  obtain ⟨p, ht, _⟩ := c47_trace h
  have pref : ∀ a, s.log = pre ++ a :: post →
      (∀ raw, .line raw ∈ pre → NoNul raw) ∧ DataOnly pre := by
    intro a e
    refine ⟨fun raw hm => line_noNul h h0 (by rw [e]; simp [hm]), fun u r v e' => ?_⟩
    exact hd u r (v ++ a :: post) (by rw [e, e']; simp)
  constructor
  · intro r e
    rw [e] at ht
    obtain ⟨q, q', t1, t2, t3⟩ := Trace.split ht
    have st := Trace.standing t1 (pref _ e).1 (pref _ e).2
    cases t2 <;> (obtain ⟨st, _⟩ := st; rw [st]; exact ⟨rfl, rfl⟩)
  · intro raw e
    rw [e] at ht
    obtain ⟨q, q', t1, t2, t3⟩ := Trace.split ht
    have st := Trace.standing t1 (pref _ e).1 (pref _ e).2
    cases t2
    case line c _ _ =>
      have st : view pre = ⟨0, false⟩ := st
      rw [st]
      refine ⟨rfl, by simp, fun hb => ?_⟩
      obtain ⟨c', hc⟩ := Trace.body t1 hb
      cases hc
    case bodyLine c _ _ =>
      have st : view pre = ⟨0, true⟩ := st
      rw [st]
      exact ⟨rfl, fun _ => (Trace.inBody t1).1 c rfl, fun _ => rfl⟩

/-- How often the client will be told something before the next line is taken.
(Specification or proof notion; models no line of /repo.) -/
def toTell : Spec.Phase → Nat
  | .ready _ => 0
  | .body _ => 0
  | .bodyLine _ raw => if Spec.content raw = b!"." then 1 else 0
  | .offered _ => 0
  | .requested _ => 0
  | .drained _ => 0
  | .acked _ => 0
  | .reset _ => 0
  | .refused => 0
  | .over => 0
  | _ => 1

theorem told_snoc (l : List Act) (a : Act) : Spec.told (l ++ [a]) = Spec.told l + Spec.told [a] := by
  induction l with
  | nil => simp [Spec.told]
  | cons b l ih => cases b <;> simp [Spec.told, ih] <;> omega

theorem Trace.told {l : List Act} {p q : Spec.Phase} (h : Spec.Trace cfg tls0 p l q) (hl : ∀ r, .line r ∉ l) :
    toTell p = Spec.told l + toTell q := by
  induction h with
  | nil => simp [Spec.told]
  | snoc l q a r h hs ih =>
    have ih := ih (fun r hm => hl r (List.mem_append.mpr (.inl hm)))
    rw [told_snoc, ih, Nat.add_assoc]
    congr 1
    cases hs
    case line raw _ _ _ => exact absurd (by simp) (hl raw)
    case bodyLine raw _ _ _ => exact absurd (by simp) (hl raw)
    all_goals simp_all [toTell, Spec.told]

/-- **C121**, the client's side, in every session: from one line of the client to the next it is told
one thing, except that lines of text before the dot are not answered. -/
theorem c121_once (h : Ran cfg net cin tls0 acks gin wr gwr x s) (pre mid post : List Act) (raw raw' : Bytes)
    (hl : s.log = pre ++ .line raw :: (mid ++ .line raw' :: post)) (hm : ∀ r, .line r ∉ mid) :
    (InBody pre → Spec.content raw ≠ b!"." → Spec.told mid = 0) ∧
    (¬ InBody pre ∨ Spec.content raw = b!"." → Spec.told mid = 1) := by
  obtain ⟨p, ht, _⟩ := c47_trace h
  rw [hl] at ht
  obtain ⟨q, q', t1, t2, t3⟩ := Trace.split ht
  obtain ⟨q1, q2, t4, t5, _⟩ := Trace.split t3
  have e := Trace.told t4 hm
  have z : toTell q1 = 0 := by cases t5 <;> rfl
  rw [z, Nat.add_zero] at e
  cases t2
  case line c _ _ =>
    have e : 1 = Spec.told mid := e
    refine ⟨fun hb => ?_, fun _ => e.symm⟩
    obtain ⟨c', hc⟩ := Trace.body t1 hb
    cases hc
  case bodyLine c _ _ =>
    have e : (if Spec.content raw = b!"." then 1 else 0) = Spec.told mid := e
    refine ⟨fun _ hne => by rw [← e, if_neg hne], fun hor => ?_⟩
    rcases hor with hb | hb
    · exact absurd ((Trace.inBody t1).1 c rfl) hb
    · rw [← e, if_pos hb]

end

/-- C121 is violated by NUL bytes: the mail program sees two commands in one line and answers both.
The front end takes the second answer for the reply to QUIT. -/
theorem c121_nul : ∃ s, Ran ⟨none, false, false, []⟩ [.data b!"NOOP\x00VRFY a\r\nQUIT\r\n"]
    b!"220 hi\r\n250 noop\r\n252 vrfy\r\n221 bye\r\n" false [] [] [] [] 0 s ∧
    s.log = [.reply b!"220 hi\r\n", .client b!"220 hi\r\n", .line b!"NOOP\x00VRFY a\r", .child b!"NOOP\nVRFY a\r\n",
      .reply b!"250 noop\r\n", .client b!"250 noop\r\n", .line b!"QUIT\r", .child b!"QUIT\r\n"] ++
      .reply b!"252 vrfy\r\n" :: [.client b!"252 vrfy\r\n"] ∧
    (view (s.log.take 8)).due = 2 :=
  ran_check _ (by decide +kernel)

/-- A session for `c121_in_step_partial`: a message whose text looks like commands. -/
theorem c121_sample : ∃ s, Ran ⟨none, false, false, []⟩ [.data b!"data\r\nQUIT\r\n.\r\nQUIT\r\n"]
    b!"220 hi\r\n354 go\r\n250 ok\r\n221 bye\r\n" false [] [] [] [] 0 s ∧
    s.log = [.reply b!"220 hi\r\n", .client b!"220 hi\r\n", .line b!"data\r", .child b!"data\r\n",
      .reply b!"354 go\r\n", .client b!"354 go\r\n", .line b!"QUIT\r", .child b!"QUIT\r\n",
      .line b!".\r", .child b!".\r\n", .reply b!"250 ok\r\n", .client b!"250 ok\r\n",
      .line b!"QUIT\r", .child b!"QUIT\r\n", .reply b!"221 bye\r\n", .client b!"221 bye\r\n"] ∧
    view (s.log.take 6) = ⟨0, true⟩ ∧ view (s.log.take 8) = ⟨0, true⟩ ∧ view (s.log.take 12) = ⟨0, false⟩ ∧
    view (s.log.take 14) = ⟨1, false⟩ :=
  ran_check _ (by decide +kernel)

end Smtp
