import Verif.Smtp.MessageEnd
/-
C119: what the greylist server is asked.
-/
namespace Smtp
open Str Str.Spec

namespace Spec

/-- A request of the policy protocol: lines `name=value`, then an empty line. -/
def Request (q : Bytes) (attrs : List (Bytes × Bytes)) : Prop :=
  q = attrs.flatMap (fun p => p.1 ++ c! '=' :: (p.2 ++ [c! '\n'])) ++ [c! '\n'] ∧
  ∀ p ∈ attrs, c! '=' ∉ p.1 ∧ c! '\n' ∉ p.1 ∧ c! '\n' ∉ p.2

/-- Of the actions, the last MAIL was a line with the sender `a`. -/
def LastSender (l : List Act) (a : Bytes) : Prop :=
  ∃ l1 raw l2, l = l1 ++ .line raw :: l2 ∧ verb raw = .mail ∧ arg b!"mail from:" raw = some a ∧
    ∀ r, .line r ∈ l2 → verb r ≠ .mail

/-- Since the last MAIL, the last RCPT with an address had the address `b`. -/
def LastRcpt (l : List Act) (b : Bytes) : Prop :=
  ∃ l1 raw l2, l = l1 ++ .line raw :: l2 ∧ verb raw = .rcpt ∧ arg b!"rcpt to:" raw = some b ∧
    ∀ r, .line r ∈ l2 → verb r ≠ .mail ∧ (verb r = .rcpt → arg b!"rcpt to:" r = none)

end Spec
open Spec (Request LastSender LastRcpt)

/-! ### Requests are read in one way -/

theorem split_unique {x : Byte} {a b c d : Bytes} (h : a ++ x :: b = c ++ x :: d) (ha : x ∉ a) (hc : x ∉ c) :
    a = c ∧ b = d := by
  rcases List.append_eq_append_iff.mp h with ⟨e, h1, h2⟩ | ⟨e, h1, h2⟩
  · cases e with
    | nil => simp at h1 h2; exact ⟨h1.symm, h2⟩
    | cons y e => simp at h2; rw [h1, ← h2.1] at hc; simp at hc
  · cases e with
    | nil => simp at h1 h2; exact ⟨h1, h2.symm⟩
    | cons y e => simp at h2; rw [h1, ← h2.1] at ha; simp at ha

/-- What a server reads from a stream that begins with a request is that request: no other request is
the beginning of the stream. -/
theorem c119_read_unique {q q' rest rest' : Bytes} {as as' : List (Bytes × Bytes)} (h : Request q as)
    (h' : Request q' as') (e : q ++ rest = q' ++ rest') : as = as' ∧ q = q' ∧ rest = rest' := by
  have key : as = as' := by
    obtain ⟨rfl, h1⟩ := h
    obtain ⟨rfl, h2⟩ := h'
    have no : ∀ (p : Bytes × Bytes) (t u : Bytes), c! '\n' ∉ p.1 →
        p.1 ++ c! '=' :: t ≠ c! '\n' :: u := by
      intro p t u hp e
      cases hn : p.1 with
      | nil => rw [hn] at e; simp at e
      | cons y n => rw [hn] at e hp; simp at e; rw [e.1] at hp; simp at hp
    induction as generalizing as' with
    | nil =>
      cases as' with
      | nil => rfl
      | cons p as' =>
        simp only [List.flatMap_nil, List.nil_append, List.flatMap_cons, List.append_assoc, List.cons_append] at e
        exact absurd e.symm (no p _ _ (h2 p (.head _)).2.1)
    | cons p as ih =>
      cases as' with
      | nil =>
        simp only [List.flatMap_nil, List.nil_append, List.flatMap_cons, List.append_assoc, List.cons_append] at e
        exact absurd e (no p _ _ (h1 p (.head _)).2.1)
      | cons p' as' =>
        simp only [List.flatMap_cons, List.append_assoc, List.cons_append, List.nil_append] at e
        obtain ⟨e1, e2⟩ := split_unique e (h1 p (.head _)).1 (h2 p' (.head _)).1
        obtain ⟨e3, e4⟩ := split_unique e2 (h1 p (.head _)).2.2 (h2 p' (.head _)).2.2
        have := ih (as' := as') (fun q hq => h1 q (.tail _ hq)) (fun q hq => h2 q (.tail _ hq)) (by simpa using e4)
        rw [this, Prod.ext e1 e3]
  subst key
  have : q = q' := h.1.trans h'.1.symm
  subst this
  exact ⟨rfl, rfl, List.append_cancel_left e⟩

/-! ### What is remembered -/

theorem lastSender_snoc {l : List Act} {a : Bytes} {x : Act} (h : LastSender l a)
    (hx : ∀ r, x = .line r → Spec.verb r ≠ .mail) : LastSender (l ++ [x]) a := by
  obtain ⟨l1, raw, l2, rfl, h1, h2, h3⟩ := h
  refine ⟨l1, raw, l2 ++ [x], by simp, h1, h2, ?_⟩
  intro r hr
  rcases List.mem_append.mp hr with hr | hr
  · exact h3 r hr
  · exact hx r (List.mem_singleton.mp hr).symm

theorem lastRcpt_snoc {l : List Act} {a : Bytes} {x : Act} (h : LastRcpt l a)
    (hx : ∀ r, x = .line r → Spec.verb r ≠ .mail ∧ (Spec.verb r = .rcpt → Spec.arg b!"rcpt to:" r = none)) :
    LastRcpt (l ++ [x]) a := by
  obtain ⟨l1, raw, l2, rfl, h1, h2, h3⟩ := h
  refine ⟨l1, raw, l2 ++ [x], by simp, h1, h2, ?_⟩
  intro r hr
  rcases List.mem_append.mp hr with hr | hr
  · exact h3 r hr
  · exact hx r (List.mem_singleton.mp hr).symm

/-- What `c` remembers is what the client said last.
(Specification or proof notion; models no line of /repo.) -/
def Knows (l : List Act) (c : Spec.Ctx) : Prop :=
  (∀ a, c.sender = some a → LastSender l a) ∧ (∀ b, c.rcpt = some b → LastRcpt l b)

/-- What a phase outside a message remembers.
(Specification or proof notion; models no line of /repo.) -/
def memory : Spec.Phase → Option Spec.Ctx
  | .ready c => some c
  | .got c _ => some c
  | .asked c _ => some c
  | .answered c _ _ => some c
  | .sent c _ => some c
  | .replied c _ _ => some c
  | .offered c => some c
  | .requested c => some c
  | .drained c => some c
  | .acked c => some c
  | .reset c => some c
  | _ => none

theorem Knows.snoc {l : List Act} {c : Spec.Ctx} {x : Act} (h : Knows l c) (hx : ∀ r, x ≠ .line r) :
    Knows (l ++ [x]) c :=
  ⟨fun a ha => lastSender_snoc (h.1 a ha) fun r e => absurd e (hx r), fun b hb => lastRcpt_snoc (h.2 b hb) fun r e => absurd e (hx r)⟩

theorem Knows.line {l : List Act} {c : Spec.Ctx} (h : Knows l c) (raw : Bytes) :
    Knows (l ++ [.line raw]) (c.after raw) := by
  unfold Spec.Ctx.after
  split
  · rename_i hv
    constructor
    · intro a ha
      exact ⟨l, raw, [], rfl, hv, ha, by simp⟩
    · intro b hb; simp at hb
  · rename_i hv
    split
    · rename_i a ha
      constructor
      · intro a' ha'
        refine lastSender_snoc (h.1 a' ha') ?_
        intro r e; cases e; rw [hv]; simp
      · intro b hb
        simp at hb; subst hb
        exact ⟨l, raw, [], rfl, hv, ha, by simp⟩
    · rename_i ha
      constructor
      · intro a' ha'
        refine lastSender_snoc (h.1 a' ha') ?_
        intro r e; cases e; rw [hv]; simp
      · intro b hb
        refine lastRcpt_snoc (h.2 b hb) ?_
        intro r e; cases e; rw [hv]; exact ⟨by simp, fun _ => ha⟩
  · rename_i h1 h2
    constructor
    · intro a' ha'
      refine lastSender_snoc (h.1 a' ha') ?_
      intro r e; cases e; exact h1
    · intro b hb
      refine lastRcpt_snoc (h.2 b hb) ?_
      intro r e; cases e; exact ⟨h1, fun hv => absurd hv h2⟩

section
variable {cfg : Cfg} {net : List Ev} {cin : Bytes} {tls0 : Bool} {acks : Bytes} {gin : List Bytes}
  {wr gwr : List Bool} {x : Int} {s : S}

theorem Trace.knows {l : List Act} {p : Spec.Phase} (h : Spec.Trace cfg tls0 .start l p) :
    ∀ c, memory p = some c → Knows l c := by
  induction h with
  | nil => intro c hc; simp [memory] at hc
  | snoc l q a r h hs ih =>
    intro c hc
    cases hs
    case line => cases hc; exact (ih _ rfl).line _
    case greeted => cases hc; exact ⟨by simp, by simp⟩
    case bodyEnd => cases hc; exact ⟨by simp [Spec.Ctx.clear], by simp [Spec.Ctx.clear]⟩
    case rsetReply => cases hc; exact ⟨by simp, by simp⟩
    all_goals first
      | (cases hc; done)
      | (cases hc; exact (ih _ rfl).snoc (by simp))

/-- Lines in the log have no LF. -/
theorem line_noLf (h : Ran cfg net cin tls0 acks gin wr gwr x s) {raw : Bytes} (hm : .line raw ∈ s.log) :
    c! '\n' ∉ raw := by
  obtain ⟨p, ht, _⟩ := c47_trace h
  obtain ⟨u, v, e⟩ := List.append_of_mem hm
  rw [e] at ht
  obtain ⟨q, q', _, t, _⟩ := Trace.split ht
  cases t <;> assumption

theorem arg_noLf {key raw a : Bytes} (h0 : NoNul raw) (hn : c! '\n' ∉ raw) (h : Spec.arg key raw = some a) :
    c! '\n' ∉ a := by
  unfold Spec.arg at h
  rw [forward_of_noNul raw h0] at h
  have e : (Spec.content raw ++ b!"\r\n").take ((Spec.content raw ++ b!"\r\n").length - 2) = Spec.content raw := by
    rw [List.length_append, show (b!"\r\n").length = 2 from rfl, Nat.add_sub_cancel, List.take_left]
  simp only [e] at h
  split at h
  · cases h
    intro hm
    exact hn (content_sub raw _ (List.mem_of_mem_drop ((List.takeWhile_sublist _).subset hm)))
  · cases h

/-- **C119** for clients that send no NUL bytes: whenever the greylist server is asked, it is asked
exactly one question, about this client, the sender of the client's last MAIL and the last
recognised recipient since. -/
theorem c119_question_partial (h : Ran cfg net cin tls0 acks gin wr gwr x s) (h0 : 0 ∉ evStream net)
    (hip : c! '\n' ∉ cfg.ip) (pre post : List Act) (q : Bytes) (hl : s.log = pre ++ .ask q :: post) :
    ∃ a b, Request q [(b!"request", b!"smtpd_access_policy"), (b!"client_address", Spec.beforeNul cfg.ip),
        (b!"sender", a), (b!"recipient", b)] ∧
      LastSender pre a ∧ LastRcpt pre b ∧
      ∃ pre' raw, pre = pre' ++ [.line raw] ∧ Spec.verb raw = .rcpt := by
  obtain ⟨p, ht, _⟩ := c47_trace h
  rw [hl] at ht
  obtain ⟨q1, q2, t1, t2, t3⟩ := Trace.split ht
  cases t2
  case ask c raw a b hg ha hb =>
    have hk := Trace.knows t1 c rfl
    have hs := hk.1 a ha
    have hr := hk.2 b hb
    obtain ⟨pre', e, _⟩ := Trace.got t1
    have la : c! '\n' ∉ a := by
      obtain ⟨l1, raw', l2, e', _, h2, _⟩ := hs
      have hm : .line raw' ∈ s.log := by rw [hl, e']; simp
      exact arg_noLf (line_noNul h h0 hm) (line_noLf h hm) h2
    have lb : c! '\n' ∉ b := by
      obtain ⟨l1, raw', l2, e', _, h2, _⟩ := hr
      have hm : .line raw' ∈ s.log := by rw [hl, e']; simp
      exact arg_noLf (line_noNul h h0 hm) (line_noLf h hm) h2
    have li : c! '\n' ∉ Spec.beforeNul cfg.ip := fun hm => hip ((List.takeWhile_sublist _).subset hm)
    refine ⟨a, b, ⟨?_, ?_⟩, hs, hr, pre', raw, e, hg.2.1⟩
    · simp [Spec.question]
    · intro p hp
      simp only [List.mem_cons, List.not_mem_nil, or_false] at hp
      rcases hp with rfl | rfl | rfl | rfl
      · decide
      · exact ⟨(by decide : _ ∉ b!"client_address"), (by decide : _ ∉ b!"client_address"), li⟩
      · exact ⟨(by decide : _ ∉ b!"sender"), (by decide : _ ∉ b!"sender"), la⟩
      · exact ⟨(by decide : _ ∉ b!"recipient"), (by decide : _ ∉ b!"recipient"), lb⟩

end

/-- A session for the theorem: the first question is about `b`, the second about `d` and the new sender. -/
theorem c119_sample : ∃ s, Ran ⟨none, true, true, b!"192.0.2.1"⟩
    [.data b!"MAIL FROM:<a>\r\nRCPT TO:<b>\r\nMAIL FROM:<c> x\r\nrcpt to:<d>\r\n"] b!"220 hi\r\n250 a\r\n250 b\r\n250 c\r\n250 d\r\n"
    false [] [b!"action=dunno\n\n", b!"action=dunno\n\n"] [] [] 111 s ∧
    s.log.filter (fun a => match a with | .ask _ => true | _ => false) =
      [.ask b!"request=smtpd_access_policy\nclient_address=192.0.2.1\nsender=<a>\nrecipient=<b>\n\n",
       .ask b!"request=smtpd_access_policy\nclient_address=192.0.2.1\nsender=<c>\nrecipient=<d>\n\n"] :=
  ran_check _ (by decide +kernel)

/-- C119 is violated by NUL bytes: the client chooses attributes of the question, here its own
address, after the true one. -/
theorem c119_nul_attribute : ∃ s, Ran ⟨none, true, true, b!"192.0.2.1"⟩
    [.data b!"MAIL FROM:<a>\x00client_address=10.0.0.1\r\nRCPT TO:<b>\r\n"] b!"220 hi\r\n250 a\r\n250 b\r\n"
    false [] [b!"action=dunno\n\n"] [] [] 111 s ∧
    ∃ q, Act.ask q ∈ s.log ∧ Request q [(b!"request", b!"smtpd_access_policy"), (b!"client_address", b!"192.0.2.1"),
        (b!"sender", b!"<a>"), (b!"client_address", b!"10.0.0.1"), (b!"recipient", b!"<b>")] := by
  have : ∃ s, Ran ⟨none, true, true, b!"192.0.2.1"⟩
      [.data b!"MAIL FROM:<a>\x00client_address=10.0.0.1\r\nRCPT TO:<b>\r\n"] b!"220 hi\r\n250 a\r\n250 b\r\n"
      false [] [b!"action=dunno\n\n"] [] [] 111 s ∧
      Act.ask (b!"request=smtpd_access_policy\nclient_address=192.0.2.1\nsender=<a>\nclient_address=10.0.0.1\nrecipient=<b>\n\n")
        ∈ s.log := ran_check _ (by decide +kernel)
  obtain ⟨s, h1, h2⟩ := this
  exact ⟨s, h1, _, h2, by decide +kernel, by decide +kernel⟩

/-- The client can also ask a whole question of its own choice: the server reads two requests, and
answers the first with the sender the client chose and no recipient. -/
theorem c119_nul_request : ∃ s, Ran ⟨none, true, true, b!"192.0.2.1"⟩
    [.data b!"MAIL FROM:<a>\x00\x00sender=<c>\r\nRCPT TO:<b>\r\n"] b!"220 hi\r\n250 a\r\n250 b\r\n"
    false [] [b!"action=dunno\n\n"] [] [] 111 s ∧
    ∃ q1 q2, Act.ask (q1 ++ q2) ∈ s.log ∧
      Request q1 [(b!"request", b!"smtpd_access_policy"), (b!"client_address", b!"192.0.2.1"), (b!"sender", b!"<a>")] ∧
      Request q2 [(b!"sender", b!"<c>"), (b!"recipient", b!"<b>")] := by
  have : ∃ s, Ran ⟨none, true, true, b!"192.0.2.1"⟩
      [.data b!"MAIL FROM:<a>\x00\x00sender=<c>\r\nRCPT TO:<b>\r\n"] b!"220 hi\r\n250 a\r\n250 b\r\n"
      false [] [b!"action=dunno\n\n"] [] [] 111 s ∧
      Act.ask (b!"request=smtpd_access_policy\nclient_address=192.0.2.1\nsender=<a>\n\n" ++ b!"sender=<c>\nrecipient=<b>\n\n")
        ∈ s.log := ran_check _ (by decide +kernel)
  obtain ⟨s, h1, h2⟩ := this
  exact ⟨s, h1, _, _, h2, ⟨by decide +kernel, by decide +kernel⟩, by decide +kernel, by decide +kernel⟩

end Smtp
