import Verif.Smtp.GreyProps
/-
C102: which answer of the greylist server decides about which recipient.
-/
namespace Smtp
open Str Str.Spec

namespace Spec
/-- The first line of an answer, with its LF.
(Specification or proof notion; models no line of /repo.) -/
def firstLine (a : Bytes) : Bytes := a.takeWhile (· ≠ c! '\n') ++ [c! '\n']

/-- How many questions the server was asked.
(Specification or proof notion; models no line of /repo.) -/
def asked : List Act → Nat
  | .ask _ :: l => asked l + 1
  | _ :: l => asked l
  | [] => 0

/-- Each recipient is decided by the answer to its own question: `answers` are the server's answers, in
the order of the questions. What the child is given in the course of a command
about which the server was asked, it is given because the answer to that very question
was dunno. (Specification or proof notion; models no line of /repo.) -/
def DecidedByOwn (answers : List Bytes) (log : List Act) : Prop :=
  ∀ pre q mid d post, log = pre ++ .ask q :: (mid ++ .child d :: post) → (∀ r, Act.line r ∉ mid) →
    ∀ a, answers[asked pre]? = some a → Dunno (firstLine a)

/-- An answer of the policy protocol: one line `action=...` and an empty line.
(Specification or proof notion; models no line of /repo.) -/
def PolicyAnswer (a : Bytes) : Prop := ∃ v, a = b!"action=" ++ v ++ b!"\n\n" ∧ c! '\n' ∉ v ∧ v.length < 4000

/-- `OwnAnswers g l r`: in `l` every question was followed at once by the first line of the
next answer of `g`, as long as there were any; `r` are those left.
(Specification or proof notion; models no line of /repo.) -/
inductive OwnAnswers (g : List Bytes) : List Act → List Bytes → Prop
  | nil : OwnAnswers g [] g
  | other (l r a) : OwnAnswers g l r → (∀ d, a ≠ .ask d) → (∀ d, a ≠ .answer d) → OwnAnswers g (l ++ [a]) r
  | answered (l a r q) : OwnAnswers g l (a :: r) → OwnAnswers g (l ++ [.ask q, .answer (firstLine a)]) r
  | silent (l q) : OwnAnswers g l [] → OwnAnswers g (l ++ [.ask q]) []
end Spec

/-- An answer arrived well: `pieces` are the results of the reads that delivered it. None of
them failed or took too long, and the one that delivered the end of the first line delivered
also what follows it; the line is within the limit (main_tlswrapper_smtp.c:431). One read delivers at most 256 bytes
(main_tlswrapper_smtp.c:353), so an answer whose first line takes a multiple of that never arrives like this. -/
def Fits (pieces : List Bytes) : Prop :=
  ∃ begin last, pieces = begin ++ [last] ∧ (∀ d ∈ begin, d ≠ []) ∧ c! '\n' ∉ begin.flatten ∧ c! '\n' ∈ last ∧
    (pieces.flatten.takeWhile (· ≠ c! '\n')).length < 4096

/-- The invariant: `g` are the answers, in pieces. (Specification or proof notion; models no line of /repo.) -/
def OwnInv (g : List (List Bytes)) (s : S) : Prop :=
  ∃ n, s.gin = (g.drop n).flatten ∧ Spec.OwnAnswers (g.map List.flatten) s.log ((g.drop n).map List.flatten)
/-- `m` keeps it, also when it ends the session. (Specification or proof notion; models no line of /repo.) -/
def OwnKept (g : List (List Bytes)) {α : Type} : R α → Prop
  | .ok _ s' => OwnInv g s'
  | .die _ s' => OwnInv g s'
  | .ub => True
/-- (Specification or proof notion; models no line of /repo.) -/
def OwnKeeps (g : List (List Bytes)) {α : Type} (m : M α) : Prop := ∀ s, OwnInv g s → OwnKept g (m s)

variable {g : List (List Bytes)} {cfg : Cfg}

theorem OwnKeeps.bind {α β : Type} {m : M α} {f : α → M β} (h : OwnKeeps g m) (h' : ∀ a, OwnKeeps g (f a)) :
    OwnKeeps g (m >>= f) := by
  intro s hs
  have h1 := h s hs
  rw [bind_def]
  cases e : m s with
  | ok a s' => rw [e] at h1; exact h' a s' h1
  | die x s' => rw [e] at h1; exact h1
  | ub => trivial
theorem OwnKeeps.pure {α : Type} (a : α) : OwnKeeps g (pure a : M α) := fun _ hs => hs
theorem OwnKeeps.get : OwnKeeps g get := fun _ hs => hs
theorem OwnKeeps.die {α : Type} (x : Int) : OwnKeeps g (die x : M α) := fun _ hs => hs
theorem OwnKeeps.ite {α : Type} {c : Prop} [Decidable c] {a b : M α} (h : OwnKeeps g a) (h' : OwnKeeps g b) :
    OwnKeeps g (if c then a else b) := by split <;> assumption
theorem OwnKeeps.modify {f : S → S} (h : ∀ s, (f s).gin = s.gin ∧ (f s).log = s.log) : OwnKeeps g (modify f) := by
  intro s hs
  obtain ⟨h1, h2⟩ := h s
  show OwnInv g (f s)
  unfold OwnInv
  rw [h1, h2]; exact hs

/-- An action that has nothing to do with the server. (Specification or proof notion; models no line of /repo.) -/
def NotGrey : Act → Prop
  | .ask _ => False
  | .answer _ => False
  | _ => True

theorem OwnInv.other {s s' : S} {a : Act} (h : OwnInv g s) (ha : NotGrey a) (hl : s'.log = s.log ++ [a])
    (hg : s'.gin = s.gin) : OwnInv g s' := by
  obtain ⟨n, h1, h2⟩ := h
  refine ⟨n, hg ▸ h1, ?_⟩
  rw [hl]
  exact .other _ _ _ h2 (by rintro d rfl; exact ha) (by rintro d rfl; exact ha)
theorem OwnInv.same {s s' : S} (h : OwnInv g s) (hl : s'.log = s.log) (hg : s'.gin = s.gin) : OwnInv g s' := by
  unfold OwnInv; rw [hl, hg]; exact h

theorem OwnKeeps.act {a : Act} (h : NotGrey a) : OwnKeeps g (act a) := fun _ hs => hs.other h rfl rfl

theorem own_write : OwnKeeps g write := by
  intro s hs
  have := write_post s
  cases e : write s with
  | ok a s' => rw [e] at this; obtain ⟨w, rfl⟩ := this; exact hs.same rfl rfl
  | ub => trivial
  | die x s' => rw [e] at this; obtain ⟨_, w, rfl⟩ := this; exact hs.same rfl rfl

theorem own_toChild (d : Bytes) : OwnKeeps g (toChild d) := own_write.bind fun _ => .act trivial
theorem own_toClient (d : Bytes) : OwnKeeps g (toClient d) := own_write.bind fun _ => .act trivial

theorem own_readline : OwnKeeps g readline := by
  intro s hs
  have := readline_inv s
  cases e : readline s with
  | ub => trivial
  | die x s' =>
    rw [e] at this
    obtain ⟨_, buf, net, line, _, rfl, _⟩ := this
    exact hs.same rfl rfl
  | ok u s' =>
    rw [e] at this
    obtain ⟨raw, rest, buf, net, _, _, _, _, _, rfl⟩ := this
    exact hs.other (a := .line raw) trivial rfl rfl

theorem own_smtpline (append : Option Bytes) (b : Bool) : OwnKeeps g (smtpline cfg append b) := by
  intro s hs
  have := smtpline_inv cfg append b s
  cases e : smtpline cfg append b s with
  | ub => trivial
  | die x s' =>
    rw [e] at this
    obtain ⟨_, cin, cline, _, _, h⟩ := this
    rcases h with rfl | ⟨r, hh, sep, t, a, _, _, _, _, rfl⟩
    · exact hs.same rfl rfl
    · exact hs.other (a := .reply r) trivial rfl rfl
  | ok code s' =>
    rw [e] at this
    obtain ⟨r, hh, sep, t, rest, _, _, _, _, _, rfl⟩ := this
    exact hs.other (a := .reply r) trivial rfl rfl

theorem own_copy (b : Bool) : OwnKeeps g (copy cfg b) :=
  OwnKeeps.get.bind fun _ => (own_toChild _).bind fun _ => (own_smtpline _ _).bind fun _ => OwnKeeps.get.bind fun _ =>
    (own_toClient _).bind fun _ => .pure _

theorem own_bodyLoop (n : Nat) : OwnKeeps g (bodyLoop n) := by
  induction n with
  | zero => exact OwnKeeps.die _
  | succ n ih =>
    exact own_readline.bind fun _ => OwnKeeps.get.bind fun _ => (own_toChild _).bind fun _ =>
      (OwnKeeps.modify (by intro s; exact ⟨rfl, rfl⟩)).bind fun _ => OwnKeeps.get.bind fun _ => .ite (.pure _) ih

theorem own_reset : OwnKeeps g resetTransaction := OwnKeeps.modify (by intro s; exact ⟨rfl, rfl⟩)

theorem own_data : OwnKeeps g (smtpData cfg) :=
  OwnKeeps.get.bind fun _ => (own_toChild _).bind fun _ => (own_smtpline _ _).bind fun _ => OwnKeeps.get.bind fun _ =>
    (own_toClient _).bind fun _ => .ite (.pure _) <| OwnKeeps.get.bind fun _ => (own_bodyLoop _).bind fun _ =>
    (own_smtpline _ _).bind fun _ => OwnKeeps.get.bind fun _ => (own_toClient _).bind fun _ => own_reset

theorem own_lift {α : Type} (x : Out α) : OwnKeeps g (lift x) := by
  intro s hs
  cases x with
  | ok a => exact hs
  | ub => trivial

/-- One read is enough for an answer that arrives in one piece. -/
theorem greyRead_piece (cfg : Cfg) (n : Nat) : ∀ (buf resp : Bytes) (s : S), c! '\n' ∈ buf →
    resp.length + (buf.takeWhile (· ≠ c! '\n')).length < 4096 → buf.length < n →
    greyRead cfg n buf resp s = .ok (some (resp ++ Spec.firstLine buf)) s := by
  induction n with
  | zero => intro buf resp s _ _ h; omega
  | succ n ih =>
    intro buf resp s hmem hlen hn
    rw [greyRead, bind_def]
    simp only [get_def]
    cases buf with
    | nil => simp at hmem
    | cons ch buf =>
      have hm : ¬ resp.length ≥ maxLine := by simp only [maxLine]; omega
      simp only [ite_app, hm, if_false]
      by_cases hc : ch = c! '\n'
      · subst hc
        simp [Spec.firstLine, pure_def]
      · rw [if_neg hc]
        have hd : (decide (ch ≠ c! '\n')) = true := by simpa using hc
        simp only [List.takeWhile_cons, hd, if_true, List.length_cons] at hlen
        rw [ih buf (resp ++ [ch]) s ((List.mem_cons.1 hmem).resolve_left (fun h => hc h.symm))
          (by rw [List.length_append, List.length_singleton]; omega) (by rw [List.length_cons] at hn; omega)]
        simp [Spec.firstLine, hc]

/-- An answer in several pieces is read to the last of them and no further. -/
theorem greyRead_pieces (cfg : Cfg) (n : Nat) : ∀ (buf resp : Bytes) (begin rest : List Bytes) (last : Bytes) (s : S),
    s.gin = begin ++ last :: rest → (∀ d ∈ begin, d ≠ []) → c! '\n' ∉ buf ++ begin.flatten → c! '\n' ∈ last →
    resp.length + ((buf ++ begin.flatten ++ last).takeWhile (· ≠ c! '\n')).length < 4096 →
    buf.length + greyBytes s.gin < n →
    greyRead cfg n buf resp s =
      .ok (some (resp ++ Spec.firstLine (buf ++ begin.flatten ++ last))) { s with gin := rest } := by
  induction n with
  | zero => intro buf resp begin rest last s _ _ _ _ _ h; omega
  | succ n ih =>
    intro buf resp begin rest last s hgin hne hna hlast hlen hn
    rw [greyRead, bind_def]
    simp only [get_def]
    cases buf with
    | nil =>
      rw [hgin] at hn ⊢
      cases begin with
      | nil =>
        cases last with
        | nil => simp at hlast
        | cons b d =>
          simp only [List.nil_append, bind_def, modify_def]
          rw [greyRead_piece cfg n (b :: d) resp _ hlast (by simpa using hlen) (by simp [greyBytes] at hn ⊢; omega)]
          simp
      | cons p begin =>
        cases p with
        | nil => exact absurd rfl (hne [] (.head _))
        | cons b d =>
          simp only [List.cons_append, bind_def, modify_def]
          rw [ih (b :: d) resp begin rest last { s with gin := begin ++ last :: rest } rfl (fun d h => hne d (.tail _ h))
            (by simpa using hna) hlast (by simpa using hlen) (by simp [greyBytes] at hn ⊢; omega)]
          simp
    | cons ch buf =>
      have hm : ¬ resp.length ≥ maxLine := by simp only [maxLine]; omega
      simp only [List.cons_append, List.mem_cons, not_or] at hna
      have hc : ch ≠ c! '\n' := fun h => hna.1 h.symm
      have hd : (decide (ch ≠ c! '\n')) = true := by simpa using hc
      simp only [ite_app, hm, if_false, if_neg hc]
      simp only [List.cons_append, List.takeWhile_cons, hd, if_true, List.length_cons] at hlen
      rw [ih buf (resp ++ [ch]) begin rest last s hgin hne hna.2 hlast
        (by rw [List.length_append, List.length_singleton]; omega) (by simp at hn ⊢; omega)]
      simp [Spec.firstLine, hc]

theorem own_greylist (hf : ∀ p ∈ g, Fits p) : OwnKeeps g (greylist cfg) := by
  intro s hs
  have after : ∀ w : List Bool, OwnKept g
      ((do
        act (.ask (request cfg s))
        match ← greyRead cfg (greyBytes s.gin + 1) [] [] with
        | none => pure none
        | some resp => do
          act (.answer resp)
          if ← lift (answerIs resp 12 b!"action=dunno\x00") then pure none
          else if ← lift (answerIs resp 13 b!"action=reject\x00") then
            pure (some b!"553 bad reputation (#5.7.1)")
          else pure (some b!"450 greylisted (#4.3.0)") : M (Option Bytes)) { s with gwr := w }) := by
    intro w
    rw [bind_def]
    simp only [act_def]
    rw [bind_def]
    obtain ⟨k, h1, h2⟩ := hs
    cases hk : g.drop k with
    | nil =>
      rw [hk] at h1 h2
      simp only [List.flatten_nil] at h1
      have h3 : OwnInv g { s with gwr := w, log := s.log ++ [.ask (request cfg s)], gin := [] } :=
        ⟨k, by rw [hk]; rfl, by rw [hk]; exact .silent _ _ h2⟩
      rw [greyRead, bind_def]
      simp only [get_def, h1]
      cases hc : cfg.closed with
      | true => simp only [if_true, die_def]; exact h3
      | false => simp only [Bool.false_eq_true, if_false, pure_def]; exact h3
    | cons p t =>
      have hp : p ∈ g := List.mem_of_mem_drop (by rw [hk]; exact .head _)
      have hk' : g.drop (k + 1) = t := by rw [← List.drop_drop, hk]; rfl
      obtain ⟨begin, last, rfl, hne, hna, hlast, hlen⟩ := hf p hp
      rw [hk] at h1 h2
      rw [greyRead_pieces cfg _ [] [] begin t.flatten last _ (by rw [h1]; simp) hne (by simpa using hna) hlast
        (by simpa using hlen) (by simp)]
      simp only [List.nil_append]
      rw [bind_def]
      simp only [act_def]
      refine OwnKeeps.bind (own_lift _) (fun _ => .ite (.pure _) ((own_lift _).bind fun _ => .ite (.pure _) (.pure _)))
        _ ⟨k + 1, by rw [hk'], ?_⟩
      rw [hk']
      simpa using Spec.OwnAnswers.answered _ _ _ (request cfg s) h2
  unfold greylist
  rw [bind_def]
  simp only [get_def]
  rw [bind_def]
  unfold greyWrite
  cases hw : s.gwr with
  | nil =>
    simp only [Bool.not_true, Bool.false_eq_true, if_false]
    have := after s.gwr
    exact this
  | cons b w => cases b with
    | true =>
      simp only [Bool.not_true, Bool.false_eq_true, if_false]
      exact after w
    | false =>
      cases hc : cfg.closed with
      | true => exact hs.same rfl rfl
      | false => exact hs.same rfl rfl

theorem own_mail : OwnKeeps g (smtpMail cfg) := by
  refine own_reset.bind fun _ => OwnKeeps.get.bind fun s => .ite ?_ ((own_copy _).bind fun _ => .pure _)
  exact (own_lift _).bind fun _ => .ite (.ite (.die _) <| (OwnKeeps.modify (by intro s; exact ⟨rfl, rfl⟩)).bind
    fun _ => (own_copy _).bind fun _ => .pure _) ((own_copy _).bind fun _ => .pure _)

theorem own_remember : OwnKeeps g rememberRcpt := by
  refine OwnKeeps.get.bind fun s => .ite ?_ (.pure _)
  exact (own_lift _).bind fun _ => .ite (.ite (.die _) <| .ite (.die _) <| .ite (.die _) <|
    OwnKeeps.modify (by intro s; exact ⟨rfl, rfl⟩)) (.pure _)

theorem own_rcpt (hf : ∀ p ∈ g, Fits p) : OwnKeeps g (smtpRcpt cfg) := by
  have hk : ∀ msg : Option Bytes, OwnKeeps g (match msg with
      | some msg => do
        modify fun s => { s with cline := catlogid cfg msg ++ b!"\r\n" }
        let s ← get
        toClient s.cline
      | none => do let _ ← copy cfg true) := by
    intro msg
    cases msg with
    | none => exact (own_copy _).bind fun _ => .pure _
    | some m => exact (OwnKeeps.modify (by intro s; exact ⟨rfl, rfl⟩)).bind fun _ => OwnKeeps.get.bind fun _ => own_toClient _
  exact own_remember.bind fun _ => OwnKeeps.get.bind fun s => .ite ((own_greylist hf).bind hk) (hk none)

theorem own_ehlo : OwnKeeps g (smtpEhlo cfg) :=
  OwnKeeps.get.bind fun _ => (own_toChild _).bind fun _ => (own_smtpline _ _).bind fun _ => OwnKeeps.get.bind fun _ =>
    own_toClient _

theorem own_discard : OwnKeeps g discard := by
  intro s hs
  unfold discard
  cases h : drain s.net with
  | none => exact hs.same rfl rfl
  | some t => exact hs.other (a := .discard _) trivial rfl rfl

theorem own_readAck : OwnKeeps g readAck := by
  intro s hs
  unfold readAck
  cases s.acks with
  | nil => exact hs
  | cons b t =>
    by_cases hb : b = 0
    · simp only [hb, if_true]; exact hs.other (a := .ack _) trivial rfl rfl
    · simp only [hb, if_false]; exact hs.other (a := .ack _) trivial rfl rfl

theorem own_starttls : OwnKeeps g (smtpStarttls cfg) := by
  have hm : ∀ m : Bytes, OwnKeeps g (modify fun s => { s with cline := m }) := fun m =>
    OwnKeeps.modify (by intro s; exact ⟨rfl, rfl⟩)
  exact OwnKeeps.get.bind fun _ => .ite ((hm _).bind fun _ => OwnKeeps.get.bind fun _ => own_toClient _) <|
    (hm _).bind fun _ => OwnKeeps.get.bind fun _ => (own_toClient _).bind fun _ => own_write.bind fun _ =>
    (OwnKeeps.act (by trivial)).bind fun _ => (OwnKeeps.modify (by intro s; exact ⟨rfl, rfl⟩)).bind fun _ =>
    own_discard.bind fun _ => own_readAck.bind fun _ => (own_toChild _).bind fun _ =>
    (own_smtpline _ _).bind fun _ => own_reset

theorem own_run (hf : ∀ p ∈ g, Fits p) (v : Verb) : OwnKeeps g (run cfg v) := by
  cases v with
  | quit => exact (own_copy _).bind fun _ => .die _
  | data => exact own_data
  | mail => exact own_mail
  | rcpt => exact own_rcpt hf
  | ehlo => exact own_ehlo
  | starttls => exact own_starttls
  | default => exact (own_copy _).bind fun _ => .pure _

theorem own_commands (hf : ∀ p ∈ g, Fits p) (n : Nat) : OwnKeeps g (commands cfg n) := by
  induction n with
  | zero => exact .pure _
  | succ n ih =>
    refine OwnKeeps.bind ?_ fun _ => ih
    exact own_readline.bind fun _ => OwnKeeps.get.bind fun _ => (own_lift _).bind fun v => own_run hf v

theorem session_own (net : List Ev) (cin : Bytes) (tls0 : Bool) (acks : Bytes) (pieces : List (List Bytes))
    (wr gwr : List Bool) (hf : ∀ p ∈ pieces, Fits p) :
    OwnKept pieces (session cfg (start net cin tls0 acks pieces.flatten wr gwr)) := by
  refine (OwnKeeps.bind ?_ fun _ => OwnKeeps.get.bind fun _ => own_commands hf _) _ ⟨0, rfl, .nil⟩
  exact (own_smtpline _ _).bind fun _ => OwnKeeps.get.bind fun _ => own_toClient _

/-! ### What the relation says -/

theorem asked_append (l l' : List Act) : Spec.asked (l ++ l') = Spec.asked l + Spec.asked l' := by
  induction l with
  | nil => simp [Spec.asked]
  | cons a l ih => cases a <;> simp [Spec.asked, ih] <;> omega

theorem asked_other {a : Act} (h : ∀ d, a ≠ .ask d) : Spec.asked [a] = 0 := by
  cases a <;> first | rfl | exact absurd rfl (h _)

/-- The answers left are those not asked for. -/
theorem Own.left {g r : List Bytes} {l : List Act} (h : Spec.OwnAnswers g l r) : r = g.drop (Spec.asked l) := by
  induction h with
  | nil => rfl
  | other l r a h h1 h2 ih => rw [asked_append, asked_other h1]; exact ih
  | answered l a r q h ih =>
    rw [asked_append]
    show r = g.drop (Spec.asked l + 1)
    rw [← List.drop_drop, ← ih]; rfl
  | silent l q h ih =>
    rw [asked_append]
    show [] = g.drop (Spec.asked l + 1)
    rw [← List.drop_drop, ← ih]; rfl

theorem Own.ask {g r : List Bytes} {l : List Act} (h : Spec.OwnAnswers g l r) :
    ∀ pre q post a, l = pre ++ .ask q :: post → g[Spec.asked pre]? = some a →
      ∃ post', post = .answer (Spec.firstLine a) :: post' := by
  induction h with
  | nil => intro pre q post a e; simp at e
  | other l r x h h1 h2 ih =>
    intro pre q post a e ha
    rcases List.eq_nil_or_concat post with rfl | ⟨post', y, rfl⟩
    · have := List.append_inj_right' e rfl
      simp only [List.cons.injEq, and_true] at this
      exact absurd this (h1 q)
    · rw [List.concat_eq_append, ← List.cons_append, ← List.append_assoc] at e
      have e1 := List.append_inj_left' e rfl
      obtain ⟨p, rfl⟩ := ih pre q post' a e1 ha
      exact ⟨p ++ [y], by simp⟩
  | answered l b r q' h ih =>
    intro pre q post a e ha
    rcases List.eq_nil_or_concat post with rfl | ⟨post', y, rfl⟩
    · rw [show l ++ [Act.ask q', Act.answer (Spec.firstLine b)] =
        (l ++ [.ask q']) ++ [.answer (Spec.firstLine b)] by simp] at e
      have := List.append_inj_right' e rfl
      simp at this
    · rw [List.concat_eq_append] at e ⊢
      rcases List.eq_nil_or_concat post' with rfl | ⟨post'', z, rfl⟩
      · rw [show pre ++ Act.ask q :: ([] ++ [y]) = pre ++ [.ask q, y] by simp] at e
        have e1 := List.append_inj_left' e rfl
        have e2 := List.append_inj_right' e rfl
        simp only [List.cons.injEq, and_true] at e2
        subst e1
        have hl := Own.left h
        have : g[Spec.asked l]? = some b := by
          have h3 : (g.drop (Spec.asked l))[0]? = some b := by rw [← hl]; rfl
          simpa using h3
        rw [this] at ha
        cases ha
        exact ⟨[], by rw [← e2.2]; rfl⟩
      · rw [List.concat_eq_append] at e ⊢
        rw [show pre ++ Act.ask q :: (post'' ++ [z] ++ [y]) = (pre ++ Act.ask q :: post'') ++ [z, y] by simp] at e
        have e1 := List.append_inj_left' e rfl
        obtain ⟨p, rfl⟩ := ih pre q post'' a e1 ha
        exact ⟨p ++ [z] ++ [y], by simp⟩
  | silent l q' h ih =>
    intro pre q post a e ha
    rcases List.eq_nil_or_concat post with rfl | ⟨post', y, rfl⟩
    · have e1 := List.append_inj_left' e rfl
      subst e1
      have hl := Own.left h
      have h3 : (g.drop (Spec.asked l))[0]? = none := by rw [← hl]; rfl
      simp only [List.getElem?_drop, Nat.add_zero] at h3
      rw [h3] at ha; cases ha
    · rw [List.concat_eq_append, ← List.cons_append, ← List.append_assoc] at e
      have e1 := List.append_inj_left' e rfl
      obtain ⟨p, rfl⟩ := ih pre q post' a e1 ha
      exact ⟨p ++ [y], by simp⟩

/-! ### C102 -/

section
variable {net : List Ev} {cin : Bytes} {tls0 : Bool} {acks : Bytes} {pieces : List (List Bytes)}
  {wr gwr : List Bool} {x : Int} {s : S}

/-- C102, as far as it holds: if every answer arrives in time and nothing of it arrives after the
read that completes its first line, the answer to each question is the one that is looked
at for it, however it is cut otherwise, -/
theorem c102_own_answer_partial (h : Ran cfg net cin tls0 acks pieces.flatten wr gwr x s) (hf : ∀ p ∈ pieces, Fits p)
    (pre post : List Act) (q a : Bytes) (hl : s.log = pre ++ .ask q :: post)
    (ha : (pieces.map List.flatten)[Spec.asked pre]? = some a) : ∃ post', post = .answer (Spec.firstLine a) :: post' := by
  have := session_own (cfg := cfg) net cin tls0 acks pieces wr gwr hf
  rw [show session _ _ = _ from h] at this
  obtain ⟨n, _, h2⟩ := this
  exact Own.ask h2 pre q post a hl ha

theorem firstLine_no_overlong (a : Bytes) : ¬ Overlong (Spec.firstLine a) := by
  rintro ⟨_, h⟩; exact h (by simp [Spec.firstLine])

/-- and decides: the child is given the line if and only if that answer is dunno. -/
theorem c102_decided_by_own_partial (h : Ran cfg net cin tls0 acks pieces.flatten wr gwr x s)
    (hf : ∀ p ∈ pieces, Fits p) : Spec.DecidedByOwn (pieces.map List.flatten) s.log := by
  intro pre q mid d post hl hmid a ha
  obtain ⟨post', e⟩ := c102_own_answer_partial h hf pre _ q a hl ha
  rw [e] at hl
  by_cases hd : Spec.Dunno (Spec.firstLine a)
  · exact hd
  · exfalso
    have h1 := c51_refused_partial h (pre ++ [.ask q]) post' _ (by rw [hl]; simp) hd (firstLine_no_overlong a)
    match mid, e with
    | [], e => simp at e
    | [m1], e =>
      simp only [List.cons_append, List.nil_append, List.cons.injEq] at e
      obtain ⟨_, rfl⟩ := e
      rcases h1 with h1 | ⟨d', p, h1, _⟩ <;> simp at h1
    | m1 :: m2 :: mid, e =>
      simp only [List.cons_append, List.cons.injEq] at e
      obtain ⟨_, rfl⟩ := e
      rcases h1 with h1 | ⟨d', p, h1, _, rfl | ⟨raw, p2, rfl⟩⟩
      · simp at h1
      · simp at h1
      · simp only [List.cons.injEq] at h1
        obtain ⟨rfl, h1⟩ := h1
        cases mid with
        | nil => simp at h1
        | cons m mid =>
          simp only [List.cons_append, List.cons.injEq] at h1
          exact hmid raw (by rw [h1.1]; simp)

/-- The other direction: an own answer of dunno lets the line through, if the session does not end there; any
other answer is reported to the client. -/
theorem c102_outcome_partial (h : Ran cfg net cin tls0 acks pieces.flatten wr gwr x s) (hf : ∀ p ∈ pieces, Fits p)
    (pre post : List Act) (raw q a : Bytes) (hl : s.log = pre ++ .line raw :: .ask q :: post)
    (ha : (pieces.map List.flatten)[Spec.asked pre]? = some a) :
    ∃ post', post = .answer (Spec.firstLine a) :: post' ∧ (post' = [] ∨ ∃ post'', post' =
      (if Spec.Dunno (Spec.firstLine a) then .child (Spec.forward raw)
       else .client (Spec.beforeNul (Spec.own cfg (if Spec.Rejects (Spec.firstLine a)
        then b!"553 bad reputation (#5.7.1)" else b!"450 greylisted (#4.3.0)")))) :: post'') := by
  have hl' : s.log = (pre ++ [.line raw]) ++ .ask q :: post := by rw [hl]; simp
  obtain ⟨post', rfl⟩ := c102_own_answer_partial h hf _ post q a hl' (by rw [asked_append]; exact ha)
  refine ⟨post', rfl, ?_⟩
  cases post' with
  | nil => exact .inl rfl
  | cons b post' =>
    refine .inr ⟨post', ?_⟩
    obtain ⟨p, ht, _⟩ := c47_trace h
    rw [hl] at ht
    obtain ⟨q1, q2, _, t2, t3⟩ := Trace.split ht
    obtain ⟨q3, u1, t4⟩ := Trace.head t3
    obtain ⟨q4, u2, t5⟩ := Trace.head t4
    obtain ⟨q5, u3, _⟩ := Trace.head t5
    have ho := firstLine_no_overlong a
    cases u1
    cases u2
    cases t2
    cases u3
    case pass => simp only [if_pos, *]
    case overlong h1 h2 _ => exact absurd ⟨h1, h2⟩ ho
    case refuse => simp only [if_pos, if_neg, not_false_eq_true, *]
    case defer => simp only [if_neg, not_false_eq_true, *]

end

/-- A session for these theorems: three recipients, each with its own answer. -/
example : ∃ s, Ran ⟨none, true, true, b!"192.0.2.1"⟩
    [.data b!"MAIL FROM:<a>\r\nRCPT TO:<b>\r\nRCPT TO:<c>\r\nRCPT TO:<d>\r\n"]
    b!"220 hi\r\n250 a\r\n250 b\r\n250 d\r\n" false []
    [[b!"action=dunno\n\n"], [b!"action", b!"=reject\n\n"], [b!"action=dunno\n\n"]].flatten [] [] 111 s ∧
    (s.log.filter fun a => match a with | .child _ => true | _ => false) =
      [.child b!"MAIL FROM:<a>\r\n", .child b!"RCPT TO:<b>\r\n", .child b!"RCPT TO:<d>\r\n"] :=
  ran_check _ (by decide +kernel)
example : ∀ a ∈ [[b!"action=dunno\n\n"], [b!"action", b!"=reject\n\n"], [b!"action=dunno\n\n"]], Fits a := by
  intro a ha
  simp only [List.mem_cons, List.not_mem_nil, or_false] at ha
  rcases ha with rfl | rfl | rfl
  · exact ⟨[], _, rfl, by decide, by decide, by decide, by decide⟩
  · exact ⟨[_], _, rfl, by decide, by decide, by decide, by decide⟩
  · exact ⟨[], _, rfl, by decide, by decide, by decide, by decide⟩

/-- C102 is violated by answers that arrive in pieces, even in fail-closed mode. The server answers
dunno, dunno and reject, each answer with the empty line that the protocol asks for; the
last byte of the first answer arrives after its line has been read. It is then read as
the answer to the second question, and the answer to the second question decides about
the third recipient: the one the server rejected is given to the child. -/
theorem c102_split_answer : ∃ s, Ran ⟨none, true, true, b!"192.0.2.1"⟩
    [.data b!"MAIL FROM:<a>\r\nRCPT TO:<b>\r\nRCPT TO:<c>\r\nRCPT TO:<d>\r\n"]
    b!"220 hi\r\n250 a\r\n250 b\r\n250 d\r\n" false []
    [b!"action=dunno\n", b!"\n", b!"action=dunno\n\n", b!"action=reject\n\n"] [] [] 111 s ∧
    (s.log.filter fun a => match a with | .child _ => true | .ask _ => true | .client _ => true | _ => false).drop 3 =
      [.ask (Spec.question ⟨none, true, true, b!"192.0.2.1"⟩ b!"<a>" b!"<b>"), .child b!"RCPT TO:<b>\r\n",
        .client b!"250 b\r\n",
        .ask (Spec.question ⟨none, true, true, b!"192.0.2.1"⟩ b!"<a>" b!"<c>"),
        .client b!"450 greylisted (#4.3.0)\r\n",
        .ask (Spec.question ⟨none, true, true, b!"192.0.2.1"⟩ b!"<a>" b!"<d>"), .child b!"RCPT TO:<d>\r\n",
        .client b!"250 d\r\n"] :=
  ran_check _ (by decide +kernel)

/-- C102 is violated by answers that come too late, if that is tolerated: the first recipient
is let through for want of an answer; its answer, dunno, then decides about the second
one, which the server rejected. -/
theorem c102_late_answer : ∃ s, Ran ⟨none, true, false, b!"192.0.2.1"⟩
    [.data b!"MAIL FROM:<a>\r\nRCPT TO:<b>\r\nRCPT TO:<c>\r\n"]
    b!"220 hi\r\n250 a\r\n250 b\r\n250 c\r\n" false []
    [[], b!"action=dunno\n\n", b!"action=reject\n\n"] [] [] 111 s ∧
    (s.log.filter fun a => match a with | .child _ => true | .ask _ => true | _ => false).drop 1 =
      [.ask (Spec.question ⟨none, true, false, b!"192.0.2.1"⟩ b!"<a>" b!"<b>"), .child b!"RCPT TO:<b>\r\n",
        .ask (Spec.question ⟨none, true, false, b!"192.0.2.1"⟩ b!"<a>" b!"<c>"), .child b!"RCPT TO:<c>\r\n"] :=
  ran_check _ (by decide +kernel)

/-- C102 does not hold: however well the server keeps to the protocol, how the network cuts its
answers into reads changes what is decided. -/
theorem c102_not_decided_by_own : ∃ (cfg : Cfg) (net : List Ev) (cin : Bytes) (gin answers : List Bytes) (s : S),
    Ran cfg net cin false [] gin [] [] 111 s ∧ cfg.closed = true ∧ (∀ a ∈ answers, Spec.PolicyAnswer a) ∧
    gin.flatten = answers.flatten ∧ (∀ d ∈ gin, d ≠ []) ∧ ¬ Spec.DecidedByOwn answers s.log := by
  obtain ⟨s, h, hl⟩ := ran_check (cfg := ⟨none, true, true, b!"192.0.2.1"⟩)
    (net := [.data b!"MAIL FROM:<a>\r\nRCPT TO:<b>\r\nRCPT TO:<c>\r\nRCPT TO:<d>\r\n"])
    (cin := b!"220 hi\r\n250 a\r\n250 b\r\n250 d\r\n") (tls0 := false) (acks := [])
    (gin := [b!"action=dunno\n", b!"\n", b!"action=dunno\n\n", b!"action=reject\n\n"]) (wr := []) (gwr := []) (x := 111)
    (fun s => Spec.asked (s.log.take 17) = 2 ∧ s.log.drop 17 =
      [.ask (Spec.question ⟨none, true, true, b!"192.0.2.1"⟩ b!"<a>" b!"<d>"), .answer b!"action=dunno\n",
        .child b!"RCPT TO:<d>\r\n", .reply b!"250 d\r\n", .client b!"250 d\r\n"]) (by decide +kernel)
  refine ⟨_, _, _, _, [b!"action=dunno\n\n", b!"action=dunno\n\n", b!"action=reject\n\n"], s, h, rfl, ?_, by decide,
    by decide, ?_⟩
  · intro a ha
    simp only [List.mem_cons, List.not_mem_nil, or_false] at ha
    rcases ha with rfl | rfl | rfl
    · exact ⟨b!"dunno", by decide, by decide, by decide⟩
    · exact ⟨b!"dunno", by decide, by decide, by decide⟩
    · exact ⟨b!"reject", by decide, by decide, by decide⟩
  · intro hd
    have := hd (s.log.take 17) _ [.answer b!"action=dunno\n"] b!"RCPT TO:<d>\r\n"
      [.reply b!"250 d\r\n", .client b!"250 d\r\n"]
      (by conv => lhs; rw [← List.take_append_drop 17 s.log, hl.2]
          rfl) (by simp) b!"action=reject\n\n" (by rw [hl.1]; rfl)
    revert this
    unfold Spec.Dunno
    decide

end Smtp
