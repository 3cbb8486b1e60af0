import Verif.Smtp.Trace
/-
What the front end takes from its two inputs.
-/
namespace Smtp

namespace Spec
/-- While the input delivered `N`, there was a moment at which nothing was
readable and only `t` was still to come, or the end of the input was reached.
(Specification or proof notion; models no line of /repo.) -/
def Idle (N t : List Ev) : Prop :=
  (∃ before, N = before ++ .gap :: t) ∨ (∃ before, N = before ++ t ∧ (t = [] ∨ ∃ t', t = .data [] :: t'))

/-- `Taken N log rest`: of the bytes the client's side delivered in `N`, the lines
in `log` were taken one after the other, each with its LF, and `rest` is left.
Nothing was skipped except where `log` says so; there everything was skipped that
came before some moment at which nothing was readable.
(Specification or proof notion; models no line of /repo.) -/
inductive Taken (N : List Ev) : List Act → Bytes → Prop
  | nil : Taken N [] (evStream N)
  | line (log raw rest) : Taken N log (raw ++ c! '\n' :: rest) → Taken N (log ++ [.line raw]) rest
  | discard (log lost t) : Taken N log (lost ++ evStream t) → Idle N t → 
      Taken N (log ++ [.discard (evStream t).length]) (evStream t)
  | other (log a rest) : (∀ raw, a ≠ .line raw) → (∀ n, a ≠ .discard n) → Taken N log rest → Taken N (log ++ [a]) rest

/-- The replies taken from the child, one after the other.
(Specification or proof notion; models no line of /repo.) -/
def replies : List Act → Bytes
  | .reply r :: l => r ++ replies l
  | _ :: l => replies l
  | [] => []
end Spec

theorem replies_snoc (l : List Act) (a : Act) : Spec.replies (l ++ [a]) = Spec.replies l ++ Spec.replies [a] := by
  induction l with
  | nil => rfl
  | cons b l ih => cases b <;> simp [Spec.replies, ih]

/-- Nothing was lost on the way in. (Specification or proof notion; models no line of /repo.) -/
structure In (N : List Ev) (C : Bytes) (s : S) : Prop where
  taken : Spec.Taken N s.log (stream s)
  net : s.net <:+ N
  replies : C = Spec.replies s.log ++ s.cin

/-- The same when the session ended in the middle of a line or a reply.
(Specification or proof notion; models no line of /repo.) -/
structure InEnd (N : List Ev) (C : Bytes) (s : S) : Prop where
  taken : ∃ part, Spec.Taken N s.log (part ++ stream s)
  replies : ∃ part, C = Spec.replies s.log ++ part ++ s.cin

theorem In.fin {N : List Ev} {C : Bytes} {s : S} (h : In N C s) : InEnd N C s :=
  ⟨⟨[], h.taken⟩, ⟨[], by simpa using h.replies⟩⟩

/-- `m` loses nothing (that it has no undefined behaviour is shown elsewhere).
(Specification or proof notion; models no line of /repo.) -/
def Kept (N : List Ev) (C : Bytes) {α : Type} : R α → Prop
  | .ok _ s' => In N C s'
  | .die _ s' => InEnd N C s'
  | .ub => True
def Keeps (N : List Ev) (C : Bytes) {α : Type} (m : M α) : Prop := ∀ s, In N C s → Kept N C (m s)

variable {N : List Ev} {C : Bytes} {cfg : Cfg}

theorem Keeps.bind {α β : Type} {m : M α} {f : α → M β} (h : Keeps N C m) (h' : ∀ a, Keeps N C (f a)) :
    Keeps N C (m >>= f) := by
  intro s hs
  have h1 := h s hs
  rw [bind_def]
  cases e : m s with
  | ok a s' => rw [e] at h1; exact h' a s' h1
  | die x s' => rw [e] at h1; exact h1
  | ub => trivial
theorem Keeps.pure {α : Type} (a : α) : Keeps N C (pure a : M α) := fun _ hs => hs
theorem Keeps.get : Keeps N C get := fun _ hs => hs
theorem Keeps.die {α : Type} (x : Int) : Keeps N C (die x : M α) := fun _ hs => hs.fin
theorem Keeps.ite {α : Type} {c : Prop} [Decidable c] {a b : M α} (h : Keeps N C a) (h' : Keeps N C b) :
    Keeps N C (if c then a else b) := by split <;> assumption
theorem Keeps.modify {g : S → S} (h : ∀ s, (g s).buf = s.buf ∧ (g s).net = s.net ∧ (g s).cin = s.cin ∧ (g s).log = s.log) :
    Keeps N C (modify g) := by
  intro s hs
  obtain ⟨h1, h2, h3, h4⟩ := h s
  exact ⟨by rw [h4, stream, h1, h2]; exact hs.taken, by rw [h2]; exact hs.net, by rw [h4, h3]; exact hs.replies⟩

/-- An action that takes nothing in. (Specification or proof notion; models no line of /repo.) -/
def Plain : Act → Prop
  | .line _ => False
  | .reply _ => False
  | .discard _ => False
  | _ => True

theorem In.plain {s s' : S} {a : Act} (h : In N C s) (ha : Plain a) (hl : s'.log = s.log ++ [a])
    (h1 : s'.buf = s.buf) (h2 : s'.net = s.net) (h3 : s'.cin = s.cin) : In N C s' := by
  refine ⟨?_, h2 ▸ h.net, ?_⟩
  · rw [hl, stream, h1, h2]
    exact .other _ _ _ (by intro raw e; subst e; exact ha) (by intro n e; subst e; exact ha) h.taken
  · rw [hl, replies_snoc, h3, h.replies]
    cases a <;> first | exact ha.elim | simp [Spec.replies]

theorem In.same {s s' : S} (h : In N C s) (hl : s'.log = s.log)
    (h1 : s'.buf = s.buf) (h2 : s'.net = s.net) (h3 : s'.cin = s.cin) : In N C s' :=
  ⟨by rw [hl, stream, h1, h2]; exact h.taken, h2 ▸ h.net, by rw [hl, h3]; exact h.replies⟩

theorem Keeps.act {a : Act} (h : Plain a) : Keeps N C (act a) := fun _ hs => hs.plain h rfl rfl rfl rfl

theorem keeps_write : Keeps N C write := by
  intro s hs
  have := write_post s
  cases e : write s with
  | ok a s' => rw [e] at this; obtain ⟨w, rfl⟩ := this; exact hs.same rfl rfl rfl rfl
  | ub => trivial
  | die x s' => rw [e] at this; obtain ⟨_, w, rfl⟩ := this; exact In.fin (hs.same rfl rfl rfl rfl)

theorem keeps_toChild (d : Bytes) : Keeps N C (toChild d) := keeps_write.bind fun _ => Keeps.act (by trivial)
theorem keeps_toClient (d : Bytes) : Keeps N C (toClient d) := keeps_write.bind fun _ => Keeps.act (by trivial)

theorem refill_net (l : List Ev) (b : Byte) (d : Bytes) (t : List Ev) (h : refill l = some (b, d, t)) : t <:+ l := by
  fun_induction refill l with
  | case1 b' d' t' => cases h; exact List.suffix_cons _ _
  | case2 t' ih => exact (ih h).trans (List.suffix_cons _ _)
  | case3 => cases h
  | case4 => cases h
  | case5 => cases h

/-- Reading only takes events off the front of what descriptor 0 delivers. -/
theorem readlineLoop_net (n : Nat) : ∀ (raw : Bytes) (s s' : S) (u : Unit),
    readlineLoop n raw s = .ok u s' → s'.net <:+ s.net := by
  induction n with
  | zero => intro raw s s' u h; cases h
  | succ n ih =>
    intro raw s s' u h
    rw [readlineLoop, bind_def] at h
    have hg : ∀ ch s1, getc s = .ok ch s1 → s1.net <:+ s.net := by
      intro ch s1 hg
      unfold getc at hg
      cases hb : s.buf with
      | cons b d => rw [hb] at hg; cases hg; exact List.suffix_refl _
      | nil =>
        rw [hb] at hg
        simp only [] at hg
        split at hg
        · rename_i b d t hr; cases hg; exact refill_net _ _ _ _ hr
        · cases hg
    cases e : getc s with
    | ub => rw [e] at h; cases h
    | die x s1 => rw [e] at h; cases h
    | ok ch s1 =>
      rw [e] at h
      simp only [] at h
      split at h
      · injection h with _ h; subst h; exact hg ch s1 e
      · rw [bind_def] at h
        simp only [lineAppend, get, bind_def] at h
        split at h
        · rename_i a s2 e2
          split at e2
          · cases e2
          · injection e2 with _ e2; subst e2
            have h1 := ih _ _ _ _ h
            exact List.IsSuffix.trans h1 (hg ch s1 e)
        · cases h
        · cases h

theorem readline_net (s s' : S) (u : Unit) (h : readline s = .ok u s') : s'.net <:+ s.net := by
  rw [readline, bind_def] at h
  simp only [modify, get, bind_def] at h
  split at h
  · rename_i a s1 e
    injection h with _ h; subst h
    exact readlineLoop_net _ _ { s with line := [] } s1 _ e
  · cases h
  · cases h

theorem keeps_readline : Keeps N C readline := by
  intro s hs
  have := readline_inv s
  cases e : readline s with
  | ub => trivial
  | die x s' =>
    rw [e] at this
    obtain ⟨_, buf, net, line, _, rfl, l, rest, h1, _, h2⟩ := this
    refine ⟨⟨l, ?_⟩, ⟨[], by simpa using hs.replies⟩⟩
    have := hs.taken
    rw [h1, h2] at this
    exact this
  | ok u s' =>
    rw [e] at this
    obtain ⟨raw, rest, buf, net, h1, h2, h3, h4, h5, rfl⟩ := this
    refine ⟨?_, (readline_net s _ u e).trans hs.net, ?_⟩
    · refine .line _ raw _ ?_
      have := hs.taken
      rw [h1, ← h4] at this
      exact this
    · simp only [replies_snoc, Spec.replies, List.append_nil]; exact hs.replies

/-- `m` only takes bytes off the front of the child's output.
(Specification or proof notion; models no line of /repo.) -/
def Suf {α : Type} (m : M α) : Prop :=
  ∀ s, Post (m s) (fun _ s' => s'.cin <:+ s.cin) (fun _ s' => s'.cin <:+ s.cin)

theorem Suf.bind {α β : Type} {m : M α} {f : α → M β} (h : Suf m) (h' : ∀ a, Suf (f a)) : Suf (m >>= f) := by
  intro s
  have h1 := h s
  rw [bind_def]
  cases e : m s with
  | ub => rw [e] at h1; exact h1
  | die x s1 => rw [e] at h1; exact h1
  | ok a s1 =>
    rw [e] at h1
    have h2 := h' a s1
    simp only []
    cases e2 : f a s1 with
    | ub => rw [e2] at h2; exact h2
    | die x s2 => rw [e2] at h2; exact List.IsSuffix.trans h2 h1
    | ok b s2 => rw [e2] at h2; exact List.IsSuffix.trans h2 h1
theorem Suf.pure {α : Type} (a : α) : Suf (pure a : M α) := fun _ => List.suffix_refl _
theorem Suf.get : Suf get := fun _ => List.suffix_refl _
theorem Suf.die {α : Type} (x : Int) : Suf (die x : M α) := fun _ => List.suffix_refl _
theorem Suf.modify {g : S → S} (h : ∀ s, (g s).cin = s.cin) : Suf (modify g) := by
  intro s; show (g s).cin <:+ s.cin; rw [h]; exact List.suffix_refl _
theorem Suf.ite {α : Type} {c : Prop} [Decidable c] {a b : M α} (h : Suf a) (h' : Suf b) :
    Suf (if c then a else b) := by split <;> assumption

theorem suf_append (ch : Byte) : Suf (clineAppend ch) := by
  intro s
  by_cases h : s.cline.length < 4096
  · rw [clineAppend_ok s ch h]; exact List.suffix_refl _
  · rw [clineAppend_full s ch h]; exact List.suffix_refl _

theorem suf_cgetc : Suf cgetc := by
  intro s
  cases hc : s.cin with
  | nil => rw [cgetc_nil s hc]; exact hc ▸ List.suffix_refl _
  | cons b t => rw [cgetc_cons s b t hc]; exact List.suffix_cons b t

theorem suf_cread : Suf cread := by
  exact suf_cgetc.bind fun ch => (suf_append ch).bind fun _ => .pure _

theorem suf_restOfLine (n : Nat) : ∀ ch, Suf (restOfLine n ch) := by
  induction n with
  | zero => intro ch; exact Suf.die _
  | succ n ih => intro ch; rw [restOfLine_succ]; exact .ite (.pure _) (suf_cread.bind ih)

theorem suf_replyLoop (append : Bool) (code n : Nat) : Suf (replyLoop append code n) := by
  induction n with
  | zero => exact Suf.die _
  | succ n ih =>
    rw [replyLoop_succ]
    exact suf_cgetc.bind fun ch => (suf_append _).bind fun _ => .ite (.pure _)
      (Suf.get.bind fun s => (suf_restOfLine _ _).bind fun _ => suf_cread.bind fun _ => suf_cread.bind fun _ =>
        suf_cread.bind fun _ => ih)

theorem smtpline_left (append : Option Bytes) (b : Bool) : Suf (smtpline cfg append b) := by
  rw [smtpline_eq]
  refine (Suf.modify (by intro s; rfl)).bind fun _ => Suf.get.bind fun s0 => suf_cread.bind fun _ =>
    suf_cread.bind fun _ => suf_cread.bind fun _ => Suf.get.bind fun s => (suf_replyLoop _ _ _).bind fun _ =>
    Suf.get.bind fun s => (suf_restOfLine _ _).bind fun _ => (Suf.modify (by intro s; rfl)).bind fun _ => ?_
  unfold finish
  cases append with
  | none => exact .ite ((Suf.modify (by intro s; rfl)).bind fun _ => .pure _) (.pure _)
  | some a =>
    exact .ite (Suf.get.bind fun s => .ite (.die _) ((Suf.modify (by intro s; rfl)).bind fun _ =>
        .ite ((Suf.modify (by intro s; rfl)).bind fun _ => .pure _) (.pure _)))
      (.ite ((Suf.modify (by intro s; rfl)).bind fun _ => .pure _) (.pure _))

theorem keeps_smtpline (append : Option Bytes) (b : Bool) : Keeps N C (smtpline cfg append b) := by
  intro s hs
  have := smtpline_inv cfg append b s
  have hcut := smtpline_left (cfg := cfg) append b s
  cases e : smtpline cfg append b s with
  | ub => trivial
  | die x s' =>
    rw [e] at this hcut
    obtain ⟨_, cin, cline, _, _, h⟩ := this
    rcases h with rfl | ⟨r, hh, sep, t, a, _, h2, _, _, rfl⟩
    · obtain ⟨u, hu⟩ := hcut
      refine ⟨⟨[], hs.taken⟩, ⟨u, ?_⟩⟩
      simp only [List.append_assoc]
      simp only [] at hu
      rw [hu]; exact hs.replies
    · refine ⟨⟨[], .other _ _ _ (by simp) (by simp) hs.taken⟩, ⟨[], ?_⟩⟩
      simp only [replies_snoc, Spec.replies, List.append_nil, List.append_assoc]
      rw [← h2]; exact hs.replies
  | ok code s' =>
    rw [e] at this
    obtain ⟨r, hh, sep, t, rest, h1, h2, h3, h4, h5, rfl⟩ := this
    refine ⟨.other _ _ _ (by simp) (by simp) hs.taken, hs.net, ?_⟩
    simp only [replies_snoc, Spec.replies, List.append_nil, List.append_assoc]
    rw [← h2]; exact hs.replies

theorem keeps_copy (b : Bool) : Keeps N C (copy cfg b) :=
  Keeps.get.bind fun _ => (keeps_toChild _).bind fun _ => (keeps_smtpline _ _).bind fun _ => Keeps.get.bind fun _ =>
    (keeps_toClient _).bind fun _ => .pure _

theorem keeps_bodyLoop (n : Nat) : Keeps N C (bodyLoop n) := by
  induction n with
  | zero => exact Keeps.die _
  | succ n ih =>
    exact keeps_readline.bind fun _ => Keeps.get.bind fun _ => (keeps_toChild _).bind fun _ =>
      (Keeps.modify (by intro s; exact ⟨rfl, rfl, rfl, rfl⟩)).bind fun _ => Keeps.get.bind fun _ => .ite (.pure _) ih

theorem keeps_reset : Keeps N C resetTransaction := Keeps.modify (by intro s; exact ⟨rfl, rfl, rfl, rfl⟩)

theorem keeps_data : Keeps N C (smtpData cfg) :=
  Keeps.get.bind fun _ => (keeps_toChild _).bind fun _ => (keeps_smtpline _ _).bind fun _ => Keeps.get.bind fun _ =>
    (keeps_toClient _).bind fun _ => .ite (.pure _) <| Keeps.get.bind fun _ => (keeps_bodyLoop _).bind fun _ =>
    (keeps_smtpline _ _).bind fun _ => Keeps.get.bind fun _ => (keeps_toClient _).bind fun _ => keeps_reset

theorem keeps_lift {α : Type} (x : Out α) : Keeps N C (lift x) := by
  intro s hs
  cases x with
  | ok a => exact hs
  | ub => trivial

theorem keeps_greyWrite : Keeps N C (greyWrite cfg) := by
  intro s hs
  unfold greyWrite
  cases s.gwr with
  | nil => exact hs
  | cons b t => cases b with
    | true => exact hs.same rfl rfl rfl rfl
    | false =>
      cases cfg.closed with
      | true => exact In.fin (hs.same rfl rfl rfl rfl)
      | false => exact hs.same rfl rfl rfl rfl

theorem keeps_greyRead (n : Nat) : ∀ buf resp, Keeps N C (greyRead cfg n buf resp) := by
  induction n with
  | zero => intro _ _; exact Keeps.die _
  | succ n ih =>
    intro buf resp
    rw [greyRead]
    refine Keeps.get.bind fun s => ?_
    cases buf with
    | nil =>
      cases s.gin with
      | nil => exact .ite (.die _) (.pure _)
      | cons d t => cases d with
        | nil =>
          exact (Keeps.modify (by intro s; exact ⟨rfl, rfl, rfl, rfl⟩)).bind fun _ => .ite (.die _) (.pure _)
        | cons b d => exact (Keeps.modify (by intro s; exact ⟨rfl, rfl, rfl, rfl⟩)).bind fun _ => ih _ _
    | cons ch buf =>
      exact .ite ((Keeps.act (by trivial)).bind fun _ => .pure _) (.ite (.pure _) (ih _ _))

theorem keeps_greylist : Keeps N C (greylist cfg) := by
  refine Keeps.get.bind fun s => keeps_greyWrite.bind fun ok => .ite (.pure _) <| (Keeps.act (by trivial)).bind fun _ =>
    (keeps_greyRead _ _ _).bind fun r => ?_
  cases r with
  | none => exact .pure _
  | some resp =>
    exact (Keeps.act (by trivial)).bind fun _ => (keeps_lift _).bind fun _ => .ite (.pure _)
      ((keeps_lift _).bind fun _ => .ite (.pure _) (.pure _))

theorem keeps_mail : Keeps N C (smtpMail cfg) := by
  refine keeps_reset.bind fun _ => Keeps.get.bind fun s => .ite ?_ ((keeps_copy _).bind fun _ => .pure _)
  exact (keeps_lift _).bind fun _ => .ite (.ite (.die _) <| (Keeps.modify (by intro s; exact ⟨rfl, rfl, rfl, rfl⟩)).bind
    fun _ => (keeps_copy _).bind fun _ => .pure _) ((keeps_copy _).bind fun _ => .pure _)

theorem keeps_remember : Keeps N C rememberRcpt := by
  refine Keeps.get.bind fun s => .ite ?_ (.pure _)
  exact (keeps_lift _).bind fun _ => .ite (.ite (.die _) <| .ite (.die _) <| .ite (.die _) <|
    Keeps.modify (by intro s; exact ⟨rfl, rfl, rfl, rfl⟩)) (.pure _)

theorem keeps_rcpt : Keeps N C (smtpRcpt cfg) := by
  have hk : ∀ msg : Option Bytes, Keeps N C (match msg with
      | some msg => do
        modify fun s => { s with cline := catlogid cfg msg ++ b!"\r\n" }
        let s ← get
        toClient s.cline
      | none => do let _ ← copy cfg true) := by
    intro msg
    cases msg with
    | none => exact (keeps_copy _).bind fun _ => .pure _
    | some m => exact (Keeps.modify (by intro s; exact ⟨rfl, rfl, rfl, rfl⟩)).bind fun _ => Keeps.get.bind fun _ => keeps_toClient _
  refine keeps_remember.bind fun _ => Keeps.get.bind fun s => .ite (keeps_greylist.bind hk) (hk none)

theorem keeps_ehlo : Keeps N C (smtpEhlo cfg) :=
  Keeps.get.bind fun _ => (keeps_toChild _).bind fun _ => (keeps_smtpline _ _).bind fun _ => Keeps.get.bind fun _ =>
    keeps_toClient _

/-- What draining drops is a part of what would have been read. -/
theorem drain_stream (l t : List Ev) (h : drain l = some t) : ∃ lost, evStream l = lost ++ evStream t := by
  fun_induction drain l with
  | case1 b d t' ih =>
    obtain ⟨lost, e⟩ := ih h
    exact ⟨b :: d ++ lost, by simp [evStream, e]⟩
  | case2 t' => cases h; exact ⟨[], rfl⟩
  | case3 t' => cases h; exact ⟨[], rfl⟩
  | case4 => cases h
  | case5 => cases h; exact ⟨[], rfl⟩

theorem drain_idle (l t : List Ev) (h : drain l = some t) : Spec.Idle l t := by
  have mono : ∀ (e : Ev) (l : List Ev), Spec.Idle l t → Spec.Idle (e :: l) t := by
    rintro e l (⟨b, rfl⟩ | ⟨b, rfl, h⟩)
    · exact .inl ⟨e :: b, rfl⟩
    · exact .inr ⟨e :: b, rfl, h⟩
  fun_induction drain l with
  | case1 b d t' ih => exact mono _ _ (ih h)
  | case2 t' => cases h; exact .inr ⟨[], rfl, .inr ⟨_, rfl⟩⟩
  | case3 t' => cases h; exact .inl ⟨[], rfl⟩
  | case4 => cases h
  | case5 => cases h; exact .inr ⟨[], rfl, .inl rfl⟩

theorem Idle.suffix {N l t : List Ev} (h : Spec.Idle l t) (hs : l <:+ N) : Spec.Idle N t := by
  obtain ⟨p, rfl⟩ := hs
  rcases h with ⟨b, rfl⟩ | ⟨b, rfl, h⟩
  · exact .inl ⟨p ++ b, by simp⟩
  · exact .inr ⟨p ++ b, by simp, h⟩

theorem Idle.to_suffix {N t : List Ev} (h : Spec.Idle N t) : t <:+ N := by
  rcases h with ⟨b, rfl⟩ | ⟨b, rfl, _⟩
  · exact ⟨b ++ [.gap], by simp⟩
  · exact ⟨b, rfl⟩

theorem keeps_discard : Keeps N C discard := by
  intro s hs
  unfold discard
  cases h : drain s.net with
  | none =>
    refine ⟨⟨s.buf, hs.taken⟩, ⟨[], by simpa using hs.replies⟩⟩
  | some t =>
    obtain ⟨lost, e⟩ := drain_stream _ _ h
    have hi := Idle.suffix (drain_idle _ _ h) hs.net
    refine ⟨?_, Idle.to_suffix hi, ?_⟩
    · have := hs.taken
      simp only [stream, e] at this
      exact .discard _ (s.buf ++ lost) _ (by simpa using this) hi
    · simp only [replies_snoc, Spec.replies, List.append_nil]; exact hs.replies

theorem keeps_readAck : Keeps N C readAck := by
  intro s hs
  unfold readAck
  cases s.acks with
  | nil => exact hs.fin
  | cons b t =>
    by_cases hb : b = 0
    · simp only [hb, if_true]; exact hs.plain (a := .ack _) trivial rfl rfl rfl rfl
    · simp only [hb, if_false]; exact In.fin (hs.plain (a := .ack _) trivial rfl rfl rfl rfl)

theorem keeps_starttls : Keeps N C (smtpStarttls cfg) := by
  have hm : ∀ m : Bytes, Keeps N C (modify fun s => { s with cline := m }) := fun m =>
    Keeps.modify (by intro s; exact ⟨rfl, rfl, rfl, rfl⟩)
  exact Keeps.get.bind fun _ => .ite ((hm _).bind fun _ => Keeps.get.bind fun _ => keeps_toClient _) <|
    (hm _).bind fun _ => Keeps.get.bind fun _ => (keeps_toClient _).bind fun _ => keeps_write.bind fun _ =>
    (Keeps.act (by trivial)).bind fun _ => (Keeps.modify (by intro s; exact ⟨rfl, rfl, rfl, rfl⟩)).bind fun _ =>
    keeps_discard.bind fun _ => keeps_readAck.bind fun _ => (keeps_toChild _).bind fun _ =>
    (keeps_smtpline _ _).bind fun _ => keeps_reset

theorem keeps_run (v : Verb) : Keeps N C (run cfg v) := by
  cases v with
  | quit => exact (keeps_copy _).bind fun _ => .die _
  | data => exact keeps_data
  | mail => exact keeps_mail
  | rcpt => exact keeps_rcpt
  | ehlo => exact keeps_ehlo
  | starttls => exact keeps_starttls
  | default => exact (keeps_copy _).bind fun _ => .pure _

theorem keeps_commands (n : Nat) : Keeps N C (commands cfg n) := by
  induction n with
  | zero => exact .pure _
  | succ n ih =>
    refine Keeps.bind ?_ fun _ => ih
    exact keeps_readline.bind fun _ => Keeps.get.bind fun _ => (keeps_lift _).bind fun v => keeps_run v

/-- A session takes in what the client and the child send, in order. -/
theorem session_in (net : List Ev) (cin : Bytes) (tls0 : Bool) (acks : Bytes) (gin : List Bytes) (wr gwr : List Bool) :
    Kept net cin (session cfg (start net cin tls0 acks gin wr gwr)) := by
  refine (Keeps.bind ?_ fun _ => Keeps.get.bind fun _ => keeps_commands _) _ ⟨.nil, List.suffix_refl _, rfl⟩
  exact (keeps_smtpline _ _).bind fun _ => Keeps.get.bind fun _ => keeps_toClient _

end Smtp
