import Verif.Smtp.MailErase
/-
C99, second half: the records are those of the specification.
-/
namespace Smtp
open Str
open Spec (Tx Stage mailStep mailLog mailOnly)

/-! ### The specification, action by action -/

theorem mailLog_snoc (l : List Act) (a : Act) : mailLog (l ++ [a]) =
    ((mailStep (mailLog l).1 (mailLog l).2.1 a).1, (mailStep (mailLog l).1 (mailLog l).2.1 a).2.1,
      (mailLog l).2.2 ++ .inl a :: (mailStep (mailLog l).1 (mailLog l).2.1 a).2.2.map .inr) := by
  simp [mailLog, List.foldl_append]

theorem mailOnly_append (h h' : Hist) : mailOnly (h ++ h') = mailOnly h ++ mailOnly h' := by
  simp [mailOnly]

theorem mailOnly_acts (l : List Act) : mailOnly (l.map .inl) = l.map .inl := by
  induction l with
  | nil => rfl
  | cons a l ih => simp only [mailOnly, List.map_cons] at ih ⊢; simp [ih]

theorem since_eq {s s' : S} {l : List Act} (h : s'.log = s.log ++ l) : since s s' = l.map .inl := by
  simp [since, h]

/-- The history is as it must be, except that the records `pend` are still to come; the message under
way and the stage are `t` and `st`. -/
def Tell (t : Tx) (st : Stage) (pend : List Rec) (s : S) (h : Hist) : Prop :=
  mailLog s.log = (t, st, mailOnly h ++ pend.map .inr)

/-- The history is as it must be. -/
def Told (s : S) (h : Hist) : Prop := mailOnly h = (mailLog s.log).2.2

theorem Tell.told {t : Tx} {st : Stage} {s : S} {h : Hist} (k : Tell t st [] s h) : Told s h := by
  simp [Told, show mailLog s.log = _ from k]

theorem Tell.same {t : Tx} {st : Stage} {p : List Rec} {s s' : S} {h : Hist} (k : Tell t st p s h)
    (e : s'.log = s.log) : Tell t st p s' (h ++ since s s') := by
  have : since s s' = [] := by simp [since, e]
  rw [this, List.append_nil]
  unfold Tell
  rw [e]
  exact k

theorem Tell.step {t t' : Tx} {st st' : Stage} {p : List Rec} {s s' : S} {h : Hist} {a : Act} (k : Tell t st [] s h)
    (e : s'.log = s.log ++ [a]) (hs : mailStep t st a = (t', st', p)) : Tell t' st' p s' (h ++ since s s') := by
  rw [since_eq e]
  unfold Tell at k ⊢
  rw [e, mailLog_snoc, k]
  simp only [hs, mailOnly_append, mailOnly_acts]
  simp

theorem mailLog_quiet {t : Tx} {st : Stage} (l : List Act) : ∀ {b : List Act} {x : Hist}, mailLog b = (t, st, x) →
    (∀ a ∈ l, mailStep t st a = (t, st, [])) → mailLog (b ++ l) = (t, st, x ++ l.map .inl) := by
  induction l with
  | nil => intro b x h _; simpa using h
  | cons a l ih =>
    intro b x h hq
    have h1 : mailLog (b ++ [a]) = (t, st, x ++ [.inl a]) := by
      rw [mailLog_snoc, h]
      simp [hq a (by simp)]
    have := ih h1 fun c hc => hq c (by simp [hc])
    simpa using this

theorem Tell.quiet {t : Tx} {st : Stage} {h : Hist} (l : List Act) {s s' : S} (k : Tell t st [] s h)
    (e : s'.log = s.log ++ l) (hq : ∀ a ∈ l, mailStep t st a = (t, st, [])) : Tell t st [] s' (h ++ since s s') := by
  rw [since_eq e]
  unfold Tell at k ⊢
  rw [e, mailLog_quiet l k hq]
  simp [mailOnly_append, mailOnly_acts]

/-- A record that does not count. -/
theorem Tell.minor {t : Tx} {st : Stage} {p : List Rec} {s : S} {h : Hist} {l : Lvl} {x : Bytes}
    (k : Tell t st p s h) (hl : l = .trace ∨ l = .debug) : Tell t st p s (h ++ [.inr ⟨l, x⟩]) := by
  unfold Tell at k ⊢
  rw [k]
  rcases hl with rfl | rfl <;> simp [mailOnly]

/-- The record that is due. -/
theorem Tell.due {t : Tx} {st : Stage} {s : S} {h : Hist} {l : Lvl} {x : Bytes}
    (k : Tell t st [⟨l, x⟩] s h) (hl : l = .info ∨ l = .warn) : Tell t st [] s (h ++ [.inr ⟨l, x⟩]) := by
  unfold Tell at k ⊢
  rw [k]
  rcases hl with rfl | rfl <;> simp [mailOnly]

/-! ### Rules -/

/-- If the code returns, `Q` holds; if it ends the session, the history is as it must be. -/
def PostL {α : Type} (r : RL α) (Q : α → S → Hist → Prop) : Prop := match r with
  | .ok a s h => Q a s h
  | .die _ s h => Told s h
  | .ub => True

theorem PostL.bind {α β : Type} {m : ML α} {f : α → ML β} {s : S} {h : Hist} {Q1 : α → S → Hist → Prop}
    {Q : β → S → Hist → Prop} (h1 : PostL (m s h) Q1) (h2 : ∀ a s h, Q1 a s h → PostL (f a s h) Q) :
    PostL ((m >>= f) s h) Q := by
  rw [bindL]
  cases e : m s h with
  | ok a s' h' => rw [e] at h1; exact h2 _ _ _ h1
  | die x s' h' => rw [e] at h1; exact h1
  | ub => trivial

theorem PostL.mono {α : Type} {r : RL α} {Q Q' : α → S → Hist → Prop} (h : PostL r Q)
    (hq : ∀ a s h, Q a s h → Q' a s h) : PostL r Q' := by
  cases r with
  | ok a s h' => exact hq _ _ _ h
  | die x s h' => exact h
  | ub => trivial

theorem PostL.pure {α : Type} {a : α} {s : S} {h : Hist} {Q : α → S → Hist → Prop} (k : Q a s h) :
    PostL ((Pure.pure a : ML α) s h) Q := k

theorem PostL.get {β : Type} {f : S → ML β} {s : S} {h : Hist} {Q : β → S → Hist → Prop}
    (k : PostL (f s s h) Q) : PostL ((up Smtp.get >>= f) s h) Q := by
  rw [bindL]
  have : up Smtp.get s h = .ok s s h := by simp [up, Smtp.get, since]
  rw [this]
  exact k

theorem up_modify (g : S → S) (s : S) (h : Hist) (e : (g s).log = s.log) : up (modify g) s h = .ok () (g s) h := by
  simp [up, modify_def, since, e]

theorem PostL.say {β : Type} {l : Lvl} {x : Bytes} {f : Unit → ML β} {s : S} {h : Hist} {Q : β → S → Hist → Prop}
    (k : PostL (f () s (h ++ [.inr ⟨l, x⟩])) Q) : PostL ((say l x >>= f) s h) Q := by
  rw [bindL]; exact k

/-! ### What the front end remembers -/

/-- The front end remembers the message under way. -/
structure Rem (t : Tx) (s : S) : Prop where
  sender : s.mailfrom = enc t.sender
  all : s.rcpttodata = t.rcpts.flatMap fun a => a ++ b!","
  last : s.rcptto = enc t.rcpts.getLast?
  nsender : ∀ a, t.sender = some a → NoNul a
  nrcpt : ∀ a ∈ t.rcpts, NoNul a

theorem Rem.congr {t : Tx} {s s' : S} (h : Rem t s) (h1 : s'.mailfrom = s.mailfrom)
    (h2 : s'.rcpttodata = s.rcpttodata) (h3 : s'.rcptto = s.rcptto) : Rem t s' := by
  obtain ⟨a, b, c, d, e⟩ := h
  exact ⟨h1 ▸ a, h2 ▸ b, h3 ▸ c, d, e⟩

theorem upToNul_enc (o : Option Bytes) (h : ∀ a, o = some a → NoNul a) : upToNul (enc o) = o.getD [] := by
  cases o with
  | none => rfl
  | some a =>
    have ha := h a rfl
    show upToNul (a ++ [0]) = a
    unfold upToNul
    rw [List.takeWhile_append_of_pos (by simpa [NoNul] using ha)]
    simp

theorem Rem.from {t : Tx} {s : S} (h : Rem t s) : b!"F=" ++ upToNul s.mailfrom = t.from := by
  rw [h.sender, upToNul_enc _ h.nsender]; rfl

theorem Rem.to {t : Tx} {s : S} (h : Rem t s) : b!" T=" ++ upToNul s.rcpttodata = t.to := by
  rw [h.all, upToNul_id]
  · rfl
  · intro b hb
    simp only [List.mem_flatMap, List.mem_append, List.mem_singleton] at hb
    obtain ⟨a, ha, hb | rfl⟩ := hb
    · exact h.nrcpt a ha b hb
    · decide

theorem Rem.lastTo {t : Tx} {s : S} (h : Rem t s) : b!" T=" ++ upToNul s.rcptto = t.last := by
  rw [h.last, upToNul_enc]
  · rfl
  · intro a ha
    exact h.nrcpt a (List.mem_of_getLast? ha)

theorem Rem.reset (s : S) : Rem .none { s with mailfrom := [], rcptto := [], rcpttodata := [], rcptcount := 0 } :=
  ⟨rfl, rfl, rfl, (fun a ha => by cases ha), (fun a ha => by cases ha)⟩

/-! ### Primitives -/

theorem PostL.up {α : Type} {m : M α} {s : S} {h : Hist} {Q : α → S → Hist → Prop}
    (k : match m s with
      | .ok a s' => Q a s' (h ++ since s s')
      | .die _ s' => Told s' (h ++ since s s')
      | .ub => True) : PostL (Smtp.up m s h) Q := by
  unfold Smtp.up
  cases e : m s with
  | ok a s' => rw [e] at k; exact k
  | die x s' => rw [e] at k; exact k
  | ub => trivial

/-- Fields that sending and receiving leave alone. -/
def KeptMail (s s' : S) : Prop :=
  s'.line = s.line ∧ s'.mailfrom = s.mailfrom ∧ s'.rcpttodata = s.rcpttodata ∧ s'.rcptto = s.rcptto

theorem KeptMail.rem {s s' : S} {t : Tx} (k : KeptMail s s') (h : Rem t s) : Rem t s' := h.congr k.2.1 k.2.2.1 k.2.2.2

theorem KeptMail.trans {a b c : S} (h : KeptMail a b) (h' : KeptMail b c) : KeptMail a c :=
  ⟨h'.1.trans h.1, h'.2.1.trans h.2.1, h'.2.2.1.trans h.2.2.1, h'.2.2.2.trans h.2.2.2⟩

theorem KeptMail.refl (s : S) : KeptMail s s := ⟨rfl, rfl, rfl, rfl⟩

theorem child_l {t : Tx} {st : Stage} {s : S} {h : Hist} (d : Bytes) (k : Tell t st [] s h) :
    PostL (up (toChild d) s h) fun _ s' h' => Tell t st [] s' h' ∧ KeptMail s s' ∧ s'.cline = s.cline := by
  refine PostL.up ?_
  have := write_post s
  rw [toChild, bind_def]
  cases e : write s with
  | ok a s1 =>
    rw [e] at this
    obtain ⟨w, rfl⟩ := this
    exact ⟨k.step (a := .child (upToNul d)) rfl (by cases st <;> rfl), ⟨rfl, rfl, rfl, rfl⟩, rfl⟩
  | die x s1 =>
    rw [e] at this
    obtain ⟨_, w, rfl⟩ := this
    exact (k.same rfl).told
  | ub => trivial

theorem client_l {t t' : Tx} {st st' : Stage} {p : List Rec} {s : S} {h : Hist} (d : Bytes) (k : Tell t st [] s h)
    (hs : mailStep t st (.client (upToNul d)) = (t', st', p)) :
    PostL (up (toClient d) s h) fun _ s' h' => Tell t' st' p s' h' ∧ KeptMail s s' ∧ s'.cline = s.cline := by
  refine PostL.up ?_
  have := write_post s
  rw [toClient, bind_def]
  cases e : write s with
  | ok a s1 =>
    rw [e] at this
    obtain ⟨w, rfl⟩ := this
    exact ⟨k.step (a := .client (upToNul d)) rfl hs, ⟨rfl, rfl, rfl, rfl⟩, rfl⟩
  | die x s1 =>
    rw [e] at this
    obtain ⟨_, w, rfl⟩ := this
    exact (k.same rfl).told
  | ub => trivial

/-- A reply of the child: `st' r` is the stage afterwards. -/
theorem smtpline_l {t : Tx} {t' : Tx} {st : Stage} {st' : Bytes → Stage} {s : S} {h : Hist} (cfg : Cfg)
    (a : Option Bytes) (b : Bool) (k : Tell t st [] s h) (hs : ∀ r, mailStep t st (.reply r) = (t', st' r, [])) :
    PostL (smtplineL cfg a b s h) fun code s' h' => ∃ r, code = toU64 (Spec.code r) ∧ Tell t' (st' r) [] s' h' ∧ KeptMail s s' := by
  unfold smtplineL
  refine PostL.bind (Q1 := fun code s' h' => ∃ r, code = toU64 (Spec.code r) ∧ Tell t' (st' r) [] s' h' ∧ KeptMail s s')
    (PostL.up ?_) ?_
  · have := smtpline_inv cfg a b s
    cases e : smtpline cfg a b s with
    | ok code s1 =>
      rw [e] at this
      obtain ⟨r, hh, sep, t, rest, _, _, _, hc, _, rfl⟩ := this
      exact ⟨r, hc, k.step (a := .reply r) rfl (hs r), ⟨rfl, rfl, rfl, rfl⟩⟩
    | die x s1 =>
      rw [e] at this
      obtain ⟨_, cin, cline, _, _, rfl | ⟨r, hh, sep, t, a, _, _, _, _, rfl⟩⟩ := this
      · exact (k.same rfl).told
      · exact (k.step (a := .reply r) rfl (hs r)).told
    | ub => trivial
  · rintro code s1 h1 ⟨r, hc, k1, hk⟩
    exact PostL.get (PostL.say (PostL.pure ⟨r, hc, k1.minor (.inl rfl), hk⟩))

theorem readline_l {t : Tx} {t' : Bytes → Tx} {st : Stage} {st' : Bytes → Stage} {s : S} {h : Hist}
    (k : Tell t st [] s h) (hs : ∀ raw, mailStep t st (.line raw) = (t' raw, st' raw, [])) :
    PostL (readlineL s h) fun _ s' h' => ∃ raw, s'.line = Spec.forward raw ∧ Tell (t' raw) (st' raw) [] s' h' ∧
      ∀ {u}, Rem u s → Rem u s' := by
  unfold readlineL
  refine PostL.bind (Q1 := fun _ s' h' => ∃ raw, s'.line = Spec.forward raw ∧ Tell (t' raw) (st' raw) [] s' h' ∧
      ∀ {u}, Rem u s → Rem u s') (PostL.up ?_) ?_
  · have := readline_inv s
    cases e : readline s with
    | ok code s1 =>
      rw [e] at this
      obtain ⟨l, rest, buf, net, _, _, _, _, _, rfl⟩ := this
      exact ⟨l, rfl, k.step (a := .line l) rfl (hs l), fun hr => hr.congr rfl rfl rfl⟩
    | die x s1 =>
      rw [e] at this
      obtain ⟨_, buf, net, line, _, rfl, _⟩ := this
      exact (k.same rfl).told
    | ub => trivial
  · rintro _ s1 h1 ⟨raw, hl, k1, hk⟩
    refine PostL.get ?_
    exact ⟨raw, hl, k1.minor (.inl rfl), hk⟩

theorem sayLine_l {t : Tx} {st : Stage} {p : List Rec} {s : S} {h : Hist} (k : Tell t st p s h) :
    PostL (sayLine s h) fun _ s' h' => s' = s ∧ Tell t st p s h' :=
  PostL.get (show _ ∧ _ from ⟨rfl, k.minor (.inr rfl)⟩)

theorem sayMessage_l {t t' : Tx} {st : Stage} {s : S} {h : Hist} {l : Lvl} (hr : Rem t s) (hl : l = .info ∨ l = .warn)
    (k : Tell t' st [⟨l, t.from ++ t.to ++ b!": " ++ upToNul s.cline⟩] s h) :
    PostL (sayMessage l s h) fun _ s' h' => s' = s ∧ Tell t' st [] s h' := by
  refine PostL.get (show _ ∧ _ from ⟨rfl, ?_⟩)
  refine Tell.due ?_ hl
  rw [← hr.from, ← hr.to] at k
  simpa using k

theorem sayRcpt_l {t : Tx} {st : Stage} {s : S} {h : Hist} (hr : Rem t s)
    (k : Tell t st [⟨.warn, t.from ++ t.last ++ b!": " ++ upToNul s.cline⟩] s h) :
    PostL (sayRcpt s h) fun _ s' h' => s' = s ∧ Tell t st [] s h' := by
  refine PostL.get (show _ ∧ _ from ⟨rfl, ?_⟩)
  refine Tell.due ?_ (.inr rfl)
  rw [← hr.from, ← hr.lastTo] at k
  simpa using k

/-- `copy`: the child's reply was passed on, and the record for it is due. -/
theorem copy_l {t : Tx} {raw : Bytes} {s : S} {h : Hist} (cfg : Cfg) (b : Bool) (k : Tell t (.got raw) [] s h)
    (hr : Rem t s) : PostL (copyL cfg b s h) fun code s' h' => ∃ r, code = toU64 (Spec.code r) ∧ Rem t s' ∧
      ∀ t' st' p, mailStep t (.replied raw r) (.client (upToNul s'.cline)) = (t', st', p) → Tell t' st' p s' h' := by
  unfold copyL
  refine PostL.get (PostL.bind (child_l _ k) ?_)
  rintro _ s1 h1 ⟨k1, e1, _⟩
  refine PostL.bind (smtpline_l (t' := t) (st' := fun r => .replied raw r) cfg none b k1 fun r => rfl) ?_
  rintro code s2 h2 ⟨r, hc, k2, e2⟩
  refine PostL.get (PostL.bind (client_l s2.cline k2 (t' := (mailStep t (.replied raw r) (.client (upToNul s2.cline))).1)
    (st' := (mailStep t (.replied raw r) (.client (upToNul s2.cline))).2.1)
    (p := (mailStep t (.replied raw r) (.client (upToNul s2.cline))).2.2) rfl) ?_)
  rintro _ s3 h3 ⟨k3, e3, hcl⟩
  refine PostL.bind (sayLine_l k3) ?_
  rintro _ s4 h4 ⟨rfl, k4⟩
  refine PostL.pure ⟨r, hc, ((e1.trans e2).trans e3).rem hr, ?_⟩
  intro t' st' p hm
  rw [hcl] at hm
  rw [hm] at k4
  exact k4

/-! ### The commands -/

/-- Between commands. -/
def Idle (s : S) (h : Hist) : Prop := ∃ t, Tell t .idle [] s h ∧ Rem t s

theorem plain_l {t : Tx} {raw : Bytes} {s : S} {h : Hist} (cfg : Cfg) (b : Bool) (k : Tell t (.got raw) [] s h)
    (hr : Rem t s) (hv : Spec.verb raw ≠ .mail ∧ Spec.verb raw ≠ .rcpt ∧ Spec.verb raw ≠ .data) :
    PostL (copyL cfg b s h) fun _ s' h' => Idle s' h' := by
  refine (copy_l cfg b k hr).mono ?_
  rintro code s' h' ⟨r, _, hr', k'⟩
  refine ⟨t, k' _ _ _ ?_, hr'⟩
  simp only [mailStep]
  split <;> simp_all

theorem ehlo_l {t : Tx} {raw : Bytes} {s : S} {h : Hist} (cfg : Cfg) (k : Tell t (.got raw) [] s h)
    (hr : Rem t s) (hv : Spec.verb raw = .ehlo) : PostL (ehloL cfg s h) fun _ s' h' => Idle s' h' := by
  unfold ehloL
  refine PostL.get (PostL.bind (child_l _ k) ?_)
  rintro _ s1 h1 ⟨k1, e1, _⟩
  refine PostL.bind (smtpline_l (t' := t) (st' := fun r => .replied raw r) cfg _ false k1 fun r => rfl) ?_
  rintro code s2 h2 ⟨r, hc, k2, e2⟩
  refine PostL.get (PostL.bind (client_l s2.cline k2 (t' := t) (st' := .idle) (p := []) (by simp [mailStep, hv])) ?_)
  rintro _ s3 h3 ⟨k3, e3, hcl⟩
  refine (sayLine_l k3).mono ?_
  rintro _ s4 h4 ⟨rfl, k4⟩
  exact ⟨t, k4, ((e1.trans e2).trans e3).rem hr⟩

theorem bodyLoop_l (n : Nat) : ∀ {t : Tx} {s : S} {h : Hist}, Tell t .body [] s h → Rem t s →
    PostL (bodyLoopL n s h) fun _ s' h' => Tell t .dot [] s' h' ∧ Rem t s' := by
  induction n with
  | zero => intro t s h k _; exact PostL.up (k.same rfl).told
  | succ n ih =>
    intro t s h k hr
    rw [bodyLoopL]
    refine PostL.bind (readline_l (t' := fun _ => t) (st' := fun raw => if Spec.content raw = b!"." then .dot else .body)
      k fun raw => rfl) ?_
    rintro _ s1 h1 ⟨raw, hl, k1, hk1⟩
    refine PostL.get (PostL.bind (child_l _ k1) ?_)
    rintro _ s2 h2 ⟨k2, e2, _⟩
    refine PostL.bind (Q1 := fun _ s3 h3 => s3 = { s2 with line := strip (c! '\r') (strip (c! '\n') s2.line) } ∧ h3 = h2) ?_ ?_
    · rw [up_modify _ _ _ rfl]; exact ⟨rfl, rfl⟩
    rintro _ s3 h3 ⟨e3, rfl⟩
    refine PostL.get ?_
    have hr3 : Rem t s3 := by subst e3; exact (e2.rem (hk1 hr)).congr rfl rfl rfl
    have hdot : s3.line = b!"." ↔ Spec.content raw = b!"." := by
      subst e3
      show strip (c! '\r') (strip (c! '\n') s2.line) = b!"." ↔ _
      rw [e2.1, hl, chomp_forward, stored_dot]
    have k3 : Tell t (if Spec.content raw = b!"." then .dot else .body) [] s3 h3 := by subst e3; exact k2
    by_cases hd : Spec.content raw = b!"."
    · rw [if_pos (hdot.mpr hd)]
      rw [if_pos hd] at k3
      exact ⟨k3, hr3⟩
    · rw [if_neg fun h => hd (hdot.mp h)]
      rw [if_neg hd] at k3
      exact ih k3 hr3

theorem data_l {t : Tx} {raw : Bytes} {s : S} {h : Hist} (cfg : Cfg) (k : Tell t (.got raw) [] s h)
    (hr : Rem t s) (hv : Spec.verb raw = .data) : PostL (dataL cfg s h) fun _ s' h' => Idle s' h' := by
  unfold dataL
  refine PostL.get (PostL.bind (child_l _ k) ?_)
  rintro _ s1 h1 ⟨k1, e1, _⟩
  refine PostL.bind (smtpline_l (t' := t) (st' := fun r => .replied raw r) cfg none true k1 fun r => rfl) ?_
  rintro code s2 h2 ⟨r, hc, k2, e2⟩
  have h354 : code = 354 ↔ Spec.code r = 354 := by rw [hc]; exact toU64_code r 354 (by decide)
  refine PostL.get ?_
  by_cases hcode : code = 354
  · refine PostL.bind (client_l s2.cline k2 (t' := t) (st' := .body) (p := []) (by
      simp [mailStep, hv, h354.mp hcode])) ?_
    rintro _ s3 h3 ⟨k3, e3, hcl⟩
    rw [if_neg (by simp [hcode])]
    refine PostL.get (PostL.bind (bodyLoop_l _ k3 (((e1.trans e2).trans e3).rem hr)) ?_)
    rintro _ s4 h4 ⟨k4, hr4⟩
    refine PostL.bind (smtpline_l (t' := t) (st' := fun r => .done r) cfg none true k4 fun r => rfl) ?_
    rintro code' s5 h5 ⟨r', hc', k5, e5⟩
    have h250 : code' = 250 ↔ Spec.code r' = 250 := by rw [hc']; exact toU64_code r' 250 (by decide)
    refine PostL.get (PostL.bind (client_l s5.cline k5 rfl) ?_)
    rintro _ s6 h6 ⟨k6, e6, hcl6⟩
    rw [← hcl6] at k6
    have hr6 : Rem t s6 := e6.rem (e5.rem hr4)
    refine PostL.say ?_
    have k7 := k6.minor (l := .debug) (x := b!"DATA: " ++ upToNul s5.cline) (.inr rfl)
    have hreset : ∀ h7, Tell .none .idle [] s6 h7 → PostL (up resetTransaction s6 h7) fun _ s' h' => Idle s' h' := by
      intro h7 k8
      rw [resetTransaction, up_modify _ _ _ rfl]
      exact ⟨.none, k8, Rem.reset s6⟩
    by_cases hx : code' = 250
    · rw [if_neg (by simp [hx])]
      rw [if_pos (h250.mp hx)] at k7
      refine PostL.bind (sayMessage_l hr6 (.inl rfl) k7) ?_
      rintro _ s8 h8 ⟨rfl, k8⟩
      exact hreset _ k8
    · rw [if_pos hx]
      rw [if_neg fun h => hx (h250.mpr h)] at k7
      refine PostL.bind (sayMessage_l hr6 (.inr rfl) k7) ?_
      rintro _ s8 h8 ⟨rfl, k8⟩
      exact hreset _ k8
  · refine PostL.bind (client_l s2.cline k2 (t' := t) (st' := .idle)
      (p := [⟨.warn, t.from ++ t.to ++ b!": " ++ upToNul s2.cline⟩]) (by
      have : ¬ Spec.code r = 354 := fun h => hcode (h354.mpr h)
      simp [mailStep, hv, this])) ?_
    rintro _ s3 h3 ⟨k3, e3, hcl⟩
    rw [← hcl] at k3
    rw [if_pos hcode]
    have hr3 := ((e1.trans e2).trans e3).rem hr
    refine PostL.bind (sayLine_l k3) ?_
    rintro _ s4 h4 ⟨rfl, k4⟩
    refine (sayMessage_l hr3 (.inr rfl) k4).mono ?_
    rintro _ s5 h5 ⟨rfl, k5⟩
    exact ⟨t, k5, hr3⟩

theorem rememberMail_l {t : Tx} {raw : Bytes} {s : S} (hl : s.line = Spec.forward raw) (hv : Spec.verb raw = .mail) :
    match rememberMail s with
    | .ok _ s' => s'.log = s.log ∧ Rem (t.after raw) s'
    | .die _ s' => s'.log = s.log
    | .ub => True := by
  have ht : t.after raw = ⟨Spec.arg b!"mail from:" raw, []⟩ := by simp [Tx.after, hv]
  rw [ht]
  obtain ⟨k1, k2⟩ := arg_eq b!"mail from:" raw (by decide) (by decide) (by decide) (by decide)
  obtain ⟨f1, f2, f3, f4, f5, f6, f7, f8, line, f10, f11, f12, f13, f14, f15⟩ := s
  simp only [] at hl
  subst hl
  unfold rememberMail
  simp only [bind_def, resetTransaction, modify_def, get_def]
  rw [ite_app]
  by_cases hlen : (Spec.forward raw).length ≥ 10
  · rw [if_pos hlen]
    obtain ⟨d, e1, e2, e3⟩ := k1 hlen
    have e1' : case_diffb (Spec.forward raw ++ [0]) 10 b!"mail from:\x00" = .ok d := e1
    rw [bind_def]
    simp only [e1', lift_ok]
    rw [ite_app]
    by_cases hd : d = 0
    · rw [if_pos hd]
      have harg := e3 hd
      simp only [List.length_cons, List.length_nil] at harg
      rw [ite_app]
      by_cases hm : (argument ((Spec.forward raw).drop 10)).length > maxMailfrom
      · rw [if_pos hm]; rfl
      · rw [if_neg hm]
        refine ⟨rfl, by simp [harg, enc], rfl, rfl, (fun a ha => arg_noNul _ _ _ ha), (fun a ha => by cases ha)⟩
    · rw [if_neg hd]
      have hnone : Spec.arg b!"mail from:" raw = none := by
        have : ¬ (Spec.arg b!"mail from:" raw).isSome = true := fun h => hd (e2.mpr h)
        simpa using this
      rw [hnone]
      exact ⟨rfl, rfl, rfl, rfl, (fun a ha => by cases ha), (fun a ha => by cases ha)⟩
  · rw [if_neg hlen, k2 hlen]
    exact ⟨rfl, rfl, rfl, rfl, (fun a ha => by cases ha), (fun a ha => by cases ha)⟩

theorem rememberRcpt_l {t : Tx} {raw : Bytes} {s : S} (hr : Rem t s) (hl : s.line = Spec.forward raw)
    (hv : Spec.verb raw = .rcpt) :
    match rememberRcpt s with
    | .ok _ s' => s'.log = s.log ∧ Rem (t.after raw) s'
    | .die _ s' => s'.log = s.log
    | .ub => True := by
  obtain ⟨k1, k2⟩ := arg_eq b!"rcpt to:" raw (by decide) (by decide) (by decide) (by decide)
  obtain ⟨f1, f2, f3, f4, f5, f6, f7, f8, line, f10, f11, f12, f13, f14, f15⟩ := s
  simp only [] at hl
  subst hl
  unfold rememberRcpt
  simp only [bind_def, get_def]
  rw [ite_app]
  by_cases hlen : (Spec.forward raw).length ≥ 8
  · rw [if_pos hlen]
    obtain ⟨d, e1, e2, e3⟩ := k1 hlen
    have e1' : case_diffb (Spec.forward raw ++ [0]) 8 b!"rcpt to:\x00" = .ok d := e1
    rw [bind_def]
    simp only [e1', lift_ok]
    rw [ite_app]
    by_cases hd : d = 0
    · rw [if_pos hd]
      have harg := e3 hd
      simp only [List.length_cons, List.length_nil] at harg
      have ht : t.after raw = { t with rcpts := t.rcpts ++ [argument ((Spec.forward raw).drop 8)] } := by
        simp [Tx.after, hv, harg]
      rw [ite_app]
      by_cases hm : (argument ((Spec.forward raw).drop 8)).length > maxRcptto
      · rw [if_pos hm]; rfl
      · rw [if_neg hm, ite_app]
        by_cases hn : f14 ≥ maxRcpts
        · rw [if_pos hn]; rfl
        · rw [if_neg hn, ite_app]
          by_cases hq : f13.length + (argument ((Spec.forward raw).drop 8)).length + 1 > maxRcpttodata
          · rw [if_pos hq]; rfl
          · rw [if_neg hq, ht]
            refine ⟨rfl, hr.sender, ?_, ?_, hr.nsender, ?_⟩
            · have := hr.all
              simp only [] at this
              simp [this]
            · simp [enc]
            · intro a ha
              simp only [List.mem_append, List.mem_singleton] at ha
              rcases ha with ha | rfl
              · exact hr.nrcpt a ha
              · exact arg_noNul _ _ _ harg
    · rw [if_neg hd]
      have hnone : Spec.arg b!"rcpt to:" raw = none := by
        have : ¬ (Spec.arg b!"rcpt to:" raw).isSome = true := fun h => hd (e2.mpr h)
        simpa using this
      have ht : t.after raw = t := by simp [Tx.after, hv, hnone]
      rw [ht]
      exact ⟨rfl, hr⟩
  · rw [if_neg hlen]
    have ht : t.after raw = t := by simp [Tx.after, hv, k2 hlen]
    rw [ht]
    exact ⟨rfl, hr⟩

/-- The greylist server was only asked. -/
def Asked (s s' : S) : Prop := ∃ g w l, s' = { s with gin := g, gwr := w, log := s.log ++ l } ∧
  ∀ a ∈ l, (∃ d, a = .ask d) ∨ ∃ d, a = .answer d

theorem greylist_l (cfg : Cfg) (s : S) : match greylist cfg s with
    | .ok _ s' => Asked s s'
    | .die _ s' => Asked s s'
    | .ub => True := by
  rw [greylist, bind_def]
  simp only [get_def, bind_def]
  have h1 := greyWrite_post (cfg := cfg) s
  cases e1 : greyWrite cfg s with
  | ub => trivial
  | die x s1 =>
    rw [e1] at h1
    obtain ⟨_, w, rfl⟩ := h1
    exact ⟨s.gin, w, [], by simp, by simp⟩
  | ok b s1 =>
    rw [e1] at h1
    cases b with
    | false =>
      obtain ⟨_, w, rfl⟩ := h1
      exact ⟨s.gin, w, [], by simp, by simp⟩
    | true =>
      obtain ⟨w, rfl⟩ := h1
      simp only [Bool.not_true, Bool.false_eq_true, if_false, bind_def, act_def]
      generalize hs2 : ({ s with gwr := w, log := s.log ++ [.ask (request cfg s)] } : S) = s2
      have h2 := greyRead_inv (cfg := cfg) (greyBytes s.gin + 1) [] [] s2 (by simp) (by simp)
      cases e2 : greyRead cfg (greyBytes s.gin + 1) [] [] s2 with
      | ub => trivial
      | die x s3 =>
        rw [e2] at h2
        obtain ⟨_, g, rfl⟩ := h2
        subst hs2
        exact ⟨g, w, _, rfl, by simp⟩
      | ok m s3 =>
        rw [e2] at h2
        cases m with
        | none =>
          rcases h2 with ⟨_, g, rfl⟩ | ⟨g, a, _, _, rfl⟩ <;> subst hs2
          · exact ⟨g, w, _, rfl, by simp⟩
          · exact ⟨g, w, [.ask (request cfg s), .answer a], by simp, by simp⟩
        | some resp =>
          obtain ⟨_, g, rfl⟩ := h2
          subst hs2
          have hok : Asked s { s with gin := g, gwr := w, log := s.log ++ [.ask (request cfg s)] ++ [.answer resp] } :=
            ⟨g, w, [.ask (request cfg s), .answer resp], by simp, by simp⟩
          simp only [bind_def, act_def]
          cases d1 : answerIs resp 12 b!"action=dunno\x00" with
          | ub => trivial
          | ok b1 =>
            simp only [lift_ok]
            cases b1 with
            | true => exact hok
            | false =>
              simp only [Bool.false_eq_true, if_false, bind_def]
              cases d2 : answerIs resp 13 b!"action=reject\x00" with
              | ub => trivial
              | ok b2 =>
                simp only [lift_ok]
                cases b2 with
                | true => exact hok
                | false => exact hok

theorem mail_l {t : Tx} {raw : Bytes} {s : S} {h : Hist} (cfg : Cfg) (k : Tell (t.after raw) (.got raw) [] s h)
    (hl : s.line = Spec.forward raw) (hv : Spec.verb raw = .mail) :
    PostL (mailL cfg s h) fun _ s' h' => Idle s' h' := by
  unfold mailL
  refine PostL.bind (Q1 := fun _ s' h' => Tell (t.after raw) (.got raw) [] s' h' ∧ Rem (t.after raw) s') (PostL.up ?_) ?_
  · have := rememberMail_l (t := t) hl hv
    cases e : rememberMail s with
    | ok a s1 => rw [e] at this; exact ⟨k.same this.1, this.2⟩
    | die x s1 => rw [e] at this; exact (k.same this).told
    | ub => trivial
  · rintro _ s1 h1 ⟨k1, hr1⟩
    refine PostL.bind (copy_l cfg true k1 hr1) ?_
    rintro code s2 h2 ⟨r, hc, hr2, k2⟩
    have h250 : code = 250 ↔ Spec.code r = 250 := by rw [hc]; exact toU64_code r 250 (by decide)
    by_cases hx : code = 250
    · rw [if_neg (by simp [hx])]
      exact ⟨_, k2 _ .idle [] (by simp [mailStep, hv, h250.mp hx]), hr2⟩
    · rw [if_pos hx]
      have hx' : ¬ Spec.code r = 250 := fun h => hx (h250.mpr h)
      have k3 := k2 (t.after raw) .idle [⟨.warn, (t.after raw).from ++ b!": " ++ upToNul s2.cline⟩]
        (by simp [mailStep, hv, hx'])
      refine PostL.get ?_
      rw [← hr2.from] at k3
      exact ⟨_, Tell.due (by simpa using k3) (.inr rfl), hr2⟩

theorem rcpt_l {t : Tx} {raw : Bytes} {s : S} {h : Hist} (cfg : Cfg) (k : Tell (t.after raw) (.got raw) [] s h)
    (hr : Rem t s) (hl : s.line = Spec.forward raw) (hv : Spec.verb raw = .rcpt) :
    PostL (rcptL cfg s h) fun _ s' h' => Idle s' h' := by
  unfold rcptL
  refine PostL.bind (Q1 := fun _ s' h' => Tell (t.after raw) (.got raw) [] s' h' ∧ Rem (t.after raw) s') (PostL.up ?_) ?_
  · have := rememberRcpt_l hr hl hv
    cases e : rememberRcpt s with
    | ok a s1 => rw [e] at this; exact ⟨k.same this.1, this.2⟩
    | die x s1 => rw [e] at this; exact (k.same this).told
    | ub => trivial
  · rintro _ s1 h1 ⟨k1, hr1⟩
    refine PostL.get ?_
    generalize t.after raw = u at *
    have hcopy : ∀ {s h}, Tell u (.got raw) [] s h → Rem u s →
        PostL ((copyL cfg true >>= fun code => if code ≠ 250 then sayRcpt else pure ()) s h) fun _ s' h' => Idle s' h' := by
      intro s h k1 hr1
      refine PostL.bind (copy_l cfg true k1 hr1) ?_
      rintro code s2 h2 ⟨r, hc, hr2, k2⟩
      have h250 : code = 250 ↔ Spec.code r = 250 := by rw [hc]; exact toU64_code r 250 (by decide)
      by_cases hx : code = 250
      · rw [if_neg (by simp [hx])]
        exact ⟨_, k2 _ .idle [] (by simp [mailStep, hv, h250.mp hx]), hr2⟩
      · rw [if_pos hx]
        have hx' : ¬ Spec.code r = 250 := fun h => hx (h250.mpr h)
        refine (sayRcpt_l hr2 (k2 u .idle _ (by simp [mailStep, hv, hx']))).mono ?_
        rintro _ s3 h3 ⟨rfl, k3⟩
        exact ⟨_, k3, hr2⟩
    have hmsg : ∀ msg {s h}, Tell u (.got raw) [] s h → Rem u s → PostL ((do
        up (modify fun s => { s with cline := catlogid cfg msg ++ b!"\r\n" })
        let s ← up get
        up (toClient s.cline)
        sayLine
        sayRcpt : ML Unit) s h) fun _ s' h' => Idle s' h' := by
      intro msg s h k1 hr1
      refine PostL.bind (Q1 := fun _ s' h' => Tell u (.got raw) [] s' h' ∧ Rem u s') ?_ ?_
      · rw [up_modify _ _ _ rfl]; exact ⟨k1, hr1.congr rfl rfl rfl⟩
      rintro _ s2 h2 ⟨k2, hr2⟩
      refine PostL.get (PostL.bind (client_l s2.cline k2 (t' := u) (st' := .idle)
        (p := [⟨.warn, u.from ++ u.last ++ b!": " ++ upToNul s2.cline⟩]) (by simp [mailStep, hv])) ?_)
      rintro _ s3 h3 ⟨k3, e3, hcl⟩
      rw [← hcl] at k3
      refine PostL.bind (sayLine_l k3) ?_
      rintro _ s4 h4 ⟨rfl, k4⟩
      refine (sayRcpt_l (e3.rem hr2) k4).mono ?_
      rintro _ s5 h5 ⟨rfl, k5⟩
      exact ⟨_, k5, e3.rem hr2⟩
    by_cases hg : s1.mailfrom ≠ [] ∧ s1.rcptto ≠ [] ∧ cfg.grey = true
    · rw [if_pos hg]
      refine PostL.bind (Q1 := fun _ s' h' => Tell u (.got raw) [] s' h' ∧ Rem u s') (PostL.up ?_) ?_
      · have := greylist_l cfg s1
        have hstep : ∀ s', Asked s1 s' → Tell u (.got raw) [] s' (h1 ++ since s1 s') ∧ Rem u s' := by
          rintro s' ⟨g, w, l, rfl, hq⟩
          refine ⟨k1.quiet l rfl ?_, hr1.congr rfl rfl rfl⟩
          intro a ha
          rcases hq a ha with ⟨d, rfl⟩ | ⟨d, rfl⟩ <;> rfl
        cases e : greylist cfg s1 with
        | ok a s2 => rw [e] at this; exact hstep _ this
        | die x s2 => rw [e] at this; exact (hstep _ this).1.told
        | ub => trivial
      · rintro m s2 h2 ⟨k2, hr2⟩
        cases m with
        | none => exact hcopy k2 hr2
        | some msg => exact hmsg msg k2 hr2
    · rw [if_neg hg]
      exact hcopy k1 hr1

theorem starttls_l {t : Tx} {raw : Bytes} {s : S} {h : Hist} (cfg : Cfg) (k : Tell t (.got raw) [] s h)
    (hr : Rem t s) (hv : Spec.verb raw = .starttls) : PostL (starttlsL cfg s h) fun _ s' h' => Idle s' h' := by
  have hmsg : ∀ (msg : Bytes) (f : Unit → ML Unit), (∀ s h, Tell t .idle [] s h → Rem t s →
      PostL (f () s h) fun _ s' h' => Idle s' h') → PostL ((do
        up (modify fun s => { s with cline := catlogid cfg msg ++ b!"\r\n" })
        let s ← up get
        up (toClient s.cline) >>= f : ML Unit) s h) fun _ s' h' => Idle s' h' := by
    intro msg f hf
    refine PostL.bind (Q1 := fun _ s' h' => Tell t (.got raw) [] s' h' ∧ Rem t s') ?_ ?_
    · rw [up_modify _ _ _ rfl]; exact ⟨k, hr.congr rfl rfl rfl⟩
    rintro _ s2 h2 ⟨k2, hr2⟩
    refine PostL.get (PostL.bind (client_l s2.cline k2 (t' := t) (st' := .idle) (p := []) (by simp [mailStep, hv])) ?_)
    rintro _ s3 h3 ⟨k3, e3, hcl⟩
    exact hf s3 h3 k3 (e3.rem hr2)
  unfold starttlsL
  refine PostL.get ?_
  by_cases hc : (!s.ctl) = true
  · rw [if_pos hc]
    refine hmsg _ _ ?_
    intro s1 h1 k1 hr1
    refine (sayLine_l k1).mono ?_
    rintro _ s2 h2 ⟨rfl, k2⟩
    exact ⟨t, k2, hr1⟩
  · rw [if_neg hc]
    refine hmsg _ _ ?_
    intro s1 h1 k1 hr1
    refine PostL.bind (Q1 := fun _ s' h' => Tell t .idle [] s' h') (PostL.up ?_) ?_
    · have := write_post s1
      cases e : write s1 with
      | ok a s2 => rw [e] at this; obtain ⟨w, rfl⟩ := this; exact k1.same rfl
      | die x s2 => rw [e] at this; obtain ⟨_, w, rfl⟩ := this; exact (k1.same rfl).told
      | ub => trivial
    rintro _ s2 h2 k2
    refine PostL.bind (Q1 := fun _ s' h' => Tell t .tls [] s' h') (PostL.up (k2.step (a := .ctl [0]) rfl rfl)) ?_
    rintro _ s3 h3 k3
    refine PostL.bind (Q1 := fun _ s' h' => Tell t .tls [] s' h') (by rw [up_modify _ _ _ rfl]; exact k3) ?_
    rintro _ s4 h4 k4
    refine PostL.bind (sayLine_l k4) ?_
    rintro _ s5 h5 ⟨rfl, k5⟩
    refine PostL.bind (Q1 := fun _ s' h' => Tell t .tls [] s' h') (PostL.up ?_) ?_
    · unfold discard
      cases drain s5.net with
      | none => exact (k5.same rfl).told
      | some l => exact k5.step (a := .discard (evStream l).length) rfl rfl
    rintro _ s6 h6 k6
    refine PostL.bind (Q1 := fun _ s' h' => Tell t .tls [] s' h') (PostL.up ?_) ?_
    · unfold readAck
      cases s6.acks with
      | nil => exact (k6.same rfl).told
      | cons b l =>
        simp only []
        by_cases hb : b = 0
        · rw [if_pos hb]; exact k6.step (a := .ack b) rfl rfl
        · rw [if_neg hb]; exact (k6.step (a := .ack b) (t' := t) (st' := .tls) (p := []) rfl rfl).told
    rintro _ s7 h7 k7
    refine PostL.bind (child_l _ k7) ?_
    rintro _ s8 h8 ⟨k8, _, _⟩
    refine PostL.bind (smtpline_l (t' := .none) (st' := fun _ => .idle) cfg none true k8 fun r => rfl) ?_
    rintro code s9 h9 ⟨r, _, k9, _⟩
    rw [resetTransaction, up_modify _ _ _ rfl]
    exact ⟨.none, k9, Rem.reset _⟩

/-! ### The session -/

theorem command_l {s : S} {h : Hist} (cfg : Cfg) (k : Idle s h) : PostL (commandL cfg s h) fun _ s' h' => Idle s' h' := by
  obtain ⟨t, k, hr⟩ := k
  unfold commandL
  refine PostL.bind (readline_l (t' := fun raw => t.after raw) (st' := fun raw => .got raw) k fun raw => rfl) ?_
  rintro _ s1 h1 ⟨raw, hl, k1, hr1⟩
  have hr1 := hr1 hr
  refine PostL.get ?_
  rw [hl, lookup_eq]
  refine PostL.bind (Q1 := fun v s' h' => v = Spec.verb raw ∧ s' = s1 ∧ h' = h1)
    (PostL.up ⟨rfl, rfl, by simp [since]⟩) ?_
  rintro v s' h' ⟨rfl, rfl, rfl⟩
  have hsame : Spec.verb raw ≠ .mail → Spec.verb raw ≠ .rcpt → t.after raw = t := by
    intro h1 h2
    unfold Tx.after
    split <;> simp_all
  cases hv : Spec.verb raw with
  | quit =>
    rw [hsame (by simp [hv]) (by simp [hv])] at k1
    refine PostL.bind (plain_l cfg true k1 hr1 (by simp [hv])) ?_
    rintro _ s2 h2 ⟨t', k2, _⟩
    exact PostL.up (k2.same rfl).told
  | data =>
    rw [hsame (by simp [hv]) (by simp [hv])] at k1
    exact data_l cfg k1 hr1 hv
  | mail => exact mail_l cfg k1 hl hv
  | rcpt => exact rcpt_l cfg k1 hr1 hl hv
  | ehlo =>
    rw [hsame (by simp [hv]) (by simp [hv])] at k1
    exact ehlo_l cfg k1 hr1 hv
  | starttls =>
    rw [hsame (by simp [hv]) (by simp [hv])] at k1
    exact starttls_l cfg k1 hr1 hv
  | default =>
    rw [hsame (by simp [hv]) (by simp [hv])] at k1
    refine PostL.bind (plain_l cfg false k1 hr1 (by simp [hv])) ?_
    rintro _ s2 h2 k2
    exact k2

theorem commands_l (cfg : Cfg) (n : Nat) : ∀ {s : S} {h : Hist}, Idle s h →
    PostL (commandsL cfg n s h) fun _ s' h' => Idle s' h' := by
  induction n with
  | zero => intro s h k; exact k
  | succ n ih =>
    intro s h k
    rw [commandsL]
    exact PostL.bind (command_l cfg k) fun _ s1 h1 k1 => ih k1

theorem session_l (cfg : Cfg) (net : List Ev) (cin : Bytes) (ctl : Bool) (acks : Bytes) (gin : List Bytes)
    (wr gwr : List Bool) : PostL (sessionL cfg (start net cin ctl acks gin wr gwr) []) fun _ s' h' => Idle s' h' := by
  have k0 : Tell .none .idle [] (start net cin ctl acks gin wr gwr) [] := rfl
  have hr0 : Rem .none (start net cin ctl acks gin wr gwr) :=
    ⟨rfl, rfl, rfl, (fun a ha => by cases ha), (fun a ha => by cases ha)⟩
  unfold sessionL
  refine PostL.bind (Q1 := fun _ s' h' => Idle s' h') ?_ ?_
  · unfold greetL
    refine PostL.bind (smtpline_l (t' := .none) (st' := fun _ => .idle) cfg none true k0 fun r => rfl) ?_
    rintro code s1 h1 ⟨r, _, k1, e1⟩
    refine PostL.get ((client_l s1.cline k1 (t' := .none) (st' := .idle) (p := []) rfl).mono ?_)
    rintro _ s2 h2 ⟨k2, e2, _⟩
    exact ⟨.none, k2, (e1.trans e2).rem hr0⟩
  · rintro _ s1 h1 k1
    exact PostL.get (commands_l cfg _ k1)

end Smtp
