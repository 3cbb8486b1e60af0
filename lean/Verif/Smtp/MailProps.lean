import Verif.Smtp.MailLemmas
/-
C99: the mail log tells what happened.
-/
namespace Smtp
open Str
open Spec (Tx Stage mailStep mailLog mailOnly acts)

/-- A session with the given inputs ended with `die(x)` in state `s`, and `h` is its history: what it
did and what it logged, in order. -/
def RanL (cfg : Cfg) (net : List Ev) (cin : Bytes) (tls0 : Bool) (acks : Bytes) (gin : List Bytes)
    (wr gwr : List Bool) (x : Int) (s : S) (h : Hist) : Prop :=
  sessionL cfg (start net cin tls0 acks gin wr gwr) [] = .die x s h

section
variable {cfg : Cfg} {net : List Ev} {cin : Bytes} {tls0 : Bool} {acks : Bytes} {gin : List Bytes}
  {wr gwr : List Bool} {x : Int} {s : S} {h : Hist}

/-- Logging changes nothing: the session is the one without log calls, whose every other property it
therefore has. -/
theorem c99_same (cfg : Cfg) (net : List Ev) (cin : Bytes) (tls0 : Bool) (acks : Bytes) (gin : List Bytes)
    (wr gwr : List Bool) (x : Int) (s : S) :
    session cfg (start net cin tls0 acks gin wr gwr) = .die x s ↔ ∃ h, RanL cfg net cin tls0 acks gin wr gwr x s h := by
  have k := logs_session cfg (start net cin tls0 acks gin wr gwr) []
  unfold RanL
  cases e : sessionL cfg (start net cin tls0 acks gin wr gwr) [] with
  | ok a s' h' =>
    rw [e] at k; rw [← k]
    exact ⟨(fun q => by cases q), (fun ⟨h, q⟩ => by cases q)⟩
  | die x' s' h' =>
    rw [e] at k; rw [← k]
    exact ⟨(fun q => by cases q; exact ⟨h', rfl⟩), (fun ⟨h, q⟩ => by cases q; rfl)⟩
  | ub =>
    rw [e] at k; rw [← k]
    exact ⟨(fun q => by cases q), (fun ⟨h, q⟩ => by cases q)⟩

/-- Wherever the session ends, the actions with the mail records among them are exactly as the
specification says: each record is there, once, in its place, with its level and text. -/
theorem c99_exact (hs : RanL cfg net cin tls0 acks gin wr gwr x s h) : mailOnly h = (mailLog s.log).2.2 := by
  have := session_l cfg net cin tls0 acks gin wr gwr
  rw [show sessionL _ _ _ = _ from hs] at this
  exact this

/-- The history contains all the session did. -/
theorem c99_acts (hs : RanL cfg net cin tls0 acks gin wr gwr x s h) : acts h = s.log := by
  have h1 : ∀ h, acts (mailOnly h) = acts h := by
    intro h
    induction h with
    | nil => rfl
    | cons a h ih =>
      cases a with
      | inl a => show a :: acts (mailOnly h) = a :: acts h; rw [ih]
      | inr r =>
        have : mailOnly (.inr r :: h) = mailOnly h ∨ mailOnly (.inr r :: h) = .inr r :: mailOnly h := by
          simp only [mailOnly, List.filter_cons]
          split
          · exact .inr rfl
          · exact .inl rfl
        rcases this with q | q <;> rw [q] <;> exact ih
  have h2 : ∀ l : List Act, acts (mailLog l).2.2 = l := by
    intro l
    induction hn : l.length generalizing l with
    | zero => rw [List.length_eq_zero_iff.mp hn]; rfl
    | succ n ih =>
      rcases List.eq_nil_or_concat l with rfl | ⟨l, a, rfl⟩
      · simp at hn
      · rw [List.concat_eq_append] at hn ⊢
        rw [mailLog_snoc]
        have := ih l (by simpa using hn)
        simp only [acts] at this ⊢
        simp only [List.filterMap_append, this, List.filterMap_cons, List.append_cancel_left_eq]
        simp [List.filterMap_map]
  rw [← h1, c99_exact hs, h2]

end

/-! ### The truth of the records -/

/-- The records by recursion from the front. -/
def histFrom (t : Tx) (st : Stage) : List Act → Hist
  | [] => []
  | a :: l => .inl a :: ((mailStep t st a).2.2.map .inr ++ histFrom (mailStep t st a).1 (mailStep t st a).2.1 l)

theorem mailLog_from (l : List Act) : (mailLog l).2.2 = histFrom .none .idle l := by
  have : ∀ (l : List Act) t st (x : Hist), (l.foldl (fun x a =>
      let y := mailStep x.1 x.2.1 a
      (y.1, y.2.1, x.2.2 ++ .inl a :: y.2.2.map .inr)) (t, st, x)).2.2 = x ++ histFrom t st l := by
    intro l
    induction l with
    | nil => intro t st x; simp [histFrom]
    | cons a l ih => intro t st x; rw [List.foldl_cons]; simp only []; rw [ih]; simp [histFrom]
  exact this l _ _ _

/-- The fold of `Spec.deal` from any state. -/
def dealFrom (x : Spec.Deal × Tx × Stage) : List Act → Spec.Deal × Tx × Stage :=
  List.foldl (fun x a => (x.1.step x.2.2 a, (mailStep x.2.1 x.2.2 a).1, (mailStep x.2.1 x.2.2 a).2.1)) x

theorem acts_inr (l : List Rec) (h : Hist) : acts (l.map .inr ++ h) = acts h := by
  induction l with
  | nil => rfl
  | cons r l ih => simpa [acts] using ih

/-- Where a record stands. -/
theorem record_at (l : List Act) : ∀ {e : Spec.Deal} {t : Tx} {st : Stage} {pre post : Hist} {a : Act} {rec : Rec},
    histFrom t st l = pre ++ .inl a :: .inr rec :: post →
    ∃ l2, l = acts pre ++ a :: l2 ∧
      rec ∈ (mailStep (dealFrom (e, t, st) (acts pre)).2.1 (dealFrom (e, t, st) (acts pre)).2.2 a).2.2 := by
  induction l with
  | nil => intro e t st pre post a rec h; cases pre <;> simp [histFrom] at h
  | cons b l ih =>
    intro e t st pre post a rec h
    rw [histFrom] at h
    cases pre with
    | nil =>
      simp only [List.nil_append, List.cons.injEq, Sum.inl.injEq] at h
      obtain ⟨rfl, h⟩ := h
      refine ⟨l, rfl, ?_⟩
      show rec ∈ (mailStep t st b).2.2
      cases hm : (mailStep t st b).2.2 with
      | nil =>
        rw [hm] at h
        cases l with
        | nil => simp [histFrom] at h
        | cons c l => simp [histFrom] at h
      | cons r p =>
        rw [hm] at h
        simp only [List.map_cons, List.cons_append, List.cons.injEq, Sum.inr.injEq] at h
        simp [h.1]
    | cons c pre =>
      simp only [List.cons_append, List.cons.injEq] at h
      obtain ⟨rfl, h⟩ := h
      -- the records of `b` are all in `pre`
      have : ∀ (p : List Rec) (pre : Hist), p.map .inr ++ histFrom (mailStep t st b).1 (mailStep t st b).2.1 l =
          pre ++ .inl a :: .inr rec :: post → ∃ pre', pre = p.map .inr ++ pre' := by
        intro p
        induction p with
        | nil => intro pre _; exact ⟨pre, rfl⟩
        | cons r p ihp =>
          intro pre h
          cases pre with
          | nil => simp at h
          | cons c pre =>
            simp only [List.map_cons, List.cons_append, List.cons.injEq] at h
            obtain ⟨pre', rfl⟩ := ihp pre h.2
            exact ⟨pre', by simp [← h.1]⟩
      obtain ⟨pre', rfl⟩ := this _ _ h
      rw [List.append_assoc, List.append_cancel_left_eq] at h
      obtain ⟨l2, h1, h2⟩ := ih (e := e.step st b) h
      refine ⟨l2, ?_, ?_⟩
      · show b :: l = acts (.inl b :: (_ ++ pre')) ++ _
        have : acts (.inl b :: ((mailStep t st b).2.2.map .inr ++ pre')) = b :: acts pre' := by
          show b :: acts _ = _
          rw [acts_inr]
        rw [this, h1]; rfl
      · have : acts (.inl b :: ((mailStep t st b).2.2.map .inr ++ pre')) = b :: acts pre' := by
          show b :: acts _ = _
          rw [acts_inr]
        rw [this]
        exact h2

/-- What is remembered is what was agreed. -/
def Agree (t : Tx) (e : Spec.Deal) : Prop :=
  t.sender.getD [] = (e.mail.bind (Spec.arg b!"mail from:")).getD [] ∧
  (t.rcpts.flatMap fun a => a ++ b!",") =
    e.rcpts.flatMap fun raw => (Spec.arg b!"rcpt to:" raw).getD [] ++ b!","

/-- The same, but for a command still to be replied to. -/
def AgreeAt : Spec.Deal × Tx × Stage → Prop
  | (e, t, .got raw) => ∃ t0, Agree t0 e ∧ t = t0.after raw
  | (e, t, _) => Agree t e

theorem agree_none : Agree .none .none := ⟨rfl, rfl⟩

theorem agree_step {x : Spec.Deal × Tx × Stage} {a : Act} (h : AgreeAt x) (ht : Spec.TidyStep x a) :
    AgreeAt (x.1.step x.2.2 a, (mailStep x.2.1 x.2.2 a).1, (mailStep x.2.1 x.2.2 a).2.1) := by
  obtain ⟨e, t, st⟩ := x
  cases st with
  | idle =>
    cases a with
    | line raw => exact ⟨t, h, rfl⟩
    | _ => exact h
  | got raw =>
    obtain ⟨t0, h, rfl⟩ := h
    cases a with
    | reply r =>
      obtain ⟨h1, h2, h3⟩ := ht
      show Agree _ (e.after raw r)
      unfold Spec.Deal.after Tx.after
      by_cases hm : Spec.verb raw = .mail
      · simp only [mailStep, hm, h1 hm, if_true]
        exact ⟨rfl, rfl⟩
      · by_cases hr : Spec.verb raw = .rcpt
        · obtain ⟨hc, ha⟩ := h2 hr
          obtain ⟨a, ha⟩ := Option.isSome_iff_exists.mp ha
          simp only [mailStep, hr, hc, ha, if_true, reduceCtorEq, if_false]
          refine ⟨h.1, ?_⟩
          simp only [List.flatMap_append, h.2, List.append_cancel_left_eq]
          simp [ha]
        · simp only [hm, hr, if_false]
          show Agree t0 _
          split
          · split
            · rename_i hcl
              have := h3 hcl
              subst this
              exact h
            · exact h
          · exact h
    | client d =>
      show Agree (t0.after raw) e
      have : t0.after raw = t0 := by
        unfold Tx.after
        obtain ⟨q1, q2⟩ : Spec.verb raw ≠ .rcpt ∧ Spec.verb raw ≠ .mail := ht
        split <;> simp_all
      rw [this]
      exact h
    | _ => exact ⟨t0, h, rfl⟩
  | replied raw r =>
    cases a with
    | client d =>
      show AgreeAt (e, _, _)
      simp only [mailStep]
      repeat' split
      all_goals exact h
    | _ => exact h
  | body =>
    cases a with
    | line raw =>
      show AgreeAt (e, t, if _ then _ else _)
      split <;> exact h
    | _ => exact h
  | dot => cases a <;> exact h
  | done r =>
    cases a with
    | client d => exact agree_none
    | _ => exact h
  | tls =>
    cases a with
    | reply r =>
      have : Spec.code r = 250 := ht
      show Agree .none (if Spec.code r = 250 then .none else e)
      rw [if_pos this]
      exact agree_none
    | _ => exact h

theorem agree_all (l : List Act) : ∀ {x : Spec.Deal × Tx × Stage}, AgreeAt x →
    (∀ l1 a l2, l = l1 ++ a :: l2 → Spec.TidyStep (dealFrom x l1) a) → AgreeAt (dealFrom x l) := by
  induction l with
  | nil => intro x h _; exact h
  | cons a l ih =>
    intro x h ht
    exact ih (agree_step h (ht [] a l rfl)) fun l1 b l2 e => ht (a :: l1) b l2 (by rw [e]; rfl)

/-- An accepted message is logged with the sender and the recipients the child accepted, as long as
every MAIL and RCPT command is accepted and in the usual form and no message is given up. The full
property, without that condition, is false: see `c99_false`. -/
theorem c99_true_partial {cfg : Cfg} {net : List Ev} {cin : Bytes} {tls0 : Bool} {acks : Bytes} {gin : List Bytes}
    {wr gwr : List Bool} {x : Int} {s : S} {h : Hist} (hs : RanL cfg net cin tls0 acks gin wr gwr x s h)
    (ht : Spec.Tidy s.log) : Spec.Truthful (mailOnly h) := by
  intro pre d rec post e hl
  rw [c99_exact hs, mailLog_from] at e
  obtain ⟨l2, h1, h2⟩ := record_at (e := .none) s.log e
  have h3 : AgreeAt (dealFrom (.none, .none, .idle) (Spec.acts pre)) := by
    refine agree_all _ agree_none ?_
    intro l1 a l3 q
    exact ht l1 a (l3 ++ .client d :: l2) (by rw [h1, q]; simp)
  show rec.text = (dealFrom (.none, .none, .idle) (Spec.acts pre)).1.text ++ b!": " ++ d
  generalize dealFrom (.none, .none, .idle) (Spec.acts pre) = y at *
  obtain ⟨e, t, st⟩ := y
  simp only [] at h2 ⊢
  have key : Agree t e → rec.text = t.from ++ t.to ++ b!": " ++ d → rec.text = e.text ++ b!": " ++ d := by
    intro h q
    rw [q]
    simp only [Tx.from, Tx.to, Spec.Deal.text, h.1, h.2]
    simp
  cases st with
  | done r =>
    refine key h3 ?_
    simp only [mailStep, List.mem_singleton] at h2
    rw [h2]
  | idle => simp [mailStep] at h2
  | got raw =>
    simp only [mailStep] at h2
    split at h2
    · simp only [List.mem_singleton] at h2; rw [h2] at hl; cases hl
    · cases h2
  | replied raw r =>
    simp only [mailStep] at h2
    repeat' split at h2
    all_goals first
      | cases h2; done
      | (simp only [List.mem_singleton] at h2; rw [h2] at hl; cases hl)
  | body => simp [mailStep] at h2
  | dot => simp [mailStep] at h2
  | tls => simp [mailStep] at h2

/-! ### Examples and violations -/

theorem ranL_check {cfg : Cfg} {net : List Ev} {cin : Bytes} {tls0 : Bool} {acks : Bytes} {gin : List Bytes}
    {wr gwr : List Bool} {x : Int} (P : S → Hist → Prop) [∀ s h, Decidable (P s h)]
    (h : (match sessionL cfg (start net cin tls0 acks gin wr gwr) [] with
      | .die y s h => decide (y = x ∧ P s h)
      | _ => false) = true) : ∃ s h, RanL cfg net cin tls0 acks gin wr gwr x s h ∧ P s h := by
  split at h
  · rename_i y s h' e
    simp only [decide_eq_true_eq] at h
    exact ⟨s, h', by rw [← h.1]; exact e, h.2⟩
  · cases h

theorem split_at {α : Type} {l : List α} {n : Nat} {a b : α} (h1 : l[n]? = some a) (h2 : l[n + 1]? = some b) :
    l = l.take n ++ a :: b :: l.drop (n + 2) := by
  obtain ⟨q1, q2⟩ := List.getElem?_eq_some_iff.mp h1
  obtain ⟨q3, q4⟩ := List.getElem?_eq_some_iff.mp h2
  have e1 := List.drop_eq_getElem_cons q1
  have e2 := List.drop_eq_getElem_cons q3
  rw [← q2, ← q4, ← e2, ← e1, List.take_append_drop]

/-- The record after the `n`-th entry is for an accepted message, and is not what was agreed. -/
def LieAt (h : Hist) (n : Nat) (told was d : Bytes) : Prop :=
  h[n]? = some (.inl (.client d)) ∧ h[n + 1]? = some (.inr ⟨.info, told ++ b!": " ++ d⟩) ∧
    (Spec.deal (acts (h.take n))).1.text = was ∧ told ++ b!": " ++ d ≠ was ++ b!": " ++ d

instance (h : Hist) (n : Nat) (told was d : Bytes) : Decidable (LieAt h n told was d) := by
  unfold LieAt; infer_instance

theorem LieAt.untrue {h : Hist} {n : Nat} {told was d : Bytes} (k : LieAt h n told was d) : ¬ Spec.Truthful h := by
  intro ht
  obtain ⟨h1, h2, h3, h4⟩ := k
  have := ht _ _ _ _ (split_at h1 h2) rfl
  rw [h3] at this
  exact h4 this

/-- A message with one sender and two recipients, accepted; before it, a recipient was refused: a warning
and an information. -/
example : ∃ s h, RanL ⟨none, false, false, []⟩
    [.data b!"MAIL FROM:<a>\r\nRCPT TO:<c>\r\nRCPT TO:<d>\r\nDATA\r\nhi\r\n.\r\nQUIT\r\n"]
    b!"220 hi\r\n250 ok\r\n250 ok\r\n550 no\r\n354 go\r\n250 taken\r\n221 bye\r\n" false [] [] [] [] 0 s h ∧
    ((mailOnly h).filterMap fun | .inl _ => none | .inr r => some r) =
      [⟨.warn, b!"F=<a> T=<d>: 550 no\r\n"⟩, ⟨.info, b!"F=<a> T=<c>,<d>,: 250 taken\r\n"⟩] :=
  ranL_check _ (by decide +kernel)

/-- `Spec.Tidy` for all prefixes, computed. -/
theorem tidy_of {l : List Act} (h : ∀ n, n < l.length → ∀ a, l[n]? = some a → Spec.TidyStep (Spec.deal (l.take n)) a) :
    Spec.Tidy l := by
  intro l1 a l2 e
  have := h l1.length (by rw [e]; simp) a (by rw [e]; simp)
  rw [e] at this
  simpa using this

instance (x : Spec.Deal × Tx × Stage) (a : Act) : Decidable (Spec.TidyStep x a) := by
  unfold Spec.TidyStep; split <;> infer_instance

/-- `c99_true_partial` applies to a session with two messages, of which the second goes to two
recipients. -/
example : ∃ s h, RanL ⟨none, false, false, []⟩
    [.data b!"EHLO x\r\nMAIL FROM:<a>\r\nRCPT TO:<c>\r\nDATA\r\n.\r\nMAIL FROM:<b>\r\nRCPT TO:<c>\r\nRCPT TO:<d>\r\nDATA\r\nhi\r\n.\r\nQUIT\r\n"]
    b!"220 hi\r\n250 x\r\n250 ok\r\n250 ok\r\n354 go\r\n250 taken\r\n250 ok\r\n250 ok\r\n250 ok\r\n354 go\r\n250 taken\r\n221 bye\r\n"
    false [] [] [] [] 0 s h ∧ Spec.Tidy s.log ∧
    ((mailOnly h).filterMap fun | .inl _ => none | .inr r => some r) =
      [⟨.info, b!"F=<a> T=<c>,: 250 taken\r\n"⟩, ⟨.info, b!"F=<b> T=<c>,<d>,: 250 taken\r\n"⟩] := by
  obtain ⟨s, h, h1, h2, h3⟩ := ranL_check (cfg := ⟨none, false, false, []⟩)
    (net := [.data b!"EHLO x\r\nMAIL FROM:<a>\r\nRCPT TO:<c>\r\nDATA\r\n.\r\nMAIL FROM:<b>\r\nRCPT TO:<c>\r\nRCPT TO:<d>\r\nDATA\r\nhi\r\n.\r\nQUIT\r\n"])
    (cin := b!"220 hi\r\n250 x\r\n250 ok\r\n250 ok\r\n354 go\r\n250 taken\r\n250 ok\r\n250 ok\r\n250 ok\r\n354 go\r\n250 taken\r\n221 bye\r\n")
    (tls0 := false) (acks := []) (gin := []) (wr := []) (gwr := []) (x := 0)
    (fun s h => (∀ n, n < s.log.length → ∀ a ∈ s.log[n]?, Spec.TidyStep (Spec.deal (s.log.take n)) a) ∧
      ((mailOnly h).filterMap fun | .inl _ => none | .inr r => some r) =
      [⟨.info, b!"F=<a> T=<c>,: 250 taken\r\n"⟩, ⟨.info, b!"F=<b> T=<c>,<d>,: 250 taken\r\n"⟩]) (by decide +kernel)
  exact ⟨s, h, h1, tidy_of h2, h3⟩

/-- The log does not always tell the truth about accepted messages. A second MAIL command the child refuses
replaces the sender and the recipients; a recipient the child or the greylist server refuses is listed all
the same; and a recipient the child accepts although its command has an unusual form is not listed. -/
theorem c99_false :
    (∃ s h, RanL ⟨none, false, false, []⟩
      [.data b!"MAIL FROM:<a>\r\nRCPT TO:<c>\r\nMAIL FROM:<b>\r\nDATA\r\nhi\r\n.\r\nQUIT\r\n"]
      b!"220 hi\r\n250 ok\r\n250 ok\r\n503 nested\r\n354 go\r\n250 taken\r\n221 bye\r\n" false [] [] [] [] 0 s h ∧
      LieAt (mailOnly h) 24 b!"F=<b> T=" b!"F=<a> T=<c>," b!"250 taken\r\n") ∧
    (∃ s h, RanL ⟨none, false, false, []⟩
      [.data b!"MAIL FROM:<a>\r\nRCPT TO:<c>\r\nRCPT TO:<d>\r\nDATA\r\nhi\r\n.\r\nQUIT\r\n"]
      b!"220 hi\r\n250 ok\r\n250 ok\r\n550 no\r\n354 go\r\n250 taken\r\n221 bye\r\n" false [] [] [] [] 0 s h ∧
      LieAt (mailOnly h) 24 b!"F=<a> T=<c>,<d>," b!"F=<a> T=<c>," b!"250 taken\r\n") ∧
    (∃ s h, RanL ⟨none, true, false, []⟩
      [.data b!"MAIL FROM:<a>\r\nRCPT TO:<c>\r\nRCPT TO:<d>\r\nDATA\r\nhi\r\n.\r\nQUIT\r\n"]
      b!"220 hi\r\n250 ok\r\n250 ok\r\n354 go\r\n250 taken\r\n221 bye\r\n" false []
      [b!"action=dunno\n", b!"action=reject\n"] [] [] 0 s h ∧
      LieAt (mailOnly h) 26 b!"F=<a> T=<c>,<d>," b!"F=<a> T=<c>," b!"250 taken\r\n") ∧
    (∃ s h, RanL ⟨none, false, false, []⟩
      [.data b!"MAIL FROM:<a>\r\nRCPT TO:<c>\r\nRCPT  TO:<d>\r\nDATA\r\nhi\r\n.\r\nQUIT\r\n"]
      b!"220 hi\r\n250 ok\r\n250 ok\r\n250 ok\r\n354 go\r\n250 taken\r\n221 bye\r\n" false [] [] [] [] 0 s h ∧
      LieAt (mailOnly h) 23 b!"F=<a> T=<c>," b!"F=<a> T=<c>,," b!"250 taken\r\n") :=
  ⟨ranL_check _ (by decide +kernel), ranL_check _ (by decide +kernel), ranL_check _ (by decide +kernel),
    ranL_check _ (by decide +kernel)⟩

/-- The full property is false. -/
theorem c99_untrue : ∃ cfg net cin x s h, RanL cfg net cin false [] [] [] [] x s h ∧ ¬ Spec.Truthful (mailOnly h) := by
  obtain ⟨s, h, h1, h2⟩ := c99_false.1
  exact ⟨_, _, _, _, s, h, h1, h2.untrue⟩

/-- With debugging on, passwords are written to the log. -/
theorem c99_password : ∃ s h, RanL ⟨none, false, false, []⟩ [.data b!"AUTH PLAIN AGEAc2VjcmV0\r\nQUIT\r\n"]
    b!"220 hi\r\n235 ok\r\n221 bye\r\n" false [] [] [] [] 0 s h ∧
    (h.filterMap fun | .inl _ => none | .inr r => if r.level = .debug then some r.text else none) =
      [b!"AUTH PLAIN AGEAc2VjcmV0\r\n: 235 ok\r\n", b!"QUIT\r\n: 221 bye\r\n"] :=
  ranL_check _ (by decide +kernel)

end Smtp
