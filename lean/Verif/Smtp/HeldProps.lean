import Verif.Smtp.Held
import Verif.Buffer.Props
/-
C103: nothing is held back while the SMTP front end waits.
-/
namespace Smtp
open Str
open Buffer (OOp orun oinit OBuf)

namespace Spec

/-- The operations for the mail program, in order. -/
def forProgram : List Mark → List OOp
  | [] => []
  | .program o :: h => o :: forProgram h
  | _ :: h => forProgram h

/-- The operations for the client, in order. -/
def forClient : List Mark → List OOp
  | [] => []
  | .client o :: h => o :: forClient h
  | _ :: h => forClient h

/-- The bytes the operations are about. -/
def bytesOf (os : List OOp) : Bytes := (os.map OOp.payload).flatten

/-- What the session says it had for the mail program. -/
def childBytes : List Act → Bytes
  | [] => []
  | .child d :: l => d ++ childBytes l
  | _ :: l => childBytes l

/-- What the session says it had for the client. -/
def clientBytes : List Act → Bytes
  | [] => []
  | .client d :: l => d ++ clientBytes l
  | _ :: l => clientBytes l

/-- The stream `os`, written through a buffer with any storage to any descriptor, is out: if the
operations have succeeded, nothing is left in the buffer and the descriptor has taken all of it. -/
def AllOut (os : List OOp) : Prop := ∀ storage fd b, orun (oinit storage fd) os = .ok (some (0, b)) →
  b.p = 0 ∧ b.fd.out = fd.out ++ bytesOf os

/-- At every wait but those within a message, what was for the mail program is out; what was for the
client always is. -/
def NothingHeld (h : List Mark) : Prop := ∀ h1 w h2, h = h1 ++ .wait w :: h2 →
  (w ≠ .body → AllOut (forProgram h1)) ∧ AllOut (forClient h1)

end Spec

open Spec

theorem forProgram_append (h h' : List Mark) : forProgram (h ++ h') = forProgram h ++ forProgram h' := by
  induction h with
  | nil => rfl
  | cons m h ih => cases m <;> simp [forProgram, ih]

theorem forClient_append (h h' : List Mark) : forClient (h ++ h') = forClient h ++ forClient h' := by
  induction h with
  | nil => rfl
  | cons m h ih => cases m <;> simp [forClient, ih]

theorem childBytes_append (l l' : List Act) : childBytes (l ++ l') = childBytes l ++ childBytes l' := by
  induction l with
  | nil => rfl
  | cons m h ih => cases m <;> simp [childBytes, ih]

theorem clientBytes_append (l l' : List Act) : clientBytes (l ++ l') = clientBytes l ++ clientBytes l' := by
  induction l with
  | nil => rfl
  | cons m h ih => cases m <;> simp [clientBytes, ih]

theorem bytesOf_append (a b : List OOp) : bytesOf (a ++ b) = bytesOf a ++ bytesOf b := by
  simp [bytesOf]

/-! ### The marks change nothing -/

/-- An outcome without its marks. -/
def RH.drop {α : Type} : RH α → R α
  | .ok a s _ => .ok a s
  | .die x s _ => .die x s
  | .ub => .ub

theorem bindH {α β : Type} (m : MH α) (f : α → MH β) (s : S) (h : List Mark) :
    (m >>= f) s h = match m s h with
      | .ok a s h => f a s h
      | .die x s h => .die x s h
      | .ub => .ub := rfl

/-- `m` is `n` with marks. -/
def Marks {α : Type} (m : MH α) (n : M α) : Prop := ∀ s h, (m s h).drop = n s

theorem Marks.up {α : Type} (n : M α) : Marks (upH n) n := by
  intro s h
  unfold upH
  cases n s <;> rfl

theorem Marks.pure {α : Type} (a : α) : Marks (pure a) (pure a) := fun _ _ => rfl

theorem Marks.bind {α β : Type} {m : MH α} {n : M α} {f : α → MH β} {g : α → M β} (h : Marks m n)
    (h' : ∀ a, Marks (f a) (g a)) : Marks (m >>= f) (n >>= g) := by
  intro s hi
  rw [bindH, bind_def]
  have := h s hi
  cases e : m s hi with
  | ok a s1 h1 => rw [e] at this; rw [← this]; exact h' a s1 h1
  | die x s1 h1 => rw [e] at this; rw [← this]; rfl
  | ub => rw [e] at this; rw [← this]; rfl

theorem Marks.mark {α : Type} {k : Mark} {f : Unit → MH α} {g : M α} (h : Marks (f ()) g) :
    Marks (Smtp.mark k >>= f) g := by
  intro s hi
  rw [bindH]
  exact h s _

theorem Marks.ite {α : Type} {c : Prop} [Decidable c] {m m' : MH α} {n n' : M α} (h : Marks m n) (h' : Marks m' n') :
    Marks (if c then m else m') (if c then n else n') := by
  split
  · exact h
  · exact h'

theorem marks_putsflushChild (d : Bytes) : Marks (putsflushChild d) (toChild d) := .mark (.up _)
theorem marks_putsChild (d : Bytes) : Marks (putsChild d) (toChild d) := .mark (.up _)
theorem marks_putsflushClient (d : Bytes) : Marks (putsflushClient d) (toClient d) := .mark (.up _)
theorem marks_smtpline (cfg : Cfg) (a : Option Bytes) (b : Bool) : Marks (smtplineH cfg a b) (smtpline cfg a b) := .mark (.up _)
theorem marks_readline (w : Wait) : Marks (readlineH w) readline := .mark (.up _)

theorem marks_copy (cfg : Cfg) (b : Bool) : Marks (copyH cfg b) (copy cfg b) :=
  (Marks.up _).bind fun s => (marks_putsflushChild _).bind fun _ => (marks_smtpline cfg none b).bind fun code =>
    (Marks.up _).bind fun s => (marks_putsflushClient _).bind fun _ => .pure _

theorem marks_bodyLoop (n : Nat) : Marks (bodyLoopH n) (bodyLoop n) := by
  induction n with
  | zero => exact .up _
  | succ n ih =>
    exact (marks_readline _).bind fun _ => (Marks.up _).bind fun s => (marks_putsChild _).bind fun _ =>
      (Marks.up _).bind fun _ => (Marks.up _).bind fun s => .ite (.pure _) ih

theorem marks_data (cfg : Cfg) : Marks (dataH cfg) (smtpData cfg) :=
  (Marks.up _).bind fun s => (marks_putsflushChild _).bind fun _ => (marks_smtpline cfg none true).bind fun code =>
    (Marks.up _).bind fun s => (marks_putsflushClient _).bind fun _ => .ite (.pure _)
      ((Marks.up _).bind fun s => (marks_bodyLoop _).bind fun _ => .mark ((marks_smtpline cfg none true).bind fun code =>
        (Marks.up _).bind fun s => (marks_putsflushClient _).bind fun _ => .up _))

theorem marks_mail (cfg : Cfg) : Marks (mailH cfg) (smtpMail cfg) := by
  rw [mail_split]
  exact (Marks.up _).bind fun _ => (marks_copy cfg true).bind fun _ => .pure _

theorem marks_rcpt (cfg : Cfg) : Marks (rcptH cfg) (smtpRcpt cfg) := by
  refine (Marks.up _).bind fun _ => (Marks.up _).bind fun s => ?_
  have key : ∀ msg, Marks (match msg with
      | some msg => do
        upH (modify fun s => { s with cline := catlogid cfg msg ++ b!"\r\n" })
        let s ← upH get
        putsflushClient s.cline
      | none => do
        let _ ← copyH cfg true) (match msg with
      | some msg => do
        modify fun s => { s with cline := catlogid cfg msg ++ b!"\r\n" }
        let s ← get
        toClient s.cline
      | none => do
        let _ ← copy cfg true) := by
    intro msg
    cases msg with
    | some msg => exact (Marks.up _).bind fun _ => (Marks.up _).bind fun s => marks_putsflushClient _
    | none => exact (marks_copy cfg true).bind fun code => .pure _
  exact .ite (Marks.bind (.mark (.up _)) key) (Marks.bind (.pure none) key)

theorem marks_starttls (cfg : Cfg) : Marks (starttlsH cfg) (smtpStarttls cfg) :=
  (Marks.up _).bind fun s => .ite
    ((Marks.up _).bind fun _ => (Marks.up _).bind fun s => marks_putsflushClient _)
    ((Marks.up _).bind fun _ => (Marks.up _).bind fun s => (marks_putsflushClient _).bind fun _ => (Marks.up _).bind fun _ =>
      (Marks.up _).bind fun _ => (Marks.up _).bind fun _ => (Marks.up _).bind fun _ =>
      (Marks.mark (.up _) : Marks readAckH readAck).bind fun _ =>
      (marks_putsflushChild _).bind fun _ => (marks_smtpline cfg none true).bind fun _ => .up _)

theorem marks_run (cfg : Cfg) (v : Verb) : Marks (runH cfg v) (run cfg v) := by
  cases v with
  | quit => exact (marks_copy cfg true).bind fun _ => .up _
  | data => exact marks_data cfg
  | mail => exact marks_mail cfg
  | rcpt => exact marks_rcpt cfg
  | ehlo =>
    exact (Marks.up _).bind fun s => (marks_putsflushChild _).bind fun _ => (marks_smtpline cfg _ false).bind fun _ =>
      (Marks.up _).bind fun s => marks_putsflushClient _
  | starttls => exact marks_starttls cfg
  | default => exact (marks_copy cfg false).bind fun _ => .pure _

theorem marks_commands (cfg : Cfg) (n : Nat) : Marks (commandsH cfg n) (commands cfg n) := by
  induction n with
  | zero => exact .pure _
  | succ n ih =>
    exact Marks.bind ((marks_readline _).bind fun _ => (Marks.up _).bind fun s => (Marks.up _).bind fun v => marks_run cfg v)
      fun _ => ih

theorem marks_session (cfg : Cfg) : Marks (sessionH cfg) (session cfg) :=
  Marks.bind ((marks_smtpline cfg none true).bind fun _ => (Marks.up _).bind fun s => marks_putsflushClient _) fun _ =>
    (Marks.up _).bind fun s => marks_commands cfg _

/-! ### Code that writes to neither -/

/-- The log holds the same bytes for the mail program and the client. -/
def Same (s s' : S) : Prop := childBytes s'.log = childBytes s.log ∧ clientBytes s'.log = clientBytes s.log

/-- `m` has nothing for the mail program or the client, and ends the session with 111 if it does. -/
def Mute {α : Type} (m : M α) : Prop := ∀ s, match m s with
  | .ok _ s' => Same s s'
  | .die x s' => x = 111 ∧ Same s s'
  | .ub => True

theorem Same.trans {a b c : S} (h : Same a b) (h' : Same b c) : Same a c := ⟨h'.1.trans h.1, h'.2.trans h.2⟩

theorem Mute.bind {α β : Type} {m : M α} {f : α → M β} (h : Mute m) (h' : ∀ a, Mute (f a)) : Mute (m >>= f) := by
  intro s
  have k := h s
  rw [bind_def]
  cases e : m s with
  | ok a s1 =>
    rw [e] at k
    have k' := h' a s1
    simp only at k k' ⊢
    cases e' : f a s1 with
    | ok b s2 => rw [e'] at k'; exact k.trans k'
    | die x s2 => rw [e'] at k'; exact ⟨k'.1, k.trans k'.2⟩
    | ub => trivial
  | die x s1 => rw [e] at k; exact k
  | ub => trivial

theorem Mute.pure {α : Type} (a : α) : Mute (pure a : M α) := fun _ => ⟨rfl, rfl⟩
theorem Mute.get : Mute get := fun _ => ⟨rfl, rfl⟩
theorem Mute.modify {g : S → S} (h : ∀ s, (g s).log = s.log) : Mute (Smtp.modify g) := fun s => by
  simp only [modify_def, Same, h]; trivial
theorem Mute.die {α : Type} : Mute (die 111 : M α) := fun _ => ⟨rfl, rfl, rfl⟩
theorem Mute.ite {α : Type} {c : Prop} [Decidable c] {a b : M α} (h : Mute a) (h' : Mute b) : Mute (if c then a else b) := by
  split
  · exact h
  · exact h'
theorem Mute.lift {α : Type} (x : Out α) : Mute (Smtp.lift x) := fun s => by
  cases x with
  | ok a => exact ⟨rfl, rfl⟩
  | ub => trivial
theorem Mute.act {a : Act} (h : childBytes [a] = [] ∧ clientBytes [a] = []) : Mute (Smtp.act a) := fun s => by
  simp only [act_def, Same, childBytes_append, clientBytes_append, h.1, h.2, List.append_nil, and_self]

theorem mute_write : Mute write := by
  intro s
  have : write s = match s.wr with
    | false :: t => .die 111 { s with wr := t }
    | true :: t => .ok () { s with wr := t }
    | [] => .ok () s := rfl
  rw [this]
  rcases s.wr with _ | ⟨_ | _, t⟩
  · exact ⟨rfl, rfl⟩
  · exact ⟨rfl, rfl, rfl⟩
  · exact ⟨rfl, rfl⟩

theorem mute_getc : Mute getc := by
  intro s
  have : getc s = match s.buf with
    | b :: d => .ok b { s with buf := d }
    | [] => match refill s.net with
      | some (b, d, t) => .ok b { s with buf := d, net := t }
      | none => .die 111 s := rfl
  rw [this]
  rcases s.buf with _ | ⟨b, d⟩
  · rcases refill s.net with _ | ⟨b, d, t⟩
    · exact ⟨rfl, rfl, rfl⟩
    · exact ⟨rfl, rfl⟩
  · exact ⟨rfl, rfl⟩

theorem mute_cgetc : Mute cgetc := by
  intro s
  have : cgetc s = match s.cin with
    | b :: t => .ok b { s with cin := t }
    | [] => .die 111 s := rfl
  rw [this]
  rcases s.cin with _ | ⟨b, d⟩
  · exact ⟨rfl, rfl, rfl⟩
  · exact ⟨rfl, rfl⟩

theorem mute_lineAppend (ch : Byte) : Mute (lineAppend ch) :=
  .bind .get fun _ => .ite (.bind .die fun _ => .modify (by intro _; rfl)) (.modify (by intro _; rfl))
theorem mute_clineAppend (ch : Byte) : Mute (clineAppend ch) :=
  .bind .get fun _ => .ite (.bind .die fun _ => .modify (by intro _; rfl)) (.modify (by intro _; rfl))

theorem mute_readlineLoop (n : Nat) : ∀ raw, Mute (readlineLoop n raw) := by
  induction n with
  | zero => exact fun _ => .die
  | succ n ih =>
    exact fun raw => mute_getc.bind fun ch => .ite (.act ⟨rfl, rfl⟩) ((mute_lineAppend _).bind fun _ => ih _)

theorem mute_readline : Mute readline :=
  .bind (.modify (by intro _; rfl)) fun _ => .bind .get fun s => (mute_readlineLoop _ _).bind fun _ => .modify (by intro _; rfl)

theorem mute_restOfLine (n : Nat) : ∀ ch, Mute (restOfLine n ch) := by
  induction n with
  | zero => exact fun _ => .die
  | succ n ih => exact fun ch => .ite (.pure _) (mute_cgetc.bind fun c => (mute_clineAppend c).bind fun _ => ih c)

theorem mute_cread : Mute cread := mute_cgetc.bind fun ch => (mute_clineAppend ch).bind fun _ => .pure _

theorem mute_replyLoop (append : Bool) (code n : Nat) : Mute (replyLoop append code n) := by
  induction n with
  | zero => exact .die
  | succ n ih =>
    rw [replyLoop_succ]
    exact mute_cgetc.bind fun ch => (mute_clineAppend _).bind fun _ => .ite (.pure _)
      (Mute.get.bind fun s => (mute_restOfLine _ _).bind fun _ => mute_cread.bind fun _ => mute_cread.bind fun _ =>
        mute_cread.bind fun _ => ih)

theorem mute_finish (cfg : Cfg) (append : Option Bytes) (addlogid : Bool) (code : Nat) :
    Mute (finish cfg append addlogid code) := by
  intro s
  unfold finish
  rcases append with _ | a <;> simp only [bind_def, get_def, pure_def, modify_def, ite_app, die_def]
  · by_cases h1 : addlogid = true ∧ cfg.id.isSome = true
    · simp only [h1, if_true]; exact ⟨rfl, rfl⟩
    · simp only [h1, if_false]; exact ⟨rfl, rfl⟩
  · by_cases h1 : addlogid = true ∧ cfg.id.isSome = true <;> by_cases h2 : code = 250 <;>
      by_cases h3 : s.cline.length + a.length > maxLine
    all_goals simp only [h1, h2, h3, if_true, if_false]
    all_goals first | exact ⟨rfl, rfl⟩ | exact ⟨rfl, rfl, rfl⟩ | exact ⟨trivial, rfl, rfl⟩

theorem mute_smtpline (cfg : Cfg) (append : Option Bytes) (addlogid : Bool) : Mute (smtpline cfg append addlogid) := by
  rw [smtpline_eq]
  refine Mute.bind (.modify (by intro _; rfl)) fun _ => Mute.get.bind fun s0 => mute_cread.bind fun _ => mute_cread.bind fun _ =>
    mute_cread.bind fun _ => Mute.get.bind fun s => (mute_replyLoop _ _ _).bind fun ch => Mute.get.bind fun s =>
    (mute_restOfLine _ _).bind fun _ => Mute.bind (fun s => ?_) fun _ => mute_finish _ _ _ _
  simp [modify_def, Same, childBytes_append, clientBytes_append, childBytes, clientBytes]

theorem mute_reset : Mute resetTransaction := .modify (by intro _; rfl)

theorem mute_rememberMail : Mute rememberMail :=
  mute_reset.bind fun _ => Mute.get.bind fun _ => .ite (Mute.bind (.lift _) fun _ => .ite
    (.ite (.bind .die fun _ => .modify (by intro _; rfl)) (.modify (by intro _; rfl))) (.pure _)) (.pure _)

theorem mute_rememberRcpt : Mute rememberRcpt := by
  have k {f : S → S} (h : ∀ s, (f s).log = s.log) {c : Prop} [Decidable c] :
      Mute (if c then (die 111 : M Unit) >>= fun _ => modify f else modify f) :=
    .ite (.bind .die fun _ => .modify h) (.modify h)
  exact Mute.get.bind fun _ => .ite (Mute.bind (.lift _) fun _ => .ite
    (.ite (.bind .die fun _ => .ite (.bind .die fun _ => k (by intro _; rfl)) (k (by intro _; rfl)))
      (.ite (.bind .die fun _ => k (by intro _; rfl)) (k (by intro _; rfl)))) (.pure _)) (.pure _)

theorem mute_greyWrite (cfg : Cfg) : Mute (greyWrite cfg) := by
  intro s
  have : greyWrite cfg s = match s.gwr with
    | false :: t => if cfg.closed then .die 111 { s with gwr := t } else .ok false { s with gwr := t }
    | true :: t => .ok true { s with gwr := t }
    | [] => .ok true s := rfl
  rw [this]
  rcases s.gwr with _ | ⟨_ | _, t⟩
  · exact ⟨rfl, rfl⟩
  · cases cfg.closed
    · exact ⟨rfl, rfl⟩
    · exact ⟨rfl, rfl, rfl⟩
  · exact ⟨rfl, rfl⟩

theorem mute_greyRead (cfg : Cfg) (n : Nat) : ∀ buf resp, Mute (greyRead cfg n buf resp) := by
  induction n with
  | zero => exact fun _ _ => .die
  | succ n ih =>
    intro buf resp
    refine Mute.get.bind fun s => ?_
    have hm (t : List Bytes) : Mute (modify fun s => { s with gin := t }) := .modify (by intro _; rfl)
    rcases buf with _ | ⟨ch, buf⟩
    · rcases s.gin with _ | ⟨_ | ⟨b, d⟩, t⟩
      · exact .ite .die (.pure _)
      · exact (hm t).bind fun _ => .ite .die (.pure _)
      · exact (hm t).bind fun _ => ih _ _
    · have : Mute (if resp.length ≥ maxLine then do
            act (.answer resp)
            pure none
          else if ch = c! '\n' then pure (some (resp ++ [ch]))
          else greyRead cfg n buf (resp ++ [ch])) :=
        .ite (Mute.bind (.act ⟨rfl, rfl⟩) fun _ => .pure _) (.ite (.pure _) (ih _ _))
      exact this

theorem mute_greylist (cfg : Cfg) : Mute (greylist cfg) := by
  refine Mute.get.bind fun s => (mute_greyWrite cfg).bind fun ok => .ite (.pure _) (Mute.bind (.act ⟨rfl, rfl⟩) fun _ =>
    (mute_greyRead cfg _ _ _).bind fun r => ?_)
  cases r with
  | none => exact .pure _
  | some resp =>
    exact Mute.bind (.act ⟨rfl, rfl⟩) fun _ => (Mute.lift _).bind fun b => .ite (.pure _)
      ((Mute.lift _).bind fun b => .ite (.pure _) (.pure _))

theorem mute_discard : Mute discard := by
  intro s
  have : discard s = match drain s.net with
    | some t => .ok () { s with buf := [], net := t, log := s.log ++ [.discard (evStream t).length] }
    | none => .die 111 { s with buf := [] } := rfl
  rw [this]
  cases drain s.net with
  | none => exact ⟨rfl, rfl, rfl⟩
  | some t => simp [Same, childBytes_append, clientBytes_append, childBytes, clientBytes]

theorem mute_readAck : Mute readAck := by
  intro s
  have : readAck s = match s.acks with
    | b :: t => if b = 0 then .ok () { s with acks := t, log := s.log ++ [.ack b] } else .die 111 { s with acks := t, log := s.log ++ [.ack b] }
    | [] => .die 111 s := rfl
  rw [this]
  rcases s.acks with _ | ⟨b, t⟩
  · exact ⟨rfl, rfl, rfl⟩
  · by_cases hb : b = 0
    · simp [hb, Same, childBytes_append, clientBytes_append, childBytes, clientBytes]
    · simp [hb, Same, childBytes_append, clientBytes_append, childBytes, clientBytes]

/-! ### The invariant -/

/-- No operation, or the last one flushes. -/
def Flushed (os : List OOp) : Prop := ∀ l o, os = l ++ [o] → o.flushes = true

theorem Flushed.allOut {os : List OOp} (h : Flushed os) (ho : ∀ o ∈ os, o.ok) : AllOut os := by
  intro storage fd b hr
  rcases List.eq_nil_or_concat os with rfl | ⟨l, o, rfl⟩
  · cases hr
    exact ⟨rfl, by simp [bytesOf, oinit]⟩
  · rw [List.concat_eq_append] at h ho hr ⊢
    exact Buffer.c19_flush storage fd l o ho (h l o rfl) b hr

/-- While the session goes on; `settled`: nothing is in the buffer for the mail program. -/
structure Live (settled : Bool) (s : S) (h : List Mark) : Prop where
  held : NothingHeld h
  okP : ∀ o ∈ forProgram h, o.ok
  okC : ∀ o ∈ forClient h, o.ok
  child : bytesOf (forProgram h) = childBytes s.log
  client : bytesOf (forClient h) = clientBytes s.log
  outC : Flushed (forClient h)
  outP : settled = true → Flushed (forProgram h)

/-- When it has ended: what was put last may not have been written. -/
structure Over (x : Int) (s : S) (h : List Mark) : Prop where
  held : NothingHeld h
  okP : ∀ o ∈ forProgram h, o.ok
  okC : ∀ o ∈ forClient h, o.ok
  child : childBytes s.log <+: bytesOf (forProgram h)
  client : clientBytes s.log <+: bytesOf (forClient h)
  code : x = 111 ∨ x = 0 ∧ bytesOf (forProgram h) = childBytes s.log ∧ bytesOf (forClient h) = clientBytes s.log ∧
    Flushed (forProgram h) ∧ Flushed (forClient h)

/-- What holds after `m`. -/
def Holds {α : Type} (p : Bool) (m : MH α) (q : Bool) : Prop := ∀ s h, Live p s h → match m s h with
  | .ok _ s h => Live q s h
  | .die x s h => Over x s h
  | .ub => True

theorem Live.any {p : Bool} {s : S} {h : List Mark} (k : Live p s h) : Live false s h :=
  ⟨k.held, k.okP, k.okC, k.child, k.client, k.outC, fun e => nomatch e⟩

theorem Live.over {p : Bool} {s s' : S} {h : List Mark} (k : Live p s h) (e : Same s s') : Over 111 s' h :=
  ⟨k.held, k.okP, k.okC, by rw [k.child, e.1]; exact List.prefix_rfl, by rw [k.client, e.2]; exact List.prefix_rfl, .inl rfl⟩

theorem Holds.bind {α β : Type} {p q r : Bool} {m : MH α} {f : α → MH β} (h : Holds p m q) (h' : ∀ a, Holds q (f a) r) :
    Holds p (m >>= f) r := by
  intro s hi k
  have := h s hi k
  rw [bindH]
  cases e : m s hi with
  | ok a s1 h1 => rw [e] at this; exact h' a s1 h1 this
  | die x s1 h1 => rw [e] at this; exact this
  | ub => trivial

theorem Holds.pure {α : Type} {p : Bool} (a : α) : Holds p (pure a) p := fun _ _ k => k

theorem Holds.ite {α : Type} {p q : Bool} {c : Prop} [Decidable c] {m m' : MH α} (h : Holds p m q) (h' : Holds p m' q) :
    Holds p (if c then m else m') q := by
  split
  · exact h
  · exact h'

theorem Holds.weak {α : Type} {p : Bool} {m : MH α} (h : Holds false m p) : Holds true m p := fun s hi k => h s hi k.any

theorem Holds.up {α : Type} {p : Bool} {n : M α} (h : Mute n) : Holds p (upH n) p := by
  intro s hi k
  have := h s
  unfold upH
  cases e : n s with
  | ok a s1 =>
    rw [e] at this
    exact ⟨k.held, k.okP, k.okC, by rw [k.child, this.1], by rw [k.client, this.2], k.outC, k.outP⟩
  | die x s1 =>
    rw [e] at this
    obtain ⟨rfl, this⟩ := this
    exact k.over this
  | ub => trivial

theorem NothingHeld.snoc {h : List Mark} {m : Mark} (k : NothingHeld h)
    (k' : ∀ w, m = .wait w → (w ≠ .body → AllOut (forProgram h)) ∧ AllOut (forClient h)) : NothingHeld (h ++ [m]) := by
  intro h1 w h2 e
  rcases List.eq_nil_or_concat h2 with rfl | ⟨t, x, rfl⟩
  · have := List.append_inj' e rfl
    obtain ⟨rfl, e2⟩ := this
    exact k' w (by simpa using e2)
  · rw [List.concat_eq_append, ← List.cons_append, ← List.append_assoc] at e
    obtain ⟨rfl, -⟩ := List.append_inj' e rfl
    exact k h1 w t rfl

theorem Holds.wait (w : Wait) {p : Bool} (hp : w = .body ∨ p = true) : Holds p (mark (.wait w)) p := by
  intro s h k
  refine ⟨NothingHeld.snoc k.held ?_, ?_, ?_, ?_, ?_, ?_, ?_⟩
  · intro w' e
    cases e
    refine ⟨fun hw => ?_, k.outC.allOut k.okC⟩
    rcases hp with rfl | hp
    · exact absurd rfl hw
    · exact (k.outP hp).allOut k.okP
  all_goals simp only [forProgram_append, forClient_append, forProgram, forClient, List.append_nil]
  · exact k.okP
  · exact k.okC
  · exact k.child
  · exact k.client
  · exact k.outC
  · exact k.outP

theorem noNul_upToNul (d : Bytes) : NoNul (upToNul d) := by
  have : ∀ l : Bytes, ∀ b ∈ l.takeWhile (· ≠ 0), b ≠ 0 := by
    intro l
    induction l with
    | nil => simp
    | cons x l ih =>
      intro b hb
      rw [List.takeWhile_cons] at hb
      split at hb
      · rename_i hx
        rcases List.mem_cons.1 hb with rfl | hb
        · simpa using hx
        · exact ih b hb
      · simp at hb
  exact this d

theorem flushed_snoc (l : List OOp) (o : OOp) (h : o.flushes = true) : Flushed (l ++ [o]) := by
  intro l' o' e
  obtain ⟨-, e2⟩ := List.append_inj' e rfl
  cases e2
  exact h

/-- Putting bytes for the mail program. -/
theorem holds_child {p q : Bool} (o : OOp) (d : Bytes) (ho : o.ok) (hd : o.payload = upToNul d) (hq : q = true → o.flushes = true) :
    Holds p (mark (.program o) >>= fun _ => upH (toChild d)) q := by
  intro s h k
  have hh : NothingHeld (h ++ [.program o]) := NothingHeld.snoc k.held (fun w e => nomatch e)
  have hP : forProgram (h ++ [.program o]) = forProgram h ++ [o] := by simp [forProgram_append, forProgram]
  have hC : forClient (h ++ [.program o]) = forClient h := by simp [forClient_append, forClient]
  have hb : bytesOf (forProgram h ++ [o]) = childBytes s.log ++ upToNul d := by
    rw [bytesOf_append, k.child]; simp [bytesOf, hd]
  have okP : ∀ x ∈ forProgram h ++ [o], x.ok := by
    intro x hx
    rcases List.mem_append.1 hx with hx | hx
    · exact k.okP x hx
    · rw [List.mem_singleton.1 hx]; exact ho
  have hw := mute_write s
  have e : (mark (.program o) >>= fun _ => upH (toChild d)) s h = match write s with
      | .ok _ s1 => .ok () { s1 with log := s1.log ++ [.child (upToNul d)] } (h ++ [.program o])
      | .die x s1 => .die x s1 (h ++ [.program o])
      | .ub => .ub := by
    rw [bindH]
    simp only [mark, upH, toChild, bind_def]
    cases write s <;> rfl
  rw [e]
  cases hws : write s with
  | ok a s1 =>
    rw [hws] at hw
    refine ⟨hh, by rwa [hP], by rw [hC]; exact k.okC, ?_, ?_, by rw [hC]; exact k.outC, fun hqt => ?_⟩
    · rw [hP, hb]; simp [childBytes_append, childBytes, hw.1]
    · rw [hC, k.client]; simp [clientBytes_append, clientBytes, hw.2]
    · rw [hP]; exact flushed_snoc _ _ (hq hqt)
  | die x s1 =>
    rw [hws] at hw
    obtain ⟨rfl, hw⟩ := hw
    refine ⟨hh, by rwa [hP], by rw [hC]; exact k.okC, ?_, ?_, .inl rfl⟩
    · rw [hP, hb, hw.1]; exact List.prefix_append _ _
    · rw [hC, k.client, hw.2]; exact List.prefix_rfl
  | ub => trivial

theorem holds_client {p : Bool} (d : Bytes) : Holds p (putsflushClient d) p := by
  intro s h k
  have hh : NothingHeld (h ++ [.client (.putsflush (upToNul d) [])]) := NothingHeld.snoc k.held (fun w e => nomatch e)
  have hP : forProgram (h ++ [.client (.putsflush (upToNul d) [])]) = forProgram h := by simp [forProgram_append, forProgram]
  have hC : forClient (h ++ [.client (.putsflush (upToNul d) [])]) = forClient h ++ [.putsflush (upToNul d) []] := by
    simp [forClient_append, forClient]
  have hb : bytesOf (forClient h ++ [.putsflush (upToNul d) []]) = clientBytes s.log ++ upToNul d := by
    rw [bytesOf_append, k.client]; simp [bytesOf, OOp.payload]
  have okC : ∀ x ∈ forClient h ++ [.putsflush (upToNul d) []], x.ok := by
    intro x hx
    rcases List.mem_append.1 hx with hx | hx
    · exact k.okC x hx
    · rw [List.mem_singleton.1 hx]; exact noNul_upToNul d
  have hw := mute_write s
  have e : putsflushClient d s h = match write s with
      | .ok _ s1 => .ok () { s1 with log := s1.log ++ [.client (upToNul d)] } (h ++ [.client (.putsflush (upToNul d) [])])
      | .die x s1 => .die x s1 (h ++ [.client (.putsflush (upToNul d) [])])
      | .ub => .ub := by
    rw [putsflushClient, bindH]
    simp only [mark, upH, toClient, bind_def]
    cases write s <;> rfl
  rw [e]
  cases hws : write s with
  | ok a s1 =>
    rw [hws] at hw
    refine ⟨hh, by rw [hP]; exact k.okP, by rwa [hC], ?_, ?_, by rw [hC]; exact flushed_snoc _ _ rfl, fun hqt => ?_⟩
    · rw [hP, k.child]; simp [childBytes_append, childBytes, hw.1]
    · rw [hC, hb]; simp [clientBytes_append, clientBytes, hw.2]
    · rw [hP]; exact k.outP hqt
  | die x s1 =>
    rw [hws] at hw
    obtain ⟨rfl, hw⟩ := hw
    refine ⟨hh, by rw [hP]; exact k.okP, by rwa [hC], ?_, ?_, .inl rfl⟩
    · rw [hP, k.child, hw.1]; exact List.prefix_rfl
    · rw [hC, hb, hw.2]; exact List.prefix_append _ _
  | ub => trivial

theorem holds_putsflush {p : Bool} (d : Bytes) : Holds p (putsflushChild d) true :=
  holds_child _ d (noNul_upToNul d) rfl (fun _ => rfl)
theorem holds_puts {p : Bool} (d : Bytes) : Holds p (putsChild d) false :=
  holds_child _ d (noNul_upToNul d) rfl (fun e => nomatch e)

theorem holds_flush {p : Bool} : Holds p flushChild true := by
  intro s h k
  have hP : forProgram (h ++ [.program .flush]) = forProgram h ++ [.flush] := by simp [forProgram_append, forProgram]
  have hC : forClient (h ++ [.program .flush]) = forClient h := by simp [forClient_append, forClient]
  refine ⟨NothingHeld.snoc k.held (fun w e => nomatch e), ?_, by rw [hC]; exact k.okC, ?_, by rw [hC]; exact k.client,
    by rw [hC]; exact k.outC, fun _ => by rw [hP]; exact flushed_snoc _ _ rfl⟩
  · rw [hP]
    intro x hx
    rcases List.mem_append.1 hx with hx | hx
    · exact k.okP x hx
    · rw [List.mem_singleton.1 hx]; trivial
  · rw [hP, bytesOf_append, k.child]; simp [bytesOf, OOp.payload]

theorem holds_smtpline (cfg : Cfg) (a : Option Bytes) (b : Bool) : Holds true (smtplineH cfg a b) true :=
  (Holds.wait .reply (.inr rfl)).bind fun _ => .up (mute_smtpline cfg a b)

theorem holds_copy (cfg : Cfg) (b : Bool) : Holds true (copyH cfg b) true :=
  (Holds.up Mute.get).bind fun s => (holds_putsflush _).bind fun _ => (holds_smtpline cfg none b).bind fun code =>
    (Holds.up Mute.get).bind fun s => (holds_client _).bind fun _ => .pure _

theorem holds_bodyLoop (n : Nat) : Holds false (bodyLoopH n) false := by
  induction n with
  | zero => exact .up .die
  | succ n ih =>
    exact Holds.bind ((Holds.wait .body (.inl rfl)).bind fun _ => .up mute_readline) fun _ => (Holds.up Mute.get).bind fun s =>
      (holds_puts _).bind fun _ => (Holds.up (.modify (by intro _; rfl))).bind fun _ => (Holds.up Mute.get).bind fun s =>
      .ite (.pure _) ih

theorem holds_data (cfg : Cfg) : Holds true (dataH cfg) true :=
  (Holds.up Mute.get).bind fun s => (holds_putsflush _).bind fun _ => (holds_smtpline cfg none true).bind fun code =>
    (Holds.up Mute.get).bind fun s => (holds_client _).bind fun _ => .ite (.pure _)
      ((Holds.up Mute.get).bind fun s => (Holds.weak (holds_bodyLoop _)).bind fun _ => holds_flush.bind fun _ =>
        (holds_smtpline cfg none true).bind fun code =>
        (Holds.up Mute.get).bind fun s => (holds_client _).bind fun _ => .up mute_reset)

theorem holds_quit (cfg : Cfg) : Holds true (quitH cfg) true := by
  refine (holds_copy cfg true).bind fun _ => ?_
  intro s h k
  exact ⟨k.held, k.okP, k.okC, by rw [k.child]; exact List.prefix_rfl, by rw [k.client]; exact List.prefix_rfl,
    .inr ⟨rfl, k.child, k.client, k.outP rfl, k.outC⟩⟩

theorem holds_rcpt (cfg : Cfg) : Holds true (rcptH cfg) true := by
  refine (Holds.up mute_rememberRcpt).bind fun _ => (Holds.up Mute.get).bind fun s => ?_
  have key : ∀ msg, Holds true (match msg with
      | some msg => do
        upH (modify fun s => { s with cline := catlogid cfg msg ++ b!"\r\n" })
        let s ← upH get
        putsflushClient s.cline
      | none => do
        let _ ← copyH cfg true) true := by
    intro msg
    cases msg with
    | some msg => exact (Holds.up (.modify (by intro _; rfl))).bind fun _ => (Holds.up Mute.get).bind fun s => holds_client _
    | none => exact (holds_copy cfg true).bind fun code => .pure _
  exact .ite (Holds.bind ((Holds.wait .answer (.inr rfl)).bind fun _ => .up (mute_greylist cfg)) key) (Holds.bind (.pure none) key)

theorem holds_starttls (cfg : Cfg) : Holds true (starttlsH cfg) true :=
  (Holds.up Mute.get).bind fun s => .ite
    ((Holds.up (.modify (by intro _; rfl))).bind fun _ => (Holds.up Mute.get).bind fun s => holds_client _)
    ((Holds.up (.modify (by intro _; rfl))).bind fun _ => (Holds.up Mute.get).bind fun s => (holds_client _).bind fun _ =>
      (Holds.up mute_write).bind fun _ => (Holds.up (.act ⟨rfl, rfl⟩)).bind fun _ => (Holds.up (.modify (by intro _; rfl))).bind fun _ =>
      (Holds.up mute_discard).bind fun _ => Holds.bind ((Holds.wait .ack (.inr rfl)).bind fun _ => .up mute_readAck) fun _ =>
      (holds_putsflush _).bind fun _ => (holds_smtpline cfg none true).bind fun _ => .up mute_reset)

theorem holds_run (cfg : Cfg) (v : Verb) : Holds true (runH cfg v) true := by
  cases v with
  | quit => exact holds_quit cfg
  | data => exact holds_data cfg
  | mail => exact (Holds.up mute_rememberMail).bind fun _ => (holds_copy cfg true).bind fun _ => .pure _
  | rcpt => exact holds_rcpt cfg
  | ehlo =>
    exact (Holds.up Mute.get).bind fun s => (holds_putsflush _).bind fun _ => (holds_smtpline cfg _ false).bind fun _ =>
      (Holds.up Mute.get).bind fun s => holds_client _
  | starttls => exact holds_starttls cfg
  | default => exact (holds_copy cfg false).bind fun _ => .pure _

theorem holds_commands (cfg : Cfg) (n : Nat) : Holds true (commandsH cfg n) true := by
  induction n with
  | zero => exact .pure _
  | succ n ih =>
    exact Holds.bind (Holds.bind ((Holds.wait .command (.inr rfl)).bind fun _ => .up mute_readline) fun _ =>
      (Holds.up Mute.get).bind fun s => (Holds.up (.lift _)).bind fun v => holds_run cfg v) fun _ => ih

theorem holds_session (cfg : Cfg) : Holds true (sessionH cfg) true :=
  Holds.bind ((holds_smtpline cfg none true).bind fun _ => (Holds.up Mute.get).bind fun s => holds_client _) fun _ =>
    (Holds.up Mute.get).bind fun s => holds_commands cfg _

/-! ### C103 -/

/-- The marks of an outcome. -/
def RH.marks {α : Type} : RH α → List Mark
  | .ok _ _ h => h
  | .die _ _ h => h
  | .ub => []

theorem session_held (cfg : Cfg) (net : List Ev) (cin : Bytes) (ctl : Bool) (acks : Bytes) (gin : List Bytes) (wr gwr : List Bool) :
    match sessionH cfg (start net cin ctl acks gin wr gwr) [] with
    | .ok _ s h => Live true s h
    | .die x s h => Over x s h
    | .ub => True := by
  have h0 : Live true (start net cin ctl acks gin wr gwr) [] :=
    ⟨(fun h1 w h2 e => by simp at e), (fun o ho => nomatch ho), (fun o ho => nomatch ho), rfl, rfl,
      (fun l o e => by simp [forClient] at e), (fun _ l o e => by simp [forProgram] at e)⟩
  have := holds_session cfg _ _ h0
  cases e : sessionH cfg (start net cin ctl acks gin wr gwr) [] with
  | ok a s h => rw [e] at this; exact this
  | die x s h => rw [e] at this; exact this
  | ub => trivial

/-- **C103 (the same session).** The session with its buffer operations is the session of the other
properties. -/
theorem c103_same (cfg : Cfg) (s : S) (h : List Mark) : (sessionH cfg s h).drop = session cfg s := marks_session cfg s h

/-- **C103.** Whenever the front end waits, what was for the client has left it; whenever it waits
for anything but the next line of a message, what was for the mail program has left it too: for
every size of the buffers and every behaviour of the descriptors. -/
theorem c103_nothing_held (cfg : Cfg) (net : List Ev) (cin : Bytes) (ctl : Bool) (acks : Bytes) (gin : List Bytes)
    (wr gwr : List Bool) : NothingHeld (sessionH cfg (start net cin ctl acks gin wr gwr) []).marks := by
  have := session_held cfg net cin ctl acks gin wr gwr
  cases e : sessionH cfg (start net cin ctl acks gin wr gwr) [] with
  | ok a s h => rw [e] at this; exact this.held
  | die x s h => rw [e] at this; exact this.held
  | ub => intro h1 w h2 e; simp [RH.marks] at e

theorem prefix_ok {h h1 h2 : List Mark} (e : h = h1 ++ h2) :
    ((∀ o ∈ forProgram h, o.ok) → ∀ o ∈ forProgram h1, o.ok) ∧ ((∀ o ∈ forClient h, o.ok) → ∀ o ∈ forClient h1, o.ok) := by
  subst e
  rw [forProgram_append, forClient_append]
  exact ⟨fun k o ho => k o (List.mem_append_left _ ho), fun k o ho => k o (List.mem_append_left _ ho)⟩

/-- **C103 (at every moment).** At every moment of a session, what the mail program has been sent
and what the client has been sent are beginnings of what was for them, and the rest is in the
buffer; if a descriptor fails, what went out is a beginning of it, too. -/
theorem c103_prefix (cfg : Cfg) (net : List Ev) (cin : Bytes) (ctl : Bool) (acks : Bytes) (gin : List Bytes)
    (wr gwr : List Bool) (h1 h2 : List Mark) (e : (sessionH cfg (start net cin ctl acks gin wr gwr) []).marks = h1 ++ h2)
    (os : List OOp) (hos : os = forProgram h1 ∨ os = forClient h1) (storage : Bytes) (fd : Io.WFd) :
    orun (oinit storage fd) os = .ok none ∨ ∃ r b, orun (oinit storage fd) os = .ok (some (r, b)) ∧
      b.p ≤ storage.length ∧
      ((r = 0 ∧ b.fd.out ++ b.x.take b.p = fd.out ++ bytesOf os) ∨
       (r = -1 ∧ ∃ p q, bytesOf os = p ++ q ∧ q ≠ [] ∧ b.fd.out = fd.out ++ p)) := by
  have ok : (∀ o ∈ forProgram (h1 ++ h2), o.ok) ∧ ∀ o ∈ forClient (h1 ++ h2), o.ok := by
    have := session_held cfg net cin ctl acks gin wr gwr
    cases e' : sessionH cfg (start net cin ctl acks gin wr gwr) [] with
    | ok a s h => rw [e'] at this e; rw [← e]; exact ⟨this.okP, this.okC⟩
    | die x s h => rw [e'] at this e; rw [← e]; exact ⟨this.okP, this.okC⟩
    | ub => rw [e'] at e; rw [← e]; exact ⟨by simp [RH.marks, forProgram], by simp [RH.marks, forClient]⟩
  have ho : ∀ o ∈ os, o.ok := by
    rcases hos with rfl | rfl
    · exact (prefix_ok (h := h1 ++ h2) rfl).1 ok.1
    · exact (prefix_ok (h := h1 ++ h2) rfl).2 ok.2
  rcases Buffer.c19_stream storage fd os ho with k | ⟨r, b, k1, -, k3, k4⟩
  · exact .inl k
  · exact .inr ⟨r, b, k1, k3, k4⟩

/-- **C103 (which bytes).** What is put for the mail program and the client is what the session
says it had for them (C44-C52); when a write fails, what was being written is put, too. After
QUIT, before the front end waits for the program to end, all of it is out. -/
theorem c103_bytes (cfg : Cfg) (net : List Ev) (cin : Bytes) (ctl : Bool) (acks : Bytes) (gin : List Bytes)
    (wr gwr : List Bool) : match sessionH cfg (start net cin ctl acks gin wr gwr) [] with
    | .ok _ s h => bytesOf (forProgram h) = childBytes s.log ∧ bytesOf (forClient h) = clientBytes s.log
    | .die x s h => childBytes s.log <+: bytesOf (forProgram h) ∧ clientBytes s.log <+: bytesOf (forClient h) ∧
        (x = 0 → bytesOf (forProgram h) = childBytes s.log ∧ bytesOf (forClient h) = clientBytes s.log ∧
          AllOut (forProgram h) ∧ AllOut (forClient h))
    | .ub => True := by
  have := session_held cfg net cin ctl acks gin wr gwr
  cases e : sessionH cfg (start net cin ctl acks gin wr gwr) [] with
  | ok a s h => rw [e] at this; exact ⟨this.child, this.client⟩
  | die x s h =>
    rw [e] at this
    refine ⟨this.child, this.client, fun hx => ?_⟩
    rcases this.code with h1 | ⟨-, h1, h2, h3, h4⟩
    · omega
    · exact ⟨h1, h2, h3.allOut this.okP, h4.allOut this.okC⟩
  | ub => trivial

/-- A session with a message. -/
def heldSample : S := start [.data b!"DATA\r\n", .data b!"hi\r\n", .data b!".\r\nQUIT\r\n"]
  b!"220 x\r\n354 go\r\n250 ok\r\n221 bye\r\n" false [] [] [] []

/-- The operations and waits of that session. -/
example : (sessionH ⟨none, false, false, []⟩ heldSample []).marks =
    [.wait .reply, .client (.putsflush b!"220 x\r\n" []), .wait .command, .program (.putsflush b!"DATA\r\n" []), .wait .reply,
     .client (.putsflush b!"354 go\r\n" []), .wait .body, .program (.puts b!"hi\r\n" []), .wait .body,
     .program (.puts b!".\r\n" []), .program .flush, .wait .reply, .client (.putsflush b!"250 ok\r\n" []), .wait .command,
     .program (.putsflush b!"QUIT\r\n" []), .wait .reply, .client (.putsflush b!"221 bye\r\n" [])] := by decide +kernel

/-- **C103 (within a message).** While it waits for the next line of a message the front end does
hold lines back: the mail program has not been sent the first line when the second is awaited. -/
theorem c103_body_held : ∃ h1 h2 b, (sessionH ⟨none, false, false, []⟩ heldSample []).marks = h1 ++ .wait .body :: h2 ∧
    orun (oinit (List.replicate 16 0) ⟨[], List.replicate 9 (.data 99)⟩) (forProgram h1) = .ok (some (0, b)) ∧
    bytesOf (forProgram h1) = b!"DATA\r\nhi\r\n" ∧ b.fd.out = b!"DATA\r\n" :=
  ⟨[.wait .reply, .client (.putsflush b!"220 x\r\n" []), .wait .command, .program (.putsflush b!"DATA\r\n" []), .wait .reply,
     .client (.putsflush b!"354 go\r\n" []), .wait .body, .program (.puts b!"hi\r\n" [])],
    [.program (.puts b!".\r\n" []), .program .flush, .wait .reply, .client (.putsflush b!"250 ok\r\n" []), .wait .command,
     .program (.putsflush b!"QUIT\r\n" []), .wait .reply, .client (.putsflush b!"221 bye\r\n" [])],
    ⟨b!"hi\r\n" ++ List.replicate 12 0, 4, ⟨b!"DATA\r\n", List.replicate 8 (.data 99)⟩⟩, by decide +kernel, by decide +kernel, by decide +kernel, rfl⟩

end Smtp
