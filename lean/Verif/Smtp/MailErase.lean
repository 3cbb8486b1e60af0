import Verif.Smtp.MailSpec
/-
C99, first half: the log calls change nothing the front end does.
-/
namespace Smtp
open Str
open Spec (Tx Stage mailStep mailLog mailOnly)

/-! ### Dropping the records -/

/-- An outcome without its history. -/
def RL.drop {α : Type} : RL α → R α
  | .ok a s _ => .ok a s
  | .die x s _ => .die x s
  | .ub => .ub

theorem bindL {α β : Type} (m : ML α) (f : α → ML β) (s : S) (h : Hist) :
    (m >>= f) s h = match m s h with
      | .ok a s h => f a s h
      | .die x s h => .die x s h
      | .ub => .ub := rfl

/-- `m` is `n` with log calls. -/
def Logs {α : Type} (m : ML α) (n : M α) : Prop := ∀ s h, (m s h).drop = n s

theorem Logs.up {α : Type} (n : M α) : Logs (up n) n := by
  intro s h
  unfold Smtp.up
  cases n s <;> rfl

theorem Logs.pure {α : Type} (a : α) : Logs (pure a) (pure a) := fun _ _ => rfl

theorem Logs.bind {α β : Type} {m : ML α} {n : M α} {f : α → ML β} {g : α → M β} (h : Logs m n)
    (h' : ∀ a, Logs (f a) (g a)) : Logs (m >>= f) (n >>= g) := by
  intro s hi
  rw [bindL, bind_def]
  have := h s hi
  cases e : m s hi with
  | ok a s1 h1 => rw [e] at this; rw [← this]; exact h' a s1 h1
  | die x s1 h1 => rw [e] at this; rw [← this]; rfl
  | ub => rw [e] at this; rw [← this]; rfl

theorem Logs.say {α : Type} {l : Lvl} {t : Bytes} {f : Unit → ML α} {g : M α} (h : Logs (f ()) g) :
    Logs (Smtp.say l t >>= f) g := by
  intro s hi
  rw [bindL]
  exact h s _

theorem Logs.get {α : Type} {f : S → ML α} {g : M α} (h : ∀ s, Logs (f s) g) : Logs (Smtp.up Smtp.get >>= f) g := by
  intro s hi
  rw [bindL]
  exact h s s (hi ++ since s s)

theorem Logs.quiet {α : Type} {m : ML Unit} {f : Unit → ML α} {g : M α} (h : Logs m (Pure.pure ()))
    (h' : Logs (f ()) g) : Logs (m >>= f) g := by
  intro s hi
  have := h s hi
  rw [bindL]
  cases e : m s hi with
  | ok a s1 h1 =>
    rw [e] at this
    cases this
    exact h' _ _
  | die x s1 h1 => rw [e] at this; cases this
  | ub => rw [e] at this; cases this

theorem Logs.ite {α : Type} {c : Prop} [Decidable c] {m m' : ML α} {n n' : M α} (h : Logs m n) (h' : Logs m' n') :
    Logs (if c then m else m') (if c then n else n') := by
  split
  · exact h
  · exact h'

theorem logs_say (l : Lvl) (t : Bytes) : Logs (say l t) (pure ()) := fun _ _ => rfl
theorem logs_sayLine : Logs sayLine (pure ()) := .get fun s => logs_say _ _
theorem logs_sayMessage (l : Lvl) : Logs (sayMessage l) (pure ()) := .get fun s => logs_say _ _
theorem logs_sayRcpt : Logs sayRcpt (pure ()) := .get fun s => logs_say _ _

theorem bind_unit (m : M Unit) : (m >>= fun _ => pure ()) = m := by
  funext s
  rw [bind_def]
  cases m s <;> rfl

theorem bind_ret {α : Type} (m : M α) : (m >>= fun a => pure a) = m := by
  funext s
  rw [bind_def]
  cases m s <;> rfl

theorem logs_readline : Logs readlineL readline := by
  have : Logs readlineL (readline >>= fun _ => pure ()) :=
    (Logs.up _).bind fun _ => .get fun _ => logs_say _ _
  rwa [bind_unit] at this

theorem logs_smtpline (cfg : Cfg) (a : Option Bytes) (b : Bool) : Logs (smtplineL cfg a b) (smtpline cfg a b) := by
  have : Logs (smtplineL cfg a b) (smtpline cfg a b >>= fun c => pure c) :=
    (Logs.up _).bind fun c => .get fun _ => .say (.pure c)
  rwa [bind_ret] at this

theorem logs_copy (cfg : Cfg) (b : Bool) : Logs (copyL cfg b) (copy cfg b) :=
  (Logs.up _).bind fun s => (Logs.up _).bind fun _ => (logs_smtpline cfg none b).bind fun code =>
    (Logs.up _).bind fun s => (Logs.up _).bind fun _ => .quiet logs_sayLine (.pure _)

theorem logs_bodyLoop (n : Nat) : Logs (bodyLoopL n) (bodyLoop n) := by
  induction n with
  | zero => exact .up _
  | succ n ih =>
    exact logs_readline.bind fun _ => (Logs.up _).bind fun s => (Logs.up _).bind fun _ => (Logs.up _).bind fun _ =>
      (Logs.up _).bind fun s => .ite (.pure _) ih

theorem logs_data (cfg : Cfg) : Logs (dataL cfg) (smtpData cfg) :=
  (Logs.up _).bind fun s => (Logs.up _).bind fun _ => (logs_smtpline cfg none true).bind fun code =>
    (Logs.up _).bind fun s => (Logs.up _).bind fun _ => .ite (.quiet logs_sayLine (logs_sayMessage _))
      ((Logs.up _).bind fun s => (logs_bodyLoop _).bind fun _ => (logs_smtpline cfg none true).bind fun code =>
        (Logs.up _).bind fun s => (Logs.up _).bind fun _ => .say (by
          split
          · exact .quiet (logs_sayMessage _) (.up _)
          · exact .quiet (logs_sayMessage _) (.up _)))

theorem bind_ite {α β : Type} (c : Prop) [Decidable c] (m m' : M α) (f : α → M β) :
    ((if c then m else m') >>= f) = if c then m >>= f else m' >>= f := by split <;> rfl

theorem mail_split (cfg : Cfg) : smtpMail cfg = rememberMail >>= fun _ => copy cfg true >>= fun _ => pure () := by
  funext s
  unfold smtpMail rememberMail
  simp only [bind_def, resetTransaction, modify, get, ite_app, lift, die, pure_def]
  repeat' split
  all_goals simp_all

theorem logs_mail (cfg : Cfg) : Logs (mailL cfg) (smtpMail cfg) := by
  rw [mail_split]
  refine (Logs.up _).bind fun _ => (logs_copy cfg true).bind fun code => ?_
  split
  · exact .get fun _ => logs_say _ _
  · exact .pure _

theorem Logs.after {m q : ML Unit} {n : M Unit} (h : Logs m n) (hq : Logs q (Pure.pure ())) :
    Logs (m >>= fun _ => q) n := by
  have : Logs (m >>= fun _ => q) (n >>= fun _ => Pure.pure ()) := h.bind fun _ => hq
  rwa [bind_unit] at this

theorem logs_rcpt (cfg : Cfg) : Logs (rcptL cfg) (smtpRcpt cfg) := by
  refine (Logs.up _).bind fun _ => (Logs.up _).bind fun s => ?_
  have key : ∀ msg, Logs (match msg with
      | some msg => do
        up (modify fun s => { s with cline := catlogid cfg msg ++ b!"\r\n" })
        let s ← up get
        up (toClient s.cline)
        sayLine
        sayRcpt
      | none => do
        let code ← copyL cfg true
        if code ≠ 250 then sayRcpt) (match msg with
      | some msg => do
        modify fun s => { s with cline := catlogid cfg msg ++ b!"\r\n" }
        let s ← get
        toClient s.cline
      | none => do
        let _ ← copy cfg true) := by
    intro msg
    cases msg with
    | some msg =>
      exact (Logs.up _).bind fun _ => (Logs.up _).bind fun s => (Logs.up _).after (.quiet logs_sayLine logs_sayRcpt)
    | none =>
      refine (logs_copy cfg true).bind fun code => ?_
      split
      · exact logs_sayRcpt
      · exact .pure _
  exact .ite ((Logs.up _).bind key) (Logs.bind (.pure none) key)

theorem logs_ehlo (cfg : Cfg) : Logs (ehloL cfg) (smtpEhlo cfg) :=
  (Logs.up _).bind fun s => (Logs.up _).bind fun _ => (logs_smtpline cfg _ false).bind fun _ =>
    (Logs.up _).bind fun s => (Logs.up _).after logs_sayLine

theorem logs_starttls (cfg : Cfg) : Logs (starttlsL cfg) (smtpStarttls cfg) :=
  (Logs.up _).bind fun s => .ite
    ((Logs.up _).bind fun _ => (Logs.up _).bind fun s => (Logs.up _).after logs_sayLine)
    ((Logs.up _).bind fun _ => (Logs.up _).bind fun s => (Logs.up _).bind fun _ => (Logs.up _).bind fun _ =>
      (Logs.up _).bind fun _ => (Logs.up _).bind fun _ => .quiet logs_sayLine ((Logs.up _).bind fun _ =>
      (Logs.up _).bind fun _ => (Logs.up _).bind fun _ => (logs_smtpline cfg none true).bind fun _ => .up _))

theorem logs_run (cfg : Cfg) (v : Verb) : Logs (runL cfg v) (run cfg v) := by
  cases v with
  | quit => exact (logs_copy cfg true).bind fun _ => .up _
  | data => exact logs_data cfg
  | mail => exact logs_mail cfg
  | rcpt => exact logs_rcpt cfg
  | ehlo => exact logs_ehlo cfg
  | starttls => exact logs_starttls cfg
  | default => exact (logs_copy cfg false).bind fun _ => .pure _

theorem logs_commands (cfg : Cfg) (n : Nat) : Logs (commandsL cfg n) (commands cfg n) := by
  induction n with
  | zero => exact .pure _
  | succ n ih =>
    exact Logs.bind (logs_readline.bind fun _ => (Logs.up _).bind fun s => (Logs.up _).bind fun v => logs_run cfg v)
      fun _ => ih

theorem logs_session (cfg : Cfg) : Logs (sessionL cfg) (session cfg) :=
  Logs.bind ((logs_smtpline cfg none true).bind fun _ => (Logs.up _).bind fun s => .up _) fun _ =>
    (Logs.up _).bind fun s => logs_commands cfg _

end Smtp
