import Verif.Relay.Tcp
import Verif.Relay.Clear
import Verif.Relay.Tls
import Verif.Relay.Spec
import Verif.Relay.Lemmas
import Verif.Relay.TcpProps
import Verif.Relay.ClearProps
import Verif.Relay.TlsProps
/-
C73: the inactivity timer. In all three relay loops it is restarted right after every
arrival of bytes, from either side, and by nothing else but (once) the end of the TLS
handshake; the short time to finish is set by signals only.
-/
namespace Relay
variable {F : Type}

/- Specification. -/

/-- In `l`, whatever satisfies `P` is directly followed by something that satisfies `Q`.
(Specification or proof notion; models no line of /repo.) -/
def Next {α : Type} (P Q : α → Prop) (l : List α) : Prop :=
  ∀ pre a post, l = pre ++ a :: post → P a → ∃ b post', post = b :: post' ∧ Q b

/-- Bytes arrived, other than on the control pipe.
(Specification or proof notion; models no line of /repo.) -/
def Arrival (data : F → Bool) : Act F → Bool
  | .read f _ => data f
  | _ => false

/-- The timer was restarted with the inactivity timeout.
(Specification or proof notion; models no line of /repo.) -/
def Restart : Act F → Bool
  | .alarm brief => !brief
  | _ => false

/-- The timer was set to the short time to finish.
(Specification or proof notion; models no line of /repo.) -/
def Hurry : Act F → Bool
  | .alarm brief => brief
  | _ => false

/-- A command from the signal pipe. (Specification or proof notion; models no line of /repo.) -/
def Signal : Act F → Bool
  | .sig _ => true
  | _ => false

/-- An exchange with the TLS engine, which takes no time.
(Specification or proof notion; models no line of /repo.) -/
def Engaged : Act F → Bool
  | .eng _ => true
  | _ => false

/-- Every arrival restarts the timer: nothing but the engine's share comes in between.
(Specification or proof notion; models no line of /repo.) -/
def Timed (data : F → Bool) (log : List (Act F)) : Prop :=
  Next (Arrival data · = true) (Restart · = true) (log.filter fun a => !Engaged a)

/-- The inactivity timeout is granted again by arrivals and at most `extra` more times,
and the time to finish by signals only. (Specification or proof notion; models no line of /repo.) -/
def Sparing (data : F → Bool) (extra : Nat) (log : List (Act F)) : Prop :=
  log.countP Restart ≤ log.countP (Arrival data) + extra ∧ log.countP Hurry ≤ log.countP Signal

/-- Plaintext was handed to the engine. (Specification or proof notion; models no line of /repo.) -/
def Handed : Act F → Bool
  | .eng (.sendapp _ _) => true
  | _ => false

/-- Plaintext handed to the engine is flushed into records at once.
(Specification or proof notion; models no line of /repo.) -/
def Flushed (log : List (Act F)) : Prop := Next (Handed · = true) (· = .eng .flush) log

/-! ### pieces -/

theorem next_nil {α : Type} (P Q : α → Prop) : Next P Q [] := by
  intro pre a post h
  cases pre <;> cases h

theorem next_append {α : Type} {P Q : α → Prop} {l m : List α} (h1 : Next P Q l) (h2 : Next P Q m) : Next P Q (l ++ m) := by
  intro pre a post h ha
  rcases List.append_eq_append_iff.mp h with ⟨c, hc1, hc2⟩ | ⟨c, hc1, hc2⟩
  · exact h2 c a post hc2 ha
  · cases c with
    | nil =>
      exact h2 [] a post (by simpa using hc2.symm) ha
    | cons x c =>
      injection hc2 with e1 e2
      subst e1
      obtain ⟨b, post', e, hb⟩ := h1 pre a c hc1 ha
      exact ⟨b, post' ++ m, by rw [e2, e]; rfl, hb⟩

theorem next_one {α : Type} {P Q : α → Prop} {a : α} (h : ¬ P a) : Next P Q [a] := by
  intro pre b post e hb
  cases pre with
  | nil => injection e with e _; exact absurd (e ▸ hb) h
  | cons x pre => injection e with _ e; cases pre <;> cases e

theorem next_two {α : Type} {P Q : α → Prop} {a b : α} (hb : Q b) (h : ¬ P b) : Next P Q [a, b] := by
  intro pre c post e hc
  cases pre with
  | nil =>
    injection e with e1 e2
    exact ⟨b, [], e2.symm, hb⟩
  | cons x pre =>
    injection e with _ e
    exact absurd hc (by
      cases pre with
      | nil => injection e with e _; exact e ▸ h
      | cons y pre => injection e with _ e; cases pre <;> cases e)

/-- The log has grown by a piece that keeps to the rules.
(Specification or proof notion; models no line of /repo.) -/
def Grown (data : F → Bool) (extra : Nat) (l l' : List (Act F)) : Prop :=
  ∃ c, l' = l ++ c ∧ (Timed data c ∧ Sparing data extra c) ∧ Flushed c

theorem grown_refl {data : F → Bool} (l : List (Act F)) : Grown data 0 l l :=
  ⟨[], by simp, ⟨next_nil _ _, by simp [Sparing]⟩, next_nil _ _⟩

theorem grown_trans {data : F → Bool} {i j : Nat} {a b c : List (Act F)} (h1 : Grown data i a b) (h2 : Grown data j b c) :
    Grown data (i + j) a c := by
  obtain ⟨x, rfl, ⟨hx1, hx2⟩, hx3⟩ := h1
  obtain ⟨y, rfl, ⟨hy1, hy2⟩, hy3⟩ := h2
  refine ⟨x ++ y, by simp, ⟨?_, ?_⟩, next_append hx3 hy3⟩
  · unfold Timed
    rw [List.filter_append]
    exact next_append hx1 hy1
  · unfold Sparing at *
    simp only [List.countP_append]
    exact ⟨by omega, by omega⟩

theorem grown_mono {data : F → Bool} {i j : Nat} {a b : List (Act F)} (h : Grown data i a b) (hij : i ≤ j) : Grown data j a b := by
  obtain ⟨x, h1, ⟨h2, h3⟩, h4⟩ := h
  exact ⟨x, h1, ⟨h2, by unfold Sparing at *; exact ⟨by omega, h3.2⟩⟩, h4⟩

/-- An action that neither brings bytes nor restarts the timer. -/
theorem grown_quiet {data : F → Bool} (l : List (Act F)) (a : Act F) (h1 : Arrival data a = false) (h2 : (∀ b, a ≠ .alarm b) ∧ ∀ m n, a ≠ .eng (.sendapp m n)) :
    Grown data 0 l (l ++ [a]) := by
  obtain ⟨h2, h3⟩ := h2
  refine ⟨[a], rfl, ⟨?_, ?_⟩, next_one ?_⟩
  · unfold Timed
    by_cases he : Engaged a = true
    · simp [he]
      exact next_nil _ _
    · simp [he]
      exact next_one (by simp [h1])
  · cases a <;> simp_all [Sparing, List.countP_cons, Restart, Hurry]
  · intro hh
    unfold Handed at hh
    split at hh
    · exact h3 _ _ rfl
    · cases hh

theorem grown_alarm {data : F → Bool} (l : List (Act F)) : Grown data 1 l (l ++ [.alarm]) :=
  ⟨[.alarm], rfl, ⟨next_one (by simp [Arrival]), by simp [Sparing, List.countP_cons, Restart, Hurry]⟩, next_one (by simp [Handed])⟩

/-- Bytes, the engine's share, and the restart. -/
theorem grown_read {data : F → Bool} (l : List (Act F)) (f : F) (d : Bytes) (hf : data f = true) (m : List (Act F))
    (hm : ∀ a ∈ m, Engaged a = true) (hf' : Flushed m) : Grown data 0 l (l ++ (.read f d :: m ++ [.alarm])) := by
  refine ⟨.read f d :: m ++ [.alarm], rfl, ⟨?_, ?_⟩, ?_⟩
  · have : (Act.read f d :: m ++ [Act.alarm]).filter (fun a => !Engaged a) = [Act.read f d, Act.alarm] := by
      have h0 : m.filter (fun a => !Engaged a) = [] := by
        rw [List.filter_eq_nil_iff]
        intro a ha
        simp [hm a ha]
      have e1 : Engaged (Act.read f d) = false := rfl
      have e2 : Engaged (Act.alarm : Act F) = false := rfl
      simp [List.filter_cons, List.filter_append, h0, e1, e2]
    unfold Timed
    rw [this]
    exact next_two rfl (by simp [Arrival])
  · have h0 : m.countP Restart = 0 ∧ m.countP Hurry = 0 := by
      rw [List.countP_eq_zero, List.countP_eq_zero]
      constructor <;> intro a ha <;> have := hm a ha <;> cases a <;> simp_all [Engaged, Restart, Hurry]
    simp [Sparing, List.countP_cons, List.countP_append, h0, Restart, Hurry, Arrival, hf]
  · have h1 := next_append (m := m) (next_one (P := fun a : Act F => Handed a = true) (Q := (· = .eng .flush)) (a := .read f d)
      (by simp [Handed])) hf'
    exact next_append h1 (next_one (by simp [Handed]))

/-- A command from the signal pipe, quiet actions, and the restart. -/
theorem grown_sig {data : F → Bool} {l m : List (Act F)} (c : Byte) (h : Grown data 0 (l ++ [.sig c]) m) : Grown data 0 l (m ++ [.alarm true]) := by
  obtain ⟨x, rfl, ⟨hx1, hx2⟩, hx3⟩ := h
  refine ⟨[.sig c] ++ x ++ [.alarm true], by simp, ⟨?_, ?_⟩,
    next_append (next_append (next_one (by simp [Handed])) hx3) (next_one (by simp [Handed]))⟩
  · unfold Timed
    simp only [List.filter_append]
    exact next_append (next_append (next_one (by simp [Arrival])) hx1) (next_one (by simp [Arrival]))
  · unfold Sparing at *
    simp [List.countP_cons, List.countP_append, Restart, Hurry, Signal, Arrival] at *
    omega

theorem timed_of {data : F → Bool} {n : Nat} {l : List (Act F)} (h : Grown data n [] l) : Timed data l ∧ Sparing data n l := by
  obtain ⟨c, h1, h2, -⟩ := h
  rw [List.nil_append] at h1
  subst h1
  exact h2

/-! ### the TCP relay -/

namespace Tcp

def every : Fd → Bool := fun _ => true

theorem grown_propagate (s : St) : Grown every 0 s.log (propagate s).log := by
  have h1 : ∀ s : St, Grown every 0 s.log (closeRemoteout s).log := by
    intro s
    unfold closeRemoteout
    split
    · exact grown_quiet _ _ rfl ⟨by nofun, by nofun⟩
    · exact grown_refl _
  have h2 : ∀ s : St, Grown every 0 s.log (closeLocalout s).log := by
    intro s
    unfold closeLocalout
    split
    · exact grown_quiet _ _ rfl ⟨by nofun, by nofun⟩
    · exact grown_refl _
  unfold propagate
  simp only
  split
  · split
    · exact grown_trans (h1 _) (h2 _)
    · exact h1 _
  · split
    · exact h2 _
    · exact grown_refl _

theorem grown_close (s : St) (a : Act Fd) (f : St → St) (hf : f = closeRemoteout ∨ f = closeLocalout ∨ f = closeLocalin ∨ f = closeRemotein)
    (h1 : Arrival every a = false) (h2 : (∀ b, a ≠ .alarm b) ∧ ∀ m n, a ≠ .eng (.sendapp m n)) : Grown every 0 s.log (f { s with log := s.log ++ [a] }).log := by
  have h0 : Grown every 0 s.log (s.log ++ [a]) := grown_quiet _ _ h1 h2
  have : Grown every 0 (s.log ++ [a]) (f { s with log := s.log ++ [a] }).log := by
    rcases hf with rfl | rfl | rfl | rfl
    · unfold closeRemoteout; split
      · exact grown_quiet _ _ rfl ⟨by nofun, by nofun⟩
      · exact grown_refl _
    · unfold closeLocalout; split
      · exact grown_quiet _ _ rfl ⟨by nofun, by nofun⟩
      · exact grown_refl _
    · unfold closeLocalin; split
      · exact grown_quiet _ _ rfl ⟨by nofun, by nofun⟩
      · exact grown_refl _
    · unfold closeRemotein; split
      · exact grown_quiet _ _ rfl ⟨by nofun, by nofun⟩
      · exact grown_refl _
  exact grown_trans h0 this

theorem grown_body (s : St) (ev : Ev) (s' : St) (why : Option Why) (h : body s ev = .ok (s', why)) : Grown every 0 s.log s'.log := by
  unfold body at h
  simp only at h
  split at h
  · unfold doToRemote at h
    split at h
    · cases hw : writeFrom s.inb ev.wr with
      | ub => rw [hw] at h; cases h
      | ok r =>
        obtain ⟨r, b⟩ := r
        rw [hw] at h
        cases r with
        | again => cases h; exact grown_refl _
        | failed => cases h; exact grown_close s _ _ (.inl rfl) rfl ⟨by nofun, by nofun⟩
        | put d => cases h; exact grown_quiet _ _ rfl ⟨by nofun, by nofun⟩
    · cases h; exact grown_refl _
  · split at h
    · unfold doToLocal at h
      cases hw : writeFrom s.outb ev.wr with
      | ub => rw [hw] at h; cases h
      | ok r =>
        obtain ⟨r, b⟩ := r
        rw [hw] at h
        cases r with
        | again => cases h; exact grown_refl _
        | failed => cases h; exact grown_close s _ _ (.inr (.inl rfl)) rfl ⟨by nofun, by nofun⟩
        | put d => cases h; exact grown_quiet _ _ rfl ⟨by nofun, by nofun⟩
    · split at h
      · unfold doFromLocal at h
        cases hw : readInto size s.inb s.lsrc ev.rd with
        | ub => rw [hw] at h; cases h
        | ok r =>
          obtain ⟨r, b, src⟩ := r
          rw [hw] at h
          cases r with
          | again => cases h; exact grown_refl _
          | ended => cases h; exact grown_close s _ _ (.inr (.inr (.inl rfl))) rfl ⟨by nofun, by nofun⟩
          | got d => cases h; exact grown_read _ _ _ rfl [] (by simp) (next_nil _ _)
      · split at h
        · unfold doFromRemote at h
          cases hw : readInto size s.outb s.rsrc ev.rd with
          | ub => rw [hw] at h; cases h
          | ok r =>
            obtain ⟨r, b, src⟩ := r
            rw [hw] at h
            cases r with
            | again => cases h; exact grown_refl _
            | ended => cases h; exact grown_close s _ _ (.inr (.inr (.inr rfl))) rfl ⟨by nofun, by nofun⟩
            | got d => cases h; exact grown_read _ _ _ rfl [] (by simp) (next_nil _ _)
        · split at h
          · cases h; exact grown_refl _
          · cases h; exact grown_refl _

theorem grown_loop (evs : List Ev) : ∀ (s s' : St) (why : Option Why), loop s evs = .ok (s', why) → Grown every 0 s.log s'.log := by
  induction evs with
  | nil =>
    intro s s' why h
    unfold loop at h
    simp only at h
    split at h <;> cases h <;> exact grown_propagate s
  | cons ev evs ih =>
    intro s s' why h
    unfold loop at h
    simp only at h
    split at h
    · cases h; exact grown_propagate s
    · cases hb : body (propagate s) ev with
      | ub => rw [hb] at h; cases h
      | ok r =>
        obtain ⟨s1, y⟩ := r
        rw [hb] at h
        have g := grown_trans (grown_propagate s) (grown_body _ _ _ _ hb)
        cases y with
        | some y => cases h; exact g
        | none => exact grown_trans g (ih s1 s' why h)

/-- C73: in the TCP relay every arrival of bytes, from either side, restarts the inactivity
timer at once, and nothing else does. -/
theorem c73_tcp (imem omem : Bytes) (n : Nat) (L R : Bytes) (evs : List Ev) (s : St) (why : Option Why)
    (h : loop (start imem omem n L R) evs = .ok (s, why)) : Timed every s.log ∧ Sparing every 0 s.log :=
  timed_of (grown_loop evs _ _ _ h)

example : (match loop (start (b!"HI" ++ List.replicate 8190 0) (List.replicate 8192 0) 2 b!"abc" b!"xyz") demo with
    | .ok (s, some .finished) => s.log.countP (Arrival every) == 2 && s.log.countP Restart == 2
    | _ => false) = true := by decide +kernel

end Tcp

/-! ### the relay before STARTTLS -/

/-- The descriptors that carry data. (Specification or proof notion; models no line of /repo.) -/
def dataFd : Fd → Bool
  | .ctl => false
  | _ => true

theorem grown_act (w : W) (a : Act Fd) (h1 : Arrival dataFd a = false) (h2 : (∀ b, a ≠ .alarm b) ∧ ∀ m n, a ≠ .eng (.sendapp m n)) :
    Grown dataFd 0 w.log (w.act a).log := grown_quiet _ _ h1 h2

theorem grown_wclose (w : W) (f : Fd) : Grown dataFd 0 w.log (w.close f).log := by
  unfold W.close
  split
  · exact grown_quiet _ _ rfl ⟨by nofun, by nofun⟩
  · exact grown_refl _

theorem grown_selfpipe (w : W) (ev : SigEv) : Grown dataFd 0 w.log (selfpipeEvent w ev).1.log := by
  unfold selfpipeEvent
  cases ev with
  | again => exact grown_refl _
  | failed => exact grown_refl _
  | byte c =>
    simp only
    split
    · exact grown_sig c (grown_wclose _ _)
    · split
      · exact grown_sig c (grown_trans (grown_trans (grown_trans (grown_wclose _ _) (grown_wclose _ _)) (grown_wclose _ _)) (grown_wclose _ _))
      · exact grown_quiet _ _ rfl ⟨by nofun, by nofun⟩

namespace Clear

theorem grown_propagate (s : St) : Grown dataFd 0 s.w.log (propagate s).w.log := by
  unfold propagate
  simp only
  split
  · split
    · exact grown_trans (grown_wclose _ _) (grown_wclose _ _)
    · exact grown_wclose _ _
  · split
    · exact grown_wclose _ _
    · exact grown_refl _

theorem grown_accept (s : St) (ev : Ev) : Grown dataFd 0 s.w.log (accept s ev).1.w.log := by
  have h0 := grown_wclose s.w .ctl
  unfold accept
  simp only
  split
  · exact h0
  · generalize ht : (if s.tochild.len ≠ 0 then _ else _ : St) = t
    have hw : t.w = s.w.close .ctl := by
      rw [← ht]
      split <;> rfl
    rw [← hw] at h0
    split
    · exact h0
    · split
      · split
        · exact h0
        · exact grown_trans h0 (grown_act _ _ rfl ⟨by nofun, by nofun⟩)
      · split
        · exact grown_trans h0 (grown_wclose _ _)
        · exact grown_trans (grown_trans h0 (grown_act _ _ rfl ⟨by nofun, by nofun⟩)) (grown_wclose _ _)

theorem grown_ctl (s : St) (ev : Ev) : Grown dataFd 0 s.w.log (doFromCtl s ev).1.w.log := by
  unfold doFromCtl
  split
  · exact grown_refl _
  · exact grown_refl _
  · exact grown_trans (grown_act _ _ rfl ⟨by nofun, by nofun⟩) (grown_wclose _ _)
  · simp only
    split
    · exact grown_trans (grown_act _ _ rfl ⟨by nofun, by nofun⟩) (grown_wclose _ _)
    · have h0 : ∀ d, Grown dataFd 0 s.w.log (s.w.act (.read .ctl d)).log := fun d => grown_act _ _ rfl ⟨by nofun, by nofun⟩
      split
      · exact h0 _
      · split
        · exact h0 _
        · exact grown_trans (h0 _) (grown_accept { s with csrc := _, w := s.w.act (.read .ctl _) } ev)

theorem grown_body (s : St) (ev : Ev) (s' : St) (why : Option Why) (h : body s ev = .ok (s', why)) :
    Grown dataFd 0 s.w.log s'.w.log := by
  unfold body at h
  simp only at h
  split at h
  · unfold doToPeer at h
    cases hw : writeFrom s.tonet ev.wr with
    | ub => rw [hw] at h; cases h
    | ok r =>
      obtain ⟨r, b⟩ := r
      rw [hw] at h
      cases r with
      | again => cases h; exact grown_refl _
      | failed => cases h; exact grown_trans (grown_act _ _ rfl ⟨by nofun, by nofun⟩) (grown_wclose _ _)
      | put d => cases h; exact grown_act _ _ rfl ⟨by nofun, by nofun⟩
  split at h
  · unfold doFromChild at h
    cases hw : readInto size s.tonet s.chd ev.rd with
    | ub => rw [hw] at h; cases h
    | ok r =>
      obtain ⟨r, b, src⟩ := r
      rw [hw] at h
      cases r with
      | again => cases h; exact grown_refl _
      | ended => cases h; exact grown_trans (grown_act _ _ rfl ⟨by nofun, by nofun⟩) (grown_wclose _ _)
      | got d =>
        cases h
        have := grown_read (data := dataFd) s.w.log .childout d rfl [] (by simp) (next_nil _ _)
        simpa [W.act] using this
  split at h
  · injection h with h
    have e : s' = (doFromCtl s ev).1 := by rw [h]
    rw [e]
    exact grown_ctl s ev
  split at h
  · unfold doToChild at h
    cases hw : writeFrom s.tochild ev.wr with
    | ub => rw [hw] at h; cases h
    | ok r =>
      obtain ⟨r, b⟩ := r
      rw [hw] at h
      cases r with
      | again => cases h; exact grown_refl _
      | failed => cases h; exact grown_trans (grown_act _ _ rfl ⟨by nofun, by nofun⟩) (grown_wclose _ _)
      | put d => cases h; exact grown_act _ _ rfl ⟨by nofun, by nofun⟩
  split at h
  · unfold doFromPeer at h
    cases hw : readInto size s.tochild s.net ev.rd with
    | ub => rw [hw] at h; cases h
    | ok r =>
      obtain ⟨r, b, src⟩ := r
      rw [hw] at h
      cases r with
      | again => cases h; exact grown_refl _
      | ended => cases h; exact grown_trans (grown_act _ _ rfl ⟨by nofun, by nofun⟩) (grown_wclose _ _)
      | got d =>
        cases h
        have := grown_read (data := dataFd) s.w.log .peerin d rfl [] (by simp) (next_nil _ _)
        simpa [W.act] using this
  split at h
  · unfold doSelfpipe at h
    cases h
    exact grown_selfpipe _ _
  · cases h; exact grown_refl _

theorem grown_loop (evs : List Ev) : ∀ (s s' : St) (why : Option Why), loop s evs = .ok (s', why) → Grown dataFd 0 s.w.log s'.w.log := by
  induction evs with
  | nil =>
    intro s s' why h
    unfold loop at h
    simp only at h
    split at h <;> cases h <;> exact grown_propagate s
  | cons ev evs ih =>
    intro s s' why h
    unfold loop at h
    simp only at h
    split at h
    · cases h; exact grown_propagate s
    · cases hb : body (propagate s) ev with
      | ub => rw [hb] at h; cases h
      | ok r =>
        obtain ⟨s1, y⟩ := r
        rw [hb] at h
        have g := grown_trans (grown_propagate s) (grown_body _ _ _ _ hb)
        cases y with
        | some y => cases h; exact g
        | none => exact grown_trans g (ih s1 s' why h)

/-- C73: before STARTTLS every arrival of bytes from the client or the program restarts the
inactivity timer at once, and nothing else does; only a signal sets the short time to
finish. -/
theorem c73_clear (m1 m2 net chd csrc : Bytes) (evs : List Ev) (s : St) (why : Option Why)
    (h : loop (start m1 m2 net chd csrc) evs = .ok (s, why)) : Timed dataFd s.w.log ∧ Sparing dataFd 0 s.w.log :=
  timed_of (grown_loop evs _ _ _ h)

/-- A chunk each way, then the program's exit is reported. -/
example : (match loop (start (List.replicate 8192 0) (List.replicate 8192 0) b!"hello" b!"220" [])
      [⟨some ⟨false, false, true, false, false, false⟩, .data 9, .data 9, [], .again⟩,
       ⟨some ⟨false, false, false, true, false, false⟩, .data 9, .data 9, [], .again⟩,
       ⟨some ⟨false, false, false, false, false, true⟩, .data 9, .data 9, [], .byte (c! 'C')⟩] with
    | .ok (s, none) => s.w.log.countP (Arrival dataFd) == 2 && s.w.log.countP Restart == 2 && s.w.log.countP Hurry == 1
    | _ => false) = true := by decide +kernel

end Clear

/-! ### the encrypted relay -/

namespace Tls
variable {E : Type} (g : Engine E)

theorem grown_closes (st : Flags) (pend : Bool) (w : W) : Grown dataFd 0 w.log (closes st pend w).log := by
  have h1 : ∀ (w : W) (c : Prop) [Decidable c] (f : Fd), Grown dataFd 0 w.log (if c then w.close f else w).log := by
    intro w c _ f
    split
    · exact grown_wclose _ _
    · exact grown_refl _
  unfold closes
  simp only
  exact grown_trans (grown_trans (h1 _ _ _) (h1 _ _ _)) (h1 _ _ _)

theorem grown_top (s : St E) (pend : Bool) : Grown dataFd 0 s.w.log (top g s pend).2.w.log ∧ (top g s pend).2.hs = s.hs := by
  unfold top look shutdown
  simp only
  have h1 := grown_trans (grown_act s.w (.eng (.state (g.state s.e))) rfl ⟨by nofun, by nofun⟩) (grown_closes (g.state s.e) pend (s.w.act (.eng (.state (g.state s.e)))))
  split
  · refine ⟨?_, rfl⟩
    exact grown_trans (grown_trans (grown_trans h1 (grown_act _ _ rfl ⟨by nofun, by nofun⟩)) (grown_act _ _ rfl ⟨by nofun, by nofun⟩)) (grown_act _ _ rfl ⟨by nofun, by nofun⟩)
  · exact ⟨h1, rfl⟩

theorem grown_reportUser (s : St E) (m : Bytes) (evs : List Io.WrEv) (s' : St E) (why : Option Why)
    (h : reportUser s m evs = .ok (s', why)) : Grown dataFd 0 s.w.log s'.w.log ∧ s'.hs = s.hs := by
  unfold reportUser at h
  cases hn : Str.str_len m with
  | ub => rw [hn] at h; cases h
  | ok n =>
    rw [hn] at h
    simp only [Out.ok_bind] at h
    split at h
    · cases h; exact ⟨grown_refl _, rfl⟩
    · split at h
      · cases h; exact ⟨grown_refl _, rfl⟩
      · split at h <;> cases h <;> exact ⟨grown_act _ _ rfl ⟨by nofun, by nofun⟩, rfl⟩

theorem grown_report (fromcert : Bool) (st : Flags) (s : St E) (evs : List Io.WrEv) (s' : St E) (why : Option Why)
    (h : reportHandshake g fromcert st s evs = .ok (s', why)) :
    (s' = s) ∨ (s.hs = false ∧ s'.hs = true ∧ Grown dataFd 1 s.w.log s'.w.log) := by
  unfold reportHandshake at h
  split at h
  · cases h; exact .inl rfl
  · rename_i hhs
    have hhs : s.hs = false := by simpa using hhs
    split at h
    · cases h; exact .inl rfl
    · simp only at h
      split at h
      · cases h; exact .inr ⟨hhs, rfl, grown_alarm _⟩
      · split at h
        · cases h; exact .inr ⟨hhs, rfl, grown_mono (grown_refl _) (by omega)⟩
        · cases hb : nameBuf fromcert (g.crt s.e).2 with
          | ub => rw [hb] at h; cases h
          | ok buf =>
            rw [hb] at h
            simp only [Out.ok_bind] at h
            cases hr : reportUser { s with hs := true } buf evs with
            | ub => rw [hr] at h; cases h
            | ok r =>
              obtain ⟨s1, y⟩ := r
              rw [hr] at h
              obtain ⟨h1, h2⟩ := grown_reportUser _ _ _ _ _ hr
              cases y with
              | some y => cases h; exact .inr ⟨hhs, h2, grown_mono h1 (by omega)⟩
              | none => cases h; exact .inr ⟨hhs, h2, grown_trans h1 (grown_alarm _)⟩

theorem grown_serve (c : Ready) (s : St E) (ev : Ev) (s' : St E) (why : Option Why) (h : serve g c s ev = .ok (s', why)) :
    Grown dataFd 0 s.w.log s'.w.log ∧ s'.hs = s.hs := by
  unfold serve at h
  split at h
  · unfold doToChild at h
    split at h
    · cases h; exact ⟨grown_refl _, rfl⟩
    · cases h; exact ⟨grown_trans (grown_act _ _ rfl ⟨by nofun, by nofun⟩) (grown_wclose _ _), rfl⟩
    · cases h; exact ⟨grown_trans (grown_act _ _ rfl ⟨by nofun, by nofun⟩) (grown_act _ _ rfl ⟨by nofun, by nofun⟩), rfl⟩
  split at h
  · unfold doToPeer at h
    split at h
    · cases h; exact ⟨grown_refl _, rfl⟩
    · cases h; exact ⟨grown_trans (grown_act _ _ rfl ⟨by nofun, by nofun⟩) (grown_wclose _ _), rfl⟩
    · cases h; exact ⟨grown_trans (grown_act _ _ rfl ⟨by nofun, by nofun⟩) (grown_act _ _ rfl ⟨by nofun, by nofun⟩), rfl⟩
  split at h
  · unfold doFromPeer at h
    split at h
    · cases h; exact ⟨grown_refl _, rfl⟩
    · cases h; exact ⟨grown_trans (grown_act _ _ rfl ⟨by nofun, by nofun⟩) (grown_wclose _ _), rfl⟩
    · rename_i d _
      cases hc : copyN (g.recvrec s.e) 0 d d.length with
      | ub => rw [hc] at h; cases h
      | ok mem =>
        rw [hc] at h
        cases h
        refine ⟨?_, rfl⟩
        have := grown_read (data := dataFd) s.w.log .peerin d rfl [.eng (.recvrec mem d.length)] (by simp [Engaged]) (next_one (by simp [Handed]))
        simpa [W.act] using this
  split at h
  · unfold doFromChild at h
    split at h
    · cases h; exact ⟨grown_refl _, rfl⟩
    · cases h; exact ⟨grown_trans (grown_act _ _ rfl ⟨by nofun, by nofun⟩) (grown_wclose _ _), rfl⟩
    · rename_i d _
      cases hc : copyN (g.sendapp s.e) 0 d d.length with
      | ub => rw [hc] at h; cases h
      | ok mem =>
        rw [hc] at h
        cases h
        refine ⟨?_, rfl⟩
        have := grown_read (data := dataFd) s.w.log .childout d rfl [.eng (.sendapp mem d.length), .eng .flush] (by simp [Engaged])
          (next_two rfl (by simp [Handed]))
        simpa [W.act] using this
  split at h
  · unfold doSelfpipe at h
    cases h
    exact ⟨grown_selfpipe _ _, rfl⟩
  · cases h; exact ⟨grown_refl _, rfl⟩

theorem grown_rest (fromcert : Bool) (st : Flags) (s : St E) (ev : Ev) (s' : St E) (why : Option Why)
    (h : rest g fromcert st s ev = .ok (s', why)) :
    (s'.hs = s.hs ∧ Grown dataFd 0 s.w.log s'.w.log) ∨ (s.hs = false ∧ s'.hs = true ∧ Grown dataFd 1 s.w.log s'.w.log) := by
  unfold rest at h
  simp only at h
  cases hr : reportHandshake g fromcert st s ev.usr with
  | ub => rw [hr] at h; cases h
  | ok r =>
    obtain ⟨s1, y⟩ := r
    rw [hr] at h
    simp only [Out.ok_bind] at h
    have hrep := grown_report g fromcert st s ev.usr s1 y hr
    have key : ∀ s2 : St E, Grown dataFd 0 s1.w.log s2.w.log → s2.hs = s1.hs →
        (s2.hs = s.hs ∧ Grown dataFd 0 s.w.log s2.w.log) ∨ (s.hs = false ∧ s2.hs = true ∧ Grown dataFd 1 s.w.log s2.w.log) := by
      intro s2 hg he
      rcases hrep with rfl | ⟨h1, h2, h3⟩
      · exact .inl ⟨he, hg⟩
      · exact .inr ⟨h1, by rw [he, h2], grown_trans h3 hg⟩
    cases y with
    | some y => cases h; exact key _ (grown_refl _) rfl
    | none =>
      simp only at h
      split at h
      · cases h; exact key _ (grown_refl _) rfl
      split at h
      · cases h; exact key _ (grown_refl _) rfl
      split at h
      · cases h; exact key _ (grown_refl _) rfl
      · obtain ⟨h1, h2⟩ := grown_serve g _ _ _ _ _ h
        exact key _ (grown_trans (grown_act _ _ rfl ⟨by nofun, by nofun⟩) h1) h2

theorem grown_loop (fromcert : Bool) (evs : List Ev) : ∀ (s s' : St E) (why : Option Why), loop g fromcert s evs = .ok (s', why) →
    Grown dataFd (if s.hs then 0 else 1) s.w.log s'.w.log := by
  induction evs with
  | nil =>
    intro s s' why h
    unfold loop at h
    cases h
    exact grown_mono (grown_refl _) (by omega)
  | cons ev evs ih =>
    intro s s' why h
    unfold loop at h
    have ht := grown_top g s ev.pend
    obtain ⟨t1, t2⟩ := ht
    simp only at h
    cases hr : rest g fromcert (top g s ev.pend).1 (top g s ev.pend).2 ev with
    | ub => rw [hr] at h; cases h
    | ok r =>
      obtain ⟨s1, y⟩ := r
      rw [hr] at h
      simp only [Out.ok_bind] at h
      have hrest := grown_rest g _ _ _ _ _ _ hr
      rw [t2] at hrest
      cases y with
      | some y =>
        cases h
        rcases hrest with ⟨-, h1⟩ | ⟨h1, -, h2⟩
        · exact grown_mono (grown_trans t1 h1) (by omega)
        · rw [h1]
          exact grown_trans t1 h2
      | none =>
        have hl := ih s1 s' why h
        rcases hrest with ⟨h0, h1⟩ | ⟨h1, h2, h3⟩
        · rw [h0] at hl
          have := grown_trans (grown_trans t1 h1) hl
          simpa using this
        · rw [h2] at hl
          rw [h1]
          exact grown_trans (grown_trans t1 h3) hl

/-- C73: in the encrypted relay every arrival of bytes from the client or the program
restarts the inactivity timer at once, and nothing else does but the end of the
handshake, once; only a signal sets the short time to finish. -/
theorem c73_tls_partial (fromcert : Bool) (op0 : Fd → Bool) (e : E) (rep0 : Bool) (N C : Bytes) (evs : List Ev) (s : St E) (why : Option Why)
    (h : loop g fromcert (start op0 e rep0 N C) evs = .ok (s, why)) : Timed dataFd s.w.log ∧ Sparing dataFd 1 s.w.log :=
  timed_of (grown_loop g fromcert evs _ _ _ h)

/-- C45: what the program wrote is turned into records at once: the engine is flushed right
after it got the bytes. -/
theorem c45_flushed (fromcert : Bool) (op0 : Fd → Bool) (e : E) (rep0 : Bool) (N C : Bytes) (evs : List Ev) (s : St E) (why : Option Why)
    (h : loop g fromcert (start op0 e rep0 N C) evs = .ok (s, why)) : Flushed s.w.log := by
  obtain ⟨c, h1, -, h2⟩ := grown_loop g fromcert evs _ _ _ h
  rw [h1]
  exact h2

/-- The session of `TlsProps`: three arrivals, four restarts (one for the handshake). -/
example : (match loop (toy false) true (start (fun _ => true) ⟨[], 0, [], false⟩ false b!"hi!" b!"ok") demoEvs with
    | .ok (s, some .closed) => s.w.log.countP (Arrival dataFd) == 3 && s.w.log.countP Restart == 4 && s.w.log.countP Handed == 2
    | _ => false) = true := by decide +kernel

/-! ### the handshake's time limit -/

/-- An engine whose handshake never completes: it only asks for more bytes.
(Specification or proof notion; models no line of /repo.) -/
def hungry : Engine Unit where
  state _ := ⟨false, false, true, false, false⟩
  recvapp _ := []
  recvappAck _ _ := ()
  sendrec _ := []
  sendrecAck _ _ := ()
  sendapp _ := []
  sendappAck _ _ _ := ()
  recvrec _ := [0]
  recvrecAck _ _ _ := ()
  flush _ := ()
  close _ := ()
  crt _ := (0, List.replicate 256 0)

/-- One byte arrives. (Specification or proof notion; models no line of /repo.) -/
def drip : Ev := ⟨true, [], some ⟨false, true, false, false, false⟩, .data 1, .data 0, .again⟩

theorem drip_step (s : St Unit) (b : Byte) (N : Bytes) (ho : ∀ f, s.w.op f = true) (hh : s.hs = false) (hn : s.net = b :: N) :
    ∃ s', (∀ evs, loop hungry false s (drip :: evs) = loop hungry false s' evs) ∧ (∀ f, s'.w.op f = true) ∧ s'.hs = false ∧ s'.net = N ∧
      s'.w.log.countP Restart = s.w.log.countP Restart + 1 ∧ readOf .peerin s'.w.log = readOf .peerin s.w.log ++ [b] := by
  obtain ⟨⟨op, log⟩, e, hs, rep, net, chd⟩ := s
  have ho' : op = fun _ => true := funext ho
  simp only at hh hn
  subst ho' hh hn
  refine ⟨⟨⟨fun _ => true, log ++ [.eng (.state ⟨false, false, true, false, false⟩), .eng (.wait [.peerin]), .read .peerin [b],
    .eng (.recvrec [b] 1), .alarm]⟩, (), false, rep, N, chd⟩, fun evs => ?_, fun _ => rfl, rfl, rfl, ?_, ?_⟩
  · have h1 : top hungry ⟨⟨fun _ => true, log⟩, e, false, rep, b :: N, chd⟩ drip.pend =
        (⟨false, false, true, false, false⟩, ⟨⟨fun _ => true, log ++ [.eng (.state ⟨false, false, true, false, false⟩)]⟩, e, false, rep, b :: N, chd⟩) := rfl
    have h2 : ∀ l, rest hungry false ⟨false, false, true, false, false⟩ ⟨⟨fun _ => true, l⟩, e, false, rep, b :: N, chd⟩ drip =
        .ok (⟨⟨fun _ => true, l ++ [.eng (.wait [.peerin])] ++ [.read .peerin [b]] ++ [.eng (.recvrec [b] 1)] ++ [.alarm]⟩, (), false, rep, N, chd⟩, none) :=
      fun _ => rfl
    rw [loop, h1]
    simp only [h2]
    simp
  · simp [List.countP_append, List.countP_cons, Restart]
  · simp [readOf_append, readOf_cons, readOf_nil, Act.readOn]

/-- The handshake timeout does not limit the handshake: the first bytes from the client
replace it by the inactivity timeout. A client that sends one byte at a time, each before
the inactivity timeout ends, holds the wrapper in the handshake for as long as it
likes. -/
theorem c73_handshake_unlimited (N C : Bytes) : ∃ s, loop hungry false (start (fun _ => true) () false N C) (List.replicate N.length drip) = .ok (s, none) ∧
    s.hs = false ∧ readOf .peerin s.w.log = N ∧ s.w.log.countP Restart = N.length := by
  suffices h : ∀ (N : Bytes) (s : St Unit), (∀ f, s.w.op f = true) → s.hs = false → s.net = N →
      ∃ s', loop hungry false s (List.replicate N.length drip) = .ok (s', none) ∧ s'.hs = false ∧
        readOf .peerin s'.w.log = readOf .peerin s.w.log ++ N ∧ s'.w.log.countP Restart = s.w.log.countP Restart + N.length by
    obtain ⟨s', h1, h2, h3, h4⟩ := h N (start (fun _ => true) () false N C) (fun _ => rfl) rfl rfl
    exact ⟨s', h1, h2, by simpa [start, readOf_nil] using h3, by simpa [start] using h4⟩
  intro N
  induction N with
  | nil =>
    intro s _ hh _
    exact ⟨s, rfl, hh, by simp, by simp⟩
  | cons b N ih =>
    intro s ho hh hn
    obtain ⟨s1, h1, h2, h3, h4, h5, h6⟩ := drip_step s b N ho hh hn
    obtain ⟨s2, g1, g2, g3, g4⟩ := ih s1 h2 h3 h4
    refine ⟨s2, ?_, g2, ?_, ?_⟩
    · rw [List.length_cons, List.replicate_succ, h1]
      exact g1
    · rw [g3, h6]; simp
    · rw [g4, h5, List.length_cons]; omega

end Tls
end Relay
