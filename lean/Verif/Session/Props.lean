import Verif.Session.Spec
import Verif.Relay.ClearProps
import Verif.Relay.TlsProps
import Verif.Main.ChildProps
/-
C89: the parts of a session fit together. From the bytes the client sends to the
program's standard input, across the preamble, the cleartext phase, the switch, the
encrypted phase and the second process.
-/
namespace Session
open Io Relay Pipe.Spec

/-! ### The cleartext phase does not touch the engine -/

/-- No exchange with the engine. -/
def NoEng (log : List (Act Fd)) : Prop := ∀ x, Act.eng x ∉ log

theorem noEng_act {w : W} (h : NoEng w.log) (a : Act Fd) (ha : ∀ x, a ≠ .eng x) : NoEng (w.act a).log := by
  intro x hx
  rcases List.mem_append.mp hx with hx | hx
  · exact h x hx
  · exact ha x (List.mem_singleton.mp hx).symm

theorem noEng_close {w : W} (h : NoEng w.log) (f : Fd) : NoEng (w.close f).log := by
  unfold W.close
  split
  · intro x hx
    rcases List.mem_append.mp hx with hx | hx
    · exact h x hx
    · cases (List.mem_singleton.mp hx)
  · exact h

theorem noEng_propagate {s : Clear.St} (h : NoEng s.w.log) : NoEng (Clear.propagate s).w.log := by
  have step : ∀ (s : Clear.St) (c : Prop) [Decidable c] (f : Fd), NoEng s.w.log →
      NoEng (if c then { s with w := s.w.close f } else s).w.log := by
    intro s c _ f h
    split
    · exact noEng_close h f
    · exact h
  unfold Clear.propagate
  exact step _ _ _ (step _ _ _ h)

theorem noEng_selfpipe {w : W} (h : NoEng w.log) (ev : SigEv) : NoEng (selfpipeEvent w ev).1.log := by
  unfold selfpipeEvent
  split
  · exact h
  · exact h
  · rename_i c
    have h' := noEng_act h (.sig c) (by simp)
    simp only
    split
    · exact noEng_act (noEng_close h' _) _ (by simp)
    · split
      · exact noEng_act (noEng_close (noEng_close (noEng_close (noEng_close h' _) _) _) _) _ (by simp)
      · exact h'

theorem noEng_accept {s : Clear.St} (h : NoEng s.w.log) (ev : Clear.Ev) : NoEng (Clear.accept s ev).1.w.log := by
  have h' := noEng_close h .ctl
  unfold Clear.accept
  simp only
  split
  · exact h'
  · generalize hs : (if s.tochild.len ≠ 0 then ({ s with w := s.w.close .ctl, tochild := { s.tochild with len := 0 } } : Clear.St)
      else { s with w := s.w.close .ctl }) = s1
    have h1 : NoEng s1.w.log := by rw [← hs]; split <;> exact h'
    cases Rw.writeall ⟨[], ev.ackw⟩ [0] with
    | none => exact h1
    | some v =>
      obtain ⟨r, fd⟩ := v
      simp only
      have h2 : NoEng (if fd.out = [] then s1 else { s1 with w := s1.w.act (.write .ack fd.out) }).w.log := by
        split
        · exact h1
        · exact noEng_act h1 _ (by simp)
      split
      · exact h2
      · exact noEng_close h2 _

theorem noEng_ctl {s : Clear.St} (h : NoEng s.w.log) (ev : Clear.Ev) : NoEng (Clear.doFromCtl s ev).1.w.log := by
  unfold Clear.doFromCtl
  split
  · exact h
  · exact h
  · exact noEng_close (noEng_act h _ (by simp)) _
  · simp only
    split
    · exact noEng_close (noEng_act h _ (by simp)) _
    · split
      · exact noEng_act h _ (by simp)
      · split
        · exact noEng_act h _ (by simp)
        · exact noEng_accept (noEng_act h _ (by simp)) ev

theorem noEng_body {s s' : Clear.St} {ev : Clear.Ev} {why : Option Clear.Why} (h : NoEng s.w.log)
    (e : Clear.body s ev = .ok (s', why)) : NoEng s'.w.log := by
  unfold Clear.body at e
  simp only at e
  split at e
  · unfold Clear.doToPeer at e
    cases hw : writeFrom s.tonet ev.wr with
    | ub => rw [hw] at e; cases e
    | ok v =>
      obtain ⟨r, b⟩ := v
      rw [hw] at e
      cases r <;> cases e
      · exact h
      · exact noEng_close (noEng_act h _ (by simp)) _
      · exact noEng_act h _ (by simp)
  split at e
  · unfold Clear.doFromChild at e
    cases hw : readInto Clear.size s.tonet s.chd ev.rd with
    | ub => rw [hw] at e; cases e
    | ok v =>
      obtain ⟨r, b, src⟩ := v
      rw [hw] at e
      cases r <;> cases e
      · exact h
      · exact noEng_close (noEng_act h _ (by simp)) _
      · exact noEng_act (noEng_act h _ (by simp)) _ (by simp)
  split at e
  · have := congrArg Prod.fst (Out.ok.inj e)
    rw [← show (Clear.doFromCtl s ev).1 = s' from this]
    exact noEng_ctl h ev
  split at e
  · unfold Clear.doToChild at e
    cases hw : writeFrom s.tochild ev.wr with
    | ub => rw [hw] at e; cases e
    | ok v =>
      obtain ⟨r, b⟩ := v
      rw [hw] at e
      cases r <;> cases e
      · exact h
      · exact noEng_close (noEng_act h _ (by simp)) _
      · exact noEng_act h _ (by simp)
  split at e
  · unfold Clear.doFromPeer at e
    cases hw : readInto Clear.size s.tochild s.net ev.rd with
    | ub => rw [hw] at e; cases e
    | ok v =>
      obtain ⟨r, b, src⟩ := v
      rw [hw] at e
      cases r <;> cases e
      · exact h
      · exact noEng_close (noEng_act h _ (by simp)) _
      · exact noEng_act (noEng_act h _ (by simp)) _ (by simp)
  split at e
  · have := congrArg Prod.fst (Out.ok.inj e)
    rw [← show (Clear.doSelfpipe s ev).1 = s' from this]
    exact noEng_selfpipe h ev.sig
  · cases e; exact h

theorem noEng_loop (evs : List Clear.Ev) : ∀ {s s' : Clear.St} {why : Option Clear.Why}, NoEng s.w.log →
    Clear.loop s evs = .ok (s', why) → NoEng s'.w.log := by
  induction evs with
  | nil =>
    intro s s' why h e
    simp only [Clear.loop] at e
    split at e <;> cases e <;> exact noEng_propagate h
  | cons ev evs ih =>
    intro s s' why h e
    simp only [Clear.loop] at e
    split at e
    · cases e; exact noEng_propagate h
    · cases hb : Clear.body (Clear.propagate s) ev with
      | ub => rw [hb] at e; cases e
      | ok v =>
        obtain ⟨t, y⟩ := v
        rw [hb] at e
        have ht := noEng_body (noEng_propagate h) hb
        cases y with
        | some y => cases e; exact ht
        | none => exact ih ht e

/-! ### What reaches the child's input -/

theorem input_clear (log : List (Act Fd)) (h : NoEng log) : log.flatMap input1 = wroteOf .childin log := by
  induction log with
  | nil => rfl
  | cons a log ih =>
    have hr := ih (fun x hx => h x (by simp [hx]))
    have ha : input1 a = a.wroteOn .childin := by
      cases a with
      | eng x => exact absurd (List.mem_cons_self ..) (h x)
      | write f d => cases f <;> rfl
      | _ => rfl
    rw [List.flatMap_cons, hr, ha]
    rfl

theorem input_rep (log : List (Act Fd)) (h : Tls.users log = []) : log.flatMap input1 = wroteOf .childin log := by
  induction log with
  | nil => rfl
  | cons a log ih =>
    have h2 : Tls.user1 a ++ Tls.users log = [] := h
    rw [List.append_eq_nil_iff] at h2
    have ha : input1 a = a.wroteOn .childin := by
      cases a with
      | eng x => cases x <;> first | rfl | (exact absurd h2.1 (by simp [Tls.user1]))
      | write f d => cases f <;> rfl
      | _ => rfl
    rw [List.flatMap_cons, ih h2.2, ha]
    rfl

theorem ordered_pre {a b : List (Act Fd)} (h : Tls.Ordered (a ++ b)) : Tls.Ordered a := by
  intro p x q hp
  exact h p x (q ++ b) (by rw [hp]; simp)

/-- With an engine that is `Ordered`, the record comes before everything else. -/
theorem input_first {op0 : Fd → Bool} {fromcert : Bool} (log : List (Act Fd)) :
    Always (Tls.Allowed op0 fromcert false) log → Tls.Ordered log →
    log.flatMap input1 = (Tls.users log).flatten ++ wroteOf .childin log ∧ (Tls.users log = [] → wroteOf .childin log = []) := by
  refine snoc_ind (P := fun log => Always (Tls.Allowed op0 fromcert false) log → Tls.Ordered log →
    log.flatMap input1 = (Tls.users log).flatten ++ wroteOf .childin log ∧ (Tls.users log = [] → wroteOf .childin log = [])) ?_ ?_ log
  · intro _ _; exact ⟨rfl, fun _ => rfl⟩
  · intro l a ih ha ho
    have hl : Always (Tls.Allowed op0 fromcert false) l := fun p x q hp => ha p x (q ++ [a]) (by rw [hp]; simp)
    obtain ⟨i1, i2⟩ := ih hl (ordered_pre ho)
    have hal := ha l a [] rfl
    rw [List.flatMap_append, Tls.users_append, wroteOf_append, Tls.users_one, Tls.wroteOf_one, i1]
    have keep : ∀ (x : Bytes), input1 a = [] → a.wroteOn .childin = [] → Tls.user1 a = [] →
        ((Tls.users l).flatten ++ wroteOf .childin l ++ [a].flatMap input1 =
          (Tls.users l ++ Tls.user1 a).flatten ++ (wroteOf .childin l ++ a.wroteOn .childin) ∧
        (Tls.users l ++ Tls.user1 a = [] → wroteOf .childin l ++ a.wroteOn .childin = [])) := by
      intro _ e1 e2 e3
      rw [List.flatMap_singleton, e1, e2, e3]
      simpa using i2
    cases a with
    | eng x =>
      cases x with
      | user d =>
        obtain ⟨_, _, hu, _⟩ := hal
        rw [hu, i2 hu]
        exact ⟨by simp [input1, Tls.user1, Act.wroteOn], by simp [Tls.user1]⟩
      | _ => exact keep [] rfl rfl rfl
    | write f d =>
      cases f with
      | childin =>
        obtain ⟨_, _, _, _, hu⟩ := hal
        obtain ⟨u, hu, _⟩ := hu rfl (ordered_pre ho)
        rw [hu]
        exact ⟨by simp [input1, Tls.user1, Act.wroteOn], by simp⟩
      | _ => exact keep [] rfl rfl rfl
    | _ => exact keep [] rfl rfl rfl

/-! ### The preamble -/

theorem sendAll_frames (ms : List Bytes) : ∀ {fd fd' : WFd}, (∀ m ∈ ms, m.length < 2 ^ 63) →
    sendAll fd ms = some (some fd') → ∃ s, Frames s ms ∧ fd'.out = fd.out ++ s := by
  induction ms with
  | nil => intro fd fd' _ h; cases h; exact ⟨[], .nil, by simp⟩
  | cons m ms ih =>
    intro fd fd' hl h
    simp only [sendAll] at h
    cases hw : Pipe.pipe_write fd m with
    | none => rw [hw] at h; cases h
    | some v =>
      obtain ⟨r, fd1⟩ := v
      rw [hw] at h
      rcases Tls.pipe_write_result hw with rfl | rfl
      · simp only [show ¬ ((0 : Int) = -1) from by decide, if_false] at h
        obtain ⟨f, hf, e⟩ := Pipe.c17_write fd fd1 m (hl m (by simp)) hw
        obtain ⟨s, hs, e2⟩ := ih (fun x hx => hl x (by simp [hx])) h
        exact ⟨f ++ s, .cons hf hs, by rw [e2, e, List.append_assoc]⟩
      · simp at h

/-- The first part of the child's input, with the frames apart. -/
theorem sendAll_preamble {delayed : Bool} {ends : Proxy.Ends} {wevs : List WrEv} {fd : WFd} (h1 : ends.localip.length = 16)
    (h2 : ends.remoteip.length = 16) (h : sendAll ⟨[], wevs⟩ (preamble delayed ends) = some (some fd)) :
    ∃ f1 f2 f3 f4, Frame f1 ends.localip ∧ Frame f2 [ends.localport.1, ends.localport.2] ∧ Frame f3 ends.remoteip ∧
      Frame f4 [ends.remoteport.1, ends.remoteport.2] ∧
      if delayed then ∃ f5, Frame f5 [0] ∧ fd.out = f1 ++ (f2 ++ (f3 ++ (f4 ++ f5)))
      else fd.out = f1 ++ (f2 ++ (f3 ++ f4)) := by
  obtain ⟨s, hs, e⟩ := sendAll_frames _ (fun m hm => by
    simp only [preamble] at hm
    cases delayed <;> simp at hm <;> rcases hm with rfl | rfl | rfl | rfl | rfl <;> simp [h1, h2]) h
  simp only [List.nil_append] at e
  cases delayed with
  | false =>
    simp only [preamble, Bool.false_eq_true, if_false, List.append_nil] at hs ⊢
    obtain _ | ⟨a1, hs⟩ := hs
    obtain _ | ⟨a2, hs⟩ := hs
    obtain _ | ⟨a3, hs⟩ := hs
    obtain _ | ⟨a4, hs⟩ := hs
    cases hs
    exact ⟨_, _, _, _, a1, a2, a3, a4, by rw [e]; simp⟩
  | true =>
    simp only [preamble, if_true, List.cons_append, List.nil_append] at hs ⊢
    obtain _ | ⟨a1, hs⟩ := hs
    obtain _ | ⟨a2, hs⟩ := hs
    obtain _ | ⟨a3, hs⟩ := hs
    obtain _ | ⟨a4, hs⟩ := hs
    obtain _ | ⟨a5, hs⟩ := hs
    cases hs
    exact ⟨_, _, _, _, a1, a2, a3, a4, _, a5, by rw [e]; simp⟩

/-! ### The shape of a run -/

variable {E : Type} {g : Tls.Engine E}

/-- What a session consists of. -/
inductive Shape (g : Tls.Engine E) (e0 : E) (fromcert delayed : Bool) (ends : Proxy.Ends) (m1 m2 N C K : Bytes)
    (wevs : List WrEv) (evs1 : List Clear.Ev) (evs2 : List Tls.Ev) : Run E → Prop where
  | boot : Shape g e0 fromcert delayed ends m1 m2 N C K wevs evs1 evs2 .boot
  | clear (fd : WFd) (s : Clear.St) (why : Option Clear.Why) (hd : delayed = true)
      (hp : sendAll ⟨[], wevs⟩ (preamble delayed ends) = some (some fd))
      (hc : Clear.loop (Clear.start m1 m2 N C K) evs1 = .ok (s, why)) (hw : why ≠ some .starttls) :
      Shape g e0 fromcert delayed ends m1 m2 N C K wevs evs1 evs2 (.clear fd.out s why)
  | switched (fd : WFd) (s : Clear.St) (t : Tls.St E) (y : Option Tls.Why) (hd : delayed = true)
      (hp : sendAll ⟨[], wevs⟩ (preamble delayed ends) = some (some fd))
      (hc : Clear.loop (Clear.start m1 m2 N C K) evs1 = .ok (s, some .starttls))
      (ht : Tls.loop g fromcert (Tls.start s.w.op e0 true s.net s.chd) evs2 = .ok (t, y)) :
      Shape g e0 fromcert delayed ends m1 m2 N C K wevs evs1 evs2 (.tls fd.out s.w.log t y)
  | direct (fd : WFd) (t : Tls.St E) (y : Option Tls.Why) (hd : delayed = false)
      (hp : sendAll ⟨[], wevs⟩ (preamble delayed ends) = some (some fd))
      (ht : Tls.loop g fromcert (Tls.start noCtl.op e0 false N C) evs2 = .ok (t, y)) :
      Shape g e0 fromcert delayed ends m1 m2 N C K wevs evs1 evs2 (.tls fd.out noCtl.log t y)

/-- A session is never undefined. -/
theorem shape (hg : g.Sized) (e0 : E) (fromcert delayed : Bool) (ends : Proxy.Ends) (m1 m2 N C K : Bytes) (h1 : m1.length = 8192)
    (h2 : m2.length = 8192) (wevs : List WrEv) (evs1 : List Clear.Ev) (evs2 : List Tls.Ev) :
    ∃ r, session g e0 fromcert delayed ends m1 m2 N C K wevs evs1 evs2 = .ok r ∧
      Shape g e0 fromcert delayed ends m1 m2 N C K wevs evs1 evs2 r := by
  unfold session
  cases hs : sendAll ⟨[], wevs⟩ (preamble delayed ends) with
  | none => exact ⟨_, rfl, .boot⟩
  | some o =>
    cases o with
    | none => exact ⟨_, rfl, .boot⟩
    | some fd =>
      cases delayed with
      | false =>
        obtain ⟨t, y, e⟩ := Tls.c45_defined (g := g) hg noCtl.op fromcert false e0 N C evs2
        simp only [Bool.false_eq_true, if_false, e, Out.ok_bind]
        exact ⟨_, rfl, .direct fd t y rfl hs e⟩
      | true =>
        obtain ⟨s, why, e, _⟩ := Clear.c41_relay m1 m2 N C K h1 h2 evs1
        simp only [if_true, e, Out.ok_bind, afterClear]
        by_cases hw : why = some .starttls
        · subst hw
          obtain ⟨t, y, e2⟩ := Tls.c45_defined (g := g) hg s.w.op fromcert true e0 s.net s.chd evs2
          simp only [if_true, e2, Out.ok_bind]
          exact ⟨_, rfl, .switched fd s t y rfl hs e e2⟩
        · rw [if_neg hw]
          exact ⟨_, rfl, .clear fd s why rfl hs e hw⟩

theorem shape_of (hg : g.Sized) {e0 : E} {fromcert delayed : Bool} {ends : Proxy.Ends} {m1 m2 N C K : Bytes} (h1 : m1.length = 8192)
    (h2 : m2.length = 8192) {wevs : List WrEv} {evs1 : List Clear.Ev} {evs2 : List Tls.Ev} {r : Run E}
    (h : session g e0 fromcert delayed ends m1 m2 N C K wevs evs1 evs2 = .ok r) :
    Shape g e0 fromcert delayed ends m1 m2 N C K wevs evs1 evs2 r := by
  obtain ⟨r', e, hs⟩ := shape hg e0 fromcert delayed ends m1 m2 N C K h1 h2 wevs evs1 evs2
  rw [h] at e
  cases e
  exact hs

/-! ### C89 -/

/-- C89: a session is never undefined, and without delayed encryption there is no
cleartext phase. -/
theorem c89_defined (hg : g.Sized) (e0 : E) (fromcert delayed : Bool) (ends : Proxy.Ends) (m1 m2 N C K : Bytes)
    (h1 : m1.length = 8192) (h2 : m2.length = 8192) (wevs : List WrEv) (evs1 : List Clear.Ev) (evs2 : List Tls.Ev) :
    ∃ r, session g e0 fromcert delayed ends m1 m2 N C K wevs evs1 evs2 = .ok r ∧
      (delayed = false → r = .boot ∨ ∃ pre t y, r = .tls pre [.close .ctl, .close .ack] t y) := by
  obtain ⟨r, e, hs⟩ := shape hg e0 fromcert delayed ends m1 m2 N C K h1 h2 wevs evs1 evs2
  refine ⟨r, e, fun hd => ?_⟩
  cases hs with
  | boot => exact .inl rfl
  | clear fd s why hd' => rw [hd] at hd'; cases hd'
  | switched fd s t y hd' => rw [hd] at hd'; cases hd'
  | direct fd t y => exact .inr ⟨_, _, _, rfl⟩

/-- C89: the switch. Of the client's bytes a first part reached the child in clear, a second
part was received before the switch and dropped, and the TLS engine was given exactly the
bytes that follow; after the switch the child receives nothing but what the engine
decrypted. Towards the client: everything the child wrote before the switch, in clear;
after it nothing but the engine's records, and the engine was given the child's output
from exactly there. The switch followed the child's request, one zero byte, and was
acknowledged. -/
theorem c89_switch (hg : g.Sized) (e0 : E) (fromcert : Bool) (ends : Proxy.Ends) (m1 m2 N C K : Bytes)
    (h1 : m1.length = 8192) (h2 : m2.length = 8192) (wevs : List WrEv) (evs1 : List Clear.Ev) (evs2 : List Tls.Ev)
    (pre : Bytes) (cl : List (Act Fd)) (t : Tls.St E) (y : Option Tls.Why)
    (h : session g e0 fromcert true ends m1 m2 N C K wevs evs1 evs2 = .ok (.tls pre cl t y)) :
    (∃ dropped rest, N = wroteOf .childin cl ++ (dropped ++ (Tls.gaveRec t.w.log ++ rest))) ∧
    wroteOf .childin t.w.log = Tls.tookApp t.w.log ∧ Tls.users t.w.log = [] ∧
    (∃ rest, C = wroteOf .peerout cl ++ (Tls.gaveApp t.w.log ++ rest)) ∧
    wroteOf .peerout t.w.log = Tls.tookRec t.w.log ∧
    NoEng cl ∧ readOf .ctl cl = [0] ∧ wroteOf .ack cl = [0] := by
  have hs := shape_of hg h1 h2 h
  cases hs with
  | direct fd t y hd => cases hd
  | switched fd s t y hd hp hc ht =>
    obtain ⟨s', why', e', hpost⟩ := Clear.loop_post evs1 (Clear.run_start m1 m2 N C K h1 h2)
    rw [hc] at e'; cases e'
    obtain ⟨_, _, _, _, _, _, ⟨dropped, p7, _⟩, p8, p9, _⟩ := hpost
    have hsw := (Clear.c43_switch m1 m2 N C K h1 h2 evs1 s _ hc).2 rfl
    have hm := Tls.c45_moved hg s.w.op fromcert true e0 s.net s.chd evs2 t y ht
    obtain ⟨b1, b2, b3, b4, ⟨x, b5⟩, ⟨z, b6⟩⟩ := hm
    refine ⟨⟨dropped, z, ?_⟩, b1, (Tls.c44_at_most_once hg _ _ _ _ _ _ _ _ _ ht).2 rfl, ⟨x, ?_⟩, b2,
      noEng_loop evs1 (fun _ h => by cases h) hc, hsw.2.1, hsw.1⟩
    · rw [← p8, p7, b6, List.append_assoc]
    · rw [← p9, hsw.2.2.1, b5]

/-- C89: a session that is encrypted from the start. -/
theorem c89_direct (hg : g.Sized) (e0 : E) (fromcert : Bool) (ends : Proxy.Ends) (m1 m2 N C K : Bytes)
    (h1 : m1.length = 8192) (h2 : m2.length = 8192) (wevs : List WrEv) (evs1 : List Clear.Ev) (evs2 : List Tls.Ev)
    (pre : Bytes) (cl : List (Act Fd)) (t : Tls.St E) (y : Option Tls.Why)
    (h : session g e0 fromcert false ends m1 m2 N C K wevs evs1 evs2 = .ok (.tls pre cl t y)) :
    Tls.gaveRec t.w.log <+: N ∧ wroteOf .childin t.w.log = Tls.tookApp t.w.log ∧
    Tls.gaveApp t.w.log <+: C ∧ wroteOf .peerout t.w.log = Tls.tookRec t.w.log ∧ (Tls.users t.w.log).length ≤ 1 := by
  have hs := shape_of hg h1 h2 h
  cases hs with
  | switched fd s t y hd => cases hd
  | direct fd t y hd hp ht =>
    have hm := Tls.c45_moved hg noCtl.op fromcert false e0 N C evs2 t y ht
    obtain ⟨b1, b2, b3, b4, b5, b6⟩ := hm
    exact ⟨b6, b1, b5, b2, (Tls.c44_at_most_once hg _ _ _ _ _ _ _ _ _ ht).1⟩

/-- C89: a session that stays in clear does so only with delayed encryption and without an
acknowledged request; both sides received a prefix of what the other sent. -/
theorem c89_clear (hg : g.Sized) (e0 : E) (fromcert delayed : Bool) (ends : Proxy.Ends) (m1 m2 N C K : Bytes)
    (h1 : m1.length = 8192) (h2 : m2.length = 8192) (wevs : List WrEv) (evs1 : List Clear.Ev) (evs2 : List Tls.Ev)
    (pre : Bytes) (s : Clear.St) (why : Option Clear.Why)
    (h : session g e0 fromcert delayed ends m1 m2 N C K wevs evs1 evs2 = .ok (.clear pre s why)) :
    delayed = true ∧ why ≠ some .starttls ∧ NoEng s.w.log ∧ wroteOf .childin s.w.log <+: N ∧ wroteOf .peerout s.w.log <+: C := by
  have hs := shape_of hg h1 h2 h
  cases hs with
  | clear fd s why hd hp hc hw =>
    obtain ⟨s', why', e', hpost⟩ := Clear.loop_post evs1 (Clear.run_start m1 m2 N C K h1 h2)
    rw [hc] at e'; cases e'
    obtain ⟨_, _, _, _, _, p6, ⟨dropped, p7, _⟩, p8, p9, _⟩ := hpost
    refine ⟨hd, hw, noEng_loop evs1 (fun _ h => by cases h) hc, ⟨dropped ++ s.net, ?_⟩, ⟨s.tonet.data ++ s.chd, ?_⟩⟩
    · rw [← p8, p7, List.append_assoc]
    · rw [← p9, p6, List.append_assoc]

/-! #### The program -/

theorem frame_nil {f m tl : Bytes} (h : Frame f m) (e : [] = f ++ tl) : False := by
  obtain ⟨a, ⟨ha, _⟩, rfl⟩ := h
  have := congrArg List.length e
  simp at this
  omega

/-- C89, delayed encryption: if the second process, reading what the session has put into
its input, starts the program, then the program runs with exactly this connection's
endpoints in its environment, and its standard input starts with exactly the application's bytes: those
delivered in clear, then the decrypted ones. -/
theorem c89_program_delayed (hg : g.Sized) (e0 : E) (fromcert : Bool) (ends : Proxy.Ends) (he1 : ends.localip.length = 16)
    (he2 : ends.remoteip.length = 16) (m1 m2 N C K : Bytes)
    (h1 : m1.length = 8192) (h2 : m2.length = 8192) (wevs : List WrEv) (evs1 : List Clear.Ev) (evs2 : List Tls.Ev) (r : Run E)
    (h : session g e0 fromcert true ends m1 m2 N C K wevs evs1 evs2 = .ok r)
    (cd : Proxy.IpCodec) (w1 w2 : Jail.World) (hw1 : Main.Honest w1) (hw2 : Main.Honest w2) (execs : Bool) (o : Main.Opts)
    (env : ConnInfo.Env) (p q : Jail.Proc) (revs : List RdEv) (rr : RFd)
    (hc : Main.childMain cd w1 w2 execs o env p ⟨r.input, revs⟩ = some (.ok (.exec q rr))) :
    rr.src = wroteOf .childin r.log ∧ (∀ n ∈ ConnInfo.names, q.env n = some (ConnInfo.textOf cd ends n)) ∧
    (∀ u, o.user = some u → Main.RunsAs w2 u q) := by
  have hs := shape_of hg h1 h2 h
  obtain ⟨e, rec, hpre, _, henv, _, hrun⟩ := Main.c70_program cd w1 w2 hw1 hw2 execs o env p q _ rr hc
  have key : ∀ {pre tl : Bytes}, (∃ f1 f2 f3 f4, Frame f1 ends.localip ∧ Frame f2 [ends.localport.1, ends.localport.2] ∧
      Frame f3 ends.remoteip ∧ Frame f4 [ends.remoteport.1, ends.remoteport.2] ∧
      if true = true then ∃ f5, Frame f5 [0] ∧ pre = f1 ++ (f2 ++ (f3 ++ (f4 ++ f5)))
      else pre = f1 ++ (f2 ++ (f3 ++ f4))) → Main.Preamble (pre ++ tl) ends [0] tl := by
    rintro pre tl ⟨f1, f2, f3, f4, a1, a2, a3, a4, hx⟩
    rw [if_pos rfl] at hx
    obtain ⟨f5, a5, rfl⟩ := hx
    exact ⟨⟨f1, f2, f3, f4, f5, a1, a2, a3, a4, a5, by simp⟩, he1, he2⟩
  have fin : ∀ {tl : Bytes}, Main.Preamble r.input ends [0] tl → tl = wroteOf .childin r.log →
      rr.src = wroteOf .childin r.log ∧ (∀ n ∈ ConnInfo.names, q.env n = some (ConnInfo.textOf cd ends n)) ∧
      (∀ u, o.user = some u → Main.RunsAs w2 u q) := by
    intro tl hq ht
    obtain ⟨rfl, rfl, hx⟩ := Main.preamble_unique hpre hq
    refine ⟨hx.trans ht, henv, ?_⟩
    exact (hrun [] rfl (by intro b hb; cases hb)).1
  cases hs with
  | boot =>
    obtain ⟨f1, f2, f3, f4, f5, a1, a2, a3, a4, a5, x⟩ := hpre.frames
    exact (frame_nil a1 x).elim
  | clear fd s why hd hp hcl hw =>
    refine fin (key (sendAll_preamble he1 he2 hp)) ?_
    exact input_clear _ (noEng_loop evs1 (fun _ h => by cases h) hcl)
  | switched fd s t y hd hp hcl ht =>
    refine fin (key (sendAll_preamble he1 he2 hp)) ?_
    rw [List.flatMap_append, input_clear _ (noEng_loop evs1 (fun _ h => by cases h) hcl),
      input_rep _ ((Tls.c44_at_most_once hg _ _ _ _ _ _ _ _ _ ht).2 rfl), ← wroteOf_append]
    rfl
  | direct fd t y hd => cases hd

/-- C89, encryption from the start: the program is started only after the handshake is
complete. It runs with this connection's endpoints, under the account that was reported
(if there is one to be taken from the certificate), and its standard input starts with exactly the decrypted bytes. -/
theorem c89_program (hg : g.Sized) (e0 : E) (fromcert : Bool) (ends : Proxy.Ends) (he1 : ends.localip.length = 16)
    (he2 : ends.remoteip.length = 16) (m1 m2 N C K : Bytes)
    (h1 : m1.length = 8192) (h2 : m2.length = 8192) (wevs : List WrEv) (evs1 : List Clear.Ev) (evs2 : List Tls.Ev) (r : Run E)
    (h : session g e0 fromcert false ends m1 m2 N C K wevs evs1 evs2 = .ok r) (ho : Tls.Ordered r.log)
    (cd : Proxy.IpCodec) (w1 w2 : Jail.World) (hw1 : Main.Honest w1) (hw2 : Main.Honest w2) (execs : Bool) (o : Main.Opts)
    (env : ConnInfo.Env) (p q : Jail.Proc) (revs : List RdEv) (rr : RFd)
    (hc : Main.childMain cd w1 w2 execs o env p ⟨r.input, revs⟩ = some (.ok (.exec q rr))) :
    Tls.CanSend r.log ∧ rr.src = Tls.tookApp r.log ∧
    (∀ n ∈ ConnInfo.names, q.env n = some (ConnInfo.textOf cd ends n)) ∧
    ∃ d a, Tls.users r.log = [d] ∧ Frame d (a ++ [0]) ∧ NoNul a ∧ (fromcert = true → c! '@' ∉ a) ∧
      (∀ u, o.user = some u → Main.RunsAs w2 u q) ∧
      (o.user = none → o.userfromcert = true → a ≠ [] → Main.RunsAs w1 a q) := by
  have hs := shape_of hg h1 h2 h
  obtain ⟨e, rec, hpre, _, henv, _, hrun⟩ := Main.c70_program cd w1 w2 hw1 hw2 execs o env p q _ rr hc
  cases hs with
  | boot =>
    obtain ⟨f1, f2, f3, f4, f5, a1, a2, a3, a4, a5, x⟩ := hpre.frames
    exact (frame_nil a1 x).elim
  | clear fd s why hd => cases hd
  | switched fd s t y hd => cases hd
  | direct fd t y hd hp ht =>
    have hf := Tls.run_fin hg ht
    have hin : (noCtl.log ++ t.w.log).flatMap input1 = t.w.log.flatMap input1 := by
      rw [List.flatMap_append]; rfl
    have hol : Tls.Ordered t.w.log := by
      intro p x q hq st hx hr
      rcases ho (noCtl.log ++ p) x q (by show noCtl.log ++ t.w.log = _; rw [hq]; simp) st hx hr with h | ⟨st', h, h'⟩
      · exact .inl h
      · refine .inr ⟨st', ?_, h'⟩
        rcases List.mem_append.mp h with h | h
        · exact absurd h (by intro hh; cases hh with | tail _ hh => cases hh with | tail _ hh => cases hh)
        · exact h
    obtain ⟨k1, k2⟩ := input_first t.w.log hf.wi.al hol
    obtain ⟨f1, f2, f3, f4, a1, a2, a3, a4, hx⟩ := sendAll_preamble he1 he2 hp
    simp only [Bool.false_eq_true, if_false] at hx
    have happ : ∀ l, Tls.tookApp (noCtl.log ++ l) = Tls.tookApp l := fun l => by rw [Tls.tookApp_append]; rfl
    have husr : ∀ l, Tls.users (noCtl.log ++ l) = Tls.users l := fun l => by rw [Tls.users_append]; rfl
    have hinp : (Run.tls fd.out noCtl.log t y).input = fd.out ++ ((Tls.users t.w.log).flatten ++ wroteOf .childin t.w.log) := by
      show fd.out ++ (noCtl.log ++ t.w.log).flatMap input1 = _
      rw [hin, k1]
    show Tls.CanSend (noCtl.log ++ t.w.log) ∧ rr.src = Tls.tookApp (noCtl.log ++ t.w.log) ∧ _ ∧
      ∃ d a, Tls.users (noCtl.log ++ t.w.log) = [d] ∧ _
    rw [happ, husr]
    -- what follows the endpoints is a whole record
    obtain ⟨g1, g2, g3, g4, g5, b1, b2, b3, b4, b5, x⟩ := hpre.frames
    simp only at x
    rw [hinp, hx] at x
    simp only [List.append_assoc] at x
    obtain ⟨_, x⟩ := Main.frame_unique a1 b1 x
    obtain ⟨_, x⟩ := Main.frame_unique a2 b2 x
    obtain ⟨_, x⟩ := Main.frame_unique a3 b3 x
    obtain ⟨_, x⟩ := Main.frame_unique a4 b4 x
    have unsent : ¬ Tls.Unsent t.w.log := by
      rintro (hu | ⟨l, d, z, m, hl, hu, hfr, hz⟩)
      · rw [hu, k2 hu] at x
        exact frame_nil b5 x
      · have hal : Always (Tls.Allowed noCtl.op fromcert false) l := fun p x q hp => hf.wi.al p x (q ++ [.eng (.user d)]) (by rw [hl, hp]; simp)
        have k3 := (input_first l hal (ordered_pre (by rw [← hl]; exact hol))).2 hu
        rw [hl, Tls.users_append, wroteOf_append, hu, k3] at x
        have x : d = g5 ++ rr.src := by simpa [Tls.users, Tls.user1, wroteOf, Act.wroteOn] using x
        have := (Main.frame_unique (s := []) (s' := rr.src ++ z) hfr b5 (by rw [x]; simp)).2
        simp at this
        exact hz this.2
    have hi : Tls.Inv noCtl.op fromcert false N C t := by
      refine hf.r0 ?_
      cases y with
      | none => simp
      | some y =>
        cases y with
        | noName => exact absurd (.inl (hf.r7 rfl).2) unsent
        | userFailed => exact absurd (hf.r8 (.inr (.inl rfl))).2 unsent
        | userBlocked => exact absurd (hf.r8 (.inr (.inr rfl))).2 unsent
        | _ => simp
    cases hhs : t.hs with
    | false => exact absurd (.inl (hi.ui.u2 hhs)) unsent
    | true =>
      obtain ⟨d, hu, nm, n1, n2, n3, n4⟩ := hi.ui.u4 rfl hhs
      have hq : Main.Preamble (Run.tls fd.out noCtl.log t y).input ends (nm ++ [0]) (wroteOf .childin t.w.log) := by
        refine ⟨⟨f1, f2, f3, f4, d, a1, a2, a3, a4, n4, ?_⟩, he1, he2⟩
        rw [hinp, hx, hu]
        simp
      obtain ⟨rfl, rfl, hx2⟩ := Main.preamble_unique hpre hq
      have hr := hrun nm rfl n1
      refine ⟨?_, hx2.trans hf.wi.b1, henv, d, nm, hu, n4, n1, n2, hr.1, hr.2.1⟩
      have hmem : Act.eng (.user d) ∈ t.w.log := by
        have : d ∈ Tls.users t.w.log := by rw [hu]; simp
        obtain ⟨x, hx1, hx2⟩ := List.mem_flatMap.mp this
        cases x with
        | eng z =>
          cases z with
          | user d' =>
            have : d = d' := by simpa [Tls.user1] using hx2
            rw [this]; exact hx1
          | _ => cases hx2
        | _ => cases hx2
      obtain ⟨pr, po, hsplit⟩ := List.append_of_mem hmem
      obtain ⟨_, _, _, ⟨st, hst, hst2⟩, _⟩ := hf.wi.al pr _ po hsplit
      exact ⟨st, List.mem_append_right _ (by rw [hsplit]; exact List.mem_append_left _ hst), hst2⟩

/-! #### Descriptors -/

/-- A descriptor variable is -1 exactly if its close was recorded, and nothing is done with a
closed one. -/
def Clean (w : W) : Prop := NoUseAfterClose w.log ∧ ∀ f, w.op f = false ↔ Act.close f ∈ w.log

theorem clean_close {w : W} (h : Clean w) (f : Fd) : Clean (w.close f) := by
  unfold W.close
  split
  · rename_i ho
    refine ⟨(always_snoc _ _ _).mpr ⟨h.1, ?_⟩, fun x => ?_⟩
    · intro x hx hm
      cases hx
      rw [(h.2 f).mpr hm] at ho
      cases ho
    · simp only
      by_cases hx : x = f
      · subst hx; simp
      · simp only [if_neg hx, List.mem_append, List.mem_singleton, Act.close.injEq, hx, or_false]
        exact h.2 x
  · exact h

/-- C89: over the whole session and its end, nothing is done with a closed descriptor, and each
of the six descriptors is closed exactly once. -/
theorem c89_fds (hg : g.Sized) (e0 : E) (fromcert delayed : Bool) (ends : Proxy.Ends) (m1 m2 N C K : Bytes)
    (h1 : m1.length = 8192) (h2 : m2.length = 8192) (wevs : List WrEv) (evs1 : List Clear.Ev) (evs2 : List Tls.Ev) (r : Run E)
    (h : session g e0 fromcert delayed ends m1 m2 N C K wevs evs1 evs2 = .ok r) :
    NoUseAfterClose (finish ⟨r.fds, r.log⟩).log ∧
    ∀ f, ∃ pre post, (finish ⟨r.fds, r.log⟩).log = pre ++ .close f :: post ∧ Act.close f ∉ pre ∧ Act.close f ∉ post := by
  have hs := shape_of hg h1 h2 h
  have hclean : Clean ⟨r.fds, r.log⟩ := by
    have hjoin : ∀ {op0 : Fd → Bool} {cl : List (Act Fd)} {rep : Bool} {w : W}, Clean ⟨op0, cl⟩ →
        Tls.WInv op0 fromcert rep w → Clean ⟨w.op, cl ++ w.log⟩ := by
      intro op0 cl rep w hc hw
      refine ⟨?_, fun f => ?_⟩
      · intro pre a post hsp f hf hm
        rcases List.append_eq_append_iff.mp hsp with ⟨x, e1, e2⟩ | ⟨x, e1, e2⟩
        · have hal := hw.al x a post e2
          rw [e1] at hm
          rcases List.mem_append.mp hm with hm | hm
          · exact hal.1 f hf (.inl ((hc.2 f).mpr hm))
          · exact hal.1 f hf (.inr hm)
        · cases x with
          | nil =>
            simp only [List.nil_append] at e2
            have hal := hw.al [] a post e2.symm
            rw [List.append_nil] at e1
            rw [← e1] at hm
            exact hal.1 f hf (.inl ((hc.2 f).mpr hm))
          | cons b x =>
            simp only [List.cons_append, List.cons.injEq] at e2
            obtain ⟨rfl, e2⟩ := e2
            exact hc.1 pre a x e1 f hf hm
      · rw [hw.cl f, List.mem_append, ← hc.2 f]
        exact Iff.rfl
    cases hs with
    | boot => exact ⟨always_nil _, fun f => by simp [Run.fds, Run.log]⟩
    | clear fd s why hd hp hc hw =>
      obtain ⟨s', why', e', hpost⟩ := Clear.loop_post evs1 (Clear.run_start m1 m2 N C K h1 h2)
      rw [hc] at e'; cases e'
      exact ⟨fun pre a post hsp => (hpost.2.1 pre a post hsp).1, hpost.2.2.1⟩
    | switched fd s t y hd hp hc ht =>
      obtain ⟨s', why', e', hpost⟩ := Clear.loop_post evs1 (Clear.run_start m1 m2 N C K h1 h2)
      rw [hc] at e'; cases e'
      exact hjoin (cl := s.w.log) (op0 := s.w.op) ⟨fun pre a post hsp => (hpost.2.1 pre a post hsp).1, hpost.2.2.1⟩ (Tls.run_fin hg ht).wi
    | direct fd t y hd hp ht =>
      exact hjoin (cl := noCtl.log) (op0 := noCtl.op)
        (clean_close (clean_close (w := ⟨fun _ => true, []⟩) ⟨always_nil _, fun f => by simp⟩ .ctl) .ack) (Tls.run_fin hg ht).wi
  have hfin : Clean (finish ⟨r.fds, r.log⟩) :=
    clean_close (clean_close (clean_close (clean_close (clean_close (clean_close hclean _) _) _) _) _) _
  refine ⟨hfin.1, fun f => ?_⟩
  have ho : (finish ⟨r.fds, r.log⟩).op f = false := by
    unfold finish
    cases f
    · exact Tls.close_op_mono _ _ _ (Tls.close_op_mono _ _ _ (Tls.close_op_mono _ _ _ (Tls.close_op_mono _ _ _
        (Tls.close_op_mono _ _ _ (Tls.close_op_self _ _)))))
    · exact Tls.close_op_mono _ _ _ (Tls.close_op_mono _ _ _ (Tls.close_op_mono _ _ _ (Tls.close_op_mono _ _ _
        (Tls.close_op_self _ _))))
    · exact Tls.close_op_self _ _
    · exact Tls.close_op_mono _ _ _ (Tls.close_op_self _ _)
    · exact Tls.close_op_mono _ _ _ (Tls.close_op_mono _ _ _ (Tls.close_op_mono _ _ _ (Tls.close_op_self _ _)))
    · exact Tls.close_op_mono _ _ _ (Tls.close_op_mono _ _ _ (Tls.close_op_self _ _))
  obtain ⟨pre, post, e⟩ := List.append_of_mem ((hfin.2 f).mp ho)
  refine ⟨pre, post, e, hfin.1 pre _ post e f rfl, fun hm => ?_⟩
  obtain ⟨a, b, e2⟩ := List.append_of_mem hm
  refine hfin.1 (pre ++ .close f :: a) (.close f) b (by rw [e, e2]; simp) f rfl ?_
  simp

/-! ### A concrete session -/

def demoClear : List Clear.Ev :=
  [⟨some ⟨false, false, true, false, false, false⟩, .data 3, .data 9, [], .again⟩,
   ⟨some ⟨false, true, false, false, false, false⟩, .data 0, .data 9, [], .again⟩,
   ⟨some ⟨false, false, false, true, false, false⟩, .data 2, .data 9, [], .again⟩,
   ⟨some ⟨true, false, false, false, false, false⟩, .data 0, .data 9, [], .again⟩,
   ⟨some ⟨false, false, true, false, false, false⟩, .data 0, .data 9, [], .again⟩,
   ⟨some ⟨false, false, false, false, true, false⟩, .data 9, .data 9, [.data 0], .again⟩]

/-- The session with delayed encryption: "abcd" reaches the child in clear, "x", received
before the switch, is dropped, "hi!" is decrypted. The network gets "go!" in clear and "ok"
encrypted. -/
def demoRun : Out (Run Tls.Toy) :=
  session (Tls.toy false) ⟨[], 0, [], false⟩ false true Main.sampleEnds (List.replicate 8192 0) (List.replicate 8192 0)
    b!"abcdxhi!" b!"go!ok" [0] (List.replicate 40 (.data 6)) demoClear Tls.demoEvs

def demoView : Out (Run Tls.Toy) → Option (Bytes × Bytes × Bytes)
  | .ok r =>
    match Main.childMain Proxy.cCodec (Jail.sampleWorld fun _ => .none) (Jail.sampleWorld fun _ => .none) true ⟨false, none⟩ [] Jail.rootProc
        ⟨r.input, List.replicate 40 (.data 3)⟩ with
    | some (.ok (.exec _ rr)) => some (rr.src, wroteOf .peerout r.log, wroteOf .childin r.log)
    | _ => none
  | .ub => none

example : demoView demoRun = some (b!"abcdhi!", b!"go!ok", b!"abcdhi!") := by decide +kernel

/-- Encrypted from the start, and one that stays in clear. -/
example : demoView (session (Tls.toy false) ⟨[], 0, [], false⟩ true false Main.sampleEnds (List.replicate 8192 0) (List.replicate 8192 0)
    b!"hi!" b!"ok" [] (List.replicate 40 (.data 6)) [] Tls.demoEvs) = some (b!"hi!", b!"ok", b!"hi!") := by decide +kernel

example : demoView (session (Tls.toy false) ⟨[], 0, [], false⟩ true true Main.sampleEnds (List.replicate 8192 0) (List.replicate 8192 0)
    b!"abcdxhi!" b!"go!ok" [] (List.replicate 40 (.data 6)) (demoClear.take 4) []) = some (b!"abcd", b!"go!", b!"abcd") := by decide +kernel

end Session
