import Verif.Relay.Lemmas
import Verif.Relay.Clear
import Verif.Rw.Props
/-
C41–C43: the cleartext phase before STARTTLS.
-/
namespace Relay.Clear
open Io Relay

/-! ### Specification -/

/-- What the cleartext phase may do at each moment, given everything it did before.

* write to the child / to the network: only bytes already received from the other
  side, in order, nothing skipped or repeated, and only before the acknowledgement;
* acknowledgement: only the one byte 0, only after the child sent exactly the byte
  0 on its control pipe, with both network descriptors open, and when all output of
  the child that was received has been written to the network;
* reads: nothing is received from either side after the control byte;
* close of a writing side: directly after a failed write, or after the opposite side
  ended with everything delivered, or because of SIGCHLD / SIGALRM (child side);
* nothing is done with a closed descriptor. -/
def Allowed (pre : List (Act Fd)) (a : Act Fd) : Prop :=
  (∀ f, a.on = some f → Act.close f ∉ pre) ∧
  match a with
  | .write .childin d => d ≠ [] ∧ wroteOf .childin pre ++ d <+: readOf .peerin pre ∧ wroteOf .ack pre = []
  | .write .peerout d => d ≠ [] ∧ wroteOf .peerout pre ++ d <+: readOf .childout pre ∧ wroteOf .ack pre = []
  | .write .ack d => d = [0] ∧ readOf .ctl pre = [0] ∧ wroteOf .peerout pre = readOf .childout pre ∧
      Act.close .peerin ∉ pre ∧ Act.close .peerout ∉ pre ∧ wroteOf .ack pre = []
  | .write _ _ => False
  | .read .peerin d => d ≠ [] ∧ readOf .ctl pre = []
  | .read .childout d => d ≠ [] ∧ readOf .ctl pre = []
  | .read .ctl d => d ≠ [] ∧ readOf .ctl pre = [] ∧ wroteOf .peerout pre = readOf .childout pre
  | .read _ _ => False
  | .close .childin => pre.getLast? = some (.failed .childin) ∨
      (.ended .peerin ∈ pre ∧ wroteOf .childin pre = readOf .peerin pre) ∨
      pre.getLast? = some (.sig (c! 'C')) ∨ .sig (c! 'A') ∈ pre
  | .close .peerout => pre.getLast? = some (.failed .peerout) ∨
      ((.ended .childout ∈ pre ∨ .sig (c! 'A') ∈ pre) ∧ wroteOf .peerout pre = readOf .childout pre)
  | .close .childout => .ended .childout ∈ pre ∨ .sig (c! 'A') ∈ pre
  | .close .peerin => .ended .peerin ∈ pre
  | .close .ctl => .ended .ctl ∈ pre ∨ .sig (c! 'A') ∈ pre ∨ readOf .ctl pre = [0]
  | .close .ack => .sig (c! 'A') ∈ pre ∨ wroteOf .ack pre = [0]
  | _ => True

/-! ### Invariant -/

structure Core (N C : Bytes) (s : St) : Prop where
  k1 : s.tochild.Ok size
  k2 : s.tonet.Ok size
  acc1 : readOf .peerin s.w.log = wroteOf .childin s.w.log ++ s.tochild.data
  acc2 : readOf .childout s.w.log = wroteOf .peerout s.w.log ++ s.tonet.data
  s1 : readOf .peerin s.w.log ++ s.net = N
  s2 : readOf .childout s.w.log ++ s.chd = C
  al : Always Allowed s.w.log
  cl : ∀ f, s.w.op f = false ↔ Act.close f ∈ s.w.log
  e1 : s.w.op .peerin = false → Act.ended .peerin ∈ s.w.log
  e2 : s.w.op .childout = false → Act.ended .childout ∈ s.w.log ∨ Act.sig (c! 'A') ∈ s.w.log
  c0 : readOf .ctl s.w.log = []
  a0 : wroteOf .ack s.w.log = []

structure Run (N C : Bytes) (s : St) : Prop extends Core N C s where
  r1 : s.w.op .ctl = true → s.w.op .ack = true
  r2 : s.w.op .peerout = false → s.w.op .childout = false ∧ s.tonet.len = 0
  r3 : s.w.op .childin = false → (s.w.op .peerin = false ∧ s.tochild.len = 0) ∨ Act.sig (c! 'C') ∈ s.w.log ∨
    Act.sig (c! 'A') ∈ s.w.log

theorem data_nil {n : Nat} {b : Buf} (h : b.Ok n) (h0 : b.len = 0) : b.data = [] := by
  have := h.data_length
  rw [h0] at this
  exact List.length_eq_zero_iff.mp this

theorem act_log (w : W) (a : Act Fd) : (w.act a).log = w.log ++ [a] := rfl
theorem act_op (w : W) (a : Act Fd) : (w.act a).op = w.op := rfl
theorem close_open (w : W) (f : Fd) (h : w.op f = true) :
    w.close f = ⟨fun g => if g = f then false else w.op g, w.log ++ [.close f]⟩ := by simp [W.close, h]
theorem close_shut (w : W) (f : Fd) (h : w.op f = false) : w.close f = w := by simp [W.close, h]

theorem run_propagate {N C : Bytes} {s : St} (h : Run N C s) : Run N C (propagate s) := by
  unfold propagate
  have h1 : Run N C (if s.w.op .peerin = false ∧ s.w.op .childin = true ∧ s.tochild.len = 0 then
      { s with w := s.w.close .childin } else s) := by
    by_cases hc : s.w.op .peerin = false ∧ s.w.op .childin = true ∧ s.tochild.len = 0
    · rw [if_pos hc]
      have hd := data_nil h.k1 hc.2.2
      obtain ⟨⟨i1, i2, i3, i4, i5, i6, i7, i8, i9, i10, i11, i12⟩, i14, i15, i16⟩ := h
      rw [close_open _ _ hc.2.1]
      refine ⟨⟨?_, ?_, ?_, ?_, ?_, ?_, ?_, ?_, ?_, ?_, ?_, ?_⟩, ?_, ?_, ?_⟩ <;> logsimp <;> grind [Allowed, Act.on]
    · rw [if_neg hc]; exact h
  simp only
  generalize (if s.w.op .peerin = false ∧ s.w.op .childin = true ∧ s.tochild.len = 0 then
      { s with w := s.w.close .childin } else s) = s' at h1
  by_cases hc : s'.w.op .childout = false ∧ s'.w.op .peerout = true ∧ s'.tonet.len = 0
  · rw [if_pos hc]
    have hd := data_nil h1.k2 hc.2.2
    obtain ⟨⟨i1, i2, i3, i4, i5, i6, i7, i8, i9, i10, i11, i12⟩, i14, i15, i16⟩ := h1
    rw [close_open _ _ hc.2.1]
    refine ⟨⟨?_, ?_, ?_, ?_, ?_, ?_, ?_, ?_, ?_, ?_, ?_, ?_⟩, ?_, ?_, ?_⟩ <;> logsimp <;> grind [Allowed, Act.on]
  · rw [if_neg hc]; exact h1

/-- What one step leaves behind. -/
def Post (N C : Bytes) (s : St) (why : Option Why) : Prop :=
  (why = none → Run N C s) ∧
  Always Allowed s.w.log ∧
  (∀ f, s.w.op f = false ↔ Act.close f ∈ s.w.log) ∧
  s.tonet.Ok size ∧ s.tochild.Ok size ∧
  readOf .childout s.w.log = wroteOf .peerout s.w.log ++ s.tonet.data ∧
  (∃ dropped, readOf .peerin s.w.log = wroteOf .childin s.w.log ++ dropped ∧
    (why ≠ some .starttls → why ≠ some .ackFailed → why ≠ some .ackBlocked → dropped = s.tochild.data)) ∧
  readOf .peerin s.w.log ++ s.net = N ∧ readOf .childout s.w.log ++ s.chd = C ∧
  (why = some .starttls → s.tochild.len = 0 ∧ s.tonet.len = 0 ∧ s.w.op .peerin = true ∧ s.w.op .peerout = true ∧
    ∃ q, s.w.log = q ++ [.read .ctl [0], .close .ctl, .write .ack [0], .close .ack] ∧ readOf .ctl q = [] ∧
      wroteOf .ack q = []) ∧
  (why ≠ some .starttls → wroteOf .ack s.w.log = []) ∧
  (why = some .finished → ∀ f, f = .peerin ∨ f = .childin ∨ f = .childout ∨ f = .peerout → s.w.op f = false) ∧
  (why = some .finished → s.tonet.len = 0 ∧
    (s.tochild.len = 0 ∨ Act.sig (c! 'C') ∈ s.w.log ∨ Act.sig (c! 'A') ∈ s.w.log)) ∧
  (why = some .peerWrite → Act.failed .peerout ∈ s.w.log) ∧
  (why = some .childWrite → Act.failed .childin ∈ s.w.log)

theorem post_none {N C : Bytes} {s : St} (h : Run N C s) : Post N C s none :=
  ⟨fun _ => h, h.al, h.cl, h.k2, h.k1, h.acc2, ⟨_, h.acc1, fun _ _ _ => rfl⟩, h.s1, h.s2, by simp, fun _ => h.a0,
    by simp, by simp, by simp, by simp⟩

theorem prefix_of_acc {a b c d e : Bytes} (h : a = b ++ c) (h2 : c = d ++ e) : b ++ d <+: a :=
  ⟨e, by rw [h, h2, List.append_assoc]⟩

theorem step_toPeer {N C : Bytes} {s : St} (h : Run N C s) (ev : Ev) (hw : s.w.op .peerout = true) :
    ∃ s' why, doToPeer s ev = .ok (s', why) ∧ Post N C s' why := by
  unfold doToPeer
  obtain ⟨r, b, e, hr⟩ := writeFrom_spec size s.tonet ev.wr h.k2
  rw [e]
  rcases hr with ⟨rfl, rfl⟩ | ⟨rfl, rfl⟩ | ⟨d, rfl, hd, hb, hok⟩
  · exact ⟨_, _, rfl, post_none h⟩
  · refine ⟨_, _, rfl, by simp, ?_⟩
    simp only
    rw [close_open _ _ (by simpa [act_op] using hw)]
    obtain ⟨⟨i1, i2, i3, i4, i5, i6, i7, i8, i9, i10, i11, i12⟩, i14, i15, i16⟩ := h
    refine ⟨?_, ?_, i2, i1, ?_, ⟨_, ?_, fun _ _ _ => rfl⟩, ?_, ?_, by simp, ?_, by simp, by simp, ?_, ?_⟩ <;>
      (try simp only [act_log, act_op]) <;> (try logsimp) <;> grind [Allowed, Act.on]
  · refine ⟨_, _, rfl, post_none ?_⟩
    have hp := prefix_of_acc h.acc2 hb
    obtain ⟨⟨i1, i2, i3, i4, i5, i6, i7, i8, i9, i10, i11, i12⟩, i14, i15, i16⟩ := h
    refine ⟨⟨?_, ?_, ?_, ?_, ?_, ?_, ?_, ?_, ?_, ?_, ?_, ?_⟩, ?_, ?_, ?_⟩ <;> (try simp only [act_log, act_op]) <;> (try logsimp) <;>
      grind [Allowed, Act.on]

theorem step_toChild {N C : Bytes} {s : St} (h : Run N C s) (ev : Ev) (hw : s.w.op .childin = true) :
    ∃ s' why, doToChild s ev = .ok (s', why) ∧ Post N C s' why := by
  unfold doToChild
  obtain ⟨r, b, e, hr⟩ := writeFrom_spec size s.tochild ev.wr h.k1
  rw [e]
  rcases hr with ⟨rfl, rfl⟩ | ⟨rfl, rfl⟩ | ⟨d, rfl, hd, hb, hok⟩
  · exact ⟨_, _, rfl, post_none h⟩
  · refine ⟨_, _, rfl, by simp, ?_⟩
    simp only
    rw [close_open _ _ (by simpa [act_op] using hw)]
    obtain ⟨⟨i1, i2, i3, i4, i5, i6, i7, i8, i9, i10, i11, i12⟩, i14, i15, i16⟩ := h
    refine ⟨?_, ?_, i2, i1, ?_, ⟨_, ?_, fun _ _ _ => rfl⟩, ?_, ?_, by simp, ?_, by simp, by simp, ?_, ?_⟩ <;>
      (try simp only [act_log, act_op]) <;> (try logsimp) <;> grind [Allowed, Act.on]
  · refine ⟨_, _, rfl, post_none ?_⟩
    have hp := prefix_of_acc h.acc1 hb
    obtain ⟨⟨i1, i2, i3, i4, i5, i6, i7, i8, i9, i10, i11, i12⟩, i14, i15, i16⟩ := h
    refine ⟨⟨?_, ?_, ?_, ?_, ?_, ?_, ?_, ?_, ?_, ?_, ?_, ?_⟩, ?_, ?_, ?_⟩ <;> (try simp only [act_log, act_op]) <;> (try logsimp) <;>
      grind [Allowed, Act.on]

theorem step_fromChild {N C : Bytes} {s : St} (h : Run N C s) (ev : Ev) (hw : s.w.op .childout = true) :
    ∃ s' why, doFromChild s ev = .ok (s', why) ∧ Post N C s' why := by
  unfold doFromChild
  obtain ⟨r, b, src, e, hr⟩ := readInto_spec size s.tonet s.chd ev.rd h.k2
  rw [e]
  rcases hr with ⟨rfl, rfl, rfl⟩ | ⟨rfl, rfl, rfl⟩ | ⟨d, rfl, hd, hs, hb, hok⟩
  · exact ⟨_, _, rfl, post_none h⟩
  · refine ⟨_, _, rfl, post_none ?_⟩
    rw [close_open _ _ (by simpa [act_op] using hw)]
    obtain ⟨⟨i1, i2, i3, i4, i5, i6, i7, i8, i9, i10, i11, i12⟩, i14, i15, i16⟩ := h
    refine ⟨⟨?_, ?_, ?_, ?_, ?_, ?_, ?_, ?_, ?_, ?_, ?_, ?_⟩, ?_, ?_, ?_⟩ <;> (try simp only [act_log, act_op]) <;> (try logsimp) <;>
      grind [Allowed, Act.on]
  · refine ⟨_, _, rfl, post_none ?_⟩
    obtain ⟨⟨i1, i2, i3, i4, i5, i6, i7, i8, i9, i10, i11, i12⟩, i14, i15, i16⟩ := h
    refine ⟨⟨?_, ?_, ?_, ?_, ?_, ?_, ?_, ?_, ?_, ?_, ?_, ?_⟩, ?_, ?_, ?_⟩ <;> (try simp only [act_log, act_op]) <;> (try logsimp) <;>
      grind [Allowed, Act.on]

theorem step_fromPeer {N C : Bytes} {s : St} (h : Run N C s) (ev : Ev) (hw : s.w.op .peerin = true) :
    ∃ s' why, doFromPeer s ev = .ok (s', why) ∧ Post N C s' why := by
  unfold doFromPeer
  obtain ⟨r, b, src, e, hr⟩ := readInto_spec size s.tochild s.net ev.rd h.k1
  rw [e]
  rcases hr with ⟨rfl, rfl, rfl⟩ | ⟨rfl, rfl, rfl⟩ | ⟨d, rfl, hd, hs, hb, hok⟩
  · exact ⟨_, _, rfl, post_none h⟩
  · refine ⟨_, _, rfl, post_none ?_⟩
    rw [close_open _ _ (by simpa [act_op] using hw)]
    obtain ⟨⟨i1, i2, i3, i4, i5, i6, i7, i8, i9, i10, i11, i12⟩, i14, i15, i16⟩ := h
    refine ⟨⟨?_, ?_, ?_, ?_, ?_, ?_, ?_, ?_, ?_, ?_, ?_, ?_⟩, ?_, ?_, ?_⟩ <;> (try simp only [act_log, act_op]) <;> (try logsimp) <;>
      grind [Allowed, Act.on]
  · refine ⟨_, _, rfl, post_none ?_⟩
    obtain ⟨⟨i1, i2, i3, i4, i5, i6, i7, i8, i9, i10, i11, i12⟩, i14, i15, i16⟩ := h
    refine ⟨⟨?_, ?_, ?_, ?_, ?_, ?_, ?_, ?_, ?_, ?_, ?_, ?_⟩, ?_, ?_, ?_⟩ <;> (try simp only [act_log, act_op]) <;> (try logsimp) <;>
      grind [Allowed, Act.on]

theorem core_sig {N C : Bytes} {s : St} (h : Core N C s) (c : Byte) :
    Core N C { s with w := s.w.act (.sig c) } := by
  obtain ⟨i1, i2, i3, i4, i5, i6, i7, i8, i9, i10, i11, i12⟩ := h
  refine ⟨?_, ?_, ?_, ?_, ?_, ?_, ?_, ?_, ?_, ?_, ?_, ?_⟩ <;> (try simp only [act_log, act_op]) <;> (try logsimp) <;>
    grind [Allowed, Act.on]

theorem core_alarm {N C : Bytes} {s : St} (b : Bool) (h : Core N C s) : Core N C { s with w := s.w.act (.alarm b) } := by
  obtain ⟨i1, i2, i3, i4, i5, i6, i7, i8, i9, i10, i11, i12⟩ := h
  refine ⟨?_, ?_, ?_, ?_, ?_, ?_, ?_, ?_, ?_, ?_, ?_, ?_⟩ <;> (try simp only [act_log, act_op]) <;> (try logsimp) <;>
    grind [Allowed, Act.on]

theorem core_close_A {N C : Bytes} {s : St} (h : Core N C s) (hA : Act.sig (c! 'A') ∈ s.w.log) (f : Fd)
    (hf : f = .childin ∨ f = .childout ∨ f = .ctl ∨ f = .ack) :
    Core N C { s with w := s.w.close f } ∧ Act.sig (c! 'A') ∈ (s.w.close f).log ∧ (s.w.close f).op f = false ∧
      (∀ g, s.w.op g = false → (s.w.close f).op g = false) ∧ (∀ g, g ≠ f → (s.w.close f).op g = s.w.op g) := by
  by_cases hc : s.w.op f = true
  · rw [close_open _ _ hc]
    refine ⟨?_, by simp [hA], by simp, ?_, ?_⟩
    · obtain ⟨i1, i2, i3, i4, i5, i6, i7, i8, i9, i10, i11, i12⟩ := h
      refine ⟨?_, ?_, ?_, ?_, ?_, ?_, ?_, ?_, ?_, ?_, ?_, ?_⟩ <;> logsimp <;>
        grind [Allowed, Act.on]
    · intro g hg; simp [hg]
    · intro g hg; simp [hg]
  · have hc : s.w.op f = false := by simpa using hc
    rw [close_shut _ _ hc]
    exact ⟨h, hA, hc, fun _ h => h, fun _ _ => rfl⟩

theorem step_selfpipe {N C : Bytes} {s : St} (h : Run N C s) (ev : Ev) :
    Post N C (doSelfpipe s ev).1 (doSelfpipe s ev).2 := by
  have base : ∀ w, Core N C { s with w := w } → Post N C { s with w := w } (some .signal) := fun w h =>
    ⟨by simp, h.al, h.cl, h.k2, h.k1, h.acc2, ⟨_, h.acc1, fun _ _ _ => rfl⟩, h.s1, h.s2, by simp, fun _ => h.a0,
      by simp, by simp, by simp, by simp⟩
  unfold doSelfpipe
  cases ev.sig with
  | again => exact post_none h
  | failed => exact base _ h.toCore
  | byte c =>
    have hs := core_sig h.toCore c
    simp only
    generalize hp : selfpipeEvent s.w (.byte c) = p
    simp only [selfpipeEvent] at hp
    by_cases hC : c = c! 'C'
    · rw [if_pos hC] at hp
      subst hp
      subst hC
      refine post_none ?_
      by_cases hc : s.w.op .childin = true
      · rw [close_open _ _ (by simpa [act_op] using hc)]
        obtain ⟨⟨i1, i2, i3, i4, i5, i6, i7, i8, i9, i10, i11, i12⟩, i14, i15, i16⟩ := h
        have e3 : ∀ a b c : Act Fd, s.w.log ++ [a, b, c] = (s.w.log ++ [a, b]) ++ [c] := by simp
        refine ⟨⟨?_, ?_, ?_, ?_, ?_, ?_, ?_, ?_, ?_, ?_, ?_, ?_⟩, ?_, ?_, ?_⟩ <;> (try simp only [act_log, act_op]) <;> (try logsimp) <;>
          (try simp only [e3, always_snoc, always_snoc2]) <;> grind [Allowed, Act.on]
      · have hc : s.w.op .childin = false := by simpa using hc
        rw [close_shut _ _ (by simpa [act_op] using hc)]
        refine ⟨core_alarm true hs, h.r1, h.r2, fun _ => .inr (.inl (by simp [act_log]))⟩
    · rw [if_neg hC] at hp
      by_cases hA : c = c! 'A' ∧ ((s.w.act (.sig c)).op .childin = true ∨ (s.w.act (.sig c)).op .childout = true ∨
          (s.w.act (.sig c)).op .ctl = true ∨ (s.w.act (.sig c)).op .ack = true)
      · rw [if_pos hA] at hp
        subst hp
        obtain ⟨rfl, _⟩ := hA
        refine post_none ?_
        obtain ⟨a1, a2, a3, a4, a5⟩ := core_close_A hs (by simp [act_log]) .childin (.inl rfl)
        obtain ⟨b1, b2, b3, b4, b5⟩ := core_close_A a1 a2 .childout (.inr (.inl rfl))
        obtain ⟨d1, d2, d3, d4, d5⟩ := core_close_A b1 b2 .ctl (.inr (.inr (.inl rfl)))
        obtain ⟨f1, f2, f3, f4, f5⟩ := core_close_A d1 d2 .ack (.inr (.inr (.inr rfl)))
        refine ⟨core_alarm true f1, ?_, ?_, fun _ => .inr (.inr (by simp only [act_log]; exact List.mem_append_left _ f2))⟩
        · intro hh
          rw [act_op] at hh
          simp only at d3 f4 hh
          rw [f4 _ d3] at hh
          simp at hh
        · simp only [act_op] at *
          intro hh
          refine ⟨f4 _ (d4 _ b3), ?_⟩
          rw [f5 _ (by simp), d5 _ (by simp), b5 _ (by simp), a5 _ (by simp)] at hh
          exact (h.r2 hh).2
      · rw [if_neg hA] at hp
        subst hp
        exact base _ hs

theorem writeall_zero (evs : List WrEv) :
    Rw.writeall ⟨[], evs⟩ [0] = none ∨ (∃ e, Rw.writeall ⟨[], evs⟩ [0] = some (-1, ⟨[], e⟩)) ∨
    ∃ e, Rw.writeall ⟨[], evs⟩ [0] = some (0, ⟨[0], e⟩) := by
  cases h : Rw.writeall ⟨[], evs⟩ [0] with
  | none => exact .inl rfl
  | some v =>
    obtain ⟨r, fd⟩ := v
    obtain ⟨p, q, e1, e2, h⟩ := Rw.c14_writeall _ _ _ _ h
    obtain ⟨o, e⟩ := fd
    simp only [List.nil_append] at e2
    subst e2
    rcases h with ⟨rfl, rfl⟩ | ⟨rfl, hq, _⟩
    · simp at e1
      subst e1
      exact .inr (.inr ⟨e, rfl⟩)
    · cases o with
      | nil => exact .inr (.inl ⟨e, rfl⟩)
      | cons b o =>
        simp at e1
        exact absurd e1.2.2 hq

theorem step_accept {N C : Bytes} {s : St} (h : Run N C s) (ev : Ev) (cs : Bytes) (h1 : s.w.op .peerout = true)
    (h2 : s.w.op .ctl = true) (h3 : s.tonet.len = 0) :
    Post N C (accept { s with csrc := cs, w := s.w.act (.read .ctl [0]) } ev).1
      (accept { s with csrc := cs, w := s.w.act (.read .ctl [0]) } ev).2 := by
  have hd := data_nil h.k2 h3
  have ha := h.r1 h2
  have hcl : (s.w.act (.read .ctl [0])).close .ctl =
      ⟨fun g => if g = .ctl then false else s.w.op g, s.w.log ++ [.read .ctl [0], .close .ctl]⟩ := by
    rw [close_open _ _ (by simpa [act_op] using h2)]
    simp [act_log, act_op]
  obtain ⟨⟨i1, i2, i3, i4, i5, i6, i7, i8, i9, i10, i11, i12⟩, i14, i15, i16⟩ := h
  have hct : readOf .ctl (s.w.log ++ [.read .ctl [0]]) = [0] := by logsimp; simp [i11]
  have q1 := i8 .peerout
  have q2 := i8 .ctl
  have q3 := i8 .ack
  have q4 := i8 .peerin
  simp only [h1, h2, ha, Bool.true_eq_false, false_iff] at q1 q2 q3
  unfold accept
  simp only [hcl, reduceCtorEq, ↓reduceIte, h1, Bool.true_eq_false, or_false]
  by_cases hp : s.w.op .peerin = false
  · rw [if_pos hp]
    refine ⟨by simp, ?_, ?_, i2, i1, ?_, ⟨_, ?_, fun _ _ _ => rfl⟩, ?_, ?_, by simp, ?_, by simp, by simp, by simp, by simp⟩ <;>
      simp only <;> (try logsimp) <;> grind [Allowed, Act.on]
  rw [if_neg hp]
  have hp' : s.w.op .peerin = true := by simpa using hp
  have q4 : Act.close .peerin ∉ s.w.log := fun hh => hp (q4.mpr hh)
  have k1 : ({ s.tochild with len := 0 } : Buf).Ok size := ⟨i1.1, Nat.zero_le _⟩
  generalize hs' : (if s.tochild.len ≠ 0 then
      ({ s with csrc := cs, tochild := { s.tochild with len := 0 }, w :=
        ⟨fun g => if g = .ctl then false else s.w.op g, s.w.log ++ [.read .ctl [0], .close .ctl]⟩ } : St)
    else { s with csrc := cs, w :=
        ⟨fun g => if g = .ctl then false else s.w.op g, s.w.log ++ [.read .ctl [0], .close .ctl]⟩ }) = s'
  have hs2 : s' = { s with csrc := cs, tochild := { s.tochild with len := 0 }, w :=
        ⟨fun g => if g = .ctl then false else s.w.op g, s.w.log ++ [.read .ctl [0], .close .ctl]⟩ } := by
    by_cases h0 : s.tochild.len = 0
    · rw [if_neg (by simpa using h0)] at hs'
      rw [← hs']
      congr 1
      rw [← h0]
    · rw [if_pos h0] at hs'
      exact hs'.symm
  rw [hs2]
  rcases writeall_zero ev.ackw with e | ⟨e, he⟩ | ⟨e, he⟩
  · rw [e]
    refine ⟨by simp, ?_, ?_, i2, k1, ?_, ⟨s.tochild.data, ?_, ?_⟩, ?_, ?_, by simp, ?_, by simp, by simp, by simp, by simp⟩ <;>
      simp only <;> (try logsimp) <;> grind [Allowed, Act.on]
  · rw [he]
    simp only [↓reduceIte]
    refine ⟨by simp, ?_, ?_, i2, k1, ?_, ⟨s.tochild.data, ?_, ?_⟩, ?_, ?_, by simp, ?_, by simp, by simp, by simp, by simp⟩ <;>
      simp only <;> (try logsimp) <;> grind [Allowed, Act.on]
  · rw [he]
    simp only [List.cons_ne_nil, ↓reduceIte]
    rw [if_neg (by decide)]
    rw [close_open _ _ (by simpa [act_op] using ha)]
    simp only [act_log, act_op, List.append_assoc, List.cons_append, List.nil_append]
    have e3 : ∀ a b c d : Act Fd, s.w.log ++ [a, b, c, d] = ((s.w.log ++ [a, b]) ++ [c]) ++ [d] := by simp
    refine ⟨by simp, ?_, ?_, i2, k1, ?_, ⟨s.tochild.data, ?_, by simp⟩, ?_, ?_, ?_, by simp, by simp, by simp, by simp, by simp⟩
    · rw [e3]
      simp only [always_snoc, always_snoc2]
      refine ⟨⟨⟨i7, ?_, ?_⟩, ?_⟩, ?_⟩
      · grind [Allowed, Act.on]
      · refine ⟨by grind [Act.on], .inr (.inr ?_)⟩
        logsimp; simp [i11]
      · refine ⟨by grind [Act.on], rfl, ?_⟩
        logsimp
        simp [i11, i12, i4, hd, q4, q1]
      · refine ⟨by grind [Act.on], .inr ?_⟩
        logsimp
        simp [i12]
    · intro f
      logsimp
      grind
    · logsimp; exact i4
    · logsimp; exact i3
    · logsimp; exact i5
    · logsimp; exact i6
    · intro _
      refine ⟨rfl, h3, ?_, ?_, s.w.log, rfl, i11, i12⟩
      · simpa using hp'
      · simpa using h1

theorem step_fromCtl {N C : Bytes} {s : St} (h : Run N C s) (ev : Ev) (h1 : s.w.op .peerout = true)
    (h2 : s.w.op .ctl = true) (h3 : s.tonet.len = 0) :
    Post N C (doFromCtl s ev).1 (doFromCtl s ev).2 := by
  have hd := data_nil h.k2 h3
  unfold doFromCtl
  cases ev.rd with
  | eintr => exact post_none h
  | eagain => exact post_none h
  | err e =>
    simp only
    rw [close_open _ _ (by simpa [act_op] using h2)]
    obtain ⟨⟨i1, i2, i3, i4, i5, i6, i7, i8, i9, i10, i11, i12⟩, i14, i15, i16⟩ := h
    refine ⟨by simp, ?_, ?_, i2, i1, ?_, ⟨_, ?_, fun _ _ _ => rfl⟩, ?_, ?_, by simp, ?_, by simp, by simp, by simp, by simp⟩ <;>
      (try simp only [act_log, act_op]) <;> (try logsimp) <;> grind [Allowed, Act.on]
  | data m =>
    simp only
    generalize got s.csrc 2 m = d
    by_cases c0 : d.length = 0
    · rw [if_pos c0]
      refine post_none ?_
      rw [close_open _ _ (by simpa [act_op] using h2)]
      obtain ⟨⟨i1, i2, i3, i4, i5, i6, i7, i8, i9, i10, i11, i12⟩, i14, i15, i16⟩ := h
      refine ⟨⟨?_, ?_, ?_, ?_, ?_, ?_, ?_, ?_, ?_, ?_, ?_, ?_⟩, ?_, ?_, ?_⟩ <;> (try simp only [act_log, act_op]) <;>
        (try logsimp) <;> grind [Allowed, Act.on]
    rw [if_neg c0]
    have bad : ∀ why, why = .ctlLength ∨ why = .ctlValue →
        Post N C { s with csrc := s.csrc.drop d.length, w := s.w.act (.read .ctl d) } (some why) := by
      intro why hwhy
      have hne : d ≠ [] := by rintro rfl; simp at c0
      obtain ⟨⟨i1, i2, i3, i4, i5, i6, i7, i8, i9, i10, i11, i12⟩, i14, i15, i16⟩ := h
      refine ⟨by simp, ?_, ?_, i2, i1, ?_, ⟨_, ?_, fun _ _ _ => rfl⟩, ?_, ?_, ?_, ?_, ?_, ?_, ?_, ?_⟩ <;>
        (try simp only [act_log, act_op]) <;> (try logsimp) <;> grind [Allowed, Act.on]
    by_cases c1 : d.length ≠ 1
    · rw [if_pos c1]; exact bad _ (.inl rfl)
    rw [if_neg c1]
    by_cases c2 : d ≠ [0]
    · rw [if_pos c2]; exact bad _ (.inr rfl)
    rw [if_neg c2]
    have c2 : d = [0] := Classical.not_not.mp c2
    subst c2
    exact step_accept h ev _ h1 h2 h3

theorem after_le (w : Ready) (p : Option Ready) :
    ((after w p).topeer = true → w.topeer = true) ∧ ((after w p).tochild = true → w.tochild = true) ∧
    ((after w p).frompeer = true → w.frompeer = true) ∧ ((after w p).fromchild = true → w.fromchild = true) ∧
    ((after w p).fromctl = true → w.fromctl = true) := by
  cases p <;> simp +contextual [after]

theorem step_body {N C : Bytes} {s : St} (h : Run N C s) (ev : Ev) :
    ∃ s' why, body s ev = .ok (s', why) ∧ Post N C s' why := by
  unfold body
  obtain ⟨a1, a2, a3, a4, a5⟩ := after_le (watches s) ev.poll
  simp only
  generalize after (watches s) ev.poll = w at a1 a2 a3 a4 a5
  simp only [watches, Bool.and_eq_true, decide_eq_true_eq] at a1 a2 a3 a4 a5
  by_cases c1 : w.topeer = true
  · rw [if_pos c1]; exact step_toPeer h ev (a1 c1).1
  rw [if_neg c1]
  by_cases c2 : w.fromchild = true
  · rw [if_pos c2]; exact step_fromChild h ev (a4 c2).1
  rw [if_neg c2]
  by_cases c3 : w.fromctl = true
  · rw [if_pos c3]; exact ⟨_, _, rfl, step_fromCtl h ev (a5 c3).1.1 (a5 c3).1.2 (a5 c3).2⟩
  rw [if_neg c3]
  by_cases c4 : w.tochild = true
  · rw [if_pos c4]; exact step_toChild h ev (a2 c4).2
  rw [if_neg c4]
  by_cases c5 : w.frompeer = true
  · rw [if_pos c5]; exact step_fromPeer h ev (a3 c5).1.1
  rw [if_neg c5]
  split
  · exact ⟨_, _, rfl, step_selfpipe h ev⟩
  · exact ⟨_, _, rfl, post_none h⟩

theorem post_finished {N C : Bytes} {s : St} (h : Run N C s) (hf : finished s = true) :
    Post N C s (some .finished) := by
  refine ⟨by simp, h.al, h.cl, h.k2, h.k1, h.acc2, ⟨_, h.acc1, fun _ _ _ => rfl⟩, h.s1, h.s2, by simp, fun _ => h.a0,
    ?_, ?_, by simp, by simp⟩
  · simp [finished] at hf
    grind
  · intro _
    simp [finished] at hf
    refine ⟨(h.r2 (by simp [hf])).2, ?_⟩
    rcases h.r3 (by simp [hf]) with h | h
    · exact .inl h.2
    · exact .inr h

theorem loop_post {N C : Bytes} (evs : List Ev) : ∀ {s : St}, Run N C s →
    ∃ s' why, loop s evs = .ok (s', why) ∧ Post N C s' why := by
  induction evs with
  | nil =>
    intro s h
    have hp := run_propagate h
    simp only [loop]
    split
    · rename_i hf; exact ⟨_, _, rfl, post_finished hp hf⟩
    · exact ⟨_, _, rfl, post_none hp⟩
  | cons ev evs ih =>
    intro s h
    have hp := run_propagate h
    simp only [loop]
    split
    · rename_i hf; exact ⟨_, _, rfl, post_finished hp hf⟩
    · obtain ⟨s', why, e, hpost⟩ := step_body hp ev
      rw [e]
      cases why with
      | some w => exact ⟨_, _, rfl, hpost⟩
      | none => exact ih (hpost.1 rfl)

theorem run_start (m1 m2 net chd csrc : Bytes) (h1 : m1.length = size) (h2 : m2.length = size) :
    Run net chd (start m1 m2 net chd csrc) := by
  refine ⟨⟨⟨h1, Nat.zero_le _⟩, ⟨h2, Nat.zero_le _⟩, ?_, ?_, ?_, ?_, always_nil _, ?_, ?_, ?_, ?_, ?_⟩, ?_, ?_, ?_⟩ <;>
    simp [start, readOf_nil, wroteOf_nil, Buf.data]

/-! ### C41 -/

/-- C41: for all streams and all kernel answers, the cleartext relay is never
undefined, each of its actions is allowed by `Allowed`, the bytes received from the
child and not yet sent are exactly the contents of a buffer of at most 8192 bytes,
and likewise towards the child until STARTTLS is accepted. -/
theorem c41_relay (m1 m2 net chd csrc : Bytes) (h1 : m1.length = 8192) (h2 : m2.length = 8192) (evs : List Ev) :
    ∃ s why, loop (start m1 m2 net chd csrc) evs = .ok (s, why) ∧
      Always Allowed s.w.log ∧
      readOf .childout s.w.log = wroteOf .peerout s.w.log ++ s.tonet.data ∧ s.tonet.data.length ≤ 8192 ∧
      (why ≠ some .starttls → why ≠ some .ackFailed → why ≠ some .ackBlocked →
        readOf .peerin s.w.log = wroteOf .childin s.w.log ++ s.tochild.data) ∧ s.tochild.data.length ≤ 8192 ∧
      readOf .peerin s.w.log <+: net ∧ readOf .childout s.w.log <+: chd := by
  obtain ⟨s, why, e, hp⟩ := loop_post evs (run_start m1 m2 net chd csrc h1 h2)
  obtain ⟨_, p2, _, p4, p5, p6, ⟨d, p7, p8⟩, p9, p10, _⟩ := hp
  refine ⟨s, why, e, p2, p6, ?_, ?_, ?_, ⟨_, p9⟩, ⟨_, p10⟩⟩
  · rw [p4.data_length]; exact p4.2
  · intro a b c; rw [p7, p8 a b c]
  · rw [p5.data_length]; exact p5.2

/-- Specification-level consequence of `Allowed` for prefixes of the trace. -/
theorem allowed_prefix (log : List (Act Fd)) (ha : Always Allowed log) (pre post : List (Act Fd))
    (hs : log = pre ++ post) :
    wroteOf .childin pre <+: readOf .peerin pre ∧ wroteOf .peerout pre <+: readOf .childout pre := by
  rw [hs] at ha
  clear hs
  revert post
  refine snoc_ind (P := fun pre => ∀ post, Always Allowed (pre ++ post) →
    wroteOf .childin pre <+: readOf .peerin pre ∧ wroteOf .peerout pre <+: readOf .childout pre) ?_ ?_ pre
  · intro _ _; simp [wroteOf_nil]
  · intro pre a ih post ha
    have ih := ih (a :: post) (by simpa using ha)
    have hal := ha pre a post (by simp)
    logsimp
    cases a with
    | write f d =>
      cases f <;> simp [Allowed] at hal <;> simp [wroteOn_write, readOn_write, ih, hal]
    | read f d =>
      cases f <;> simp [Allowed] at hal <;> simp [wroteOn_read, readOn_read, ih]
      · exact ih.1.trans ⟨d, by simp⟩
      · exact ih.2.trans ⟨d, by simp⟩
    | ended f => simpa [wroteOn_ended, readOn_ended] using ih
    | failed f => simpa [wroteOn_failed, readOn_failed] using ih
    | close f => simpa [wroteOn_close, readOn_close] using ih
    | alarm => simpa [wroteOn_alarm, readOn_alarm] using ih
    | sig c => simpa [wroteOn_sig, readOn_sig] using ih
    | eng e => simpa [wroteOn_eng, readOn_eng] using ih

/-- C41, at every moment: the bytes sent to either side are a prefix of those
received from the other. -/
theorem c41_prefix (m1 m2 net chd csrc : Bytes) (h1 : m1.length = 8192) (h2 : m2.length = 8192) (evs : List Ev)
    (s : St) (why : Option Why) (e : loop (start m1 m2 net chd csrc) evs = .ok (s, why))
    (pre post : List (Act Fd)) (hs : s.w.log = pre ++ post) :
    wroteOf .childin pre <+: readOf .peerin pre ∧ wroteOf .peerout pre <+: readOf .childout pre := by
  obtain ⟨s', why', e', hp⟩ := loop_post evs (run_start m1 m2 net chd csrc h1 h2)
  rw [e] at e'; cases e'
  exact allowed_prefix _ hp.2.1 pre post hs

/-- C41: EOF is passed on only after everything was delivered (or after a failed
write; or, towards the child, because of SIGCHLD or the timeout). -/
theorem c41_close (m1 m2 net chd csrc : Bytes) (h1 : m1.length = 8192) (h2 : m2.length = 8192) (evs : List Ev)
    (s : St) (why : Option Why) (e : loop (start m1 m2 net chd csrc) evs = .ok (s, why))
    (pre post : List (Act Fd)) :
    (s.w.log = pre ++ .close .childin :: post →
      (.ended .peerin ∈ pre ∧ wroteOf .childin pre = readOf .peerin pre) ∨
      pre.getLast? = some (.failed .childin) ∨ pre.getLast? = some (.sig (c! 'C')) ∨ .sig (c! 'A') ∈ pre) ∧
    (s.w.log = pre ++ .close .peerout :: post →
      ((.ended .childout ∈ pre ∨ .sig (c! 'A') ∈ pre) ∧ wroteOf .peerout pre = readOf .childout pre) ∨
      pre.getLast? = some (.failed .peerout)) := by
  obtain ⟨s', why', e', hp⟩ := loop_post evs (run_start m1 m2 net chd csrc h1 h2)
  rw [e] at e'; cases e'
  have ha := hp.2.1
  constructor
  · intro hs
    have := (ha pre _ post hs).2
    grind
  · intro hs
    have := (ha pre _ post hs).2
    grind

/-- C41: when the phase ends because all four descriptors were closed, everything
the child wrote was delivered, and everything received for the child was delivered
unless SIGCHLD or the timeout ended its input. -/
theorem c41_finished (m1 m2 net chd csrc : Bytes) (h1 : m1.length = 8192) (h2 : m2.length = 8192) (evs : List Ev)
    (s : St) (e : loop (start m1 m2 net chd csrc) evs = .ok (s, some .finished)) :
    wroteOf .peerout s.w.log = readOf .childout s.w.log ∧
    (wroteOf .childin s.w.log = readOf .peerin s.w.log ∨ Act.sig (c! 'C') ∈ s.w.log ∨ Act.sig (c! 'A') ∈ s.w.log) := by
  obtain ⟨s', why', e', hp⟩ := loop_post evs (run_start m1 m2 net chd csrc h1 h2)
  rw [e] at e'; cases e'
  obtain ⟨_, p2, _, p4, p5, p6, ⟨d, p7, p8⟩, p9, p10, _, _, _, p14, _⟩ := hp
  obtain ⟨q1, q2⟩ := p14 rfl
  refine ⟨by rw [p6, data_nil p4 q1, List.append_nil], ?_⟩
  rcases q2 with q | q
  · left; rw [p7, p8 (by simp) (by simp) (by simp), data_nil p5 q, List.append_nil]
  · exact .inr q

/-! ### C42 -/

/-- C42: when the phase ends with STARTTLS accepted, its last actions are: the
control byte is received, the control pipe is closed, the acknowledgement is sent and
its pipe is closed. So nothing is delivered to the child after the acknowledgement,
nothing is received from the network after the control byte, and no cleartext byte
is left that could be delivered later. -/
theorem c42_discard (m1 m2 net chd csrc : Bytes) (h1 : m1.length = 8192) (h2 : m2.length = 8192) (evs : List Ev)
    (s : St) (e : loop (start m1 m2 net chd csrc) evs = .ok (s, some .starttls)) :
    s.tochild.data = [] ∧
    ∃ q, s.w.log = q ++ [.read .ctl [0], .close .ctl, .write .ack [0], .close .ack] ∧
      wroteOf .ack q = [] ∧ readOf .ctl q = [] := by
  obtain ⟨s', why', e', hp⟩ := loop_post evs (run_start m1 m2 net chd csrc h1 h2)
  rw [e] at e'; cases e'
  obtain ⟨_, p2, _, p4, p5, p6, _, p9, p10, p11, _⟩ := hp
  obtain ⟨a1, a2, a3, a4, q, a5, a6, a7⟩ := p11 rfl
  exact ⟨data_nil p5 a1, q, a5, a7, a6⟩

/-- C42: whatever the outcome, nothing is received from the network or delivered to
the child after the control byte was received. -/
theorem c42_nothing_after (m1 m2 net chd csrc : Bytes) (h1 : m1.length = 8192) (h2 : m2.length = 8192)
    (evs : List Ev) (s : St) (why : Option Why) (e : loop (start m1 m2 net chd csrc) evs = .ok (s, why))
    (pre post : List (Act Fd)) (hs : s.w.log = pre ++ .write .ack [0] :: post) :
    wroteOf .childin post = [] ∧ readOf .peerin post = [] ∧ wroteOf .peerout post = [] ∧ readOf .childout post = [] := by
  obtain ⟨s', why', e', hp⟩ := loop_post evs (run_start m1 m2 net chd csrc h1 h2)
  rw [e] at e'; cases e'
  have ha := hp.2.1
  rw [hs] at ha
  have hack : wroteOf .ack pre = [] := (ha pre _ post rfl).2.2.2.2.2.2
  have hctl : readOf .ctl pre = [0] := (ha pre _ post rfl).2.2.1
  have key : ∀ mid, ∀ rest, post = mid ++ rest →
      wroteOf .childin mid = [] ∧ readOf .peerin mid = [] ∧ wroteOf .peerout mid = [] ∧ readOf .childout mid = [] := by
    intro mid
    refine snoc_ind (P := fun mid => ∀ rest, post = mid ++ rest →
      wroteOf .childin mid = [] ∧ readOf .peerin mid = [] ∧ wroteOf .peerout mid = [] ∧ readOf .childout mid = [])
      ?_ ?_ mid
    · intro _ _; simp [wroteOf_nil, readOf_nil]
    · intro mid a ih rest hr
      have ih := ih (a :: rest) (by simpa using hr)
      have hal := ha (pre ++ .write .ack [0] :: mid) a rest (by simp [hr])
      have w1 : wroteOf .ack (pre ++ .write .ack [0] :: mid) ≠ [] := by logsimp; simp
      have w2 : readOf .ctl (pre ++ .write .ack [0] :: mid) ≠ [] := by logsimp; simp [hctl]
      logsimp
      cases a with
      | write f d => cases f <;> simp [Allowed, w1] at hal <;> simp [wroteOn_write, readOn_write, ih]
      | read f d => cases f <;> simp [Allowed, w2] at hal
      | ended f => simpa [wroteOn_ended, readOn_ended] using ih
      | failed f => simpa [wroteOn_failed, readOn_failed] using ih
      | close f => simpa [wroteOn_close, readOn_close] using ih
      | alarm => simpa [wroteOn_alarm, readOn_alarm] using ih
      | sig c => simpa [wroteOn_sig, readOn_sig] using ih
      | eng e => simpa [wroteOn_eng, readOn_eng] using ih
  exact key post [] (by simp)

/-! ### C43 -/

/-- C43: the acknowledgement is sent, and the session switches to TLS, only if the
child's control pipe delivered exactly the one byte 0, with both network descriptors
open, and with all output of the child that was received already written to the
network. -/
theorem c43_switch (m1 m2 net chd csrc : Bytes) (h1 : m1.length = 8192) (h2 : m2.length = 8192) (evs : List Ev)
    (s : St) (why : Option Why) (e : loop (start m1 m2 net chd csrc) evs = .ok (s, why)) :
    (∀ pre d post, s.w.log = pre ++ .write .ack d :: post →
      d = [0] ∧ readOf .ctl pre = [0] ∧ wroteOf .peerout pre = readOf .childout pre ∧
      Act.close .peerin ∉ pre ∧ Act.close .peerout ∉ pre) ∧
    (why = some .starttls → wroteOf .ack s.w.log = [0] ∧ readOf .ctl s.w.log = [0] ∧
      wroteOf .peerout s.w.log = readOf .childout s.w.log ∧ s.w.op .peerin = true ∧ s.w.op .peerout = true) := by
  obtain ⟨s', why', e', hp⟩ := loop_post evs (run_start m1 m2 net chd csrc h1 h2)
  rw [e] at e'; cases e'
  obtain ⟨_, p2, _, p4, p5, p6, _, p9, p10, p11, _⟩ := hp
  constructor
  · intro pre d post hs
    have := (p2 pre _ post hs).2
    exact ⟨this.1, this.2.1, this.2.2.1, this.2.2.2.1, this.2.2.2.2.1⟩
  · intro hw
    obtain ⟨a1, a2, a3, a4, q, a5, a6, a7⟩ := p11 hw
    refine ⟨?_, ?_, ?_, a3, a4⟩
    · rw [a5]; logsimp; simp [a7]
    · rw [a5]; logsimp; simp [a6]
    · rw [p6, data_nil p4 a2, List.append_nil]

/-- C43: unless the session switches to TLS the child receives no acknowledgement, not even
when the write of the acknowledgement fails or does not return. -/
theorem c43_no_ack (m1 m2 net chd csrc : Bytes) (h1 : m1.length = 8192) (h2 : m2.length = 8192) (evs : List Ev)
    (s : St) (why : Option Why) (e : loop (start m1 m2 net chd csrc) evs = .ok (s, why)) (hw : why ≠ some .starttls) :
    wroteOf .ack s.w.log = [] := by
  obtain ⟨s', why', e', hp⟩ := loop_post evs (run_start m1 m2 net chd csrc h1 h2)
  rw [e] at e'; cases e'
  obtain ⟨_, _, _, _, _, _, _, _, _, _, p, _⟩ := hp
  exact p hw

/-- The write of the acknowledgement fails. -/
example : (match loop (start (List.replicate 8192 0) (List.replicate 8192 0) [] [] [0])
    [⟨some ⟨false, false, false, false, true, false⟩, .data 1, .data 0, [.err 32], .again⟩] with
    | .ok (s, why) => decide (why = some .ackFailed ∧ readOf .ctl s.w.log = [0])
    | .ub => false) = true := by decide +kernel

/-- The state in which the poll of the next iteration is made. -/
theorem loop_snoc (evs : List Ev) (ev : Ev) : ∀ s, loop s (evs ++ [ev]) =
    (do let (s, why) ← loop s evs
        match why with
        | some w => return (s, some w)
        | none =>
          let (s, why) ← body s ev
          match why with
          | some w => return (s, some w)
          | none => loop s []) := by
  induction evs with
  | nil =>
    intro s
    simp only [List.nil_append, loop]
    by_cases hf : finished (propagate s) = true
    · simp [hf]
    · simp only [hf, Bool.false_eq_true, ↓reduceIte, Out.ok_bind]
      cases body (propagate s) ev with
      | ub => rfl
      | ok v => obtain ⟨a, b⟩ := v; cases b <;> rfl
  | cons e evs ih =>
    intro s
    simp only [List.cons_append, loop]
    by_cases hf : finished (propagate s) = true
    · simp [hf]
    · simp only [hf, Bool.false_eq_true, ↓reduceIte]
      cases hb : body (propagate s) e with
      | ub => simp
      | ok v =>
        obtain ⟨s2, why⟩ := v
        cases why with
        | some w => simp
        | none => simp only [Out.ok_bind]; exact ih s2

theorem act_pre (w : W) (a : Act Fd) : w.log <+: (w.act a).log := ⟨[a], rfl⟩

theorem close_pre (w : W) (f : Fd) : w.log <+: (w.close f).log := by
  unfold W.close
  split
  · exact ⟨_, rfl⟩
  · exact List.prefix_refl _

theorem selfpipe_pre (w : W) (ev : SigEv) : w.log <+: (selfpipeEvent w ev).1.log := by
  unfold selfpipeEvent
  cases ev with
  | again => exact List.prefix_refl _
  | failed => exact List.prefix_refl _
  | byte c =>
    simp only
    split
    · exact (act_pre _ _).trans ((close_pre _ _).trans (act_pre _ _))
    · split
      · exact (act_pre _ _).trans ((close_pre _ _).trans ((close_pre _ _).trans ((close_pre _ _).trans
          ((close_pre _ _).trans (act_pre _ _)))))
      · exact act_pre _ _

theorem accept_pre (s : St) (ev : Ev) : s.w.log <+: (accept s ev).1.w.log := by
  unfold accept
  simp only
  split
  · exact close_pre _ _
  · split
    · split <;> exact close_pre _ _
    · split <;> split <;> split <;>
        first
        | exact close_pre _ _
        | exact (close_pre _ _).trans (close_pre _ _)
        | exact (close_pre _ _).trans (act_pre _ _)
        | exact (close_pre _ _).trans ((act_pre _ _).trans (close_pre _ _))

theorem ctl_pre (s : St) (ev : Ev) : s.w.log <+: (doFromCtl s ev).1.w.log := by
  unfold doFromCtl
  cases ev.rd with
  | eintr => exact List.prefix_refl _
  | eagain => exact List.prefix_refl _
  | err e => exact (act_pre _ _).trans (close_pre _ _)
  | data m =>
    simp only
    split
    · exact (act_pre _ _).trans (close_pre _ _)
    split
    · exact act_pre _ _
    split
    · exact act_pre _ _
    · exact (act_pre _ (.read .ctl (got s.csrc 2 m))).trans
        (accept_pre ⟨s.w.act (.read .ctl (got s.csrc 2 m)), _, _, _, _, _⟩ _)

/-- The trace only grows. -/
theorem body_pre (s : St) (ev : Ev) (s' : St) (why : Option Why) (e : body s ev = .ok (s', why)) :
    s.w.log <+: s'.w.log := by
  have out : ∀ {α : Type} (x : Out α) (f : α → Out (St × Option Why)), (x >>= f) = .ok (s', why) →
      (∀ a, f a = .ok (s', why) → s.w.log <+: s'.w.log) → s.w.log <+: s'.w.log := by
    intro α x f h1 h2
    cases x with
    | ub => simp at h1
    | ok a => exact h2 a h1
  unfold body at e
  simp only at e
  split at e
  · unfold doToPeer at e
    refine out _ _ e ?_
    rintro ⟨r, b⟩ he
    cases r <;> simp at he <;> obtain ⟨rfl, _⟩ := he
    · exact List.prefix_refl _
    · exact (act_pre _ _).trans (close_pre _ _)
    · exact act_pre _ _
  split at e
  · unfold doFromChild at e
    refine out _ _ e ?_
    rintro ⟨r, b, c⟩ he
    cases r <;> simp at he <;> obtain ⟨rfl, _⟩ := he
    · exact List.prefix_refl _
    · exact (act_pre _ _).trans (close_pre _ _)
    · exact (act_pre _ _).trans (act_pre _ _)
  split at e
  · have := ctl_pre s ev
    cases hc : doFromCtl s ev
    rw [hc] at e this
    cases e
    exact this
  split at e
  · unfold doToChild at e
    refine out _ _ e ?_
    rintro ⟨r, b⟩ he
    cases r <;> simp at he <;> obtain ⟨rfl, _⟩ := he
    · exact List.prefix_refl _
    · exact (act_pre _ _).trans (close_pre _ _)
    · exact act_pre _ _
  split at e
  · unfold doFromPeer at e
    refine out _ _ e ?_
    rintro ⟨r, b, c⟩ he
    cases r <;> simp at he <;> obtain ⟨rfl, _⟩ := he
    · exact List.prefix_refl _
    · exact (act_pre _ _).trans (close_pre _ _)
    · exact (act_pre _ _).trans (act_pre _ _)
  split at e
  · have := selfpipe_pre s.w ev.sig
    unfold doSelfpipe at e
    cases hc : selfpipeEvent s.w ev.sig
    rw [hc] at e this
    cases e
    exact this
  · cases e
    exact List.prefix_refl _

/-- C43, strong form. Suppose the child wrote `k` bytes of output before its control
byte, and the poll that reports the control byte also reports the child's output
whenever some of these `k` bytes are still unread. Then all `k` bytes were written to
the network before the switch to TLS. -/
theorem c43_output_first (m1 m2 net chd csrc : Bytes) (h1 : m1.length = 8192) (h2 : m2.length = 8192)
    (evs : List Ev) (ev : Ev) (s t : St) (k : Nat)
    (e1 : loop (start m1 m2 net chd csrc) evs = .ok (s, none))
    (e2 : loop (start m1 m2 net chd csrc) (evs ++ [ev]) = .ok (t, some .starttls))
    (hk : (readOf .childout s.w.log).length < k → s.w.op .childout = true ∧ ∃ r, ev.poll = some r ∧ r.fromchild = true) :
    k ≤ (wroteOf .peerout t.w.log).length := by
  have hpost := loop_post evs (run_start m1 m2 net chd csrc h1 h2)
  obtain ⟨s', why', e', hp⟩ := hpost
  rw [e1] at e'; cases e'
  have hr := hp.1 rfl
  have hsw := (c43_switch m1 m2 net chd csrc h1 h2 (evs ++ [ev]) t _ e2).2 rfl
  rw [hsw.2.2.1]
  rw [loop_snoc, e1] at e2
  simp only [Out.ok_bind] at e2
  -- the iteration that ended with STARTTLS did not take the child's output branch
  by_cases hlt : (readOf .childout s.w.log).length < k
  · exfalso
    obtain ⟨hop, r, hpoll, hrc⟩ := hk hlt
    have nostart : ∀ p, loop p [] ≠ .ok (t, some .starttls) := by
      intro p; simp only [loop]; split <;> simp
    have notfinish : ∀ (x : Out (St × Option Why)), (∃ s2 y, x = .ok (s2, y) ∧ y ≠ some .starttls) →
        (do let (s, why) ← x
            match why with
            | some w => return (s, some w)
            | none => loop s []) ≠ .ok (t, some .starttls) := by
      rintro x ⟨s2, y, rfl, hy⟩ hx
      cases y with
      | none => exact nostart _ (by simpa using hx)
      | some w => simp at hx; exact hy (by rw [hx.2])
    refine notfinish (body s ev) ?_ e2
    unfold body
    simp only [hpoll, after, hrc, Bool.and_true]
    by_cases c1 : ((watches s).topeer && r.topeer) = true
    · rw [if_pos c1]
      unfold doToPeer
      obtain ⟨r, b, e, hr'⟩ := writeFrom_spec size s.tonet ev.wr hr.k2
      rw [e]
      rcases hr' with ⟨rfl, rfl⟩ | ⟨rfl, rfl⟩ | ⟨d, rfl, hd, hb, hok⟩ <;> exact ⟨_, _, rfl, by simp⟩
    · rw [if_neg c1]
      by_cases c2 : (watches s).fromchild = true
      · rw [if_pos c2]
        unfold doFromChild
        obtain ⟨r, b, src, e, hr'⟩ := readInto_spec size s.tonet s.chd ev.rd hr.k2
        rw [e]
        rcases hr' with ⟨rfl, rfl, rfl⟩ | ⟨rfl, rfl, rfl⟩ | ⟨d, rfl, hd, hs, hb, hok⟩ <;> exact ⟨_, _, rfl, by simp⟩
      · rw [if_neg c2]
        have hfull : ¬ s.tonet.len < size := by
          intro hh; exact c2 (by simp [watches, hop, hh])
        have c3 : ¬ (((watches s).fromctl && r.fromctl) = true) := by
          simp only [watches, Bool.and_eq_true, decide_eq_true_eq]
          rintro ⟨⟨_, h0⟩, _⟩
          rw [h0] at hfull
          simp [size] at hfull
        rw [if_neg c3]
        split
        · unfold doToChild
          obtain ⟨r, b, e, hr'⟩ := writeFrom_spec size s.tochild ev.wr hr.k1
          rw [e]
          rcases hr' with ⟨rfl, rfl⟩ | ⟨rfl, rfl⟩ | ⟨d, rfl, hd, hb, hok⟩ <;> exact ⟨_, _, rfl, by simp⟩
        split
        · unfold doFromPeer
          obtain ⟨r, b, src, e, hr'⟩ := readInto_spec size s.tochild s.net ev.rd hr.k1
          rw [e]
          rcases hr' with ⟨rfl, rfl, rfl⟩ | ⟨rfl, rfl, rfl⟩ | ⟨d, rfl, hd, hs, hb, hok⟩ <;> exact ⟨_, _, rfl, by simp⟩
        split
        · refine ⟨_, _, rfl, ?_⟩
          simp only [doSelfpipe]
          split <;> simp
        · exact ⟨_, _, rfl, by simp⟩
  · -- everything was read already, and nothing is un-read later
    have hmono : readOf .childout s.w.log <+: readOf .childout t.w.log := by
      obtain ⟨w2, why2, b3, b4⟩ := step_body hr ev
      have hpre := body_pre _ _ _ _ b3
      rw [b3] at e2
      cases why2 with
      | none => simp only [Out.ok_bind, loop] at e2; split at e2 <;> simp at e2
      | some w =>
        simp at e2
        obtain ⟨rfl, rfl⟩ := e2
        obtain ⟨x, hx⟩ := hpre
        exact ⟨readOf .childout x, by rw [← readOf_append, hx]⟩
    have := hmono.length_le
    omega

/-- The poll answers of a session in which the child writes "220" and then requests
STARTTLS, while the network has already sent more cleartext. -/
def demo : List Ev :=
  let all : Option Ready := some ⟨true, true, true, true, true, false⟩
  [⟨some ⟨false, false, true, false, false, false⟩, .data 9, .data 9, [], .again⟩,
   ⟨all, .data 9, .data 9, [], .again⟩, ⟨all, .data 9, .data 0, [], .again⟩, ⟨all, .data 9, .data 9, [], .again⟩,
   ⟨some ⟨true, true, true, false, true, false⟩, .data 9, .data 9, [.data 0], .again⟩]

example : (match loop (start (List.replicate 8192 0) (List.replicate 8192 0) b!"EVIL" b!"220" [0]) demo with
    | .ok (s, some .starttls) => wroteOf .peerout s.w.log == b!"220" && wroteOf .childin s.w.log == [] &&
        readOf .peerin s.w.log == b!"EVIL" && s.tochild.data == []
    | _ => false) = true := by decide +kernel

/-- C43: the guarantee needs the poll to report the child's output together with the
control byte. If a poll reports the control byte alone while output written earlier
is still in the pipe (select examines the descriptors one after the other), the
session switches to TLS with that output undelivered. -/
theorem c43_poll_dependence : ∃ s, loop (start (List.replicate 8192 0) (List.replicate 8192 0) [] b!"220 go" [0])
      [⟨some ⟨false, false, false, false, true, false⟩, .data 9, .data 9, [.data 0], .again⟩] = .ok (s, some .starttls) ∧
    wroteOf .peerout s.w.log = [] ∧ s.chd = b!"220 go" := by
  have h := c41_relay (List.replicate 8192 0) (List.replicate 8192 0) [] b!"220 go" [0] List.length_replicate List.length_replicate
    [⟨some ⟨false, false, false, false, true, false⟩, .data 9, .data 9, [.data 0], .again⟩]
  obtain ⟨s, why, e, _⟩ := h
  have k : (match loop (start (List.replicate 8192 0) (List.replicate 8192 0) [] b!"220 go" [0])
      [⟨some ⟨false, false, false, false, true, false⟩, .data 9, .data 9, [.data 0], .again⟩] with
    | .ok (s, some .starttls) => wroteOf .peerout s.w.log == [] && s.chd == b!"220 go"
    | _ => false) = true := by decide +kernel
  rw [e] at k
  refine ⟨s, ?_⟩
  rw [e]
  cases why with
  | none => simp at k
  | some w =>
    cases w <;> simp at k
    exact ⟨rfl, k⟩

end Relay.Clear
