import Verif.Relay.Lemmas
import Verif.Relay.Tcp
import Verif.Proxy.Props
/-
C38–C40: the TCP relay.
-/
namespace Relay.Tcp
open Io Relay

/-! ### Specification -/

/-- What the relay may do at each moment, given everything it did before (`pre`).
`hdr` is the leading header towards the remote side.

* write: only bytes already received from the other side, in order, nothing
  skipped or repeated;
* close of a writing side: only after the opposite reading side ended and
  everything received from it was written, or directly after a failed write;
* close of a reading side: only after it ended;
* nothing is done with a closed descriptor. -/
def Allowed (hdr : Bytes) (pre : List (Act Fd)) (a : Act Fd) : Prop :=
  (∀ f, a.on = some f → Act.close f ∉ pre) ∧
  match a with
  | .write .remoteout d => d ≠ [] ∧ wroteOf .remoteout pre ++ d <+: hdr ++ readOf .localin pre
  | .write .localout d => d ≠ [] ∧ wroteOf .localout pre ++ d <+: readOf .remotein pre
  | .write _ _ => False
  | .read .localin d => d ≠ []
  | .read .remotein d => d ≠ []
  | .read _ _ => False
  | .close .remoteout => pre.getLast? = some (.failed .remoteout) ∨
      (.ended .localin ∈ pre ∧ wroteOf .remoteout pre = hdr ++ readOf .localin pre)
  | .close .localout => pre.getLast? = some (.failed .localout) ∨
      (.ended .remotein ∈ pre ∧ wroteOf .localout pre = readOf .remotein pre)
  | .close .localin => .ended .localin ∈ pre
  | .close .remotein => .ended .remotein ∈ pre
  | .alarm b => b = false ∧ ∃ q f d, pre = q ++ [.read f d]
  | _ => True

/-! ### Invariant -/

/-- Invariant of the loop while it runs. -/
structure Inv (hdr L R : Bytes) (s : St) : Prop where
  inok : s.inb.Ok size
  outok : s.outb.Ok size
  inacc : hdr ++ readOf .localin s.log = wroteOf .remoteout s.log ++ s.inb.data
  outacc : readOf .remotein s.log = wroteOf .localout s.log ++ s.outb.data
  lsrc : readOf .localin s.log ++ s.lsrc = L
  rsrc : readOf .remotein s.log ++ s.rsrc = R
  allowed : Always (Allowed hdr) s.log
  li : s.localin = false ↔ Act.close .localin ∈ s.log
  ri : s.remotein = false ↔ Act.close .remotein ∈ s.log
  lo : s.localout = false ↔ Act.close .localout ∈ s.log
  ro : s.remoteout = false ↔ Act.close .remoteout ∈ s.log
  lie : s.localin = false → Act.ended .localin ∈ s.log
  rie : s.remotein = false → Act.ended .remotein ∈ s.log

/-- While the loop runs a writing side is closed only because of EOF. -/
structure Run (hdr L R : Bytes) (s : St) : Prop extends Inv hdr L R s where
  rof : s.remoteout = false → s.localin = false ∧ s.inb.len = 0
  lof : s.localout = false → s.remotein = false ∧ s.outb.len = 0

theorem data_nil {n : Nat} {b : Buf} (h : b.Ok n) (h0 : b.len = 0) : b.data = [] := by
  have := h.data_length
  rw [h0] at this
  exact List.length_eq_zero_iff.mp this

theorem run_closeRemoteout {hdr L R : Bytes} {s : St} (h : Run hdr L R s) (h1 : s.localin = false)
    (h2 : s.remoteout = true) (h3 : s.inb.len = 0) : Run hdr L R (closeRemoteout s) := by
  have e : closeRemoteout s = { s with remoteout := false, log := s.log ++ [.close .remoteout] } := by
    simp [closeRemoteout, h2]
  have hd := data_nil h.inok h3
  obtain ⟨⟨i1, i2, i3, i4, i5, i6, i7, i8, i9, i10, i11, i12, i13⟩, i14, i15⟩ := h
  rw [e]
  refine ⟨⟨?_, ?_, ?_, ?_, ?_, ?_, ?_, ?_, ?_, ?_, ?_, ?_, ?_⟩, ?_, ?_⟩ <;> logsimp <;> grind [Allowed, Act.on]

theorem run_closeLocalout {hdr L R : Bytes} {s : St} (h : Run hdr L R s) (h1 : s.remotein = false)
    (h2 : s.localout = true) (h3 : s.outb.len = 0) : Run hdr L R (closeLocalout s) := by
  have e : closeLocalout s = { s with localout := false, log := s.log ++ [.close .localout] } := by
    simp [closeLocalout, h2]
  have hd := data_nil h.outok h3
  obtain ⟨⟨i1, i2, i3, i4, i5, i6, i7, i8, i9, i10, i11, i12, i13⟩, i14, i15⟩ := h
  rw [e]
  refine ⟨⟨?_, ?_, ?_, ?_, ?_, ?_, ?_, ?_, ?_, ?_, ?_, ?_, ?_⟩, ?_, ?_⟩ <;> logsimp <;> grind [Allowed, Act.on]

theorem run_propagate {hdr L R : Bytes} {s : St} (h : Run hdr L R s) : Run hdr L R (propagate s) := by
  unfold propagate
  have h1 : Run hdr L R
      (if s.localin = false ∧ s.remoteout = true ∧ s.inb.len = 0 then closeRemoteout s else s) := by
    by_cases hc : s.localin = false ∧ s.remoteout = true ∧ s.inb.len = 0
    · rw [if_pos hc]; exact run_closeRemoteout h hc.1 hc.2.1 hc.2.2
    · rw [if_neg hc]; exact h
  simp only
  generalize (if s.localin = false ∧ s.remoteout = true ∧ s.inb.len = 0 then closeRemoteout s else s) = s' at h1
  by_cases hc : s'.remotein = false ∧ s'.localout = true ∧ s'.outb.len = 0
  · rw [if_pos hc]; exact run_closeLocalout h1 hc.1 hc.2.1 hc.2.2
  · rw [if_neg hc]; exact h1

/-- What one step leaves behind. -/
def Post (hdr L R : Bytes) (s : St) (why : Option Why) : Prop :=
  Inv hdr L R s ∧ (why = none → Run hdr L R s) ∧ (why = some .signal → Run hdr L R s) ∧
  (why = some .remoteWrite → Act.failed .remoteout ∈ s.log) ∧
  (why = some .localWrite → Act.failed .localout ∈ s.log) ∧
  (why = some .finished → s.localin = false ∧ s.remotein = false ∧ s.localout = false ∧ s.remoteout = false ∧
    s.inb.len = 0 ∧ s.outb.len = 0)

theorem post_none {hdr L R : Bytes} {s : St} (h : Run hdr L R s) : Post hdr L R s none :=
  ⟨h.toInv, fun _ => h, by simp, by simp, by simp, by simp⟩

theorem prefix_of_acc {a b c d e : Bytes} (h : a = b ++ c) (h2 : c = d ++ e) : b ++ d <+: a :=
  ⟨e, by rw [h, h2, List.append_assoc]⟩

theorem step_toRemote {hdr L R : Bytes} {s : St} (h : Run hdr L R s) (ev : Ev) (hw : s.remoteout = true) :
    ∃ s' why, doToRemote s ev = .ok (s', why) ∧ Post hdr L R s' why := by
  unfold doToRemote
  by_cases h0 : 0 < s.inb.len
  · rw [if_pos h0]
    obtain ⟨r, b, e, hr⟩ := writeFrom_spec size s.inb ev.wr h.inok
    rw [e]
    rcases hr with ⟨rfl, rfl⟩ | ⟨rfl, rfl⟩ | ⟨d, rfl, hd, hb, hok⟩
    · exact ⟨_, _, rfl, post_none h⟩
    · refine ⟨_, _, rfl, ?_, by simp, by simp, ?_, by simp, by simp⟩
      · simp only [closeRemoteout, hw, if_true]
        obtain ⟨⟨i1, i2, i3, i4, i5, i6, i7, i8, i9, i10, i11, i12, i13⟩, i14, i15⟩ := h
        refine ⟨?_, ?_, ?_, ?_, ?_, ?_, ?_, ?_, ?_, ?_, ?_, ?_, ?_⟩ <;> logsimp <;>
          grind [Allowed, Act.on]
      · simp [closeRemoteout, hw]
    · refine ⟨_, _, rfl, post_none ?_⟩
      have hp := prefix_of_acc h.inacc hb
      have h0' : s.inb.len ≠ 0 := by omega
      obtain ⟨⟨i1, i2, i3, i4, i5, i6, i7, i8, i9, i10, i11, i12, i13⟩, i14, i15⟩ := h
      refine ⟨⟨?_, ?_, ?_, ?_, ?_, ?_, ?_, ?_, ?_, ?_, ?_, ?_, ?_⟩, ?_, ?_⟩ <;> logsimp <;> grind [Allowed, Act.on]
  · rw [if_neg h0]
    exact ⟨_, _, rfl, post_none h⟩

theorem step_toLocal {hdr L R : Bytes} {s : St} (h : Run hdr L R s) (ev : Ev) (hw : s.localout = true) :
    ∃ s' why, doToLocal s ev = .ok (s', why) ∧ Post hdr L R s' why := by
  unfold doToLocal
  obtain ⟨r, b, e, hr⟩ := writeFrom_spec size s.outb ev.wr h.outok
  rw [e]
  rcases hr with ⟨rfl, rfl⟩ | ⟨rfl, rfl⟩ | ⟨d, rfl, hd, hb, hok⟩
  · exact ⟨_, _, rfl, post_none h⟩
  · refine ⟨_, _, rfl, ?_, by simp, by simp, by simp, ?_, by simp⟩
    · simp only [closeLocalout, hw, if_true]
      obtain ⟨⟨i1, i2, i3, i4, i5, i6, i7, i8, i9, i10, i11, i12, i13⟩, i14, i15⟩ := h
      refine ⟨?_, ?_, ?_, ?_, ?_, ?_, ?_, ?_, ?_, ?_, ?_, ?_, ?_⟩ <;> logsimp <;>
        grind [Allowed, Act.on]
    · simp [closeLocalout, hw]
  · refine ⟨_, _, rfl, post_none ?_⟩
    have hp := prefix_of_acc h.outacc hb
    obtain ⟨⟨i1, i2, i3, i4, i5, i6, i7, i8, i9, i10, i11, i12, i13⟩, i14, i15⟩ := h
    refine ⟨⟨?_, ?_, ?_, ?_, ?_, ?_, ?_, ?_, ?_, ?_, ?_, ?_, ?_⟩, ?_, ?_⟩ <;> logsimp <;> grind [Allowed, Act.on]

theorem step_fromLocal {hdr L R : Bytes} {s : St} (h : Run hdr L R s) (ev : Ev) (hw : s.localin = true)
    (hw2 : s.remoteout = true) :
    ∃ s' why, doFromLocal s ev = .ok (s', why) ∧ Post hdr L R s' why := by
  unfold doFromLocal
  obtain ⟨r, b, src, e, hr⟩ := readInto_spec size s.inb s.lsrc ev.rd h.inok
  rw [e]
  rcases hr with ⟨rfl, rfl, rfl⟩ | ⟨rfl, rfl, rfl⟩ | ⟨d, rfl, hd, hs, hb, hok⟩
  · exact ⟨_, _, rfl, post_none h⟩
  · refine ⟨_, _, rfl, post_none ?_⟩
    simp only [closeLocalin, hw, if_true]
    obtain ⟨⟨i1, i2, i3, i4, i5, i6, i7, i8, i9, i10, i11, i12, i13⟩, i14, i15⟩ := h
    refine ⟨⟨?_, ?_, ?_, ?_, ?_, ?_, ?_, ?_, ?_, ?_, ?_, ?_, ?_⟩, ?_, ?_⟩ <;> logsimp <;> grind [Allowed, Act.on]
  · refine ⟨_, _, rfl, post_none ?_⟩
    obtain ⟨⟨i1, i2, i3, i4, i5, i6, i7, i8, i9, i10, i11, i12, i13⟩, i14, i15⟩ := h
    refine ⟨⟨?_, ?_, ?_, ?_, ?_, ?_, ?_, ?_, ?_, ?_, ?_, ?_, ?_⟩, ?_, ?_⟩ <;> logsimp <;> grind [Allowed, Act.on]

theorem step_fromRemote {hdr L R : Bytes} {s : St} (h : Run hdr L R s) (ev : Ev) (hw : s.remotein = true)
    (hw2 : s.localout = true) :
    ∃ s' why, doFromRemote s ev = .ok (s', why) ∧ Post hdr L R s' why := by
  unfold doFromRemote
  obtain ⟨r, b, src, e, hr⟩ := readInto_spec size s.outb s.rsrc ev.rd h.outok
  rw [e]
  rcases hr with ⟨rfl, rfl, rfl⟩ | ⟨rfl, rfl, rfl⟩ | ⟨d, rfl, hd, hs, hb, hok⟩
  · exact ⟨_, _, rfl, post_none h⟩
  · refine ⟨_, _, rfl, post_none ?_⟩
    simp only [closeRemotein, hw, if_true]
    obtain ⟨⟨i1, i2, i3, i4, i5, i6, i7, i8, i9, i10, i11, i12, i13⟩, i14, i15⟩ := h
    refine ⟨⟨?_, ?_, ?_, ?_, ?_, ?_, ?_, ?_, ?_, ?_, ?_, ?_, ?_⟩, ?_, ?_⟩ <;> logsimp <;> grind [Allowed, Act.on]
  · refine ⟨_, _, rfl, post_none ?_⟩
    obtain ⟨⟨i1, i2, i3, i4, i5, i6, i7, i8, i9, i10, i11, i12, i13⟩, i14, i15⟩ := h
    refine ⟨⟨?_, ?_, ?_, ?_, ?_, ?_, ?_, ?_, ?_, ?_, ?_, ?_, ?_⟩, ?_, ?_⟩ <;> logsimp <;> grind [Allowed, Act.on]

theorem after_le (w : Ready) (p : Option Ready) :
    ((after w p).toremote = true → w.toremote = true) ∧ ((after w p).tolocal = true → w.tolocal = true) ∧
    ((after w p).fromlocal = true → w.fromlocal = true) ∧ ((after w p).fromremote = true → w.fromremote = true) := by
  cases p <;> simp +contextual [after]

theorem step_body {hdr L R : Bytes} {s : St} (h : Run hdr L R s) (ev : Ev) :
    ∃ s' why, body s ev = .ok (s', why) ∧ Post hdr L R s' why := by
  unfold body
  obtain ⟨a1, a2, a3, a4⟩ := after_le (watches s) ev.poll
  simp only
  generalize after (watches s) ev.poll = w at a1 a2 a3 a4
  simp only [watches, Bool.and_eq_true] at a1 a2 a3 a4
  by_cases c1 : w.toremote = true
  · rw [if_pos c1]; exact step_toRemote h ev (a1 c1).1
  rw [if_neg c1]
  by_cases c2 : w.tolocal = true
  · rw [if_pos c2]; exact step_toLocal h ev (a2 c2).1
  rw [if_neg c2]
  by_cases c3 : w.fromlocal = true
  · rw [if_pos c3]; exact step_fromLocal h ev (a3 c3).1.1 (a3 c3).1.2
  rw [if_neg c3]
  by_cases c4 : w.fromremote = true
  · rw [if_pos c4]; exact step_fromRemote h ev (a4 c4).1.1 (a4 c4).1.2
  rw [if_neg c4]
  split
  · exact ⟨_, _, rfl, h.toInv, by simp, fun _ => h, by simp, by simp, by simp⟩
  · exact ⟨_, _, rfl, post_none h⟩

theorem post_finished {hdr L R : Bytes} {s : St} (h : Run hdr L R s) (hf : finished s = true) :
    Post hdr L R s (some .finished) := by
  refine ⟨h.toInv, by simp, by simp, by simp, by simp, fun _ => ?_⟩
  simp [finished] at hf
  grind

theorem loop_post {hdr L R : Bytes} (evs : List Ev) : ∀ {s : St}, Run hdr L R s →
    ∃ s' why, loop s evs = .ok (s', why) ∧ Post hdr L R s' why := by
  induction evs with
  | nil =>
    intro s h
    have hp := run_propagate h
    simp only [loop]
    split
    · rename_i hf; exact ⟨_, _, rfl, post_finished hp hf⟩
    · exact ⟨_, _, rfl, post_none hp⟩
  | cons ev evs ih =>
    intro s h
    have hp := run_propagate h
    simp only [loop]
    split
    · rename_i hf; exact ⟨_, _, rfl, post_finished hp hf⟩
    · obtain ⟨s', why, e, hpost⟩ := step_body hp ev
      rw [e]
      cases why with
      | some w => exact ⟨_, _, rfl, hpost⟩
      | none => exact ih (hpost.2.1 rfl)

theorem run_start (imem omem : Bytes) (n : Nat) (L R : Bytes) (hi : imem.length = size) (ho : omem.length = size)
    (hn : n ≤ size) : Run (imem.take n) L R (start imem omem n L R) := by
  refine ⟨⟨⟨hi, hn⟩, ⟨ho, Nat.zero_le _⟩, ?_, ?_, ?_, ?_, always_nil _, ?_, ?_, ?_, ?_, ?_, ?_⟩, ?_, ?_⟩ <;>
    simp [start, readOf_nil, wroteOf_nil, Buf.data]

/-! ### Progress -/

/-- An answer of the kernel under which every watched descriptor is ready and the
call succeeds. -/
def Productive (ev : Ev) : Prop :=
  ev.poll = some ⟨true, true, true, true, false⟩ ∧ (∃ m, ev.rd = .data m) ∧ ∃ m, ev.wr = .data m

/-- Work left. -/
def todo (s : St) : Nat :=
  2 * s.lsrc.length + s.inb.len + s.localin.toNat + 2 * s.rsrc.length + s.outb.len + s.remotein.toNat

/-- A reading side that was closed had delivered its whole stream. -/
def AllRead (s : St) : Prop := (s.localin = false → s.lsrc = []) ∧ (s.remotein = false → s.rsrc = [])

theorem propagate_same (s : St) : (propagate s).lsrc = s.lsrc ∧ (propagate s).rsrc = s.rsrc ∧
    (propagate s).inb = s.inb ∧ (propagate s).outb = s.outb ∧ (propagate s).localin = s.localin ∧
    (propagate s).remotein = s.remotein := by
  unfold propagate closeLocalout closeRemoteout
  grind

theorem todo_propagate (s : St) : todo (propagate s) = todo s := by
  obtain ⟨h1, h2, h3, h4, h5, h6⟩ := propagate_same s
  simp [todo, h1, h2, h3, h4, h5, h6]

theorem allRead_propagate (s : St) (h : AllRead s) : AllRead (propagate s) := by
  obtain ⟨h1, h2, h3, h4, h5, h6⟩ := propagate_same s
  simpa [AllRead, h1, h2, h5, h6] using h

/-- After EOF propagation a writing side is open only while there is something to
write or to wait for. -/
theorem propagate_open (s : St) :
    ((propagate s).remoteout = true → (propagate s).localin = false → (propagate s).inb.len ≠ 0) ∧
    ((propagate s).localout = true → (propagate s).remotein = false → (propagate s).outb.len ≠ 0) := by
  unfold propagate closeLocalout closeRemoteout
  grind

/-- While the loop waits, a descriptor that can make progress is watched. -/
theorem watches_some {hdr L R : Bytes} {s : St} (h : Run hdr L R (propagate s)) (hf : finished (propagate s) = false) :
    (watches (propagate s)).toremote = true ∨ (watches (propagate s)).tolocal = true ∨
    (watches (propagate s)).fromlocal = true ∨ (watches (propagate s)).fromremote = true := by
  obtain ⟨p1, p2⟩ := propagate_open s
  generalize propagate s = t at *
  have r1 := h.rof
  have r2 := h.lof
  have k1 := h.inok.2
  have k2 := h.outok.2
  simp only [watches, Bool.and_eq_true, Bool.or_eq_true, decide_eq_true_eq, Bool.not_eq_true']
  have hsz : size = 8192 := rfl
  have hf' : ¬ finished t = true := by simp [hf]
  simp only [finished, Bool.and_eq_true, Bool.not_eq_true', beq_iff_eq] at hf'
  cases e1 : t.localin <;> cases e2 : t.remoteout <;> cases e3 : t.remotein <;> cases e4 : t.localout <;>
    simp [e1, e2, e3, e4] at * <;> omega

theorem readInto_productive (n : Nat) (b : Buf) (src : Bytes) (m : Nat) (h : b.Ok n) (hl : b.len < n) :
    (src = [] ∧ readInto n b src (.data m) = .ok (.ended, b, src)) ∨
    ∃ d b' src', readInto n b src (.data m) = .ok (.got d, b', src') ∧
      2 * src'.length + b'.len < 2 * src.length + b.len := by
  obtain ⟨r, b', src', e, hr⟩ := readInto_spec n b src (.data m) h
  rcases hr with ⟨rfl, rfl, rfl⟩ | ⟨rfl, rfl, rfl⟩ | ⟨d, rfl, hd, hs, hb, hok⟩
  · simp only [readInto] at e
    split at e
    · simp at e
    · cases hh : copyN b'.mem b'.len (got src' (n - b'.len) m) (got src' (n - b'.len) m).length <;> simp [hh] at e
  · left
    refine ⟨?_, e⟩
    simp only [readInto] at e
    split at e
    · rename_i h0
      simp [got] at h0
      rcases h0 with h0 | h0
      · omega
      · exact h0
    · cases hh : copyN b'.mem b'.len (got src' (n - b'.len) m) (got src' (n - b'.len) m).length <;> simp [hh] at e
  · right
    refine ⟨d, b', src', e, ?_⟩
    have l1 := h.data_length
    have l2 := hok.data_length
    have l3 : 0 < d.length := List.length_pos_iff.mpr hd
    rw [hb, List.length_append] at l2
    rw [hs, List.length_append]
    omega

theorem writeFrom_productive (n : Nat) (b : Buf) (m : Nat) (h : b.Ok n) (hl : 0 < b.len) :
    ∃ d b', writeFrom b (.data m) = .ok (.put d, b') ∧ b'.len < b.len := by
  obtain ⟨h1, h2⟩ := h
  simp only [writeFrom]
  have hl' : (put b.mem b.len m).length = min b.len (m + 1) := by simp [put]; omega
  rw [if_neg (by omega), if_neg (by omega)]
  simp only [consume, memmove]
  rw [if_pos (by omega)]
  exact ⟨_, _, rfl, by simp only; omega⟩

theorem body_productive {hdr L R : Bytes} {s : St} (h : Run hdr L R (propagate s))
    (hf : finished (propagate s) = false) (ev : Ev) (hev : Productive ev) :
    ∃ s', body (propagate s) ev = .ok (s', none) ∧ todo s' < todo (propagate s) ∧
      (AllRead (propagate s) → AllRead s') := by
  have hw := watches_some h hf
  obtain ⟨p1, p2⟩ := propagate_open s
  generalize propagate s = t at *
  obtain ⟨he1, ⟨m1, he2⟩, m2, he3⟩ := hev
  have k1 := h.inok
  have k2 := h.outok
  unfold body
  rw [he1]
  simp only [after, Bool.and_true, Bool.and_false]
  by_cases c1 : (watches t).toremote = true
  · rw [if_pos c1]
    have : 0 < t.inb.len := by
      simp only [watches, Bool.and_eq_true, Bool.or_eq_true, decide_eq_true_eq, Bool.not_eq_true'] at c1
      rcases c1.2 with c | c
      · exact c
      · have := p1 c1.1 c; omega
    obtain ⟨d, b', e, hlt⟩ := writeFrom_productive size t.inb m2 k1 this
    simp only [doToRemote, if_pos this, he3, e]
    exact ⟨_, rfl, by simp only [todo]; omega, fun h => h⟩
  rw [if_neg c1]
  by_cases c2 : (watches t).tolocal = true
  · rw [if_pos c2]
    have : 0 < t.outb.len := by
      simp only [watches, Bool.and_eq_true, decide_eq_true_eq] at c2
      exact c2.2
    obtain ⟨d, b', e, hlt⟩ := writeFrom_productive size t.outb m2 k2 this
    simp only [doToLocal, he3, e]
    exact ⟨_, rfl, by simp only [todo]; omega, fun h => h⟩
  rw [if_neg c2]
  by_cases c3 : (watches t).fromlocal = true
  · rw [if_pos c3]
    simp only [watches, Bool.and_eq_true, decide_eq_true_eq] at c3
    simp only [doFromLocal, he2]
    rcases readInto_productive size t.inb t.lsrc m1 k1 c3.2 with ⟨h0, e⟩ | ⟨d, b', src', e, hlt⟩
    · rw [e]
      refine ⟨_, rfl, ?_, ?_⟩
      · simp [closeLocalin, c3.1.1, todo]
      · simp [closeLocalin, c3.1.1, AllRead, h0]
    · rw [e]
      refine ⟨_, rfl, by simp only [todo]; omega, ?_⟩
      intro h; refine ⟨fun h1 => ?_, h.2⟩
      simp [c3.1.1] at h1
  rw [if_neg c3]
  by_cases c4 : (watches t).fromremote = true
  · rw [if_pos c4]
    simp only [watches, Bool.and_eq_true, decide_eq_true_eq] at c4
    simp only [doFromRemote, he2]
    rcases readInto_productive size t.outb t.rsrc m1 k2 c4.2 with ⟨h0, e⟩ | ⟨d, b', src', e, hlt⟩
    · rw [e]
      refine ⟨_, rfl, ?_, ?_⟩
      · simp [closeRemotein, c4.1.1, todo]
      · simp [closeRemotein, c4.1.1, AllRead, h0]
    · rw [e]
      refine ⟨_, rfl, by simp only [todo]; omega, ?_⟩
      intro h; refine ⟨h.1, fun h1 => ?_⟩
      simp [c4.1.1] at h1
  simp_all

theorem loop_productive {hdr L R : Bytes} (evs : List Ev) (hev : ∀ ev ∈ evs, Productive ev) :
    ∀ {s : St}, Run hdr L R s → AllRead s → todo s ≤ evs.length →
      ∃ s', loop s evs = .ok (s', some .finished) ∧ AllRead s' := by
  induction evs with
  | nil =>
    intro s h hr ht
    have hp := run_propagate h
    have hr := allRead_propagate s hr
    have := todo_propagate s
    simp only [loop]
    by_cases hf : finished (propagate s) = true
    · rw [if_pos hf]; exact ⟨_, rfl, hr⟩
    · exfalso
      obtain ⟨s', _, h1, _⟩ := body_productive hp (by simpa using hf)
        ⟨some ⟨true, true, true, true, false⟩, .data 0, .data 0⟩ ⟨rfl, ⟨_, rfl⟩, ⟨_, rfl⟩⟩
      simp at ht; omega
  | cons ev evs ih =>
    intro s h hr ht
    have hp := run_propagate h
    have hr := allRead_propagate s hr
    have := todo_propagate s
    simp only [loop]
    by_cases hf : finished (propagate s) = true
    · rw [if_pos hf]; exact ⟨_, rfl, hr⟩
    · rw [if_neg hf]
      obtain ⟨s', e, h1, h2⟩ := body_productive hp (by simpa using hf) ev (hev ev (by simp))
      obtain ⟨s2, why, e2, hpost⟩ := step_body hp ev
      rw [e] at e2
      cases e2
      rw [e]
      simp only [List.length_cons] at ht
      exact ih (fun x hx => hev x (by simp [hx])) (hpost.2.1 rfl) (h2 hr) (by simp only; omega)

/-! ### C38 -/

/-- C38: whatever the two sides send and however the kernel schedules, splits and
fails the calls, the relay is never undefined; each of its actions is allowed by
the specification `Allowed` (writes continue the stream received from the other
side exactly); what was received and not yet sent is exactly the contents of a
buffer of at most 8192 bytes; and it receives the peer's stream in order. -/
theorem c38_relay (imem omem : Bytes) (hi : imem.length = 8192) (ho : omem.length = 8192) (n : Nat)
    (hn : n ≤ 8192) (L R : Bytes) (evs : List Ev) :
    ∃ s why, loop (start imem omem n L R) evs = .ok (s, why) ∧
      Always (Allowed (imem.take n)) s.log ∧
      imem.take n ++ readOf .localin s.log = wroteOf .remoteout s.log ++ s.inb.data ∧
      readOf .remotein s.log = wroteOf .localout s.log ++ s.outb.data ∧
      s.inb.data.length ≤ 8192 ∧ s.outb.data.length ≤ 8192 ∧
      readOf .localin s.log <+: L ∧ readOf .remotein s.log <+: R := by
  obtain ⟨s, why, e, hp⟩ := loop_post evs (run_start imem omem n L R hi ho hn)
  have h := hp.1
  refine ⟨s, why, e, h.allowed, h.inacc, h.outacc, ?_, ?_, ⟨_, h.lsrc⟩, ⟨_, h.rsrc⟩⟩
  · rw [h.inok.data_length]; exact h.inok.2
  · rw [h.outok.data_length]; exact h.outok.2

/-- C38, at every moment: the bytes sent to either side are a prefix of those
received from the other (after the header). -/
theorem c38_prefix (imem omem : Bytes) (hi : imem.length = 8192) (ho : omem.length = 8192) (n : Nat)
    (hn : n ≤ 8192) (L R : Bytes) (evs : List Ev) (s : St) (why : Option Why)
    (e : loop (start imem omem n L R) evs = .ok (s, why)) (pre post : List (Act Fd)) (hs : s.log = pre ++ post) :
    wroteOf .remoteout pre <+: imem.take n ++ readOf .localin pre ∧
    wroteOf .localout pre <+: readOf .remotein pre := by
  obtain ⟨s', why', e', hp⟩ := loop_post evs (run_start imem omem n L R hi ho hn)
  rw [e] at e'; cases e'
  have ha := hp.1.allowed
  rw [hs] at ha
  clear hs e hp
  revert post
  refine snoc_ind (P := fun pre => ∀ post, Always (Allowed (imem.take n)) (pre ++ post) →
    wroteOf .remoteout pre <+: imem.take n ++ readOf .localin pre ∧
    wroteOf .localout pre <+: readOf .remotein pre) ?_ ?_ pre
  · intro _ _; simp [wroteOf_nil]
  · intro pre a ih post ha
    have ih := ih (a :: post) (by simpa using ha)
    have hal := ha pre a post (by simp)
    logsimp
    cases a with
    | write f d =>
      cases f <;> simp [Allowed] at hal <;> simp [wroteOn_write, readOn_write, ih, hal]
    | read f d =>
      cases f <;> simp [Allowed] at hal <;> simp [wroteOn_read, readOn_read, ih]
      · exact ih.1.trans ⟨d, by simp⟩
      · exact ih.2.trans ⟨d, by simp⟩
    | ended f => simpa [wroteOn_ended, readOn_ended] using ih
    | failed f => simpa [wroteOn_failed, readOn_failed] using ih
    | close f => simpa [wroteOn_close, readOn_close] using ih
    | alarm => simpa [wroteOn_alarm, readOn_alarm] using ih
    | sig c => simpa [wroteOn_sig, readOn_sig] using ih
    | eng e => simpa [wroteOn_eng, readOn_eng] using ih

/-! ### C39 -/

/-- C39: a writing side is closed only after the opposite side ended and all bytes
received from it were delivered, or directly after a failed write that ends the
relay. -/
theorem c39_close (imem omem : Bytes) (hi : imem.length = 8192) (ho : omem.length = 8192) (n : Nat)
    (hn : n ≤ 8192) (L R : Bytes) (evs : List Ev) (s : St) (why : Option Why)
    (e : loop (start imem omem n L R) evs = .ok (s, why)) (pre post : List (Act Fd)) :
    (s.log = pre ++ .close .remoteout :: post →
      (.ended .localin ∈ pre ∧ wroteOf .remoteout pre = imem.take n ++ readOf .localin pre) ∨
      ∃ q, pre = q ++ [.failed .remoteout]) ∧
    (s.log = pre ++ .close .localout :: post →
      (.ended .remotein ∈ pre ∧ wroteOf .localout pre = readOf .remotein pre) ∨
      ∃ q, pre = q ++ [.failed .localout]) := by
  obtain ⟨s', why', e', hp⟩ := loop_post evs (run_start imem omem n L R hi ho hn)
  rw [e] at e'; cases e'
  have ha := hp.1.allowed
  have gl : ∀ a, pre.getLast? = some a → ∃ q, pre = q ++ [a] := fun a h => by
    obtain ⟨q, hq⟩ := List.getLast?_eq_some_iff.mp h
    exact ⟨q, hq⟩
  constructor
  · intro hs
    rcases (ha pre _ post hs).2 with h | h
    · exact .inr (gl _ h)
    · exact .inl h
  · intro hs
    rcases (ha pre _ post hs).2 with h | h
    · exact .inr (gl _ h)
    · exact .inl h

/-- C39: when the relay ends without a failed write and without a signal, both
sides ended, both writing sides were closed, and both directions were delivered
completely. -/
theorem c39_finished (imem omem : Bytes) (hi : imem.length = 8192) (ho : omem.length = 8192) (n : Nat)
    (hn : n ≤ 8192) (L R : Bytes) (evs : List Ev) (s : St) (why : Why)
    (e : loop (start imem omem n L R) evs = .ok (s, some why))
    (h1 : Act.failed .remoteout ∉ s.log) (h2 : Act.failed .localout ∉ s.log) (h3 : why ≠ .signal) :
    Act.ended .localin ∈ s.log ∧ Act.ended .remotein ∈ s.log ∧
    Act.close .localout ∈ s.log ∧ Act.close .remoteout ∈ s.log ∧
    wroteOf .remoteout s.log = imem.take n ++ readOf .localin s.log ∧
    wroteOf .localout s.log = readOf .remotein s.log := by
  obtain ⟨s', why', e', hp⟩ := loop_post evs (run_start imem omem n L R hi ho hn)
  rw [e] at e'; cases e'
  obtain ⟨p1, _, _, p4, p5, p6⟩ := hp
  cases why with
  | signal => exact absurd rfl h3
  | remoteWrite => exact absurd (p4 rfl) h1
  | localWrite => exact absurd (p5 rfl) h2
  | finished =>
    obtain ⟨f1, f2, f3, f4, f5, f6⟩ := p6 rfl
    refine ⟨p1.lie f1, p1.rie f2, p1.lo.mp f3, p1.ro.mp f4, ?_, ?_⟩
    · rw [p1.inacc, data_nil p1.inok f5, List.append_nil]
    · rw [p1.outacc, data_nil p1.outok f6, List.append_nil]

/-- C39, progress: if the kernel keeps answering that the watched descriptors are
ready and the calls succeed, the relay ends by itself after finitely many
iterations, and both streams were delivered completely. -/
theorem c39_complete (imem omem : Bytes) (hi : imem.length = 8192) (ho : omem.length = 8192) (n : Nat)
    (hn : n ≤ 8192) (L R : Bytes) (evs : List Ev) (hev : ∀ ev ∈ evs, Productive ev)
    (hlen : 2 * L.length + n + 2 * R.length + 2 ≤ evs.length) :
    ∃ s, loop (start imem omem n L R) evs = .ok (s, some .finished) ∧
      wroteOf .remoteout s.log = imem.take n ++ L ∧ wroteOf .localout s.log = R ∧
      Act.close .localout ∈ s.log ∧ Act.close .remoteout ∈ s.log := by
  have hr := run_start imem omem n L R hi ho hn
  obtain ⟨s, e, ha⟩ := loop_productive evs hev hr (by simp [AllRead, start]) (by simp [todo, start]; omega)
  obtain ⟨s', why', e', hp⟩ := loop_post evs hr
  rw [e] at e'; cases e'
  obtain ⟨p1, _, _, _, _, p6⟩ := hp
  obtain ⟨f1, f2, f3, f4, f5, f6⟩ := p6 rfl
  refine ⟨s, e, ?_, ?_, p1.lo.mp f3, p1.ro.mp f4⟩
  · have := p1.inacc
    have hl := p1.lsrc
    rw [data_nil p1.inok f5, List.append_nil] at this
    rw [ha.1 f1, List.append_nil] at hl
    rw [← this, hl]
  · have := p1.outacc
    have hl := p1.rsrc
    rw [data_nil p1.outok f6, List.append_nil] at this
    rw [ha.2 f2, List.append_nil] at hl
    rw [← this, hl]

theorem loop_waiting {hdr L R : Bytes} (evs : List Ev) : ∀ {s : St}, Run hdr L R s → ∀ s',
    loop s evs = .ok (s', none) → ∃ t, s' = propagate t ∧ Run hdr L R (propagate t) ∧ finished (propagate t) = false := by
  induction evs with
  | nil =>
    intro s h s' e
    have hp := run_propagate h
    simp only [loop] at e
    by_cases hf : finished (propagate s) = true
    · simp [hf] at e
    · rw [if_neg hf] at e
      cases e
      exact ⟨s, rfl, hp, by simpa using hf⟩
  | cons ev evs ih =>
    intro s h s' e
    have hp := run_propagate h
    simp only [loop] at e
    by_cases hf : finished (propagate s) = true
    · simp [hf] at e
    · rw [if_neg hf] at e
      obtain ⟨s2, why, e2, hpost⟩ := step_body hp ev
      rw [e2] at e
      cases why with
      | some w => simp at e
      | none => exact ih (hpost.2.1 rfl) s' e

/-- C39: while the relay waits, at least one connection descriptor is in the poll
set (besides the signal pipe), so it can never wait for a signal alone. -/
theorem c39_never_stuck (imem omem : Bytes) (hi : imem.length = 8192) (ho : omem.length = 8192) (n : Nat)
    (hn : n ≤ 8192) (L R : Bytes) (evs : List Ev) (s : St)
    (e : loop (start imem omem n L R) evs = .ok (s, none)) :
    (watches s).toremote = true ∨ (watches s).tolocal = true ∨
    (watches s).fromlocal = true ∨ (watches s).fromremote = true := by
  obtain ⟨t, rfl, hr, hf⟩ := loop_waiting evs (run_start imem omem n L R hi ho hn) s e
  exact watches_some hr hf

example : ∃ evs : List Ev, (∀ ev ∈ evs, Productive ev) ∧ 2 * 3 + 2 + 2 * 3 + 2 ≤ evs.length :=
  ⟨List.replicate 20 ⟨some ⟨true, true, true, true, false⟩, .data 1, .data 0⟩, by
    intro ev h; rw [List.eq_of_mem_replicate h]; exact ⟨rfl, ⟨_, rfl⟩, ⟨_, rfl⟩⟩, by simp⟩

/-! ### C40 -/

/-- C40: with PROXY output requested, either the program ends before relaying
anything (the header could not be made), or at every moment of the relay the bytes
sent to the remote side are a prefix of the header followed by bytes received from
the local side: the complete header comes first. -/
theorem c40_header (C : Proxy.IpCodec) (alloc : Bool) (static imem omem : Bytes) (e : Proxy.Ends)
    (hs : 6 ≤ static.length) (hi : imem.length = 8192) (ho : omem.length = 8192) (L R : Bytes) (evs : List Ev) :
    ∃ r, relay C alloc static imem omem e true L R evs = .ok r ∧
      ((r = none ∧ (e = Proxy.zeroEnds ∨ alloc = false ∨ 8192 < (Proxy.headerText C e).length)) ∨
       ∃ s why, r = some (s, why) ∧
        ∀ pre post, s.log = pre ++ post →
          wroteOf .remoteout pre <+: Proxy.headerText C e ++ readOf .localin pre) := by
  have hp := Proxy.c07_emit C alloc static imem size e hs (by simp [size, hi])
  by_cases hc : e = Proxy.zeroEnds ∨ alloc = false ∨ size < (Proxy.headerText C e).length
  · rw [if_pos hc] at hp
    refine ⟨none, ?_, .inl ⟨rfl, hc⟩⟩
    simp [relay, prepare, hp]
  · rw [if_neg hc] at hp
    have hlen : (Proxy.headerText C e).length ≠ 0 := by simp [Proxy.headerText]
    have hle : (Proxy.headerText C e).length ≤ size := by omega
    obtain ⟨s, why, el, _⟩ := loop_post evs (run_start
      (Proxy.headerText C e ++ imem.drop (Proxy.headerText C e).length) omem (Proxy.headerText C e).length L R
      (by simp [hi, size] at hle ⊢; omega) ho hle)
    refine ⟨some (s, why), ?_, .inr ⟨s, why, rfl, ?_⟩⟩
    · simp only [relay, prepare, hp, if_true, Out.ok_bind, if_neg hlen, Out.pure_eq, el]
    · intro pre post hpp
      have := (c38_prefix _ omem (by simp [hi, size] at hle ⊢; omega) ho _ hle L R evs s why el pre post hpp).1
      simpa using this

/-- C40: without PROXY output nothing is prepended. -/
theorem c40_no_header (C : Proxy.IpCodec) (alloc : Bool) (static imem omem : Bytes) (e : Proxy.Ends)
    (hi : imem.length = 8192) (ho : omem.length = 8192) (L R : Bytes) (evs : List Ev) :
    ∃ s why, relay C alloc static imem omem e false L R evs = .ok (some (s, why)) ∧
      ∀ pre post, s.log = pre ++ post → wroteOf .remoteout pre <+: readOf .localin pre := by
  obtain ⟨s, why, el, _⟩ := loop_post evs (run_start imem omem 0 L R hi ho (Nat.zero_le _))
  refine ⟨s, why, ?_, ?_⟩
  · simp [relay, prepare, el]
  · intro pre post hpp
    have := (c38_prefix imem omem hi ho 0 (Nat.zero_le _) L R evs s why el pre post hpp).1
    simpa using this

/-! ### A concrete execution -/

/-- Both sides exchange a few bytes, with partial reads, a partial write and an
interrupted call, and the relay finishes. -/
def demo : List Ev :=
  let all : Option Ready := some ⟨true, true, true, true, false⟩
  [⟨all, .data 1, .eintr .ok⟩, ⟨all, .data 1, .data 0⟩, ⟨all, .data 1, .data 0⟩, ⟨none, .data 0, .data 0⟩,
   ⟨all, .eagain, .data 0⟩, ⟨all, .data 9, .data 0⟩] ++ List.replicate 20 ⟨all, .data 9, .data 9⟩

example : (match loop (start (b!"HI" ++ List.replicate 8190 0) (List.replicate 8192 0) 2 b!"abc" b!"xyz") demo with
    | .ok (s, some .finished) => wroteOf .remoteout s.log == b!"HIabc" && wroteOf .localout s.log == b!"xyz"
    | _ => false) = true := by decide +kernel

end Relay.Tcp
