import Verif.Relay.TcpProps
import Verif.Relay.ClearProps
import Verif.Relay.TlsProps
/-
C85: what a relay does with a wake-up. Which ready descriptor is served, that no
wake-up is wasted, and what a busy side can hold up.
-/
namespace Relay
open Io

/-! ### Specification -/

/-- The action is the outcome of a read from or a write to `f`. -/
def Act.uses {F : Type} (f : F) : Act F → Prop
  | .read g d => g = f ∧ d ≠ []
  | .write g d => g = f ∧ d ≠ []
  | .ended g => g = f
  | .failed g => g = f
  | _ => False

/-- The read is to be tried again later. -/
def ReadAgain (r : RdEv) : Prop := r = .eintr ∨ r = .eagain

/-- The write is to be tried again later. -/
def WriteAgain (w : WrEv) : Prop := (∃ p, w = .eintr p) ∨ ∃ p, w = .eagain p

/-- Between the traces `l` and `l'` exactly `f` was served: the first new action is the
outcome of a read or write on `f`; there is none only if the kernel said to try again. -/
def Dealt {F : Type} (f : F) (again : Prop) (l l' : List (Act F)) : Prop :=
  (∃ a post, l' = l ++ a :: post ∧ a.uses f) ∨ (l' = l ∧ again)

theorem readInto_again {n : Nat} {b b2 : Buf} {src s2 : Bytes} {r : RdEv}
    (h : readInto n b src r = .ok (.again, b2, s2)) : ReadAgain r := by
  cases r with
  | data m =>
    simp only [readInto] at h
    by_cases h0 : (got src (n - b.len) m).length = 0
    · rw [if_pos h0] at h; cases h
    · rw [if_neg h0] at h
      cases hc : copyN b.mem b.len (got src (n - b.len) m) (got src (n - b.len) m).length with
      | ub => rw [hc] at h; cases h
      | ok v => rw [hc] at h; cases h
  | eintr => exact .inl rfl
  | eagain => exact .inr rfl
  | err e => cases h

theorem writeFrom_again {b b2 : Buf} {w : WrEv} (h : writeFrom b w = .ok (.again, b2)) : WriteAgain w := by
  cases w with
  | data m =>
    simp only [writeFrom] at h
    by_cases h1 : b.mem.length < b.len
    · rw [if_pos h1] at h; cases h
    · rw [if_neg h1] at h
      by_cases h0 : (put b.mem b.len m).length = 0
      · rw [if_pos h0] at h; cases h
      · rw [if_neg h0] at h
        cases hc : consume b (put b.mem b.len m).length with
        | ub => rw [hc] at h; cases h
        | ok v => rw [hc] at h; cases h
  | zero => cases h
  | eintr p => exact .inl ⟨p, rfl⟩
  | eagain p => exact .inr ⟨p, rfl⟩
  | err e => cases h

namespace Tcp

/-- What the relay waits for, in terms of what it did so far: to read a side while both
that side and the way out are open and fewer than 8192 bytes are held back; to write
while the way out is open and something is held back. `hdr`: the header towards the
remote side. -/
def Wanted (hdr : Bytes) (log : List (Act Fd)) : Fd → Prop
  | .localin => Act.close .localin ∉ log ∧ Act.close .remoteout ∉ log ∧
      hdr.length + (readOf .localin log).length < (wroteOf .remoteout log).length + 8192
  | .remotein => Act.close .remotein ∉ log ∧ Act.close .localout ∉ log ∧
      (readOf .remotein log).length < (wroteOf .localout log).length + 8192
  | .remoteout => Act.close .remoteout ∉ log ∧
      (wroteOf .remoteout log).length < hdr.length + (readOf .localin log).length
  | .localout => Act.close .localout ∉ log ∧ (wroteOf .localout log).length < (readOf .remotein log).length

/-- The poll reported the descriptor. -/
def Ready.has (r : Ready) : Fd → Bool
  | .localin => r.fromlocal
  | .remotein => r.fromremote
  | .remoteout => r.toremote
  | .localout => r.tolocal

/-- The order in which descriptors are looked at. -/
def rank : Fd → Nat
  | .remoteout => 0
  | .localout => 1
  | .localin => 2
  | .remotein => 3

/-! ### Lemmas -/

theorem propagate_idem (s : St) : propagate (propagate s) = propagate s := by
  simp only [propagate, closeRemoteout, closeLocalout]
  grind

theorem loop_propagate (s : St) (evs : List Ev) : loop (propagate s) evs = loop s evs := by
  cases evs <;> simp only [loop, propagate_idem]

/-- A waiting loop goes on with further answers from where it was. -/
theorem loop_append (evs more : List Ev) : ∀ (s s' : St), loop s evs = .ok (s', none) →
    loop s (evs ++ more) = loop s' more := by
  induction evs with
  | nil =>
    intro s s' h
    simp only [loop] at h
    by_cases hf : finished (propagate s) = true
    · rw [if_pos hf] at h; cases h
    · rw [if_neg hf] at h; cases h
      exact (loop_propagate s more).symm
  | cons ev evs ih =>
    intro s s' h
    simp only [loop, List.cons_append] at h ⊢
    by_cases hf : finished (propagate s) = true
    · rw [if_pos hf] at h; cases h
    · rw [if_neg hf] at h ⊢
      cases hb : body (propagate s) ev with
      | ub => rw [hb] at h; cases h
      | ok v =>
        obtain ⟨s2, why⟩ := v
        rw [hb] at h
        cases why with
        | some w => cases h
        | none => exact ih s2 s' h

theorem wanted_iff {hdr L R : Bytes} {s : St} (h : Run hdr L R s) (hp : propagate s = s) (f : Fd) :
    (match f with
      | .localin => (watches s).fromlocal
      | .remotein => (watches s).fromremote
      | .remoteout => (watches s).toremote
      | .localout => (watches s).tolocal) = true ↔ Wanted hdr s.log f := by
  have e1 := congrArg List.length h.inacc
  have e2 := congrArg List.length h.outacc
  simp only [List.length_append] at e1 e2
  rw [h.inok.data_length] at e1
  rw [h.outok.data_length] at e2
  have hz : size = 8192 := rfl
  have q : ∀ b : Bool, b = true ↔ ¬ b = false := by simp
  have li : s.localin = true ↔ Act.close .localin ∉ s.log := by rw [q, h.li]
  have ri : s.remotein = true ↔ Act.close .remotein ∉ s.log := by rw [q, h.ri]
  have lo : s.localout = true ↔ Act.close .localout ∉ s.log := by rw [q, h.lo]
  have ro : s.remoteout = true ↔ Act.close .remoteout ∉ s.log := by rw [q, h.ro]
  cases f with
  | localin =>
    simp only [watches, Wanted, Bool.and_eq_true, decide_eq_true_eq, li, ro, and_assoc]
    refine and_congr_right fun _ => and_congr_right fun _ => ?_
    omega
  | remotein =>
    simp only [watches, Wanted, Bool.and_eq_true, decide_eq_true_eq, ri, lo, and_assoc]
    refine and_congr_right fun _ => and_congr_right fun _ => ?_
    omega
  | localout =>
    simp only [watches, Wanted, Bool.and_eq_true, decide_eq_true_eq, lo]
    refine and_congr_right fun _ => ?_
    omega
  | remoteout =>
    have h0 : s.remoteout = true → s.localin = false → 0 < s.inb.len := by
      intro a b
      rcases Nat.eq_zero_or_pos s.inb.len with c | c
      · have := congrArg St.remoteout hp
        simp only [propagate, a, b, c, and_self, if_true] at this
        simp only [closeRemoteout, a, if_true] at this
        split at this
        · simp only [closeLocalout] at this
          split at this <;> simp at this
        · simp at this
      · exact c
    simp only [watches, Wanted, Bool.and_eq_true, Bool.or_eq_true, Bool.not_eq_true', decide_eq_true_eq]
    rw [ro]
    constructor
    · rintro ⟨a, b⟩
      refine ⟨a, ?_⟩
      rcases b with b | b
      · omega
      · have := h0 (ro.mpr a) b
        omega
    · rintro ⟨a, b⟩
      exact ⟨a, .inl (by omega)⟩

/-- The call that serves the descriptor is to be tried again. -/
def Again (ev : Ev) : Fd → Prop
  | .localin => ReadAgain ev.rd
  | .remotein => ReadAgain ev.rd
  | .remoteout => WriteAgain ev.wr
  | .localout => WriteAgain ev.wr

theorem log_closeRemoteout (s : St) : s.log <+: (closeRemoteout s).log := by
  simp only [closeRemoteout]; split <;> simp
theorem log_closeLocalout (s : St) : s.log <+: (closeLocalout s).log := by
  simp only [closeLocalout]; split <;> simp
theorem log_closeLocalin (s : St) : s.log <+: (closeLocalin s).log := by
  simp only [closeLocalin]; split <;> simp
theorem log_closeRemotein (s : St) : s.log <+: (closeRemotein s).log := by
  simp only [closeRemotein]; split <;> simp

theorem log_propagate (s : St) : s.log <+: (propagate s).log := by
  simp only [propagate]
  have h1 : s.log <+: (if s.localin = false ∧ s.remoteout = true ∧ s.inb.len = 0 then closeRemoteout s else s).log := by
    split
    · exact log_closeRemoteout s
    · exact List.prefix_rfl
  generalize (if s.localin = false ∧ s.remoteout = true ∧ s.inb.len = 0 then closeRemoteout s else s) = t at h1
  split
  · exact h1.trans (log_closeLocalout t)
  · exact h1

theorem dealt_one {f : Fd} {again : Prop} {l l' : List (Act Fd)} (a : Act Fd) (h : l ++ [a] <+: l') (u : a.uses f) :
    Dealt f again l l' := by
  obtain ⟨t, rfl⟩ := h
  exact .inl ⟨a, t, by simp, u⟩

/-- The outcome of a single iteration. -/
def Step (ev : Ev) (f : Fd) (s : St) (o : Out (St × Option Why)) : Prop :=
  ∃ s' why, o = .ok (s', why) ∧ ((∃ a, s.log ++ [a] <+: s'.log ∧ a.uses f) ∨ (s' = s ∧ why = none ∧ Again ev f))

theorem step_remoteout (s : St) (ev : Ev) (hk : s.inb.Ok size) (h0 : 0 < s.inb.len) : Step ev .remoteout s (doToRemote s ev) := by
  unfold doToRemote
  rw [if_pos h0]
  obtain ⟨r, b, e, hr⟩ := writeFrom_spec size s.inb ev.wr hk
  rw [e]
  rcases hr with ⟨rfl, rfl⟩ | ⟨rfl, rfl⟩ | ⟨d, rfl, hd, -⟩
  · exact ⟨_, _, rfl, .inr ⟨rfl, rfl, writeFrom_again e⟩⟩
  · exact ⟨_, _, rfl, .inl ⟨.failed .remoteout, log_closeRemoteout { s with log := s.log ++ [.failed .remoteout] }, rfl⟩⟩
  · exact ⟨_, _, rfl, .inl ⟨.write .remoteout d, List.prefix_rfl, rfl, hd⟩⟩

theorem step_localout (s : St) (ev : Ev) (hk : s.outb.Ok size) : Step ev .localout s (doToLocal s ev) := by
  unfold doToLocal
  obtain ⟨r, b, e, hr⟩ := writeFrom_spec size s.outb ev.wr hk
  rw [e]
  rcases hr with ⟨rfl, rfl⟩ | ⟨rfl, rfl⟩ | ⟨d, rfl, hd, -⟩
  · exact ⟨_, _, rfl, .inr ⟨rfl, rfl, writeFrom_again e⟩⟩
  · exact ⟨_, _, rfl, .inl ⟨.failed .localout, log_closeLocalout { s with log := s.log ++ [.failed .localout] }, rfl⟩⟩
  · exact ⟨_, _, rfl, .inl ⟨.write .localout d, List.prefix_rfl, rfl, hd⟩⟩

theorem step_localin (s : St) (ev : Ev) (hk : s.inb.Ok size) : Step ev .localin s (doFromLocal s ev) := by
  unfold doFromLocal
  obtain ⟨r, b, src, e, hr⟩ := readInto_spec size s.inb s.lsrc ev.rd hk
  rw [e]
  rcases hr with ⟨rfl, rfl, rfl⟩ | ⟨rfl, rfl, rfl⟩ | ⟨d, rfl, hd, -⟩
  · exact ⟨_, _, rfl, .inr ⟨rfl, rfl, readInto_again e⟩⟩
  · exact ⟨_, _, rfl, .inl ⟨.ended .localin, log_closeLocalin { s with log := s.log ++ [.ended .localin] }, rfl⟩⟩
  · exact ⟨_, _, rfl, .inl ⟨.read .localin d, ⟨[.alarm], by simp⟩, rfl, hd⟩⟩

theorem step_remotein (s : St) (ev : Ev) (hk : s.outb.Ok size) : Step ev .remotein s (doFromRemote s ev) := by
  unfold doFromRemote
  obtain ⟨r, b, src, e, hr⟩ := readInto_spec size s.outb s.rsrc ev.rd hk
  rw [e]
  rcases hr with ⟨rfl, rfl, rfl⟩ | ⟨rfl, rfl, rfl⟩ | ⟨d, rfl, hd, -⟩
  · exact ⟨_, _, rfl, .inr ⟨rfl, rfl, readInto_again e⟩⟩
  · exact ⟨_, _, rfl, .inl ⟨.ended .remotein, log_closeRemotein { s with log := s.log ++ [.ended .remotein] }, rfl⟩⟩
  · exact ⟨_, _, rfl, .inl ⟨.read .remotein d, ⟨[.alarm], by simp⟩, rfl, hd⟩⟩

/-! ### C85 -/

/-- C85 for the TCP relay: while it waits, it is woken by exactly the descriptors that
have work. When the poll reports, the iteration serves the first reported descriptor it
waits for, in the order of `rank`; it does nothing only if the kernel says to try again.
If none of them is reported, nothing is done, and the signal ends the relay at once. -/
theorem c85_tcp_partial (imem omem : Bytes) (hi : imem.length = 8192) (ho : omem.length = 8192) (n : Nat)
    (hn : n ≤ 8192) (L R : Bytes) (evs : List Ev) (s : St) (e : loop (start imem omem n L R) evs = .ok (s, none))
    (ev : Ev) (r : Ready) (hr : ev.poll = some r) :
    ∃ s' why, loop (start imem omem n L R) (evs ++ [ev]) = .ok (s', why) ∧
      (∀ f, Wanted (imem.take n) s.log f → r.has f = true →
        (∀ g, rank g < rank f → ¬ (Wanted (imem.take n) s.log g ∧ r.has g = true)) →
        Dealt f (Again ev f) s.log s'.log) ∧
      ((∀ g, ¬ (Wanted (imem.take n) s.log g ∧ r.has g = true)) →
        s' = s ∧ why = if r.selfpipe then some .signal else none) := by
  obtain ⟨t, ht, hrun, hf⟩ := loop_waiting evs (run_start imem omem n L R hi ho hn) s e
  subst ht
  rw [loop_append evs [ev] _ _ e]
  have hp := propagate_idem t
  generalize propagate t = s at *
  have w := wanted_iff hrun hp
  generalize imem.take n = hdr at *
  obtain ⟨s2, why2, e2, -⟩ := step_body hrun ev
  have hl : loop s [ev] = match why2 with
      | some y => .ok (s2, some y)
      | none => if finished (propagate s2) then .ok (propagate s2, some .finished) else .ok (propagate s2, none) := by
    simp only [loop, hp, hf, e2]
    cases why2 <;> rfl
  have w0 := w .remoteout
  have w1 := w .localout
  have w2 := w .localin
  have w3 := w .remotein
  simp only at w0 w1 w2 w3
  -- what the iteration does
  have key : (∀ f, Wanted hdr s.log f → r.has f = true → (∀ g, rank g < rank f → ¬ (Wanted hdr s.log g ∧ r.has g = true)) →
        Step ev f s (body s ev)) ∧
      ((∀ g, ¬ (Wanted hdr s.log g ∧ r.has g = true)) → body s ev = .ok (s, if r.selfpipe then some .signal else none)) := by
    have no : ∀ g, ¬ (Wanted hdr s.log g ∧ r.has g = true) → (match g with
      | .localin => (after (watches s) ev.poll).fromlocal
      | .remotein => (after (watches s) ev.poll).fromremote
      | .remoteout => (after (watches s) ev.poll).toremote
      | .localout => (after (watches s) ev.poll).tolocal) = false := by
      intro g hg
      have hw := w g
      rw [hr]
      cases g <;> simp only [after] at hw ⊢ <;> rw [Bool.and_eq_false_iff] <;>
        (rcases Classical.em (Wanted hdr s.log _) with a | a
         · right; simpa [Ready.has] using fun b => hg ⟨a, b⟩
         · left; rw [← hw] at a; simpa using a)
    constructor
    · intro f hw hh hb
      have hy := (w f).mpr hw
      cases f with
      | remoteout =>
        have : (after (watches s) ev.poll).toremote = true := by rw [hr]; simp only [after, hy, Bool.true_and]; exact hh
        simp only [body, this, if_true]
        refine step_remoteout s ev hrun.inok ?_
        have e1 := congrArg List.length hrun.inacc
        simp only [List.length_append] at e1
        rw [hrun.inok.data_length] at e1
        have := hw.2
        omega
      | localout =>
        have n0 := no .remoteout (hb .remoteout (by decide))
        have : (after (watches s) ev.poll).tolocal = true := by rw [hr]; simp only [after, hy, Bool.true_and]; exact hh
        simp only at n0
        simp only [body, this, n0, if_true, if_false, Bool.false_eq_true]
        exact step_localout s ev hrun.outok
      | localin =>
        have n0 := no .remoteout (hb .remoteout (by decide))
        have n1 := no .localout (hb .localout (by decide))
        have : (after (watches s) ev.poll).fromlocal = true := by rw [hr]; simp only [after, hy, Bool.true_and]; exact hh
        simp only at n0 n1
        simp only [body, this, n0, n1, if_true, if_false, Bool.false_eq_true]
        exact step_localin s ev hrun.inok
      | remotein =>
        have n0 := no .remoteout (hb .remoteout (by decide))
        have n1 := no .localout (hb .localout (by decide))
        have n2 := no .localin (hb .localin (by decide))
        have : (after (watches s) ev.poll).fromremote = true := by rw [hr]; simp only [after, hy, Bool.true_and]; exact hh
        simp only at n0 n1 n2
        simp only [body, this, n0, n1, n2, if_true, if_false, Bool.false_eq_true]
        exact step_remotein s ev hrun.outok
    · intro ha
      have n0 := no .remoteout (ha _)
      have n1 := no .localout (ha _)
      have n2 := no .localin (ha _)
      have n3 := no .remotein (ha _)
      simp only at n0 n1 n2 n3
      simp only [body, n0, n1, n2, n3, if_false, Bool.false_eq_true]
      rw [hr]
      simp only [after, watches, Bool.true_and]
      cases r.selfpipe <;> rfl
  have hlog : ∃ s' why, loop s [ev] = .ok (s', why) ∧ s2.log <+: s'.log ∧ (s2 = s → s' = s) ∧ (s2 = s → why = why2) := by
    rw [hl]
    cases why2 with
    | some y => exact ⟨_, _, rfl, List.prefix_rfl, id, fun _ => rfl⟩
    | none =>
      simp only
      by_cases h : finished (propagate s2) = true
      · rw [if_pos h]
        refine ⟨_, _, rfl, log_propagate s2, ?_, ?_⟩
        · rintro rfl; exact hp
        · rintro rfl; rw [hp, hf] at h; cases h
      · rw [if_neg h]
        exact ⟨_, _, rfl, log_propagate s2, by rintro rfl; exact hp, fun _ => rfl⟩
  obtain ⟨s', why, h1, h2, h3, h4⟩ := hlog
  refine ⟨s', why, h1, ?_, ?_⟩
  · intro f hw hh hb
    obtain ⟨s3, why3, e3, h⟩ := key.1 f hw hh hb
    rw [e2] at e3
    cases e3
    rcases h with ⟨a, ha, hu⟩ | ⟨rfl, -, hg⟩
    · exact dealt_one a (ha.trans h2) hu
    · exact .inr ⟨by rw [h3 rfl], hg⟩
  · intro ha
    have := key.2 ha
    rw [e2] at this
    cases this
    exact ⟨h3 rfl, h4 rfl⟩

/-- An iteration in which the poll reports everything, the signal pipe included, and
reads and writes move one byte. -/
def busy : Ev := ⟨some ⟨true, true, true, true, true⟩, .data 0, .data 0⟩

theorem busy_pair (s : St) (b : Byte) (L : Bytes) (hl : s.inb.mem.length = 8192) (h0 : s.inb.len = 0) (h1 : s.outb.len = 0)
    (o1 : s.localin = true) (o2 : s.localout = true) (o3 : s.remotein = true) (o4 : s.remoteout = true) (hs : s.lsrc = b :: L) :
    ∃ m, m.length = 8192 ∧ ∀ evs, loop s (busy :: busy :: evs) = loop
      { s with inb := ⟨m, 0⟩, lsrc := L, log := s.log ++ [.read .localin [b], .alarm, .write .remoteout [b]] } evs := by
  obtain ⟨li, lo, ri, ro, ⟨mem, len⟩, ob, lsrc, rsrc, log⟩ := s
  simp only at hl h0 h1 o1 o2 o3 o4 hs
  subst h0 o1 o2 o3 o4 hs
  cases mem with
  | nil => simp at hl
  | cons x mem =>
    refine ⟨b :: mem, by simpa using hl, fun evs => ?_⟩
    simp [loop, propagate, finished, body, busy, after, watches, h1, size, doFromLocal, readInto, got, copyN, doToRemote, writeFrom,
      put, consume, memmove, closeRemoteout, closeLocalout, Bind.bind, Out.bind, Pure.pure, wr]

/-- C85, violated: a side that keeps sending holds up everything else. However long the
local side goes on sending `L`, with all descriptors and the stop signal reported ready in
every iteration, all of `L` is forwarded while not one byte of the remote side `R` is
read and the signal is not acted on. -/
theorem c85_tcp_starved (imem omem : Bytes) (hi : imem.length = 8192) (L R : Bytes) :
    busy.poll = some ⟨true, true, true, true, true⟩ ∧
    ∃ s, loop (start imem omem 0 L R) (List.replicate (2 * L.length) busy) = .ok (s, none) ∧
      wroteOf .remoteout s.log = L ∧ readOf .remotein s.log = [] ∧ Wanted [] s.log .remotein := by
  refine ⟨rfl, ?_⟩
  suffices h : ∀ (L : Bytes) (s : St), s.inb.mem.length = 8192 → s.inb.len = 0 → s.outb.len = 0 → s.localin = true →
      s.localout = true → s.remotein = true → s.remoteout = true → s.lsrc = L →
      ∃ s', loop s (List.replicate (2 * L.length) busy) = .ok (s', none) ∧
        wroteOf .remoteout s'.log = wroteOf .remoteout s.log ++ L ∧ readOf .remotein s'.log = readOf .remotein s.log ∧
        ∀ f, Act.close f ∈ s'.log → Act.close f ∈ s.log by
    obtain ⟨s', e, h1, h2, h3⟩ := h L (start imem omem 0 L R) hi rfl rfl rfl rfl rfl rfl rfl
    have h2' : readOf .remotein s'.log = [] := by simpa [start, readOf_nil] using h2
    refine ⟨s', e, by simpa [start, wroteOf_nil] using h1, h2', ?_, ?_, ?_⟩
    · exact fun hc => absurd (h3 _ hc) (by simp [start])
    · exact fun hc => absurd (h3 _ hc) (by simp [start])
    · rw [h2', List.length_nil]; omega
  intro L
  induction L with
  | nil =>
    intro s _ h0 h1 o1 o2 o3 o4 _
    have hp : propagate s = s := by simp [propagate, o1, o3]
    refine ⟨s, ?_, by simp, rfl, fun _ h => h⟩
    simp [loop, hp, finished, o1]
  | cons b L ih =>
    intro s hl h0 h1 o1 o2 o3 o4 hs
    obtain ⟨m, hm, hb⟩ := busy_pair s b L hl h0 h1 o1 o2 o3 o4 hs
    obtain ⟨s', e, g1, g2, g3⟩ := ih { s with inb := ⟨m, 0⟩, lsrc := L, log := s.log ++ [.read .localin [b], .alarm, .write .remoteout [b]] }
      hm rfl h1 o1 o2 o3 o4 rfl
    refine ⟨s', ?_, ?_, ?_, fun f hf => ?_⟩
    · rw [show 2 * (b :: L).length = 2 * L.length + 1 + 1 by simp only [List.length_cons]; omega, List.replicate_succ, List.replicate_succ, hb]
      exact e
    · rw [g1]; simp [wroteOf, Act.wroteOn]
    · rw [g2]; simp [readOf, Act.readOn]
    · simpa using g3 f hf

/-- A waiting relay with something to do in both directions, and a poll that reports the
lower one: the hypotheses of `c85_tcp_partial` hold. -/
example : (match loop (start (List.replicate 8192 0) (List.replicate 8192 0) 0 b!"abc" b!"xy") [busy] with
    | .ok (s, none) => s.log == [.read .localin b!"a", .alarm] && (watches s).toremote && (watches s).fromremote
    | _ => false) = true := by decide +kernel

end Tcp
namespace Clear

/-- What the cleartext phase waits for, in terms of what it did so far: to read the
network while it and the child's input are open and fewer than 8192 bytes are held back;
to read the child's output while it is open and fewer than 8192 bytes are held back; the
child's control pipe while it and the way to the network are open and nothing is held
back for the network; to write while there is something held back. -/
def Wanted (log : List (Act Fd)) : Fd → Prop
  | .peerout => Act.close .peerout ∉ log ∧ (wroteOf .peerout log).length < (readOf .childout log).length
  | .childin => Act.close .childin ∉ log ∧ (wroteOf .childin log).length < (readOf .peerin log).length
  | .peerin => Act.close .peerin ∉ log ∧ Act.close .childin ∉ log ∧
      (readOf .peerin log).length < (wroteOf .childin log).length + 8192
  | .childout => Act.close .childout ∉ log ∧ (readOf .childout log).length < (wroteOf .peerout log).length + 8192
  | .ctl => Act.close .peerout ∉ log ∧ Act.close .ctl ∉ log ∧ (readOf .childout log).length = (wroteOf .peerout log).length
  | .ack => False

/-- The poll reported the descriptor. -/
def Ready.has (r : Ready) : Fd → Bool
  | .peerout => r.topeer
  | .childin => r.tochild
  | .peerin => r.frompeer
  | .childout => r.fromchild
  | .ctl => r.fromctl
  | .ack => false

/-- The order in which descriptors are looked at. -/
def rank : Fd → Nat
  | .peerout => 0
  | .childout => 1
  | .ctl => 2
  | .childin => 3
  | .peerin => 4
  | .ack => 5

/-- The call that serves the descriptor is to be tried again. -/
def Again (ev : Ev) : Fd → Prop
  | .peerin => ReadAgain ev.rd
  | .childout => ReadAgain ev.rd
  | .ctl => ReadAgain ev.rd
  | .peerout => WriteAgain ev.wr
  | .childin => WriteAgain ev.wr
  | .ack => False

theorem w_close_op (w : W) (f : Fd) : (w.close f).op = fun g => if g = f then false else w.op g := by
  unfold W.close
  by_cases h : w.op f = true
  · rw [if_pos h]
  · rw [if_neg h]
    funext g
    by_cases hg : g = f
    · subst hg; simpa using h
    · rw [if_neg hg]

theorem propagate_idem (s : St) : propagate (propagate s) = propagate s := by
  obtain ⟨w, a, b, c, d, e⟩ := s
  simp only [propagate]
  by_cases h1 : w.op .peerin = false ∧ w.op .childin = true ∧ a.len = 0 <;>
  by_cases h2 : w.op .childout = false ∧ w.op .peerout = true ∧ b.len = 0 <;>
  simp [h1, h2, w_close_op] <;> grind

theorem loop_propagate (s : St) (evs : List Ev) : loop (propagate s) evs = loop s evs := by
  cases evs <;> simp only [loop, propagate_idem]

/-- A waiting loop goes on with further answers from where it was. -/
theorem loop_append (evs more : List Ev) : ∀ (s s' : St), loop s evs = .ok (s', none) →
    loop s (evs ++ more) = loop s' more := by
  induction evs with
  | nil =>
    intro s s' h
    simp only [loop] at h
    by_cases hf : finished (propagate s) = true
    · rw [if_pos hf] at h; cases h
    · rw [if_neg hf] at h; cases h
      exact (loop_propagate s more).symm
  | cons ev evs ih =>
    intro s s' h
    simp only [loop, List.cons_append] at h ⊢
    by_cases hf : finished (propagate s) = true
    · rw [if_pos hf] at h; cases h
    · rw [if_neg hf] at h ⊢
      cases hb : body (propagate s) ev with
      | ub => rw [hb] at h; cases h
      | ok v =>
        obtain ⟨s2, why⟩ := v
        rw [hb] at h
        cases why with
        | some w => cases h
        | none => exact ih s2 s' h

theorem loop_waiting {N C : Bytes} (evs : List Ev) : ∀ {s : St}, Run N C s → ∀ s',
    loop s evs = .ok (s', none) → ∃ t, s' = propagate t ∧ Run N C (propagate t) ∧ finished (propagate t) = false := by
  induction evs with
  | nil =>
    intro s h s' e
    have hp := run_propagate h
    simp only [loop] at e
    by_cases hf : finished (propagate s) = true
    · rw [if_pos hf] at e; cases e
    · rw [if_neg hf] at e
      cases e
      exact ⟨s, rfl, hp, by simpa using hf⟩
  | cons ev evs ih =>
    intro s h s' e
    have hp := run_propagate h
    simp only [loop] at e
    by_cases hf : finished (propagate s) = true
    · rw [if_pos hf] at e; cases e
    · rw [if_neg hf] at e
      obtain ⟨s2, why, e2, hpost⟩ := step_body hp ev
      rw [e2] at e
      cases why with
      | some w => cases e
      | none => exact ih (hpost.1 rfl) s' e

/-- The watch on a descriptor. -/
def watchOf (w : Ready) : Fd → Bool := w.has

theorem wanted_iff {N C : Bytes} {s : St} (h : Run N C s) (f : Fd) : watchOf (watches s) f = true ↔ Wanted s.w.log f := by
  have e1 := congrArg List.length h.acc1
  have e2 := congrArg List.length h.acc2
  simp only [List.length_append] at e1 e2
  rw [h.k1.data_length] at e1
  rw [h.k2.data_length] at e2
  have hz : size = 8192 := rfl
  have q : ∀ f, s.w.op f = true ↔ Act.close f ∉ s.w.log := fun f => by
    rw [← h.cl f]; simp
  cases f with
  | ack => simp [watchOf, Ready.has, Wanted]
  | peerout =>
    simp only [watchOf, Ready.has, watches, Wanted, Bool.and_eq_true, decide_eq_true_eq, q]
    refine and_congr_right fun _ => ?_
    omega
  | childin =>
    simp only [watchOf, Ready.has, watches, Wanted, Bool.and_eq_true, decide_eq_true_eq, q]
    rw [and_comm]
    refine and_congr_right fun _ => ?_
    omega
  | peerin =>
    simp only [watchOf, Ready.has, watches, Wanted, Bool.and_eq_true, decide_eq_true_eq, q, and_assoc]
    refine and_congr_right fun _ => ?_
    rw [and_comm]
    refine and_congr_right fun _ => ?_
    omega
  | childout =>
    simp only [watchOf, Ready.has, watches, Wanted, Bool.and_eq_true, decide_eq_true_eq, q]
    refine and_congr_right fun _ => ?_
    omega
  | ctl =>
    simp only [watchOf, Ready.has, watches, Wanted, Bool.and_eq_true, decide_eq_true_eq, q, and_assoc]
    refine and_congr_right fun _ => and_congr_right fun _ => ?_
    omega

/-- The outcome of a single iteration. -/
def Step (ev : Ev) (f : Fd) (s : St) (o : Out (St × Option Why)) : Prop :=
  ∃ s' why, o = .ok (s', why) ∧ ((∃ a, s.w.log ++ [a] <+: s'.w.log ∧ a.uses f) ∨ (s' = s ∧ why = none ∧ Again ev f))

theorem serve_peerout (s : St) (ev : Ev) (hk : s.tonet.Ok size) : Step ev .peerout s (doToPeer s ev) := by
  unfold doToPeer
  obtain ⟨r, b, e, hr⟩ := writeFrom_spec size s.tonet ev.wr hk
  rw [e]
  rcases hr with ⟨rfl, rfl⟩ | ⟨rfl, rfl⟩ | ⟨d, rfl, hd, -⟩
  · exact ⟨_, _, rfl, .inr ⟨rfl, rfl, writeFrom_again e⟩⟩
  · exact ⟨_, _, rfl, .inl ⟨.failed .peerout, close_pre (s.w.act (.failed .peerout)) .peerout, rfl⟩⟩
  · exact ⟨_, _, rfl, .inl ⟨.write .peerout d, List.prefix_rfl, rfl, hd⟩⟩

theorem serve_childin (s : St) (ev : Ev) (hk : s.tochild.Ok size) : Step ev .childin s (doToChild s ev) := by
  unfold doToChild
  obtain ⟨r, b, e, hr⟩ := writeFrom_spec size s.tochild ev.wr hk
  rw [e]
  rcases hr with ⟨rfl, rfl⟩ | ⟨rfl, rfl⟩ | ⟨d, rfl, hd, -⟩
  · exact ⟨_, _, rfl, .inr ⟨rfl, rfl, writeFrom_again e⟩⟩
  · exact ⟨_, _, rfl, .inl ⟨.failed .childin, close_pre (s.w.act (.failed .childin)) .childin, rfl⟩⟩
  · exact ⟨_, _, rfl, .inl ⟨.write .childin d, List.prefix_rfl, rfl, hd⟩⟩

theorem serve_childout (s : St) (ev : Ev) (hk : s.tonet.Ok size) : Step ev .childout s (doFromChild s ev) := by
  unfold doFromChild
  obtain ⟨r, b, src, e, hr⟩ := readInto_spec size s.tonet s.chd ev.rd hk
  rw [e]
  rcases hr with ⟨rfl, rfl, rfl⟩ | ⟨rfl, rfl, rfl⟩ | ⟨d, rfl, hd, -⟩
  · exact ⟨_, _, rfl, .inr ⟨rfl, rfl, readInto_again e⟩⟩
  · exact ⟨_, _, rfl, .inl ⟨.ended .childout, close_pre (s.w.act (.ended .childout)) .childout, rfl⟩⟩
  · exact ⟨_, _, rfl, .inl ⟨.read .childout d, act_pre (s.w.act (.read .childout d)) .alarm, rfl, hd⟩⟩

theorem serve_peerin (s : St) (ev : Ev) (hk : s.tochild.Ok size) : Step ev .peerin s (doFromPeer s ev) := by
  unfold doFromPeer
  obtain ⟨r, b, src, e, hr⟩ := readInto_spec size s.tochild s.net ev.rd hk
  rw [e]
  rcases hr with ⟨rfl, rfl, rfl⟩ | ⟨rfl, rfl, rfl⟩ | ⟨d, rfl, hd, -⟩
  · exact ⟨_, _, rfl, .inr ⟨rfl, rfl, readInto_again e⟩⟩
  · exact ⟨_, _, rfl, .inl ⟨.ended .peerin, close_pre (s.w.act (.ended .peerin)) .peerin, rfl⟩⟩
  · exact ⟨_, _, rfl, .inl ⟨.read .peerin d, act_pre (s.w.act (.read .peerin d)) .alarm, rfl, hd⟩⟩

theorem serve_ctl (s : St) (ev : Ev) : Step ev .ctl s (.ok (doFromCtl s ev)) := by
  unfold doFromCtl
  cases he : ev.rd with
  | eintr => exact ⟨_, _, rfl, .inr ⟨rfl, rfl, .inl he⟩⟩
  | eagain => exact ⟨_, _, rfl, .inr ⟨rfl, rfl, .inr he⟩⟩
  | err x => exact ⟨_, _, rfl, .inl ⟨.ended .ctl, close_pre (s.w.act (.ended .ctl)) .ctl, rfl⟩⟩
  | data m =>
    simp only
    by_cases h0 : (got s.csrc 2 m).length = 0
    · rw [if_pos h0]
      exact ⟨_, _, rfl, .inl ⟨.ended .ctl, close_pre (s.w.act (.ended .ctl)) .ctl, rfl⟩⟩
    rw [if_neg h0]
    have hd : got s.csrc 2 m ≠ [] := fun h => h0 (by rw [h]; rfl)
    by_cases h1 : (got s.csrc 2 m).length ≠ 1
    · rw [if_pos h1]
      exact ⟨_, _, rfl, .inl ⟨.read .ctl _, List.prefix_rfl, rfl, hd⟩⟩
    rw [if_neg h1]
    by_cases h2 : got s.csrc 2 m ≠ [0]
    · rw [if_pos h2]
      exact ⟨_, _, rfl, .inl ⟨.read .ctl _, List.prefix_rfl, rfl, hd⟩⟩
    rw [if_neg h2]
    exact ⟨_, _, rfl, .inl ⟨.read .ctl (got s.csrc 2 m),
      accept_pre ⟨s.w.act (.read .ctl (got s.csrc 2 m)), _, _, _, _, _⟩ ev, rfl, hd⟩⟩

theorem log_propagate (s : St) : s.w.log <+: (propagate s).w.log := by
  simp only [propagate]
  split <;> split
  · exact (close_pre _ _).trans (close_pre _ _)
  · exact close_pre _ _
  · exact close_pre _ _
  · exact List.prefix_rfl

theorem has_after (w : Ready) (r : Ready) (f : Fd) : (after w (some r)).has f = (w.has f && r.has f) := by
  cases f <;> rfl

/-- C85 for the cleartext phase: while it waits, it is woken by exactly the descriptors
that have work. When the poll reports, the iteration serves the first reported descriptor
it waits for, in the order of `rank`; it does nothing only if the kernel says to try
again. If none of them is reported, a command on the signal pipe is taken at once. -/
theorem c85_clear_partial (m1 m2 net chd csrc : Bytes) (h1 : m1.length = 8192) (h2 : m2.length = 8192) (evs : List Ev) (s : St)
    (e : loop (start m1 m2 net chd csrc) evs = .ok (s, none)) (ev : Ev) (r : Ready) (hr : ev.poll = some r) :
    ∃ s' why, loop (start m1 m2 net chd csrc) (evs ++ [ev]) = .ok (s', why) ∧
      (∀ f, Wanted s.w.log f → r.has f = true → (∀ g, rank g < rank f → ¬ (Wanted s.w.log g ∧ r.has g = true)) →
        Dealt f (Again ev f) s.w.log s'.w.log) ∧
      ((∀ g, ¬ (Wanted s.w.log g ∧ r.has g = true)) →
        (r.selfpipe = false → s' = s ∧ why = none) ∧
        (r.selfpipe = true → (ev.sig = .again → s' = s ∧ why = none) ∧ (ev.sig = .failed → s' = s ∧ why = some .signal) ∧
          ∀ c, ev.sig = .byte c → s.w.log ++ [.sig c] <+: s'.w.log)) := by
  obtain ⟨t, ht, hrun, hf⟩ := loop_waiting evs (run_start m1 m2 net chd csrc h1 h2) s e
  subst ht
  rw [loop_append evs [ev] _ _ e]
  have hp := propagate_idem t
  generalize propagate t = s at *
  have w := wanted_iff hrun
  obtain ⟨s2, why2, e2, -⟩ := step_body hrun ev
  have hl : loop s [ev] = match why2 with
      | some y => .ok (s2, some y)
      | none => if finished (propagate s2) then .ok (propagate s2, some .finished) else .ok (propagate s2, none) := by
    simp only [loop, hp, hf, e2]
    cases why2 <;> rfl
  have no : ∀ g, ¬ (Wanted s.w.log g ∧ r.has g = true) → (after (watches s) ev.poll).has g = false := by
    intro g hg
    rw [hr, has_after, Bool.and_eq_false_iff]
    rcases Classical.em (Wanted s.w.log g) with a | a
    · right; simpa using fun b => hg ⟨a, b⟩
    · left; rw [← w g] at a; simpa [watchOf] using a
  have yes : ∀ g, Wanted s.w.log g → r.has g = true → (after (watches s) ev.poll).has g = true := by
    intro g a b
    rw [hr, has_after, b, Bool.and_true]
    exact (w g).mpr a
  have key1 : ∀ f, Wanted s.w.log f → r.has f = true → (∀ g, rank g < rank f → ¬ (Wanted s.w.log g ∧ r.has g = true)) →
        Step ev f s (body s ev) := by
      intro f hw hh hb
      cases f with
      | ack => exact absurd hw id
      | peerout =>
        have y : (after (watches s) ev.poll).topeer = true := yes .peerout hw hh
        simp only [body, y, if_true]
        exact serve_peerout s ev hrun.k2
      | childout =>
        have n0 := no .peerout (hb .peerout (by decide))
        have y : (after (watches s) ev.poll).fromchild = true := yes .childout hw hh
        simp only [has_after, Ready.has] at n0
        simp only [body, y, n0, if_true, if_false, Bool.false_eq_true]
        exact serve_childout s ev hrun.k2
      | ctl =>
        have n0 := no .peerout (hb .peerout (by decide))
        have n1 := no .childout (hb .childout (by decide))
        have y : (after (watches s) ev.poll).fromctl = true := yes .ctl hw hh
        simp only [has_after, Ready.has] at n0 n1
        simp only [body, y, n0, n1, if_true, if_false, Bool.false_eq_true]
        exact serve_ctl s ev
      | childin =>
        have n0 := no .peerout (hb .peerout (by decide))
        have n1 := no .childout (hb .childout (by decide))
        have n2 := no .ctl (hb .ctl (by decide))
        have y : (after (watches s) ev.poll).tochild = true := yes .childin hw hh
        simp only [has_after, Ready.has] at n0 n1 n2
        simp only [body, y, n0, n1, n2, if_true, if_false, Bool.false_eq_true]
        exact serve_childin s ev hrun.k1
      | peerin =>
        have n0 := no .peerout (hb .peerout (by decide))
        have n1 := no .childout (hb .childout (by decide))
        have n2 := no .ctl (hb .ctl (by decide))
        have n3 := no .childin (hb .childin (by decide))
        have y : (after (watches s) ev.poll).frompeer = true := yes .peerin hw hh
        simp only [has_after, Ready.has] at n0 n1 n2 n3
        simp only [body, y, n0, n1, n2, n3, if_true, if_false, Bool.false_eq_true]
        exact serve_peerin s ev hrun.k1
  have key2 : (∀ g, ¬ (Wanted s.w.log g ∧ r.has g = true)) →
      body s ev = if r.selfpipe then .ok (doSelfpipe s ev) else .ok (s, none) := by
    intro ha
    have n0 := no .peerout (ha _)
    have n1 := no .childout (ha _)
    have n2 := no .ctl (ha _)
    have n3 := no .childin (ha _)
    have n4 := no .peerin (ha _)
    simp only [Ready.has] at n0 n1 n2 n3 n4
    simp only [body, n0, n1, n2, n3, n4, if_false, Bool.false_eq_true]
    rw [hr]
    simp only [after, watches, Bool.true_and]
  have hlog : ∃ s' why, loop s [ev] = .ok (s', why) ∧ s2.w.log <+: s'.w.log ∧ (s2 = s → s' = s) ∧ (s2 = s → why = why2) := by
    rw [hl]
    cases why2 with
    | some y => exact ⟨_, _, rfl, List.prefix_rfl, id, fun _ => rfl⟩
    | none =>
      simp only
      by_cases h : finished (propagate s2) = true
      · rw [if_pos h]
        refine ⟨_, _, rfl, log_propagate s2, ?_, ?_⟩
        · rintro rfl; exact hp
        · rintro rfl; rw [hp, hf] at h; cases h
      · rw [if_neg h]
        exact ⟨_, _, rfl, log_propagate s2, by rintro rfl; exact hp, fun _ => rfl⟩
  obtain ⟨s', why, g1, g2, g3, g4⟩ := hlog
  refine ⟨s', why, g1, ?_, ?_⟩
  · intro f hw hh hb
    obtain ⟨s3, why3, e3, h⟩ := key1 f hw hh hb
    rw [e2] at e3
    cases e3
    rcases h with ⟨a, ha, hu⟩ | ⟨rfl, -, hg⟩
    · obtain ⟨t, ht⟩ := ha.trans g2
      exact .inl ⟨a, t, by rw [← ht]; simp, hu⟩
    · exact .inr ⟨by rw [g3 rfl], hg⟩
  · intro ha
    have k := key2 ha
    rw [e2] at k
    constructor
    · intro hs
      rw [hs] at k
      cases k
      exact ⟨g3 rfl, g4 rfl⟩
    · intro hs
      rw [hs, if_pos rfl] at k
      refine ⟨fun hg => ?_, fun hg => ?_, fun c hg => ?_⟩
      · simp only [doSelfpipe, hg, selfpipeEvent] at k
        cases k
        exact ⟨g3 rfl, g4 rfl⟩
      · simp only [doSelfpipe, hg, selfpipeEvent] at k
        cases k
        exact ⟨g3 rfl, g4 rfl⟩
      · refine List.IsPrefix.trans ?_ g2
        simp only [doSelfpipe, hg, selfpipeEvent] at k
        cases k
        simp only
        rw [← act_log]
        split
        · exact (close_pre _ _).trans (act_pre _ _)
        · split
          · exact (close_pre _ _).trans ((close_pre _ _).trans ((close_pre _ _).trans ((close_pre _ _).trans (act_pre _ _))))
          · exact List.prefix_rfl

/-- An iteration in which the poll reports everything, a stop command waits in the signal
pipe, and reads and writes move one byte. -/
def busy : Ev := ⟨some ⟨true, true, true, true, true, true⟩, .data 0, .data 0, [.data 0], .byte 0⟩

theorem busy_pair (s : St) (b : Byte) (C : Bytes) (hl : s.tonet.mem.length = 8192) (h0 : s.tonet.len = 0)
    (o : ∀ f, s.w.op f = true) (hs : s.chd = b :: C) :
    ∃ m, m.length = 8192 ∧ ∀ evs, loop s (busy :: busy :: evs) = loop
      { s with tonet := ⟨m, 0⟩, chd := C, w := ((s.w.act (.read .childout [b])).act .alarm).act (.write .peerout [b]) } evs := by
  obtain ⟨⟨op, log⟩, tc, ⟨mem, len⟩, net, chd, csrc⟩ := s
  simp only at hl h0 o hs
  have o' : op = fun _ => true := funext o
  subst h0 hs o'
  cases mem with
  | nil => simp at hl
  | cons x mem =>
    refine ⟨b :: mem, by simpa using hl, fun evs => ?_⟩
    simp [loop, propagate, finished, body, busy, after, watches, size, doFromChild, readInto, got, copyN, doToPeer, writeFrom,
      put, consume, memmove, W.act, Bind.bind, Out.bind, Pure.pure, wr]

/-- C85, violated: a child that keeps sending holds up everything else. However long the
child goes on sending `C`, with all descriptors and a stop command reported ready in every
iteration, all of `C` is forwarded while not one byte from the network is read and the
stop command is not taken. -/
theorem c85_clear_starved (m1 m2 net csrc : Bytes) (h2 : m2.length = 8192) (C : Bytes) :
    busy.poll = some ⟨true, true, true, true, true, true⟩ ∧ busy.sig = .byte 0 ∧
    ∃ s, loop (start m1 m2 net C csrc) (List.replicate (2 * C.length) busy) = .ok (s, none) ∧
      wroteOf .peerout s.w.log = C ∧ readOf .peerin s.w.log = [] ∧ Wanted s.w.log .peerin ∧ ∀ c, Act.sig c ∉ s.w.log := by
  refine ⟨rfl, rfl, ?_⟩
  suffices h : ∀ (C : Bytes) (s : St), s.tonet.mem.length = 8192 → s.tonet.len = 0 → (∀ f, s.w.op f = true) → s.chd = C →
      ∃ s', loop s (List.replicate (2 * C.length) busy) = .ok (s', none) ∧
        wroteOf .peerout s'.w.log = wroteOf .peerout s.w.log ++ C ∧ readOf .peerin s'.w.log = readOf .peerin s.w.log ∧
        (∀ f, Act.close f ∈ s'.w.log → Act.close f ∈ s.w.log) ∧ ∀ c, Act.sig c ∈ s'.w.log → Act.sig c ∈ s.w.log by
    obtain ⟨s', e, g1, g2, g3, g4⟩ := h C (start m1 m2 net C csrc) h2 rfl (fun _ => rfl) rfl
    have g2' : readOf .peerin s'.w.log = [] := by simpa [start, readOf_nil] using g2
    refine ⟨s', e, by simpa [start, wroteOf_nil] using g1, g2', ⟨?_, ?_, ?_⟩, ?_⟩
    · exact fun hc => absurd (g3 _ hc) (by simp [start])
    · exact fun hc => absurd (g3 _ hc) (by simp [start])
    · rw [g2', List.length_nil]; omega
    · exact fun c hc => absurd (g4 _ hc) (by simp [start])
  intro C
  induction C with
  | nil =>
    intro s _ h0 o _
    have hp : propagate s = s := by simp [propagate, o]
    refine ⟨s, ?_, by simp, rfl, fun _ h => h, fun _ h => h⟩
    simp [loop, hp, finished, o]
  | cons b C ih =>
    intro s hl h0 o hs
    obtain ⟨m, hm, hb⟩ := busy_pair s b C hl h0 o hs
    obtain ⟨s', e, g1, g2, g3, g4⟩ := ih { s with tonet := ⟨m, 0⟩, chd := C, w := ((s.w.act (.read .childout [b])).act .alarm).act (.write .peerout [b]) }
      hm rfl o rfl
    refine ⟨s', ?_, ?_, ?_, fun f hf => ?_, fun c hc => ?_⟩
    · rw [show 2 * (b :: C).length = 2 * C.length + 1 + 1 by simp only [List.length_cons]; omega, List.replicate_succ, List.replicate_succ, hb]
      exact e
    · rw [g1]; simp [W.act, wroteOf, Act.wroteOn]
    · rw [g2]; simp [W.act, readOf, Act.readOn]
    · simpa [W.act] using g3 f hf
    · simpa [W.act] using g4 c hc

/-- A waiting cleartext phase with something to do in both directions: the hypotheses of
`c85_clear_partial` hold. -/
example : (match loop (start (List.replicate 8192 0) (List.replicate 8192 0) b!"abc" b!"xy" []) [busy] with
    | .ok (s, none) => s.w.log == [.read .childout b!"x", .alarm] && (watches s).topeer && (watches s).frompeer
    | _ => false) = true := by decide +kernel

end Clear
namespace Tls

/-- The poll reported the descriptor. -/
def Ready.has (r : Ready) : Fd → Bool
  | .peerout => r.topeer
  | .childin => r.tochild
  | .peerin => r.frompeer
  | .childout => r.fromchild
  | .ctl => false
  | .ack => false

/-- The order in which descriptors are looked at. -/
def rank : Fd → Nat
  | .childin => 0
  | .peerout => 1
  | .peerin => 2
  | .childout => 3
  | .ctl => 4
  | .ack => 5

/-- The call that serves the descriptor is to be tried again. -/
def Again (ev : Ev) : Fd → Prop
  | .peerin => ReadAgain ev.rd
  | .childout => ReadAgain ev.rd
  | .peerout => WriteAgain ev.wr
  | .childin => WriteAgain ev.wr
  | .ctl => False
  | .ack => False

variable {E : Type} {g : Engine E}

theorem tryRead_again (n : Nat) (src : Bytes) (r : RdEv) :
    (tryRead n src r = .again ∧ ReadAgain r) ∨ tryRead n src r = .ended ∨
    ∃ d, tryRead n src r = .got d ∧ d ≠ [] ∧ d.length ≤ n := by
  cases r with
  | data m =>
    simp only [tryRead]
    by_cases h : (got src (cap n) m).length = 0
    · rw [if_pos h]; exact .inr (.inl rfl)
    · rw [if_neg h]
      refine .inr (.inr ⟨_, rfl, fun h0 => h (by rw [h0]; rfl), ?_⟩)
      simp only [got, List.length_take, cap]
      omega
  | eintr => exact .inl ⟨rfl, .inl rfl⟩
  | eagain => exact .inl ⟨rfl, .inr rfl⟩
  | err e => exact .inr (.inl rfl)

theorem tryWrite_again (buf : Bytes) (w : WrEv) :
    (tryWrite buf w = .again ∧ WriteAgain w) ∨ tryWrite buf w = .failed ∨ ∃ d, tryWrite buf w = .put d ∧ d ≠ [] := by
  cases w with
  | data m =>
    simp only [tryWrite]
    by_cases h : (put buf (cap buf.length) m).length = 0
    · rw [if_pos h]; exact .inr (.inl rfl)
    · rw [if_neg h]
      exact .inr (.inr ⟨_, rfl, fun h0 => h (by rw [h0]; rfl)⟩)
  | zero => exact .inr (.inl rfl)
  | eintr p => exact .inl ⟨rfl, .inl ⟨p, rfl⟩⟩
  | eagain p => exact .inl ⟨rfl, .inr ⟨p, rfl⟩⟩
  | err e => exact .inr (.inl rfl)

open Clear (act_pre close_pre act_log)

theorem dealt_pre {f : Fd} {again : Prop} {l l' : List (Act Fd)} (a : Act Fd) (h : l ++ [a] <+: l') (u : a.uses f) :
    Dealt f again l l' := by
  obtain ⟨t, rfl⟩ := h
  exact .inl ⟨a, t, by simp, u⟩

theorem serve_toChild (s : St E) (ev : Ev) : Dealt .childin (WriteAgain ev.wr) s.w.log (doToChild g s ev).1.w.log := by
  unfold doToChild
  rcases tryWrite_again (g.recvapp s.e) ev.wr with ⟨h, ha⟩ | h | ⟨d, h, hd⟩ <;> rw [h]
  · exact .inr ⟨rfl, ha⟩
  · exact dealt_pre (.failed .childin) (close_pre (s.w.act (.failed .childin)) .childin) rfl
  · exact dealt_pre (.write .childin d) (act_pre (s.w.act (.write .childin d)) _) ⟨rfl, hd⟩

theorem serve_toPeer (s : St E) (ev : Ev) : Dealt .peerout (WriteAgain ev.wr) s.w.log (doToPeer g s ev).1.w.log := by
  unfold doToPeer
  rcases tryWrite_again (g.sendrec s.e) ev.wr with ⟨h, ha⟩ | h | ⟨d, h, hd⟩ <;> rw [h]
  · exact .inr ⟨rfl, ha⟩
  · exact dealt_pre (.failed .peerout) (close_pre (s.w.act (.failed .peerout)) .peerout) rfl
  · exact dealt_pre (.write .peerout d) (act_pre (s.w.act (.write .peerout d)) _) ⟨rfl, hd⟩

theorem serve_fromPeer (s : St E) (ev : Ev) (s' : St E) (why : Option Why) (e : doFromPeer g s ev = .ok (s', why)) :
    Dealt .peerin (ReadAgain ev.rd) s.w.log s'.w.log := by
  unfold doFromPeer at e
  rcases tryRead_again (g.recvrec s.e).length s.net ev.rd with ⟨h, ha⟩ | h | ⟨d, h, hd, -⟩ <;> rw [h] at e <;> simp only at e
  · cases e; exact .inr ⟨rfl, ha⟩
  · cases e; exact dealt_pre (.ended .peerin) (close_pre (s.w.act (.ended .peerin)) .peerin) rfl
  · cases hc : copyN (g.recvrec s.e) 0 d d.length with
    | ub => rw [hc] at e; cases e
    | ok m =>
      rw [hc] at e; cases e
      exact dealt_pre (.read .peerin d) ((act_pre (s.w.act (.read .peerin d)) _).trans (act_pre _ _)) ⟨rfl, hd⟩

theorem serve_fromChild (s : St E) (ev : Ev) (s' : St E) (why : Option Why) (e : doFromChild g s ev = .ok (s', why)) :
    Dealt .childout (ReadAgain ev.rd) s.w.log s'.w.log := by
  unfold doFromChild at e
  rcases tryRead_again (g.sendapp s.e).length s.chd ev.rd with ⟨h, ha⟩ | h | ⟨d, h, hd, -⟩ <;> rw [h] at e <;> simp only at e
  · cases e; exact .inr ⟨rfl, ha⟩
  · cases e; exact dealt_pre (.ended .childout) (close_pre (s.w.act (.ended .childout)) .childout) rfl
  · cases hc : copyN (g.sendapp s.e) 0 d d.length with
    | ub => rw [hc] at e; cases e
    | ok m =>
      rw [hc] at e; cases e
      exact dealt_pre (.read .childout d) ((act_pre (s.w.act (.read .childout d)) _).trans ((act_pre _ _).trans (act_pre _ _))) ⟨rfl, hd⟩

theorem loop_append (fromcert : Bool) (evs more : List Ev) : ∀ (s s' : St E), loop g fromcert s evs = .ok (s', none) →
    loop g fromcert s (evs ++ more) = loop g fromcert s' more := by
  induction evs with
  | nil => intro s s' h; simp only [loop] at h; cases h; rfl
  | cons ev evs ih =>
    intro s s' h
    simp only [loop, List.cons_append] at h ⊢
    cases hb : rest g fromcert (top g s ev.pend).1 (top g s ev.pend).2 ev with
    | ub => rw [hb] at h; cases h
    | ok v =>
      obtain ⟨s2, why⟩ := v
      rw [hb] at h
      cases why with
      | some w => cases h
      | none => exact ih s2 s' h

theorem closes_pre (st : Flags) (pend : Bool) (w : W) : w.log <+: (closes st pend w).log := by
  simp only [closes]
  repeat' split
  all_goals first
    | exact List.prefix_rfl
    | exact close_pre _ _
    | exact (close_pre _ _).trans (close_pre _ _)
    | exact (close_pre _ _).trans ((close_pre _ _).trans (close_pre _ _))

theorem top_pre (s : St E) (pend : Bool) : s.w.log <+: (top g s pend).2.w.log := by
  simp only [top, shutdown]
  split
  · exact (act_pre _ _).trans ((closes_pre _ _ _).trans ((act_pre _ _).trans ((act_pre _ _).trans (act_pre _ _))))
  · exact (act_pre _ _).trans (closes_pre _ _ _)

theorem report_pre (hg : g.Sized) (fromcert : Bool) (st : Flags) (s : St E) (evs : List WrEv) :
    ∃ s' why, reportHandshake g fromcert st s evs = .ok (s', why) ∧ s.w.log <+: s'.w.log := by
  obtain ⟨s', why, e, h⟩ := report_cases (g := g) fromcert st s evs (hg _)
  refine ⟨s', why, e, ?_⟩
  rcases h with ⟨rfl, -⟩ | ⟨-, -, ⟨-, rfl, -⟩ | ⟨-, ⟨rfl, -⟩ | ⟨-, -, d, ⟨rfl, -⟩ | ⟨rfl, -⟩⟩⟩⟩
  · exact List.prefix_rfl
  · exact act_pre _ _
  · exact List.prefix_rfl
  · exact act_pre _ _
  · exact (act_pre _ _).trans (act_pre _ _)

theorem mem_watched (c : Ready) (f : Fd) : f ∈ watched c ↔ c.has f = true := by
  cases f <;> simp only [watched, Ready.has] <;> grind

theorem has_after (c r : Ready) (f : Fd) : (after c (some r)).has f = (c.has f && r.has f) := by
  cases f <;> rfl

/-- C85 for the encrypted phase: an iteration either ends the phase without waiting, or
waits for a set of descriptors (which one: `c46_wait`). When the poll reports, the first
reported descriptor of the set, in the order of `rank`, is served at once; nothing is done
only if the kernel says to try again. If none of the set is reported, a command on the
signal pipe is taken at once. -/
theorem c85_tls_partial (hg : g.Sized) (op0 : Fd → Bool) (fromcert rep0 : Bool) (e : E) (N C : Bytes) (evs : List Ev) (s : St E)
    (h : loop g fromcert (start op0 e rep0 N C) evs = .ok (s, none)) (ev : Ev) (r : Ready) (hr : ev.poll = some r) :
    ∃ s' why, loop g fromcert (start op0 e rep0 N C) (evs ++ [ev]) = .ok (s', why) ∧
      ((∃ y, why = some y ∧ y ≠ .signal ∧ y ≠ .childWrite ∧ y ≠ .peerWrite) ∨
       ∃ pre l, s.w.log <+: pre ∧ pre ++ [.eng (.wait l)] <+: s'.w.log ∧
        (∀ f ∈ l, r.has f = true → (∀ g, rank g < rank f → ¬ (g ∈ l ∧ r.has g = true)) →
          Dealt f (Again ev f) (pre ++ [.eng (.wait l)]) s'.w.log) ∧
        ((∀ g, ¬ (g ∈ l ∧ r.has g = true)) →
          (r.selfpipe = false → s'.w.log = pre ++ [.eng (.wait l)] ∧ why = none) ∧
          (r.selfpipe = true →
            (ev.sig = .again → s'.w.log = pre ++ [.eng (.wait l)] ∧ why = none) ∧
            (ev.sig = .failed → s'.w.log = pre ++ [.eng (.wait l)] ∧ why = some .signal) ∧
            ∀ c, ev.sig = .byte c → pre ++ [.eng (.wait l)] ++ [.sig c] <+: s'.w.log))) := by
  obtain ⟨s', why, hd⟩ := c45_defined hg op0 fromcert rep0 e N C (evs ++ [ev])
  refine ⟨s', why, hd, ?_⟩
  rw [loop_append fromcert evs [ev] _ _ h] at hd
  have p1 := top_pre (g := g) s ev.pend
  simp only [loop] at hd
  generalize top g s ev.pend = t at hd p1
  obtain ⟨st, s1⟩ := t
  simp only at hd p1
  obtain ⟨s2, why2, e2, p2⟩ := report_pre hg fromcert st s1 ev.usr
  have hrest : rest g fromcert st s1 ev = .ok (s', why) := by
    cases hb : rest g fromcert st s1 ev with
    | ub => rw [hb] at hd; cases hd
    | ok v =>
      obtain ⟨a, b⟩ := v
      rw [hb] at hd
      cases b <;> (cases hd; rfl)
  simp only [rest, e2, Out.ok_bind] at hrest
  cases why2 with
  | some y =>
    cases hrest
    left
    refine ⟨y, rfl, ?_⟩
    obtain ⟨s3, why3, e3, h3⟩ := report_cases (g := g) fromcert st s1 ev.usr (hg _)
    rw [e2] at e3
    cases e3
    rcases h3 with ⟨-, h, -⟩ | ⟨-, -, ⟨-, -, h⟩ | ⟨-, ⟨-, ⟨h, -⟩ | h | h⟩ | ⟨-, -, d, ⟨-, h⟩ | ⟨-, h, -⟩⟩⟩⟩ <;> cases h <;> simp
  | none =>
    simp only at hrest
    by_cases c1 : (st.closed && !s2.hs) = true
    · rw [if_pos c1] at hrest; cases hrest; exact .inl ⟨_, rfl, by simp⟩
    rw [if_neg c1] at hrest
    by_cases c2 : (st.closed && !st.sendrec) = true
    · rw [if_pos c2] at hrest; cases hrest; exact .inl ⟨_, rfl, by simp⟩
    rw [if_neg c2] at hrest
    by_cases c3 : (!(can st s1.w).frompeer && !(can st s1.w).topeer && !(can st s1.w).fromchild && !(can st s1.w).tochild) = true
    · rw [if_pos c3] at hrest; cases hrest; exact .inl ⟨_, rfl, by simp⟩
    rw [if_neg c3] at hrest
    right
    refine ⟨s2.w.log, watched (can st s1.w), p1.trans p2, ?_⟩
    have hsp : (can st s1.w).selfpipe = true := rfl
    generalize can st s1.w = c at hrest hsp
    generalize hs3 : ({ s2 with w := s2.w.act (.eng (.wait (watched c))) } : St E) = s3 at hrest
    have hl : s2.w.log ++ [.eng (.wait (watched c))] = s3.w.log := by rw [← hs3]; rfl
    rw [hl]
    simp only [mem_watched]
    rw [hr] at hrest
    have no : ∀ f, ¬ (c.has f = true ∧ r.has f = true) → (after c (some r)).has f = false := by
      intro f hf
      rw [has_after]
      simpa using hf
    have yes : ∀ f, c.has f = true → r.has f = true → (after c (some r)).has f = true := by
      intro f a b
      rw [has_after, a, b]; rfl
    have sel : (after c (some r)).selfpipe = r.selfpipe := by simp [after, hsp]
    generalize after c (some r) = k at hrest no yes sel
    have main : (∀ f, c.has f = true → r.has f = true → (∀ g, rank g < rank f → ¬ (c.has g = true ∧ r.has g = true)) →
          Dealt f (Again ev f) s3.w.log s'.w.log) := by
      intro f hw hh hb
      have y := yes f hw hh
      cases f with
      | ctl => cases hw
      | ack => cases hw
      | childin =>
        simp only [Ready.has] at y
        simp only [serve, y, if_true] at hrest
        have := serve_toChild (g := g) s3 ev
        rw [Out.ok.inj hrest] at this
        exact this
      | peerout =>
        have n0 := no .childin (hb .childin (by decide))
        simp only [Ready.has] at y n0
        simp only [serve, y, n0, if_true, if_false, Bool.false_eq_true] at hrest
        have := serve_toPeer (g := g) s3 ev
        rw [Out.ok.inj hrest] at this
        exact this
      | peerin =>
        have n0 := no .childin (hb .childin (by decide))
        have n1 := no .peerout (hb .peerout (by decide))
        simp only [Ready.has] at y n0 n1
        simp only [serve, y, n0, n1, if_true, if_false, Bool.false_eq_true] at hrest
        exact serve_fromPeer s3 ev s' why hrest
      | childout =>
        have n0 := no .childin (hb .childin (by decide))
        have n1 := no .peerout (hb .peerout (by decide))
        have n2 := no .peerin (hb .peerin (by decide))
        simp only [Ready.has] at y n0 n1 n2
        simp only [serve, y, n0, n1, n2, if_true, if_false, Bool.false_eq_true] at hrest
        exact serve_fromChild s3 ev s' why hrest
    have quiet : (∀ g, ¬ (c.has g = true ∧ r.has g = true)) →
        .ok (s', why) = if r.selfpipe then Out.ok (doSelfpipe s3 ev) else .ok (s3, none) := by
      intro ha
      have n0 := no .childin (ha _)
      have n1 := no .peerout (ha _)
      have n2 := no .peerin (ha _)
      have n3 := no .childout (ha _)
      simp only [Ready.has] at n0 n1 n2 n3
      simp only [serve, n0, n1, n2, n3, sel, if_false, Bool.false_eq_true] at hrest
      exact hrest.symm
    have quiet2 : (∀ g, ¬ (c.has g = true ∧ r.has g = true)) →
          (r.selfpipe = false → s'.w.log = s3.w.log ∧ why = none) ∧
          (r.selfpipe = true → (ev.sig = .again → s'.w.log = s3.w.log ∧ why = none) ∧
            (ev.sig = .failed → s'.w.log = s3.w.log ∧ why = some .signal) ∧
            ∀ c, ev.sig = .byte c → s3.w.log ++ [.sig c] <+: s'.w.log) := by
      intro ha
      have k := quiet ha
      constructor
      · intro hs
        rw [hs] at k
        cases k
        exact ⟨rfl, rfl⟩
      · intro hs
        rw [hs, if_pos rfl] at k
        refine ⟨fun hg => ?_, fun hg => ?_, fun c hg => ?_⟩
        · simp only [doSelfpipe, hg, selfpipeEvent] at k
          cases k
          exact ⟨rfl, rfl⟩
        · simp only [doSelfpipe, hg, selfpipeEvent] at k
          cases k
          exact ⟨rfl, rfl⟩
        · simp only [doSelfpipe, hg, selfpipeEvent] at k
          cases k
          simp only
          rw [← act_log]
          split
          · exact (close_pre _ _).trans (act_pre _ _)
          · split
            · exact (close_pre _ _).trans ((close_pre _ _).trans ((close_pre _ _).trans ((close_pre _ _).trans (act_pre _ _))))
            · exact List.prefix_rfl
    refine ⟨?_, main, quiet2⟩
    -- the trace only grows
    rcases Classical.em (∃ f, c.has f = true ∧ r.has f = true) with ⟨f, hf⟩ | hn
    · have ⟨f', hf', hmin⟩ : ∃ f, (c.has f = true ∧ r.has f = true) ∧ ∀ g, rank g < rank f → ¬ (c.has g = true ∧ r.has g = true) := by
        have ind : ∀ n f, rank f = n → (c.has f = true ∧ r.has f = true) →
            ∃ f, (c.has f = true ∧ r.has f = true) ∧ ∀ g, rank g < rank f → ¬ (c.has g = true ∧ r.has g = true) := by
          intro n
          induction n using Nat.strongRecOn with
          | _ n ih =>
            intro f hn hf
            rcases Classical.em (∃ g, rank g < rank f ∧ (c.has g = true ∧ r.has g = true)) with ⟨g, hg1, hg2⟩ | hno
            · exact ih (rank g) (hn ▸ hg1) g rfl hg2
            · exact ⟨f, hf, fun g hg1 hg2 => hno ⟨g, hg1, hg2⟩⟩
        exact ind _ f rfl hf
      rcases main f' hf'.1 hf'.2 hmin with ⟨a, post, hp, -⟩ | ⟨hp, -⟩
      · exact ⟨a :: post, hp.symm⟩
      · rw [hp]; exact List.prefix_rfl
    · have k := quiet fun g hg => hn ⟨g, hg⟩
      cases hsel : r.selfpipe <;> rw [hsel] at k
      · cases k; exact List.prefix_rfl
      · have h1 := Out.ok.inj k
        have h2 : s' = (doSelfpipe s3 ev).1 := congrArg Prod.fst h1
        rw [h2]
        exact Clear.selfpipe_pre _ _

/-- An iteration in which the poll reports everything, a stop command waits in the signal
pipe, and reads and writes move one byte. -/
def busy : Ev := ⟨true, [], some ⟨true, true, true, true, true⟩, .data 0, .data 0, .byte 0⟩

/-- The state between two bytes: all descriptors open, the handshake done or to be
reported silently, all received plaintext taken. -/
structure Idle (s : St Toy) : Prop where
  op : ∀ f, s.w.op f = true
  hs : s.hs = true ∨ s.rep = true
  out : s.e.out = []
  shut : s.e.shut = false
  pos : s.e.pos = s.e.hist.length

theorem cap4 : cap 4 = 4 := rfl
theorem cap1 : cap 1 = 1 := rfl
theorem toy_quiet (h : Bytes) : (toy false).state ⟨h, h.length, [], false⟩ = ⟨false, false, true, true, false⟩ := by
  simp [toy]
theorem toy_loaded (h : Bytes) (b : Byte) : (toy false).state ⟨h ++ [b], h.length, [], false⟩ = ⟨false, false, false, true, true⟩ := by
  simp [toy]
theorem toy_space (e : Toy) : (toy false).recvrec e = [0, 0, 0, 0] := rfl
theorem toy_filled (e : Toy) (m : Bytes) (n : Nat) : (toy false).recvrecAck e m n = { e with hist := e.hist ++ m.take n } := rfl
theorem toy_offer (h : Bytes) (b : Byte) : (toy false).recvapp ⟨h ++ [b], h.length, [], false⟩ = [b] := by
  simp [toy]
theorem toy_taken (e : Toy) (n : Nat) : (toy false).recvappAck e n = { e with pos := e.pos + n } := rfl

theorem busy_pair (s : St Toy) (b : Byte) (N : Bytes) (h : Idle s) (hn : s.net = b :: N) :
    ∃ s', (∀ evs, loop (toy false) false s (busy :: busy :: evs) = loop (toy false) false s' evs) ∧ Idle s' ∧ s'.net = N ∧
      wroteOf .childin s'.w.log = wroteOf .childin s.w.log ++ [b] ∧ readOf .childout s'.w.log = readOf .childout s.w.log ∧
      (∀ f, Act.close f ∈ s'.w.log → Act.close f ∈ s.w.log) ∧ ∀ c, Act.sig c ∈ s'.w.log → Act.sig c ∈ s.w.log := by
  obtain ⟨⟨op, log⟩, ⟨hist, pos, out, shut⟩, hs, rep, net, chd⟩ := s
  obtain ⟨h1, h2, h3, h4, h5⟩ := h
  simp only at h1 h2 h3 h4 h5 hn
  have o' : op = fun _ => true := funext h1
  subst o' h3 h4 h5 hn
  refine ⟨⟨⟨fun _ => true, log ++ [.eng (.state ⟨false, false, true, true, false⟩)] ++ (if hs then [] else [.alarm]) ++
    [.eng (.wait [.peerin, .childout]), .read .peerin [b], .eng (.recvrec [b, 0, 0, 0] 1), .alarm, .eng (.state ⟨false, false, false, true, true⟩),
      .eng (.wait [.childin, .childout]), .write .childin [b], .eng (.recvapp [b] 1)]⟩,
    ⟨hist ++ [b], hist.length + 1, [], false⟩, true, rep, N, chd⟩, ?_, ⟨fun _ => rfl, .inl rfl, rfl, rfl, by simp⟩, rfl, ?_, ?_, ?_, ?_⟩
  · intro evs
    cases hs with
    | true =>
      simp [loop, top, look, closes, shutdown, toy_quiet, toy_loaded, toy_space, toy_filled, toy_offer, toy_taken, rest, can, reportHandshake, busy, after, serve, watched, doFromPeer, doToChild, tryRead,
        tryWrite, got, put, cap4, cap1, copyN, wr, W.act, Bind.bind, Out.bind, Pure.pure]
    | false =>
      have hr : rep = true := by simpa using h2
      subst hr
      simp [loop, top, look, closes, shutdown, toy_quiet, toy_loaded, toy_space, toy_filled, toy_offer, toy_taken, rest, can, reportHandshake, busy, after, serve, watched, doFromPeer, doToChild, tryRead,
        tryWrite, got, put, cap4, cap1, copyN, wr, W.act, Bind.bind, Out.bind, Pure.pure]
  · cases hs <;> simp [wroteOf, Act.wroteOn]
  · cases hs <;> simp [readOf, Act.readOn]
  · intro f hf; cases hs <;> simpa using hf
  · intro f hf; cases hs <;> simpa using hf

/-- C85, violated: a client that keeps sending holds up everything else. However long it
goes on sending `N`, with all descriptors and a stop command reported ready in every
iteration, all of `N` reaches the child while not one byte of the child's output is read
and the stop command is not taken. (With the toy engine, whose records are the
plaintext.) -/
theorem c85_tls_starved (N C : Bytes) :
    busy.poll = some ⟨true, true, true, true, true⟩ ∧ busy.sig = .byte 0 ∧
    ∃ s, loop (toy false) false (start (fun _ => true) ⟨[], 0, [], false⟩ true N C) (List.replicate (2 * N.length) busy) = .ok (s, none) ∧
      wroteOf .childin s.w.log = N ∧ readOf .childout s.w.log = [] ∧ Act.close .childout ∉ s.w.log ∧ ∀ c, Act.sig c ∉ s.w.log := by
  refine ⟨rfl, rfl, ?_⟩
  suffices h : ∀ (N : Bytes) (s : St Toy), Idle s → s.net = N →
      ∃ s', loop (toy false) false s (List.replicate (2 * N.length) busy) = .ok (s', none) ∧
        wroteOf .childin s'.w.log = wroteOf .childin s.w.log ++ N ∧ readOf .childout s'.w.log = readOf .childout s.w.log ∧
        (∀ f, Act.close f ∈ s'.w.log → Act.close f ∈ s.w.log) ∧ ∀ c, Act.sig c ∈ s'.w.log → Act.sig c ∈ s.w.log by
    obtain ⟨s', e, g1, g2, g3, g4⟩ := h N (start (fun _ => true) ⟨[], 0, [], false⟩ true N C) ⟨fun _ => rfl, .inr rfl, rfl, rfl, rfl⟩ rfl
    refine ⟨s', e, by simpa [start, wroteOf_nil] using g1, by simpa [start, readOf_nil] using g2, ?_, ?_⟩
    · exact fun hc => absurd (g3 _ hc) (by simp [start])
    · exact fun c hc => absurd (g4 _ hc) (by simp [start])
  intro N
  induction N with
  | nil => intro s _ _; exact ⟨s, rfl, by simp, rfl, fun _ h => h, fun _ h => h⟩
  | cons b N ih =>
    intro s hi hn
    obtain ⟨s1, hb, h1, h2, h3, h4, h5, h6⟩ := busy_pair s b N hi hn
    obtain ⟨s', e, g1, g2, g3, g4⟩ := ih s1 h1 h2
    refine ⟨s', ?_, ?_, ?_, fun f hf => h5 f (g3 f hf), fun c hc => h6 c (g4 c hc)⟩
    · rw [show 2 * (b :: N).length = 2 * N.length + 1 + 1 by simp only [List.length_cons]; omega, List.replicate_succ, List.replicate_succ, hb]
      exact e
    · rw [g1, h3]; simp
    · rw [g2, h4]

/-- A waiting encrypted phase with something to do in both directions: the hypotheses of
`c85_tls_partial` hold. -/
example : (match loop (toy false) false (start (fun _ => true) ⟨[], 0, [], false⟩ true b!"abc" b!"xy") [busy, busy, busy] with
    | .ok (s, none) => wroteOf .childin s.w.log == b!"a" && readOf .peerin s.w.log == b!"ab"
    | _ => false) = true := by decide +kernel

end Tls
end Relay
