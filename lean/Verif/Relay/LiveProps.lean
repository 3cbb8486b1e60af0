import Verif.Relay.FairProps
/-
C88: sessions come to an end. With sides that keep cooperating the TCP relay and
the cleartext phase deliver everything and end, a STARTTLS request is answered, and the encrypted phase
ends with every engine whose own work is finite. And the two places where the code
falls short: the cleartext phase can linger after the child is gone, and the encrypted
phase gives up the peer's data when the child closes only its output.
-/
namespace Relay.Tcp
open Io Relay

/-! ### The TCP relay runs to completion -/

/-- No signal, and no read or write fails for good. Calls may be interrupted or told to
try again, and the poll may fail or report any of the other descriptors. -/
def Harmless (ev : Ev) : Prop :=
  (∀ r, ev.poll = some r → r.selfpipe = false) ∧ (∀ e, ev.rd ≠ .err e) ∧ (∀ e, ev.wr ≠ .err e) ∧ ev.wr ≠ .zero

/-- Every watched descriptor is ready and the calls succeed. -/
def Ev.productive (ev : Ev) : Bool :=
  match ev.poll, ev.rd, ev.wr with
  | some ⟨true, true, true, true, false⟩, .data _, .data _ => true
  | _, _, _ => false

theorem productive_iff (ev : Ev) : ev.productive = true ↔ Productive ev := by
  constructor
  · intro h
    unfold Ev.productive at h
    split at h
    · rename_i e1 e2 e3
      exact ⟨e1, ⟨_, e2⟩, ⟨_, e3⟩⟩
    · cases h
  · rintro ⟨e1, ⟨_, e2⟩, ⟨_, e3⟩⟩
    simp only [Ev.productive, e1, e2, e3]

theorem readInto_harmless (n : Nat) (b : Buf) (src : Bytes) (rd : RdEv) (h : b.Ok n) (hl : b.len < n) (hr : ∀ e, rd ≠ .err e) :
    (readInto n b src rd = .ok (.again, b, src)) ∨ (src = [] ∧ readInto n b src rd = .ok (.ended, b, src)) ∨
    ∃ d b' src', readInto n b src rd = .ok (.got d, b', src') ∧
      2 * src'.length + b'.len < 2 * src.length + b.len := by
  cases rd with
  | data m => exact .inr (readInto_productive n b src m h hl)
  | eintr => exact .inl rfl
  | eagain => exact .inl rfl
  | err e => exact absurd rfl (hr e)

theorem writeFrom_harmless (n : Nat) (b : Buf) (wr : WrEv) (h : b.Ok n) (hl : 0 < b.len) (hr : ∀ e, wr ≠ .err e) (hz : wr ≠ .zero) :
    writeFrom b wr = .ok (.again, b) ∨ ∃ d b', writeFrom b wr = .ok (.put d, b') ∧ b'.len < b.len := by
  cases wr with
  | data m => exact .inr (writeFrom_productive n b m h hl)
  | zero => exact absurd rfl hz
  | eintr p => exact .inl rfl
  | eagain p => exact .inl rfl
  | err e => exact absurd rfl (hr e)

theorem body_harmless {hdr L R : Bytes} {s : St} (h : Run hdr L R (propagate s)) (ev : Ev) (hev : Harmless ev) :
    ∃ s', body (propagate s) ev = .ok (s', none) ∧ todo s' ≤ todo (propagate s) ∧
      (AllRead (propagate s) → AllRead s') := by
  obtain ⟨p1, p2⟩ := propagate_open s
  generalize propagate s = t at *
  obtain ⟨hs, hr, hw, hz⟩ := hev
  have k1 := h.inok
  have k2 := h.outok
  unfold body
  have c1 : (after (watches t) ev.poll).toremote = true → (watches t).toremote = true := by
    cases ev.poll <;> simp [after]
    intro a _; exact a
  have c2 : (after (watches t) ev.poll).tolocal = true → (watches t).tolocal = true := by
    cases ev.poll <;> simp [after]
    intro a _; exact a
  have c3 : (after (watches t) ev.poll).fromlocal = true → (watches t).fromlocal = true := by
    cases ev.poll <;> simp [after]
    intro a _; exact a
  have c4 : (after (watches t) ev.poll).fromremote = true → (watches t).fromremote = true := by
    cases ev.poll <;> simp [after]
    intro a _; exact a
  have c5 : (after (watches t) ev.poll).selfpipe = false := by
    cases hp : ev.poll with
    | none => rfl
    | some r => simp [after, hs r hp]
  generalize after (watches t) ev.poll = w at *
  dsimp only
  by_cases d1 : w.toremote = true
  · rw [if_pos d1]
    have c1 := c1 d1
    have : 0 < t.inb.len := by
      simp only [watches, Bool.and_eq_true, Bool.or_eq_true, decide_eq_true_eq, Bool.not_eq_true'] at c1
      rcases c1.2 with c | c
      · exact c
      · have := p1 c1.1 c; omega
    simp only [doToRemote, if_pos this]
    rcases writeFrom_harmless size t.inb ev.wr k1 this hw hz with e | ⟨d, b', e, hlt⟩
    · rw [e]; exact ⟨_, rfl, Nat.le_refl _, fun h => h⟩
    · rw [e]; exact ⟨_, rfl, by simp only [todo]; omega, fun h => h⟩
  rw [if_neg d1]
  by_cases d2 : w.tolocal = true
  · rw [if_pos d2]
    have c2 := c2 d2
    have : 0 < t.outb.len := by
      simp only [watches, Bool.and_eq_true, decide_eq_true_eq] at c2
      exact c2.2
    simp only [doToLocal]
    rcases writeFrom_harmless size t.outb ev.wr k2 this hw hz with e | ⟨d, b', e, hlt⟩
    · rw [e]; exact ⟨_, rfl, Nat.le_refl _, fun h => h⟩
    · rw [e]; exact ⟨_, rfl, by simp only [todo]; omega, fun h => h⟩
  rw [if_neg d2]
  by_cases d3 : w.fromlocal = true
  · rw [if_pos d3]
    have c3 := c3 d3
    simp only [watches, Bool.and_eq_true, decide_eq_true_eq] at c3
    simp only [doFromLocal]
    rcases readInto_harmless size t.inb t.lsrc ev.rd k1 c3.2 hr with e | ⟨h0, e⟩ | ⟨d, b', src', e, hlt⟩
    · rw [e]; exact ⟨_, rfl, Nat.le_refl _, fun h => h⟩
    · rw [e]
      refine ⟨_, rfl, ?_, ?_⟩
      · simp [closeLocalin, c3.1.1, todo]
      · simp [closeLocalin, c3.1.1, AllRead, h0]
    · rw [e]
      refine ⟨_, rfl, by simp only [todo]; omega, ?_⟩
      intro h; refine ⟨fun h1 => ?_, h.2⟩
      simp [c3.1.1] at h1
  rw [if_neg d3]
  by_cases d4 : w.fromremote = true
  · rw [if_pos d4]
    have c4 := c4 d4
    simp only [watches, Bool.and_eq_true, decide_eq_true_eq] at c4
    simp only [doFromRemote]
    rcases readInto_harmless size t.outb t.rsrc ev.rd k2 c4.2 hr with e | ⟨h0, e⟩ | ⟨d, b', src', e, hlt⟩
    · rw [e]; exact ⟨_, rfl, Nat.le_refl _, fun h => h⟩
    · rw [e]
      refine ⟨_, rfl, ?_, ?_⟩
      · simp [closeRemotein, c4.1.1, todo]
      · simp [closeRemotein, c4.1.1, AllRead, h0]
    · rw [e]
      refine ⟨_, rfl, by simp only [todo]; omega, ?_⟩
      intro h; refine ⟨h.1, fun h1 => ?_⟩
      simp [c4.1.1] at h1
  rw [if_neg d4, c5, if_neg (by decide)]
  exact ⟨_, rfl, Nat.le_refl _, fun h => h⟩

theorem loop_harmless {hdr L R : Bytes} (evs : List Ev) (hev : ∀ ev ∈ evs, Harmless ev) :
    ∀ {s : St}, Run hdr L R s → AllRead s → todo s ≤ evs.countP Ev.productive →
    ∃ s', loop s evs = .ok (s', some .finished) ∧ AllRead s' := by
  induction evs with
  | nil => intro s h hr ht; exact loop_productive [] (by simp) h hr (by simpa using ht)
  | cons ev evs ih =>
    intro s h hr ht
    have hp := run_propagate h
    have hr := allRead_propagate s hr
    have := todo_propagate s
    simp only [loop]
    by_cases hf : finished (propagate s) = true
    · rw [if_pos hf]; exact ⟨_, rfl, hr⟩
    · rw [if_neg hf]
      obtain ⟨s', e, h1, h2⟩ := body_harmless hp ev (hev ev (by simp))
      obtain ⟨s2, why, e2, hpost⟩ := step_body hp ev
      rw [e] at e2
      cases e2
      rw [List.countP_cons] at ht
      have hle : todo s' ≤ evs.countP Ev.productive := by
        by_cases hpr : ev.productive = true
        · obtain ⟨s3, e3, h3, _⟩ := body_productive hp (by simpa using hf) ev ((productive_iff ev).mp hpr)
          rw [e] at e3
          cases e3
          rw [if_pos hpr] at ht
          omega
        · rw [if_neg hpr] at ht
          omega
      rw [e]
      exact ih (fun x hx => hev x (by simp [hx])) (hpost.2.1 rfl) (h2 hr) hle

/-- C88: if no signal comes and no call fails for good, the TCP relay ends by itself once
the kernel has answered often enough that the watched descriptors are ready and the calls
succeed, however many other answers lie in between; both streams were delivered completely
and both sides were told. -/
theorem c88_tcp_complete (imem omem : Bytes) (hi : imem.length = 8192) (ho : omem.length = 8192) (n : Nat)
    (hn : n ≤ 8192) (L R : Bytes) (evs : List Ev) (hev : ∀ ev ∈ evs, Harmless ev)
    (hlen : 2 * L.length + n + 2 * R.length + 2 ≤ evs.countP Ev.productive) :
    ∃ s, loop (start imem omem n L R) evs = .ok (s, some .finished) ∧
      wroteOf .remoteout s.log = imem.take n ++ L ∧ wroteOf .localout s.log = R ∧
      Act.close .localout ∈ s.log ∧ Act.close .remoteout ∈ s.log := by
  have hr := run_start imem omem n L R hi ho hn
  obtain ⟨s, e, ha⟩ := loop_harmless evs hev hr (by simp [AllRead, start]) (by simp [todo, start]; omega)
  obtain ⟨s', why', e', hp⟩ := loop_post evs hr
  rw [e] at e'; cases e'
  obtain ⟨p1, _, _, _, _, p6⟩ := hp
  obtain ⟨f1, f2, f3, f4, f5, f6⟩ := p6 rfl
  refine ⟨s, e, ?_, ?_, p1.lo.mp f3, p1.ro.mp f4⟩
  · have h1 := p1.inacc
    have h2 := p1.lsrc
    rw [data_nil p1.inok f5, List.append_nil] at h1
    rw [ha.1 f1, List.append_nil] at h2
    rw [← h1, h2]
  · have h1 := p1.outacc
    have h2 := p1.rsrc
    rw [data_nil p1.outok f6, List.append_nil] at h1
    rw [ha.2 f2, List.append_nil] at h2
    rw [← h1, h2]

/-- Interruptions between the productive answers. -/
example : ∃ evs : List Ev, (∀ ev ∈ evs, Harmless ev) ∧ (∃ ev ∈ evs, ev.productive = false) ∧
    2 * 3 + 2 + 2 * 3 + 2 ≤ evs.countP Ev.productive := by
  refine ⟨⟨none, .eintr, .data 0⟩ :: List.replicate 16 ⟨some ⟨true, true, true, true, false⟩, .data 2, .data 2⟩, ?_, ?_, by decide⟩
  · intro ev h
    simp only [List.mem_cons, List.mem_replicate] at h
    rcases h with rfl | ⟨_, rfl⟩ <;> simp [Harmless]
  · exact ⟨_, List.mem_cons_self .., rfl⟩

end Relay.Tcp

namespace Relay.Clear
open Io Relay

/-! ### The cleartext phase runs to completion -/

/-- No signal, and no read or write fails for good. Calls may be interrupted or told to
try again, and the poll may fail or report any of the other descriptors. -/
def Harmless (ev : Ev) : Prop :=
  (∀ r, ev.poll = some r → r.selfpipe = false) ∧ (∀ e, ev.rd ≠ .err e) ∧ (∀ e, ev.wr ≠ .err e) ∧ ev.wr ≠ .zero

/-- Every watched descriptor of the network and of the child is ready and the calls
succeed; the control pipe may be ready or not. -/
def Ev.productive (ev : Ev) : Bool :=
  match ev.poll, ev.rd, ev.wr with
  | some ⟨true, true, true, true, _, _⟩, .data _, .data _ => true
  | _, _, _ => false

theorem productive_iff (ev : Ev) : ev.productive = true ↔
    (∃ c p, ev.poll = some ⟨true, true, true, true, c, p⟩) ∧ (∃ m, ev.rd = .data m) ∧ ∃ m, ev.wr = .data m := by
  constructor
  · intro h
    unfold Ev.productive at h
    split at h
    · rename_i e1 e2 e3
      exact ⟨⟨_, _, e1⟩, ⟨_, e2⟩, ⟨_, e3⟩⟩
    · cases h
  · rintro ⟨⟨c, p, e1⟩, ⟨_, e2⟩, ⟨_, e3⟩⟩
    simp only [Ev.productive, e1, e2, e3]

/-- Work left. -/
def todo (s : St) : Nat :=
  2 * s.net.length + s.tochild.len + (s.w.op .peerin).toNat + 2 * s.chd.length + s.tonet.len +
    (s.w.op .childout).toNat + (s.w.op .ctl).toNat

/-- No signal so far, nothing on the control pipe, and a side that was closed for
reading had delivered its whole stream. -/
structure Calm (s : St) : Prop where
  nosig : ∀ c, Act.sig c ∉ s.w.log
  ctl : s.csrc = []
  pin : s.w.op .peerin = false → s.net = []
  cout : s.w.op .childout = false → s.chd = []

theorem propagate_same (s : St) : (propagate s).net = s.net ∧ (propagate s).chd = s.chd ∧
    (propagate s).csrc = s.csrc ∧ (propagate s).tochild = s.tochild ∧ (propagate s).tonet = s.tonet ∧
    (propagate s).w.op .peerin = s.w.op .peerin ∧ (propagate s).w.op .childout = s.w.op .childout ∧
    (propagate s).w.op .ctl = s.w.op .ctl ∧ (∀ c, Act.sig c ∈ (propagate s).w.log → Act.sig c ∈ s.w.log) ∧
    ((propagate s).w.op .childin = true → s.w.op .childin = true) ∧
    ((propagate s).w.op .peerout = true → s.w.op .peerout = true) := by
  unfold propagate W.close
  grind

theorem todo_propagate (s : St) : todo (propagate s) = todo s := by
  obtain ⟨h1, h2, h3, h4, h5, h6, h7, h8, _⟩ := propagate_same s
  simp [todo, h1, h2, h4, h5, h6, h7, h8]

theorem calm_propagate {s : St} (h : Calm s) : Calm (propagate s) := by
  obtain ⟨h1, h2, h3, h4, h5, h6, h7, h8, h9, _⟩ := propagate_same s
  exact ⟨fun c hc => h.nosig c (h9 c hc), by rw [h3]; exact h.ctl, by rw [h6, h1]; exact h.pin,
    by rw [h7, h2]; exact h.cout⟩

/-- After EOF propagation a writing side is open only while there is something to
write or to wait for. -/
theorem propagate_open (s : St) :
    ((propagate s).w.op .childin = true → (propagate s).w.op .peerin = false → (propagate s).tochild.len ≠ 0) ∧
    ((propagate s).w.op .peerout = true → (propagate s).w.op .childout = false → (propagate s).tonet.len ≠ 0) := by
  unfold propagate W.close
  grind

theorem watches_some {N C : Bytes} {s : St} (h : Run N C (propagate s)) (hc : Calm (propagate s))
    (hf : finished (propagate s) = false) :
    (watches (propagate s)).topeer = true ∨ (watches (propagate s)).fromchild = true ∨
    (watches (propagate s)).tochild = true ∨ (watches (propagate s)).frompeer = true := by
  obtain ⟨p1, p2⟩ := propagate_open s
  generalize propagate s = t at *
  have r1 := h.r2
  have r2 : t.w.op .childin = false → t.w.op .peerin = false := by
    intro h0
    rcases h.r3 h0 with h1 | h1 | h1
    · exact h1.1
    · exact absurd h1 (hc.nosig _)
    · exact absurd h1 (hc.nosig _)
  simp only [watches, Bool.and_eq_true, decide_eq_true_eq]
  have hsz : size = 8192 := rfl
  have hf' : ¬ finished t = true := by simp [hf]
  simp only [finished, Bool.and_eq_true, Bool.not_eq_true'] at hf'
  cases e1 : t.w.op .peerin <;> cases e2 : t.w.op .childin <;> cases e3 : t.w.op .childout <;> cases e4 : t.w.op .peerout <;>
    simp [e1, e2, e3, e4] at * <;> omega

/-- An iteration goes on, undisturbed, and does some of the work if `now`. -/
def Goes (t : St) (r : Out (St × Option Why)) (now : Prop) : Prop :=
  ∃ s', r = .ok (s', none) ∧ Calm s' ∧ todo s' ≤ todo t ∧ (now → todo s' < todo t)

theorem goes_refl {t : St} (h : Calm t) {now : Prop} (hn : ¬ now) : Goes t (.ok (t, none)) now :=
  ⟨t, rfl, h, Nat.le_refl _, fun h => absurd h hn⟩

theorem goes_toPeer {t : St} (hc : Calm t) (k : t.tonet.Ok size) (hl : t.tonet.len ≠ 0) (ev : Ev) (hev : Harmless ev) :
    Goes t (doToPeer t ev) (∃ m, ev.wr = .data m) := by
  obtain ⟨c1, c2, c3, c4⟩ := hc
  unfold doToPeer
  cases he : ev.wr with
  | data m =>
    obtain ⟨d, b', e, hlt⟩ := Tcp.writeFrom_productive size t.tonet m k (by omega)
    rw [e]
    have hlt : todo { t with tonet := b', w := t.w.act (.write .peerout d) } < todo t := by simp only [todo, W.act]; omega
    exact ⟨_, rfl, ⟨by simpa [W.act] using c1, c2, c3, c4⟩, Nat.le_of_lt hlt, fun _ => hlt⟩
  | zero => exact absurd he hev.2.2.2
  | err e => exact absurd he (hev.2.2.1 e)
  | eintr p => exact goes_refl ⟨c1, c2, c3, c4⟩ (by simp)
  | eagain p => exact goes_refl ⟨c1, c2, c3, c4⟩ (by simp)

theorem goes_toChild {t : St} (hc : Calm t) (k : t.tochild.Ok size) (hl : t.tochild.len ≠ 0) (ev : Ev) (hev : Harmless ev) :
    Goes t (doToChild t ev) (∃ m, ev.wr = .data m) := by
  obtain ⟨c1, c2, c3, c4⟩ := hc
  unfold doToChild
  cases he : ev.wr with
  | data m =>
    obtain ⟨d, b', e, hlt⟩ := Tcp.writeFrom_productive size t.tochild m k (by omega)
    rw [e]
    have hlt : todo { t with tochild := b', w := t.w.act (.write .childin d) } < todo t := by simp only [todo, W.act]; omega
    exact ⟨_, rfl, ⟨by simpa [W.act] using c1, c2, c3, c4⟩, Nat.le_of_lt hlt, fun _ => hlt⟩
  | zero => exact absurd he hev.2.2.2
  | err e => exact absurd he (hev.2.2.1 e)
  | eintr p => exact goes_refl ⟨c1, c2, c3, c4⟩ (by simp)
  | eagain p => exact goes_refl ⟨c1, c2, c3, c4⟩ (by simp)

theorem goes_fromChild {t : St} (hc : Calm t) (k : t.tonet.Ok size) (ho : t.w.op .childout = true) (hl : t.tonet.len < size)
    (ev : Ev) (hev : Harmless ev) : Goes t (doFromChild t ev) (∃ m, ev.rd = .data m) := by
  obtain ⟨c1, c2, c3, c4⟩ := hc
  unfold doFromChild
  cases he : ev.rd with
  | data m =>
    rcases Tcp.readInto_productive size t.tonet t.chd m k hl with ⟨h0, e⟩ | ⟨d, b', src', e, hlt⟩
    · rw [e]
      have hlt : todo { t with w := (t.w.act (.ended .childout)).close .childout } < todo t := by
        simp [W.close, W.act, ho, todo]
      refine ⟨_, rfl, ⟨?_, c2, ?_, fun _ => h0⟩, Nat.le_of_lt hlt, fun _ => hlt⟩
      · simpa [W.close, W.act, ho] using c1
      · simpa [W.close, W.act, ho] using c3
    · rw [e]
      have hlt : todo { t with tonet := b', chd := src', w := (t.w.act (.read .childout d)).act .alarm } < todo t := by
        simp only [todo, W.act]; omega
      refine ⟨_, rfl, ⟨by simpa [W.act] using c1, c2, c3, ?_⟩, Nat.le_of_lt hlt, fun _ => hlt⟩
      intro hh; simp [W.act, ho] at hh
  | err e => exact absurd he (hev.2.1 e)
  | eintr => exact goes_refl ⟨c1, c2, c3, c4⟩ (by simp)
  | eagain => exact goes_refl ⟨c1, c2, c3, c4⟩ (by simp)

theorem goes_fromPeer {t : St} (hc : Calm t) (k : t.tochild.Ok size) (ho : t.w.op .peerin = true) (hl : t.tochild.len < size)
    (ev : Ev) (hev : Harmless ev) : Goes t (doFromPeer t ev) (∃ m, ev.rd = .data m) := by
  obtain ⟨c1, c2, c3, c4⟩ := hc
  unfold doFromPeer
  cases he : ev.rd with
  | data m =>
    rcases Tcp.readInto_productive size t.tochild t.net m k hl with ⟨h0, e⟩ | ⟨d, b', src', e, hlt⟩
    · rw [e]
      have hlt : todo { t with w := (t.w.act (.ended .peerin)).close .peerin } < todo t := by
        simp [W.close, W.act, ho, todo]
      refine ⟨_, rfl, ⟨?_, c2, fun _ => h0, ?_⟩, Nat.le_of_lt hlt, fun _ => hlt⟩
      · simpa [W.close, W.act, ho] using c1
      · simpa [W.close, W.act, ho] using c4
    · rw [e]
      have hlt : todo { t with tochild := b', net := src', w := (t.w.act (.read .peerin d)).act .alarm } < todo t := by
        simp only [todo, W.act]; omega
      refine ⟨_, rfl, ⟨by simpa [W.act] using c1, c2, ?_, c4⟩, Nat.le_of_lt hlt, fun _ => hlt⟩
      intro hh; simp [W.act, ho] at hh
  | err e => exact absurd he (hev.2.1 e)
  | eintr => exact goes_refl ⟨c1, c2, c3, c4⟩ (by simp)
  | eagain => exact goes_refl ⟨c1, c2, c3, c4⟩ (by simp)

theorem goes_fromCtl {t : St} (hc : Calm t) (ho : t.w.op .ctl = true) (ev : Ev) (hev : Harmless ev) :
    Goes t (.ok (doFromCtl t ev)) (∃ m, ev.rd = .data m) := by
  obtain ⟨c1, c2, c3, c4⟩ := hc
  unfold doFromCtl
  cases he : ev.rd with
  | data m =>
    have hg : got [] 2 m = [] := by simp [got]
    simp only [c2, hg]
    have hlt : todo { t with w := (t.w.act (.ended .ctl)).close .ctl } < todo t := by
      simp [W.close, W.act, ho, todo]
    refine ⟨_, rfl, ⟨?_, rfl, ?_, ?_⟩, ?_, fun _ => ?_⟩
    · simpa [W.close, W.act, ho] using c1
    · simpa [W.close, W.act, ho] using c3
    · simpa [W.close, W.act, ho] using c4
    · exact Nat.le_of_lt hlt
    · exact hlt
  | err e => exact absurd he (hev.2.1 e)
  | eintr => exact goes_refl ⟨c1, c2, c3, c4⟩ (by simp)
  | eagain => exact goes_refl ⟨c1, c2, c3, c4⟩ (by simp)

theorem Goes.mono {t : St} {r : Out (St × Option Why)} {p q : Prop} (h : Goes t r p) (hq : q → p) : Goes t r q := by
  obtain ⟨s', e, hc, h1, h2⟩ := h
  exact ⟨s', e, hc, h1, fun hh => h2 (hq hh)⟩

theorem body_goes {N C : Bytes} {s : St} (h : Run N C (propagate s)) (hc : Calm (propagate s))
    (hf : finished (propagate s) = false) (ev : Ev) (hev : Harmless ev) :
    Goes (propagate s) (body (propagate s) ev) (ev.productive = true) := by
  have hw := watches_some h hc hf
  generalize propagate s = t at *
  have hpw : ev.productive = true → ∃ m, ev.wr = .data m := fun hh => ((productive_iff ev).mp hh).2.2
  have hpr : ev.productive = true → ∃ m, ev.rd = .data m := fun hh => ((productive_iff ev).mp hh).2.1
  have hall : ev.productive = true → (after (watches t) ev.poll).topeer = true ∨ (after (watches t) ev.poll).fromchild = true ∨
      (after (watches t) ev.poll).tochild = true ∨ (after (watches t) ev.poll).frompeer = true := by
    intro hh
    obtain ⟨⟨c, p, he⟩, _⟩ := (productive_iff ev).mp hh
    rw [he]
    simpa [after] using hw
  obtain ⟨a1, a2, a3, a4, a5⟩ := after_le (watches t) ev.poll
  have a6 : (after (watches t) ev.poll).selfpipe = false := by
    cases he : ev.poll with
    | none => rfl
    | some r => simp [after, hev.1 r he]
  unfold body
  simp only
  generalize after (watches t) ev.poll = w at *
  simp only [watches, Bool.and_eq_true, decide_eq_true_eq] at a1 a2 a3 a4 a5
  by_cases d1 : w.topeer = true
  · rw [if_pos d1]; exact (goes_toPeer hc h.k2 (a1 d1).2 ev hev).mono hpw
  rw [if_neg d1]
  by_cases d2 : w.fromchild = true
  · rw [if_pos d2]; exact (goes_fromChild hc h.k2 (a4 d2).1 (a4 d2).2 ev hev).mono hpr
  rw [if_neg d2]
  by_cases d3 : w.fromctl = true
  · rw [if_pos d3]; exact (goes_fromCtl hc (a5 d3).1.2 ev hev).mono hpr
  rw [if_neg d3]
  by_cases d4 : w.tochild = true
  · rw [if_pos d4]; exact (goes_toChild hc h.k1 (a2 d4).1 ev hev).mono hpw
  rw [if_neg d4]
  by_cases d5 : w.frompeer = true
  · rw [if_pos d5]; exact (goes_fromPeer hc h.k1 (a3 d5).1.1 (a3 d5).1.2 ev hev).mono hpr
  rw [if_neg d5, a6]
  exact goes_refl hc (fun hh => by simpa [d1, d2, d4, d5] using hall hh)

theorem loop_productive {N C : Bytes} (evs : List Ev) (hev : ∀ ev ∈ evs, Harmless ev) :
    ∀ {s : St}, Run N C s → Calm s → todo s ≤ evs.countP Ev.productive →
      ∃ s', loop s evs = .ok (s', some .finished) ∧ Calm s' := by
  induction evs with
  | nil =>
    intro s h hr ht
    have hp := run_propagate h
    have hr := calm_propagate hr
    have := todo_propagate s
    simp only [loop]
    by_cases hf : finished (propagate s) = true
    · rw [if_pos hf]; exact ⟨_, rfl, hr⟩
    · exfalso
      obtain ⟨s', _, _, _, h1⟩ := body_goes hp hr (by simpa using hf)
        ⟨some ⟨true, true, true, true, false, false⟩, .data 0, .data 0, [], .again⟩
        ⟨by rintro r ⟨⟩; rfl, by simp, by simp, by simp⟩
      have h1 := h1 rfl
      simp at ht; omega
  | cons ev evs ih =>
    intro s h hr ht
    have hp := run_propagate h
    have hr := calm_propagate hr
    have := todo_propagate s
    simp only [loop]
    by_cases hf : finished (propagate s) = true
    · rw [if_pos hf]; exact ⟨_, rfl, hr⟩
    · rw [if_neg hf]
      obtain ⟨s', e, h2, h0, h1⟩ := body_goes hp hr (by simpa using hf) ev (hev ev (by simp))
      obtain ⟨s2, why, e2, hpost⟩ := step_body hp ev
      rw [e] at e2
      cases e2
      rw [e]
      refine ih (fun x hx => hev x (by simp [hx])) (hpost.1 rfl) h2 ?_
      show todo s' ≤ _
      rw [List.countP_cons] at ht
      by_cases hpr : ev.productive = true
      · have := h1 hpr
        rw [if_pos hpr] at ht
        omega
      · rw [if_neg hpr] at ht
        omega

/-- C88: if the child makes no request, no signal comes and no call fails for good, then
the cleartext phase ends by itself once the kernel has answered often enough that the
watched descriptors are ready and the calls succeed, however many other answers lie in
between; both streams were delivered completely and both sides were told. -/
theorem c88_clear_complete (m1 m2 net chd : Bytes) (h1 : m1.length = 8192) (h2 : m2.length = 8192) (evs : List Ev)
    (hev : ∀ ev ∈ evs, Harmless ev) (hlen : 2 * net.length + 2 * chd.length + 3 ≤ evs.countP Ev.productive) :
    ∃ s, loop (start m1 m2 net chd []) evs = .ok (s, some .finished) ∧
      wroteOf .childin s.w.log = net ∧ wroteOf .peerout s.w.log = chd ∧
      Act.close .childin ∈ s.w.log ∧ Act.close .peerout ∈ s.w.log := by
  have hr := run_start m1 m2 net chd [] h1 h2
  obtain ⟨s, e, hc⟩ := loop_productive evs hev hr ⟨by simp [start], rfl, by simp [start], by simp [start]⟩
    (by simp [todo, start]; omega)
  obtain ⟨s', why', e', hp⟩ := loop_post evs hr
  rw [e] at e'; cases e'
  obtain ⟨_, _, p3, p4, p5, p6, ⟨d, p7, p8⟩, p9, p10, _, _, p13, p14, _⟩ := hp
  obtain ⟨q1, q2⟩ := p14 rfl
  have o := p13 rfl
  refine ⟨s, e, ?_, ?_, (p3 _).mp (o _ (by simp)), (p3 _).mp (o _ (by simp))⟩
  · rcases q2 with q | q | q
    · rw [hc.pin (o _ (by simp)), List.append_nil] at p9
      rw [p7, p8 (by simp) (by simp) (by simp), data_nil p5 q, List.append_nil] at p9
      exact p9
    · exact absurd q (hc.nosig _)
    · exact absurd q (hc.nosig _)
  · rw [hc.cout (o _ (by simp)), List.append_nil, p6, data_nil p4 q1, List.append_nil] at p10
    exact p10

/-- Every other call is interrupted. -/
example : ∃ evs : List Ev, (∀ ev ∈ evs, Harmless ev) ∧
    2 * b!"mail".length + 2 * b!"220 hi".length + 3 ≤ evs.countP Ev.productive ∧ evs.length = 46 :=
  ⟨(List.replicate 23 [⟨none, .eintr, .eagain .ok, [], .again⟩,
      (⟨some ⟨true, true, true, true, true, false⟩, .data 1, .data 0, [], .again⟩ : Ev)]).flatten, by
    intro ev h
    simp only [List.mem_flatten, List.mem_replicate] at h
    obtain ⟨l, ⟨_, rfl⟩, h⟩ := h
    simp only [List.mem_cons, List.not_mem_nil, or_false] at h
    rcases h with rfl | rfl
    · exact ⟨by simp, by simp, by simp, by simp⟩
    · exact ⟨by rintro r ⟨⟩; rfl, by simp, by simp, by simp⟩, by decide, by decide⟩

/-! ### A STARTTLS request is answered -/

/-- A schedule that fits a child which has written its output, has made the one-byte
request and waits: at each moment the network takes bytes, the control pipe is readable,
the child's output is readable exactly while some of it is left, and the calls succeed.
What the other two descriptors do is left open. -/
def Fits (s : St) : List Ev → Prop
  | [] => True
  | ev :: evs =>
    (∃ a b, ev.poll = some ⟨true, a, b, decide (s.chd ≠ []), true, false⟩) ∧
    (∃ m, ev.rd = .data m) ∧ (∃ m, ev.wr = .data m) ∧ (∃ m, ev.ackw = [.data m]) ∧
    ∀ s', body (propagate s) ev = .ok (s', none) → Fits s' evs

theorem propagate_idle {s : St} (h1 : s.w.op .peerin = true) (h2 : s.w.op .childout = true) : propagate s = s := by
  simp [propagate, h1, h2]

theorem writeall_one (m : Nat) : Rw.writeall ⟨[], [.data m]⟩ [0] = some (0, ⟨[0], []⟩) := by
  have h1 : min 1 Rw.CHUNK = 1 := rfl
  simp [Rw.writeall, Rw.writeallLoop, put, h1]

theorem loop_starttls {N C : Bytes} (evs : List Ev) : ∀ {s : St}, Run N C s → s.w.op .peerin = true →
    s.w.op .peerout = true → s.w.op .childout = true → s.w.op .ctl = true → s.csrc = [0] → Fits s evs →
    2 * s.chd.length + s.tonet.len < evs.length →
    ∃ s', loop s evs = .ok (s', some .starttls) ∧ s'.chd = [] ∧ readOf .peerin s'.w.log = readOf .peerin s.w.log := by
  induction evs with
  | nil => intro s _ _ _ _ _ _ _ h; simp at h
  | cons ev evs ih =>
    intro s h h1 h2 h3 h4 h5 hfit hlen
    obtain ⟨⟨a, b, he⟩, ⟨m1, he2⟩, ⟨m2, he3⟩, ⟨m3, he4⟩, hnext⟩ := hfit
    rw [propagate_idle h1 h3] at hnext
    have hf : finished s = false := by simp [finished, h1]
    have hsz : size = 8192 := rfl
    simp only [loop, propagate_idle h1 h3, hf, Bool.false_eq_true, if_false]
    obtain ⟨s2, why, e2, hpost⟩ := step_body h ev
    have step : ∀ s', body s ev = .ok (s', none) → s'.w.op = s.w.op → s'.csrc = s.csrc →
        readOf .peerin s'.w.log = readOf .peerin s.w.log →
        2 * s'.chd.length + s'.tonet.len < 2 * s.chd.length + s.tonet.len →
        ∃ s'', loop s' evs = .ok (s'', some .starttls) ∧ s''.chd = [] ∧
          readOf .peerin s''.w.log = readOf .peerin s.w.log := by
      intro s' e o1 o2 o3 o4
      rw [e] at e2
      cases e2
      simp only [List.length_cons] at hlen
      obtain ⟨s'', q1, q2, q3⟩ := ih (hpost.1 rfl) (by rw [o1]; exact h1) (by rw [o1]; exact h2) (by rw [o1]; exact h3)
        (by rw [o1]; exact h4) (by rw [o2]; exact h5) (hnext _ e) (by omega)
      exact ⟨s'', q1, q2, by rw [q3, o3]⟩
    have hb : body s ev = (if s.tonet.len ≠ 0 then doToPeer s ev
        else if s.chd ≠ [] then doFromChild s ev else .ok (doFromCtl s ev)) := by
      unfold body
      rw [he]
      simp only [after, watches, h2, h3, h4, Bool.and_true, Bool.true_and, Bool.and_eq_true, decide_eq_true_eq]
      by_cases c1 : s.tonet.len = 0
      · simp [c1, hsz]
      · simp [c1]
    by_cases c1 : s.tonet.len ≠ 0
    · rw [if_pos c1] at hb
      obtain ⟨d, b', e, hlt⟩ := Tcp.writeFrom_productive size s.tonet m2 h.k2 (by omega)
      simp only [doToPeer, he3, e] at hb
      rw [hb]
      refine step _ hb rfl rfl ?_ (by simp only; omega)
      simp only [W.act]; logsimp
    rw [if_neg c1] at hb
    have c1 : s.tonet.len = 0 := by omega
    by_cases c2 : s.chd ≠ []
    · rw [if_pos c2] at hb
      rcases Tcp.readInto_productive size s.tonet s.chd m1 h.k2 (by omega) with ⟨h0, e⟩ | ⟨d, b', src', e, hlt⟩
      · exact absurd h0 c2
      · simp only [doFromChild, he2, e] at hb
        rw [hb]
        refine step _ hb rfl rfl ?_ (by simp only; omega)
        simp only [W.act]; logsimp
    rw [if_neg c2] at hb
    have c2 : s.chd = [] := Classical.not_not.mp c2
    rw [hb]
    have hg : got [0] 2 m1 = [0] := List.take_of_length_le (by simp; omega)
    have hfd := writeall_one m3
    simp only [doFromCtl, he2, h5, hg, accept, he4, hfd]
    simp [W.act, W.close, h4, h1, h2]
    have ha := h.r1 h4
    by_cases c3 : s.tochild.len = 0
    · simp only [c3, ↓reduceIte, reduceCtorEq, decide_false, Bool.not_false, Bool.true_and, ha]
      exact ⟨c2, by logsimp⟩
    · simp only [c3, ↓reduceIte, reduceCtorEq, decide_false, Bool.not_false, Bool.true_and, ha]
      exact ⟨c2, by logsimp⟩

/-- C88: a request is answered. Whatever happened before (`evs0`), once the child has made
the request and waits for the answer, with the descriptors involved still open, the phase
switches to TLS within finitely many iterations. By then the network has got everything
the child wrote, the child has got the acknowledgement, and meanwhile nothing was taken from
the network that belongs to the TLS connection. -/
theorem c88_starttls (m1 m2 net chd : Bytes) (h1 : m1.length = 8192) (h2 : m2.length = 8192) (evs0 evs : List Ev)
    (s0 : St) (e0 : loop (start m1 m2 net chd [0]) evs0 = .ok (s0, none))
    (hopen : ∀ f, f = .peerin ∨ f = .peerout ∨ f = .childout ∨ f = .ctl → Act.close f ∉ s0.w.log)
    (hreq : s0.csrc = [0]) (hfit : Fits s0 evs) (hlen : 2 * s0.chd.length + s0.tonet.len < evs.length) :
    ∃ s, loop (start m1 m2 net chd [0]) (evs0 ++ evs) = .ok (s, some .starttls) ∧
      wroteOf .peerout s.w.log = chd ∧ wroteOf .ack s.w.log = [0] ∧
      readOf .peerin s.w.log = readOf .peerin s0.w.log := by
  have hr := run_start m1 m2 net chd [0] h1 h2
  obtain ⟨s0', why', e0', hp0⟩ := loop_post evs0 hr
  rw [e0] at e0'; cases e0'
  have hr0 := hp0.1 rfl
  have op : ∀ f, f = .peerin ∨ f = .peerout ∨ f = .childout ∨ f = .ctl → s0.w.op f = true := by
    intro f hf
    cases hh : s0.w.op f with
    | true => rfl
    | false => exact absurd ((hr0.cl f).mp hh) (hopen f hf)
  obtain ⟨s, e, hchd, hin⟩ := loop_starttls evs hr0 (op _ (by simp)) (op _ (by simp)) (op _ (by simp)) (op _ (by simp)) hreq hfit hlen
  rw [loop_append evs0 evs _ _ e0]
  obtain ⟨s', why', e', hp⟩ := loop_post evs hr0
  rw [e] at e'; cases e'
  obtain ⟨_, _, _, p4, _, p6, _, _, p10, p11, _⟩ := hp
  obtain ⟨_, q2, _, _, q, q5, _, q7⟩ := p11 rfl
  refine ⟨s, e, ?_, ?_, hin⟩
  · rw [hchd, List.append_nil, p6, data_nil p4 q2, List.append_nil] at p10
    exact p10
  · rw [q5]; logsimp; simp [q7]

/-- A checker for `Fits` on concrete schedules. -/
def fitsB (s : St) : List Ev → Bool
  | [] => true
  | ev :: evs =>
    (match ev.poll, ev.rd, ev.wr, ev.ackw with
      | some ⟨true, _, _, c, true, false⟩, .data _, .data _, [.data _] => c == decide (s.chd ≠ [])
      | _, _, _, _ => false) &&
    (match body (propagate s) ev with
      | .ok (s', none) => fitsB s' evs
      | _ => true)

theorem fits_of_fitsB (evs : List Ev) : ∀ s, fitsB s evs = true → Fits s evs := by
  induction evs with
  | nil => intro _ _; trivial
  | cons ev evs ih =>
    intro s h
    simp only [fitsB, Bool.and_eq_true] at h
    obtain ⟨h1, h2⟩ := h
    split at h1
    · rename_i a b c m n k e1 e2 e3 e4
      simp only [beq_iff_eq] at h1
      refine ⟨⟨_, _, by rw [e1, h1]⟩, ⟨_, e2⟩, ⟨_, e3⟩, ⟨_, e4⟩, ?_⟩
      intro s' hs
      rw [hs] at h2
      exact ih s' h2
    · cases h1

/-- The hypotheses of `c88_starttls` are met: the child greets, takes one line and asks. -/
example : (match loop (start (List.replicate 8192 0) (List.replicate 8192 0) b!"S" b!"220" [0])
      [⟨some ⟨true, true, true, false, false, false⟩, .data 0, .data 0, [], .again⟩] with
    | .ok (s0, none) => s0.csrc == [0] && s0.w.log == [.read .peerin b!"S", .alarm] && (2 * s0.chd.length + s0.tonet.len < 7) &&
        fitsB s0 [⟨some ⟨true, true, true, true, true, false⟩, .data 1, .data 0, [.data 0], .again⟩,
          ⟨some ⟨true, true, true, true, true, false⟩, .data 1, .data 0, [.data 0], .again⟩,
          ⟨some ⟨true, true, true, true, true, false⟩, .data 1, .data 0, [.data 0], .again⟩,
          ⟨some ⟨true, true, true, true, true, false⟩, .data 1, .data 0, [.data 0], .again⟩,
          ⟨some ⟨true, true, true, false, true, false⟩, .data 1, .data 0, [.data 0], .again⟩,
          ⟨some ⟨true, true, true, false, true, false⟩, .data 1, .data 0, [.data 0], .again⟩,
          ⟨some ⟨true, true, true, false, true, false⟩, .data 1, .data 0, [.data 0], .again⟩]
    | _ => false) = true := by decide +kernel

/-! ### A session without a child lingers -/

/-- No signal arrives in this iteration. -/
def Quiet (ev : Ev) : Prop := ev.sig = .again ∨ (∀ r, ev.poll = some r → r.selfpipe = false)

theorem stuck (evs : List Ev) (hq : ∀ ev ∈ evs, Quiet ev) (s : St) (h1 : s.w.op .peerin = true)
    (h2 : s.w.op .childin = false) (h3 : s.w.op .childout = false) (h4 : s.w.op .peerout = false) :
    loop s evs = .ok (s, none) := by
  have hp : propagate s = s := by simp [propagate, h1, h4]
  have hf : finished s = false := by simp [finished, h1]
  induction evs with
  | nil => simp [loop, hp, hf]
  | cons ev evs ih =>
    have hb : body s ev = .ok (s, none) := by
      rcases hq ev (by simp) with h | h
      · cases hh : ev.poll <;> simp [body, hh, after, watches, h2, h3, h4, doSelfpipe, h, selfpipeEvent]
      · cases hh : ev.poll with
        | none => simp [body, hh, after]
        | some r => simp [body, hh, after, watches, h2, h3, h4, h r hh]
    simp only [loop, hp, hf, Bool.false_eq_true, if_false, hb, Out.ok_bind]
    exact ih (fun x hx => hq x (by simp [hx]))

/-- SIGCHLD arrives, then a process the child left behind writes one byte and closes. -/
def orphan : List Ev :=
  [⟨some ⟨false, false, false, false, false, true⟩, .data 0, .data 0, [], .byte (c! 'C')⟩,
   ⟨some ⟨false, false, false, true, false, false⟩, .data 0, .data 0, [], .again⟩,
   ⟨some ⟨true, false, false, false, false, false⟩, .data 0, .data 0, [], .again⟩,
   ⟨some ⟨false, false, false, true, false, false⟩, .data 0, .data 0, [], .again⟩]

/-- C88, what the code does not do: after the child has exited and its output has ended,
the cleartext phase does not end. All three descriptors that could still be of use are
closed, but the phase keeps waiting, whatever the network does: it does not notice that the
peer is gone, and the last setting of the timer is the full inactivity timeout, not the one
second granted to finish. Only a signal ends it. -/
theorem c88_clear_lingers (m1 m2 net csrc : Bytes) (h2 : m2.length = 8192) (b : Byte) (evs : List Ev)
    (hq : ∀ ev ∈ evs, Quiet ev) :
    ∃ s, loop (start m1 m2 net [b] csrc) (orphan ++ evs) = .ok (s, none) ∧
      wroteOf .peerout s.w.log = [b] ∧ readOf .peerin s.w.log = [] ∧
      Act.close .childin ∈ s.w.log ∧ Act.close .childout ∈ s.w.log ∧ Act.close .peerout ∈ s.w.log ∧
      Act.close .peerin ∉ s.w.log ∧
      (∃ pre post, s.w.log = pre ++ .alarm false :: post ∧ ∀ x ∈ post, ∀ t, x ≠ Act.alarm t) := by
  obtain ⟨m, hm⟩ : ∃ m : Bytes, loop (start m1 m2 net [b] csrc) orphan = .ok
      (⟨⟨fun g => if g = .peerout then false else if g = .childout then false else if g = .childin then false else true,
        [.sig (c! 'C'), .close .childin, .alarm true, .read .childout [b], .alarm, .write .peerout [b], .ended .childout,
          .close .childout, .close .peerout]⟩, ⟨m1, 0⟩, ⟨m, 0⟩, net, [], csrc⟩, none) := by
    cases m2 with
    | nil => simp at h2
    | cons x mem =>
      refine ⟨b :: mem, ?_⟩
      simp at h2
      simp [start, orphan, loop, propagate, finished, body, after, watches, size, doFromChild, readInto, got, copyN, doToPeer,
        writeFrom, put, consume, memmove, W.act, W.close, Bind.bind, Out.bind, Pure.pure, wr, doSelfpipe, selfpipeEvent]
  rw [loop_append orphan evs _ _ hm, stuck evs hq _ rfl rfl rfl rfl]
  refine ⟨_, rfl, rfl, rfl, by simp, by simp, by simp, by simp, ?_⟩
  exact ⟨[.sig (c! 'C'), .close .childin, .alarm true, .read .childout [b]], _, rfl, by simp⟩

example : Quiet ⟨some ⟨true, true, true, true, true, false⟩, .data 0, .data 0, [], .failed⟩ := .inr (by rintro r ⟨⟩; rfl)

end Relay.Clear

namespace Relay.Tls
open Io Relay

/-! ### The encrypted phase ends -/

variable {E : Type} {g : Engine E}

/-- The engine's own work is finite: `μ` counts the bytes it will yet offer, as plaintext
or as records, if nothing more comes in. Handing bytes over uses them up; each byte that
comes in adds at most `K`; asking it to close adds nothing (the goodbye is counted from the
start). -/
structure Engine.Finite (g : Engine E) (μ : E → Nat) (K : Nat) : Prop where
  recvapp : ∀ e n, 0 < n → n ≤ (g.recvapp e).length → μ (g.recvappAck e n) < μ e
  sendrec : ∀ e n, 0 < n → n ≤ (g.sendrec e).length → μ (g.sendrecAck e n) < μ e
  recvrec : ∀ e m n, μ (g.recvrecAck e m n) ≤ μ e + K * n
  sendapp : ∀ e m n, μ (g.flush (g.sendappAck e m n)) ≤ μ e + K * n
  close : ∀ e, μ (g.flush (g.close e)) ≤ μ e

/-- Every watched descriptor is ready and the calls succeed. -/
def Ev.productive (ev : Ev) : Bool :=
  match ev.poll, ev.rd, ev.wr with
  | some ⟨true, true, true, true, _⟩, .data _, .data _ => true
  | _, _, _ => false

theorem productive_iff (ev : Ev) : ev.productive = true ↔
    (∃ p, ev.poll = some ⟨true, true, true, true, p⟩) ∧ (∃ m, ev.rd = .data m) ∧ ∃ m, ev.wr = .data m := by
  constructor
  · intro h
    unfold Ev.productive at h
    split at h
    · rename_i e1 e2 e3
      exact ⟨⟨_, e1⟩, ⟨_, e2⟩, ⟨_, e3⟩⟩
    · cases h
  · rintro ⟨⟨p, e1⟩, ⟨_, e2⟩, ⟨_, e3⟩⟩
    simp only [Ev.productive, e1, e2, e3]

/-- Work left. -/
def todo (μ : E → Nat) (K : Nat) (s : St E) : Nat :=
  μ s.e + (K + 1) * s.net.length + (K + 1) * s.chd.length + (s.w.op .peerin).toNat + (s.w.op .childout).toNat

/-- An iteration ends the phase, or leaves no more work than before, and less if `now`. -/
def Goes (μ : E → Nat) (K : Nat) (t : St E) (r : Out (St E × Option Why)) (now : Prop) : Prop :=
  ∃ s' why, r = .ok (s', why) ∧ (why = none → todo μ K s' ≤ todo μ K t ∧ (now → todo μ K s' < todo μ K t))

theorem op_close_le (w : W) (f h : Fd) : ((w.close f).op h).toNat ≤ (w.op h).toNat := by
  unfold W.close
  split
  · simp only
    split
    · simp
    · exact Nat.le_refl _
  · exact Nat.le_refl _

theorem tryWrite_data {buf d : Bytes} {ev : WrEv} (h : tryWrite buf ev = .put d) : 0 < d.length ∧ d.length ≤ buf.length := by
  cases ev with
  | data m =>
    simp only [tryWrite] at h
    split at h
    · cases h
    · cases h
      rename_i h0
      exact ⟨by omega, by simp [put]; omega⟩
  | zero => cases h
  | err e => cases h
  | eintr p => cases h
  | eagain p => cases h

theorem tryWrite_notAgain {buf : Bytes} {m : Nat} : tryWrite buf (.data m) ≠ .again := by
  simp only [tryWrite]; split <;> simp

theorem tryRead_data {len : Nat} {src d : Bytes} {ev : RdEv} (h : tryRead len src ev = .got d) :
    0 < d.length ∧ d.length ≤ src.length ∧ d.length ≤ len := by
  cases ev with
  | data m =>
    simp only [tryRead] at h
    split at h
    · cases h
    · cases h
      rename_i h0
      refine ⟨by omega, by simp [got]; omega, ?_⟩
      simp only [got, cap, List.length_take]; omega
  | err e => cases h
  | eintr => cases h
  | eagain => cases h

theorem tryRead_notAgain {len : Nat} {src : Bytes} {m : Nat} : tryRead len src (.data m) ≠ .again := by
  simp only [tryRead]; split <;> simp

theorem goes_toChild (μ : E → Nat) (K : Nat) (hF : g.Finite μ K) (t : St E) (ev : Ev) :
    Goes μ K t (.ok (doToChild g t ev)) (∃ m, ev.wr = .data m) := by
  unfold doToChild
  cases hw : tryWrite (g.recvapp t.e) ev.wr with
  | again => exact ⟨_, _, rfl, fun _ => ⟨Nat.le_refl _, fun ⟨m, hm⟩ => absurd (hm ▸ hw) tryWrite_notAgain⟩⟩
  | failed => exact ⟨_, _, rfl, fun h => by cases h⟩
  | put d =>
    obtain ⟨h1, h2⟩ := tryWrite_data hw
    have := hF.recvapp t.e d.length h1 h2
    exact ⟨_, _, rfl, fun _ => ⟨by simp only [todo, W.act]; omega, fun _ => by simp only [todo, W.act]; omega⟩⟩

theorem goes_toPeer (μ : E → Nat) (K : Nat) (hF : g.Finite μ K) (t : St E) (ev : Ev) :
    Goes μ K t (.ok (doToPeer g t ev)) (∃ m, ev.wr = .data m) := by
  unfold doToPeer
  cases hw : tryWrite (g.sendrec t.e) ev.wr with
  | again => exact ⟨_, _, rfl, fun _ => ⟨Nat.le_refl _, fun ⟨m, hm⟩ => absurd (hm ▸ hw) tryWrite_notAgain⟩⟩
  | failed => exact ⟨_, _, rfl, fun h => by cases h⟩
  | put d =>
    obtain ⟨h1, h2⟩ := tryWrite_data hw
    have := hF.sendrec t.e d.length h1 h2
    exact ⟨_, _, rfl, fun _ => ⟨by simp only [todo, W.act]; omega, fun _ => by simp only [todo, W.act]; omega⟩⟩

theorem work_le (K n l : Nat) (h : n ≤ l) (h0 : 0 < n) : K * n + (K + 1) * (l - n) < (K + 1) * l := by
  have : (K + 1) * l = (K + 1) * n + (K + 1) * (l - n) := by rw [← Nat.mul_add]; congr 1; omega
  rw [this]
  have : (K + 1) * n = K * n + n := by rw [Nat.add_mul, Nat.one_mul]
  omega

theorem goes_fromPeer (μ : E → Nat) (K : Nat) (hF : g.Finite μ K) (t : St E) (ev : Ev) (ho : t.w.op .peerin = true) :
    Goes μ K t (doFromPeer g t ev) (∃ m, ev.rd = .data m) := by
  unfold doFromPeer
  cases hw : tryRead (g.recvrec t.e).length t.net ev.rd with
  | again => exact ⟨_, _, rfl, fun _ => ⟨Nat.le_refl _, fun ⟨m, hm⟩ => absurd (hm ▸ hw) tryRead_notAgain⟩⟩
  | ended =>
    refine ⟨_, _, rfl, fun _ => ⟨?_, fun _ => ?_⟩⟩ <;> simp [todo, W.act, W.close, ho]
  | got d =>
    obtain ⟨h1, h2, h3⟩ := tryRead_data hw
    dsimp only
    rw [copyN_full (g.recvrec t.e) d 0 d.length (Nat.le_refl _) (by omega)]
    generalize List.take 0 (g.recvrec t.e) ++ (d.take d.length ++ (g.recvrec t.e).drop (0 + d.length)) = mem
    simp only [Out.ok_bind]
    have q1 := hF.recvrec t.e mem d.length
    have q2 := work_le K d.length t.net.length h2 h1
    refine ⟨_, _, rfl, fun _ => ⟨?_, fun _ => ?_⟩⟩ <;> simp only [todo, W.act, List.length_drop] <;> omega

theorem goes_fromChild (μ : E → Nat) (K : Nat) (hF : g.Finite μ K) (t : St E) (ev : Ev) (ho : t.w.op .childout = true) :
    Goes μ K t (doFromChild g t ev) (∃ m, ev.rd = .data m) := by
  unfold doFromChild
  cases hw : tryRead (g.sendapp t.e).length t.chd ev.rd with
  | again => exact ⟨_, _, rfl, fun _ => ⟨Nat.le_refl _, fun ⟨m, hm⟩ => absurd (hm ▸ hw) tryRead_notAgain⟩⟩
  | ended =>
    refine ⟨_, _, rfl, fun _ => ⟨?_, fun _ => ?_⟩⟩ <;> simp [todo, W.act, W.close, ho]
  | got d =>
    obtain ⟨h1, h2, h3⟩ := tryRead_data hw
    dsimp only
    rw [copyN_full (g.sendapp t.e) d 0 d.length (Nat.le_refl _) (by omega)]
    generalize List.take 0 (g.sendapp t.e) ++ (d.take d.length ++ (g.sendapp t.e).drop (0 + d.length)) = mem
    simp only [Out.ok_bind]
    have q1 := hF.sendapp t.e mem d.length
    have q2 := work_le K d.length t.chd.length h2 h1
    refine ⟨_, _, rfl, fun _ => ⟨?_, fun _ => ?_⟩⟩ <;> simp only [todo, W.act, List.length_drop] <;> omega

theorem goes_selfpipe (μ : E → Nat) (K : Nat) (t : St E) (ev : Ev) :
    Goes μ K t (.ok (doSelfpipe t ev)) False := by
  have key : ∀ x, ((selfpipeEvent t.w ev.sig).1.op x).toNat ≤ (t.w.op x).toNat := by
    intro x
    unfold selfpipeEvent
    split
    · exact Nat.le_refl _
    · exact Nat.le_refl _
    · simp only
      split
      · exact op_close_le _ _ _
      · split
        · exact Nat.le_trans (op_close_le _ _ _) (Nat.le_trans (op_close_le _ _ _) (Nat.le_trans (op_close_le _ _ _) (op_close_le _ _ _)))
        · exact Nat.le_refl _
  have h1 := key .peerin
  have h2 := key .childout
  unfold doSelfpipe
  generalize selfpipeEvent t.w ev.sig = r at *
  obtain ⟨w, stop⟩ := r
  refine ⟨_, _, rfl, fun _ => ⟨?_, False.elim⟩⟩
  simp only [todo] at *
  omega

theorem Goes.mono {μ : E → Nat} {K : Nat} {t u : St E} {r : Out (St E × Option Why)} {p q : Prop} (h : Goes μ K t r p)
    (hu : todo μ K t ≤ todo μ K u) (hq : q → p) : Goes μ K u r q := by
  obtain ⟨s', why, e, h⟩ := h
  refine ⟨s', why, e, fun hw => ?_⟩
  obtain ⟨h1, h2⟩ := h hw
  refine ⟨by omega, fun hh => ?_⟩
  have := h2 (hq hh)
  omega

theorem closes_le (st : Flags) (pend : Bool) (w : W) (f : Fd) : ((closes st pend w).op f).toNat ≤ (w.op f).toNat := by
  have step : ∀ (w : W) (c : Prop) [Decidable c] (h : Fd), ((if c then w.close h else w).op f).toNat ≤ (w.op f).toNat := by
    intro w c _ h
    split
    · exact op_close_le _ _ _
    · exact Nat.le_refl _
  unfold closes
  exact Nat.le_trans (step _ _ _) (Nat.le_trans (step _ _ _) (step _ _ _))

theorem top_le {μ : E → Nat} {K : Nat} (hF : g.Finite μ K) (s : St E) (pend : Bool) :
    todo μ K (top g s pend).2 ≤ todo μ K s := by
  have h1 := closes_le (g.state s.e) pend (s.w.act (.eng (.state (g.state s.e)))) .peerin
  have h2 := closes_le (g.state s.e) pend (s.w.act (.eng (.state (g.state s.e)))) .childout
  have h3 := hF.close s.e
  have e : top g s pend = shutdown g (g.state s.e)
      { s with w := closes (g.state s.e) pend (s.w.act (.eng (.state (g.state s.e)))) } := rfl
  rw [e]
  generalize closes (g.state s.e) pend (s.w.act (.eng (.state (g.state s.e)))) = w at *
  unfold shutdown look
  split
  · simp only [todo, W.act] at *
    omega
  · simp only [todo, W.act] at *
    omega

theorem rest_goes {μ : E → Nat} {K : Nat} (hF : g.Finite μ K) (hg : g.Sized) (fromcert : Bool) (st : Flags) (s : St E)
    (ev : Ev) : Goes μ K s (rest g fromcert st s ev) (ev.productive = true) := by
  obtain ⟨s1, why, e, hc⟩ := report_cases (g := g) fromcert st s ev.usr (hg s.e)
  have hsame : why = none → todo μ K s1 = todo μ K s ∧ s1.w.op = s.w.op := by
    intro hw
    rcases hc with ⟨rfl, _⟩ | ⟨_, _, ⟨_, rfl, _⟩ | ⟨_, ⟨rfl, _⟩ | ⟨_, _, d, ⟨rfl, _⟩ | ⟨rfl, _⟩⟩⟩⟩ <;> exact ⟨rfl, rfl⟩
  unfold rest
  simp only [e, Out.ok_bind]
  cases why with
  | some y => exact ⟨_, _, rfl, fun h => by cases h⟩
  | none =>
    obtain ⟨ht, ho⟩ := hsame rfl
    simp only
    split
    · exact ⟨_, _, rfl, fun h => by cases h⟩
    split
    · exact ⟨_, _, rfl, fun h => by cases h⟩
    split
    · exact ⟨_, _, rfl, fun h => by cases h⟩
    rename_i hn
    simp only [Bool.and_eq_true, Bool.not_eq_true', not_and, Bool.not_eq_false] at hn
    generalize hu : ({ s1 with w := s1.w.act (.eng (.wait (watched (can st s.w)))) } : St E) = u
    have hut : todo μ K u = todo μ K s := by rw [← hu, ← ht]; rfl
    have huo : u.w.op = s.w.op := by rw [← hu, ← ho]; rfl
    have hpw : ev.productive = true → ∃ m, ev.wr = .data m := fun hh => ((productive_iff ev).mp hh).2.2
    have hpr : ev.productive = true → ∃ m, ev.rd = .data m := fun hh => ((productive_iff ev).mp hh).2.1
    have hall : ev.productive = true → (after (can st s.w) ev.poll).tochild = true ∨ (after (can st s.w) ev.poll).topeer = true ∨
        (after (can st s.w) ev.poll).frompeer = true ∨ (after (can st s.w) ev.poll).fromchild = true := by
      intro hh
      obtain ⟨⟨p, he⟩, _⟩ := (productive_iff ev).mp hh
      rw [he]
      simp only [after, Bool.and_true]
      cases a1 : (can st s.w).frompeer <;> cases a2 : (can st s.w).topeer <;> cases a3 : (can st s.w).fromchild <;>
        simp [a1, a2, a3] at hn ⊢
      exact hn
    have hin : (after (can st s.w) ev.poll).frompeer = true → u.w.op .peerin = true := by
      intro hh
      rw [huo]
      cases hp : ev.poll <;> simp_all [after, can]
    have hout : (after (can st s.w) ev.poll).fromchild = true → u.w.op .childout = true := by
      intro hh
      rw [huo]
      cases hp : ev.poll <;> simp_all [after, can]
    generalize after (can st s.w) ev.poll = c at *
    unfold serve
    by_cases d1 : c.tochild = true
    · rw [if_pos d1]; exact (goes_toChild μ K hF u ev).mono (by omega) hpw
    rw [if_neg d1]
    by_cases d2 : c.topeer = true
    · rw [if_pos d2]; exact (goes_toPeer μ K hF u ev).mono (by omega) hpw
    rw [if_neg d2]
    by_cases d3 : c.frompeer = true
    · rw [if_pos d3]; exact (goes_fromPeer μ K hF u ev (hin d3)).mono (by omega) hpr
    rw [if_neg d3]
    by_cases d4 : c.fromchild = true
    · rw [if_pos d4]; exact (goes_fromChild μ K hF u ev (hout d4)).mono (by omega) hpr
    rw [if_neg d4]
    have hnp : ev.productive = true → False := fun hh => by simpa [d1, d2, d3, d4] using hall hh
    split
    · exact (goes_selfpipe μ K u ev).mono (by omega) hnp
    · exact ⟨_, _, rfl, fun _ => ⟨by omega, fun hh => (hnp hh).elim⟩⟩

theorem loop_ends {μ : E → Nat} {K : Nat} (hF : g.Finite μ K) (hg : g.Sized) (fromcert : Bool) (evs : List Ev) :
    ∀ s : St E, todo μ K s < evs.countP Ev.productive → ∃ s' y, loop g fromcert s evs = .ok (s', some y) := by
  induction evs with
  | nil => intro s h; simp at h
  | cons ev evs ih =>
    intro s h
    have ht := top_le (g := g) hF s ev.pend
    obtain ⟨s', why, e, hgo⟩ := rest_goes (g := g) hF hg fromcert (top g s ev.pend).1 (top g s ev.pend).2 ev
    simp only [loop]
    rw [e]
    cases why with
    | some y => exact ⟨_, _, rfl⟩
    | none =>
      obtain ⟨h1, h2⟩ := hgo rfl
      refine ih s' ?_
      rw [List.countP_cons] at h
      by_cases hp : ev.productive = true
      · have := h2 hp
        rw [if_pos hp] at h
        omega
      · rw [if_neg hp] at h
        omega

/-- C88: the encrypted phase ends. For every TLS engine whose own work is finite, all
streams and all schedules: once the kernel has answered often enough that the watched
descriptors are ready and the calls succeed, however many other answers of any kind lie in
between, the phase is over. (`c46_end` says with which outcomes.) Missing: that everything
was delivered by then, see `c88_tls_halfclose`. -/
theorem c88_tls_ends_partial (hg : g.Sized) (μ : E → Nat) (K : Nat) (hF : g.Finite μ K) (op0 : Fd → Bool) (fromcert rep0 : Bool)
    (e : E) (N C : Bytes) (evs : List Ev)
    (hlen : μ e + (K + 1) * N.length + (K + 1) * C.length + 2 < evs.countP Ev.productive) :
    ∃ s y, loop g fromcert (start op0 e rep0 N C) evs = .ok (s, some y) := by
  refine loop_ends hF hg fromcert evs _ ?_
  have b1 : (op0 .peerin).toNat ≤ 1 := by cases op0 .peerin <;> decide
  have b2 : (op0 .childout).toNat ≤ 1 := by cases op0 .childout <;> decide
  simp only [todo, start]
  omega

/-- The toy engine's work is finite: what is left of the plaintext and of the records. -/
theorem toy_finite (late : Bool) : (toy late).Finite (fun e => (e.hist.drop e.pos).length + e.out.length) 1 := by
  constructor
  · intro e n h1 h2
    have : n ≤ (e.hist.drop e.pos).length := h2
    simp only [toy, List.length_drop] at *
    omega
  · intro e n h1 h2
    have : n ≤ e.out.length := h2
    simp only [toy, List.length_drop] at *
    omega
  · intro e m n
    simp only [toy, List.length_drop, List.length_append, List.length_take]
    omega
  · intro e m n
    simp only [toy, List.length_drop, List.length_append, List.length_take]
    omega
  · intro e
    exact Nat.le_refl _

example : ∃ evs : List Ev, 0 + (1 + 1) * b!"hi!".length + (1 + 1) * b!"ok".length + 2 < evs.countP Ev.productive :=
  ⟨List.replicate 13 (demoEv ⟨true, true, true, true, false⟩ 0), by decide⟩

/-! ### A child that closes only its output -/

/-- The child's input is closed and `X` is all that was written to it. -/
def Deaf (X : Bytes) (w : W) : Prop := w.op .childin = false ∧ wroteOf .childin w.log = X

theorem Deaf.act {X : Bytes} {w : W} (h : Deaf X w) (a : Act Fd) (ha : a.wroteOn .childin = []) : Deaf X (w.act a) := by
  refine ⟨h.1, ?_⟩
  show wroteOf .childin (w.log ++ [a]) = X
  rw [wroteOf_append, wroteOf_one, ha, List.append_nil, h.2]

theorem wrote_close (w : W) (f h : Fd) : wroteOf h (w.close f).log = wroteOf h w.log := by
  unfold W.close
  split
  · show wroteOf h (w.log ++ [_]) = _
    rw [wroteOf_append, wroteOf_one]
    exact List.append_nil _
  · rfl

theorem Deaf.close {X : Bytes} {w : W} (h : Deaf X w) (f : Fd) : Deaf X (w.close f) :=
  ⟨close_op_mono w f _ h.1, (wrote_close w f _).trans h.2⟩

theorem Deaf.ite {X : Bytes} {w : W} (h : Deaf X w) (c : Prop) [Decidable c] (f : Fd) : Deaf X (if c then w.close f else w) := by
  split
  · exact h.close f
  · exact h

theorem Deaf.closes {X : Bytes} {w : W} (h : Deaf X w) (st : Flags) (pend : Bool) : Deaf X (closes st pend w) :=
  ((h.ite _ _).ite _ _).ite _ _

theorem Deaf.top {X : Bytes} {s : St E} (h : Deaf X s.w) (pend : Bool) : Deaf X (top g s pend).2.w := by
  have e : Tls.top g s pend = shutdown g (g.state s.e)
      { s with w := Tls.closes (g.state s.e) pend (s.w.act (.eng (.state (g.state s.e)))) } := rfl
  rw [e]
  have h' := (h.act (.eng (.state (g.state s.e))) rfl).closes (g.state s.e) pend
  generalize Tls.closes (g.state s.e) pend (s.w.act (.eng (.state (g.state s.e)))) = w at *
  unfold shutdown look
  split
  · exact ((h'.act _ rfl).act _ rfl).act _ rfl
  · exact h'

theorem Deaf.selfpipe {X : Bytes} {w : W} (h : Deaf X w) (sig : SigEv) : Deaf X (selfpipeEvent w sig).1 := by
  unfold selfpipeEvent
  split
  · exact h
  · exact h
  · rename_i c
    simp only
    have h' := h.act (.sig c) rfl
    split
    · exact (h'.close _).act _ rfl
    · split
      · exact ((((h'.close _).close _).close _).close _).act _ rfl
      · exact h'

theorem Deaf.rest {X : Bytes} {s : St E} (h : Deaf X s.w) (hg : g.Sized) (fromcert : Bool) (st : Flags) (ev : Ev) :
    ∃ s' why, rest g fromcert st s ev = .ok (s', why) ∧ Deaf X s'.w := by
  obtain ⟨s1, why, e, hc⟩ := report_cases (g := g) fromcert st s ev.usr (hg s.e)
  have h1 : Deaf X s1.w := by
    rcases hc with ⟨rfl, _⟩ | ⟨_, _, ⟨_, rfl, _⟩ | ⟨_, ⟨rfl, _⟩ | ⟨_, _, d, ⟨rfl, _⟩ | ⟨rfl, _⟩⟩⟩⟩
    · exact h
    · exact h.act _ rfl
    · exact h
    · exact h.act _ rfl
    · exact (h.act _ rfl).act _ rfl
  unfold Tls.rest
  simp only [e, Out.ok_bind]
  cases why with
  | some y => exact ⟨_, _, rfl, h1⟩
  | none =>
    simp only
    split
    · exact ⟨_, _, rfl, h1⟩
    split
    · exact ⟨_, _, rfl, h1⟩
    split
    · exact ⟨_, _, rfl, h1⟩
    have hu : Deaf X (({ s1 with w := s1.w.act (.eng (.wait (watched (can st s.w)))) } : St E)).w := h1.act _ rfl
    generalize ({ s1 with w := s1.w.act (.eng (.wait (watched (can st s.w)))) } : St E) = u at *
    have hno : (after (can st s.w) ev.poll).tochild = false := by
      cases hp : ev.poll <;> simp [after, can, h.1]
    generalize after (can st s.w) ev.poll = c at *
    unfold serve
    rw [hno, if_neg (by decide)]
    split
    · unfold doToPeer
      split
      · exact ⟨_, _, rfl, hu⟩
      · exact ⟨_, _, rfl, (hu.act _ rfl).close _⟩
      · exact ⟨_, _, rfl, (hu.act _ rfl).act _ rfl⟩
    split
    · unfold doFromPeer
      cases hw : tryRead (g.recvrec u.e).length u.net ev.rd with
      | again => exact ⟨_, _, rfl, hu⟩
      | ended => exact ⟨_, _, rfl, (hu.act _ rfl).close _⟩
      | got d =>
        obtain ⟨_, _, h3⟩ := tryRead_data hw
        dsimp only
        rw [copyN_full (g.recvrec u.e) d 0 d.length (Nat.le_refl _) (by omega)]
        exact ⟨_, _, rfl, ((hu.act _ rfl).act _ rfl).act _ rfl⟩
    split
    · unfold doFromChild
      cases hw : tryRead (g.sendapp u.e).length u.chd ev.rd with
      | again => exact ⟨_, _, rfl, hu⟩
      | ended => exact ⟨_, _, rfl, (hu.act _ rfl).close _⟩
      | got d =>
        obtain ⟨_, _, h3⟩ := tryRead_data hw
        dsimp only
        rw [copyN_full (g.sendapp u.e) d 0 d.length (Nat.le_refl _) (by omega)]
        exact ⟨_, _, rfl, (((hu.act _ rfl).act _ rfl).act _ rfl).act _ rfl⟩
    split
    · exact ⟨_, _, rfl, hu.selfpipe _⟩
    · exact ⟨_, _, rfl, hu⟩

theorem Deaf.loop {X : Bytes} (hg : g.Sized) (fromcert : Bool) (evs : List Ev) : ∀ s : St E, Deaf X s.w →
    ∃ s' why, loop g fromcert s evs = .ok (s', why) ∧ Deaf X s'.w := by
  induction evs with
  | nil => intro s h; exact ⟨_, _, rfl, h⟩
  | cons ev evs ih =>
    intro s h
    obtain ⟨s', why, e, h'⟩ := (h.top (g := g) ev.pend).rest hg fromcert (Tls.top g s ev.pend).1 ev
    simp only [Tls.loop]
    rw [e]
    cases why with
    | some y => exact ⟨_, _, rfl, h'⟩
    | none => exact ih s' h'

/-- C88, violation: a child program that closes its output, and goes on reading, loses its
input. For every engine that has completed the handshake and holds nothing for the child,
and all streams `N` that the network still has to deliver: if no network input is waiting
at the moment the loop sees the end of the child's output, then nothing of it reaches the
child, whatever happens later. -/
theorem c88_tls_halfclose (hg : g.Sized) (fromcert : Bool) (e : E) (N : Bytes) (usr : List WrEv) (m : Nat) (wr : WrEv)
    (sig : SigEv) (p : Bool) (ev : Ev) (hev : ev.pend = false) (evs : List Ev) (h1 : (g.state e).recvapp = false)
    (h2 : (g.state e).sendapp = true) (h3 : (g.state e).closed = false) :
    ∃ s why, loop g fromcert (start (fun _ => true) e true N [])
        (⟨p, usr, some ⟨false, false, false, true, false⟩, .data m, wr, sig⟩ :: ev :: evs) = .ok (s, why) ∧
      wroteOf .childin s.w.log = [] := by
  have ht : top g (start (fun _ => true) e true N []) p =
      (g.state e, { start (fun _ => true) e true N [] with w := ⟨fun _ => true, [.eng (.state (g.state e))]⟩ }) := by
    simp [top, look, closes, shutdown, start, W.act]
  have hr : tryRead (g.sendapp e).length [] (.data m) = .ended := by simp [tryRead, got]
  have e1 : ∀ l : List Fd, ∃ s' : St E, doFromChild g ⟨((⟨fun _ => true, [.eng (.state (g.state e))]⟩ : W).act .alarm).act
      (.eng (.wait l)), e, true, true, N, []⟩ ⟨p, usr, some ⟨false, false, false, true, false⟩, .data m, wr, sig⟩ = .ok (s', none) ∧
      s'.w.op .childout = false ∧ wroteOf .childin s'.w.log = [] ∧ s'.e = e := by
    intro l
    simp only [doFromChild, hr]
    exact ⟨_, rfl, rfl, rfl, rfl⟩
  have e2 : ∃ s', rest g fromcert (g.state e)
      { start (fun _ => true) e true N [] with w := ⟨fun _ => true, [.eng (.state (g.state e))]⟩ }
      ⟨p, usr, some ⟨false, false, false, true, false⟩, .data m, wr, sig⟩ = .ok (s', none) ∧
      s'.w.op .childout = false ∧ wroteOf .childin s'.w.log = [] ∧ s'.e = e := by
    simp only [rest, reportHandshake, start, h2, h3, h1, Bool.not_true, Bool.not_false, Bool.false_eq_true, if_false, if_true, Out.pure_eq,
      Out.ok_bind, Bool.false_and, can, Bool.and_true, Bool.true_and, Bool.and_false, Bool.and_self, after, serve]
    exact e1 _
  obtain ⟨s', e2, ho, hw, he⟩ := e2
  simp only [loop, ht, e2, Out.ok_bind]
  have hd : Deaf [] (top g s' ev.pend).2.w := by
    have e3 : top g s' ev.pend = shutdown g (g.state s'.e)
        { s' with w := closes (g.state s'.e) ev.pend (s'.w.act (.eng (.state (g.state s'.e)))) } := rfl
    have hd : Deaf [] (closes (g.state s'.e) ev.pend (s'.w.act (.eng (.state (g.state s'.e))))) := by
      rw [he, hev]
      generalize hw2 : s'.w.act (.eng (.state (g.state e))) = w2
      have o2 : w2.op .childout = false := by rw [← hw2]; exact ho
      have l2 : wroteOf .childin w2.log = [] := by
        rw [← hw2]
        show wroteOf .childin (s'.w.log ++ [_]) = []
        rw [wroteOf_append, hw]; rfl
      cases hc : w2.op .childin with
      | false => exact Deaf.closes ⟨hc, l2⟩ _ _
      | true =>
        have key : Deaf [] (w2.close .childin) := ⟨close_op_self _ _, (wrote_close _ _ _).trans l2⟩
        unfold closes
        refine Deaf.ite ?_ _ _
        by_cases hp : w2.op .peerin = false
        · rw [if_pos (show w2.op .peerin = false ∧ w2.op .childin = true ∧ (g.state e).recvapp = false from ⟨hp, hc, h1⟩)]
          exact key.ite _ _
        · rw [if_neg (show ¬ (w2.op .peerin = false ∧ w2.op .childin = true ∧ (g.state e).recvapp = false) from fun h => hp h.1)]
          simp only [o2, hc, h1, Bool.false_eq_true, and_false, not_false_eq_true, and_self, if_true]
          exact key
    rw [e3]
    generalize closes (g.state s'.e) ev.pend (s'.w.act (.eng (.state (g.state s'.e)))) = w at *
    unfold shutdown look
    split
    · exact ((hd.act _ rfl).act _ rfl).act _ rfl
    · exact hd
  obtain ⟨s2, why, e3, h'⟩ := hd.rest hg fromcert (top g s' ev.pend).1 ev
  rw [e3]
  cases why with
  | some y => exact ⟨_, _, rfl, h'.2⟩
  | none =>
    obtain ⟨s3, y, e4, h3⟩ := Deaf.loop hg fromcert evs s2 h'
    exact ⟨_, _, e4, h3.2⟩

example : (toy false).Sized ∧ ((toy false).state ⟨[], 0, [], false⟩).recvapp = false ∧
    ((toy false).state ⟨[], 0, [], false⟩).sendapp = true ∧ ((toy false).state ⟨[], 0, [], false⟩).closed = false :=
  ⟨toy_sized _, by decide, by decide, by decide⟩

end Relay.Tls
