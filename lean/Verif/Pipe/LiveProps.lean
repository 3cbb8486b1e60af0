import Verif.Pipe.Props
/-
C17, C18: framed messages arrive, not only unharmed but at all; and error answers are
refused by the readers that do not expect them.
-/
namespace Pipe
open Io Rw Spec

theorem readallLoop_count (evs : List RdEv) (src : Bytes) (n : Nat) (x : Bytes) (r : Int) (y : Bytes)
    (fd : RFd) (h : readallLoop evs src n x = some (r, y, fd)) (hr : r = 0) :
    dataCount evs ≤ dataCount fd.evs + n := by
  induction evs generalizing src n x with
  | nil =>
    cases n with
    | zero => simp only [readallLoop, Option.some.injEq, Prod.mk.injEq] at h; rw [← h.2.2]; simp
    | succ n => simp [readallLoop] at h
  | cons ev evs ih =>
    cases n with
    | zero => simp only [readallLoop, Option.some.injEq, Prod.mk.injEq] at h; rw [← h.2.2]; simp
    | succ n =>
      cases ev with
      | data m =>
        rw [readallLoop] at h
        split at h
        · simp only [Option.some.injEq, Prod.mk.injEq] at h; omega
        · have := ih _ _ _ h
          simp only [dataCount]
          omega
      | eintr => rw [readallLoop] at h; exact ih _ _ _ h
      | eagain => rw [readallLoop] at h; exact ih _ _ _ h
      | err e => simp only [readallLoop, Option.some.injEq, Prod.mk.injEq] at h; omega

theorem readall_delivers (fd : RFd) (x tl : Bytes) (hsrc : fd.src = x ++ tl)
    (he : ∀ e, .err e ∉ fd.evs) (hd : x.length ≤ dataCount fd.evs) :
    ∃ evs', readall fd x.length = some (0, x, ⟨tl, evs'⟩) ∧ (∀ e, .err e ∉ evs') ∧
      dataCount fd.evs ≤ dataCount evs' + x.length := by
  rcases readall_exact fd x tl hsrc he with h | ⟨evs', h, h2⟩
  · exact absurd h (c13_readall_returns fd x.length hd)
  · exact ⟨evs', h, h2, readallLoop_count _ _ _ _ _ _ _ h rfl⟩

theorem readmax_delivers (fd : RFd) (f m tl : Bytes) (lim : Nat) (hf : Frame f m)
    (hl : m.length ≤ lim) (hlim : lim ≤ 1048576) (hsrc : fd.src = f ++ tl)
    (he : ∀ e, .err e ∉ fd.evs) (hd : f.length ≤ dataCount fd.evs) :
    ∃ evs', pipe_readmax fd lim = some (0, m, m.length, ⟨tl, evs'⟩) ∧ (∀ e, .err e ∉ evs') ∧
      dataCount fd.evs ≤ dataCount evs' + f.length := by
  obtain ⟨hd', hh, rfl⟩ := hf
  rw [List.append_assoc] at hsrc
  rw [List.length_append] at hd
  obtain ⟨evs1, h1, he1, hc1⟩ := readall_delivers fd hd' (m ++ tl) hsrc he (by omega)
  obtain ⟨evs2, h2, he2, hc2⟩ := readall_delivers ⟨m ++ tl, evs1⟩ m tl rfl he1
    (by show m.length ≤ dataCount evs1; omega)
  refine ⟨evs2, ?_, he2, ?_⟩
  · unfold pipe_readmax
    rw [if_neg (by unfold LIMIT; omega)]
    have h1' : readall fd 8 = some (0, hd', ⟨m ++ tl, evs1⟩) := by rw [← h1, hh.1]; rfl
    rw [h1']
    simp only [Option.bind_eq_bind, Option.bind_some]
    rw [if_neg (by decide), unpackU_header hh, if_neg (by omega), h2]
    rfl
  · simp only [List.length_append] at hc2 ⊢
    have : dataCount (⟨m ++ tl, evs1⟩ : RFd).evs = dataCount evs1 := rfl
    omega

theorem readMany_delivers (lim : Nat) (hlim : lim ≤ 1048576) (s : Bytes) (ms : List Bytes)
    (hs : Frames s ms) (hl : ∀ m ∈ ms, m.length ≤ lim) (tl : Bytes) (fd : RFd)
    (hsrc : fd.src = s ++ tl) (he : ∀ e, .err e ∉ fd.evs) (hd : s.length ≤ dataCount fd.evs) :
    ∃ evs', readMany lim ms.length fd = some (some ms, ⟨tl, evs'⟩) := by
  induction hs generalizing fd with
  | nil =>
    refine ⟨fd.evs, ?_⟩
    simp only [List.nil_append] at hsrc
    subst hsrc
    rfl
  | @cons f m s ms hf hs ih =>
    rw [List.append_assoc] at hsrc
    rw [List.length_append] at hd
    simp only [List.length_cons, readMany]
    obtain ⟨evs1, h, he1, hc⟩ := readmax_delivers fd f m (s ++ tl) lim hf (hl m (by simp)) hlim hsrc he
      (by omega)
    rw [h]
    simp only [if_true]
    obtain ⟨evs2, h2⟩ := ih (fun x hx => hl x (by simp [hx])) ⟨s ++ tl, evs1⟩ rfl he1
      (by show s.length ≤ dataCount evs1; omega)
    exact ⟨evs2, by rw [h2]⟩

/-- A write outcome that is no failure: bytes were accepted, or the call was interrupted or not
ready and the wait after it did not fail. -/
def Fine (e : WrEv) : Prop :=
  (∃ m, e = .data m) ∨ (∃ p, p ≠ .err ∧ e = .eintr p) ∨ ∃ p, p ≠ .err ∧ e = .eagain p

theorem writeallLoop_delivers (evs : List WrEv) (out x : Bytes) (hf : ∀ e ∈ evs, Fine e)
    (hd : x.length ≤ wdataCount evs) :
    ∃ evs', writeallLoop evs out x = some (0, ⟨out ++ x, evs'⟩) ∧ (∀ e ∈ evs', Fine e) ∧
      wdataCount evs ≤ wdataCount evs' + x.length := by
  induction evs generalizing out x with
  | nil =>
    cases x with
    | nil => exact ⟨[], by simp [writeallLoop], by simp, by simp⟩
    | cons b x => simp [wdataCount] at hd
  | cons ev evs ih =>
    have hf' : ∀ e ∈ evs, Fine e := fun e he => hf e (by simp [he])
    cases x with
    | nil => exact ⟨ev :: evs, by simp [writeallLoop], hf, by simp⟩
    | cons b x =>
      rcases hf ev (by simp) with ⟨m, rfl⟩ | ⟨p, hp, rfl⟩ | ⟨p, hp, rfl⟩
      · rw [writeallLoop]
        have h1 := put_ne b x m
        have h2 := put_append (b :: x) (min (b :: x).length CHUNK) m
        generalize put (b :: x) (min (b :: x).length CHUNK) m = p at h1 h2
        have h3 : p.length + ((b :: x).drop p.length).length = (b :: x).length := by
          rw [← List.length_append, h2]
        simp only [wdataCount] at hd ⊢
        obtain ⟨evs', g1, g2, g3⟩ := ih (out ++ p) ((b :: x).drop p.length) hf' (by omega)
        refine ⟨evs', ?_, g2, by omega⟩
        rw [g1, List.append_assoc, h2]
      · rw [writeallLoop, if_neg hp]
        exact ih _ _ hf' (by simpa [wdataCount] using hd)
      · rw [writeallLoop, if_neg hp]
        exact ih _ _ hf' (by simpa [wdataCount] using hd)

theorem write_delivers (fd : WFd) (m : Bytes) (hf : ∀ e ∈ fd.evs, Fine e)
    (hd : m.length + 8 ≤ wdataCount fd.evs) :
    ∃ fd', pipe_write fd m = some (0, fd') ∧ (∀ e ∈ fd'.evs, Fine e) ∧
      wdataCount fd.evs ≤ wdataCount fd'.evs + (m.length + 8) := by
  have h8 : (uint64_pack m.length).length = 8 := (c16_pack _).1
  obtain ⟨evs1, g1, g2, g3⟩ := writeallLoop_delivers fd.evs fd.out (uint64_pack m.length) hf (by omega)
  obtain ⟨evs2, k1, k2, k3⟩ := writeallLoop_delivers evs1 (fd.out ++ uint64_pack m.length) m g2 (by omega)
  refine ⟨⟨fd.out ++ uint64_pack m.length ++ m, evs2⟩, ?_, k2, by show _ ≤ wdataCount evs2 + _; omega⟩
  unfold pipe_write
  have g1' : writeall fd (uint64_pack m.length) = some (0, ⟨fd.out ++ uint64_pack m.length, evs1⟩) := g1
  have k1' : writeall ⟨fd.out ++ uint64_pack m.length, evs1⟩ m =
    some (0, ⟨fd.out ++ uint64_pack m.length ++ m, evs2⟩) := k1
  rw [g1']
  simp only [Option.bind_eq_bind, Option.bind_some]
  rw [if_neg (by decide), k1']
  rfl

theorem writes_delivers (ms : List Bytes) (fd : WFd) (hf : ∀ e ∈ fd.evs, Fine e)
    (hd : (ms.map (·.length + 8)).sum ≤ wdataCount fd.evs) : ∃ w, WritesAll fd ms w := by
  induction ms generalizing fd with
  | nil => exact ⟨fd, .nil⟩
  | cons m ms ih =>
    simp only [List.map_cons, List.sum_cons] at hd
    obtain ⟨fd', h1, h2, h3⟩ := write_delivers fd m hf (by omega)
    obtain ⟨w, hw⟩ := ih fd' h2 (by omega)
    exact ⟨w, .cons h1 hw⟩

theorem frames_length {s : Bytes} {ms : List Bytes} (h : Frames s ms) :
    s.length = (ms.map (·.length + 8)).sum := by
  induction h with
  | nil => rfl
  | @cons f m s ms hf hs ih =>
    obtain ⟨hd, hh, rfl⟩ := hf
    have := hh.1
    simp only [List.length_append, List.map_cons, List.sum_cons]
    omega

/-- **C17 (delivery).** If the descriptors keep working (no failed call, and enough calls that
transfer something; each may transfer as little as one byte, with any number of
interruptions and not-ready results in between), all messages are written and all are
read back. -/
theorem c17_delivered (lim : Nat) (hlim : lim ≤ 1048576) (ms : List Bytes)
    (hl : ∀ m ∈ ms, m.length ≤ lim) (wevs : List WrEv) (revs : List RdEv)
    (hw : ∀ e ∈ wevs, Fine e) (hr : ∀ e, .err e ∉ revs)
    (hwd : (ms.map (·.length + 8)).sum ≤ wdataCount wevs)
    (hrd : (ms.map (·.length + 8)).sum ≤ dataCount revs) :
    ∃ w evs', WritesAll ⟨[], wevs⟩ ms w ∧
      readMany lim ms.length ⟨w.out, revs⟩ = some (some ms, ⟨[], evs'⟩) := by
  obtain ⟨w, h⟩ := writes_delivers ms ⟨[], wevs⟩ hw hwd
  obtain ⟨s, hs, e⟩ := writesAll_frames h (fun m hm => by have := hl m hm; omega)
  simp only [List.nil_append] at e
  obtain ⟨evs', h2⟩ := readMany_delivers lim hlim s ms hs hl [] ⟨w.out, revs⟩ (by simpa using e) hr
    (by rw [frames_length hs]; exact hrd)
  exact ⟨w, evs', h, h2⟩

/-- Two messages, one of them empty, byte by byte, with interruptions. -/
example : (∀ e ∈ WrEv.eintr .ok :: List.replicate 18 (.data 0), Fine e) ∧
    ([b!"ab", []].map (·.length + 8)).sum ≤ wdataCount (.eintr .ok :: List.replicate 18 (.data 0)) := by
  refine ⟨?_, by decide⟩
  intro e he
  simp only [List.mem_cons, List.mem_replicate] at he
  rcases he with rfl | ⟨-, rfl⟩
  · exact .inr (.inl ⟨_, by decide, rfl⟩)
  · exact .inl ⟨_, rfl⟩

/-- **C18 (error answers and the other readers).** A reader of a fixed or bounded size refuses an
error answer, whatever the errno, without storing anything. -/
theorem c18_error_refused (w w' : WFd) (e : Int) (fd : RFd) (tl : Bytes)
    (he : 0 < e) (he2 : e < 2 ^ 31) (hw : pipe_writeerrno w e = some (0, w'))
    (hsrc : w.out ++ fd.src = w'.out ++ tl) (hev : ∀ k, .err k ∉ fd.evs) (lim : Nat) :
    (pipe_readmax fd lim = none ∨ ∃ fd', pipe_readmax fd lim = some (-1, [], lim, fd')) ∧
    (pipe_readall fd lim = none ∨ ∃ fd', pipe_readall fd lim = some (-1, [], fd')) := by
  have hsrc' : fd.src = uint64_pack (-e) ++ tl := by
    obtain ⟨-, p, hp, hout, h0⟩ := c18_error_write w w' e 0 hw
    have h8 : (uint64_pack (-e)).length = 8 := (c16_pack (-e)).1
    have : p = uint64_pack (-e) := List.IsPrefix.eq_of_length hp (by rw [h0 rfl, h8])
    rw [hout, this, List.append_assoc] at hsrc
    exact List.append_cancel_left hsrc
  have h8 : (uint64_pack (-e)).length = 8 := (c16_pack (-e)).1
  have hu : uint64_unpackU (uint64_pack (-e)) = toU64 (-e) := unpackU_header (c16_pack (-e))
  have hbig : 1048576 < toU64 (-e) := by unfold toU64; omega
  have h2 := readall_exact fd _ tl hsrc' hev
  rw [h8] at h2
  unfold pipe_readmax pipe_readall LIMIT
  by_cases hlim : lim > 1048576
  · rw [if_pos hlim, if_pos hlim]
    exact ⟨.inr ⟨_, rfl⟩, .inr ⟨_, rfl⟩⟩
  · rw [if_neg hlim, if_neg hlim]
    rcases h2 with h2 | ⟨evs1, h2, -⟩
    · have h2' : readall fd 8 = none := h2
      rw [h2']
      exact ⟨.inl rfl, .inl rfl⟩
    · have h2' : readall fd 8 = some (0, uint64_pack (-e), ⟨tl, evs1⟩) := h2
      rw [h2']
      simp only [Option.bind_eq_bind, Option.bind_some, hu]
      rw [if_neg (by decide), if_pos (by omega), if_neg (by decide), if_pos (by omega)]
      exact ⟨.inr ⟨_, rfl⟩, .inr ⟨_, rfl⟩⟩

/-- ENOMEM (12) sent to a reader that expects at most 100 bytes. -/
example : pipe_readmax ⟨uint64_pack (-12), [.data 7]⟩ 100 = some (-1, [], 100, ⟨[], []⟩) := by decide

end Pipe
