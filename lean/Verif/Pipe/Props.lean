import Verif.Pipe.Lemmas
/-
C16, C17, C18: pipe framing.
-/
namespace Pipe
open Io Rw Spec

/-- C16: the packed form is the 8-byte little-endian two's complement. -/
theorem c16_pack (x : Int) : Header (uint64_pack x) (toU64 x) := by
  have hlt : toU64 x < 2 ^ 64 := by unfold toU64; omega
  refine ⟨packLoop_length 8 _, ?_⟩
  unfold uint64_pack
  rw [le_packLoop]
  exact Nat.mod_eq_of_lt (by simpa using hlt)

/-- C16: pack then unpack, for every `long long`. -/
theorem c16_unpack_pack (x : Int) (h : IsLL x) : uint64_unpack (uint64_pack x) = x := by
  unfold uint64_unpack
  rw [unpackU_header (c16_pack x)]
  unfold toLL toU64
  unfold IsLL llmin llmax at h
  split <;> omega

/-- C16: unpack then pack, for every eight bytes. -/
theorem c16_pack_unpack (b : Bytes) (h : b.length = 8) : uint64_pack (uint64_unpack b) = b := by
  have h2 := c16_pack (uint64_unpack b)
  refine le_inj _ _ (by rw [h2.1, h]) ?_
  rw [h2.2]
  have hb := le_bound b
  rw [h] at hb
  unfold uint64_unpack
  rw [unpackU_le b h]
  unfold toLL toU64
  split <;> omega

/-- C17 (writer): after successful writes of a message, the descriptor has
received exactly its frame. -/
theorem c17_write (fd fd' : WFd) (m : Bytes) (hm : m.length < 2 ^ 63)
    (h : pipe_write fd m = some (0, fd')) : ∃ f, Frame f m ∧ fd'.out = fd.out ++ f := by
  unfold pipe_write at h
  cases h1 : writeall fd (uint64_pack m.length) with
  | none => rw [h1] at h; simp at h
  | some v =>
    obtain ⟨r1, fd1⟩ := v
    rw [h1] at h
    simp only [Option.bind_eq_bind, Option.bind_some] at h
    obtain ⟨p, q, e1, e2, e3⟩ := c14_writeall _ _ _ _ h1
    rcases e3 with ⟨rfl, rfl⟩ | ⟨rfl, -⟩
    · rw [if_neg (by decide)] at h
      cases h3 : writeall fd1 m with
      | none => rw [h3] at h; simp at h
      | some v =>
        obtain ⟨r2, fd2⟩ := v
        rw [h3] at h
        simp only [Option.bind_some] at h
        obtain ⟨p', q', e4, e5, e6⟩ := c14_writeall _ _ _ _ h3
        rcases e6 with ⟨rfl, rfl⟩ | ⟨rfl, -⟩
        · rw [if_neg (by decide)] at h
          simp only [Option.some.injEq, Prod.mk.injEq, true_and] at h
          subst h
          refine ⟨uint64_pack m.length ++ m, ⟨_, header_pack _ (by omega), rfl⟩, ?_⟩
          rw [e5, e2]
          simp only [List.append_nil] at e1 e4
          rw [e1, e4]; simp
        · simp at h
    · simp at h

/-- C17 (failing writer): a message is written whole (0) or the writer says -1; in any case
what the descriptor has received is a first part of the message's frame, and all of it only
if the writer does not say -1. -/
theorem c17_write_fails (fd fd' : WFd) (m : Bytes) (r : Int) (hm : m.length < 2 ^ 63)
    (h : pipe_write fd m = some (r, fd')) :
    (r = 0 ∨ r = -1) ∧ ∃ f p, Frame f m ∧ p <+: f ∧ fd'.out = fd.out ++ p ∧ (r = 0 ↔ p = f) := by
  have hframe : Frame (uint64_pack m.length ++ m) m := by
    refine ⟨_, ?_, rfl⟩
    have := c16_pack (m.length : Int)
    have e : toU64 (m.length : Int) = m.length := by unfold toU64; omega
    rwa [e] at this
  unfold pipe_write at h
  cases h1 : writeall fd (uint64_pack m.length) with
  | none => rw [h1] at h; simp at h
  | some v =>
    obtain ⟨r1, fd1⟩ := v
    rw [h1] at h
    simp only [Option.bind_eq_bind, Option.bind_some] at h
    obtain ⟨p, q, e1, e2, e3⟩ := c14_writeall _ _ _ _ h1
    rcases e3 with ⟨rfl, rfl⟩ | ⟨rfl, hq, -⟩
    · rw [if_neg (by decide)] at h
      rw [List.append_nil] at e1
      cases h3 : writeall fd1 m with
      | none => rw [h3] at h; simp at h
      | some v =>
        obtain ⟨r2, fd2⟩ := v
        rw [h3] at h
        simp only [Option.bind_some] at h
        obtain ⟨p', q', e4, e5, e6⟩ := c14_writeall _ _ _ _ h3
        rcases e6 with ⟨rfl, rfl⟩ | ⟨rfl, hq, -⟩
        · rw [if_neg (by decide)] at h
          cases h
          refine ⟨.inl rfl, _, _, hframe, List.prefix_refl _, ?_, ⟨fun _ => rfl, fun _ => rfl⟩⟩
          rw [e5, e2, ← e1, e4]; simp
        · rw [if_pos rfl] at h
          cases h
          refine ⟨.inr rfl, _, uint64_pack m.length ++ p', hframe, ⟨q', ?_⟩, ?_, ⟨by simp, fun h => ?_⟩⟩
          · rw [e4]; simp
          · rw [e5, e2, ← e1]; simp
          · have := List.append_cancel_left h
            have := congrArg List.length (e4.symm.trans this.symm)
            simp at this
            exact absurd this hq
    · rw [if_pos rfl] at h
      cases h
      refine ⟨.inr rfl, _, p, hframe, ⟨q ++ m, ?_⟩, e2, ⟨by simp, fun h => ?_⟩⟩
      · rw [e1]; simp
      · have := congrArg List.length h
        rw [e1] at this
        simp only [List.length_append] at this
        exact absurd (List.length_eq_zero_iff.mp (show q.length = 0 by omega)) hq

example : pipe_write ⟨[], [.data 2, .err 5]⟩ [1, 2] = some (-1, ⟨[2, 0, 0], []⟩) := by decide

/-- Any number of messages written one after the other, all successfully. -/
inductive WritesAll : WFd → List Bytes → WFd → Prop where
  | nil {fd} : WritesAll fd [] fd
  | cons {fd fd1 fd2 m ms} : pipe_write fd m = some (0, fd1) → WritesAll fd1 ms fd2 →
      WritesAll fd (m :: ms) fd2

/-- Reading `k` messages with `pipe_readmax` and limit `lim`; `none` while a
read has not returned, `fail` when one failed. -/
def readMany (lim : Nat) : Nat → RFd → Option (Option (List Bytes) × RFd)
  | 0, fd => some (some [], fd)
  | k + 1, fd =>
    match pipe_readmax fd lim with
    | none => none
    | some (r, x, _, fd) =>
      if r = 0 then
        match readMany lim k fd with
        | none => none
        | some (some xs, fd) => some (some (x :: xs), fd)
        | some (none, fd) => some (none, fd)
      else some (none, fd)

/-- C17 (reader, one message): whatever the schedule (without hard errors), a
bounded read of a stream starting with a frame within the bound delivers exactly
that message and leaves exactly the rest. -/
theorem c17_readmax (fd : RFd) (f m tl : Bytes) (lim : Nat) (hf : Frame f m)
    (hl : m.length ≤ lim) (hlim : lim ≤ 1048576) (hsrc : fd.src = f ++ tl)
    (he : ∀ e, .err e ∉ fd.evs) :
    pipe_readmax fd lim = none ∨
      ∃ evs', pipe_readmax fd lim = some (0, m, m.length, ⟨tl, evs'⟩) ∧ ∀ e, .err e ∉ evs' := by
  obtain ⟨hd, hh, rfl⟩ := hf
  rw [List.append_assoc] at hsrc
  have h1 := readall_exact fd hd (m ++ tl) hsrc he
  rw [hh.1] at h1
  unfold pipe_readmax
  rw [if_neg (by unfold LIMIT; omega)]
  rcases h1 with h1 | ⟨evs1, h1, he1⟩
  · left; have h1' : readall fd 8 = none := h1
    rw [h1']; rfl
  · have h1' : readall fd 8 = some (0, hd, ⟨m ++ tl, evs1⟩) := h1
    rw [h1']
    simp only [Option.bind_eq_bind, Option.bind_some]
    rw [if_neg (by decide), unpackU_header hh, if_neg (by omega)]
    rcases readall_exact ⟨m ++ tl, evs1⟩ m tl rfl he1 with h2 | ⟨evs2, h2, he2⟩
    · left; rw [h2]; rfl
    · right
      refine ⟨evs2, ?_, he2⟩
      rw [h2]; rfl

/-- C17 (reader, exact size). -/
theorem c17_readall (fd : RFd) (f m tl : Bytes) (hf : Frame f m)
    (hlim : m.length ≤ 1048576) (hsrc : fd.src = f ++ tl) (he : ∀ e, .err e ∉ fd.evs) :
    pipe_readall fd m.length = none ∨
      ∃ evs', pipe_readall fd m.length = some (0, m, ⟨tl, evs'⟩) ∧ ∀ e, .err e ∉ evs' := by
  obtain ⟨hd, hh, rfl⟩ := hf
  rw [List.append_assoc] at hsrc
  have h1 := readall_exact fd hd (m ++ tl) hsrc he
  rw [hh.1] at h1
  unfold pipe_readall
  rw [if_neg (by unfold LIMIT; omega)]
  rcases h1 with h1 | ⟨evs1, h1, he1⟩
  · left; have h1' : readall fd 8 = none := h1
    rw [h1']; rfl
  · have h1' : readall fd 8 = some (0, hd, ⟨m ++ tl, evs1⟩) := h1
    rw [h1']
    simp only [Option.bind_eq_bind, Option.bind_some]
    rw [if_neg (by decide), unpackU_header hh, if_neg (by simp)]
    exact readall_exact ⟨m ++ tl, evs1⟩ m tl rfl he1

/-- C17 (reader, allocating). -/
theorem c17_readalloc (allocOk : Nat → Bool) (fd : RFd) (f m tl : Bytes) (hf : Frame f m)
    (ha : allocOk m.length = true) (hm : m.length < 2 ^ 63) (hsrc : fd.src = f ++ tl)
    (he : ∀ e, .err e ∉ fd.evs) :
    pipe_readalloc allocOk fd = none ∨
      ∃ evs', pipe_readalloc allocOk fd = some (.block m, ⟨tl, evs'⟩) ∧ ∀ e, .err e ∉ evs' := by
  obtain ⟨hd, hh, rfl⟩ := hf
  rw [List.append_assoc] at hsrc
  have h1 := readall_exact fd hd (m ++ tl) hsrc he
  rw [hh.1] at h1
  unfold pipe_readalloc
  rcases h1 with h1 | ⟨evs1, h1, he1⟩
  · left; have h1' : readall fd 8 = none := h1
    rw [h1']; rfl
  · have h1' : readall fd 8 = some (0, hd, ⟨m ++ tl, evs1⟩) := h1
    rw [h1']
    have hlen : uint64_unpack hd = m.length := by
      unfold uint64_unpack
      rw [unpackU_header hh]
      unfold toLL
      rw [if_pos hm]
    simp only [Option.bind_eq_bind, Option.bind_some, hlen]
    rw [if_neg (by decide), if_neg (by omega), if_neg (by simp [ha])]
    rcases readall_exact ⟨m ++ tl, evs1⟩ m tl rfl he1 with h2 | ⟨evs2, h2, he2⟩
    · left; rw [h2]; rfl
    · right
      refine ⟨evs2, ?_, he2⟩
      rw [h2]; rfl

theorem readMany_frames (lim : Nat) (hlim : lim ≤ 1048576) (s : Bytes) (ms : List Bytes)
    (hs : Frames s ms) (hl : ∀ m ∈ ms, m.length ≤ lim) (tl : Bytes) (fd : RFd)
    (hsrc : fd.src = s ++ tl) (he : ∀ e, .err e ∉ fd.evs) :
    readMany lim ms.length fd = none ∨
      ∃ evs', readMany lim ms.length fd = some (some ms, ⟨tl, evs'⟩) := by
  induction hs generalizing fd with
  | nil =>
    right
    refine ⟨fd.evs, ?_⟩
    simp only [List.nil_append] at hsrc
    subst hsrc
    rfl
  | @cons f m s ms hf hs ih =>
    rw [List.append_assoc] at hsrc
    simp only [List.length_cons, readMany]
    rcases c17_readmax fd f m (s ++ tl) lim hf (hl m (by simp)) hlim hsrc he with h | ⟨evs1, h, he1⟩
    · left; rw [h]
    · rw [h]
      simp only [if_true]
      rcases ih (fun x hx => hl x (by simp [hx])) ⟨s ++ tl, evs1⟩ rfl he1 with h2 | ⟨evs2, h2⟩
      · left; rw [h2]
      · right; exact ⟨evs2, by rw [h2]⟩

theorem writesAll_frames {fd fd' : WFd} {ms : List Bytes} (h : WritesAll fd ms fd')
    (hl : ∀ m ∈ ms, m.length < 2 ^ 63) : ∃ s, Frames s ms ∧ fd'.out = fd.out ++ s := by
  induction h with
  | nil => exact ⟨[], .nil, by simp⟩
  | @cons fd fd1 fd2 m ms hw hws ih =>
    obtain ⟨f, hf, e1⟩ := c17_write fd fd1 m (hl m (by simp)) hw
    obtain ⟨s, hs, e2⟩ := ih (fun x hx => hl x (by simp [hx]))
    exact ⟨f ++ s, .cons hf hs, by rw [e2, e1, List.append_assoc]⟩

/-- C17 (end to end): every sequence of messages within the reader's limit,
written under any schedule of partial writes, and read under any schedule of
partial reads, is read back as the same sequence with the same boundaries, with
nothing left over. -/
theorem c17_end_to_end (lim : Nat) (hlim : lim ≤ 1048576) (ms : List Bytes)
    (hl : ∀ m ∈ ms, m.length ≤ lim) (wevs : List WrEv) (w : WFd)
    (hw : WritesAll ⟨[], wevs⟩ ms w) (revs : List RdEv) (he : ∀ e, .err e ∉ revs) :
    readMany lim ms.length ⟨w.out, revs⟩ = none ∨
      ∃ evs', readMany lim ms.length ⟨w.out, revs⟩ = some (some ms, ⟨[], evs'⟩) := by
  have hL : LIMIT < 2 ^ 63 := by decide
  obtain ⟨s, hs, e⟩ := writesAll_frames hw (fun m hm => by have := hl m hm; omega)
  simp only [List.nil_append] at e
  exact readMany_frames lim hlim s ms hs hl [] ⟨w.out, revs⟩ (by simpa using e) he

/-- C18: a bounded read never stores more than the bound and reports success
only for a complete frame within it: for every stream and every schedule,
hostile or not. -/
theorem c18_readmax (fd fd' : RFd) (lim n : Nat) (r : Int) (x : Bytes)
    (h : pipe_readmax fd lim = some (r, x, n, fd')) :
    x.length ≤ lim ∧ n ≤ lim ∧
    (r = 0 → lim ≤ 1048576 ∧ n = x.length ∧ ∃ f, Frame f x ∧ fd.src = f ++ fd'.src) ∧
    (r = 0 ∨ r = -1) := by
  unfold pipe_readmax at h
  by_cases hl : lim > LIMIT
  · rw [if_pos hl] at h
    simp only [Option.some.injEq, Prod.mk.injEq] at h
    obtain ⟨rfl, rfl, rfl, rfl⟩ := h
    simp
  rw [if_neg hl] at h
  cases h1 : readall fd 8 with
  | none => rw [h1] at h; simp at h
  | some v =>
    obtain ⟨r1, num, fd1⟩ := v
    rw [h1] at h
    simp only [Option.bind_eq_bind, Option.bind_some] at h
    obtain ⟨e1, used, e2, e3⟩ := c13_readall fd 8 r1 num fd1 h1
    by_cases hr : r1 = -1
    · rw [if_pos hr] at h
      simp only [Option.some.injEq, Prod.mk.injEq] at h
      obtain ⟨rfl, rfl, rfl, rfl⟩ := h
      simp
    rw [if_neg hr] at h
    have hnum : num.length = 8 := by
      rcases e3 with ⟨-, e⟩ | ⟨e, -⟩
      · exact e
      · exact absurd e hr
    by_cases hu : uint64_unpackU num > lim
    · rw [if_pos hu] at h
      simp only [Option.some.injEq, Prod.mk.injEq] at h
      obtain ⟨rfl, rfl, rfl, rfl⟩ := h
      simp
    rw [if_neg hu] at h
    cases h2 : readall fd1 (uint64_unpackU num) with
    | none => rw [h2] at h; simp at h
    | some v =>
      obtain ⟨r2, y, fd2⟩ := v
      rw [h2] at h
      simp only [Option.bind_some] at h
      obtain ⟨g1, used2, g2, g3⟩ := c13_readall fd1 _ r2 y fd2 h2
      have hy : y.length ≤ uint64_unpackU num := by
        rcases g3 with ⟨-, g⟩ | ⟨-, g, -⟩ <;> omega
      by_cases hr2 : r2 = -1
      · rw [if_pos hr2] at h
        simp only [Option.some.injEq, Prod.mk.injEq] at h
        obtain ⟨rfl, rfl, rfl, rfl⟩ := h
        refine ⟨by omega, Nat.le_refl _, by simp, .inr rfl⟩
      · rw [if_neg hr2] at h
        simp only [Option.some.injEq, Prod.mk.injEq] at h
        obtain ⟨rfl, rfl, rfl, rfl⟩ := h
        have hy2 : y.length = uint64_unpackU num := by
          rcases g3 with ⟨-, g⟩ | ⟨g, -⟩
          · exact g
          · exact absurd g hr2
        refine ⟨by omega, by omega, fun _ => ⟨by unfold LIMIT at *; omega, hy2.symm, num ++ y, ⟨num, ⟨hnum, ?_⟩, rfl⟩, ?_⟩, .inl rfl⟩
        · rw [hy2, unpackU_le num hnum]
        · rw [e1, g1, List.append_assoc]

/-- C18: an exact-size read stores at most the requested size, and succeeds only
on a complete frame of exactly that size. -/
theorem c18_readall (fd fd' : RFd) (n : Nat) (r : Int) (x : Bytes)
    (h : pipe_readall fd n = some (r, x, fd')) :
    x.length ≤ n ∧
    (r = 0 → n ≤ 1048576 ∧ x.length = n ∧ ∃ f, Frame f x ∧ fd.src = f ++ fd'.src) ∧
    (r = 0 ∨ r = -1) := by
  unfold pipe_readall at h
  by_cases hl : n > LIMIT
  · rw [if_pos hl] at h
    simp only [Option.some.injEq, Prod.mk.injEq] at h
    obtain ⟨rfl, rfl, rfl⟩ := h
    simp
  rw [if_neg hl] at h
  cases h1 : readall fd 8 with
  | none => rw [h1] at h; simp at h
  | some v =>
    obtain ⟨r1, num, fd1⟩ := v
    rw [h1] at h
    simp only [Option.bind_eq_bind, Option.bind_some] at h
    obtain ⟨e1, used, e2, e3⟩ := c13_readall fd 8 r1 num fd1 h1
    by_cases hr : r1 = -1
    · rw [if_pos hr] at h
      simp only [Option.some.injEq, Prod.mk.injEq] at h
      obtain ⟨rfl, rfl, rfl⟩ := h
      simp
    rw [if_neg hr] at h
    have hnum : num.length = 8 := by
      rcases e3 with ⟨-, e⟩ | ⟨e, -⟩
      · exact e
      · exact absurd e hr
    by_cases hu : uint64_unpackU num ≠ n
    · rw [if_pos hu] at h
      simp only [Option.some.injEq, Prod.mk.injEq] at h
      obtain ⟨rfl, rfl, rfl⟩ := h
      simp
    rw [if_neg hu] at h
    simp only [ne_eq, Classical.not_not] at hu
    obtain ⟨g1, used2, g2, g3⟩ := c13_readall fd1 _ r x fd' h
    rcases g3 with ⟨rfl, g⟩ | ⟨rfl, g, -⟩
    · refine ⟨by omega, fun _ => ⟨by unfold LIMIT at *; omega, g, num ++ x, ⟨num, ⟨hnum, ?_⟩, rfl⟩, ?_⟩, .inl rfl⟩
      · rw [g, ← hu, unpackU_le num hnum]
      · rw [e1, g1, List.append_assoc]
    · exact ⟨by omega, by simp, .inr rfl⟩

/-- C18: an error frame sent with errno `e` makes the allocating reader fail
with that errno, delivering no data and consuming exactly the frame. -/
theorem c18_error_frame (allocOk : Nat → Bool) (w w' : WFd) (e : Int) (fd : RFd) (tl : Bytes)
    (he : 0 < e) (he2 : e < 2 ^ 31) (hw : pipe_writeerrno w e = some (0, w'))
    (hsrc : w.out ++ fd.src = w'.out ++ tl) (hev : ∀ k, .err k ∉ fd.evs) :
    pipe_readalloc allocOk fd = none ∨
      ∃ evs', pipe_readalloc allocOk fd = some (.remote e, ⟨tl, evs'⟩) := by
  unfold pipe_writeerrno at hw
  cases h1 : writeall w (uint64_pack (-e)) with
  | none => rw [h1] at hw; simp at hw
  | some v =>
    obtain ⟨r1, w1⟩ := v
    rw [h1] at hw
    simp only [Option.bind_eq_bind, Option.bind_some] at hw
    obtain ⟨p, q, e1, e2, e3⟩ := c14_writeall _ _ _ _ h1
    rcases e3 with ⟨rfl, rfl⟩ | ⟨rfl, -⟩
    · rw [if_neg (by decide)] at hw
      simp only [Option.some.injEq, Prod.mk.injEq, true_and] at hw
      subst hw
      simp only [List.append_nil] at e1
      rw [e2, ← e1, List.append_assoc] at hsrc
      have hsrc := List.append_cancel_left hsrc
      have h8 : (uint64_pack (-e)).length = 8 := (c16_pack (-e)).1
      have h2 := readall_exact fd _ tl hsrc hev
      rw [h8] at h2
      unfold pipe_readalloc
      rcases h2 with h2 | ⟨evs1, h2, -⟩
      · left; have h2' : readall fd 8 = none := h2
        rw [h2']; rfl
      · right
        have h2' : readall fd 8 = some (0, uint64_pack (-e), ⟨tl, evs1⟩) := h2
        rw [h2']
        simp only [Option.bind_eq_bind, Option.bind_some]
        rw [c16_unpack_pack (-e) (by unfold IsLL llmin llmax; omega), if_neg (by decide),
          if_pos (by omega), if_neg (by unfold llmin; omega)]
        exact ⟨evs1, by simp⟩
    · simp at hw

/-- C18 (failing error writer): the writer of an error answer says 0 or -1, and says 0
only when all eight bytes went out. -/
theorem c18_error_write (w w' : WFd) (e r : Int) (h : pipe_writeerrno w e = some (r, w')) :
    (r = 0 ∨ r = -1) ∧ ∃ p, p <+: uint64_pack (-e) ∧ w'.out = w.out ++ p ∧ (r = 0 → p.length = 8) := by
  unfold pipe_writeerrno at h
  cases h1 : writeall w (uint64_pack (-e)) with
  | none => rw [h1] at h; simp at h
  | some v =>
    obtain ⟨r1, w1⟩ := v
    rw [h1] at h
    simp only [Option.bind_eq_bind, Option.bind_some] at h
    obtain ⟨p, q, e1, e2, e3⟩ := c14_writeall _ _ _ _ h1
    have hlen := (c16_pack (-e)).1
    rcases e3 with ⟨rfl, rfl⟩ | ⟨rfl, -⟩
    · rw [if_neg (by decide)] at h
      cases h
      rw [List.append_nil] at e1
      exact ⟨.inl rfl, p, ⟨[], by simp [e1]⟩, e2, fun _ => by rw [← e1]; exact hlen⟩
    · rw [if_pos rfl] at h
      cases h
      exact ⟨.inr rfl, p, ⟨q, e1.symm⟩, e2, by simp⟩

/-- C18: an allocating read never delivers a block unless the stream held a
complete frame with exactly those bytes and the allocator granted the size. -/
theorem c18_readalloc (allocOk : Nat → Bool) (fd fd' : RFd) (x : Bytes)
    (h : pipe_readalloc allocOk fd = some (.block x, fd')) :
    allocOk x.length = true ∧ ∃ f, Frame f x ∧ fd.src = f ++ fd'.src := by
  unfold pipe_readalloc at h
  cases h1 : readall fd 8 with
  | none => rw [h1] at h; simp at h
  | some v =>
    obtain ⟨r1, num, fd1⟩ := v
    rw [h1] at h
    simp only [Option.bind_eq_bind, Option.bind_some] at h
    obtain ⟨e1, used, e2, e3⟩ := c13_readall fd 8 r1 num fd1 h1
    by_cases hr : r1 = -1
    · rw [if_pos hr] at h; simp at h
    rw [if_neg hr] at h
    have hnum : num.length = 8 := by
      rcases e3 with ⟨-, e⟩ | ⟨e, -⟩
      · exact e
      · exact absurd e hr
    by_cases hneg : uint64_unpack num < 0
    · rw [if_pos hneg] at h
      split at h <;> simp at h
    rw [if_neg hneg] at h
    by_cases ha : allocOk (uint64_unpack num).toNat = false
    · rw [if_pos ha] at h; simp at h
    rw [if_neg ha] at h
    cases h2 : readall fd1 (uint64_unpack num) with
    | none => rw [h2] at h; simp at h
    | some v =>
      obtain ⟨r2, y, fd2⟩ := v
      have hnat : ((uint64_unpack num).toNat : Int) = uint64_unpack num := by omega
      have h2' : readall fd1 ((uint64_unpack num).toNat : Nat) = some (r2, y, fd2) := by
        rw [hnat]; exact h2
      rw [h2] at h
      simp only [Option.bind_some] at h
      obtain ⟨g1, used2, g2, g3⟩ := c13_readall fd1 _ r2 y fd2 h2'
      by_cases hr2 : r2 = -1
      · rw [if_pos hr2] at h; simp at h
      · rw [if_neg hr2] at h
        simp only [Option.some.injEq, Prod.mk.injEq, Alloc.block.injEq] at h
        obtain ⟨rfl, rfl⟩ := h
        have hy2 : y.length = (uint64_unpack num).toNat := by
          rcases g3 with ⟨-, g⟩ | ⟨g, -⟩
          · exact g
          · exact absurd g hr2
        refine ⟨by rw [hy2]; simpa using ha, num ++ y, ⟨num, ⟨hnum, ?_⟩, rfl⟩, ?_⟩
        · rw [hy2]
          have hb := le_bound num
          rw [hnum] at hb
          unfold uint64_unpack at hneg ⊢
          rw [unpackU_le num hnum] at hneg ⊢
          unfold toLL at hneg ⊢
          split
          · simp
          · next hx => rw [if_neg hx] at hneg; omega
        · rw [e1, g1, List.append_assoc]

/-- C18 is not guaranteed for errno 0: such an "error" frame is the frame of the
empty message, so an allocating reader delivers an empty block. -/
theorem c18_errno_zero_is_empty_message :
    Frame (uint64_pack (-0)) [] := ⟨uint64_pack (-0), ⟨by decide, by decide⟩, by simp⟩

example : WritesAll ⟨[], [.data 3, .eintr .ok, .data 9, .data 0, .data 0]⟩ [b!"ab"]
    ⟨[2,0,0,0,0,0,0,0] ++ b!"ab", []⟩ := .cons (by decide) .nil
example : readMany 100 1 ⟨[2,0,0,0,0,0,0,0] ++ b!"ab", [.data 3, .eintr, .data 9, .data 0, .data 0]⟩ =
    some (some [b!"ab"], ⟨[], []⟩) := by decide
example : uint64_unpack (uint64_pack (-32)) = -32 := by decide

end Pipe
