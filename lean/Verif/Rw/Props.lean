import Verif.Rw.Lemmas
/-
C13, C14, C15: exact-length and timed I/O.
-/
namespace Rw
open Io

/-- C13: for every stream and schedule, when an exact-length read of `n` bytes
returns, it stored a prefix of the stream and left exactly the rest unread. It
returns 0 with exactly `n` bytes, or -1 with fewer than `n`; the latter only
when the stream has ended or the last call used failed hard. -/
theorem c13_readall (fd : RFd) (n : Nat) (r : Int) (x : Bytes) (fd' : RFd)
    (h : readall fd n = some (r, x, fd')) :
    fd.src = x ++ fd'.src ∧ ∃ used, fd.evs = used ++ fd'.evs ∧
      ((r = 0 ∧ x.length = n) ∨
       (r = -1 ∧ x.length < n ∧
         ((fd'.src = [] ∧ ∃ u m, used = u ++ [.data m]) ∨ ∃ u e, used = u ++ [.err e]))) := by
  obtain ⟨g, used, rfl, e2, e3, -, e5⟩ := readallLoop_prefix _ _ _ _ _ _ _ h
  simp only [Int.toNat_natCast, List.nil_append] at *
  exact ⟨e2, used, e3, e5⟩

/-- C13: the read returns as soon as `n` read calls delivered something,
however many interruptions and not-ready results lie between them. -/
theorem c13_readall_returns (fd : RFd) (n : Nat) (h : n ≤ dataCount fd.evs) :
    readall fd n ≠ none := readallLoop_progress _ _ _ _ (by simpa using h)

/-- C13: on a stream with at least `n` bytes and a schedule without hard errors
the read succeeds with exactly the next `n` bytes. -/
theorem c13_readall_succeeds (fd : RFd) (n : Nat) (hn : n ≤ fd.src.length)
    (hd : n ≤ dataCount fd.evs) (he : ∀ e, .err e ∉ fd.evs) :
    ∃ evs', readall fd n = some (0, fd.src.take n, ⟨fd.src.drop n, evs'⟩) := by
  have hret := c13_readall_returns fd n hd
  cases h : readall fd n with
  | none => exact absurd h hret
  | some v =>
    obtain ⟨r, x, fd'⟩ := v
    obtain ⟨h1, used, h2, h3⟩ := c13_readall fd n r x fd' h
    have hlen : fd.src.length = x.length + fd'.src.length := by rw [h1]; simp
    rcases h3 with ⟨rfl, hx⟩ | ⟨rfl, hx, h4⟩
    · refine ⟨fd'.evs, ?_⟩
      rw [h1, ← hx]; simp
    · rcases h4 with ⟨h4, -⟩ | ⟨u, e, rfl⟩
      · rw [h4] at hlen; simp at hlen; omega
      · exact absurd (by rw [h2]; simp) (he e)

/-- C14: for every payload and schedule, when a full write returns, what was
put on the descriptor is a prefix of the payload, in order and once; it returns
0 exactly with the whole payload written, and -1 only after a failed call. -/
theorem c14_writeall (fd : WFd) (x : Bytes) (r : Int) (fd' : WFd)
    (h : writeall fd x = some (r, fd')) :
    ∃ p q, x = p ++ q ∧ fd'.out = fd.out ++ p ∧
      ((r = 0 ∧ q = []) ∨
       (r = -1 ∧ q ≠ [] ∧ ∃ u ev, fd.evs = u ++ ev :: fd'.evs ∧
         (ev = .zero ∨ ev = .eintr .err ∨ ev = .eagain .err ∨ ∃ e, ev = .err e))) := by
  obtain ⟨p, q, used, e1, e2, e3, e4⟩ := writeallLoop_prefix _ _ _ _ _ h
  refine ⟨p, q, e1, e2, ?_⟩
  rcases e4 with e4 | ⟨e4, e5, u, ev, rfl, e6⟩
  · exact .inl e4
  · exact .inr ⟨e4, e5, u, ev, by rw [e3]; simp, e6⟩

/-- C14: the write returns as soon as enough write calls accepted something. -/
theorem c14_writeall_returns (fd : WFd) (x : Bytes) (h : x.length ≤ wdataCount fd.evs) :
    writeall fd x ≠ none := writeallLoop_progress _ _ _ h

/-! ### C15 -/

/-- What a trace of a timed transfer may look like up to some point: clock
readings before the deadline, each followed by one bounded wait. -/
def Waiting (deadline : Int) (tr : List Act) : Prop :=
  ∃ rounds : List (Int × Int), tr = rounds.flatMap (fun r => [.clock r.1, .wait r.2]) ∧
    ∀ r ∈ rounds, r.1 < deadline ∧ 0 < r.2 ∧ r.2 ≤ deadline - r.1 ∧ r.2 ≤ 1000000000

theorem timedLoop_trace (deadline : Int) (evs : List (Int × Sel)) (tr0 tr : List Act) (r : TEnd)
    (h : timedLoop deadline evs tr0 = some (r, tr)) :
    ∃ w, Waiting deadline w ∧
      ((r = .timeout ∧ ∃ now, deadline ≤ now ∧ tr = tr0 ++ w ++ [.clock now]) ∨
       (r = .failed ∧ tr = tr0 ++ w) ∨
       (r = .transferred ∧ tr = tr0 ++ w ++ [.transfer])) := by
  induction evs generalizing tr0 with
  | nil => simp [timedLoop] at h
  | cons ev evs ih =>
    obtain ⟨now, sel⟩ := ev
    rw [timedLoop] at h
    by_cases hd : deadline - now ≤ 0
    · rw [if_pos hd] at h
      simp only [Option.some.injEq, Prod.mk.injEq] at h
      obtain ⟨rfl, rfl⟩ := h
      exact ⟨[], ⟨[], rfl, by simp⟩, .inl ⟨rfl, now, by omega, by simp⟩⟩
    · rw [if_neg hd] at h
      generalize htm : (if deadline - now > 1000000000 then (1000000000 : Int) else deadline - now) = tm at h
      have hb : now < deadline ∧ 0 < tm ∧ tm ≤ deadline - now ∧ tm ≤ 1000000000 := by
        split at htm <;> omega
      have one : Waiting deadline [.clock now, .wait tm] :=
        ⟨[(now, tm)], rfl, by simpa using hb⟩
      have step : ∀ w, Waiting deadline w → Waiting deadline ([.clock now, .wait tm] ++ w) := by
        rintro w ⟨rounds, rfl, hr⟩
        refine ⟨(now, tm) :: rounds, rfl, ?_⟩
        intro x hx
        rcases List.mem_cons.mp hx with rfl | hx
        · exact hb
        · exact hr x hx
      have again : timedLoop deadline evs (tr0 ++ [.clock now] ++ [.wait tm]) = some (r, tr) →
          ∃ w, Waiting deadline w ∧
          ((r = .timeout ∧ ∃ now, deadline ≤ now ∧ tr = tr0 ++ w ++ [.clock now]) ∨
           (r = .failed ∧ tr = tr0 ++ w) ∨
           (r = .transferred ∧ tr = tr0 ++ w ++ [.transfer])) := by
        intro h
        obtain ⟨w, hw, hc⟩ := ih _ h
        refine ⟨_, step w hw, ?_⟩
        rcases hc with ⟨h1, n, h2, h3⟩ | ⟨h1, h3⟩ | ⟨h1, h3⟩
        · exact .inl ⟨h1, n, h2, by rw [h3]; simp⟩
        · exact .inr (.inl ⟨h1, by rw [h3]; simp⟩)
        · exact .inr (.inr ⟨h1, by rw [h3]; simp⟩)
      cases sel with
      | ready =>
        simp only [Option.some.injEq, Prod.mk.injEq] at h
        obtain ⟨rfl, rfl⟩ := h
        exact ⟨_, one, .inr (.inr ⟨rfl, by simp⟩)⟩
      | notReady => exact again h
      | eintr => exact again h
      | err =>
        simp only [Option.some.injEq, Prod.mk.injEq] at h
        obtain ⟨rfl, rfl⟩ := h
        exact ⟨_, one, .inr (.inl ⟨rfl, by simp⟩)⟩

/-- C15: for every timeout of `t >= 0` seconds, every start time and every
sequence of clock readings and select outcomes: the trace of a timed transfer is
the initial clock reading, then rounds of one clock reading before the deadline
and one wait of positive length not exceeding the remaining time, and then
either a clock reading at or after the deadline (timeout, no transfer), or
exactly one transfer as the last action, or a failed wait. The deadline is the
start time plus `t` seconds. -/
theorem c15_timed (t len fd fdsetsize start : Int) (evs : List (Int × Sel)) (r : TEnd)
    (tr : List Act) (ht : 0 ≤ t) (hl : 0 ≤ len) (hf : 0 ≤ fd ∧ fd < fdsetsize)
    (hno : 1000000 * t + start ≤ llmax)
    (h : timed t len fd fdsetsize start evs = .ok (some (r, tr))) :
    ∃ w, Waiting (1000000 * t + start) w ∧
      ((r = .timeout ∧ ∃ now, 1000000 * t + start ≤ now ∧ tr = [.clock start] ++ w ++ [.clock now]) ∨
       (r = .failed ∧ tr = [.clock start] ++ w) ∨
       (r = .transferred ∧ tr = [.clock start] ++ w ++ [.transfer])) := by
  have hdl : 1000000 * (t + start / 1000000) + start % 1000000 = 1000000 * t + start := by omega
  unfold timed at h
  rw [if_neg (by omega)] at h
  simp only [hdl] at h
  rw [if_pos hno] at h
  simp only [Out.ok.injEq] at h
  exact timedLoop_trace _ _ _ _ _ h

/-- C15: no undefined arithmetic for the timeouts the program accepts (at most
86400 s) until well after the year 250000. -/
theorem c15_no_overflow (t len fd fdsetsize start : Int) (evs : List (Int × Sel))
    (ht : t ≤ 86400) (hs : start ≤ 9000000000000000000) :
    timed t len fd fdsetsize start evs ≠ .ub := by
  unfold timed
  split
  · simp
  · simp only []
    rw [if_pos (by simp only [llmax]; omega)]
    simp

/-- C15: invalid arguments cause no waiting and no transfer. -/
theorem c15_invalid (t len fd fdsetsize start : Int) (evs : List (Int × Sel))
    (h : t < 0 ∨ len < 0 ∨ fd < 0 ∨ fd ≥ fdsetsize) :
    timed t len fd fdsetsize start evs = .ok (some (.invalid, [])) := if_pos h

/-! Satisfiability. -/

example : readall ⟨b!"hello world", [.data 1, .eintr, .data 0, .eagain, .data 9]⟩ 5 =
    some (0, b!"hello", ⟨b!" world", []⟩) := by decide
example : readall ⟨b!"he", [.data 1, .eintr, .data 0]⟩ 5 = some (-1, b!"he", ⟨[], []⟩) := by decide
example : writeall ⟨[], [.data 1, .eagain .ok, .data 9]⟩ b!"hello" = some (0, ⟨b!"hello", []⟩) := by decide
example : writeall ⟨[], [.data 1, .err 5]⟩ b!"hello" = some (-1, ⟨b!"he", []⟩) := by decide
example : timed 1 10 3 1024 5000000 [(5000000, .eintr), (5900000, .notReady), (6000000, .ready)] =
    .ok (some (.timeout, [.clock 5000000, .clock 5000000, .wait 1000000, .clock 5900000,
      .wait 100000, .clock 6000000])) := by decide

end Rw
