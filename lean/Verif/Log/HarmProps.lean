import Verif.Log.Harm
import Verif.Log.Props
/-
C96: logging changes nothing that the program does, whatever standard error does, except
that it can wait for it.
-/
namespace Log

/-- Writes that were not merely interrupted. -/
def calls (evs : List W) : Nat := (evs.filter (· ≠ .eintr)).length

theorem calls_append (a b : List W) : calls (a ++ b) = calls a + calls b := by simp [calls]

theorem used_append {s s' : St} {u : List W} (h : s.evs = u ++ s'.evs) : used s s' = u := by
  unfold used
  rw [h]
  simp

theorem flushLoop_calls (b : Bytes) (retries : Nat) (hr : retries < 64) (evs : List W) (err : Bytes) :
    ∃ u, evs = u ++ (flushLoop b retries evs err).2.1 ∧
      calls u + (if b = [] then 0 else retries) ≤ 64 * b.length := by
  induction evs generalizing b retries err with
  | nil =>
    unfold flushLoop
    cases b with
    | nil => exact ⟨[], rfl, by simp [calls]⟩
    | cons x xs => exact ⟨[], rfl, by simp [calls]; omega⟩
  | cons e evs ih =>
    unfold flushLoop
    cases b with
    | nil => exact ⟨[], rfl, by simp [calls]⟩
    | cons x xs =>
      rw [if_pos (by simp)]
      have hne : (if x :: xs = [] then 0 else retries) = retries := if_neg (by simp)
      cases e with
      | data m =>
        dsimp only
        obtain ⟨u, h1, h2⟩ := ih ((x :: xs).drop (min (x :: xs).length (m + 1))) 0 (by omega)
          (err ++ (x :: xs).take (min (x :: xs).length (m + 1)))
        refine ⟨.data m :: u, by rw [List.cons_append, ← h1], ?_⟩
        have h3 : calls (.data m :: u) = 1 + calls u := by simp [calls]; omega
        rw [h3, hne]
        simp only [List.length_drop, List.length_cons] at h2 ⊢
        split at h2 <;> omega
      | zero =>
        refine ⟨[.zero], rfl, ?_⟩
        rw [hne]
        simp [calls]
        omega
      | err =>
        refine ⟨[.err], rfl, ?_⟩
        rw [hne]
        simp [calls]
        omega
      | eintr =>
        dsimp only
        obtain ⟨u, h1, h2⟩ := ih (x :: xs) retries hr err
        refine ⟨.eintr :: u, by rw [List.cons_append, ← h1], ?_⟩
        have h3 : calls (.eintr :: u) = calls u := by simp [calls]
        rw [h3]
        exact h2
      | eagain =>
        dsimp only
        by_cases hc : retries + 1 < 64
        · rw [if_pos hc]
          obtain ⟨u, h1, h2⟩ := ih (x :: xs) (retries + 1) hc err
          refine ⟨.eagain :: u, by rw [List.cons_append, ← h1], ?_⟩
          have h3 : calls (.eagain :: u) = 1 + calls u := by simp [calls]; omega
          rw [h3, hne]
          rw [if_neg (by simp)] at h2
          omega
        · rw [if_neg hc]
          refine ⟨[.eagain], rfl, ?_⟩
          rw [hne]
          simp [calls]
          omega

theorem flush_calls (s : St) : ∃ u, s.evs = u ++ (flush s).evs ∧ calls u ≤ 64 * s.buflen := by
  obtain ⟨u, h1, h2⟩ := flushLoop_calls (s.buf.take s.buflen) 0 (by omega) s.evs s.err
  refine ⟨u, h1, ?_⟩
  have : (s.buf.take s.buflen).length ≤ s.buflen := by simp; omega
  have h3 : calls u ≤ 64 * (s.buf.take s.buflen).length := by split at h2 <;> omega
  omega

theorem emit_calls (x : Bytes) (s s' : St) (h : emit s x = .ok s') :
    ∃ u, s.evs = u ++ s'.evs ∧ calls u ≤ 64 * (s.buflen + x.length) := by
  induction x generalizing s with
  | nil =>
    simp only [emit, Out.ok.injEq] at h
    subst h
    split
    · exact ⟨[], rfl, by simp [calls]⟩
    · obtain ⟨u, h1, h2⟩ := flush_calls s
      exact ⟨u, h1, by simpa using h2⟩
  | cons b bs ih =>
    simp only [emit] at h
    cases h1 : outch s b with
    | ub => rw [h1] at h; cases h
    | ok t =>
      rw [h1] at h
      simp only [Out.ok_bind] at h
      obtain ⟨u2, g1, g2⟩ := ih t h
      have key : ∃ u, s.evs = u ++ t.evs ∧ calls u + 64 * t.buflen ≤ 64 * (s.buflen + 1) := by
        unfold outch at h1
        split at h1
        · cases h1; exact ⟨[], rfl, by simp [calls]; omega⟩
        · dsimp only at h1
          split at h1
          · obtain ⟨u, k1, k2⟩ := flush_calls s
            split at h1
            · cases h1; exact ⟨u, k1, by simp [flush]; omega⟩
            · cases hw : wr (flush s).buf (flush s).buflen b with
              | ub => rw [hw] at h1; cases h1
              | ok buf =>
                rw [hw] at h1
                cases h1
                exact ⟨u, k1, by simp [flush]; omega⟩
          · try rw [if_neg (by assumption)] at h1
            · cases hw : wr s.buf s.buflen b with
              | ub => rw [hw] at h1; cases h1
              | ok buf =>
                rw [hw] at h1
                cases h1
                exact ⟨[], rfl, by simp [calls]⟩
      obtain ⟨u, k1, k2⟩ := key
      refine ⟨u ++ u2, by rw [k1, g1]; simp, ?_⟩
      rw [calls_append]
      simp only [List.length_cons]
      omega

theorem log_9_eq (c : Cfg) (w : Whitelist) (lv : Levels) (a : Args) (s : St) :
    log_9_ c w lv a s = if a.level > lv.gate then .ok s else
      wanted w a >>= fun m => if m = 0 then .ok s else record c lv a >>= fun r => emit s r := by
  unfold log_9_ wanted
  by_cases h : a.level ≥ 4 <;> simp only [h, if_true, if_false] <;> rfl

/-- **C96 (errno).** Whatever the settings, the clock and the writes to standard error do: when
a log call returns, errno is what it was before. -/
theorem c96_errno (other tz : Int) (c : Cfg) (w : Whitelist) (lv0 : Int) (lv : Levels) (a : Args)
    (s s' : St) (e : Int) (h : logMacroE other tz c w lv0 lv a s = .ok (s', e))
    (hb : s'.blocked = false) : e = a.errno := by
  unfold logMacroE at h
  split at h
  · cases h; rfl
  · unfold log_9E at h
    dsimp only at h
    split at h
    · cases h; rfl
    · cases hm : wanted w a with
      | ub => rw [hm] at h; cases h
      | ok m =>
        rw [hm] at h
        simp only [Out.ok_bind] at h
        split at h
        · cases h; rfl
        · cases hr : record c lv a with
          | ub => rw [hr] at h; cases h
          | ok r =>
            rw [hr] at h
            simp only [Out.ok_bind] at h
            cases he : emit s r with
            | ub => rw [he] at h; cases h
            | ok t =>
              rw [he] at h
              simp only [Out.ok_bind] at h
              split at h
              · next hbt => cases h; rw [hb] at hbt; cases hbt
              · cases h; rfl

/-- The output side is the same as in the model without errno, so C35 to C37 apply. -/
theorem c96_same_output (other tz : Int) (c : Cfg) (w : Whitelist) (lv0 : Int) (lv : Levels)
    (a : Args) (s s' : St) (e : Int) (h : logMacroE other tz c w lv0 lv a s = .ok (s', e)) :
    logMacro c w lv0 lv a s = .ok s' := by
  unfold logMacroE at h
  unfold logMacro
  split at h
  · next hl => cases h; rw [if_pos hl]
  · next hl =>
    rw [if_neg hl]
    unfold log_9E at h
    rw [log_9_eq]
    dsimp only at h
    split at h
    · next hg => cases h; rw [if_pos hg]
    · next hg =>
      rw [if_neg hg]
      cases hm : wanted w a with
      | ub => rw [hm] at h; cases h
      | ok m =>
        rw [hm] at h
        simp only [Out.ok_bind] at h ⊢
        split at h
        · next h0 => cases h; rw [if_pos h0]
        · next h0 =>
          rw [if_neg h0]
          cases hr : record c lv a with
          | ub => rw [hr] at h; cases h
          | ok r =>
            rw [hr] at h
            simp only [Out.ok_bind] at h ⊢
            cases he : emit s r with
            | ub => rw [he] at h; cases h
            | ok t =>
              rw [he] at h
              simp only [Out.ok_bind] at h
              split at h <;> cases h <;> rfl

/-- **C96 (reads and writes).** A logged read or write gives its caller exactly the result and
the errno of the plain call: at every verbosity, for every whitelist, whatever standard error
does with the record. (Callers decide by errno whether to try again or to give up.) -/
theorem c96_read_write (wouldblock : Int) (named buf : Bool) (len : Int) (call : Int → Int × Int)
    (g : Logger) (bug : Args) (rec : Int → Args) (s s' : St) (r e : Int)
    (h : fdLogged wouldblock named buf len call g bug rec s = .ok (s', r, e))
    (hb : s'.blocked = false) :
    (r, e) = fdCall wouldblock buf len call := by
  unfold fdLogged at h
  split at h
  · next hbuf =>
    cases hm : logMacroE g.other g.tz g.cfg g.w g.lv0 g.lv { bug with errno := 22 } s with
    | ub => rw [hm] at h; cases h
    | ok v =>
      rw [hm] at h
      cases h
      have := c96_errno _ _ _ _ _ _ _ _ _ _ hm hb
      rw [this]
      simp [fdCall, hbuf]
  · next hbuf =>
    split at h
    · next hl =>
      cases hm : logMacroE g.other g.tz g.cfg g.w g.lv0 g.lv { bug with errno := 22 } s with
      | ub => rw [hm] at h; cases h
      | ok v =>
        rw [hm] at h
        cases h
        have := c96_errno _ _ _ _ _ _ _ _ _ _ hm hb
        rw [this]
        unfold fdCall
        rw [if_neg hbuf, if_pos hl]
    · dsimp only at h
      split at h
      · cases h; rfl
      · cases hm : logMacroE g.other g.tz g.cfg g.w g.lv0 g.lv
            { rec (fdCall wouldblock buf len call).1 with
              errno := (fdCall wouldblock buf len call).2 } s with
        | ub => rw [hm] at h; cases h
        | ok v =>
          rw [hm] at h
          cases h
          have := c96_errno _ _ _ _ _ _ _ _ _ _ hm hb
          rw [this]

/-- **C96 (what the callers see).** The plain call: at most 1 MiB is asked for; a negative length
or a NULL buffer is refused without a call (errno EINVAL); otherwise the result is the system
call's, errno is 0 unless it failed, and a call that would block is reported as EAGAIN whatever
the system calls it. -/
theorem c96_plain (wouldblock : Int) (buf : Bool) (len : Int) (call : Int → Int × Int) :
    ((buf = false ∨ len < 0) → fdCall wouldblock buf len call = (-1, 22)) ∧
    (buf = true → 0 ≤ len →
      (fdCall wouldblock buf len call).1 = (call (min len 1048576)).1 ∧
      ((call (min len 1048576)).1 ≠ -1 → (fdCall wouldblock buf len call).2 = 0) ∧
      (∀ e, call (min len 1048576) = (-1, e) →
        (fdCall wouldblock buf len call).2 = if e = wouldblock then 11 else e)) := by
  constructor
  · rintro (h | h)
    · simp [fdCall, h]
    · cases buf <;> simp [fdCall, h]
  · intro hb hl
    have e : (if len > 1048576 then (1048576 : Int) else len) = min len 1048576 := by
      split <;> omega
    unfold fdCall
    rw [if_neg (by simp [hb]), if_neg (by omega), e]
    dsimp only
    refine ⟨by split <;> split <;> rfl, ?_, ?_⟩
    · intro hn
      rw [if_neg (fun h => hn h.1)]
      simp [hn]
    · intro e he
      rw [he]
      simp only [if_true]
      by_cases hw : e = wouldblock
      · simp [hw]
      · simp [hw]

/-- **C96 (bounded work).** One record costs at most 64 writes per byte of it, not counting those
interrupted by a signal: a standard error that refuses (closed, full, always EAGAIN) cannot
keep the program busy for ever. -/
theorem c96_calls_partial (m : Cfg) (c : Settings) (hc : m.Holds c) (w : Whitelist) (lv : Levels) (a : Args)
    (e : Event) (he : a.Holds e) (h4 : e.level ≤ 4)
    (s s' : St) (hs : s.Idle) (h : log_9_ m w lv a s = .ok s') :
    ∃ u, s.evs = u ++ s'.evs ∧ calls u ≤ 64 * (recordText c lv.loc lv.id e).length := by
  have emitted : ∀ t, (do let r ← record m lv a; emit s r) = .ok t →
      ∃ u, s.evs = u ++ t.evs ∧ calls u ≤ 64 * (recordText c lv.loc lv.id e).length := by
    intro t ht
    rw [record_text m c hc lv a e he h4] at ht
    simp only [Out.ok_bind] at ht
    obtain ⟨u, g1, g2⟩ := emit_calls _ _ _ ht
    rw [hs.2.1] at g2
    exact ⟨u, g1, by omega⟩
  rw [log_9_eq] at h
  split at h
  · cases h; exact ⟨[], rfl, by simp [calls]⟩
  · cases hm : wanted w a with
    | ub => rw [hm] at h; cases h
    | ok k =>
      rw [hm] at h
      simp only [Out.ok_bind] at h
      split at h
      · cases h; exact ⟨[], rfl, by simp [calls]⟩
      · exact emitted _ h

theorem flushLoop_stuck (b : Byte) (bs err : Bytes) (n : Nat) :
    flushLoop (b :: bs) 0 (List.replicate n .eintr) err = (err, [], true) := by
  induction n with
  | zero => unfold flushLoop; rfl
  | succ n ih =>
    rw [List.replicate_succ]
    unfold flushLoop
    rw [if_pos (by simp)]
    exact ih

theorem flush_stuck (s : St) (n : Nat) (he : s.evs = List.replicate n .eintr)
    (hp : 0 < s.buflen) (hb : s.buf.length = 256) : (flush s).blocked = true := by
  unfold flush
  rw [he]
  cases h : s.buf.take s.buflen with
  | nil =>
    have := congrArg List.length h
    simp [hb] at this
    omega
  | cons x xs => rw [flushLoop_stuck]

theorem emit_keeps {x : Bytes} {s s' : St} (hs : s.blocked = true) (h : emit s x = .ok s') :
    s'.blocked = true := by
  induction x generalizing s with
  | nil =>
    simp only [emit, hs, if_true, Out.ok.injEq] at h
    rw [← h]; exact hs
  | cons b bs ih =>
    simp only [emit, outch, hs, if_true, Out.ok_bind] at h
    exact ih hs h

theorem emit_stuck (x : Bytes) (s s' : St) (n : Nat) (he : s.evs = List.replicate n .eintr)
    (hb : s.buf.length = 256) (hp : 0 < s.buflen ∨ x ≠ []) (h : emit s x = .ok s') :
    s'.blocked = true := by
  induction x generalizing s with
  | nil =>
    simp only [emit, Out.ok.injEq] at h
    rcases hp with hp | hp
    · split at h
      · next hbl => rw [← h]; exact hbl
      · rw [← h]; exact flush_stuck s n he hp hb
    · exact absurd rfl hp
  | cons b bs ih =>
    by_cases hbl : s.blocked = true
    · exact emit_keeps hbl h
    · simp only [emit] at h
      cases h1 : outch s b with
      | ub => rw [h1] at h; cases h
      | ok t =>
        rw [h1] at h
        simp only [Out.ok_bind] at h
        unfold outch at h1
        rw [if_neg hbl] at h1
        dsimp only at h1
        by_cases hf : s.buflen ≥ 256
        · rw [if_pos hf, if_pos (flush_stuck s n he (by omega) hb)] at h1
          cases h1
          exact emit_keeps (flush_stuck s n he (by omega) hb) h
        · rw [if_neg hf, if_neg hbl] at h1
          cases hw : wr s.buf s.buflen b with
          | ub => rw [hw] at h1; cases h1
          | ok buf =>
            rw [hw] at h1
            cases h1
            refine ih ⟨buf, s.buflen + 1, s.err, s.evs, s.blocked⟩ he ?_ (.inl (Nat.succ_pos _)) h
            have : buf.length = s.buf.length := by
              unfold wr at hw
              split at hw <;> cases hw
              simp
            simp [this, hb]

/-- **C96 (violation).** But a standard error that neither accepts nor refuses (a pipe whose reader
has stopped reading) holds the program inside the log call for ever, however many signals
interrupt the write: not even the inactivity timeout gets it out, because the write that
SIGALRM interrupts is simply made again. -/
theorem c96_stuck (m : Cfg) (c : Settings) (hc : m.Holds c) (w : Whitelist) (lv : Levels) (a : Args)
    (e : Event) (f : Option Bytes) (he : a.Holds e) (hf : Ptr a.f f) (h1 : 1 ≤ e.level)
    (h4 : e.level ≤ 4) (hd : Due lv.gate w f e.level) (s s' : St) (hs : s.Idle) (n : Nat)
    (hev : s.evs = List.replicate n .eintr) (h : log_9_ m w lv a s = .ok s') :
    s'.blocked = true := by
  have hne : recordText c lv.loc lv.id e ≠ [] := by
    unfold recordText
    rw [if_neg (by omega)]
    simp
  rcases log_cases m c hc w lv a e f he hf h4 s hs with ⟨hn, -⟩ | ⟨-, -⟩
  · exact absurd hd hn
  · rw [log_9_eq] at h
    have hg : ¬ a.level > lv.gate := by rw [he.level]; have := hd.1; omega
    rw [if_neg hg] at h
    cases hm : wanted w a with
    | ub => rw [hm] at h; cases h
    | ok k =>
      rw [hm] at h
      simp only [Out.ok_bind] at h
      have hk : k ≠ 0 := by
        unfold wanted at hm
        split at hm
        · next hl =>
          rcases whitelist_ok w a.f f hf with ⟨k1, _⟩ | ⟨_, k2⟩
          · rw [k1] at hm; cases hm; omega
          · exact absurd (hd.2 (by have := he.level; omega)) k2
        · cases hm; omega
      rw [if_neg hk, record_text m c hc lv a e he h4] at h
      simp only [Out.ok_bind] at h
      exact emit_stuck _ _ _ n hev hs.1 (.inr hne) h

/-- A logged read that fails with EINTR while standard error is full: the caller still sees EINTR. -/
example : (match fdLogged 11 true true 10 (fun _ => (-1, 4))
    ⟨5, 0, ⟨none, false, none, none, false, none, List.replicate 68 0⟩, [], 4, ⟨4, 4, 4⟩⟩
    ⟨1, 2, none, 0, none, [], 0⟩ (fun _ => ⟨4, 0, none, 0, none, [some b!"x\x00"], 0⟩)
    ⟨List.replicate 256 0, 0, [], List.replicate 64 .eagain ++ [.data 3], false⟩ with
    | .ok (s', r, e) => decide (r = -1 ∧ e = 4 ∧ s'.evs = [.data 3] ∧ s'.blocked = false)
    | .ub => false) = true := by decide +kernel

end Log
