import Verif.Buffer.Lemmas
import Verif.Buffer.Spec
/-
C19, C20, C21: the buffered streams.
-/
namespace Buffer
open Io

theorem orun_step (o : OOp) (b : OBuf) (hb : OInv b) (ho : o.ok) :
    o.run b = .ok none ∨ ∃ r b', o.run b = .ok (some (r, b')) ∧ OStep b o.payload r b' ∧
      (r = 0 → o.flushes = true → b'.p = 0) := by
  cases o with
  | put x =>
    rcases bput_ok b x hb with h | ⟨r, b', h1, h2⟩
    · exact .inl h
    · exact .inr ⟨r, b', h1, h2, by simp [OOp.flushes]⟩
  | puts s rest =>
    have : OOp.run b (.puts s rest) = bput b s := by
      simp only [OOp.run, bputs, Str.str_len_ok s rest ho, Out.ok_bind]
      simp [cstr]
    rw [this]
    rcases bput_ok b s hb with h | ⟨r, b', h1, h2⟩
    · exact .inl h
    · exact .inr ⟨r, b', h1, h2, by simp [OOp.flushes]⟩
  | putflush x =>
    rcases putflush_ok b x hb with h | ⟨r, b', h1, h2, h3⟩
    · exact .inl (by simp [OOp.run, h])
    · exact .inr ⟨r, b', by simp [OOp.run, h1], h2, fun h _ => h3 h⟩
  | putsflush s rest =>
    have : OOp.run b (.putsflush s rest) = .ok (putflush b s) := by
      simp only [OOp.run, putsflush, Str.str_len_ok s rest ho, Out.ok_bind]
      simp [cstr]
    rw [this]
    rcases putflush_ok b s hb with h | ⟨r, b', h1, h2, h3⟩
    · exact .inl (by simp [h])
    · exact .inr ⟨r, b', by simp [h1], h2, fun h _ => h3 h⟩
  | putc c =>
    rcases putc_ok b c hb with h | ⟨r, b', h1, h2⟩
    · exact .inl h
    · exact .inr ⟨r, b', h1, h2, by simp [OOp.flushes]⟩
  | flush =>
    cases h : Buffer.flush b with
    | none => exact .inl (by simp [OOp.run, h])
    | some v =>
      obtain ⟨r, b'⟩ := v
      obtain ⟨h1, h2, h3, h4⟩ := flush_ok _ _ _ hb h
      exact .inr ⟨r, b', by simp [OOp.run, h], h1, fun h _ => h3 h⟩

theorem orun_ok (os : List OOp) (b : OBuf) (hb : OInv b) (ho : ∀ o ∈ os, o.ok) :
    orun b os = .ok none ∨ ∃ r b', orun b os = .ok (some (r, b')) ∧
      OStep b (os.map OOp.payload).flatten r b' := by
  induction os generalizing b with
  | nil => exact .inr ⟨0, b, rfl, hb, rfl, ⟨[], by simp⟩, .inl ⟨rfl, by simp⟩⟩
  | cons o os ih =>
    rw [orun]
    rcases orun_step o b hb (ho o (by simp)) with h | ⟨r, b1, h1, h2, -⟩
    · left; rw [h]
    · rw [h1]
      simp only []
      by_cases hr : r = 0
      · subst hr
        rw [if_pos rfl]
        rcases ih b1 h2.1 (fun o h => ho o (by simp [h])) with h | ⟨r, b2, h3, h4⟩
        · exact .inl h
        · exact .inr ⟨r, b2, h3, by simpa using ostep_trans h2 h4⟩
      · rw [if_neg hr]
        right
        obtain ⟨h3, h4, h5, h6⟩ := h2
        rcases h6 with ⟨h6, _⟩ | ⟨h6, p, q, e, hq, h7⟩
        · exact absurd h6 hr
        · refine ⟨r, b1, rfl, h3, h4, h5, .inr ⟨h6, p, q ++ (os.map OOp.payload).flatten, ?_, by simp [hq], h7⟩⟩
          simp only [List.map_cons, List.flatten_cons]
          rw [← List.append_assoc, e, List.append_assoc]

/-- C19: for every storage, every write schedule and every sequence of operations
on a fresh output buffer: the storage is never overrun, and if the operations
return then either all succeeded and written ++ buffered is exactly everything
put, or the last one reported an error and what was written is a proper prefix. -/
theorem c19_stream (storage : Bytes) (fd : WFd) (os : List OOp) (ho : ∀ o ∈ os, o.ok) :
    orun (oinit storage fd) os = .ok none ∨
    ∃ r b', orun (oinit storage fd) os = .ok (some (r, b')) ∧
      b'.x.length = storage.length ∧ b'.p ≤ storage.length ∧
      ((r = 0 ∧ b'.fd.out ++ b'.x.take b'.p = fd.out ++ (os.map OOp.payload).flatten) ∨
       (r = -1 ∧ ∃ p q, (os.map OOp.payload).flatten = p ++ q ∧ q ≠ [] ∧ b'.fd.out = fd.out ++ p)) := by
  rcases orun_ok os (oinit storage fd) (Nat.zero_le _) ho with h | ⟨r, b', h1, h2, h3, h4, h5⟩
  · exact .inl h
  · refine .inr ⟨r, b', h1, h3, by unfold OInv at h2; rw [h3] at h2; exact h2, ?_⟩
    rcases h5 with ⟨h5, h6⟩ | ⟨h5, p, q, h6, h7, h8⟩
    · exact .inl ⟨h5, by simpa [pending, oinit] using h6⟩
    · exact .inr ⟨h5, p, q, by simpa [pending, oinit] using h6, h7, h8⟩

theorem orun_append (os os' : List OOp) (b : OBuf) :
    orun b (os ++ os') = match orun b os with
      | .ub => .ub
      | .ok none => .ok none
      | .ok (some (r, b')) => if r = 0 then orun b' os' else .ok (some (r, b')) := by
  induction os generalizing b with
  | nil => simp [orun]
  | cons o os ih =>
    simp only [List.cons_append, orun]
    cases h : o.run b with
    | ub => rfl
    | ok v =>
      cases v with
      | none => rfl
      | some v =>
        obtain ⟨r, b'⟩ := v
        simp only []
        by_cases hr : r = 0
        · simp only [hr, if_true]; exact ih b'
        · simp only [hr, if_false]

/-- C19: when a sequence ends in a flushing operation and succeeds, nothing is
left buffered: everything put has been handed to the descriptor. -/
theorem c19_flush (storage : Bytes) (fd : WFd) (os : List OOp) (o : OOp)
    (ho : ∀ x ∈ os ++ [o], x.ok) (hf : o.flushes = true) (b' : OBuf)
    (h : orun (oinit storage fd) (os ++ [o]) = .ok (some (0, b'))) :
    b'.p = 0 ∧ b'.fd.out = fd.out ++ ((os ++ [o]).map OOp.payload).flatten := by
  have hp : b'.p = 0 := by
    rw [orun_append] at h
    rcases orun_ok os (oinit storage fd) (Nat.zero_le _) (fun x hx => ho x (by simp [hx])) with
      h1 | ⟨r, b1, h1, h2⟩
    · rw [h1] at h; simp at h
    · rw [h1] at h
      simp only [] at h
      by_cases hr : r = 0
      · rw [if_pos hr] at h
        rcases orun_step o b1 h2.1 (ho o (by simp)) with h3 | ⟨r2, b2, h3, h4, h5⟩
        · simp [orun, h3] at h
        · simp only [orun, h3] at h
          by_cases hr2 : r2 = 0
          · rw [if_pos hr2] at h
            simp only [Out.ok.injEq, Option.some.injEq, Prod.mk.injEq, true_and] at h
            subst h
            exact h5 hr2 hf
          · rw [if_neg hr2] at h
            simp [hr2] at h
      · rw [if_neg hr] at h
        simp [hr] at h
  refine ⟨hp, ?_⟩
  rcases c19_stream storage fd (os ++ [o]) ho with h1 | ⟨r, b1, h1, -, -, h2⟩
  · rw [h1] at h; simp at h
  · rw [h1] at h
    simp only [Out.ok.injEq, Option.some.injEq, Prod.mk.injEq] at h
    obtain ⟨rfl, rfl⟩ := h
    rcases h2 with ⟨-, h2⟩ | ⟨h2, _⟩
    · simpa [hp] using h2
    · exact absurd h2 (by decide)

/-- a 3-byte buffer, a put that overflows it, partial writes, EINTR: order kept -/
example : orun (oinit [0,0,0] ⟨[], [.data 0, .eintr .ok, .data 9, .data 9, .data 9]⟩)
      [.put b!"ab", .puts b!"cd" b!"junk", .putc (c! 'e'), .flush]
    = .ok (some (0, ⟨b!"dec", 0, ⟨b!"abcde", [.data 9]⟩⟩)) := by decide
/-- a zero-size buffer writes through -/
example : orun (oinit [] ⟨[], [.data 9, .data 9]⟩) [.put b!"ab", .putc (c! 'c')]
    = .ok (some (0, ⟨[], 0, ⟨b!"abc", []⟩⟩)) := by decide
/-- an error -/
example : orun (oinit [0,0] ⟨[], [.data 0, .err 5]⟩) [.put b!"ab", .put b!"cd", .put b!"ef"]
    = .ok (some (-1, ⟨[0,0], 0, ⟨b!"a", []⟩⟩)) := by decide

/-- C19, limit: after a reported error a retried flush writes bytes twice (the
pending count is only reset on success, buffer.c:84-85). -/
theorem c19_retry_duplicates : ∃ b b' b'', flush b = some (-1, b') ∧ flush b' = some (0, b'') ∧
    b''.fd.out ≠ b.fd.out ++ b.x.take b.p :=
  ⟨⟨b!"ab", 2, ⟨[], [.data 0, .eagain .ok, .data 9]⟩⟩, ⟨b!"ab", 2, ⟨b!"a", [.data 9]⟩⟩,
    ⟨b!"ab", 0, ⟨b!"aab", []⟩⟩, by decide, by decide, by decide⟩

/-! ### Input -/

/-- An invariant of every reachable input buffer. -/
theorem istep_run (o : IOp) (b : IBuf) (hb : IInv b) (hc : 0 < b.x.length) :
    o.run b = .ok none ∨ ∃ r d b', o.run b = .ok (some (r, d, b')) ∧ IStep b d b' ∧
      (r ≤ 0 → o.wants = true →
        (r = 0 ∧ b.fd.src = [] ∧ avail b = []) ∨ (r = -1 ∧ RFail b b')) := by
  cases o with
  | get k =>
    rcases bget_ok b k hb with h | ⟨r, d, b', h1, h2, h3, h4⟩
    · exact .inl h
    · refine .inr ⟨r, d, b', h1, h2, fun hr hw => ?_⟩
      rcases h4 with ⟨h4, h5⟩ | ⟨h4, h5, h6⟩
      · left
        have hd : d = [] := List.length_eq_zero_iff.mp (by omega)
        refine ⟨by simp [h4, hd], h5 hd (by simpa [IOp.wants] using hw)⟩
      · exact .inr ⟨h4, h6⟩
  | getc =>
    rcases getc_ok b hb with h | ⟨r, d, b', h1, h2, h3, h4⟩
    · exact .inl h
    · refine .inr ⟨r, d, b', h1, h2, fun hr hw => ?_⟩
      rcases h4 with ⟨h4, h5⟩ | ⟨h4, h5, h6⟩
      · left
        have hd : d = [] := List.length_eq_zero_iff.mp (by omega)
        refine ⟨by simp [h4, hd], h5 hd⟩
      · exact .inr ⟨h4, h6⟩
  | feed =>
    rcases feed_ok b hb with h | ⟨r, b', h1, h2, h3⟩
    · exact .inl (by simp [IOp.run, h])
    · refine .inr ⟨r, [], b', by simp [IOp.run, h1], h2, fun hr _ => ?_⟩
      rcases h3 with ⟨h3, h4⟩ | ⟨h3, h4, h5, h6, h7⟩
      · have : r = 0 := by omega
        exact .inl ⟨this, h4 this hc⟩
      · exact .inr ⟨h3, h7⟩
  | peek k =>
    rcases feed_ok b hb with h | ⟨r, b', h1, h2, h3⟩
    · exact .inl (by simp [IOp.run, h])
    · have hr : r.toNat = b'.p := by
        rcases h3 with ⟨h3, _⟩ | ⟨h3, -, -, h6, -⟩
        · omega
        · omega
      have hI := h2.1
      unfold IInv at hI
      refine .inr ⟨r, (b'.x.drop b'.n).take (min k b'.p),
        { b' with p := b'.p - min k b'.p, n := b'.n + min k b'.p }, ?_, ⟨?_, h2.2.1, ?_⟩, fun hr _ => ?_⟩
      · simp only [IOp.run, h1, Out.ok_bind, slice, hr]
        rw [if_pos (by omega)]
        rfl
      · simp only [IInv]; omega
      · rw [h2.2.2, List.nil_append]
        congr 1
        simp only [avail]
        rw [← List.drop_drop]
        have : b'.p = min k b'.p + (b'.p - min k b'.p) := by omega
        conv => lhs; rw [this]
        rw [List.take_add]
      · rcases h3 with ⟨h3, h4⟩ | ⟨h3, h4, h5, h6, h7⟩
        · have : r = 0 := by omega
          exact .inl ⟨this, h4 this hc⟩
        · exact .inr ⟨h3, h7⟩

theorem irun_ok (os : List IOp) (b : IBuf) (hb : IInv b) (hc : 0 < b.x.length) :
    irun b os = .ok none ∨ ∃ d b', irun b os = .ok (some (d, b')) ∧ IStep b d b' := by
  induction os generalizing b with
  | nil => exact .inr ⟨[], b, rfl, hb, rfl, by simp⟩
  | cons o os ih =>
    rw [irun]
    rcases istep_run o b hb hc with h | ⟨r, d, b1, h1, h2, -⟩
    · left; rw [h]
    · rw [h1]
      simp only []
      rcases ih b1 h2.1 (by rw [h2.2.1]; exact hc) with h | ⟨ds, b2, h3, h4⟩
      · left; rw [h]
      · right
        rw [h3]
        refine ⟨d ++ ds, b2, rfl, h4.1, by rw [h4.2.1, h2.2.1], ?_⟩
        rw [h2.2.2, List.append_assoc, h4.2.2]
        simp

/-- C20: for every nonempty storage, stream, read schedule and sequence of
operations on a fresh input buffer, the storage is never overrun and
delivered ++ buffered ++ unread is exactly the original stream. -/
theorem c20_stream (storage : Bytes) (hs : storage ≠ []) (fd : RFd) (os : List IOp) :
    irun (iinit storage fd) os = .ok none ∨
    ∃ d b', irun (iinit storage fd) os = .ok (some (d, b')) ∧
      b'.n + b'.p = storage.length ∧
      fd.src = d ++ (b'.x.drop b'.n).take b'.p ++ b'.fd.src := by
  have hc : 0 < storage.length := List.length_pos_iff.mpr hs
  rcases irun_ok os (iinit storage fd) (by simp [IInv, iinit]) hc with h | ⟨d, b', h1, h2, h3, h4⟩
  · exact .inl h
  · refine .inr ⟨d, b', h1, ?_, by simpa [avail, iinit] using h4⟩
    unfold IInv at h2
    rw [h2, h3]; rfl

/-- C20: after any history, an operation that asks for data and returns 0 or less
does so only at end of stream (0) or on a reported read error (-1). -/
theorem c20_eof (storage : Bytes) (hs : storage ≠ []) (fd : RFd) (os : List IOp) (ds : Bytes) (b : IBuf)
    (hrun : irun (iinit storage fd) os = .ok (some (ds, b))) (o : IOp) (hw : o.wants = true)
    (r : Int) (d : Bytes) (b' : IBuf) (h : o.run b = .ok (some (r, d, b'))) (hr : r ≤ 0) :
    (r = 0 ∧ ds = fd.src) ∨
    (r = -1 ∧ ∃ u ev, b.fd.evs = u ++ ev :: b'.fd.evs ∧ (ev = .eagain ∨ ∃ e, ev = .err e)) := by
  have hc : 0 < storage.length := List.length_pos_iff.mpr hs
  rcases irun_ok os (iinit storage fd) (by simp [IInv, iinit]) hc with h1 | ⟨d1, b1, h1, h2, h3, h4⟩
  · rw [h1] at hrun; simp at hrun
  · rw [h1] at hrun
    simp only [Out.ok.injEq, Option.some.injEq, Prod.mk.injEq] at hrun
    obtain ⟨rfl, rfl⟩ := hrun
    rcases istep_run o b1 h2 (by rw [h3]; exact hc) with h5 | ⟨r', d', b2, h5, h6, h7⟩
    · rw [h5] at h; simp at h
    · rw [h5] at h
      simp only [Out.ok.injEq, Option.some.injEq, Prod.mk.injEq] at h
      obtain ⟨rfl, rfl, rfl⟩ := h
      rcases h7 hr hw with ⟨h8, h9, h10⟩ | h8
      · left
        refine ⟨h8, ?_⟩
        rw [h9, h10] at h4
        simpa [avail, iinit] using h4.symm
      · exact .inr h8

/-- a get is never more than asked for -/
theorem c20_get_bound (b : IBuf) (hb : b.n + b.p = b.x.length) (k : Nat) (r : Int) (d : Bytes) (b' : IBuf)
    (h : bget b k = .ok (some (r, d, b'))) : d.length ≤ k ∧ (r = d.length ∨ (r = -1 ∧ d = [])) := by
  rcases bget_ok b k hb with h1 | ⟨r', d', b1, h1, -, h2, h3⟩
  · rw [h1] at h; simp at h
  · rw [h1] at h
    simp only [Out.ok.injEq, Option.some.injEq, Prod.mk.injEq] at h
    obtain ⟨rfl, rfl, rfl⟩ := h
    exact ⟨h2, h3.elim (fun h => .inl h.1) (fun h => .inr ⟨h.1, h.2.1⟩)⟩

example : irun (iinit [0,0,0,0] ⟨b!"hello world", [.data 2, .eintr, .data 9, .data 9, .data 9]⟩)
      [.getc, .get 1, .feed, .peek 9, .get 2, .getc, .get 20]
    = .ok (some (b!"hello w", ⟨b!"lo w", 0, 4, ⟨b!"orld", [.data 9, .data 9]⟩⟩)) := by decide

/-! ### Copy -/

theorem copy_ok (k : Nat) (bout : OBuf) (bin : IBuf) (ho : OInv bout) (hi : IInv bin)
    (hc : 0 < bin.x.length) :
    copy k bout bin = .ok none ∨ ∃ r bo bi, copy k bout bin = .ok (some (r, bo, bi)) ∧
      ((r = 0 ∧ bi.fd.src = [] ∧ bi.p = 0 ∧
          bo.fd.out ++ pending bo = bout.fd.out ++ pending bout ++ (avail bin ++ bin.fd.src)) ∨
       (r = -2 ∧ bi.p = 0 ∧ (∃ mid, bin.fd.src = mid ++ bi.fd.src ∧
          bo.fd.out ++ pending bo = bout.fd.out ++ pending bout ++ (avail bin ++ mid)) ∧
          ∃ u ev, bin.fd.evs = u ++ ev :: bi.fd.evs ∧ (ev = .eagain ∨ ∃ e, ev = .err e)) ∨
       (r = -3 ∧ ∃ p q, bo.fd.out = bout.fd.out ++ p ∧ q ≠ [] ∧
          pending bout ++ (avail bin ++ bin.fd.src) = p ++ q)) := by
  induction k generalizing bout bin with
  | zero => exact .inl rfl
  | succ k ih =>
    rw [copy]
    rcases feed_ok bin hi with h | ⟨n, b1, h1, h2, h3⟩
    · left; rw [h]
    · rw [h1]
      simp only []
      rcases h3 with ⟨h3, h4⟩ | ⟨rfl, h4, h5, h6, h7⟩
      · rw [if_neg (by omega)]
        by_cases hn : n = 0
        · rw [if_pos hn]
          obtain ⟨h5, h6⟩ := h4 hn hc
          have he := h2.2.2
          rw [h5, h6] at he
          right
          refine ⟨0, bout, b1, rfl, .inl ⟨rfl, ?_, by omega, by simp [h5, h6]⟩⟩
          have := congrArg List.length he
          simp at this
          exact List.length_eq_zero_iff.mp (by omega)
        · rw [if_neg hn]
          have hI := h2.1
          unfold IInv at hI
          have hn' : n.toNat = b1.p := by omega
          rw [hn']
          have hs : slice b1.x b1.n b1.p = .ok (avail b1) := by
            unfold slice avail; rw [if_pos (by omega)]
          rw [hs]
          simp only []
          have hstr : avail bin ++ bin.fd.src = avail b1 ++ b1.fd.src := by simpa using h2.2.2
          rcases bput_ok bout (avail b1) ho with g | ⟨r, bo, g1, g2⟩
          · left; rw [g]
          · rw [g1]
            simp only []
            by_cases hr : r = -1
            · rw [if_pos hr]
              right
              refine ⟨-3, bo, b1, rfl, .inr (.inr ⟨rfl, ?_⟩)⟩
              rcases g2.2.2.2 with ⟨g3, _⟩ | ⟨-, p, q, e, hq, g3⟩
              · omega
              · refine ⟨p, q ++ b1.fd.src, g3, by simp [hq], ?_⟩
                rw [hstr, ← List.append_assoc, e, List.append_assoc]
            · rw [if_neg hr]
              have hr0 : r = 0 := by
                rcases g2.2.2.2 with ⟨g3, _⟩ | ⟨g3, _⟩
                · exact g3
                · exact absurd g3 hr
              subst hr0
              have gtot : bo.fd.out ++ pending bo = bout.fd.out ++ pending bout ++ avail b1 := by
                rcases g2.2.2.2 with ⟨-, g3⟩ | ⟨g3, _⟩
                · exact g3
                · exact absurd g3 (by decide)
              have hav : avail { b1 with p := b1.p - b1.p, n := b1.n + b1.p } = [] :=
                avail_nil _ (by simp)
              -- what the input operations consumed
              have hsrc : ∃ w, bin.fd.src = w ++ b1.fd.src ∧ avail bin ++ w = avail b1 := by
                by_cases hp : bin.p = 0
                · refine ⟨avail b1, ?_, by simp [avail_nil bin hp]⟩
                  rw [avail_nil bin hp] at hstr; simpa using hstr
                · have : feed bin = .ok (some (bin.p, bin)) := by
                    unfold feed; rw [if_pos (by omega)]
                  rw [this] at h1
                  simp only [Out.ok.injEq, Option.some.injEq, Prod.mk.injEq] at h1
                  obtain ⟨-, rfl⟩ := h1
                  exact ⟨[], by simp, by simp⟩
              have hevs : ∃ u, bin.fd.evs = u ++ b1.fd.evs := feed_evs bin n b1 h1
              rcases ih bo { b1 with p := b1.p - b1.p, n := b1.n + b1.p } g2.1
                  (by simp only [IInv]; omega) (by simp only [h2.2.1]; exact hc) with f | ⟨r, bo', bi', f1, f2⟩
              · exact .inl f
              · right
                refine ⟨r, bo', bi', f1, ?_⟩
                rcases f2 with ⟨f2, f3, f4, f5⟩ | ⟨f2, f3, ⟨mid, f4, f5⟩, u, ev, f6, f7⟩ | ⟨f2, p, q, f3, f4, f5⟩
                · left
                  refine ⟨f2, f3, f4, ?_⟩
                  rw [f5, hav, gtot, hstr]; simp
                · right; left
                  obtain ⟨w, w1, w2⟩ := hsrc
                  obtain ⟨u0, e0⟩ := hevs
                  refine ⟨f2, f3, ⟨w ++ mid, by rw [w1]; simp only [List.append_assoc]; rw [← f4], ?_⟩,
                    u0 ++ u, ev, by rw [e0]; simp only [List.append_assoc]; rw [← f6], f7⟩
                  rw [f5, hav, gtot, ← w2]; simp
                · right; right
                  rw [hav] at f5
                  -- p starts with what bo had written
                  obtain ⟨w, hw⟩ := g2.2.2.1
                  refine ⟨f2, w ++ p, q, ?_, f4, ?_⟩
                  · rw [f3, ← hw]; simp
                  · apply List.append_cancel_left (as := bout.fd.out)
                    have : bout.fd.out ++ (w ++ p ++ q) = bo.fd.out ++ (p ++ q) := by rw [← hw]; simp
                    rw [this, ← f5]
                    have g2 : bo.fd.out ++ (pending bo ++ ([] ++ b1.fd.src)) =
                        (bo.fd.out ++ pending bo) ++ b1.fd.src := by simp
                    refine Eq.trans ?_ g2.symm
                    rw [gtot, hstr]; simp
      · rw [if_pos (by decide)]
        right
        refine ⟨-2, bout, b1, rfl, .inr (.inl ⟨rfl, h6, ⟨[], by simp [h5], by simp [h4]⟩, h7⟩)⟩

/-- C21: with a nonempty input buffer, `buffer_copy` (any number of iterations)
never touches memory outside the two buffers; it returns 0 only at end of input
with every remaining byte (buffered or unread) put to the output in order; -2
only on a reported read error, with everything read so far put to the output;
-3 only on a write error, having written a proper prefix. -/
theorem c21_copy (k : Nat) (bout : OBuf) (bin : IBuf) (ho : bout.p ≤ bout.x.length)
    (hi : bin.n + bin.p = bin.x.length) (hc : bin.x ≠ []) :
    copy k bout bin = .ok none ∨ ∃ r bo bi, copy k bout bin = .ok (some (r, bo, bi)) ∧
      ((r = 0 ∧ bi.fd.src = [] ∧ bi.p = 0 ∧
          bo.fd.out ++ bo.x.take bo.p =
            bout.fd.out ++ bout.x.take bout.p ++ ((bin.x.drop bin.n).take bin.p ++ bin.fd.src)) ∨
       (r = -2 ∧ bi.p = 0 ∧ (∃ mid, bin.fd.src = mid ++ bi.fd.src ∧
          bo.fd.out ++ bo.x.take bo.p =
            bout.fd.out ++ bout.x.take bout.p ++ ((bin.x.drop bin.n).take bin.p ++ mid)) ∧
          ∃ u ev, bin.fd.evs = u ++ ev :: bi.fd.evs ∧ (ev = .eagain ∨ ∃ e, ev = .err e)) ∨
       (r = -3 ∧ ∃ p q, bo.fd.out = bout.fd.out ++ p ∧ q ≠ [] ∧
          bout.x.take bout.p ++ ((bin.x.drop bin.n).take bin.p ++ bin.fd.src) = p ++ q)) :=
  copy_ok k bout bin ho hi (List.length_pos_iff.mpr hc)

example : ∃ bo bi, copy 9 (oinit [0,0] ⟨b!">", [.data 9, .data 9, .data 9]⟩)
      (iinit [0,0,0] ⟨b!"abcde", [.data 0, .data 9, .data 9, .data 9]⟩)
    = .ok (some (0, bo, bi)) ∧ bo.fd.out = b!">abcd" ∧ bo.x.take bo.p = b!"e" :=
  ⟨⟨b!"eb", 1, ⟨b!">abcd", [.data 9]⟩⟩, ⟨b!"ece", 0, 3, ⟨[], []⟩⟩, by decide, by decide, by decide⟩

/-- C21, limit: with a zero-size input buffer the copy reports success at once,
copying nothing (read of 0 bytes looks like end of file). -/
theorem c21_zero_size_input : copy 1 (oinit [0] ⟨[], []⟩) (iinit [] ⟨b!"lost", [.data 0]⟩)
    = .ok (some (0, oinit [0] ⟨[], []⟩, iinit [] ⟨b!"lost", []⟩)) := by decide



end Buffer
