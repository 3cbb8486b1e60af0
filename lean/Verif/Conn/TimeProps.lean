import Verif.Conn.Props
/-
How long a connection attempt lasts and why it gives up, in terms of the kernel's answers it consumed.
-/
namespace Conn

/-- The answer that a candidate could not be connected. -/
def Ev.failure : Ev → Bool
  | .connect .failed => true
  | .isConnected false => true
  | _ => false

/-- The answer that a candidate is connected. -/
def Ev.success : Ev → Bool
  | .connect .connected => true
  | .isConnected true => true
  | _ => false

/-- Every wait is preceded by a look at the clock before `deadline`, and lasts until `deadline` at most, unless the
clock shows a time more than 24 days earlier (see C92). -/
def Timely (deadline : Int) (used : List Ev) : Prop :=
  ∀ pre tm r post, used = pre ++ .poll tm r :: post → ∃ pre' t, pre = pre' ++ [.time t] ∧ t < deadline ∧
    (deadline < t + 2 ^ 31 → t + tm = deadline)

/-- Why an attempt over `n` candidates is given up after the answers `used`: every candidate failed, the time is over, or
waiting is impossible. -/
def GivenUp (deadline : Int) (n : Nat) (used : List Ev) : Prop :=
  used.countP Ev.failure = n ∨ (∃ pre t, used = pre ++ [.time t] ∧ deadline ≤ t) ∨ (∃ pre tm, used = pre ++ [.poll tm .failed])

theorem Timely.nil (D : Int) : Timely D [] := by
  intro pre tm r post h
  cases pre <;> simp at h

theorem Timely.append {D : Int} {a b : List Ev} (ha : Timely D a) (hb : Timely D b) : Timely D (a ++ b) := by
  intro pre tm r post h
  rcases List.append_eq_append_iff.1 h with ⟨c, h1, h2⟩ | ⟨c, h1, h2⟩
  · obtain ⟨pre', t, e, h3⟩ := hb c tm r post h2
    exact ⟨a ++ pre', t, by rw [h1, e, List.append_assoc], h3⟩
  · cases c with
    | nil =>
      obtain ⟨pre', t, e, h3⟩ := hb [] tm r post h2.symm
      cases pre' <;> simp at e
    | cons x c =>
      simp only [List.cons_append, List.cons.injEq] at h2
      rw [← h2.1] at h1
      exact ha pre tm r c h1

theorem Timely.of_no_poll {D : Int} {a : List Ev} (h : ∀ tm r, Ev.poll tm r ∉ a) : Timely D a := by
  intro pre tm r post e
  exact absurd (by rw [e]; simp) (h tm r)

theorem Timely.wait {D t tm : Int} (r : PollRes) (h : t < D) (h2 : tm = asInt (D - t)) : Timely D [.time t, .poll tm r] := by
  intro pre tm' r' post e
  match pre, e with
  | [], e => cases e
  | [x], e =>
    simp only [List.cons_append, List.nil_append, List.cons.injEq, Ev.poll.injEq] at e
    refine ⟨[], t, by rw [← e.1]; rfl, ?_, ?_⟩
    · exact h
    · intro h3
      rw [← e.2.1.1, h2]
      unfold asInt
      rw [Int.bmod_eq_of_le] <;> omega
  | _ :: _ :: [], e => simp at e
  | _ :: _ :: _ :: _, e => simp at e

theorem filterMap_upd (f : Nat → Option Nat) (i x : Nat) (h : f i = some x) : ∀ l : List Nat, l.Nodup → i ∈ l →
    (l.filterMap (upd f i none)).length + 1 = (l.filterMap f).length := by
  intro l
  induction l with
  | nil => intro _ h; cases h
  | cons a l ih =>
    intro hn hi
    simp only [List.nodup_cons] at hn
    by_cases ha : a = i
    · subst ha
      have : ∀ l : List Nat, a ∉ l → l.filterMap (upd f a none) = l.filterMap f := by
        intro l
        induction l with
        | nil => intro _; rfl
        | cons b l ih =>
          intro hb
          simp only [List.mem_cons, not_or] at hb
          rw [List.filterMap_cons, List.filterMap_cons, upd_ne _ _ (fun e => hb.1 e.symm), ih hb.2]
      simp [upd_self, h, this l hn.1]
    · have hl : i ∈ l := by
        rcases List.mem_cons.1 hi with e | e
        · exact absurd e.symm ha
        · exact e
      have := ih hn.2 hl
      simp only [List.filterMap_cons, upd_ne _ _ ha]
      cases f a with
      | none => exact this
      | some y => simp only [List.length_cons]; omega

theorem pending_closeslot {s : St} {n i x : Nat} (hn : n ≤ maxip) (hi : i < n) (h : s.fds i = some x) :
    (pending (closeslot s i) n).length + 1 = (pending s n).length := by
  unfold pending
  rw [closeslot_fds (by omega)]
  exact filterMap_upd s.fds i x h _ List.nodup_range (List.mem_range.2 hi)

theorem connectLoop_used {n : Nat} (hn : n ≤ maxip) (ip : Bytes) : ∀ k i (s : St) ev, k + i = n →
    (∀ j, i ≤ j → j < n → s.fds j ≠ none) → ∀ r ev', connectLoop ip n k i s ev = some (r, ev') →
    ∃ used, ev = used ++ ev' ∧ (∀ x ∈ used, ∃ c, x = Ev.connect c) ∧
    match r with
    | .inl d => d.ret ≠ .fail ∧ ∃ pre last, used = pre ++ [last] ∧ last.success = true ∧ ∀ x ∈ pre, x.success = false
    | .inr s' => used.length = k ∧ (∀ x ∈ used, x.success = false) ∧ (pending s' n).length + used.countP Ev.failure = (pending s n).length := by
  intro k
  induction k with
  | zero =>
    intro i s ev _ _ r ev' e
    simp only [connectLoop, Option.some.injEq, Prod.mk.injEq] at e
    obtain ⟨rfl, rfl⟩ := e
    exact ⟨[], rfl, by simp, rfl, by simp, by simp⟩
  | succ k ih =>
    intro i s ev hk hf r ev' e
    match ev, e with
    | .connect c :: ev, e =>
      rw [connectLoop] at e
      obtain ⟨fd, hfd⟩ := Option.ne_none_iff_exists'.1 (hf i (Nat.le_refl _) (by omega))
      rw [hfd] at e
      simp only [] at e
      cases c with
      | connected =>
        simp only [if_pos, Option.some.injEq, Prod.mk.injEq] at e
        obtain ⟨rfl, rfl⟩ := e
        exact ⟨[.connect .connected], rfl, by simp, by simp [win], [], _, rfl, rfl, by simp⟩
      | inProgress =>
        simp only [reduceCtorEq, if_false] at e
        obtain ⟨used, h1, h2, h3⟩ := ih (i + 1) _ ev (by omega) (by intro j h1 h2; exact hf j (by omega) h2) r ev' e
        refine ⟨.connect .inProgress :: used, by rw [h1]; rfl, List.forall_mem_cons.2 ⟨⟨_, rfl⟩, h2⟩, ?_⟩
        cases r with
        | inl d =>
          obtain ⟨h4, pre, last, h5, h6, h7⟩ := h3
          exact ⟨h4, .connect .inProgress :: pre, last, by rw [h5]; rfl, h6, List.forall_mem_cons.2 ⟨rfl, h7⟩⟩
        | inr s' =>
          obtain ⟨h4, h5, h6⟩ := h3
          refine ⟨by simp [h4], List.forall_mem_cons.2 ⟨rfl, h5⟩, ?_⟩
          rw [List.countP_cons_of_neg (by simp [Ev.failure])]
          exact h6
      | failed =>
        simp only [reduceCtorEq, if_false] at e
        have hp : ∀ t q, (pending (closeslot { s with tried := t, success := q } i) n).length + 1 = (pending s n).length :=
          fun t q => pending_closeslot (s := { s with tried := t, success := q }) hn (by omega) hfd
        obtain ⟨used, h1, h2, h3⟩ := ih (i + 1) _ ev (by omega) (fun j h1 h2 => by
          rw [closeslot_fds (by omega), upd_ne _ _ (by omega)]
          exact hf j (by omega) h2) r ev' e
        refine ⟨.connect .failed :: used, by rw [h1]; rfl, List.forall_mem_cons.2 ⟨⟨_, rfl⟩, h2⟩, ?_⟩
        cases r with
        | inl d =>
          obtain ⟨h4, pre, last, h5, h6, h7⟩ := h3
          exact ⟨h4, .connect .failed :: pre, last, by rw [h5]; rfl, h6, List.forall_mem_cons.2 ⟨rfl, h7⟩⟩
        | inr s' =>
          obtain ⟨h4, h5, h6⟩ := h3
          refine ⟨by simp [h4], List.forall_mem_cons.2 ⟨rfl, h5⟩, ?_⟩
          rw [List.countP_cons_of_pos (by simp [Ev.failure])]
          have := hp ((fd, (ip.drop (16 * i)).take 16) :: s.tried) s.success
          omega
    | [], e => simp [connectLoop] at e
    | .socket _ :: _, e => simp [connectLoop] at e
    | .dup _ :: _, e => simp [connectLoop] at e
    | .time _ :: _, e => simp [connectLoop] at e
    | .poll _ _ :: _, e => simp [connectLoop] at e
    | .isConnected _ :: _, e => simp [connectLoop] at e

theorem scan_used {o : List Nat} {n : Nat} (hn : n ≤ maxip) (ip : Bytes) : ∀ (p : List (Nat × Bool)) (s : St) ev, Run o n s →
    (p.map (·.1)).Nodup → (∀ q ∈ p, ∃ j, s.fds j = some q.1) → ∀ r ev', scan ip n p s ev = some (r, ev') →
    ∃ used, ev = used ++ ev' ∧ (∀ x ∈ used, ∃ c, x = Ev.isConnected c) ∧
    match r with
    | .inl d => d.ret ≠ .fail ∧ ∃ pre last, used = pre ++ [last] ∧ last.success = true ∧ ∀ x ∈ pre, x.success = false
    | .inr s' => (∀ x ∈ used, x.success = false) ∧ (pending s' n).length + used.countP Ev.failure = (pending s n).length ∧ Run o n s' := by
  intro p
  induction p with
  | nil =>
    intro s ev h _ _ r ev' e
    simp only [scan, Option.some.injEq, Prod.mk.injEq] at e
    obtain ⟨rfl, rfl⟩ := e
    exact ⟨[], rfl, by simp, by simp, by simp, h⟩
  | cons q p ih =>
    intro s ev h hnd hin r ev' e
    obtain ⟨fd, b⟩ := q
    simp only [List.map_cons, List.nodup_cons] at hnd
    cases b with
    | false =>
      rw [scan] at e
      exact ih s ev h hnd.2 (fun q hq => hin q (List.mem_cons_of_mem _ hq)) r ev' e
    | true =>
      obtain ⟨j, hj⟩ := hin (fd, true) List.mem_cons_self
      simp only [] at hj
      have hjn : j < n := by
        by_cases hc : j < n
        · exact hc
        · rw [(h.empty j (by omega)).1] at hj; cases hj
      match ev, e with
      | .isConnected b :: ev, e =>
        rw [scan] at e
        cases b with
        | true =>
          simp only [if_pos, Option.some.injEq, Prod.mk.injEq] at e
          obtain ⟨rfl, rfl⟩ := e
          exact ⟨[.isConnected true], rfl, by simp, by simp [win], [], _, rfl, rfl, by simp⟩
        | false =>
          simp only [Bool.false_eq_true, if_false] at e
          have hcf : closefd { s with success := s.success } fd = closeslot s j := by
            unfold closefd
            rw [h.inv.findslot hj]
          rw [hcf] at e
          obtain ⟨used, h1, h2, h3⟩ := ih (closeslot s j) ev (run_closeslot h j) hnd.2 (by
              intro q hq
              obtain ⟨a, ha⟩ := hin q (List.mem_cons_of_mem _ hq)
              refine ⟨a, ?_⟩
              rw [closeslot_fds (by omega), upd_ne]
              · exact ha
              · intro he
                subst he
                rw [hj] at ha
                exact hnd.1 (List.mem_map.2 ⟨q, hq, (Option.some.inj ha).symm⟩)) r ev' e
          refine ⟨.isConnected false :: used, by rw [h1]; rfl, List.forall_mem_cons.2 ⟨⟨_, rfl⟩, h2⟩, ?_⟩
          cases r with
          | inl d =>
            obtain ⟨h4, pre, last, h5, h6, h7⟩ := h3
            exact ⟨h4, .isConnected false :: pre, last, by rw [h5]; rfl, h6, List.forall_mem_cons.2 ⟨rfl, h7⟩⟩
          | inr s' =>
            obtain ⟨h5, h6, h7⟩ := h3
            refine ⟨List.forall_mem_cons.2 ⟨rfl, h5⟩, ?_, h7⟩
            rw [List.countP_cons_of_pos (by simp [Ev.failure])]
            have := pending_closeslot hn hjn hj
            omega
      | [], e => simp [scan] at e
      | .socket _ :: _, e => simp [scan] at e
      | .dup _ :: _, e => simp [scan] at e
      | .time _ :: _, e => simp [scan] at e
      | .poll _ _ :: _, e => simp [scan] at e
      | .connect _ :: _, e => simp [scan] at e

/-- What is said about the answers consumed by an attempt of which `m` candidates are left. -/
structure Story (D : Int) (m : Nat) (d : Done) (used : List Ev) : Prop where
  timely : Timely D used
  ok : d.ret ≠ .fail → ∃ pre last, used = pre ++ [last] ∧ last.success = true ∧ ∀ x ∈ pre, x.success = false
  fail : d.ret = .fail → (∀ x ∈ used, x.success = false) ∧ GivenUp D m used

theorem GivenUp.append {D : Int} {m : Nat} {a b : List Ev} (h : GivenUp D m b) : GivenUp D (m + a.countP Ev.failure) (a ++ b) := by
  rcases h with h | ⟨pre, t, h, h2⟩ | ⟨pre, tm, h⟩
  · left; rw [List.countP_append, h]; omega
  · exact .inr (.inl ⟨a ++ pre, t, by rw [h, List.append_assoc], h2⟩)
  · exact .inr (.inr ⟨a ++ pre, tm, by rw [h, List.append_assoc]⟩)

theorem Story.append {D : Int} {m : Nat} {d : Done} {a b : List Ev} (h : Story D m d b) (ha : Timely D a)
    (hs : ∀ x ∈ a, x.success = false) : Story D (m + a.countP Ev.failure) d (a ++ b) := by
  refine ⟨ha.append h.timely, fun hr => ?_, fun hr => ⟨?_, (h.fail hr).2.append⟩⟩
  · obtain ⟨pre, last, h1, h2, h3⟩ := h.ok hr
    refine ⟨a ++ pre, last, by rw [h1, List.append_assoc], h2, ?_⟩
    intro x hx
    rcases List.mem_append.1 hx with hx | hx
    · exact hs x hx
    · exact h3 x hx
  · intro x hx
    rcases List.mem_append.1 hx with hx | hx
    · exact hs x hx
    · exact (h.fail hr).1 x hx

theorem pollLoop_used {o : List Nat} {n : Nat} (hn : n ≤ maxip) (ip : Bytes) (D : Int) : ∀ fuel (s : St) ev, Run o n s →
    ∀ d ev', pollLoop ip n D fuel s ev = some (d, ev') → ∃ used, ev = used ++ ev' ∧ Story D (pending s n).length d used := by
  intro fuel
  induction fuel with
  | zero => intro s ev _ d ev' e; simp [pollLoop] at e
  | succ fuel ih =>
    intro s ev h d ev' e
    unfold pollLoop at e
    by_cases hp : pending s n = []
    · rw [if_pos hp] at e
      simp only [Option.some.injEq, Prod.mk.injEq] at e
      obtain ⟨rfl, rfl⟩ := e
      exact ⟨[], rfl, Timely.nil D, by simp, fun _ => ⟨by simp, .inl (by simp [hp])⟩⟩
    · rw [if_neg hp] at e
      match ev, e with
      | .time t :: ev, e =>
        simp only [] at e
        by_cases hd : D - t ≤ 0
        · rw [if_pos hd] at e
          simp only [Option.some.injEq, Prod.mk.injEq] at e
          obtain ⟨rfl, rfl⟩ := e
          exact ⟨[.time t], rfl, Timely.of_no_poll (by simp), by simp,
            fun _ => ⟨by simp [Ev.success], .inr (.inl ⟨[], t, rfl, by omega⟩)⟩⟩
        · rw [if_neg hd] at e
          match ev, e with
          | .poll tm r :: ev, e =>
            simp only [] at e
            by_cases htm : tm ≠ asInt (D - t)
            · rw [if_pos htm] at e; cases e
            rw [if_neg htm] at e
            have hw : Timely D [.time t, .poll tm r] := Timely.wait r (by omega) (by omega)
            have hq : ∀ x ∈ [Ev.time t, .poll tm r], x.success = false := by simp [Ev.success]
            have hz : [Ev.time t, .poll tm r].countP Ev.failure = 0 := by simp [Ev.failure]
            cases r with
            | eintr =>
              obtain ⟨used, h1, h2⟩ := ih s ev h d ev' e
              have h3 := h2.append hw hq
              rw [hz] at h3
              exact ⟨_, by rw [h1]; rfl, h3⟩
            | failed =>
              simp only [Option.some.injEq, Prod.mk.injEq] at e
              obtain ⟨rfl, rfl⟩ := e
              exact ⟨[.time t, .poll tm .failed], rfl, hw, by simp, fun _ => ⟨hq, .inr (.inr ⟨[.time t], tm, rfl⟩)⟩⟩
            | ready rev =>
              simp only [] at e
              by_cases hl : rev.length ≠ (pending s n).length
              · rw [if_pos hl] at e; cases e
              rw [if_neg hl] at e
              have hl' : rev.length = (pending s n).length := Classical.not_not.1 hl
              have hz2 : ((pending s n).zip rev).map (·.1) = pending s n := map_fst_zip_sub _ _ hl'
              rcases hs : scan ip n ((pending s n).zip rev) s ev with _ | ⟨r, ev2⟩
              · rw [hs] at e; cases e
              rw [hs] at e
              obtain ⟨used, h1, h2, h3⟩ := scan_used hn ip ((pending s n).zip rev) s ev h (by rw [hz2]; exact pending_nodup h.inv n) (by
                intro q hq
                apply mem_pending (n := n)
                rw [← hz2]
                exact List.mem_map.2 ⟨q, hq, rfl⟩) r ev2 hs
              have hu : Timely D used := Timely.of_no_poll (fun tm r hx => by
                obtain ⟨c, hc⟩ := h2 _ hx
                cases hc)
              cases r with
              | inl d2 =>
                simp only [Option.some.injEq, Prod.mk.injEq] at e
                obtain ⟨rfl, rfl⟩ := e
                obtain ⟨h4, pre, last, h5, h6, h7⟩ := h3
                refine ⟨[.time t, .poll tm (.ready rev)] ++ used, by rw [h1]; rfl, hw.append hu, fun _ => ?_, fun hf => absurd hf h4⟩
                refine ⟨[.time t, .poll tm (.ready rev)] ++ pre, last, by rw [h5, List.append_assoc], h6, ?_⟩
                intro x hx
                rcases List.mem_append.1 hx with hx | hx
                · exact hq x hx
                · exact h7 x hx
              | inr s2 =>
                obtain ⟨h4, h5, h6⟩ := h3
                obtain ⟨used2, g1, g2⟩ := ih s2 ev2 h6 d ev' e
                have g3 := (g2.append hu h4).append hw hq
                rw [hz, h5] at g3
                exact ⟨_, by rw [h1, g1]; simp, g3⟩
          | [], e => simp at e
          | .socket _ :: _, e => simp at e
          | .dup _ :: _, e => simp at e
          | .time _ :: _, e => simp at e
          | .connect _ :: _, e => simp at e
          | .isConnected _ :: _, e => simp at e
      | [], e => simp at e
      | .socket _ :: _, e => simp at e
      | .dup _ :: _, e => simp at e
      | .connect _ :: _, e => simp at e
      | .poll _ _ :: _, e => simp at e
      | .isConnected _ :: _, e => simp at e

theorem Ready.pending {o : List Nat} {n : Nat} {s : St} (h : Ready o n s) : (Conn.pending s n).length = n := by
  unfold Conn.pending
  have : ∀ m, m ≤ n → ((List.range m).filterMap s.fds).length = m := by
    intro m
    induction m with
    | zero => intro _; rfl
    | succ m ih =>
      intro hm
      obtain ⟨x, hx⟩ := Option.ne_none_iff_exists'.1 (h.full m (by omega)).1
      rw [List.range_succ, List.filterMap_append, List.length_append, ih (by omega)]
      simp [hx]
  exact this n (Nat.le_refl _)

/-- C68: for every candidate list, kernel answer and clock, an attempt started at `t0` consists of its answers `used`: every wait starts before
the deadline and ends at the deadline at the latest; it succeeds exactly when, and as soon as, one candidate is reported connected; it
fails only because every candidate failed, the clock reached the deadline, or waiting itself failed. -/
theorem c68_attempt (o : List Nat) (timeout : Int) (ip : Bytes) (iplen : Int) (n : Nat) (hl : 16 ≤ iplen) (hn : n = min (iplen.toNat / 16) 8)
    (s : St) (hs : Ready o n s) (ht : 1 ≤ timeout) (ev ev' : List Ev) (d : Done)
    (e : conn timeout ip iplen s ev = some (d, ev')) :
    ∃ t0 used, ev = .time t0 :: used ++ ev' ∧ Timely (t0 + 1000 * timeout) used ∧
      (d.ret ≠ .fail → ∃ pre last, used = pre ++ [last] ∧ last.success = true ∧ ∀ x ∈ pre, x.success = false) ∧
      (d.ret = .fail → (∀ x ∈ used, x.success = false) ∧ GivenUp (t0 + 1000 * timeout) n used) := by
  have h8 : maxip = 8 := rfl
  have hm : n ≤ maxip := by omega
  match ev, e with
  | .time t0 :: ev, e =>
    unfold conn at e
    simp only [] at e
    rw [if_neg (by omega), show (min iplen ((maxip * 16 : Nat) : Int)).toNat / 16 = n by omega] at e
    rcases hc : connectLoop ip n n 0 s ev with _ | ⟨r, ev2⟩
    · rw [hc] at e; cases e
    · rw [hc] at e
      obtain ⟨used, h1, h2, h3⟩ := connectLoop_used hm ip n 0 s ev (by omega) (fun j _ hj => (hs.full j hj).1) r ev2 hc
      have hu : Timely (t0 + 1000 * timeout) used := Timely.of_no_poll (fun tm r hx => by
        obtain ⟨c, hc⟩ := h2 _ hx
        cases hc)
      cases r with
      | inl d2 =>
        simp only [Option.some.injEq, Prod.mk.injEq] at e
        obtain ⟨rfl, rfl⟩ := e
        exact ⟨t0, used, by rw [h1]; rfl, hu, fun _ => h3.2, fun hf => absurd hf h3.1⟩
      | inr s2 =>
        have hr := connectLoop_ok hm ip n 0 s ev hs.run (by omega) (fun j fd hj => absurd hj (by omega)) _ ev2 hc
        obtain ⟨used2, g1, g2⟩ := pollLoop_used hm ip (t0 + 1000 * timeout) _ s2 ev2 hr.1 d ev' e
        have g3 := g2.append hu h3.2.1
        rw [h3.2.2, hs.pending] at g3
        exact ⟨t0, used ++ used2, by rw [h1, g1]; simp, g3.timely, g3.ok, g3.fail⟩
  | [], e => simp [conn] at e
  | .socket _ :: _, e => simp [conn] at e
  | .dup _ :: _, e => simp [conn] at e
  | .connect _ :: _, e => simp [conn] at e
  | .poll _ _ :: _, e => simp [conn] at e
  | .isConnected _ :: _, e => simp [conn] at e

/-- C68: a timeout below one second, or no candidate address, is refused without touching any socket. -/
theorem c68_refused (timeout : Int) (ip : Bytes) (iplen : Int) (s : St) (t0 : Int) (ev : List Ev) (h : timeout < 1 ∨ iplen < 16) :
    conn timeout ip iplen s (.time t0 :: ev) = some (⟨.fail, s, ip⟩, ev) := by
  have h8 : maxip = 8 := rfl
  unfold conn
  simp only []
  rw [if_pos (by omega)]

/-- Both candidates fail; the attempt is over although time is left. -/
example : ∃ s' ev' d, init 2 start [.socket (some 3), .dup (some 4), .socket (some 5), .dup (some 6),
      .time 1000, .connect .failed, .connect .inProgress, .time 1001, .poll 9999 (.ready [true]), .isConnected false, .time 7] =
      some (true, s', ev') ∧ conn 10 sampleIp 32 s' ev' = some (d, [.time 7]) ∧ d.ret = .fail ∧ d.st.opened = [0, 1, 2] :=
  ⟨_, _, _, rfl, rfl, rfl, rfl⟩

/-- The deadline passes while the second candidate is in flight. -/
example : ∃ s' ev' d, init 2 start [.socket (some 3), .dup (some 4), .socket (some 5), .dup (some 6),
      .time 1000, .connect .failed, .connect .inProgress, .time 1001, .poll 9999 (.ready [false]), .time 11000] =
      some (true, s', ev') ∧ conn 10 sampleIp 32 s' ev' = some (d, []) ∧ d.ret = .fail ∧ d.st.opened = [0, 1, 2] :=
  ⟨_, _, _, rfl, rfl, rfl, rfl⟩

end Conn
