import Verif.Main.SigLemmas
/-
C95: a signal reaches the relay loop exactly once, whenever it comes, and nothing that it
interrupts notices.

A history is any list of events: signals sent, deliveries, steps of the handlers (which
may interrupt each other and whose writes may be interrupted), and the program's own
steps in between. `run … = some t` says that the history is possible and leads to `t`.
-/
namespace Sig

/-- The signal has not been dealt with yet: it is pending or its handler is running. -/
def Waiting (s : Signal) (t : St) : Prop :=
  (∃ pid, (s, pid) ∈ t.pend) ∨ ∃ f ∈ t.frames, f.sig = s

theorem start {p : Prog} {cap : Nat} {h : List Ev} {t : St}
    (hp : (acts h).count .pipe ≤ 1) (hr : run p cap .init h = some t) :
    Inv (errnoOf 0 (acts h)) t :=
  inv_run h inv_init (by simpa [OncePipe, St.init] using hp) hr

/-- **C95 (errno).** However signals are nested, and wherever they come: when no handler is
running, errno is what the program's own steps made it. -/
theorem c95_errno (p : Prog) (cap : Nat) (h : List Ev) (t : St)
    (hp : (acts h).count .pipe ≤ 1) (hr : run p cap .init h = some t) (hf : t.frames = []) :
    t.errno = errnoOf 0 (acts h) := by
  have := (start hp hr).links
  rwa [hf] at this

/-- **C95 (once, in order).** When no handler is running, every handler that was ever
started has had exactly one outcome for its byte: in the pipe or lost (no pipe, or full).
What is read comes out in the order it was written, each byte once. -/
theorem c95_once (p : Prog) (cap : Nat) (h : List Ev) (t : St)
    (hp : (acts h).count .pipe ≤ 1) (hr : run p cap .init h = some t) (hf : t.frames = []) :
    t.sent.Perm (t.wrote ++ t.lost) ∧ ∀ q, t.pipe = some q → t.got ++ q = t.wrote := by
  have hi := start hp hr
  refine ⟨?_, fun q hq => by have := hi.fifo; rwa [hq] at this⟩
  rw [List.perm_iff_count]
  intro x
  have := hi.count x
  rw [hf] at this
  rw [List.count_append]
  simpa using this

theorem find_mem {xs : List (Signal × Int)} {s : Signal} {pid : Int}
    (h : xs.find? (·.1 = s) = some (s, pid)) : (s, pid) ∈ xs := List.mem_of_find?_eq_some h

theorem find_of_any {xs : List (Signal × Int)} {s : Signal}
    (h : xs.any (·.1 = s) = true) : ∃ pid, xs.find? (·.1 = s) = some (s, pid) := by
  induction xs with
  | nil => simp at h
  | cons x xs ih =>
    by_cases hx : x.1 = s
    · exact ⟨x.2, by rw [List.find?_cons]; simp [hx]; exact Prod.ext hx rfl⟩
    · simp only [List.any_cons, hx, decide_false, Bool.false_or] at h
      obtain ⟨pid, hp⟩ := ih h
      exact ⟨pid, by rw [List.find?_cons]; simpa [hx] using hp⟩

theorem find_of_not_any {xs : List (Signal × Int)} {s : Signal} {pid : Int}
    (h : ¬ xs.any (·.1 = s) = true) :
    (xs ++ [(s, pid)]).find? (·.1 = s) = some (s, pid) := by
  have : xs.find? (·.1 = s) = none := by
    rw [List.find?_eq_none]
    intro x hx hc
    exact h (List.any_eq_true.mpr ⟨x, hx, hc⟩)
  simp [List.find?_append, this]

/-- After the signal was sent, it is the pending one or another of its kind is. -/
theorem raised {p : Prog} {cap : Nat} {t u : St} {s : Signal} {pid : Int}
    (hs : step p cap t (.raise s pid) = some u) :
    (∃ pid', u.pend.find? (·.1 = s) = some (s, pid') ∧
      ((∀ x, (s, x) ∉ t.pend) → pid' = pid)) ∧ u.wrote = t.wrote ∧ u.lost = t.lost ∧
    u.pipe = t.pipe ∧ u.hand = t.hand ∧ u.child = t.child := by
  unfold step at hs
  split at hs
  · simp at hs
  · dsimp only at hs
    split at hs
    · next ha =>
      cases hs
      obtain ⟨pid', h⟩ := find_of_any ha
      exact ⟨⟨pid', h, fun hn => absurd (find_mem h) (hn _)⟩, rfl, rfl, rfl, rfl, rfl⟩
    · next ha =>
      cases hs
      exact ⟨⟨pid, find_of_not_any ha, fun _ => rfl⟩, rfl, rfl, rfl, rfl, rfl⟩

theorem follow {p : Prog} {cap : Nat} {s : Signal} {h1 h2 : List Ev} {pid : Int} {t1 t : St}
    (hp : (acts (h1 ++ .raise s pid :: h2)).count .pipe ≤ 1)
    (hr1 : run p cap .init h1 = some t1) (hr2 : run p cap t1 (.raise s pid :: h2) = some t)
    (hh : s ∈ t1.hand ∧ .dflt s ∉ acts h2 ∨ s ≠ .chld) (hf : ∀ pid, .fork pid ∉ acts h2) :
    ∃ pid', ((∀ x, (s, x) ∉ t1.pend) → pid' = pid) ∧
      Track p s (code p t1.child s pid') t1.wrote.length t1.lost.length t := by
  have h0 : run p cap .init (h1 ++ .raise s pid :: h2) = some t := by
    rw [run_append, hr1]; exact hr2
  simp only [run, Option.bind_eq_some_iff] at hr2
  obtain ⟨u, hu, hr2⟩ := hr2
  obtain ⟨⟨pid', hfind, hpid⟩, hw, hl, hpi, hha, hch⟩ := raised hu
  refine ⟨pid', hpid, ?_⟩
  have hi : Inv (errnoOf 0 (acts (h1 ++ [.raise s pid]))) u := by
    refine start (p := p) (cap := cap) (h := h1 ++ [.raise s pid]) ?_ ?_
    · rw [acts_append] at hp ⊢
      rw [List.count_append] at hp ⊢
      simp only [acts, List.count_nil] at hp ⊢
      omega
    · rw [run_append, hr1]
      simp [run, hu]
  have ho : OncePipe u (acts h2) := by
    have hi1 : OncePipe St.init (acts (h1 ++ .raise s pid :: h2)) := by
      simpa [OncePipe, St.init] using hp
    have key : ∀ (h : List Ev) (a b : St), OncePipe a (acts (h ++ h2)) →
        run p cap a h = some b → OncePipe b (acts h2) := by
      intro h
      induction h with
      | nil => intro a b ho hr; cases hr; exact ho
      | cons e es ih =>
        intro a b ho hr
        simp only [run, Option.bind_eq_some_iff] at hr
        obtain ⟨c, hc, hr⟩ := hr
        exact ih c b (oncePipe_cons ho hc).2 hr
    refine key (h1 ++ [.raise s pid]) .init u (by simpa using hi1) ?_
    rw [run_append, hr1]
    simp [run, hu]
  refine track_run h2 hi ho (by rw [hw]; exact Nat.le_refl _) (by rwa [hha]) hf hr2
    (by rw [hl]; exact Nat.le_refl _) ?_
  exact .inr (.inl ⟨pid', hfind, by rw [hch]⟩)

theorem oncePipe_after {p : Prog} {cap : Nat} {h1 h2 : List Ev} {t1 : St}
    (hp : (acts (h1 ++ h2)).count .pipe ≤ 1) (hr1 : run p cap .init h1 = some t1) :
    OncePipe t1 (acts h2) := by
  have hi1 : OncePipe St.init (acts (h1 ++ h2)) := by
    simpa [OncePipe, St.init] using hp
  have key : ∀ (h : List Ev) (a b : St), OncePipe a (acts (h ++ h2)) →
      run p cap a h = some b → OncePipe b (acts h2) := by
    intro h
    induction h with
    | nil => intro a b ho hr; cases hr; exact ho
    | cons e es ih =>
      intro a b ho hr
      simp only [run, Option.bind_eq_some_iff] at hr
      obtain ⟨c, hc, hr⟩ := hr
      exact ih c b (oncePipe_cons ho hc).2 hr
  exact key h1 .init t1 hi1 hr1

theorem track_out {p : Prog} {s : Signal} {b : Byte} {n l : Nat} {t : St}
    (h : Track p s b n l t) (hl : t.lost.length ≤ l) :
    t.alive = false ∨ Waiting s t ∨ b ∈ t.wrote.drop n := by
  rcases h with h | ⟨pid, h, -⟩ | ⟨f, hf, h, -⟩ | h | h
  · exact .inl h
  · exact .inr (.inl (.inl ⟨pid, find_mem h⟩))
  · exact .inr (.inl (.inr ⟨f, hf, h⟩))
  · exact .inr (.inr h)
  · omega

theorem kept {p : Prog} {cap : Nat} {h1 h2 : List Ev} {t1 t : St}
    (hp : (acts (h1 ++ h2)).count .pipe ≤ 1)
    (hr1 : run p cap .init h1 = some t1) (hr2 : run p cap t1 h2 = some t)
    (hpipe : t1.pipe ≠ none) (hc : t.sent.length ≤ cap) : t.lost = t1.lost := by
  refine lost_run h2 (start (p := p) (cap := cap) (h := h1) ?_ hr1) (oncePipe_after hp hr1)
    hpipe hr2 hc
  rw [acts_append, List.count_append] at hp
  omega

/-- **C95 (SIGTERM, partial).** A SIGTERM sent once the pipe exists is never lost: at any
later time the process has ended, or the signal is still waiting, or a zero byte has been
written since (which ends the relay loop, `c95_bytes`). `cap` is the pipe's size, and
fewer handlers than that have run. Missing: a SIGTERM that comes before the pipe exists,
see `c95_early`, or after the relay is over, see `c95_late`. -/
theorem c95_term_partial (p : Prog) (cap : Nat) (h1 h2 : List Ev) (pid : Int) (t1 t : St)
    (hp : (acts (h1 ++ .raise .term pid :: h2)).count .pipe ≤ 1)
    (hr1 : run p cap .init h1 = some t1)
    (hr2 : run p cap t1 (.raise .term pid :: h2) = some t)
    (hpipe : t1.pipe ≠ none) (hf : ∀ pid, .fork pid ∉ acts h2) (hc : t.sent.length ≤ cap) :
    t.alive = false ∨ Waiting .term t ∨ 0 ∈ t.wrote.drop t1.wrote.length := by
  obtain ⟨pid', -, h⟩ := follow hp hr1 hr2 (.inr (by decide)) hf
  have hcode : code p t1.child .term pid' = 0 := by cases p <;> simp [code]
  rw [hcode] at h
  exact track_out h (by rw [kept hp hr1 hr2 hpipe hc]; exact Nat.le_refl _)

/-- **C95 (timeout).** The same for SIGALRM, whose byte is 'A' in tlswrapper (see
`c95_bytes` for what the relay does with it) and 0 in tlswrapper-tcp. -/
theorem c95_alarm (p : Prog) (cap : Nat) (h1 h2 : List Ev) (pid : Int) (t1 t : St)
    (hp : (acts (h1 ++ .raise .alrm pid :: h2)).count .pipe ≤ 1)
    (hr1 : run p cap .init h1 = some t1)
    (hr2 : run p cap t1 (.raise .alrm pid :: h2) = some t)
    (hpipe : t1.pipe ≠ none) (hf : ∀ pid, .fork pid ∉ acts h2) (hc : t.sent.length ≤ cap) :
    t.alive = false ∨ Waiting .alrm t ∨
      (if p = .wrapper then c! 'A' else 0) ∈ t.wrote.drop t1.wrote.length := by
  obtain ⟨pid', -, h⟩ := follow hp hr1 hr2 (.inr (by decide)) hf
  have hcode : code p t1.child .alrm pid' = (if p = .wrapper then c! 'A' else 0) := by
    cases p <;> simp [code]
  rw [hcode] at h
  exact track_out h (by rw [kept hp hr1 hr2 hpipe hc]; exact Nat.le_refl _)

/-- **C95 (end of the wrapped program).** The end of the wrapped program, while SIGCHLD is
handled and the pipe exists, is never lost: it gives a 'C', or, if the end of another
process was pending at that moment, possibly a zero byte. -/
theorem c95_child (cap : Nat) (h1 h2 : List Ev) (t1 t : St)
    (hp : (acts (h1 ++ .raise .chld t1.child :: h2)).count .pipe ≤ 1)
    (hr1 : run .wrapper cap .init h1 = some t1)
    (hr2 : run .wrapper cap t1 (.raise .chld t1.child :: h2) = some t)
    (hpipe : t1.pipe ≠ none) (hh : .chld ∈ t1.hand) (hd : .dflt .chld ∉ acts h2)
    (hf : ∀ pid, .fork pid ∉ acts h2) (hc : t.sent.length ≤ cap) :
    t.alive = false ∨ Waiting .chld t ∨ c! 'C' ∈ t.wrote.drop t1.wrote.length ∨
      ((∃ pid, (.chld, pid) ∈ t1.pend) ∧ 0 ∈ t.wrote.drop t1.wrote.length) := by
  obtain ⟨pid', hpid, h⟩ := follow hp hr1 hr2 (.inl ⟨hh, hd⟩) hf
  have h2 := track_out h (by rw [kept hp hr1 hr2 hpipe hc]; exact Nat.le_refl _)
  rcases h2 with h2 | h2 | h2
  · exact .inl h2
  · exact .inr (.inl h2)
  · by_cases hany : ∃ pid, (Signal.chld, pid) ∈ t1.pend
    · by_cases he : pid' = t1.child
      · exact .inr (.inr (.inl (by simpa [code, he] using h2)))
      · exact .inr (.inr (.inr ⟨hany, by simpa [code, he] using h2⟩))
    · have he := hpid (fun x hx => hany ⟨x, hx⟩)
      exact .inr (.inr (.inl (by simpa [code, he] using h2)))

/-- **C95 (what the relay does with the bytes).** A zero byte ends the loop, whatever is
open. 'C' closes the wrapped program's input and goes on. 'A' closes all of the wrapped
program's descriptors and goes on, or ends the loop if they were closed already. -/
theorem c95_bytes (w : Relay.W) :
    (Relay.selfpipeEvent w (.byte 0)).2 = true ∧
    ((Relay.selfpipeEvent w (.byte (c! 'C'))).2 = false ∧
      (Relay.selfpipeEvent w (.byte (c! 'C'))).1.op .childin = false) ∧
    ((Relay.selfpipeEvent w (.byte (c! 'A'))).2 = false →
      ∀ f ∈ [Relay.Fd.childin, .childout, .ctl, .ack],
        (Relay.selfpipeEvent w (.byte (c! 'A'))).1.op f = false) ∧
    ((Relay.selfpipeEvent w (.byte (c! 'A'))).2 = true ↔
      ∀ f ∈ [Relay.Fd.childin, .childout, .ctl, .ack], w.op f = false) := by
  have hclose : ∀ (v : Relay.W) f g, (v.close f).op g = if g = f then false else v.op g := by
    intro v f g
    unfold Relay.W.close
    split
    · rfl
    · next h => split
                · next e => subst e; simpa using h
                · rfl
  refine ⟨rfl, ⟨rfl, ?_⟩, ?_, ?_⟩
  · simp [Relay.selfpipeEvent, Relay.W.act, hclose]
  · intro h f hf
    simp only [Relay.selfpipeEvent] at h ⊢
    rw [if_neg (by decide)] at h ⊢
    split at h
    · next hc =>
      rw [if_pos hc]
      simp only [List.mem_cons, List.not_mem_nil, or_false] at hf
      rcases hf with rfl | rfl | rfl | rfl <;> simp [Relay.W.act, hclose]
    · cases h
  · simp only [Relay.selfpipeEvent]
    rw [if_neg (by decide)]
    by_cases hc : w.op .childin = true ∨ w.op .childout = true ∨ w.op .ctl = true ∨ w.op .ack = true
    · rw [if_pos (by exact ⟨trivial, hc⟩)]
      simp only [Bool.false_eq_true, false_iff]
      intro hall
      rcases hc with h | h | h | h <;> simp [hall] at h
    · rw [if_neg (fun h => hc h.2)]
      simp only [true_iff]
      intro f hf
      simp only [List.mem_cons, List.not_mem_nil, or_false] at hf
      rcases hf with rfl | rfl | rfl | rfl <;> simp_all

/-- **C95 (tlswrapper-tcp).** tlswrapper-tcp makes the pipe before it installs its
handlers: no signal's byte is ever lost, and a SIGTERM sent at any time at all ends the
process, is waiting, or has put a zero byte into the pipe. -/
theorem c95_tcp (cap : Nat) (h1 h2 : List Ev) (pid : Int) (t1 t : St)
    (ho : order (h1 ++ .raise .term pid :: h2) <+: tcpOrder)
    (hr1 : run .tcp cap .init h1 = some t1)
    (hr2 : run .tcp cap t1 (.raise .term pid :: h2) = some t) (hc : t.sent.length ≤ cap) :
    t.lost = [] ∧
    (t.alive = false ∨ Waiting .term t ∨ 0 ∈ t.wrote.drop t1.wrote.length) := by
  have hp : (acts (h1 ++ .raise .term pid :: h2)).count .pipe ≤ 1 := by
    rw [count_order]
    exact Nat.le_trans (ho.sublist.count_le _) (by decide)
  have hr : run .tcp cap .init (h1 ++ .raise .term pid :: h2) = some t := by
    rw [run_append, hr1]; exact hr2
  have hpf : PipeFirst (acts (h1 ++ .raise .term pid :: h2)) = true := by
    rw [← pipeFirst_filter]
    exact pipeFirst_prefix ho (by decide)
  have hl := (safe_run _ inv_init (by simpa [OncePipe, St.init] using hp)
    (.inr ⟨rfl, rfl⟩) (.inr hpf) hr hc).1
  have hfork : ∀ pid, .fork pid ∉ acts h2 := by
    intro pid' hm
    have h1 : Act.fork pid' ∈ order (h1 ++ .raise .term pid :: h2) :=
      mem_order (by rw [acts_append]; exact List.mem_append.mpr (.inr (acts_mem_cons hm)))
        (by simp) (by simp)
    have h2 := ho.subset h1
    simp [tcpOrder] at h2
  obtain ⟨pid', -, h⟩ := follow hp hr1 hr2 (.inr (by decide)) hfork
  have hcode : code .tcp t1.child .term pid' = 0 := rfl
  rw [hcode] at h
  exact ⟨hl, track_out h (by rw [hl]; exact Nat.zero_le _)⟩

/-- **C95 (before the pipe exists).** As long as there is no pipe, no handler tells anyone
anything, and what it had to say is lost for good. -/
theorem c95_no_pipe (p : Prog) (cap : Nat) (h : List Ev) (t : St)
    (hp : (acts h).count .pipe ≤ 1) (hr : run p cap .init h = some t) (hn : t.pipe = none) :
    t.wrote = [] ∧ t.got = [] := by
  have := (start hp hr).fifo
  rwa [hn] at this

/-- **C95 (violation).** tlswrapper installs its SIGTERM handler at the start of main and
makes the pipe much later. A SIGTERM in between (while it parses its arguments, reads its
files, starts the wrapped program) neither ends it nor is noticed later: the relay then
runs as if it had not come. -/
theorem c95_early : ∃ h t, order h = (wrapperOrder 77).take 5 ∧
    Ev.raise .term 1 ∈ h ∧ run .wrapper 65536 .init h = some t ∧
    t.alive = true ∧ t.pend = [] ∧ t.frames = [] ∧ readEv t = .again ∧ t.lost = [0] :=
  ⟨[.main (.handle .chld), .main (.handle .term), .raise .term 1, .deliver .term,
    .write false, .test, .main (.fork 77), .main .pipe, .main (.handle .alrm)],
   ⟨[.alrm, .term, .chld], 77, some [], 0, [], [], true, [], [], [0], [0]⟩,
   by decide, by decide, by decide, rfl, rfl, rfl, rfl, rfl⟩

/-- A signal that has a handler does not end the process. -/
theorem handled_lives {sg : Signal} (p : Prog) (cap : Nat) (h : List Ev) (t : St)
    (hh : .handle sg ∈ acts h) (hd : .dflt sg ∉ acts h)
    (hr : run p cap .init (h ++ [.deliver sg]) = some t) : t.alive = true := by
  rw [run_append] at hr
  simp only [Option.bind_eq_some_iff] at hr
  obtain ⟨u, hu, hr⟩ := hr
  simp only [run, Option.bind_eq_some_iff, Option.some.injEq] at hr
  obtain ⟨v, hv, rfl⟩ := hr
  have key : ∀ (h : List Ev) (a b : St), run p cap a h = some b → .dflt sg ∉ acts h →
      (sg ∈ a.hand ∨ .handle sg ∈ acts h) → sg ∈ b.hand := by
    intro h
    induction h with
    | nil =>
      intro a b hr _ hh
      cases hr
      rcases hh with hh | hh
      · exact hh
      · simp [acts] at hh
    | cons e es ih =>
      intro a b hr hd hh
      simp only [run, Option.bind_eq_some_iff] at hr
      obtain ⟨c, hc, hr⟩ := hr
      refine ih c b hr (fun hm => hd (acts_mem_cons hm)) ?_
      rcases hh with hh | hh
      · exact .inl (step_hand hc (fun he => hd (he ▸ acts_main)) hh)
      · by_cases he : e = .main (.handle sg)
        · subst he
          unfold step at hc
          split at hc
          · simp at hc
          · dsimp only at hc
            split at hc
            · cases hc; exact .inl (by simp [act])
            · cases hc
        · refine .inr ?_
          cases e with
          | main a' =>
            simp only [acts, List.mem_cons] at hh
            rcases hh with hh | hh
            · exact absurd (hh ▸ rfl) he
            · exact hh
          | _ => exact hh
  have hm := key h _ _ hu hd (.inr hh)
  unfold step at hv
  split at hv
  · simp at hv
  next ha =>
  dsimp only at hv
  split at hv
  · cases hv
  · split at hv
    · cases hv
    · try rw [if_pos hm] at hv
      cases hv
      simpa using ha

/-- **C95 (handled for good).** Once tlswrapper has installed its SIGTERM handler, a SIGTERM
never ends it by itself, not even after the relay is over. -/
theorem c95_never_kills (p : Prog) (cap : Nat) (h : List Ev) (t : St)
    (hh : .handle .term ∈ acts h) (hd : .dflt .term ∉ acts h)
    (hr : run p cap .init (h ++ [.deliver .term]) = some t) : t.alive = true :=
  handled_lives p cap h t hh hd hr

/-- **C95 (tlswrapper-tcp, set up).** Once tlswrapper-tcp has taken its steps, neither SIGTERM nor
SIGALRM ends it by itself. -/
theorem c95_tcp_lives (cap : Nat) (h : List Ev) (t : St) (sg : Signal) (hs : sg ≠ .chld)
    (ho : order h = tcpOrder) (hr : run .tcp cap .init (h ++ [.deliver sg]) = some t) : t.alive = true := by
  have hmem : ∀ a, (∀ e, a ≠ .other e) → a ≠ .read → (a ∈ acts h ↔ a ∈ tcpOrder) := by
    intro a h1 h2
    rw [← ho]
    exact ⟨fun hm => mem_order hm h1 h2, fun hm => (List.mem_filter.mp hm).1⟩
  refine handled_lives .tcp cap h t ?_ ?_ hr
  · rw [hmem _ (by simp) (by simp)]
    cases sg
    · decide
    · exact absurd rfl hs
    · decide
  · rw [hmem _ (by simp) (by simp)]
    cases sg <;> decide

/-- tlswrapper-tcp set up and its timeout: the hypotheses of `c95_tcp_lives` are met. -/
example : ∃ t, order [.main .pipe, .main (.handle .term), .main (.handle .alrm), .raise .alrm 0] = tcpOrder ∧
    run .tcp 65536 .init ([.main .pipe, .main (.handle .term), .main (.handle .alrm), .raise .alrm 0] ++
      [.deliver .alrm]) = some t ∧ t.frames ≠ [] := by
  refine ⟨_, by decide, rfl, by decide⟩

/-- **C95 (violation).** A SIGTERM while tlswrapper waits for the wrapped program to end has
no effect: the byte stays in the pipe, which nobody reads any more. -/
theorem c95_late : ∃ h t, order h = wrapperOrder 77 ∧
    run .wrapper 65536 .init h = some t ∧
    t.alive = true ∧ t.pend = [] ∧ t.frames = [] ∧ t.got = [] ∧ t.wrote = [0] :=
  ⟨[.main (.handle .chld), .main (.handle .term), .main (.fork 77), .main .pipe,
    .main (.handle .alrm), .main (.dflt .chld), .main (.dflt .alrm), .raise .term 1,
    .deliver .term, .write true, .test, .write false, .test],
   ⟨[.term], 77, some [0], 0, [], [], true, [0], [], [], [0]⟩,
   by decide, by decide, rfl, rfl, rfl, rfl, rfl⟩

/-- A history in which three signals interrupt each other, one write is interrupted and
errno is in use: the hypotheses above are met. -/
example : ∃ t, run .wrapper 65536 .init
    [.main (.handle .chld), .main (.handle .term), .main (.fork 77), .main .pipe,
     .main (.handle .alrm), .main (.other 11), .raise .chld 77, .raise .alrm 0, .raise .term 1,
     .deliver .chld, .write true, .deliver .alrm, .write false, .deliver .term, .write false,
     .test, .test, .test, .write false, .test, .main .read] = some t ∧
    t.frames = [] ∧ t.errno = 11 ∧ t.got = [c! 'A'] ∧ t.pipe = some [0, c! 'C'] ∧
    t.sent = [c! 'C', c! 'A', 0] ∧ t.alive = true :=
  ⟨⟨[.alrm, .term, .chld], 77, some [0, c! 'C'], 11, [], [], true, [c! 'A', 0, c! 'C'],
    [c! 'A'], [], [c! 'C', c! 'A', 0]⟩, by decide, rfl, rfl, rfl, rfl, rfl, rfl⟩

example : ∃ t, run .tcp 65536 .init
    [.main .pipe, .main (.handle .term), .raise .term 1, .deliver .term, .write false,
     .test] = some t ∧ t.wrote = [0] ∧ t.alive = true :=
  ⟨⟨[.term], -1, some [0], 0, [], [], true, [0], [], [], [0]⟩, by decide, rfl, rfl⟩

end Sig
