import Verif.Main.ChildProps
/-
C114: what the wrapped program inherits besides its descriptors (C71, C94) and its account and environment (C70): signal dispositions, the
timer and the limits of the process.
-/
namespace Fresh
open Main Io Pipe Proxy

/-! ### Signals and the timer -/

/-- What happens on a signal (signal(2), sigaction(2), called at main_tlswrapper.c:1162-1168, 1355-1357 and
main_tlswrapper_smtp.c:840-841, 942-943). -/
inductive Disp where
  | dfl | ign | caught
  deriving Repr, DecidableEq

/-- The signal side of a process: dispositions by number, and the seconds left on its timer (alarm(2), main_tlswrapper.c:1169). -/
structure Sigs where
  disp : Nat → Disp
  timer : Option Nat

/-- SIGPIPE on Linux (main_tlswrapper.c:1162). -/
def SIGPIPE : Nat := 13
/-- SIGALRM on Linux (main_tlswrapper_smtp.c:841). -/
def SIGALRM : Nat := 14
/-- SIGTERM on Linux (main_tlswrapper.c:1168). -/
def SIGTERM : Nat := 15
/-- SIGCHLD on Linux (main_tlswrapper.c:1167). -/
def SIGCHLD : Nat := 17

/-- The calls that touch them, on the way from the start of the wrapper to the start of the program
(main_tlswrapper.c:1162-1359, main_tlswrapper_smtp.c:840-945). -/
inductive Op where
  | signal (n : Nat) (d : Disp)
  | alarm (secs : Nat)
  /-- fork(), seen from the new process -/
  | fork
  | exec
  deriving Repr, DecidableEq

/-- Linux: the new process of fork() has no timer; execve() sets caught signals to their default and keeps ignored ones and the timer
(what the calls at main_tlswrapper.c:1162-1359 do). -/
def step (s : Sigs) : Op → Sigs
  | .signal n d => { s with disp := fun m => if m = n then d else s.disp m }
  | .alarm k => { s with timer := if k = 0 then none else some k }
  | .fork => { s with timer := none }
  | .exec => { s with disp := fun m => if s.disp m = .ign then .ign else .dfl }

/-- main_tlswrapper.c:1162-1359: from the start to execvp(); `hs` is the timeout of -T. A failing sigaction() ends the wrapper before it
starts anything (main_tlswrapper.c:1167-1168). -/
def tlswrapper (hs : Nat) : List Op :=
  [.signal SIGPIPE .ign,                                                  -- :1162
   .signal SIGCHLD .caught, .signal SIGTERM .caught,                      -- :1167-1168
   .alarm 10, .alarm hs,                                                  -- :1169, 1280
   .fork, .alarm 0,                                                       -- :1303, 1308
   .signal SIGPIPE .dfl, .signal SIGCHLD .dfl, .signal SIGTERM .dfl,      -- :1355-1357
   .exec]                                                                 -- :1359

/-- main_tlswrapper_smtp.c:840-945: from the start to execvp(). -/
def smtp : List Op :=
  [.signal SIGPIPE .ign, .signal SIGALRM .caught, .alarm 30,              -- :840-842
   .fork, .alarm 0,                                                       -- :919, 925
   .signal SIGPIPE .dfl, .signal SIGALRM .dfl,                            -- :942-943
   .exec]                                                                 -- :945

/-- C114: whatever the wrapper was started with, its program has no timer and ignores no signal because of the wrapper: a signal is ignored
only if the wrapper was started with it ignored. SIGPIPE, SIGCHLD and SIGTERM have their default effect in any case. -/
theorem c114_tlswrapper (s : Sigs) (hs : Nat) :
    ((tlswrapper hs).foldl step s).timer = none ∧
    ∀ n, ((tlswrapper hs).foldl step s).disp n =
      if n ∉ [SIGPIPE, SIGCHLD, SIGTERM] ∧ s.disp n = .ign then .ign else .dfl := by
  refine ⟨rfl, fun n => ?_⟩
  simp only [tlswrapper, List.foldl, step, List.mem_cons, List.not_mem_nil, or_false, not_or]
  by_cases h1 : n = SIGPIPE <;> by_cases h2 : n = SIGCHLD <;> by_cases h3 : n = SIGTERM <;> simp_all [SIGPIPE, SIGCHLD, SIGTERM]

/-- C114: the same of tlswrapper-smtp and the mail program. -/
theorem c114_smtp (s : Sigs) :
    (smtp.foldl step s).timer = none ∧
    ∀ n, (smtp.foldl step s).disp n = if n ∉ [SIGPIPE, SIGALRM] ∧ s.disp n = .ign then .ign else .dfl := by
  refine ⟨rfl, fun n => ?_⟩
  simp only [smtp, List.foldl, step, List.mem_cons, List.not_mem_nil, or_false, not_or]
  by_cases h1 : n = SIGPIPE <;> by_cases h2 : n = SIGALRM <;> simp_all [SIGPIPE, SIGALRM]

/-- C114: in the usual row, tlswrapper before tlswrapper-smtp before the mail program, started with no signal ignored, every signal has its
default effect for the mail program. -/
theorem c114_row (s : Sigs) (hs : Nat) (h : ∀ n, s.disp n ≠ .ign) (n : Nat) :
    ((tlswrapper hs ++ smtp).foldl step s).disp n = .dfl := by
  rw [List.foldl_append, (c114_smtp _).2, (c114_tlswrapper s hs).2]
  simp [h n]

example : (smtp.foldl step ⟨fun n => if n = 1 then .ign else .dfl, some 5⟩).disp 1 = .ign ∧
    (smtp.foldl step ⟨fun n => if n = 1 then .ign else .dfl, some 5⟩).disp SIGPIPE = .dfl := by decide

/-- Until then, that is while it waits for the handshake, SIGTERM is caught in the process of the program, and what its handler would wake
is not there (C95): it neither ends the process nor reaches the program. -/
theorem c114_term_waits (s : Sigs) (hs k : Nat) (h : 6 ≤ k) (h' : k ≤ 9) :
    ((tlswrapper hs).take k |>.foldl step s).disp SIGTERM = .caught := by
  have : k = 6 ∨ k = 7 ∨ k = 8 ∨ k = 9 := by omega
  rcases this with rfl | rfl | rfl | rfl <;> simp [tlswrapper, step, SIGTERM, SIGCHLD, SIGPIPE]

/-! ### Limits -/

/-- `m` keeps `I` when it succeeds. (Specification or proof notion; models no line of /repo.) -/
def Keeps (I : Jail.Proc → Prop) {α : Type} (m : Jail.M α) : Prop := ∀ k a k', m k = (some a, k') → I k.p → I k'.p

theorem Keeps.bind {I : Jail.Proc → Prop} {α β : Type} {m : Jail.M α} {f : α → Jail.M β} (h : Keeps I m) (h' : ∀ a, Keeps I (f a)) : Keeps I (m >>= f) := by
  intro k b k' e hi
  rw [Jail.bind_def, Jail.M.bind] at e
  cases e1 : m k with
  | mk o k1 =>
    rw [e1] at e
    cases o with
    | none => cases e
    | some a => exact h' a _ _ _ e (h _ _ _ e1 hi)
theorem Keeps.pure {I : Jail.Proc → Prop} {α : Type} (a : α) : Keeps I (pure a : Jail.M α) := by
  intro k b k' e hi
  rw [Jail.pure_def] at e
  cases e; exact hi
theorem Keeps.look {I : Jail.Proc → Prop} {α : Type} (f : Jail.Proc → α) : Keeps I (Jail.look f) := by
  intro k b k' e hi
  cases e; exact hi
theorem Keeps.failIf {I : Jail.Proc → Prop} (b : Bool) : Keeps I (Jail.failIf b) := by
  intro k a k' e hi
  unfold Jail.failIf at e
  split at e <;> cases e
  exact hi

theorem call_keeps {I : Jail.Proc → Prop} {w : Jail.World} {k k' : Jail.K} {c : Jail.Call} {l : Bool} {f : Jail.Proc → Option Jail.Proc}
    {r : Jail.Ret} (hf : ∀ p p', f p = some p' → I p → I p') (e : Jail.call w k c l f = (r, k')) (hi : I k.p) : I k'.p := by
  unfold Jail.call at e
  simp only at e
  split at e
  · cases e; exact hi
  · cases e; exact hi
  · split at e
    · cases e; exact hi
    · split at e <;> cases e
      · exact hf _ _ (by assumption) hi
      · exact hi
  · split at e <;> cases e
    · exact hf _ _ (by assumption) hi
    · exact hi
theorem callLim_keeps {I : Jail.Proc → Prop} {w : Jail.World} {k k' : Jail.K} {c : Jail.Call} {r : Jail.Res} {f : Jail.Proc → Option Jail.Proc}
    {x : Jail.Ret} (hf : ∀ p p', f p = some p' → I p → I p') (e : Jail.callLim w k c r f = (x, k')) (hi : I k.p) : I k'.p := by
  unfold Jail.callLim at e
  split at e
  · cases e; exact hi
  · exact call_keeps hf e hi
theorem Keeps.must {I : Jail.Proc → Prop} {w : Jail.World} {c : Jail.Call} {l : Bool} {f : Jail.Proc → Option Jail.Proc}
    (hf : ∀ p p', f p = some p' → I p → I p') : Keeps I (Jail.must w c l f) := by
  intro k a k' e hi
  unfold Jail.must at e
  cases e1 : Jail.call w k c l f with
  | mk r k1 =>
    rw [e1] at e
    cases r <;> cases e
    exact call_keeps hf e1 hi
theorem Keeps.limitMemory {I : Jail.Proc → Prop} {w : Jail.World} {r : Jail.Res} {n : Nat}
    (hf : ∀ p m p', Jail.kSetrlimit p r n m = some p' → I p → I p') : Keeps I (Jail.limitMemory w r n) := by
  intro k a k' e hi
  unfold Jail.limitMemory at e
  cases e1 : Jail.callLim w k (.getrlimit r) r some with
  | mk x k1 =>
    have h1 : I k1.p := callLim_keeps (fun p p' e h => by cases e; exact h) e1 hi
    rw [e1] at e
    cases x with
    | einval => cases e; exact h1
    | failed => cases e
    | ok =>
      simp only at e
      split at e
      · cases e
      · split at e
        · cases e; exact h1
        · rename_i cur max _ _
          generalize (if max > n then n else max) = m at e
          cases e2 : Jail.callLim w k1 (.setrlimit r n m) r (fun p => Jail.kSetrlimit p r n m) with
          | mk y k2 =>
            rw [e2] at e
            have h2 : I k2.p := callLim_keeps (fun p p' => hf p m p') e2 h1
            cases y <;> cases e <;> exact h2

/-- What of the process is the same: everything but ids, groups, capabilities, environment, allocator and the two memory limits.
(Specification or proof notion; models no line of /repo.) -/
structure Same (p0 p : Jail.Proc) : Prop where
  cwd : p.cwd = p0.cwd
  root : p.root = p0.root
  dumpable : p.dumpable = p0.dumpable
  rlim : ∀ r, r ≠ .as → r ≠ .data → p.rlim r = p0.rlim r
  known : ∀ r, (p.rlim r).isSome = (p0.rlim r).isSome

theorem Same.refl (p : Jail.Proc) : Same p p := ⟨rfl, rfl, rfl, fun _ _ _ => rfl, fun _ => rfl⟩
theorem Same.trans {a b c : Jail.Proc} (h : Same a b) (h' : Same b c) : Same a c :=
  ⟨h'.cwd.trans h.cwd, h'.root.trans h.root, h'.dumpable.trans h.dumpable, fun r h1 h2 => (h'.rlim r h1 h2).trans (h.rlim r h1 h2),
    fun r => (h'.known r).trans (h.known r)⟩

theorem same_memory {p0 : Jail.Proc} {w : Jail.World} {r : Jail.Res} {n : Nat} (hr : r = .as ∨ r = .data) :
    Keeps (Same p0) (Jail.limitMemory w r n) := by
  refine Keeps.limitMemory fun p m p' e h => ?_
  unfold Jail.kSetrlimit at e
  split at e
  · cases e
  · rename_i s hd hk
    split at e
    · cases e
    · split at e
      · cases e
      · cases e
        refine ⟨h.cwd, h.root, h.dumpable, fun x h1 h2 => ?_, fun x => ?_⟩
        · have : x ≠ r := by rintro rfl; rcases hr with rfl | rfl <;> contradiction
          simp only [this, if_false]
          exact h.rlim x h1 h2
        · by_cases hx : x = r
          · subst hx; simp only [if_true]; rw [← h.known x, hk]; rfl
          · simp only [hx, if_false]; exact h.known x

/-- The part of jail() before the memory limits, as jail_droppriv() calls it. (Specification or proof notion; models no line of /repo.) -/
def front (w : Jail.World) (account : Option Bytes) : Jail.M Unit := do
  let t ← Jail.target w account
  Jail.dropGid w t.2.2
  Jail.dropGroups w t.1 t.2.2
  Jail.enter w none
  Jail.dropUid w t.2.1
  Jail.limit w false .nofile
  Jail.environ w t.1
  Jail.limit w false .nproc
  Jail.limit w false .core
  Jail.undump w false
  Jail.allocLimit

theorem jail_bind_assoc {α β γ : Type} (m : Jail.M α) (f : α → Jail.M β) (g : β → Jail.M γ) :
    (m >>= f) >>= g = m >>= fun a => f a >>= g := by
  funext k
  simp only [Jail.bind_def, Jail.M.bind]
  cases m k with
  | mk o k => cases o <;> rfl

theorem body_front (w : Jail.World) (account : Option Bytes) :
    Jail.body w account none false = front w account >>= fun _ => Jail.limitMemory w .as Jail.datamax >>= fun _ =>
      Jail.limitMemory w .data Jail.datamax := by
  unfold front Jail.body
  simp only [jail_bind_assoc]

theorem same_front {p0 : Jail.Proc} {w : Jail.World} {account : Option Bytes} : Keeps (Same p0) (front w account) := by
  have ht : Keeps (Same p0) (Jail.target w account) := by
    unfold Jail.target
    split
    · exact .pure _
    · split
      · intro k a k' e; cases e
      · split
        · intro k a k' e; cases e
        · exact .pure _
  have hs : ∀ n v, Keeps (Same p0) (Jail.setenv w n v) := fun n v => Keeps.must fun p p' e h => by
    cases e; exact ⟨h.cwd, h.root, h.dumpable, h.rlim, h.known⟩
  refine ht.bind fun t => ?_
  refine (Keeps.bind (Keeps.must fun p p' e h => ?_) fun _ => (Keeps.look _).bind fun _ => .failIf _).bind fun _ => ?_
  · unfold Jail.kSetgid at e
    split at e
    · cases e; exact ⟨h.cwd, h.root, h.dumpable, h.rlim, h.known⟩
    · split at e <;> cases e
      exact ⟨h.cwd, h.root, h.dumpable, h.rlim, h.known⟩
  have hg : ∀ l : List Nat, ∀ p p', Jail.kSetgroups p l = some p' → Same p0 p → Same p0 p' := by
    intro l p p' e h
    unfold Jail.kSetgroups at e
    split at e <;> cases e
    exact ⟨h.cwd, h.root, h.dumpable, h.rlim, h.known⟩
  refine Keeps.bind ?_ fun _ => ?_
  · unfold Jail.dropGroups
    split
    · exact Keeps.must (hg _)
    · exact Keeps.must (hg _)
  refine (Keeps.pure ()).bind fun _ => ?_
  refine (Keeps.bind (Keeps.must fun p p' e h => ?_) fun _ => (Keeps.look _).bind fun _ => .failIf _).bind fun _ => ?_
  · unfold Jail.kSetuid at e
    split at e
    · cases e; exact ⟨h.cwd, h.root, h.dumpable, h.rlim, h.known⟩
    · split at e <;> cases e
      exact ⟨h.cwd, h.root, h.dumpable, h.rlim, h.known⟩
  refine (Keeps.pure ()).bind fun _ => ?_
  refine Keeps.bind ?_ fun _ => ?_
  · unfold Jail.environ
    split
    · exact (hs _ _).bind fun _ => (hs _ _).bind fun _ => (hs _ _).bind fun _ => hs _ _
    · exact .pure _
  refine (Keeps.pure ()).bind fun _ => (Keeps.pure ()).bind fun _ => (Keeps.pure ()).bind fun _ => ?_
  intro k a k' e h
  cases e
  exact ⟨h.cwd, h.root, h.dumpable, h.rlim, h.known⟩

theorem dropTo_same {w : Jail.World} {a : Bytes} {p q : Jail.Proc} (h : dropTo w a p = some q) : Same p q := by
  unfold dropTo Jail.droppriv Jail.jail at h
  cases e : Jail.body w (some a) none false ⟨p, 0, []⟩ with
  | mk o k =>
    rw [e] at h
    cases o with
    | none => cases h
    | some u =>
      cases h
      rw [body_front] at e
      exact (same_front.bind fun _ => (same_memory (.inl rfl)).bind fun _ => same_memory (.inr rfl)) _ _ _ e (Same.refl p)

/-- C114: the program has the limits on files, processes and core dumps, the working and root directory and the dump setting the wrapper was
started with; without -u and -U all its limits. -/
theorem c114_limits_partial (C : IpCodec) (w1 w2 : Jail.World) (execs : Bool) (o : Opts) (env : ConnInfo.Env) (p q : Jail.Proc) (fd r : RFd)
    (h : childMain C w1 w2 execs o env p fd = some (.ok (.exec q r))) :
    q.cwd = p.cwd ∧ q.root = p.root ∧ q.dumpable = p.dumpable ∧
    (∀ x, x ≠ .as → x ≠ .data → q.rlim x = p.rlim x) ∧
    (o = ⟨false, none⟩ → q.rlim = p.rlim) := by
  suffices hh : Same p q ∧ (o = ⟨false, none⟩ → q.rlim = p.rlim) from
    ⟨hh.1.cwd, hh.1.root, hh.1.dumpable, hh.1.rlim, hh.2⟩
  unfold childMain at h
  split at h
  · cases h
  · cases h
  rename_i e fd1 he
  obtain ⟨env', hx, -, -⟩ := exportEnds_eq C env e p
  rw [hx] at h
  simp only [readAccount] at h
  split at h
  · cases h
  rename_i rc rec n fd2 hm
  split at h
  · cases h
  have h := Option.some.inj h
  have hacc : ∃ a, (rec.length ≤ 1 ∧ a = [] ∨ 1 < rec.length ∧ accountText rec = .ok a) := by
    by_cases hl : rec.length ≤ 1
    · exact ⟨[], .inl ⟨hl, rfl⟩⟩
    · obtain ⟨a, ha⟩ := accountText_ok rec (by omega)
      exact ⟨a, .inr ⟨by omega, ha⟩⟩
  obtain ⟨a, ha⟩ := hacc
  obtain ⟨rfl, p1, hp1, hd⟩ := become_sound ha h
  have s0 : Same p { p with env := envFun env' } := ⟨rfl, rfl, rfl, fun _ _ _ => rfl, fun _ => rfl⟩
  have s1 : Same p p1 := by
    split at hp1
    · exact s0.trans (dropTo_same hp1)
    · rw [hp1]; exact s0
  refine ⟨?_, fun ho => ?_⟩
  · unfold dropUser at hd
    split at hd
    · cases hd; exact s1
    · exact s1.trans (dropTo_same hd)
  · subst ho
    simp only [Bool.false_eq_true, false_and, if_false] at hp1
    simp only [dropUser] at hd
    cases hd
    rw [hp1]

/-- The same of the mail program of tlswrapper-smtp, whose only account is that of -u (main_tlswrapper_smtp.c:938-940). -/
theorem c114_smtp_limits_partial (w : Jail.World) (u : Option Bytes) (p q : Jail.Proc) (h : dropUser w ⟨false, u⟩ p = some q) :
    q.cwd = p.cwd ∧ q.root = p.root ∧ q.dumpable = p.dumpable ∧ (∀ x, x ≠ .as → x ≠ .data → q.rlim x = p.rlim x) ∧
    (u = none → q = p) := by
  cases u with
  | none => cases h; exact ⟨rfl, rfl, rfl, fun _ _ _ => rfl, fun _ => rfl⟩
  | some a =>
    have := dropTo_same (show dropTo w a p = some q from h)
    exact ⟨this.cwd, this.root, this.dumpable, this.rlim, fun e => by cases e⟩

theorem limit_low {w : Jail.World} {r : Jail.Res} {n : Nat} {k k' : Jail.K} {u : Unit} (hw : ∀ n, w.faults n ≠ .einval) (hr : (k.p.rlim r).isSome = true)
    (e : Jail.limitMemory w r n k = (some u, k')) : ∃ s h, k'.p.rlim r = some (s, h) ∧ s ≤ n := by
  have hcall : ∀ (k : Jail.K) c f x k1, (k.p.rlim r).isSome = true → Jail.callLim w k c r f = (x, k1) → x ≠ .einval ∧ (x = .ok → f k.p = some k1.p) := by
    intro k c f x k1 hs e
    unfold Jail.callLim at e
    rw [if_neg (by rw [Option.isNone_iff_eq_none]; rintro ⟨h, -⟩; rw [h] at hs; cases hs)] at e
    unfold Jail.call at e
    simp only at e
    split at e
    · cases e; exact ⟨by decide, fun h => by cases h⟩
    · rename_i hx; exact absurd hx (hw _)
    · simp only [Bool.false_eq_true, if_false] at e
      split at e <;> cases e
      · exact ⟨by decide, fun _ => by assumption⟩
      · exact ⟨by decide, fun h => by cases h⟩
    · split at e <;> cases e
      · exact ⟨by decide, fun _ => by assumption⟩
      · exact ⟨by decide, fun h => by cases h⟩
  unfold Jail.limitMemory at e
  cases e1 : Jail.callLim w k (.getrlimit r) r some with
  | mk x k1 =>
    obtain ⟨n1, o1⟩ := hcall _ _ _ _ _ hr e1
    rw [e1] at e
    cases x with
    | einval => exact absurd rfl n1
    | failed => cases e
    | ok =>
      have hp := Option.some.inj (o1 rfl)
      simp only at e
      split at e
      · cases e
      · rename_i cur max hcm
        split at e
        · cases e; exact ⟨cur, max, hcm, by assumption⟩
        · generalize (if max > n then n else max) = m at e
          cases e2 : Jail.callLim w k1 (.setrlimit r n m) r (fun p => Jail.kSetrlimit p r n m) with
          | mk y k2 =>
            obtain ⟨n2, o2⟩ := hcall _ _ _ _ _ (by rw [← hp]; exact hr) e2
            rw [e2] at e
            cases y with
            | einval => exact absurd rfl n2
            | failed => cases e
            | ok =>
              cases e
              have := o2 rfl
              unfold Jail.kSetrlimit at this
              rw [hcm] at this
              simp only at this
              split at this
              · cases this
              · split at this
                · cases this
                · have := Option.some.inj this
                  rw [← this]
                  exact ⟨n, m, by simp, Nat.le_refl _⟩

/-- C114 is violated by -u and -U: whatever its limits were, a program that is put under an account has at most 128 MiB of address space and of
data, the limits meant for the wrapper's own processes, on every kernel that knows them. -/
theorem c114_memory (w : Jail.World) (hw : ∀ n, w.faults n ≠ .einval) (a : Bytes) (p q : Jail.Proc) (hp : ∀ r, (p.rlim r).isSome = true)
    (h : dropTo w a p = some q) :
    (∃ s hd, q.rlim .as = some (s, hd) ∧ s ≤ 134217728) ∧ ∃ s hd, q.rlim .data = some (s, hd) ∧ s ≤ 134217728 := by
  unfold dropTo Jail.droppriv Jail.jail at h
  cases e : Jail.body w (some a) none false ⟨p, 0, []⟩ with
  | mk o k =>
    rw [e] at h
    cases o with
    | none => cases h
    | some u =>
      cases h
      rw [body_front, Jail.bind_def, Jail.M.bind] at e
      cases e1 : front w (some a) ⟨p, 0, []⟩ with
      | mk o1 k1 =>
        rw [e1] at e
        cases o1 with
        | none => cases e
        | some u1 =>
          have h1 := same_front _ _ _ e1 (Same.refl p)
          simp only at e
          rw [Jail.bind_def, Jail.M.bind] at e
          cases e2 : Jail.limitMemory w .as Jail.datamax k1 with
          | mk o2 k2 =>
            rw [e2] at e
            cases o2 with
            | none => cases e
            | some u2 =>
              have h2 := same_memory (.inl rfl) _ _ _ e2 h1
              simp only at e
              have l1 := limit_low hw (by rw [h1.known]; exact hp _) e2
              have l2 := limit_low hw (by rw [h2.known]; exact hp _) e
              refine ⟨?_, l2⟩
              refine Keeps.limitMemory (I := fun p => ∃ s hd, p.rlim .as = some (s, hd) ∧ s ≤ 134217728) ?_ _ _ _ e l1
              intro p m p' e ⟨s, hd, x, y⟩
              unfold Jail.kSetrlimit at e
              split at e
              · cases e
              · split at e
                · cases e
                · split at e
                  · cases e
                  · cases e
                    exact ⟨s, hd, by simpa using x, y⟩

/-- Started by root without limits, under "nobody". -/
example : ∃ q, dropTo (Jail.sampleWorld fun _ => .none) b!"nobody" { Jail.rootProc with rlim := fun _ => some (2 ^ 64 - 1, 2 ^ 64 - 1) } = some q ∧
    q.rlim .as = some (134217728, 134217728) ∧ q.rlim .nofile = some (2 ^ 64 - 1, 2 ^ 64 - 1) :=
  ⟨_, rfl, rfl, rfl⟩

end Fresh
