import Verif.Main.SmtpFds
import Verif.Main.FdsProps
/-
C94: which descriptors the mail program and the SMTP front end hold.
-/
namespace Main

/- Specification. -/

/-- What the mail program finds at each number: its input, its output, nothing at 5,
and otherwise what the front end was started with. -/
def mailSees (t : Fds) (n : Nat) : Option Obj :=
  if n = 0 then some (.rd .tomail)
  else if n = 1 then some (.wr .frommail)
  else if n = 5 then none
  else survives t n

/-- The pipes of the front end are new: nothing it was started with is an end of them. -/
def NoMail (t : Fds) : Prop :=
  ∀ n e, look t n = some e → e.obj ≠ .rd .tomail ∧ e.obj ≠ .wr .tomail ∧ e.obj ≠ .rd .frommail ∧ e.obj ≠ .wr .frommail

theorem smtpBefore_some {s s' : S} {r} (h : smtpBefore s = some (r, s')) :
    r.1 = canStarttls s.t ∧ Low (look s.t) r.2.1.1 ∧ r.2.1.1 < r.2.1.2 ∧ r.2.1.2 < r.2.2.1 ∧ r.2.2.1 < r.2.2.2 ∧
      Low (upd (look s.t) r.2.1.1 (some ⟨.rd .tomail, true⟩)) r.2.1.2 ∧
      look s.t r.2.1.2 = none ∧ look s.t r.2.2.1 = none ∧ look s.t r.2.2.2 = none ∧
      look s'.t = upd (upd (upd (upd (look s.t) r.2.1.1 (some ⟨.rd .tomail, true⟩)) r.2.1.2 (some ⟨.wr .tomail, true⟩))
        r.2.2.1 (some ⟨.rd .frommail, true⟩)) r.2.2.2 (some ⟨.wr .frommail, true⟩) ∧
      s'.blocking = mode (mode (mode (mode s.blocking (.rd .tomail) false) (.wr .tomail) false)
        (.rd .frommail) false) (.wr .frommail) false ∧ s'.fault = s.fault := by
  obtain ⟨flag, s0, h0, h⟩ := bind_some h
  obtain ⟨a, s1, h1, h⟩ := bind_some h
  obtain ⟨b, s2, h2, h⟩ := bind_some h
  obtain ⟨_, s3, h3, h⟩ := bind_some h
  obtain ⟨rfl, rfl⟩ := pure_some h
  obtain ⟨-, rfl⟩ := tick_some h3
  injection h0 with h0
  injection h0 with h01 h02
  subst h02
  obtain ⟨a1, a2, a3, t1, m1, k1, -, -⟩ := openPipe_some h1
  obtain ⟨b1, b2, b3, t2, m2, k2, -, -⟩ := openPipe_some h2
  rw [t1] at b1 b2 t2
  have e1 := low_lt a2 b1
  refine ⟨h01.symm, a1, a3, e1, b3, a2, ?_, ?_, ?_, t2, by rw [m2, m1], by rw [k2, k1]⟩
  · have := a2.1
    rwa [upd_ne _ (by omega)] at this
  · have := b1.1
    rwa [upd_ne _ (by omega), upd_ne _ (by omega)] at this
  · have := b2.1
    rwa [upd_ne _ (by omega), upd_ne _ (by omega), upd_ne _ (by omega)] at this

theorem mailFds_some {f : Nat → Option Ent} {a b : Nat × Nat} {s s' : S} {u} (l1 : a.1 < a.2) (l2 : a.2 < b.1) (l3 : b.1 < b.2)
    (ht : look s.t = upd (upd (upd (upd f a.1 (some ⟨.rd .tomail, true⟩)) a.2 (some ⟨.wr .tomail, true⟩))
        b.1 (some ⟨.rd .frommail, true⟩)) b.2 (some ⟨.wr .frommail, true⟩))
    (h : mailFds a b s = some (u, s')) :
    0 < a.1 ∧
      look s'.t = upd (upd (upd (upd (upd (upd (upd (look s.t) a.2 none) 0 none) 0 (some ⟨.rd .tomail, false⟩)) b.1 none)
        1 none) 1 (some ⟨.wr .frommail, false⟩)) 5 none ∧
      s'.blocking = mode (mode s.blocking (.rd .tomail) true) (.wr .frommail) true := by
  obtain ⟨_, s1, h1, h⟩ := bind_some h
  obtain ⟨_, s2, h2, h⟩ := bind_some h
  obtain ⟨_, s3, h3, h⟩ := bind_some h
  obtain ⟨_, s4, h4, h⟩ := bind_some h
  obtain ⟨_, s5, h5, h⟩ := bind_some h
  obtain ⟨_, s6, h6, h⟩ := bind_some h
  obtain ⟨_, s7, h7, h⟩ := bind_some h
  obtain ⟨_, s8, h8, h9⟩ := bind_some h
  obtain ⟨t1, m1, -, -⟩ := close_some h1
  obtain ⟨t2, m2, -, -⟩ := close_some h2
  obtain ⟨e, q1, -, t3, m3, -, -, -⟩ := dupTo_some h3
  obtain ⟨t4, -, -, m4, -⟩ := setBlocking_some h4
  obtain ⟨t5, m5, -, -⟩ := close_some h5
  obtain ⟨t6, m6, -, -⟩ := close_some h6
  obtain ⟨e', q2, -, t7, m7, -, -, -⟩ := dupTo_some h7
  obtain ⟨t8, -, -, m8, -⟩ := setBlocking_some h8
  obtain ⟨t9, m9, -, -⟩ := close_some h9
  have pos : 0 < a.1 := by
    rcases Nat.eq_zero_or_pos a.1 with c | c
    · rw [t2, c, upd_same] at q1
      cases q1
    · exact c
  have he : e = ⟨.rd .tomail, true⟩ := by
    rw [t2, t1, ht, upd_ne _ (by omega), upd_ne _ (by omega), upd_ne _ (by omega), upd_ne _ (by omega), upd_ne _ (by omega), upd_same] at q1
    cases q1
    rfl
  subst he
  have he' : e' = ⟨.wr .frommail, true⟩ := by
    rw [t6, t5, t4, t3, t2, t1, ht, upd_ne _ (by omega), upd_ne _ (by omega), upd_ne _ (by omega), upd_ne _ (by omega), upd_ne _ (by omega), upd_same] at q2
    cases q2
    rfl
  subst he'
  have c4 : look s3.t 0 = some ⟨.rd .tomail, false⟩ := by rw [t3, upd_same]
  have c8 : look s7.t 1 = some ⟨.wr .frommail, false⟩ := by rw [t7, upd_same]
  refine ⟨pos, by rw [t9, t8, t7, t6, t5, t4, t3, t2, t1], ?_⟩
  rw [m9, m8 _ c8, m7, m6, m5, m4 _ c4, m3, m2, m1]

/-- C94 (the part that holds): whatever descriptors the front end was started with and
whatever fails: if the mail program is started at all, it finds its input at 0, its output at 1, both
in blocking mode, nothing at 5, and at every other number exactly what the front end was started
with and is not close-on-exec. Missing: nothing at 6 (`c94_answer_pipe`). -/
theorem c94_program_partial {t : Fds} {blocking : Obj → Bool} {fault : Nat → Bool} {s : S} {u : Unit}
    (h : mailProgram (start t blocking fault) = some (u, s)) :
    (∀ n, exec s n = mailSees t n) ∧ s.blocking (.rd .tomail) = true ∧ s.blocking (.wr .frommail) = true ∧
      ∀ k, s.blocking (.inherited k) = blocking (.inherited k) := by
  obtain ⟨⟨flag, a, b⟩, s1, h1, h2⟩ := bind_some h
  obtain ⟨-, low, l1, l2, l3, low2, f2, f3, f4, t1, m1, -⟩ := smtpBefore_some h1
  dsimp only at low l1 l2 l3 low2 f2 f3 f4 t1 m1 h2
  obtain ⟨pos, t2, m2⟩ := mailFds_some l1 l2 l3 t1 h2
  change Low (look t) a.1 at low
  change look s1.t = upd (upd (upd (upd (look t) _ _) _ _) _ _) _ _ at t1
  change look t a.2 = none at f2
  change look t b.1 = none at f3
  change look t b.2 = none at f4
  refine ⟨fun n => ?_, ?_, ?_, fun k => ?_⟩
  · rw [exec_surv, t2, t1]
    have f1 := low.1
    unfold mailSees
    rw [survives_surv]
    simp only [upd]
    unfold surv
    grind
  · rw [m2, m1]; rfl
  · rw [m2]; simp [mode]
  · rw [m2, m1]; simp [mode]; rfl

/-- C94: the front end offers STARTTLS exactly if it was started with something at 5 and at 6,
not because its own pipes happen to get these numbers. It keeps one end of each pipe, in
blocking mode, at numbers that were free, and otherwise what it was started with. -/
theorem c94_front {t : Fds} {blocking : Obj → Bool} {fault : Nat → Bool} {s : S} {flag : Bool} {w r : Nat}
    (h : frontEnd (start t blocking fault) = some ((flag, w, r), s)) :
    (flag = true ↔ look t 5 ≠ none ∧ look t 6 ≠ none) ∧ look t w = none ∧ look t r = none ∧
      (∀ n, look s.t n =
        if n = w then some ⟨.wr .tomail, true⟩
        else if n = r then some ⟨.rd .frommail, true⟩
        else look t n) ∧
      s.blocking (.wr .tomail) = true ∧ s.blocking (.rd .frommail) = true ∧
      ∀ k, s.blocking (.inherited k) = blocking (.inherited k) := by
  obtain ⟨⟨fl, a, b⟩, s1, h1, h2⟩ := bind_some h
  obtain ⟨hf, low, l1, l2, l3, low2, f2, f3, f4, t1, m1, -⟩ := smtpBefore_some h1
  dsimp only at hf low l1 l2 l3 low2 f2 f3 f4 t1 m1 h2
  change Low (look t) a.1 at low
  change look s1.t = upd (upd (upd (upd (look t) _ _) _ _) _ _) _ _ at t1
  change look t a.2 = none at f2
  change look t b.1 = none at f3
  change look t b.2 = none at f4
  change fl = canStarttls t at hf
  obtain ⟨_, s2, h3, h4⟩ := bind_some h2
  obtain ⟨e, rfl⟩ := pure_some h4
  simp only [Prod.mk.injEq] at e
  obtain ⟨rfl, rfl, rfl⟩ := e
  obtain ⟨_, s3, g1, h3⟩ := bind_some h3
  obtain ⟨_, s4, g2, h3⟩ := bind_some h3
  obtain ⟨_, s5, g3, g4⟩ := bind_some h3
  obtain ⟨t3, m3, -, -⟩ := close_some g1
  obtain ⟨t4, m4, -, -⟩ := close_some g2
  obtain ⟨t5, -, -, m5, -⟩ := setBlocking_some g3
  obtain ⟨t6, -, -, m6, -⟩ := setBlocking_some g4
  have c5 : look s4.t b.1 = some ⟨.rd .frommail, true⟩ := by
    rw [t4, t3, t1, upd_ne _ (by omega), upd_ne _ (by omega), upd_ne _ (by omega), upd_same]
  have c6 : look s5.t a.2 = some ⟨.wr .tomail, true⟩ := by
    rw [t5, t4, t3, t1, upd_ne _ (by omega), upd_ne _ (by omega), upd_ne _ (by omega), upd_ne _ (by omega), upd_same]
  have f1 := low.1
  refine ⟨?_, f2, f3, fun n => ?_, ?_, ?_, fun k => ?_⟩
  · rw [hf]
    unfold canStarttls
    cases look t 5 <;> cases look t 6 <;> simp
  · rw [t6, t5, t4, t3, t1]
    simp only [upd]
    grind
  · rw [m6 _ c6]; simp [mode]
  · rw [m6 _ c6, m5 _ c5]; simp [mode]
  · rw [m6 _ c6, m5 _ c5, m4, m3, m1]; simp [mode]; rfl

/-- C94: each end of the two pipes is in one process only. So the mail program sees the end of
its input when the front end goes away, and the front end the end of the answers. -/
theorem c94_ends {t : Fds} {blocking : Obj → Bool} {fault fault' : Nat → Bool} {s s' : S} {u : Unit} {flag : Bool} {w r : Nat}
    (ht : NoMail t) (h : mailProgram (start t blocking fault) = some (u, s))
    (h' : frontEnd (start t blocking fault') = some ((flag, w, r), s')) (n : Nat) :
    (exec s n = some (.rd .tomail) ↔ n = 0) ∧ (exec s n = some (.wr .frommail) ↔ n = 1) ∧
      exec s n ≠ some (.wr .tomail) ∧ exec s n ≠ some (.rd .frommail) ∧
      ∀ x, look s'.t n = some x → x.obj ≠ .rd .tomail ∧ x.obj ≠ .wr .frommail ∧
        (x.obj = .wr .tomail ↔ n = w) ∧ (x.obj = .rd .frommail ↔ n = r) := by
  have hs : ∀ o, survives t n = some o → o ≠ .rd .tomail ∧ o ≠ .wr .tomail ∧ o ≠ .rd .frommail ∧ o ≠ .wr .frommail := by
    intro o ho
    unfold survives at ho
    split at ho
    · rename_i x hx
      cases ho
      exact ht n _ hx
    · cases ho
  rw [(c94_program_partial h).1 n]
  obtain ⟨-, w1, r1, h4, -⟩ := c94_front h'
  refine ⟨?_, ?_, ?_, ?_, fun x hx => ?_⟩
  · unfold mailSees; grind
  · unfold mailSees; grind
  · unfold mailSees; grind
  · unfold mailSees; grind
  · rw [h4 n] at hx
    have hwr : w ≠ r := by
      intro c
      obtain ⟨⟨fl, a, b⟩, s1, h1, h2⟩ := bind_some h'
      obtain ⟨-, -, l1, l2, -, -⟩ := smtpBefore_some h1
      obtain ⟨_, s2, -, h4⟩ := bind_some h2
      obtain ⟨e, -⟩ := pure_some h4
      simp only [Prod.mk.injEq] at e
      dsimp only at l1 l2
      omega
    by_cases c1 : n = w
    · rw [if_pos c1] at hx
      cases hx
      exact ⟨nofun, nofun, by simp [c1], by simp; omega⟩
    · rw [if_neg c1] at hx
      by_cases c2 : n = r
      · rw [if_pos c2] at hx
        cases hx
        exact ⟨nofun, nofun, by simp [c1], by simp [c2]⟩
      · rw [if_neg c2] at hx
        have := ht n x hx
        exact ⟨this.1, this.2.2.2, by simp [c1, this.2.1], by simp [c2, this.2.2.1]⟩

/-- C94: when no call fails and the front end has an input, the mail program is started. -/
theorem c94_starts (t : Fds) (blocking : Obj → Bool) (h0 : look t 0 ≠ none) :
    ∃ s, mailProgram (start t blocking fun _ => false) = some ((), s) := by
  obtain ⟨a, s1, h1⟩ := openPipe_ok .tomail (start t blocking fun _ => false) rfl
  obtain ⟨a1, -, a3, t1, -, k1, -, n1⟩ := openPipe_some h1
  obtain ⟨b, s2, h2⟩ := openPipe_ok .frommail s1 (by rw [k1]; rfl)
  obtain ⟨b1, -, b3, t2, -, k2, -, n2⟩ := openPipe_some h2
  have hb : a.2 < b.1 := by
    obtain ⟨-, a2, -⟩ := openPipe_some h1
    rw [t1] at b1
    exact low_lt a2 b1
  have ha : 0 < a.1 := by
    rcases Nat.eq_zero_or_pos a.1 with c | c
    · exact absurd (c ▸ a1.1) h0
    · exact c
  have h3 : tick s2 = some ((), { s2 with n := s2.n + 1 }) := by simp [tick, k2, k1, start]
  have kf : s2.fault = fun _ => false := by rw [k2, k1]; rfl
  have before : smtpBefore (start t blocking fun _ => false) = some ((canStarttls t, a, b), { s2 with n := s2.n + 1 }) := by
    unfold smtpBefore
    rw [bind_of (a := canStarttls t) (s1 := start t blocking fun _ => false) rfl, bind_of h1, bind_of h2, bind_of h3]
    rfl
  generalize { s2 with n := s2.n + 1 } = s3 at before h3
  obtain ⟨-, -, -, -, -, -, -, -, -, t3, -, k3⟩ := smtpBefore_some before
  dsimp only at t3
  have k3 : s3.fault = fun _ => false := k3
  obtain ⟨s4, h4⟩ := close_ok a.2 s3
  obtain ⟨t4, -, k4, -⟩ := close_some h4
  obtain ⟨s5, h5⟩ := close_ok 0 s4
  obtain ⟨t5, -, k5, -⟩ := close_some h5
  obtain ⟨s6, h6⟩ := dupTo_ok (fd := a.1) (n := 0) (s := s5) (e := ⟨.rd .tomail, true⟩) (by rw [k5, k4, k3])
    (by rw [t5, t4, t3, upd_ne _ (by omega), upd_ne _ (by omega), upd_ne _ (by omega), upd_ne _ (by omega), upd_ne _ (by omega), upd_same])
    ⟨by rw [t5, upd_same], fun k hk => by omega⟩
  obtain ⟨_, -, -, t6, -, k6, -, -⟩ := dupTo_some h6
  obtain ⟨s7, h7⟩ := setBlocking_ok 0 true s6
  obtain ⟨t7, k7, -⟩ := setBlocking_some h7
  obtain ⟨s8, h8⟩ := close_ok b.1 s7
  obtain ⟨t8, -, k8, -⟩ := close_some h8
  obtain ⟨s9, h9⟩ := close_ok 1 s8
  obtain ⟨t9, -, k9, -⟩ := close_some h9
  obtain ⟨s10, h10⟩ := dupTo_ok (fd := b.2) (n := 1) (s := s9) (e := ⟨.wr .frommail, true⟩)
    (by rw [k9, k8, k7, k6, k5, k4, k3])
    (by rw [t9, t8, t7, t6, t5, t4, t3, upd_ne _ (by omega), upd_ne _ (by omega), upd_ne _ (by omega), upd_ne _ (by omega), upd_ne _ (by omega), upd_same])
    ⟨by rw [t9, upd_same], fun k hk => by
      have : k = 0 := by omega
      subst this
      rw [t9, t8, t7, t6, upd_ne _ (by omega), upd_ne _ (by omega), upd_same]
      simp⟩
  obtain ⟨s11, h11⟩ := setBlocking_ok 1 true s10
  obtain ⟨s12, h12⟩ := close_ok 5 s11
  refine ⟨s12, ?_⟩
  unfold mailProgram
  rw [bind_of before]
  dsimp only
  unfold mailFds
  rw [bind_of h4, bind_of h5, bind_of h6, bind_of h7, bind_of h8, bind_of h9, bind_of h10, bind_of h11, h12]

theorem look_execTable (t : Fds) (n : Nat) : look (execTable t) n = (survives t n).map fun o => ⟨o, false⟩ := by
  induction t generalizing n with
  | nil => cases n <;> rfl
  | cons e t ih =>
    cases n with
    | zero =>
      cases e with
      | none => rfl
      | some e =>
        obtain ⟨o, c⟩ := e
        cases c <;> rfl
    | succ n => exact ih n

theorem survives_execTable (t : Fds) (n : Nat) : survives (execTable t) n = survives t n := by
  conv => lhs; unfold survives
  rw [look_execTable]
  cases survives t n <;> rfl

/-- C94: under `tlswrapper -n`, the mail program has no end of the pipe to or from the wrapper, nor
the pipe on which TLS is requested, nor the connection. What it has besides its own pipes is the
pipe on which the wrapper acknowledges TLS, and what the wrapper was started with. -/
theorem c94_under_wrapper {t : Fds} {blocking blocking' : Obj → Bool} {fault fault' : Nat → Bool} {s s' : S} {u u' : Unit}
    (h : program true (start t blocking fault) = some (u, s))
    (h' : mailProgram (start (execTable s.t) blocking' fault') = some (u', s')) (n : Nat) :
    exec s' n =
      (if n = 0 then some (.rd .tomail) else if n = 1 then some (.wr .frommail) else if n = 5 then none
        else if n = 6 then some (.rd .tochildcontrol) else survives t n) ∧
      (Inherited t → exec s' n ≠ some (.inherited 0) ∧ exec s' n ≠ some (.inherited 1)) := by
  have e1 := (c94_program_partial h').1 n
  have e2 : survives (execTable s.t) n = programSees t true n := by
    rw [survives_execTable, survives_surv, ← exec_surv, (c71_program h n).1]
  have e3 : exec s' n = (if n = 0 then some (.rd .tomail) else if n = 1 then some (.wr .frommail) else if n = 5 then none
        else if n = 6 then some (.rd .tochildcontrol) else survives t n) := by
    rw [e1]
    unfold mailSees
    rw [e2]
    unfold programSees
    grind
  refine ⟨e3, fun ht => ?_⟩
  rw [e3]
  have hs : ∀ o, survives t n = some o → o = .inherited n := by
    intro o ho
    unfold survives at ho
    split at ho
    · rename_i x hx
      cases ho
      exact ht n _ hx
    · cases ho
  grind

/-- C94 is violated: the mail program under `tlswrapper -n` can read, at 6, the answer of the wrapper to
a STARTTLS request of the front end. -/
theorem c94_answer_pipe : ∃ (s s' : S) (u u' : Unit),
    program true (start sampleFds (fun _ => true) fun _ => false) = some (u, s) ∧
    mailProgram (start (execTable s.t) s.blocking fun _ => false) = some (u', s') ∧
    exec s' 6 = some (.rd .tochildcontrol) := by
  obtain ⟨s, h⟩ := c71_starts sampleFds (fun _ => true) true (by simp [sampleFds, look]) (fun _ => by simp [sampleFds, look])
  have h0 : look (execTable s.t) 0 ≠ none := by
    rw [look_execTable, survives_surv, ← exec_surv, (c71_program h 0).1]
    simp [programSees]
  obtain ⟨s', h'⟩ := c94_starts (execTable s.t) s.blocking h0
  exact ⟨s, s', _, _, h, h', by rw [(c94_under_wrapper h h' 6).1]; simp⟩

/-! Concrete cases. -/

/-- Started with 0, 1 and 2 only: the pipes get 3 to 6, STARTTLS is not offered. -/
example : (frontEnd (start (sampleFds.take 3) (fun _ => true) fun _ => false)).map (·.1) = some (false, 4, 5) := by decide
/-- Started with 5 and 6 as well it is. -/
example : (frontEnd (start (sampleFds.take 3 ++ [none, none, some ⟨.inherited 5, false⟩, some ⟨.inherited 6, false⟩])
    (fun _ => true) fun _ => false)).map (·.1) = some (true, 4, 7) := by decide
/-- The mail program finds its pipes, the log, nothing at 5, and 6. -/
example : (mailProgram (start (sampleFds.take 3 ++ [none, none, some ⟨.inherited 5, false⟩, some ⟨.inherited 6, false⟩])
    (fun _ => true) fun _ => false)).map (fun r => (List.range 9).map (exec r.2)) =
    some [some (.rd .tomail), some (.wr .frommail), some (.inherited 2), none, none, none, some (.inherited 6), none, none] := by
  decide
example : NoMail (sampleFds.take 3 ++ [none, none, some ⟨.inherited 5, false⟩, some ⟨.inherited 6, false⟩]) := by
  intro n e h
  match n, h with
  | 0, h | 1, h | 2, h | 5, h | 6, h => cases h; exact ⟨nofun, nofun, nofun, nofun⟩
  | 3, h | 4, h | _ + 7, h => cases h

end Main
