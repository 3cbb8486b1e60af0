import Verif.Main.StartProps
/-
The end of tlswrapper and of tlswrapper-smtp with the clock: the last alarm the relay has
set is never taken back, and main_tlswrapper.c:1501 makes SIGALRM fatal again before the
wrapper waits for its processes; tlswrapper-smtp waits under the alarm of the session, whose
handler ends it with 111.
-/
namespace Main

/- Model. -/

/-- What can happen while a process is in waitpid(): time goes by, or the call returns
(main_tlswrapper.c:1510-1512, 1528-1530, main_tlswrapper_smtp.c:100). -/
inductive Wait where
  | pass (secs : Nat)
  | ans (a : Ans)
  deriving Repr, DecidableEq

/-- The loop around waitpid(), main_tlswrapper.c:1510-1512, 1528-1530 and main_tlswrapper_smtp.c:100, while
the alarm has `left` seconds to go (`none`: no alarm is set). `none`: it still waits; `some none`: the alarm came
first; otherwise the answer, what is left of the alarm, and what happens afterwards. -/
def waitUnder : Option Nat → List Wait → Option (Option (Ans × Option Nat × List Wait))
  | _, [] => none
  | none, .pass _ :: l => waitUnder none l
  | some k, .pass n :: l => if k ≤ n then some none else waitUnder (some (k - n)) l
  | left, .ans .eintr :: l => waitUnder left l
  | left, .ans a :: l => some (some (a, left, l))

/-- How a process ends (_exit, main_tlswrapper.c:218; SIG_DFL, main_tlswrapper.c:1501). -/
inductive Outcome where
  | exit (code : Nat)
  | signal (n : Nat)
  deriving Repr, DecidableEq

/-- signal.h on Linux: SIGALRM (main_tlswrapper.c:1501). -/
def SIGALRM : Nat := 14

/-- main_tlswrapper.c:1499-1541: first the key process is waited for, then the program. -/
def endUnder (left : Option Nat) (l : List Wait) : Option Outcome :=
  match waitUnder left l with
  | none => none
  | some none => some (.signal SIGALRM)
  | some (some (_, left, l)) =>
    match waitUnder left l with
    | none => none
    | some none => some (.signal SIGALRM)
    | some (some (a, _, _)) => some (.exit (exitCode a))

/-- main_tlswrapper_smtp.c:88-108 after QUIT, with the handler of :188-192. -/
def smtpEndUnder (left : Option Nat) (status : Nat) (l : List Wait) : Option Outcome :=
  match waitUnder left l with
  | none => none
  | some none => some (.exit 111)
  | some (some (a, _, _)) => (smtpDie true 0 status [a]).map .exit

/-- What the network process does to its alarm: alarm(n), or time goes by. The calls are
main_tlswrapper.c:174 (1 second), 576, 790, 864, 1099, 1113, 1486 (the inactivity timeout), 1169 (10 seconds)
and 1280, 1490 (the handshake timeout); those of :1308 and :1392 are in other processes. -/
inductive Tick where
  | alarm (n : Nat)
  | pass (secs : Nat)
  deriving Repr, DecidableEq

/-- alarm(2): what is left; an alarm that comes is over. -/
def leftOf : Option Nat → List Tick → Option Nat
  | left, [] => left
  | _, .alarm n :: l => leftOf (if n = 0 then none else some n) l
  | none, .pass _ :: l => leftOf none l
  | some k, .pass n :: l => leftOf (if k ≤ n then none else some (k - n)) l

/- Specification. -/

/-- The time that goes by in a history. -/
def secs : List Wait → Nat
  | [] => 0
  | .pass n :: l => n + secs l
  | .ans _ :: l => secs l

/-- How many processes have been waited for. -/
def answers : List Wait → Nat
  | [] => 0
  | .ans .eintr :: l => answers l
  | .ans _ :: l => answers l + 1
  | .pass _ :: l => answers l

/-- The time that goes by before something is over. -/
def ticks : List Tick → Nat
  | [] => 0
  | .pass n :: l => n + ticks l
  | .alarm _ :: l => ticks l

/- Lemmas. -/

theorem waitUnder_zero (left : Option Nat) (pre l : List Wait) (h : answers pre = 0) (ht : ∀ k, left = some k → secs pre < k) :
    waitUnder left (pre ++ l) = waitUnder (left.map (· - secs pre)) l := by
  induction pre generalizing left with
  | nil => cases left <;> rfl
  | cons x pre ih =>
    cases x with
    | pass n =>
      cases left with
      | none => exact ih none h nofun
      | some k =>
        have h1 := ht k rfl
        simp only [secs] at h1
        simp only [List.cons_append, waitUnder, if_neg (show ¬ k ≤ n by omega)]
        rw [ih (some (k - n)) h (by intro j hj; injection hj with hj; omega)]
        simp [secs, Nat.sub_sub]
    | ans a =>
      cases a with
      | eintr =>
        have := ih left h ht
        cases left <;> exact this
      | failed => simp [answers] at h
      | reaped s => simp [answers] at h

theorem waitUnder_one (left : Option Nat) (pre l : List Wait) (h : answers pre = 1) (ht : ∀ k, left = some k → secs pre < k) :
    ∃ a left' mid, waitUnder left (pre ++ l) = some (some (a, left', mid ++ l)) ∧ answers mid = 0 ∧
      (left = none → left' = none) ∧ (∀ k, left = some k → ∃ j, left' = some j ∧ secs mid < j) := by
  induction pre generalizing left with
  | nil => simp [answers] at h
  | cons x pre ih =>
    cases x with
    | pass n =>
      cases left with
      | none => exact ih none h nofun
      | some k =>
        have h1 := ht k rfl
        simp only [secs] at h1
        simp only [List.cons_append, waitUnder, if_neg (show ¬ k ≤ n by omega)]
        obtain ⟨a, left', mid, e, g1, -, g3⟩ := ih (some (k - n)) h (by intro j hj; injection hj with hj; omega)
        exact ⟨a, left', mid, e, g1, nofun, fun _ _ => g3 _ rfl⟩
    | ans a =>
      cases a with
      | eintr =>
        have := ih left h ht
        cases left <;> exact this
      | failed =>
        refine ⟨.failed, left, pre, by cases left <;> rfl, by simpa [answers] using h, fun e => e, fun k e => ⟨k, e, ht k e⟩⟩
      | reaped s =>
        refine ⟨.reaped s, left, pre, by cases left <;> rfl, by simpa [answers] using h, fun e => e, fun k e => ⟨k, e, ht k e⟩⟩

theorem waitUnder_late (k : Nat) (pre l : List Wait) (h : answers pre = 0) (ht : k ≤ secs pre) (hk : 1 ≤ k) :
    waitUnder (some k) (pre ++ l) = some none := by
  induction pre generalizing k with
  | nil => simp [secs] at ht; omega
  | cons x pre ih =>
    cases x with
    | pass n =>
      simp only [secs] at ht
      simp only [List.cons_append, waitUnder]
      split
      · rfl
      · exact ih (k - n) h (by omega) (by omega)
    | ans a =>
      cases a with
      | eintr => exact ih k h ht hk
      | failed => simp [answers] at h
      | reaped s => simp [answers] at h

theorem waitUnder_late_one (k : Nat) (pre l : List Wait) (h : answers pre = 1) (ht : k ≤ secs pre) (hk : 1 ≤ k) :
    waitUnder (some k) (pre ++ l) = some none ∨
      ∃ a j mid, waitUnder (some k) (pre ++ l) = some (some (a, some j, mid ++ l)) ∧ answers mid = 0 ∧ j ≤ secs mid ∧ 1 ≤ j := by
  induction pre generalizing k with
  | nil => simp [answers] at h
  | cons x pre ih =>
    cases x with
    | pass n =>
      simp only [secs] at ht
      simp only [List.cons_append, waitUnder]
      split
      · exact .inl rfl
      · exact ih (k - n) h (by omega) (by omega)
    | ans a =>
      cases a with
      | eintr => exact ih k h ht hk
      | failed => exact .inr ⟨.failed, k, pre, rfl, by simpa [answers] using h, ht, hk⟩
      | reaped s => exact .inr ⟨.reaped s, k, pre, rfl, by simpa [answers] using h, ht, hk⟩

theorem leftOf_quiet (k : Nat) (l : List Tick) (h : ∀ n, .alarm n ∉ l) (ht : ticks l < k) : leftOf (some k) l = some (k - ticks l) := by
  induction l generalizing k with
  | nil => rfl
  | cons x l ih =>
    cases x with
    | alarm n => exact absurd List.mem_cons_self (h n)
    | pass n =>
      simp only [ticks] at ht
      simp only [leftOf, if_neg (show ¬ k ≤ n by omega)]
      rw [ih (k - n) (fun m hm => h m (List.mem_cons_of_mem _ hm)) (by omega)]
      simp [ticks, Nat.sub_sub]

theorem leftOf_append (left : Option Nat) (l m : List Tick) : leftOf left (l ++ m) = leftOf (leftOf left l) m := by
  induction l generalizing left with
  | nil => rfl
  | cons x l ih =>
    cases x with
    | alarm n => exact ih _
    | pass n => cases left <;> exact ih _

/- Theorems. -/

/-- C63: when the program ends before the last alarm of the relay does (or there is none), the wrapper
exits with what it owes for the program's end. -/
theorem c63_in_time (left : Option Nat) (pre post : List Wait) (h : answers pre = 1) (ht : ∀ k, left = some k → secs pre < k)
    (d : Death) (hd : d.real) :
    endUnder left (pre ++ .ans (.reaped d.status) :: post) = some (.exit d.owed) := by
  obtain ⟨a, left', mid, e, g1, g2, g3⟩ := waitUnder_one left pre (.ans (.reaped d.status) :: post) h ht
  unfold endUnder
  simp only [e]
  rw [waitUnder_zero left' mid _ g1 (by
    intro k hk
    cases left with
    | none => rw [g2 rfl] at hk; cases hk
    | some j =>
      obtain ⟨i, e1, e2⟩ := g3 j rfl
      rw [e1] at hk; injection hk with hk; omega)]
  cases left' <;> simp only [Option.map, waitUnder, exitCode, owed_status d hd]

/-- C63 fails here: a wrapper that set its alarm to `n` seconds and then saw its relay end is killed by SIGALRM, and has no
exit status, when the key process and the program together take longer than what is left; whatever they do then.
`before`: the relay up to that alarm; `quiet`: from there to its end. -/
theorem c63_late (before quiet : List Tick) (n : Nat) (hq : ∀ m, .alarm m ∉ quiet) (hn : ticks quiet < n) (pre post : List Wait)
    (h : answers pre < 2) (ht : n ≤ ticks quiet + secs pre) :
    endUnder (leftOf none (before ++ .alarm n :: quiet)) (pre ++ post) = some (.signal SIGALRM) := by
  rw [leftOf_append]
  simp only [leftOf, if_neg (show n ≠ 0 by omega)]
  rw [leftOf_quiet n quiet hq hn]
  unfold endUnder
  by_cases h0 : answers pre = 0
  · rw [waitUnder_late _ pre post h0 (by omega) (by omega)]
  · rcases waitUnder_late_one (n - ticks quiet) pre post (by omega) (by omega) (by omega) with e | ⟨a, j, mid, e, g1, g2, g3⟩
    · rw [e]
    · simp only [e, waitUnder_late j mid post g1 g2 g3]

/-- The program closed its output and the client went away; the wrapper had set its alarm to 60 seconds
5 seconds before. The key process ends at once, the program works for another minute and exits with 0:
the wrapper has been killed. Had it taken 50 seconds, the wrapper would exit with 0. -/
example : endUnder (leftOf none [.alarm 10, .alarm 30, .pass 1, .alarm 60, .pass 5]) [.ans (.reaped 0), .pass 60, .ans (.reaped 0)] =
      some (.signal 14) ∧
    endUnder (leftOf none [.alarm 10, .alarm 30, .pass 1, .alarm 60, .pass 5]) [.ans (.reaped 0), .pass 50, .ans (.reaped 0)] =
      some (.exit 0) :=
  ⟨c63_late [.alarm 10, .alarm 30, .pass 1] [.pass 5] 60 (by simp) (by decide) [.ans (.reaped 0), .pass 60] _ (by decide) (by decide),
    c63_in_time (some 55) [.ans (.reaped 0), .pass 50] [] rfl (by intro k h; injection h with h; subst h; decide) (.exited 0)
      (show (0 : Nat) < 256 by decide)⟩

/-- C63: after QUIT the SMTP front end exits with what it owes for the program's end when that comes before the end of the
session timeout. -/
theorem c63_smtp_in_time (left : Option Nat) (status : Nat) (pre post : List Wait) (h : answers pre = 0)
    (ht : ∀ k, left = some k → secs pre < k) (d : Death) (hd : d.real) :
    smtpEndUnder left status (pre ++ .ans (.reaped d.status) :: post) = some (.exit d.owed) := by
  unfold smtpEndUnder
  rw [waitUnder_zero left pre _ h ht]
  rw [← owed_status d hd]
  cases left <;> by_cases hx : WIFEXITED d.status = true <;> simp [Option.map, waitUnder, smtpDie, waitLoop, hx]

/-- C63 fails here: after QUIT has been answered the SMTP front end exits with 111 when the program takes longer than what
is left of the session timeout `n`, although the session was without a failure. -/
theorem c63_smtp_late (before quiet : List Tick) (n : Nat) (hq : ∀ m, .alarm m ∉ quiet) (hn : ticks quiet < n) (status : Nat)
    (pre post : List Wait) (h : answers pre = 0) (ht : n ≤ ticks quiet + secs pre) :
    smtpEndUnder (leftOf none (before ++ .alarm n :: quiet)) status (pre ++ post) = some (.exit 111) := by
  rw [leftOf_append]
  simp only [leftOf, if_neg (show n ≠ 0 by omega)]
  rw [leftOf_quiet n quiet hq hn]
  unfold smtpEndUnder
  rw [waitUnder_late _ pre post h (by omega) (by omega)]

/-- A session of 590 seconds under the default timeout of 600, and a program that needs 10 seconds to end well. -/
example : smtpEndUnder (leftOf none [.alarm 30, .alarm 600, .pass 590]) 0 [.pass 10, .ans (.reaped 0)] = some (.exit 111) ∧
    smtpEndUnder (leftOf none [.alarm 30, .alarm 600, .pass 590]) 0 [.pass 9, .ans (.reaped 0)] = some (.exit 0) :=
  ⟨c63_smtp_late [.alarm 30] [.pass 590] 600 (by simp) (by decide) 0 [.pass 10] _ rfl (by decide),
    c63_smtp_in_time (some 10) 0 [.pass 9] [] rfl (by intro k h; injection h with h; subst h; decide) (.exited 0)
      (show (0 : Nat) < 256 by decide)⟩

end Main
