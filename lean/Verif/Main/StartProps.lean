import Verif.Main.Start
/-
C63: exit codes. C72: nothing is read from the client before the process is confined,
nor without a deadline.
-/
namespace Main

/-! ### running a program -/

theorem runFrom_begun (ok : Nat → Bool) (p : Prog) (n : Nat) :
    ∃ q, p.map (·.1) = (runFrom ok n p).1 ++ q ∧ ((runFrom ok n p).2 = none → q = []) := by
  induction p generalizing n with
  | nil => exact ⟨[], rfl, fun _ => rfl⟩
  | cons x p ih =>
    obtain ⟨s, c⟩ := x
    obtain ⟨q, hq, hn⟩ := ih (n + 1)
    cases c with
    | none => exact ⟨q, by simp [runFrom, hq], hn⟩
    | some c =>
      unfold runFrom
      split
      · exact ⟨q, by simp [hq], hn⟩
      · exact ⟨p.map (·.1), by simp, by simp⟩

/-- A step that is begun comes after the successful ones that the program has before it. -/
theorem runFrom_before (ok : Nat → Bool) (p : Prog) (n : Nat) (pre post : List Step) (s : Step)
    (h : (runFrom ok n p).1 = pre ++ s :: post) :
    (∃ q, p.map (·.1) = pre ++ s :: q) ∧ ∀ i, i < pre.length → (∃ x c, p[i]? = some (x, c) ∧ (c = none ∨ ok (n + i) = true)) := by
  induction p generalizing n pre with
  | nil => cases pre <;> cases h
  | cons x p ih =>
    obtain ⟨s', c⟩ := x
    have step : ∀ (hc : c = none ∨ ok n = true), (runFrom ok n ((s', c) :: p)).1 = s' :: (runFrom ok (n + 1) p).1 →
        (∃ q, ((s', c) :: p).map (·.1) = pre ++ s :: q) ∧ ∀ i, i < pre.length → (∃ x c', ((s', c) :: p)[i]? = some (x, c') ∧ (c' = none ∨ ok (n + i) = true)) := by
      intro hc hr
      rw [hr] at h
      cases pre with
      | nil =>
        injection h with h1 h2
        subst h1
        exact ⟨⟨p.map (·.1), rfl⟩, fun i hi => absurd hi (Nat.not_lt_zero _)⟩
      | cons y pre =>
        injection h with h1 h2
        subst h1
        obtain ⟨⟨q, hq⟩, hi⟩ := ih (n + 1) pre h2
        refine ⟨⟨q, by simp [hq]⟩, fun i hlt => ?_⟩
        cases i with
        | zero => exact ⟨s', c, rfl, hc⟩
        | succ i =>
          obtain ⟨x, c', h1, h2⟩ := hi i (by simp at hlt; omega)
          exact ⟨x, c', by simpa using h1, by rw [show n + (i + 1) = n + 1 + i by omega]; exact h2⟩
    cases c with
    | none => exact step (.inl rfl) rfl
    | some c =>
      by_cases ho : ok n = true
      · exact step (.inr ho) (by simp [runFrom, ho])
      · have hr : (runFrom ok n ((s', some c) :: p)).1 = [s'] := by simp [runFrom, ho]
        rw [hr] at h
        cases pre with
        | nil =>
          injection h with h1 h2
          subst h1
          exact ⟨⟨p.map (·.1), rfl⟩, fun i hi => absurd hi (Nat.not_lt_zero _)⟩
        | cons y pre =>
          injection h with h1 h2
          cases pre <;> cases h2

theorem runFrom_code (ok : Nat → Bool) (p : Prog) (n : Nat) (code : Nat) (h : (runFrom ok n p).2 = some code) :
    ∃ x, (x, some code) ∈ p := by
  induction p generalizing n with
  | nil => cases h
  | cons x p ih =>
    obtain ⟨s, c⟩ := x
    cases c with
    | none =>
      obtain ⟨x, hx⟩ := ih (n + 1) h
      exact ⟨x, List.mem_cons_of_mem _ hx⟩
    | some c =>
      unfold runFrom at h
      split at h
      · obtain ⟨x, hx⟩ := ih (n + 1) h
        exact ⟨x, List.mem_cons_of_mem _ hx⟩
      · cases h
        exact ⟨s, List.mem_cons_self⟩

theorem runFrom_fails (ok : Nat → Bool) (p : Prog) (n i : Nat) (x : Step) (c : Nat) (h : p[i]? = some (x, some c))
    (ho : ok (n + i) = false) : (runFrom ok n p).2 ≠ none := by
  induction p generalizing n i with
  | nil => simp at h
  | cons y p ih =>
    obtain ⟨s, d⟩ := y
    cases i with
    | zero =>
      simp at h
      obtain ⟨-, rfl⟩ := h
      have : ok n = false := ho
      simp [runFrom, this]
    | succ i =>
      have := ih (n + 1) i (by simpa using h) (by rw [show n + 1 + i = n + (i + 1) by omega]; exact ho)
      cases d with
      | none => exact this
      | some d =>
        unfold runFrom
        split
        · exact this
        · simp

theorem runFrom_ok (ok : Nat → Bool) (p : Prog) (n : Nat) (h : ∀ i x c, p[i]? = some (x, some c) → ok (n + i) = true) :
    (runFrom ok n p).2 = none := by
  induction p generalizing n with
  | nil => rfl
  | cons y p ih =>
    obtain ⟨s, d⟩ := y
    have := ih (n + 1) fun i x c hi => by
      rw [show n + 1 + i = n + (i + 1) by omega]
      exact h (i + 1) x c (by simpa using hi)
    cases d with
    | none => exact this
    | some d =>
      unfold runFrom
      rw [if_pos (by simpa using h 0 s d rfl)]
      exact this

/- Specification. -/

/-- The steps in which the process waits for what the client sends. -/
def client : Step → Bool
  | .proxyIn | .clear | .relay | .dialogue => true
  | _ => false

/-- In `l`, whatever takes input from the client comes after a successful jail. -/
def Confined (ok : Nat → Bool) (l : List Step) : Prop :=
  ∀ pre s post, l = pre ++ s :: post → client s = true → ∃ i, pre[i]? = some .jail ∧ ok i = true

/-- The last alarm that was set. -/
def deadline : List Step → Option Int
  | [] => none
  | .alarm n :: l => match deadline l with | some m => some m | none => some n
  | _ :: l => deadline l

/-- In `l`, whatever takes input from the client does so with a deadline. -/
def Limited (l : List Step) : Prop :=
  ∀ pre s post, l = pre ++ s :: post → client s = true → ∃ n, deadline pre = some n ∧ 0 < n

/-! ### C72 -/

/-- jail comes before every step that takes input -/
def jailFirst : List (Step × Option Nat) → Bool
  | [] => true
  | (.jail, some _) :: _ => true
  | (s, _) :: l => !client s && jailFirst l

theorem jailFirst_spec (p : Prog) (h : jailFirst p = true) (pre q : List Step) (s : Step) (he : p.map (·.1) = pre ++ s :: q)
    (hs : client s = true) : ∃ (i c : Nat), i < pre.length ∧ p[i]? = some (.jail, some c) := by
  induction p generalizing pre with
  | nil => cases pre <;> cases he
  | cons x p ih =>
    obtain ⟨y, c⟩ := x
    cases pre with
    | nil =>
      injection he with h1 h2
      subst h1
      unfold jailFirst at h
      split at h
      · rename_i h1; cases h1
      · rename_i h1; cases h1; cases hs
      · rename_i h1
        cases h1
        rw [hs] at h
        cases h
    | cons z pre =>
      injection he with h1 h2
      unfold jailFirst at h
      split at h
      · rename_i h1; cases h1
      · rename_i h1
        cases h1
        exact ⟨0, _, by simp, rfl⟩
      · rename_i h1
        cases h1
        simp at h
        obtain ⟨i, c, hi, hc⟩ := ih h.2 pre h2
        exact ⟨i + 1, c, by simpa using hi, by simpa using hc⟩

theorem confined_of (ok : Nat → Bool) (p : Prog) (h : jailFirst p = true) : Confined ok (run ok p).1 := by
  intro pre s post he hs
  obtain ⟨⟨q, hq⟩, hp⟩ := runFrom_before ok p 0 pre post s he
  obtain ⟨i, c, hi, hc⟩ := jailFirst_spec p h pre q s hq hs
  obtain ⟨x, c', h1, h2⟩ := hp i hi
  rw [hc] at h1
  cases h1
  refine ⟨i, ?_, by simpa using h2⟩
  have : (p.map (·.1))[i]? = some .jail := by simp [hc]
  rw [hq, List.getElem?_append_left hi] at this
  exact this

/-- C72: unless started without a jail, the process that talks to the client has confined
itself before it takes any input from the client; if it could not, it takes none. -/
theorem c72_confined (ok : Nat → Bool) (c : Cfg) (hj : c.nojail = false) (ppout grey closed : Bool) :
    Confined ok (run ok (mainProg c)).1 ∧ Confined ok (run ok (tcpProg c ppout)).1 ∧
      Confined ok (run ok (smtpProg c grey closed)).1 := by
  obtain ⟨nojail, anchor, ppin, delayed, starttls, timeout, hstimeout⟩ := c
  cases hj
  refine ⟨confined_of _ _ ?_, confined_of _ _ ?_, confined_of _ _ ?_⟩
  · cases delayed <;> rfl
  · rfl
  · cases grey
    · rfl
    · cases closed <;> rfl

/-- every step that takes input comes with an alarm above 0 before it -/
def limitFirst : Int → List Step → Prop
  | _, [] => True
  | _, .alarm n :: l => limitFirst n l
  | cur, s :: l => (client s = true → 0 < cur) ∧ limitFirst cur l

theorem limitFirst_spec (l : List Step) (cur : Int) (h : limitFirst cur l) (pre q : List Step) (s : Step) (he : l = pre ++ s :: q)
    (hs : client s = true) : 0 < (deadline pre).getD cur := by
  induction l generalizing cur pre with
  | nil => cases pre <;> cases he
  | cons x l ih =>
    cases pre with
    | nil =>
      injection he with h1 h2
      subst h1
      unfold limitFirst at h
      split at h
      · rename_i h1; cases h1
      · rename_i h1; cases h1; cases hs
      · rename_i h1
        cases h1
        exact h.1 hs
    | cons z pre =>
      injection he with h1 h2
      subst h1
      unfold limitFirst at h
      split at h
      · rename_i h1; cases h1
      · rename_i h1
        cases h1
        have := ih _ h pre h2
        unfold deadline
        cases hd : deadline pre with
        | none => rw [hd] at this; exact this
        | some m => rw [hd] at this; exact this
      · rename_i h1
        cases h1
        have := ih _ h.2 pre h2
        unfold deadline
        split
        · rename_i h3; cases h3
        · rename_i h3
          cases h3
          simp_all
        · rename_i h3
          cases h3
          exact this

theorem limited_of (ok : Nat → Bool) (p : Prog) (h : limitFirst 0 (p.map (·.1))) : Limited (run ok p).1 := by
  intro pre s post he hs
  obtain ⟨⟨q, hq⟩, -⟩ := runFrom_before ok p 0 pre post s he
  have := limitFirst_spec _ 0 h pre q s hq hs
  cases hd : deadline pre with
  | none => rw [hd] at this; exact absurd this (by decide)
  | some n => rw [hd] at this; exact ⟨n, rfl, this⟩

/-- C72: with the limits that option parsing lets through (Conf, C60: between 1 and 86400),
the main and the SMTP program take input from the client only under a deadline; the
TCP program does so once it relays, and from the start without an incoming PROXY
header. -/
theorem c72_limited_partial (ok : Nat → Bool) (c : Cfg) (ht : 0 < c.timeout) (hh : 0 < c.hstimeout) (ppout grey closed : Bool) :
    Limited (run ok (mainProg c)).1 ∧ Limited (run ok (smtpProg c grey closed)).1 ∧
      (c.ppin = false → Limited (run ok (tcpProg c ppout)).1) := by
  obtain ⟨nojail, anchor, ppin, delayed, starttls, timeout, hstimeout⟩ := c
  simp only at ht hh
  refine ⟨limited_of _ _ ?_, limited_of _ _ ?_, fun hp => limited_of _ _ ?_⟩
  · cases nojail <;> cases anchor <;> cases ppin <;> cases delayed <;> cases starttls <;>
      simp [mainProg, mainBoot, mainRelay, whenever, limitFirst, client, ht, hh]
  · cases nojail <;> cases grey <;> simp [smtpProg, whenever, limitFirst, client, ht]
  · simp only at hp
    subst hp
    cases nojail <;> cases ppout <;> simp [tcpProg, whenever, limitFirst, client, ht]

/-- The TCP program waits for an incoming PROXY header without any deadline: a client that
connects and stays silent holds the process for ever. -/
theorem c72_tcp_unlimited (ok : Nat → Bool) (hok : ∀ n, ok n = true) (c : Cfg) (hp : c.ppin = true) (ppout : Bool) :
    ∃ pre post, (run ok (tcpProg c ppout)).1 = pre ++ .proxyIn :: post ∧ deadline pre = none := by
  obtain ⟨nojail, anchor, ppin, delayed, starttls, timeout, hstimeout⟩ := c
  simp only at hp
  subst hp
  have h := (runFrom_begun ok (tcpProg ⟨nojail, anchor, true, delayed, starttls, timeout, hstimeout⟩ ppout) 0)
  obtain ⟨q, hq, hn⟩ := h
  have := hn (runFrom_ok ok _ 0 fun i _ _ _ => hok _)
  subst this
  rw [List.append_nil] at hq
  unfold run
  rw [← hq]
  cases nojail with
  | true =>
    refine ⟨[.options, .resolve, .pipes, .sockets], ?_, ?_, rfl⟩
    · exact .connect :: (whenever ppout [(.proxyOut, some 100)]).map (·.1) ++ [.handler, .alarmHandler, .alarm timeout, .relay]
    · cases ppout <;> rfl
  | false =>
    refine ⟨[.options, .forkResolver, .resolve, .pipes, .sockets, .jail], ?_, ?_, rfl⟩
    · exact .connect :: (whenever ppout [(.proxyOut, some 100)]).map (·.1) ++ [.handler, .alarmHandler, .alarm timeout, .relay]
    · cases ppout <;> rfl

/-- C72: the program and the key process exist before the confinement, so that it does not
bind them; they are started after the options have been accepted. -/
theorem c72_helpers (ok : Nat → Bool) (c : Cfg) (pre post : List Step)
    (h : (run ok (mainProg c)).1 = pre ++ .jail :: post) :
    .forkProgram ∈ pre ∧ .forkKey ∈ pre ∧ .options ∈ pre := by
  obtain ⟨⟨q, hq⟩, -⟩ := runFrom_before ok _ 0 pre post _ h
  obtain ⟨nojail, anchor, ppin, delayed, starttls, timeout, hstimeout⟩ := c
  have pos : ∀ (a b c d : List Step), a ++ Step.jail :: b = c ++ .jail :: d → .jail ∉ a → .jail ∉ b → a = c := by
    intro a b c d he ha hb
    rcases List.append_eq_append_iff.mp he with ⟨e, h1, h2⟩ | ⟨e, h1, h2⟩
    · cases e with
      | nil => simpa using h1.symm
      | cons x e =>
        injection h2 with h3 h4
        exact absurd (by rw [h4]; simp) hb
    · cases e with
      | nil => simpa using h1
      | cons x e =>
        injection h2 with h3 h4
        exact absurd (by rw [h1, ← h3]; simp) ha
  cases nojail with
  | true =>
    have : Step.jail ∈ (mainProg ⟨true, anchor, ppin, delayed, starttls, timeout, hstimeout⟩).map (·.1) := by rw [hq]; simp
    cases anchor <;> cases ppin <;> cases delayed <;> cases starttls <;>
      simp [mainProg, mainBoot, mainRelay, whenever] at this
  | false =>
    have hs : (mainProg ⟨false, anchor, ppin, delayed, starttls, timeout, hstimeout⟩).map (·.1) =
        ([.handler, .handler, .alarm 10, .options, .alarm hstimeout] ++ (if delayed then [.pipes] else []) ++ [.pipes, .forkProgram, .pipes, .forkKey, .pipes]) ++
          .jail :: ((if anchor then [.anchor] else []) ++ (if ppin then [.proxyIn] else [.conninfo]) ++ [.tellProgram, .alarmHandler] ++
            (mainRelay ⟨false, anchor, ppin, delayed, starttls, timeout, hstimeout⟩).map (·.1)) := by
      cases anchor <;> cases ppin <;> cases delayed <;> rfl
    rw [hs] at hq
    have := pos _ _ _ _ hq (by cases delayed <;> simp) (by
      cases anchor <;> cases ppin <;> cases delayed <;> cases starttls <;> simp [mainRelay, whenever])
    rw [← this]
    simp

/-- wherever `t` begins, the last alarm was `v` -/
def alarmAt (t : Step) (v : Int) : Option Int → List Step → Prop
  | _, [] => True
  | cur, s :: l => (s = t → cur = some v) ∧ alarmAt t v (match s with | .alarm n => some n | _ => cur) l

theorem alarmAt_deadline (t : Step) (v : Int) (pre post : List Step) (cur : Option Int) (h : alarmAt t v cur (pre ++ t :: post)) :
    (match deadline pre with | some n => some n | none => cur) = some v := by
  induction pre generalizing cur with
  | nil => exact h.1 rfl
  | cons s pre ih =>
    have := ih _ h.2
    cases s <;> try exact this
    rename_i n
    simp only [deadline] at this ⊢
    cases hd : deadline pre with
    | none => rw [hd] at this; exact this
    | some m => rw [hd] at this; exact this

theorem alarmAt_run (ok : Nat → Bool) (p : Prog) (t : Step) (v : Int) (h : alarmAt t v none (p.map (·.1))) (pre post : List Step)
    (hr : (run ok p).1 = pre ++ t :: post) : deadline pre = some v := by
  obtain ⟨⟨q, hq⟩, -⟩ := runFrom_before ok _ 0 pre post _ hr
  rw [hq] at h
  have := alarmAt_deadline t v pre q none h
  cases hd : deadline pre with
  | none => rw [hd] at this; cases this
  | some n => rw [hd] at this; exact this

/-- C72: the deadlines are those asked for. The relays and the SMTP dialogue begin with the
time limit of option -t in force, the TLS handshake with that of -T. -/
theorem c72_deadlines (ok : Nat → Bool) (c : Cfg) (ppout grey closed : Bool) (pre post : List Step) :
    ((run ok (mainProg c)).1 = pre ++ .clear :: post → deadline pre = some c.timeout) ∧
    ((run ok (mainProg c)).1 = pre ++ .relay :: post → deadline pre = some c.hstimeout) ∧
    ((run ok (tcpProg c ppout)).1 = pre ++ .relay :: post → deadline pre = some c.timeout) ∧
    ((run ok (smtpProg c grey closed)).1 = pre ++ .dialogue :: post → deadline pre = some c.timeout) := by
  obtain ⟨nojail, anchor, ppin, delayed, starttls, timeout, hstimeout⟩ := c
  refine ⟨alarmAt_run _ _ _ _ ?_ _ _, alarmAt_run _ _ _ _ ?_ _ _, alarmAt_run _ _ _ _ ?_ _ _, alarmAt_run _ _ _ _ ?_ _ _⟩
  · cases nojail <;> cases anchor <;> cases ppin <;> cases delayed <;> cases starttls <;>
      simp [mainProg, mainBoot, mainRelay, whenever, alarmAt]
  · cases nojail <;> cases anchor <;> cases ppin <;> cases delayed <;> cases starttls <;>
      simp [mainProg, mainBoot, mainRelay, whenever, alarmAt]
  · cases nojail <;> cases ppin <;> cases ppout <;> simp [tcpProg, whenever, alarmAt]
  · cases nojail <;> cases grey <;> simp [smtpProg, whenever, alarmAt]

/-- Such a run: STARTTLS was requested, the handshake begins. -/
example : ∃ pre post, (run (fun _ => true) (mainProg ⟨false, true, true, true, true, 60, 30⟩)).1 = pre ++ .relay :: post ∧
    deadline pre = some 30 :=
  ⟨(run (fun _ => true) (mainProg ⟨false, true, true, true, true, 60, 30⟩)).1.dropLast, [], rfl, rfl⟩

/-! ### C63 -/

/-- How a process ends, and the wait status that reports it (wait(2) on Linux; a process that is
only stopped is not reported here). -/
inductive Death where
  | exited (code : Nat)
  | killed (signal : Nat) (core : Bool)

def Death.real : Death → Prop
  | .exited c => c < 256
  | .killed s _ => 1 ≤ s ∧ s ≤ 126

def Death.status : Death → Nat
  | .exited c => c * 256
  | .killed s core => s + if core then 128 else 0

/-- What the wrapper owes its caller for a program that ended so. -/
def Death.owed : Death → Nat
  | .exited c => c
  | .killed _ _ => 111

theorem owed_status (d : Death) (h : d.real) :
    (if WIFEXITED d.status then WEXITSTATUS d.status else 111) = d.owed := by
  cases d with
  | exited c =>
    have : c < 256 := h
    have h1 : c * 256 % 128 = 0 := by omega
    have h2 : c * 256 / 256 % 256 = c := by omega
    simp [WIFEXITED, WEXITSTATUS, Death.status, Death.owed, h1, this]
  | killed s core =>
    obtain ⟨h1, h2⟩ : 1 ≤ s ∧ s ≤ 126 := h
    have : ¬ (s + if core then 128 else 0) % 128 = 0 := by
      split <;> omega
    simp [WIFEXITED, Death.status, Death.owed, this]

theorem waitLoop_eintr (n : Nat) (a : Ans) (l : List Ans) (h : a ≠ .eintr) :
    waitLoop (List.replicate n .eintr ++ a :: l) = some a := by
  induction n with
  | zero =>
    cases a with
    | eintr => exact absurd rfl h
    | failed => rfl
    | reaped => rfl
  | succ n ih => exact ih

theorem waitLoop_not_eintr (l : List Ans) : waitLoop l ≠ some .eintr := by
  induction l with
  | nil => exact nofun
  | cons a l ih => cases a <;> first | exact ih | exact nofun

/-- Every step that can fail succeeds. -/
def AllOk (ok : Nat → Bool) (p : Prog) : Prop := ∀ i x c, p[i]? = some (x, some c) → ok i = true

/-- C63: when nothing of the wrapper's own fails, it exits with what it owes for the
program's end, however often the waiting is interrupted and whatever becomes of the
key process. -/
theorem c63_main (ok : Nat → Bool) (c : Cfg) (h : AllOk ok (mainProg c)) (d : Death) (hd : d.real) (n m : Nat) (a : Ans) (ha : a ≠ .eintr)
    (l l' : List Ans) :
    mainExit ok c (List.replicate n .eintr ++ a :: l) (List.replicate m .eintr ++ .reaped d.status :: l') = some d.owed := by
  unfold mainExit run
  rw [runFrom_ok ok _ 0 (by simpa [AllOk] using h)]
  unfold waitChildren
  simp only [waitLoop_eintr n a l ha, waitLoop_eintr m (.reaped d.status) l' nofun, Option.map, exitCode, owed_status d hd]

theorem main_codes (c : Cfg) (x : Step) (code : Nat) (h : (x, some code) ∈ mainProg c) : code = 100 ∨ code = 111 := by
  obtain ⟨nojail, anchor, ppin, delayed, starttls, timeout, hstimeout⟩ := c
  have : ∀ y ∈ mainProg ⟨nojail, anchor, ppin, delayed, starttls, timeout, hstimeout⟩, y.2 = none ∨ y.2 = some 100 ∨ y.2 = some 111 := by
    cases nojail <;> cases anchor <;> cases ppin <;> cases delayed <;> cases starttls <;>
      simp [mainProg, mainBoot, mainRelay, whenever]
  rcases this _ h with h | h | h <;> simp at h
  · exact .inl h
  · exact .inr h

/-- C63: when a step of the wrapper's own fails, it exits with 100 or 111, whatever the
program does; so does it with 111 when the program's end cannot be learnt. -/
theorem c63_main_failure (ok : Nat → Bool) (c : Cfg) (h : ¬ AllOk ok (mainProg c)) (key program : List Ans) :
    mainExit ok c key program = some 100 ∨ mainExit ok c key program = some 111 := by
  unfold AllOk at h
  simp only [Classical.not_forall] at h
  obtain ⟨i, x, code, hi, ho⟩ := h
  have := runFrom_fails ok (mainProg c) 0 i x code hi (by simpa using ho)
  unfold mainExit run
  cases hr : (runFrom ok 0 (mainProg c)).2 with
  | none => exact absurd hr this
  | some code =>
    obtain ⟨y, hy⟩ := runFrom_code ok _ 0 code hr
    rcases main_codes c y code hy with rfl | rfl
    · exact .inl rfl
    · exact .inr rfl

theorem c63_main_lost (ok : Nat → Bool) (c : Cfg) (h : AllOk ok (mainProg c)) (n m : Nat) (a : Ans) (ha : a ≠ .eintr) (l l' : List Ans) :
    mainExit ok c (List.replicate n .eintr ++ a :: l) (List.replicate m .eintr ++ .failed :: l') = some 111 := by
  unfold mainExit run
  rw [runFrom_ok ok _ 0 (by simpa [AllOk] using h)]
  unfold waitChildren
  simp only [waitLoop_eintr n a l ha, waitLoop_eintr m .failed l' nofun, Option.map, exitCode]

/-- C63: the wrapper reports success only when the program did. -/
theorem c63_main_zero (ok : Nat → Bool) (c : Cfg) (key program : List Ans)
    (hp : ∀ s, .reaped s ∈ program → ∃ d : Death, d.real ∧ s = d.status) (h : mainExit ok c key program = some 0) :
    AllOk ok (mainProg c) ∧ waitLoop program = some (.reaped (Death.exited 0).status) := by
  by_cases ha : AllOk ok (mainProg c)
  · refine ⟨ha, ?_⟩
    unfold mainExit run at h
    rw [runFrom_ok ok _ 0 (by simpa [AllOk] using ha)] at h
    unfold waitChildren at h
    simp only at h
    split at h
    · cases h
    · simp only at h
      cases hw : waitLoop program with
      | none => rw [hw] at h; cases h
      | some a =>
        rw [hw] at h
        cases a with
        | eintr => exact absurd hw (waitLoop_not_eintr _)
        | failed => simp [exitCode] at h
        | reaped s =>
          have hm : .reaped s ∈ program := by
            clear h hp ha
            induction program with
            | nil => cases hw
            | cons b l ih =>
              cases b with
              | eintr => exact List.mem_cons_of_mem _ (ih hw)
              | failed => cases hw
              | reaped t => cases hw; exact List.mem_cons_self
          obtain ⟨d, hd, rfl⟩ := hp s hm
          simp only [Option.map, exitCode, owed_status d hd] at h
          cases d with
          | exited k =>
            have : k = 0 := by simpa [Death.owed] using h
            rw [this]
          | killed => simp [Death.owed] at h
  · rcases c63_main_failure ok c ha key program with e | e <;> rw [e] at h <;> cases h

/-- C63: it waits for a process only after it has closed what that process may still be
waiting for, and for both only after the connection is closed. -/
theorem c63_closes_first (key program : List Ans) (pre post : List End) (e : End)
    (h : (waitChildren key program).1 = pre ++ e :: post) :
    (e = .waitKey → .closePeer ∈ pre ∧ .closeKey ∈ pre) ∧
      (e = .waitProgram → .closePeer ∈ pre ∧ .closeKey ∈ pre ∧ .closeProgram ∈ pre) := by
  unfold waitChildren at h
  have cut : ∀ (l : List End) (k : Nat), l = pre ++ e :: post → l[pre.length]? = some e ∧ pre = l.take pre.length := by
    intro l k hl
    rw [hl]
    simp
  split at h
  · obtain ⟨h1, h2⟩ := cut _ 0 h
    generalize pre.length = n at h1 h2
    match n with
    | 0 | 1 => simp at h1; subst h1; simp
    | 2 => simp at h1; subst h1; simp [h2]
    | _ + 3 => simp at h1
  · obtain ⟨h1, h2⟩ := cut _ 0 h
    generalize pre.length = n at h1 h2
    match n with
    | 0 | 1 | 3 => simp at h1; subst h1; simp
    | 2 => simp at h1; subst h1; simp [h2]
    | 4 => simp at h1; subst h1; simp [h2]
    | _ + 5 => simp at h1

/-- C63: when it exits after the relay, it has waited for both processes, each once. -/
theorem c63_waits (key program : List Ans) (code : Nat) (h : (waitChildren key program).2 = some code) :
    (waitChildren key program).1.count .waitKey = 1 ∧ (waitChildren key program).1.count .waitProgram = 1 := by
  unfold waitChildren at h ⊢
  split at h
  · cases h
  · simp only [*]
    decide

/-- C63: the TCP wrapper has no program of its own: it exits with 0 when nothing of its own
failed, and with 100 or 111 otherwise. -/
theorem c63_tcp (ok : Nat → Bool) (c : Cfg) (ppout : Bool) :
    (AllOk ok (tcpProg c ppout) → tcpExit ok c ppout = 0) ∧
      (¬ AllOk ok (tcpProg c ppout) → tcpExit ok c ppout = 100 ∨ tcpExit ok c ppout = 111) := by
  constructor
  · intro h
    unfold tcpExit run
    rw [runFrom_ok ok _ 0 (by simpa [AllOk] using h)]
  · intro h
    unfold AllOk at h
    simp only [Classical.not_forall] at h
    obtain ⟨i, x, code, hi, ho⟩ := h
    have := runFrom_fails ok (tcpProg c ppout) 0 i x code hi (by simpa using ho)
    unfold tcpExit run
    cases hr : (runFrom ok 0 (tcpProg c ppout)).2 with
    | none => exact absurd hr this
    | some code =>
      obtain ⟨y, hy⟩ := runFrom_code ok _ 0 code hr
      obtain ⟨nojail, anchor, ppin, delayed, starttls, timeout, hstimeout⟩ := c
      have : ∀ y ∈ tcpProg ⟨nojail, anchor, ppin, delayed, starttls, timeout, hstimeout⟩ ppout, y.2 = none ∨ y.2 = some 100 ∨ y.2 = some 111 := by
        cases nojail <;> cases ppin <;> cases ppout <;> simp [tcpProg, whenever]
      rcases this _ hy with h | h | h <;> simp at h
      · exact .inl h
      · exact .inr h

theorem smtp_codes (c : Cfg) (grey closed : Bool) (x : Step) (code : Nat) (h : (x, some code) ∈ smtpProg c grey closed) :
    code = 100 ∨ code = 111 := by
  obtain ⟨nojail, anchor, ppin, delayed, starttls, timeout, hstimeout⟩ := c
  have : ∀ y ∈ smtpProg ⟨nojail, anchor, ppin, delayed, starttls, timeout, hstimeout⟩ grey closed, y.2 = none ∨ y.2 = some 100 ∨ y.2 = some 111 := by
    cases nojail <;> cases grey <;> cases closed <;> simp [smtpProg, whenever]
  rcases this _ h with h | h | h <;> simp at h
  · exact .inl h
  · exact .inr h

/-- C63: the SMTP wrapper exits, after a session ended by QUIT, with what it owes for the
program's end, and with 100 or 111 when something of its own failed. Missing from the full
property: waitpid() failing is also a failure of its own (c63_smtp_lost). -/
theorem c63_smtp_partial (ok : Nat → Bool) (c : Cfg) (grey closed : Bool) :
    (AllOk ok (smtpProg c grey closed) → ∀ (d : Death), d.real → ∀ (m : Nat) (l : List Ans),
      smtpExit ok c grey closed (List.replicate m .eintr ++ .reaped d.status :: l) = some d.owed) ∧
      (¬ AllOk ok (smtpProg c grey closed) → ∀ l, smtpExit ok c grey closed l = some 100 ∨ smtpExit ok c grey closed l = some 111) := by
  constructor
  · intro h d hd m l
    unfold smtpExit run
    rw [runFrom_ok ok _ 0 (by simpa [AllOk] using h)]
    unfold smtpDie
    simp only [waitLoop_eintr m (.reaped d.status) l nofun]
    have := owed_status d hd
    simp only [Bool.true_eq_false, if_false, ne_eq, not_true_eq_false]
    rw [← this]
    split <;> rfl
  · intro h l
    unfold AllOk at h
    simp only [Classical.not_forall] at h
    obtain ⟨i, x, code, hi, ho⟩ := h
    have := runFrom_fails ok (smtpProg c grey closed) 0 i x code hi (by simpa using ho)
    unfold smtpExit run
    cases hr : (runFrom ok 0 (smtpProg c grey closed)).2 with
    | none => exact absurd hr this
    | some code =>
      obtain ⟨y, hy⟩ := runFrom_code ok _ 0 code hr
      rcases smtp_codes c grey closed y code hy with rfl | rfl
      · exact .inl rfl
      · exact .inr rfl

/-- When waitpid() fails the SMTP wrapper reports success. -/
theorem c63_smtp_lost (ok : Nat → Bool) (c : Cfg) (grey closed : Bool) (h : AllOk ok (smtpProg c grey closed)) (m : Nat) (l : List Ans) :
    smtpExit ok c grey closed (List.replicate m .eintr ++ .failed :: l) = some 0 := by
  unfold smtpExit run
  rw [runFrom_ok ok _ 0 (by simpa [AllOk] using h)]
  unfold smtpDie
  simp only [waitLoop_eintr m .failed l nofun]
  rfl

/-! Concrete cases. -/

def sampleCfg : Cfg := ⟨false, true, true, true, true, 60, 30⟩

example : AllOk (fun _ => true) (mainProg sampleCfg) ∧ AllOk (fun _ => true) (smtpProg sampleCfg true true) ∧
    AllOk (fun _ => true) (tcpProg sampleCfg true) := ⟨fun _ _ _ _ => rfl, fun _ _ _ _ => rfl, fun _ _ _ _ => rfl⟩

example : (Death.exited 3).real ∧ (Death.killed 9 true).real := by simp [Death.real]

example : mainExit (fun _ => true) sampleCfg [.eintr, .failed] [.eintr, .reaped 768] = some 3 := by decide +kernel
example : mainExit (fun _ => true) sampleCfg [.reaped 0] [.reaped 9] = some 111 := by decide +kernel
example : mainExit (fun n => n != 12) sampleCfg [.reaped 0] [.reaped 0] = some 111 := by decide +kernel

/-- The steps of a session, and of one in which the jail fails. -/
example : (run (fun _ => true) (mainProg sampleCfg)).1 =
    [.handler, .handler, .alarm 10, .options, .alarm 30, .pipes, .pipes, .forkProgram, .pipes, .forkKey, .pipes, .jail, .anchor,
      .proxyIn, .tellProgram, .alarmHandler, .alarm 60, .clear, .alarm 30, .tlsInit, .relay] := by decide +kernel
example : (run (fun n => n != 11) (mainProg sampleCfg)).1 =
    [.handler, .handler, .alarm 10, .options, .alarm 30, .pipes, .pipes, .forkProgram, .pipes, .forkKey, .pipes, .jail] := by decide +kernel

/-! Which failures end a program -/

theorem runFrom_vital (ok : Nat → Bool) (V : List Step) : ∀ (p : Prog) (n : Nat), (∀ x ∈ p, x.1 ∈ V → x.2 ≠ none) →
    ∀ pre s post, (runFrom ok n p).1 = pre ++ s :: post → s ∈ V → post ≠ [] → ok (n + pre.length) = true := by
  intro p
  induction p with
  | nil => intro n _ pre s post h; simp [runFrom] at h
  | cons x p ih =>
    intro n hV pre s post h hs hp
    have hV' : ∀ x ∈ p, x.1 ∈ V → x.2 ≠ none := fun y hy => hV y (by simp [hy])
    have step : ∀ (t : Step), (t ∈ V → ok n = true) → t :: (runFrom ok (n + 1) p).1 = pre ++ s :: post → ok (n + pre.length) = true := by
      intro t ht h
      cases pre with
      | nil =>
        simp only [List.nil_append, List.cons.injEq] at h
        simpa using ht (h.1 ▸ hs)
      | cons y ys =>
        simp only [List.cons_append, List.cons.injEq] at h
        have := ih (n + 1) hV' ys s post h.2 hs hp
        rw [← this]
        congr 1
        simp only [List.length_cons]
        omega
    obtain ⟨t, code⟩ := x
    cases code with
    | none =>
      simp only [runFrom] at h
      exact step t (fun ht => absurd rfl (hV (t, none) (by simp) ht)) h
    | some code =>
      simp only [runFrom] at h
      split at h
      · rename_i ho
        exact step t (fun _ => ho) h
      · cases pre with
        | nil =>
          simp only [List.nil_append, List.cons.injEq] at h
          exact absurd h.2.symm hp
        | cons y ys => simp at h

/-- C63: the wrapper goes no further when one of these fails: the options, a pipe, a fork, the jail, the trust anchors, the PROXY header, the
report to the program, the handler of the timer. -/
theorem c63_main_vital (ok : Nat → Bool) (c : Cfg) (pre post : List Step) (s : Step) (h : (run ok (mainProg c)).1 = pre ++ s :: post)
    (hs : s ∈ [.options, .pipes, .forkProgram, .forkKey, .jail, .anchor, .proxyIn, .tellProgram, .alarmHandler, .handler]) (hp : post ≠ []) :
    ok pre.length = true := by
  have := runFrom_vital ok [.options, .pipes, .forkProgram, .forkKey, .jail, .anchor, .proxyIn, .tellProgram, .alarmHandler, .handler]
    (mainProg c) 0 (by
      obtain ⟨nojail, anchor, ppin, delayed, starttls, timeout, hstimeout⟩ := c
      cases nojail <;> cases anchor <;> cases ppin <;> cases delayed <;> cases starttls <;> simp [mainProg, mainBoot, mainRelay, whenever])
    pre s post h hs hp
  simpa using this

/-- C63: tlswrapper-tcp goes no further when one of these fails: the options, the resolver process, the name, a pipe, the sockets, the jail, the
PROXY header of the client, the connection, the header for the server. -/
theorem c63_tcp_vital (ok : Nat → Bool) (c : Cfg) (ppout : Bool) (pre post : List Step) (s : Step) (h : (run ok (tcpProg c ppout)).1 = pre ++ s :: post)
    (hs : s ∈ [.options, .forkResolver, .resolve, .pipes, .sockets, .jail, .proxyIn, .connect, .proxyOut]) (hp : post ≠ []) :
    ok pre.length = true := by
  have := runFrom_vital ok [.options, .forkResolver, .resolve, .pipes, .sockets, .jail, .proxyIn, .connect, .proxyOut]
    (tcpProg c ppout) 0 (by
      obtain ⟨nojail, anchor, ppin, delayed, starttls, timeout, hstimeout⟩ := c
      cases nojail <;> cases ppin <;> cases ppout <;> simp [tcpProg, whenever])
    pre s post h hs hp
  simpa using this

/-- C63: tlswrapper-smtp goes no further when one of these fails: the options, a pipe, a fork, the resolver process, the sockets, the jail, the
name of the greylist server; and with `-c` the connection to it. -/
theorem c63_smtp_vital (ok : Nat → Bool) (c : Cfg) (grey closed : Bool) (pre post : List Step) (s : Step)
    (h : (run ok (smtpProg c grey closed)).1 = pre ++ s :: post)
    (hs : s ∈ [.options, .pipes, .forkProgram, .forkResolver, .sockets, .jail, .resolve] ∨ (s = .connect ∧ closed = true)) (hp : post ≠ []) :
    ok pre.length = true := by
  have := runFrom_vital ok ([.options, .pipes, .forkProgram, .forkResolver, .sockets, .jail, .resolve] ++ if closed then [.connect] else [])
    (smtpProg c grey closed) 0 (by
      obtain ⟨nojail, anchor, ppin, delayed, starttls, timeout, hstimeout⟩ := c
      cases nojail <;> cases grey <;> cases closed <;> simp [smtpProg, whenever])
    pre s post h (by
      rw [List.mem_append]
      rcases hs with h | ⟨rfl, rfl⟩
      · exact .inl h
      · exact .inr (by simp)) hp
  simpa using this

/-- The name cannot be resolved: no socket is made. -/
example : (run (fun n => n != 2) (tcpProg ⟨false, false, true, false, false, 3600, 30⟩ true)) = ([.options, .forkResolver, .resolve], some 111) := by
  decide

end Main
