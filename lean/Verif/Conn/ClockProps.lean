import Verif.Conn.TimeProps
/-
C92: how long a connection attempt lasts, in real time. The attempt keeps its deadline by
the system's wall clock (milliseconds.c), which can be set while it runs.
-/
namespace Conn

/-! ### Specification -/

/-- `wall r` is what `milliseconds()` returns `r` milliseconds after some fixed moment
(milliseconds.c:15-20; gettimeofday). -/
abbrev Clock := Nat → Int

/-- The answers `l` come between the real times `r` and `r'`: looking at the clock gives the
wall clock's time at that moment; a wait with a limit ends when the limit has passed at the
latest (jail_poll.c:62-68: no limit if it is negative); all else takes no time. -/
inductive Passes (wall : Clock) : Nat → List Ev → Nat → Prop where
  | nil {r} : Passes wall r [] r
  | time {r r' l} : Passes wall r l r' → Passes wall r (.time (wall r) :: l) r'
  | poll {r r1 r' : Nat} {tm : Int} {p l} : r ≤ r1 → (0 ≤ tm → (r1 : Int) ≤ r + tm) → Passes wall r1 l r' → Passes wall r (.poll tm p :: l) r'
  | other {r r' e l} : (∀ t, e ≠ .time t) → (∀ tm p, e ≠ .poll tm p) → Passes wall r l r' → Passes wall r (e :: l) r'

/-- The clock is never set back, and never runs slow. -/
def NeverBack (wall : Clock) : Prop := ∀ a b : Nat, a ≤ b → (b : Int) - a ≤ wall b - wall a

/-- The clock is never set forward, and never runs fast. -/
def NeverForward (wall : Clock) : Prop := ∀ a b : Nat, a ≤ b → wall b - wall a ≤ (b : Int) - a

/-! ### Proofs -/

theorem Passes.append {wall : Clock} {a b : List Ev} {r r' : Nat} (h : Passes wall r (a ++ b) r') :
    ∃ r1, Passes wall r a r1 ∧ Passes wall r1 b r' := by
  induction a generalizing r with
  | nil => exact ⟨r, .nil, h⟩
  | cons e a ih =>
    cases h with
    | time h => obtain ⟨r1, h1, h2⟩ := ih h; exact ⟨r1, .time h1, h2⟩
    | poll g1 g2 h => obtain ⟨r1, h1, h2⟩ := ih h; exact ⟨r1, .poll g1 g2 h1, h2⟩
    | other g1 g2 h => obtain ⟨r1, h1, h2⟩ := ih h; exact ⟨r1, .other g1 g2 h1, h2⟩

theorem Passes.le {wall : Clock} {l : List Ev} {r r' : Nat} (h : Passes wall r l r') : r ≤ r' := by
  induction h with
  | nil => exact Nat.le_refl _
  | time _ ih => exact ih
  | poll h _ _ ih => omega
  | other _ _ _ ih => exact ih

theorem Passes.last_time {wall : Clock} {l : List Ev} {r r' : Nat} {t : Int} (h : Passes wall r (l ++ [.time t]) r') :
    t = wall r' ∧ Passes wall r l r' := by
  obtain ⟨r1, h1, h2⟩ := h.append
  cases h2 with
  | time h2 => cases h2; exact ⟨rfl, h1⟩
  | other g => exact absurd rfl (g _)

theorem Timely.prefix {D : Int} {a b : List Ev} (h : Timely D (a ++ b)) : Timely D a := by
  intro pre tm r post e
  exact h pre tm r (post ++ b) (by rw [e]; simp)

theorem snocInd {α : Type} {P : List α → Prop} (h0 : P []) (h1 : ∀ l a, P l → P (l ++ [a])) (l : List α) : P l := by
  rw [← l.reverse_reverse]
  induction l.reverse with
  | nil => exact h0
  | cons a l ih => rw [List.reverse_cons]; exact h1 _ _ ih

theorem passes_bound {wall : Clock} (hw : NeverBack wall) {D : Int} {M r0 : Nat} (hD : D = wall r0 + M) (hM : M < 2 ^ 31) (l : List Ev) :
    ∀ r', Timely D l → Passes wall r0 l r' → r' ≤ r0 + M := by
  induction l using snocInd with
  | h0 => intro r' _ h; cases h; omega
  | h1 l e ih =>
    intro r' ht h
    obtain ⟨r1, h1, h2⟩ := h.append
    have b := ih r1 ht.prefix h1
    cases h2 with
    | time h2 => cases h2; exact b
    | other _ _ h2 => cases h2; exact b
    | @poll _ _ _ tm p _ g1 g2 h2 =>
      cases h2
      obtain ⟨pre, t, e1, e2, e3⟩ := ht l tm p [] rfl
      rw [e1] at h1
      obtain ⟨rfl, h1'⟩ := h1.last_time
      have hle := h1.le
      have := hw r0 r1 hle
      have := e3 (by omega)
      have := g2 (by omega)
      omega

/-- C92: if the clock is never set back while it runs, an attempt has ended after the timeout. Partial: if the clock is set
back it need not, see `c92_set_back` and `c92_no_limit`. -/
theorem c92_ends_partial (wall : Clock) (hw : NeverBack wall) (o : List Nat) (timeout : Int) (ip : Bytes) (iplen : Int) (n : Nat) (hl : 16 ≤ iplen)
    (hn : n = min (iplen.toNat / 16) 8) (s : St) (hs : Ready o n s) (ht : 1 ≤ timeout) (ht' : timeout ≤ 86400) (used ev' : List Ev) (d : Done)
    (e : conn timeout ip iplen s (used ++ ev') = some (d, ev')) (r r' : Nat) (h : Passes wall r used r') :
    (r' : Int) ≤ r + 1000 * timeout := by
  obtain ⟨t0, used', h1, h2, _⟩ := c68_attempt o timeout ip iplen n hl hn s hs ht _ ev' d e
  have h1 := List.append_cancel_right h1
  subst h1
  cases h with
  | other g => exact absurd rfl (g _)
  | time h =>
    have := passes_bound hw (D := wall r + 1000 * timeout) (M := (1000 * timeout).toNat) (by omega) (by omega) used' r' h2 h
    omega

/-- C92: if the clock is never set forward while it runs, an attempt is not given up before the timeout while a candidate may still
answer. Partial: if the clock is set forward it is, see `c92_set_forward`. -/
theorem c92_waits_partial (wall : Clock) (hw : NeverForward wall) (o : List Nat) (timeout : Int) (ip : Bytes) (iplen : Int) (n : Nat) (hl : 16 ≤ iplen)
    (hn : n = min (iplen.toNat / 16) 8) (s : St) (hs : Ready o n s) (ht : 1 ≤ timeout) (used ev' : List Ev) (d : Done)
    (e : conn timeout ip iplen s (used ++ ev') = some (d, ev')) (hd : d.ret = .fail) (r r' : Nat) (h : Passes wall r used r')
    (hc : used.countP Ev.failure < n) (hp : ∀ tm, .poll tm .failed ∉ used) : (r : Int) + 1000 * timeout ≤ r' := by
  obtain ⟨t0, used', h1, _, _, h2⟩ := c68_attempt o timeout ip iplen n hl hn s hs ht _ ev' d e
  have h1 := List.append_cancel_right h1
  subst h1
  obtain ⟨_, h2⟩ := h2 hd
  cases h with
  | other g => exact absurd rfl (g _)
  | time h =>
    rcases h2 with h2 | ⟨pre, t, e1, h2⟩ | ⟨pre, tm, e1⟩
    · rw [List.countP_cons_of_neg (by simp [Ev.failure])] at hc
      omega
    · rw [e1] at h
      obtain ⟨rfl, h3⟩ := h.last_time
      have := hw r r' h3.le
      omega
    · exact absurd (by rw [e1]; simp) (hp tm)

/-! ### Where the code departs from it -/

/-- A clock that is set by `d` after the first millisecond. -/
def setBy (d : Int) : Clock := fun r => if r ≤ 1 then r else r + d

/-- One candidate, prepared. -/
def oneSlot : St := (init 1 start [.socket (some 3), .dup (some 4)]).elim start (·.2.1)

theorem oneSlot_ready : Ready [0, 1, 2] 1 oneSlot :=
  (c62_init [0, 1, 2] 1 start start_inv [.socket (some 3), .dup (some 4)] [] true oneSlot rfl).1 rfl

/-- Nothing happens until a signal arrives at `a`, and then nothing until `b`. -/
def quiet (a b : Nat) (d : Int) : List Ev :=
  [.time 0, .connect .inProgress, .time 0, .poll 10000 .eintr, .time (a + d), .poll (asInt (10000 - (a + d))) (.ready [false]), .time (b + d)]

theorem quiet_passes (a b : Nat) (d : Int) (ha : 2 ≤ a) (ha' : a ≤ 10000) (hb : a ≤ b)
    (h : 0 ≤ asInt (10000 - (a + d)) → (b : Int) ≤ a + asInt (10000 - (a + d))) : Passes (setBy d) 0 (quiet a b d) b := by
  have e1 : ((a : Nat) : Int) + d = setBy d a := by unfold setBy; rw [if_neg (by omega)]
  have e2 : ((b : Nat) : Int) + d = setBy d b := by unfold setBy; rw [if_neg (by omega)]
  unfold quiet
  refine .time (.other nofun nofun (.time (.poll (r1 := a) (by omega) (by omega) ?_)))
  rw [e2]
  have : Passes (setBy d) a [.time (setBy d a), .poll (asInt (10000 - (a + d))) (.ready [false]), .time (setBy d b)] b :=
    .time (.poll hb h (.time .nil))
  rwa [← e1] at this

/-- C92 (violation): set back by an hour, an attempt of ten seconds lasts an hour and ten seconds. -/
theorem c92_set_back : ∃ used d, conn 10 sampleIp 16 oneSlot used = some (d, []) ∧ d.ret = .fail ∧ Passes (setBy (-3600000)) 0 used 3610000 :=
  ⟨quiet 5000 3610000 (-3600000), _, rfl, rfl, quiet_passes _ _ _ (by decide) (by decide) (by decide) (by decide)⟩

/-- C92 (violation): set back by thirty days there is no bound at all: the wait is longer than an `int` can say, and a negative
limit is none. -/
theorem c92_no_limit (T : Nat) (hT : 2592010000 ≤ T) : ∃ used d, conn 10 sampleIp 16 oneSlot used = some (d, []) ∧ d.ret = .fail ∧
    Passes (setBy (-2592000000)) 0 used T := by
  have h : ∃ d, conn 10 sampleIp 16 oneSlot (quiet 5000 T (-2592000000)) = some (d, []) ∧ d.ret = .fail := by
    change ∃ d, (if (0 : Int) + 1000 * 10 - ((T : Int) + -2592000000) ≤ 0 then _ else _) = some (d, []) ∧ _
    rw [if_pos (by omega)]
    exact ⟨_, rfl, rfl⟩
  obtain ⟨d, h1, h2⟩ := h
  exact ⟨_, d, h1, h2, quiet_passes _ _ _ (by decide) (by decide) (by omega) (fun h => absurd h (by decide))⟩

/-- C92 (violation): set forward by an hour, it is given up at the first signal, although nothing has failed. -/
theorem c92_set_forward : ∃ used d, conn 10 sampleIp 16 oneSlot used = some (d, []) ∧ d.ret = .fail ∧ used.countP Ev.failure = 0 ∧
    Passes (setBy 3600000) 0 used 2 := by
  refine ⟨[.time 0, .connect .inProgress, .time 0, .poll 10000 .eintr, .time 3600002], _, rfl, rfl, rfl, ?_⟩
  exact .time (.other nofun nofun (.time (.poll (r1 := 2) (by decide) (by decide) (.time (wall := setBy 3600000) .nil))))

/-- The hypotheses of `c92_ends_partial` and `c92_waits_partial` are met: a steady clock, one signal, no answer. -/
example : NeverBack (fun r => r + 7) ∧ NeverForward (fun r => r + 7) ∧ ∃ d, conn 10 sampleIp 16 oneSlot
    [.time 7, .connect .inProgress, .time 7, .poll 10000 .eintr, .time 5007, .poll 5000 (.ready [false]), .time 10007] = some (d, []) ∧ d.ret = .fail ∧
    Passes (fun r => r + 7) 0 [.time 7, .connect .inProgress, .time 7, .poll 10000 .eintr, .time 5007, .poll 5000 (.ready [false]), .time 10007] 10000 := by
  refine ⟨fun a b h => by dsimp only; omega, fun a b h => by dsimp only; omega, _, rfl, rfl, ?_⟩
  exact .time (.other nofun nofun (.time (.poll (r1 := 5000) (by decide) (by decide) (.time (.poll (r1 := 10000) (by decide) (by decide) (.time .nil))))))

end Conn
