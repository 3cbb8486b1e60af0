import Verif.Main.FdsLemmas
/-
C71: which descriptors each of the three processes holds.
-/
namespace Main

/- Specification: the wrapper is started with descriptors, each an object of its own. -/

/-- A table as the wrapper finds it: what is at a number is what was inherited there. -/
def Inherited (t : Fds) : Prop := ∀ n e, look t n = some e → e.obj = .inherited n

/-- What of the initial descriptors survives an exec. -/
def survives (t : Fds) (n : Nat) : Option Obj :=
  match look t n with
  | some ⟨o, false⟩ => some o
  | _ => none

/-- What the program must find at each number: its input, its output, the two control
pipes at 5 and 6 with delayed encryption and nothing there without, and otherwise
what the wrapper was started with. -/
def programSees (t : Fds) (delayed : Bool) (n : Nat) : Option Obj :=
  if n = 0 then some (.rd .tochild)
  else if n = 1 then some (.wr .fromchild)
  else if n = 5 then (if delayed then some (.wr .fromchildcontrol) else none)
  else if n = 6 then (if delayed then some (.rd .tochildcontrol) else none)
  else survives t n

/-- The wrapper at its start. -/
def start (t : Fds) (blocking : Obj → Bool) (fault : Nat → Bool) : S := ⟨t, blocking, 0, fault⟩

/-! ### up to the first fork -/

theorem guard_some {delayed : Bool} {s s' : S} {u} (h : guard delayed s = some (u, s')) :
    (delayed = true → ∀ n, n ≤ 6 → look s'.t n ≠ none) ∧
      (∀ n, look s'.t n ≠ look s.t n → look s.t n = none ∧ n ≤ 6 ∧ look s'.t n = some ⟨.devnull, true⟩) ∧
      (delayed = true → look s.t 5 = none ∧ look s.t 6 = none) ∧ s'.blocking = s.blocking ∧ s'.fault = s.fault := by
  cases delayed with
  | false =>
    obtain ⟨-, rfl⟩ := pure_some h
    exact ⟨by simp, fun n hn => absurd rfl hn, by simp, rfl, rfl⟩
  | true =>
    obtain ⟨_, s1, h1, h⟩ := bind_some h
    obtain ⟨_, s2, h2, h⟩ := bind_some h
    unfold isFree at h1 h2
    split at h1
    · rename_i e5
      injection h1 with h1
      injection h1 with _ h1
      subst h1
      split at h2
      · rename_i e6
        injection h2 with h2
        injection h2 with _ h2
        subst h2
        obtain ⟨g1, g2, g3, g4⟩ := guardLoop_some h
        exact ⟨fun _ => g1, g2, fun _ => ⟨e5, e6⟩, g3, g4⟩
      · cases h2
    · cases h1

/-- The table with the four pipes. -/
def withPipes (f : Nat → Option Ent) (e : Ends4) : Nat → Option Ent :=
  upd (upd (upd (upd (upd (upd (upd (upd f
    e.tochild.1 (some ⟨.rd .tochild, true⟩)) e.tochild.2 (some ⟨.wr .tochild, true⟩))
    e.fromchild.1 (some ⟨.rd .fromchild, true⟩)) e.fromchild.2 (some ⟨.wr .fromchild, true⟩))
    e.fromctl.1 (some ⟨.rd .fromchildcontrol, true⟩)) e.fromctl.2 (some ⟨.wr .fromchildcontrol, true⟩))
    e.toctl.1 (some ⟨.rd .tochildcontrol, true⟩)) e.toctl.2 (some ⟨.wr .tochildcontrol, true⟩)

/-- The numbers of the pipes go up, and were free. -/
structure Fresh (f : Nat → Option Ent) (e : Ends4) : Prop where
  l1 : e.tochild.1 < e.tochild.2
  l2 : e.tochild.2 < e.fromchild.1
  l3 : e.fromchild.1 < e.fromchild.2
  l4 : e.fromchild.2 < e.fromctl.1
  l5 : e.fromctl.1 < e.fromctl.2
  l6 : e.fromctl.2 < e.toctl.1
  l7 : e.toctl.1 < e.toctl.2
  low : Low f e.tochild.1
  low2 : Low (upd f e.tochild.1 (some ⟨.rd .tochild, true⟩)) e.tochild.2
  f1 : f e.tochild.2 = none
  f2 : f e.fromchild.1 = none
  f3 : f e.fromchild.2 = none
  f4 : f e.fromctl.1 = none
  f5 : f e.fromctl.2 = none
  f6 : f e.toctl.1 = none
  f7 : f e.toctl.2 = none

/-- The modes with the four pipes. -/
def pipeModes (m : Obj → Bool) : Obj → Bool :=
  mode (mode (mode (mode (mode (mode (mode (mode m (.rd .tochild) false) (.wr .tochild) false)
    (.rd .fromchild) false) (.wr .fromchild) false) (.rd .fromchildcontrol) false) (.wr .fromchildcontrol) false)
    (.rd .tochildcontrol) false) (.wr .tochildcontrol) false

theorem beforeChild_some {delayed : Bool} {s s' : S} {e} (h : beforeChild delayed s = some (e, s')) :
    ∃ f : Nat → Option Ent, (delayed = true → ∀ n, n ≤ 6 → f n ≠ none) ∧
      (∀ n, f n ≠ look s.t n → look s.t n = none ∧ n ≤ 6 ∧ f n = some ⟨.devnull, true⟩) ∧
      (delayed = true → look s.t 5 = none ∧ look s.t 6 = none) ∧
      Fresh f e ∧ look s'.t = withPipes f e ∧ s'.blocking = pipeModes s.blocking ∧ s'.fault = s.fault := by
  obtain ⟨_, s0, h0, h⟩ := bind_some h
  obtain ⟨a, s1, h1, h⟩ := bind_some h
  obtain ⟨b, s2, h2, h⟩ := bind_some h
  obtain ⟨c, s3, h3, h⟩ := bind_some h
  obtain ⟨d, s4, h4, h⟩ := bind_some h
  obtain ⟨_, s5, h5, h⟩ := bind_some h
  obtain ⟨rfl, rfl⟩ := pure_some h
  obtain ⟨-, rfl⟩ := tick_some h5
  obtain ⟨g1, g2, g3, m0, k0⟩ := guard_some h0
  obtain ⟨a1, a2, a3, t1, m1, k1, -, -⟩ := openPipe_some h1
  obtain ⟨b1, b2, b3, t2, m2, k2, -, -⟩ := openPipe_some h2
  obtain ⟨c1, c2, c3, t3, m3, k3, -, -⟩ := openPipe_some h3
  obtain ⟨d1, d2, d3, t4, m4, k4, -, -⟩ := openPipe_some h4
  rw [t1] at b1 b2 t2
  rw [t2] at c1 c2 t3
  rw [t3] at d1 d2 t4
  have e1 := low_lt a2 b1
  have e2 := low_lt b2 c1
  have e3 := low_lt c2 d1
  refine ⟨look s0.t, g1, g2, g3, ⟨a3, e1, b3, e2, c3, e3, d3, a1, a2, ?_, ?_, ?_, ?_, ?_, ?_, ?_⟩, t4, ?_, ?_⟩
  · have := a2.1
    rwa [upd_ne _ (by omega)] at this
  · have := b1.1
    rwa [upd_ne _ (by omega), upd_ne _ (by omega)] at this
  · have := b2.1
    rwa [upd_ne _ (by omega), upd_ne _ (by omega), upd_ne _ (by omega)] at this
  · have := c1.1
    rwa [upd_ne _ (by omega), upd_ne _ (by omega), upd_ne _ (by omega), upd_ne _ (by omega)] at this
  · have := c2.1
    rwa [upd_ne _ (by omega), upd_ne _ (by omega), upd_ne _ (by omega), upd_ne _ (by omega), upd_ne _ (by omega)] at this
  · have := d1.1
    rwa [upd_ne _ (by omega), upd_ne _ (by omega), upd_ne _ (by omega), upd_ne _ (by omega), upd_ne _ (by omega), upd_ne _ (by omega)] at this
  · have := d2.1
    rwa [upd_ne _ (by omega), upd_ne _ (by omega), upd_ne _ (by omega), upd_ne _ (by omega), upd_ne _ (by omega), upd_ne _ (by omega), upd_ne _ (by omega)] at this
  · rw [m4, m3, m2, m1, m0]
    rfl
  · rw [k4, k3, k2, k1, k0]

/-! ### the program -/

theorem control_some {delayed : Bool} {fd n : Nat} {s s' : S} {u} (h : control delayed fd n s = some (u, s')) :
    (delayed = false → s' = s) ∧
      (delayed = true → ∃ e, look s.t fd = some e ∧ Low (look s.t) n ∧
        look s'.t = upd (look s.t) n (some ⟨e.obj, false⟩) ∧ s'.blocking = mode s.blocking e.obj true ∧ s'.fault = s.fault) := by
  cases delayed with
  | false =>
    obtain ⟨-, rfl⟩ := pure_some h
    exact ⟨fun _ => rfl, by simp⟩
  | true =>
    obtain ⟨_, s1, h1, h⟩ := bind_some h
    obtain ⟨e, a1, a2, a3, a4, a5, -, -⟩ := dupTo_some h1
    obtain ⟨b1, b2, -, b3, -⟩ := setBlocking_some h
    refine ⟨by simp, fun _ => ⟨e, a1, a2, by rw [b1, a3], ?_, by rw [b2, a5]⟩⟩
    rw [b3 ⟨e.obj, false⟩ (by rw [a3, upd_same]), a4]

/-- The table of the program's process before execvp(). -/
def childTable (delayed : Bool) (f : Nat → Option Ent) (e : Ends4) : Nat → Option Ent :=
  let g := upd (upd (upd f e.tochild.2 none) 0 none) 0 (some ⟨.rd .tochild, false⟩)
  let g := upd (upd (upd g e.fromchild.1 none) 1 none) 1 (some ⟨.wr .fromchild, false⟩)
  let g := upd (upd g e.fromctl.1 none) 5 (if delayed then some ⟨.wr .fromchildcontrol, false⟩ else none)
  upd (upd g e.toctl.2 none) 6 (if delayed then some ⟨.rd .tochildcontrol, false⟩ else none)

theorem upd_upd (f : Nat → Option Ent) (n : Nat) (a b : Option Ent) : upd (upd f n a) n b = upd f n b := by
  funext m
  simp only [upd]
  split <;> rfl

theorem childFds_some {delayed : Bool} {f : Nat → Option Ent} {e : Ends4} {s s' : S} {u} (hf : Fresh f e)
    (hd : delayed = true → ∀ n, n ≤ 6 → f n ≠ none) (ht : look s.t = withPipes f e)
    (h : childFds delayed e s = some (u, s')) :
    0 < e.tochild.1 ∧ look s'.t = childTable delayed (withPipes f e) e ∧
      s'.blocking = (if delayed then mode (mode (mode (mode s.blocking (.rd .tochild) true) (.wr .fromchild) true) (.wr .fromchildcontrol) true) (.rd .tochildcontrol) true
        else mode (mode s.blocking (.rd .tochild) true) (.wr .fromchild) true) := by
  obtain ⟨_, s1, h1, h⟩ := bind_some h
  obtain ⟨_, s2, h2, h⟩ := bind_some h
  obtain ⟨_, s3, h3, h⟩ := bind_some h
  obtain ⟨_, s4, h4, h⟩ := bind_some h
  obtain ⟨_, s5, h5, h⟩ := bind_some h
  obtain ⟨_, s6, h6, h⟩ := bind_some h
  obtain ⟨_, s7, h7, h⟩ := bind_some h
  obtain ⟨_, s8, h8, h⟩ := bind_some h
  obtain ⟨_, s9, h9, h⟩ := bind_some h
  obtain ⟨_, s10, h10, h⟩ := bind_some h
  obtain ⟨_, s11, h11, h⟩ := bind_some h
  obtain ⟨_, s12, h12, h⟩ := bind_some h
  obtain ⟨_, s13, h13, h⟩ := bind_some h
  obtain ⟨t1, m1, -, -⟩ := close_some h1
  obtain ⟨t2, m2, -, -⟩ := close_some h2
  obtain ⟨x3, y3, l3, t3, m3, -, -, -⟩ := dupTo_some h3
  obtain ⟨t4, -, -, m4, -⟩ := setBlocking_some h4
  obtain ⟨t5, m5, -, -⟩ := close_some h5
  obtain ⟨t6, m6, -, -⟩ := close_some h6
  obtain ⟨x7, y7, l7, t7, m7, -, -, -⟩ := dupTo_some h7
  obtain ⟨t8, -, -, m8, -⟩ := setBlocking_some h8
  obtain ⟨t9, m9, -, -⟩ := close_some h9
  obtain ⟨t10, m10, -, -⟩ := close_some h10
  obtain ⟨p11, q11⟩ := control_some h11
  obtain ⟨t12, m12, -, -⟩ := close_some h12
  obtain ⟨t13, m13, -, -⟩ := close_some h13
  obtain ⟨p14, q14⟩ := control_some h
  obtain ⟨i1, i2, i3, i4, i5, i6, i7, low, low2, -⟩ := hf
  have m4 := m4 ⟨x3.obj, false⟩ (by rw [t3, upd_same])
  have m8 := m8 ⟨x7.obj, false⟩ (by rw [t7, upd_same])
  have t2' := t2
  rw [t1, ht] at t2
  -- a pipe at 0 would have been closed
  have hpos : 0 < e.tochild.1 := by
    false_or_by_contra
    have : e.tochild.1 = 0 := by omega
    rw [t2, this, upd_same] at y3
    cases y3
  have hx3 : x3 = ⟨.rd .tochild, true⟩ := by
    rw [t2, upd_ne _ (by omega), upd_ne _ (by omega)] at y3
    unfold withPipes at y3
    rw [upd_ne _ (by omega), upd_ne _ (by omega), upd_ne _ (by omega), upd_ne _ (by omega), upd_ne _ (by omega),
      upd_ne _ (by omega), upd_ne _ (by omega), upd_same] at y3
    exact (Option.some.inj y3).symm
  subst hx3
  rw [t5, t4, t3, t2] at t6
  have hx7 : x7 = ⟨.wr .fromchild, true⟩ := by
    rw [t6, upd_ne _ (by omega), upd_ne _ (by omega), upd_ne _ (by omega), upd_ne _ (by omega), upd_ne _ (by omega)] at y7
    unfold withPipes at y7
    rw [upd_ne _ (by omega), upd_ne _ (by omega), upd_ne _ (by omega), upd_ne _ (by omega), upd_same] at y7
    exact (Option.some.inj y7).symm
  subst hx7
  rw [t9, t8, t7, t6] at t10
  refine ⟨hpos, ?_⟩
  cases delayed with
  | false =>
    have p11 := p11 rfl
    have p14 := p14 rfl
    subst p11
    subst p14
    constructor
    · rw [t13, t12, t10]
      rfl
    · rw [m13, m12, m10, m9, m8, m7, m6, m5, m4, m3, m2, m1]
      rfl
  | true =>
    -- the guard keeps the pipes above 6
    have h6 : 6 < e.tochild.1 := by
      false_or_by_contra
      exact hd rfl _ (by omega) low.1
    obtain ⟨x11, y11, -, t11, m11, -⟩ := q11 rfl
    obtain ⟨x14, y14, -, t14, m14, -⟩ := q14 rfl
    have hx11 : x11 = ⟨.wr .fromchildcontrol, true⟩ := by
      rw [t10, upd_ne _ (by omega), upd_ne _ (by omega), upd_ne _ (by omega), upd_ne _ (by omega), upd_ne _ (by omega), upd_ne _ (by omega), upd_ne _ (by omega), upd_ne _ (by omega)] at y11
      unfold withPipes at y11
      rw [upd_ne _ (by omega), upd_ne _ (by omega), upd_same] at y11
      exact (Option.some.inj y11).symm
    subst hx11
    rw [t12, t11, t10] at t13
    have hx14 : x14 = ⟨.rd .tochildcontrol, true⟩ := by
      rw [t13, upd_ne _ (by omega), upd_ne _ (by omega), upd_ne _ (by omega), upd_ne _ (by omega), upd_ne _ (by omega), upd_ne _ (by omega), upd_ne _ (by omega), upd_ne _ (by omega), upd_ne _ (by omega), upd_ne _ (by omega), upd_ne _ (by omega)] at y14
      unfold withPipes at y14
      rw [upd_ne _ (by omega), upd_same] at y14
      exact (Option.some.inj y14).symm
    subst hx14
    constructor
    · rw [t14, t13]
      unfold childTable
      simp only [upd_upd, if_true]
    · rw [m14, m13, m12, m11, m10, m9, m8, m7, m6, m5, m4, m3, m2, m1]
      rfl

/-- What survives an exec, of an entry. -/
def surv : Option Ent → Option Obj
  | some ⟨o, false⟩ => some o
  | _ => none

theorem exec_surv (s : S) (n : Nat) : exec s n = surv (look s.t n) := by
  unfold exec surv
  split
  · simp_all
  · rename_i e he
    obtain ⟨o, c⟩ := e
    rw [he]
    cases c <;> rfl

theorem survives_surv (t : Fds) (n : Nat) : survives t n = surv (look t n) := by
  unfold survives surv
  rfl

/-- C71: whatever descriptors the wrapper was started with and whatever fails: if the
program is started at all, it finds its input at 0, its output at 1, the control
pipes at 5 and 6 exactly with delayed encryption, all in blocking mode, and at
every other number exactly what the wrapper was started with and is not close-on-exec.
In particular it holds no other end of any pipe. -/
theorem c71_program {t : Fds} {blocking : Obj → Bool} {fault : Nat → Bool} {delayed : Bool} {s : S} {u : Unit}
    (h : program delayed (start t blocking fault) = some (u, s)) (n : Nat) :
    exec s n = programSees t delayed n ∧
      s.blocking (.rd .tochild) = true ∧ s.blocking (.wr .fromchild) = true ∧
      (delayed = true → s.blocking (.wr .fromchildcontrol) = true ∧ s.blocking (.rd .tochildcontrol) = true) ∧
      (∀ k, s.blocking (.inherited k) = blocking (.inherited k)) := by
  obtain ⟨e, s1, h1, h2⟩ := bind_some h
  obtain ⟨f, a1, a2, -, a3, a4, a5, -⟩ := beforeChild_some h1
  obtain ⟨hpos, b1, b2⟩ := childFds_some a3 a1 a4 h2
  have hm : s1.blocking = pipeModes blocking := a5
  have hf : surv (f n) = surv (look t n) := by
    by_cases e : f n = look t n
    · rw [e]
    · obtain ⟨c1, -, c2⟩ := a2 n e
      have c1 : look t n = none := c1
      rw [c1, c2]
      rfl
  refine ⟨?_, ?_, ?_, ?_, ?_⟩
  · rw [exec_surv, b1]
    obtain ⟨i1, i2, i3, i4, i5, i6, i7, low, -, f1, f2, f3, f4, f5, f6, f7⟩ := a3
    have f0 := low.1
    have hd : delayed = true → 6 < e.tochild.1 := by
      intro hd
      false_or_by_contra
      exact a1 hd _ (by omega) f0
    unfold programSees
    rw [survives_surv, ← hf]
    by_cases n0 : n = 0
    · subst n0
      simp only [childTable]
      rw [upd_ne _ (by omega), upd_ne _ (by omega), upd_ne _ (by omega), upd_ne _ (by omega), upd_ne _ (by omega), upd_ne _ (by omega), upd_ne _ (by omega), upd_same]
      rfl
    · rw [if_neg n0]
      by_cases n1 : n = 1
      · subst n1
        simp only [childTable]
        rw [upd_ne _ (by omega), upd_ne _ (by omega), upd_ne _ (by omega), upd_ne _ (by omega), upd_same]
        rfl
      · rw [if_neg n1]
        by_cases n5 : n = 5
        · subst n5
          simp only [childTable]
          rw [upd_ne _ (by omega), if_pos trivial]
          cases delayed with
          | true =>
            have := hd rfl
            rw [upd_ne _ (by omega), upd_same]
            rfl
          | false =>
            by_cases e5 : 5 = e.toctl.2
            · rw [← e5, upd_same]
              rfl
            · rw [upd_ne _ e5, upd_same]
              rfl
        · rw [if_neg n5]
          by_cases n6 : n = 6
          · subst n6
            simp only [childTable]
            rw [upd_same, if_pos trivial]
            cases delayed <;> rfl
          · rw [if_neg n6]
            simp only [childTable, withPipes, upd, n0, n1, n5, n6, if_false]
            by_cases k1 : n = e.toctl.2
            · rw [if_pos k1, k1, f7]
            · rw [if_neg k1]
              by_cases k2 : n = e.fromctl.1
              · rw [if_pos k2, k2, f4]
              · rw [if_neg k2]
                by_cases k3 : n = e.fromchild.1
                · rw [if_pos k3, k3, f2]
                · rw [if_neg k3]
                  by_cases k4 : n = e.tochild.2
                  · rw [if_pos k4, k4, f1]
                  · rw [if_neg k4, if_neg k1]
                    by_cases k5 : n = e.toctl.1
                    · rw [if_pos k5, k5, f6]; rfl
                    · rw [if_neg k5]
                      by_cases k6 : n = e.fromctl.2
                      · rw [if_pos k6, k6, f5]; rfl
                      · rw [if_neg k6, if_neg k2]
                        by_cases k7 : n = e.fromchild.2
                        · rw [if_pos k7, k7, f3]; rfl
                        · rw [if_neg k7, if_neg k3, if_neg k4]
                          by_cases k8 : n = e.tochild.1
                          · rw [if_pos k8, k8, f0]; rfl
                          · rw [if_neg k8]
  · rw [b2]
    cases delayed <;> simp [mode]
  · rw [b2]
    cases delayed <;> simp [mode]
  · rintro rfl
    rw [b2]
    simp [mode]
  · intro k
    rw [b2, hm]
    cases delayed <;> simp [mode, pipeModes]

/-! ### it does start -/

theorem isFree_ok {n : Nat} {s : S} (h : look s.t n = none) : isFree n s = some ((), s) := by
  unfold isFree
  rw [if_pos h]

theorem guard_ok (delayed : Bool) (s : S) (h : ∀ k, s.fault k = false)
    (hd : delayed = true → look s.t 5 = none ∧ look s.t 6 = none) : ∃ s', guard delayed s = some ((), s') := by
  cases delayed with
  | false => exact ⟨s, rfl⟩
  | true =>
    obtain ⟨h5, h6⟩ := hd rfl
    obtain ⟨s', h'⟩ := guardLoop_ok s h
    refine ⟨s', ?_⟩
    change (isFree 5 >>= fun _ => isFree 6 >>= fun _ => guardLoop) s = _
    rw [bind_of (isFree_ok h5), bind_of (isFree_ok h6), h']

theorem beforeChild_ok (delayed : Bool) (s : S) (h : ∀ k, s.fault k = false)
    (hd : delayed = true → look s.t 5 = none ∧ look s.t 6 = none) : ∃ e s', beforeChild delayed s = some (e, s') := by
  obtain ⟨s0, h0⟩ := guard_ok delayed s h hd
  have k0 : ∀ k, s0.fault k = false := by rw [(guard_some h0).2.2.2.2]; exact h
  obtain ⟨a, s1, h1⟩ := openPipe_ok .tochild s0 (k0 _)
  have k1 : ∀ k, s1.fault k = false := by rw [(openPipe_some h1).2.2.2.2.2.1]; exact k0
  obtain ⟨b, s2, h2⟩ := openPipe_ok .fromchild s1 (k1 _)
  have k2 : ∀ k, s2.fault k = false := by rw [(openPipe_some h2).2.2.2.2.2.1]; exact k1
  obtain ⟨c, s3, h3⟩ := openPipe_ok .fromchildcontrol s2 (k2 _)
  have k3 : ∀ k, s3.fault k = false := by rw [(openPipe_some h3).2.2.2.2.2.1]; exact k2
  obtain ⟨d, s4, h4⟩ := openPipe_ok .tochildcontrol s3 (k3 _)
  have k4 : ∀ k, s4.fault k = false := by rw [(openPipe_some h4).2.2.2.2.2.1]; exact k3
  have h5 : tick s4 = some ((), { s4 with n := s4.n + 1 }) := by simp [tick, k4]
  refine ⟨⟨a, b, c, d⟩, { s4 with n := s4.n + 1 }, ?_⟩
  unfold beforeChild
  rw [bind_of h0, bind_of h1, bind_of h2, bind_of h3, bind_of h4, bind_of h5]
  rfl

theorem control_ok {delayed : Bool} {fd n : Nat} {s : S} (h : s.fault s.n = false)
    (hd : delayed = true → ∃ e, look s.t fd = some e ∧ Low (look s.t) n) : ∃ s', control delayed fd n s = some ((), s') := by
  cases delayed with
  | false => exact ⟨s, rfl⟩
  | true =>
    obtain ⟨e, h1, h2⟩ := hd rfl
    obtain ⟨s1, h3⟩ := dupTo_ok h h1 h2
    obtain ⟨s2, h4⟩ := setBlocking_ok n true s1
    refine ⟨s2, ?_⟩
    change (dupTo fd n >>= fun _ => setBlocking n true) s = _
    rw [bind_of h3, h4]

theorem childFds_ok {delayed : Bool} {f : Nat → Option Ent} {e : Ends4} {s : S} (hf : Fresh f e)
    (h : ∀ k, s.fault k = false) (h0 : f 0 ≠ none)
    (hd : delayed = true → ∀ n, n ≤ 6 → f n ≠ none) (ht : look s.t = withPipes f e) :
    ∃ s', childFds delayed e s = some ((), s') := by
  obtain ⟨i1, i2, i3, i4, i5, i6, i7, low, low2, -⟩ := hf
  have hpos : 0 < e.tochild.1 := by
    false_or_by_contra
    have : e.tochild.1 = 0 := by omega
    exact h0 (this ▸ low.1)
  obtain ⟨s1, h1⟩ := close_ok e.tochild.2 s
  obtain ⟨s2, h2⟩ := close_ok 0 s1
  obtain ⟨t1, -, k1, -⟩ := close_some h1
  obtain ⟨t2, -, k2, -⟩ := close_some h2
  rw [t1, ht] at t2
  have y2 : look s2.t e.tochild.1 = some ⟨.rd .tochild, true⟩ := by
    rw [t2]
    simp only [withPipes, upd]
    repeat rw [if_neg (by omega)]
    rw [if_pos trivial]
  obtain ⟨s3, h3⟩ := dupTo_ok (s := s2) (n := 0) (by rw [k2, k1]; exact h _) y2 ⟨by rw [t2, upd_same], by omega⟩
  obtain ⟨x3, y3, -, t3, -, k3, -⟩ := dupTo_some h3
  obtain ⟨s4, h4⟩ := setBlocking_ok 0 true s3
  obtain ⟨t4, k4, -⟩ := setBlocking_some h4
  obtain ⟨s5, h5⟩ := close_ok e.fromchild.1 s4
  obtain ⟨t5, -, k5, -⟩ := close_some h5
  obtain ⟨s6, h6⟩ := close_ok 1 s5
  obtain ⟨t6, -, k6, -⟩ := close_some h6
  rw [t5, t4, t3, t2] at t6
  have y6 : look s6.t e.fromchild.2 = some ⟨.wr .fromchild, true⟩ := by
    rw [t6]
    simp only [withPipes, upd]
    repeat rw [if_neg (by omega)]
    rw [if_pos trivial]
  have low6 : Low (look s6.t) 1 := by
    refine ⟨by rw [t6, upd_same], fun k hk => ?_⟩
    have : k = 0 := by omega
    subst this
    rw [t6, upd_ne _ (by omega), upd_ne _ (by omega), upd_same]
    exact nofun
  obtain ⟨s7, h7⟩ := dupTo_ok (s := s6) (n := 1) (by rw [k6, k5, k4, k3, k2, k1]; exact h _) y6 low6
  obtain ⟨x7, y7, -, t7, -, k7, -⟩ := dupTo_some h7
  obtain ⟨s8, h8⟩ := setBlocking_ok 1 true s7
  obtain ⟨t8, k8, -⟩ := setBlocking_some h8
  obtain ⟨s9, h9⟩ := close_ok e.fromctl.1 s8
  obtain ⟨t9, -, k9, -⟩ := close_some h9
  obtain ⟨s10, h10⟩ := close_ok 5 s9
  obtain ⟨t10, -, k10, -⟩ := close_some h10
  rw [t9, t8, t7, t6] at t10
  have kk : s10.fault = s.fault := by rw [k10, k9, k8, k7, k6, k5, k4, k3, k2, k1]
  have hlow : delayed = true → 6 < e.tochild.1 := by
    intro hd'
    false_or_by_contra
    exact hd hd' _ (by omega) low.1
  have low10 : delayed = true → ∃ x, look s10.t e.fromctl.2 = some x ∧ Low (look s10.t) 5 := by
    intro hd'
    have h6 := hlow hd'
    refine ⟨⟨.wr .fromchildcontrol, true⟩, ?_, by rw [t10, upd_same], fun k hk => ?_⟩
    · rw [t10]
      simp only [withPipes, upd]
      repeat rw [if_neg (by omega)]
      rw [if_pos trivial]
    · have hk' := hd hd' k (by omega)
      rw [t10, upd_ne _ (by omega), upd_ne _ (by omega)]
      by_cases c1 : k = 1
      · rw [c1, upd_same]
        exact nofun
      rw [upd_ne _ c1, upd_ne _ c1, upd_ne _ (by omega)]
      by_cases c0 : k = 0
      · rw [c0, upd_same]
        exact nofun
      rw [upd_ne _ c0, upd_ne _ c0, upd_ne _ (by omega)]
      simp only [withPipes, upd]
      repeat rw [if_neg (by omega)]
      exact hk'
  obtain ⟨s11, h11⟩ := control_ok (by rw [kk]; exact h _) low10
  obtain ⟨p11, q11⟩ := control_some h11
  obtain ⟨s12, h12⟩ := close_ok e.toctl.2 s11
  obtain ⟨t12, -, k12, -⟩ := close_some h12
  obtain ⟨s13, h13⟩ := close_ok 6 s12
  obtain ⟨t13, -, k13, -⟩ := close_some h13
  have kf : s13.fault s13.n = false := by
    rw [k13, k12]
    cases delayed with
    | false => rw [p11 rfl, kk]; exact h _
    | true =>
      obtain ⟨x, -, -, -, -, k⟩ := q11 rfl
      rw [k, kk]
      exact h _
  have low13 : delayed = true → ∃ x, look s13.t e.toctl.1 = some x ∧ Low (look s13.t) 6 := by
    intro hd'
    have h6 := hlow hd'
    obtain ⟨x11, y11, -, t11, -, -⟩ := q11 hd'
    rw [t12, t11, t10] at t13
    refine ⟨⟨.rd .tochildcontrol, true⟩, ?_, by rw [t13, upd_same], fun k hk => ?_⟩
    · rw [t13]
      simp only [withPipes, upd]
      repeat rw [if_neg (by omega)]
      rw [if_pos trivial]
    · have hk' := hd hd' k (by omega)
      rw [t13, upd_ne _ (by omega), upd_ne _ (by omega)]
      by_cases c5 : k = 5
      · rw [c5, upd_same]
        exact nofun
      rw [upd_ne _ c5, upd_ne _ c5, upd_ne _ (by omega)]
      by_cases c1 : k = 1
      · rw [c1, upd_same]
        exact nofun
      rw [upd_ne _ c1, upd_ne _ c1, upd_ne _ (by omega)]
      by_cases c0 : k = 0
      · rw [c0, upd_same]
        exact nofun
      rw [upd_ne _ c0, upd_ne _ c0, upd_ne _ (by omega)]
      simp only [withPipes, upd]
      repeat rw [if_neg (by omega)]
      exact hk'
  obtain ⟨s14, h14⟩ := control_ok kf low13
  refine ⟨s14, ?_⟩
  unfold childFds
  rw [bind_of h1, bind_of h2, bind_of h3, bind_of h4, bind_of h5, bind_of h6, bind_of h7, bind_of h8, bind_of h9,
    bind_of h10, bind_of h11, bind_of h12, bind_of h13, h14]

/-- C71: when no call fails, the program gets its descriptors: with a connection at 0,
and with 5 and 6 free if encryption is delayed. -/
theorem c71_starts (t : Fds) (blocking : Obj → Bool) (delayed : Bool) (h0 : look t 0 ≠ none)
    (hd : delayed = true → look t 5 = none ∧ look t 6 = none) :
    ∃ s, program delayed (start t blocking fun _ => false) = some ((), s) := by
  obtain ⟨e, s1, h1⟩ := beforeChild_ok delayed (start t blocking fun _ => false) (fun _ => rfl) hd
  obtain ⟨f, a1, a2, -, a3, a4, -, a6⟩ := beforeChild_some h1
  have hf : f 0 ≠ none := by
    intro c
    by_cases e : f 0 = look t 0
    · exact h0 (e ▸ c)
    · have := (a2 0 e).2.2
      rw [c] at this
      cases this
  obtain ⟨s2, h2⟩ := childFds_ok a3 (by rw [a6]; exact fun _ => rfl) hf a1 a4
  refine ⟨s2, ?_⟩
  unfold program
  rw [bind_of h1, h2]

/-- With 5 or 6 taken and encryption delayed, nothing is started. -/
theorem c71_taken {t : Fds} {blocking : Obj → Bool} {fault : Nat → Bool} (h : look t 5 ≠ none ∨ look t 6 ≠ none) :
    program true (start t blocking fault) = none := by
  cases hp : program true (start t blocking fault) with
  | none => rfl
  | some r =>
    obtain ⟨u, s⟩ := r
    obtain ⟨e, s1, h1, h2⟩ := bind_some hp
    obtain ⟨f, -, -, a, -⟩ := beforeChild_some h1
    obtain ⟨a5, a6⟩ := a rfl
    rcases h with h | h
    · exact absurd a5 h
    · exact absurd a6 h

/-! Concrete cases: started with 0, 1, 2 (a connection and a log) and 4 (close-on-exec)
and 7. -/

def sampleFds : Fds :=
  [some ⟨.inherited 0, false⟩, some ⟨.inherited 1, false⟩, some ⟨.inherited 2, false⟩, none, some ⟨.inherited 4, true⟩,
   none, none, some ⟨.inherited 7, false⟩]

example : Inherited sampleFds := by
  intro n e h
  match n, h with
  | 0, h | 1, h | 2, h | 4, h | 7, h => cases h; rfl
  | 3, h | 5, h | 6, h | _ + 8, h => cases h

/-- What the program finds at the numbers below `n`. -/
def sees (delayed : Bool) (t : Fds) (n : Nat) : Option (List (Option Obj)) :=
  (program delayed (start t (fun _ => true) fun _ => false)).map fun r => (List.range n).map (exec r.2)

example : sees false sampleFds 20 =
    some ([some (.rd .tochild), some (.wr .fromchild), some (.inherited 2), none, none, none, none, some (.inherited 7)] ++ List.replicate 12 none) := by
  decide +kernel

example : sees true sampleFds 20 =
    some ([some (.rd .tochild), some (.wr .fromchild), some (.inherited 2), none, none, some (.wr .fromchildcontrol), some (.rd .tochildcontrol), some (.inherited 7)] ++ List.replicate 12 none) := by
  simp only [sees, program, beforeChild, guard]
  decide +kernel

/-- Without a descriptor 0 the program is not started. -/
example : sees false [none, some ⟨.inherited 1, false⟩] 8 = none := by
  decide +kernel

/-! ### the wrapper after the first fork -/

/-- The numbers the wrapper keeps of the program's pipes. -/
structure Kept (t : Fds) (g : Nat → Option Ent) (e : Ends4) : Prop where
  mine : g e.tochild.2 = some ⟨.wr .tochild, true⟩ ∧ g e.fromchild.1 = some ⟨.rd .fromchild, true⟩ ∧
    g e.fromctl.1 = some ⟨.rd .fromchildcontrol, true⟩ ∧ g e.toctl.2 = some ⟨.wr .tochildcontrol, true⟩
  old : ∀ n x, look t n = some x → g n = some x
  only : ∀ n x, g n = some x → look t n = some x ∨ x.obj = .devnull ∨ x.obj = .random ∨
    n = e.tochild.2 ∨ n = e.fromchild.1 ∨ n = e.fromctl.1 ∨ n = e.toctl.2

theorem afterChild_some {f : Nat → Option Ent} {e : Ends4} {t : Fds} {s s' : S} {u} (hf : Fresh f e)
    (ha : ∀ n, f n ≠ look t n → look t n = none ∧ n ≤ 6 ∧ f n = some ⟨.devnull, true⟩)
    (ht : look s.t = withPipes f e) (h : afterChild e s = some (u, s')) :
    Kept t (look s'.t) e ∧ s'.fault = s.fault ∧
      s'.blocking = mode (mode (mode (mode s.blocking (.rd .fromchildcontrol) false) (.wr .tochildcontrol) false) (.rd .fromchild) false) (.wr .tochild) false := by
  obtain ⟨_, s1, h1, h⟩ := bind_some h
  obtain ⟨_, s2, h2, h⟩ := bind_some h
  obtain ⟨_, s3, h3, h⟩ := bind_some h
  obtain ⟨_, s4, h4, h⟩ := bind_some h
  obtain ⟨_, s5, h5, h⟩ := bind_some h
  obtain ⟨_, s6, h6, h⟩ := bind_some h
  obtain ⟨_, s7, h7, h⟩ := bind_some h
  obtain ⟨t1, m1, k1, -⟩ := close_some h1
  obtain ⟨t2, m2, k2, -⟩ := close_some h2
  obtain ⟨t3, m3, k3, -⟩ := close_some h3
  obtain ⟨t4, m4, k4, -⟩ := close_some h4
  obtain ⟨t5, k5, -, m5, -⟩ := setBlocking_some h5
  obtain ⟨t6, k6, -, m6, -⟩ := setBlocking_some h6
  obtain ⟨t7, k7, -, m7, -⟩ := setBlocking_some h7
  obtain ⟨t8, k8, -, m8, -⟩ := setBlocking_some h
  rw [t3, t2, t1, ht] at t4
  obtain ⟨i1, i2, i3, i4, i5, i6, i7, low, -, f1, f2, f3, f4, f5, f6, f7⟩ := hf
  have f0 := low.1
  have g1 : look s4.t e.tochild.2 = some ⟨.wr .tochild, true⟩ := by
    rw [t4]
    simp only [withPipes, upd]
    repeat rw [if_neg (by omega)]
    rw [if_pos trivial]
  have g2 : look s4.t e.fromchild.1 = some ⟨.rd .fromchild, true⟩ := by
    rw [t4]
    simp only [withPipes, upd]
    repeat rw [if_neg (by omega)]
    rw [if_pos trivial]
  have g3 : look s4.t e.fromctl.1 = some ⟨.rd .fromchildcontrol, true⟩ := by
    rw [t4]
    simp only [withPipes, upd]
    repeat rw [if_neg (by omega)]
    rw [if_pos trivial]
  have g4 : look s4.t e.toctl.2 = some ⟨.wr .tochildcontrol, true⟩ := by
    rw [t4]
    simp only [withPipes, upd]
    repeat rw [if_neg (by omega)]
    rw [if_pos trivial]
  have t8' : look s'.t = look s4.t := by rw [t8, t7, t6, t5]
  refine ⟨⟨?_, ?_, ?_⟩, by rw [k8, k7, k6, k5, k4, k3, k2, k1], ?_⟩
  · rw [t8']
    exact ⟨g1, g2, g3, g4⟩
  · intro n x hx
    have hfn : f n = some x := by
      by_cases c : f n = look t n
      · rw [c, hx]
      · have := (ha n c).1
        rw [hx] at this
        cases this
    rw [t8', t4]
    have ne : ∀ k, f k = none → n ≠ k := fun k hk c => by
      subst c
      rw [hfn] at hk
      cases hk
    simp only [withPipes, upd, if_neg (ne _ f0), if_neg (ne _ f1), if_neg (ne _ f2), if_neg (ne _ f3), if_neg (ne _ f4), if_neg (ne _ f5), if_neg (ne _ f6), if_neg (ne _ f7), hfn]
  · intro n x hx
    rw [t8', t4] at hx
    by_cases c : f n = look t n
    · simp only [withPipes, upd, c] at hx
      grind
    · obtain ⟨-, -, c⟩ := ha n c
      simp only [withPipes, upd, c] at hx
      grind
  · rw [m8 _ (by rw [t7, t6, t5]; exact g1), m7 _ (by rw [t6, t5]; exact g2), m6 _ (by rw [t5]; exact g4), m5 _ g3, m4, m3, m2, m1]

theorem random_some {t : Fds} {e : Ends4} {b : Bool} {s s' : S} {u} (hk : Kept t (look s.t) e) (h : random b s = some (u, s')) :
    Kept t (look s'.t) e ∧ s'.blocking = s.blocking ∧ s'.fault = s.fault := by
  cases b with
  | false =>
    obtain ⟨-, rfl⟩ := pure_some h
    exact ⟨hk, rfl, rfl⟩
  | true =>
    obtain ⟨r, s1, h1, h⟩ := bind_some h
    obtain ⟨-, rfl⟩ := pure_some h
    obtain ⟨l, t1, m1, k1, -⟩ := take_some h1
    obtain ⟨⟨g1, g2, g3, g4⟩, h1, h2⟩ := hk
    have ne : ∀ n x, look s.t n = some x → n ≠ r := fun n x hx c => by
      subst c
      rw [l.1] at hx
      cases hx
    refine ⟨⟨?_, ?_, ?_⟩, m1, k1⟩
    · rw [t1, upd_ne _ (ne _ _ g1), upd_ne _ (ne _ _ g2), upd_ne _ (ne _ _ g3), upd_ne _ (ne _ _ g4)]
      exact ⟨g1, g2, g3, g4⟩
    · intro n x hx
      rw [t1, upd_ne _ (ne _ _ (h1 n x hx))]
      exact h1 n x hx
    · intro n x hx
      rw [t1] at hx
      simp only [upd] at hx
      split at hx
      · cases hx
        exact .inr (.inr (.inl rfl))
      · exact h2 n x hx

/-- The tables of the wrapper at the second fork: `g` is before the two pipes. -/
theorem beforeKey_some {t : Fds} {blocking : Obj → Bool} {fault : Nat → Bool} {delayed rnd : Bool} {s : S} {e : Ends4} {f g : Nat × Nat}
    (h : beforeKey delayed rnd (start t blocking fault) = some ((e, f, g), s)) :
    ∃ k, Kept t k e ∧ k f.1 = none ∧ k f.2 = none ∧ k g.1 = none ∧ k g.2 = none ∧ f.1 < f.2 ∧ f.2 < g.1 ∧ g.1 < g.2 ∧
      look s.t = upd (upd (upd (upd k f.1 (some ⟨.rd .fromkeyjail, true⟩)) f.2 (some ⟨.wr .fromkeyjail, true⟩)) g.1 (some ⟨.rd .tokeyjail, true⟩)) g.2 (some ⟨.wr .tokeyjail, true⟩) ∧
      (∀ o, s.blocking o = match o with
        | .rd .tochild | .wr .tochild | .rd .fromchild | .wr .fromchild | .rd .fromchildcontrol | .wr .fromchildcontrol
        | .rd .tochildcontrol | .wr .tochildcontrol | .rd .fromkeyjail | .wr .fromkeyjail | .rd .tokeyjail | .wr .tokeyjail => false
        | o => blocking o) := by
  obtain ⟨e', s1, h1, h⟩ := bind_some h
  obtain ⟨_, s2, h2, h⟩ := bind_some h
  obtain ⟨_, s3, h3, h⟩ := bind_some h
  obtain ⟨f', s4, h4, h⟩ := bind_some h
  obtain ⟨g', s5, h5, h⟩ := bind_some h
  obtain ⟨_, s6, h6, h⟩ := bind_some h
  obtain ⟨he, rfl⟩ := pure_some h
  injection he with he hg
  injection hg with hf hg
  subst he
  subst hf
  subst hg
  obtain ⟨-, rfl⟩ := tick_some h6
  obtain ⟨fn, -, a2, -, a3, a4, a5, -⟩ := beforeChild_some h1
  obtain ⟨kp, -, b2⟩ := afterChild_some a3 a2 a4 h2
  obtain ⟨kp, c2, -⟩ := random_some kp h3
  obtain ⟨d1, d2, d3, t4, m4, -⟩ := openPipe_some h4
  obtain ⟨e1, e2, e3, t5, m5, -⟩ := openPipe_some h5
  rw [t4] at t5 e1 e2
  have lt := low_lt d2 e1
  refine ⟨look s3.t, kp, d1.1, ?_, ?_, ?_, d3, lt, e3, t5, ?_⟩
  · have := d2.1
    rwa [upd_ne _ (by omega)] at this
  · have := e1.1
    rwa [upd_ne _ (by omega), upd_ne _ (by omega)] at this
  · have := e2.1
    rwa [upd_ne _ (by omega), upd_ne _ (by omega), upd_ne _ (by omega)] at this
  · intro o
    have a5 : s1.blocking = pipeModes blocking := a5
    change s5.blocking o = _
    rw [m5, m4, c2, b2, a5]
    rcases o with _ | _ | _ | p | p
    · rfl
    · rfl
    · rfl
    · cases p <;> rfl
    · cases p <;> rfl

/- Specification: what the other two processes may hold. -/

/-- What the key process may hold at `n`: its request pipe, its answer pipe, and what
the wrapper was started with at numbers other than the connection's 0 and 1. -/
def KeyMayHold (t : Fds) (n : Nat) (o : Obj) : Prop :=
  o = .rd .tokeyjail ∨ o = .wr .fromkeyjail ∨ o = .devnull ∨ o = .random ∨
    (n ≠ 0 ∧ n ≠ 1 ∧ ∃ x, look t n = some x ∧ o = x.obj)

/-- C71: the key process, if it gets to work, reads requests at 0 and answers at 1, in
blocking mode; it holds neither the connection nor any end of a pipe of the
program, nor the network process's ends of its own pipes. -/
theorem c71_key {t : Fds} {blocking : Obj → Bool} {fault : Nat → Bool} {delayed rnd : Bool} {s : S} {u : Unit}
    (h : keyProcess delayed rnd (start t blocking fault) = some (u, s)) :
    (look s.t 0).map (·.obj) = some (.rd .tokeyjail) ∧ (look s.t 1).map (·.obj) = some (.wr .fromkeyjail) ∧
      (∀ n x, look s.t n = some x → KeyMayHold t n x.obj) ∧
      s.blocking (.rd .tokeyjail) = true ∧ s.blocking (.wr .fromkeyjail) = true := by
  obtain ⟨⟨e, f, g⟩, s0, h0, h⟩ := bind_some h
  obtain ⟨k, ⟨⟨g1, g2, g3, g4⟩, old, only⟩, n1, n2, n3, n4, l1, l2, l3, t0, -⟩ := beforeKey_some h0
  obtain ⟨_, s1, h1, h⟩ := bind_some h
  obtain ⟨_, s2, h2, h⟩ := bind_some h
  obtain ⟨_, s3, h3, h⟩ := bind_some h
  obtain ⟨_, s4, h4, h⟩ := bind_some h
  obtain ⟨_, s5, h5, h⟩ := bind_some h
  obtain ⟨_, s6, h6, h⟩ := bind_some h
  obtain ⟨_, s7, h7, h⟩ := bind_some h
  obtain ⟨_, s8, h8, h⟩ := bind_some h
  obtain ⟨_, s9, h9, h⟩ := bind_some h
  obtain ⟨_, s10, h10, h⟩ := bind_some h
  obtain ⟨_, s11, h11, h⟩ := bind_some h
  obtain ⟨t1, -⟩ := close_some h1
  obtain ⟨t2, -⟩ := close_some h2
  obtain ⟨t3, -⟩ := close_some h3
  obtain ⟨t4, -⟩ := close_some h4
  obtain ⟨t5, -⟩ := close_some h5
  obtain ⟨t6, -⟩ := close_some h6
  obtain ⟨t7, -⟩ := close_some h7
  obtain ⟨x8, y8, -, t8, -⟩ := dupTo_some h8
  obtain ⟨t9, -⟩ := close_some h9
  obtain ⟨x10, y10, -, t10, -⟩ := dupTo_some h10
  obtain ⟨t11, -, -, m11, -⟩ := setBlocking_some h11
  obtain ⟨t12, -, -, m12, -⟩ := setBlocking_some h
  rw [t6, t5, t4, t3, t2, t1, t0] at t7
  have ne : ∀ a b x, k a = none → k b = some x → a ≠ b := fun a b x ha hb c => by
    subst c
    rw [ha] at hb
    cases hb
  have z1 := ne _ _ _ n3 g1
  have z2 := ne _ _ _ n3 g2
  have z3 := ne _ _ _ n3 g3
  have z4 := ne _ _ _ n3 g4
  have w1 := ne _ _ _ n2 g1
  have w2 := ne _ _ _ n2 g2
  have w3 := ne _ _ _ n2 g3
  have w4 := ne _ _ _ n2 g4
  have hx8 : x8 = ⟨.rd .tokeyjail, true⟩ := by
    rw [t7] at y8
    simp only [upd] at y8
    repeat rw [if_neg (by omega)] at y8
    rw [if_pos trivial] at y8
    exact (Option.some.inj y8).symm
  subst hx8
  rw [t8, t7] at t9
  have hx10 : x10 = ⟨.wr .fromkeyjail, true⟩ := by
    rw [t9] at y10
    simp only [upd] at y10
    by_cases c : f.2 = 1
    · rw [if_pos c] at y10
      cases y10
    · repeat rw [if_neg (by omega)] at y10
      rw [if_pos trivial] at y10
      exact (Option.some.inj y10).symm
  subst hx10
  rw [t9] at t10
  have r0 : look s10.t 0 = some ⟨.rd .tokeyjail, false⟩ := by
    rw [t10, upd_ne _ (by omega), upd_ne _ (by omega), upd_same]
  have r1 : look s10.t 1 = some ⟨.wr .fromkeyjail, false⟩ := by
    rw [t10, upd_same]
  refine ⟨by rw [t12, t11, r0]; rfl, by rw [t12, t11, r1]; rfl, ?_, ?_, ?_⟩
  · intro n x hx
    rw [t12, t11, t10] at hx
    have hk := only n x
    by_cases c1 : n = 1
    · rw [c1, upd_same] at hx
      cases hx
      exact .inr (.inl rfl)
    rw [upd_ne _ c1, upd_ne _ c1] at hx
    by_cases c0 : n = 0
    · rw [c0, upd_same] at hx
      cases hx
      exact .inl rfl
    rw [upd_ne _ c0, upd_ne _ c0] at hx
    have step : ∀ (q : Nat → Option Ent) (m : Nat), upd q m none n = some x → n ≠ m ∧ q n = some x := by
      intro q m hq
      by_cases c : n = m
      · rw [c, upd_same] at hq
        cases hq
      · rw [upd_ne _ c] at hq
        exact ⟨c, hq⟩
    obtain ⟨d1, hx⟩ := step _ _ hx
    obtain ⟨d2, hx⟩ := step _ _ hx
    obtain ⟨d3, hx⟩ := step _ _ hx
    obtain ⟨d4, hx⟩ := step _ _ hx
    obtain ⟨d5, hx⟩ := step _ _ hx
    obtain ⟨d6, hx⟩ := step _ _ hx
    rw [upd_ne _ d5] at hx
    by_cases c2 : n = g.1
    · rw [c2, upd_same] at hx
      cases hx
      exact .inl rfl
    rw [upd_ne _ c2] at hx
    by_cases c3 : n = f.2
    · rw [c3, upd_same] at hx
      cases hx
      exact .inr (.inl rfl)
    rw [upd_ne _ c3, upd_ne _ d6] at hx
    rcases hk hx with o | o | o | o | o | o | o
    · exact .inr (.inr (.inr (.inr ⟨c0, c1, x, o, rfl⟩)))
    · exact .inr (.inr (.inl o))
    · exact .inr (.inr (.inr (.inl o)))
    · exact absurd o d1
    · exact absurd o d2
    · exact absurd o d4
    · exact absurd o d3
  · rw [m12 _ (by rw [t11]; exact r1), m11 _ r0]
    simp [mode]
  · rw [m12 _ (by rw [t11]; exact r1)]
    simp [mode]

/-- What the network process may hold at `n`: its own ends of the pipes, and what the
wrapper was started with. -/
def NetMayHold (t : Fds) (n : Nat) (o : Obj) : Prop :=
  o = .wr .tochild ∨ o = .rd .fromchild ∨ o = .rd .fromchildcontrol ∨ o = .wr .tochildcontrol ∨
    o = .rd .fromkeyjail ∨ o = .wr .tokeyjail ∨ o = .rd .selfpipe ∨ o = .wr .selfpipe ∨ o = .devnull ∨ o = .random ∨
    (∃ x, look t n = some x ∧ o = x.obj)

/-- C71: the network process holds of each pipe its own end only, and everything it was
started with; the mode of what it was started with is left alone, its ends of the
key process's pipes block, and those of the program's and its own pipe do not. -/
theorem c71_net {t : Fds} {blocking : Obj → Bool} {fault : Nat → Bool} {delayed rnd : Bool} {s : S} {u : Unit}
    (h : netProcess delayed rnd (start t blocking fault) = some (u, s)) :
    (∀ n x, look t n = some x → look s.t n = some x) ∧
      (∀ n x, look s.t n = some x → NetMayHold t n x.obj) ∧
      (∀ k, s.blocking (.inherited k) = blocking (.inherited k)) ∧
      s.blocking (.rd .fromkeyjail) = true ∧ s.blocking (.wr .tokeyjail) = true ∧
      s.blocking (.wr .tochild) = false ∧ s.blocking (.rd .fromchild) = false ∧
      s.blocking (.rd .fromchildcontrol) = false ∧ s.blocking (.wr .tochildcontrol) = false ∧
      s.blocking (.rd .selfpipe) = false ∧ s.blocking (.wr .selfpipe) = false := by
  obtain ⟨⟨e, f, g⟩, s0, h0, h⟩ := bind_some h
  obtain ⟨k, ⟨⟨g1, g2, g3, g4⟩, old, only⟩, n1, n2, n3, n4, l1, l2, l3, t0, m0⟩ := beforeKey_some h0
  obtain ⟨_, s1, h1, h⟩ := bind_some h
  obtain ⟨_, s2, h2, h⟩ := bind_some h
  obtain ⟨_, s3, h3, h⟩ := bind_some h
  obtain ⟨_, s4, h4, h⟩ := bind_some h
  obtain ⟨p, s5, h5, h⟩ := bind_some h
  obtain ⟨-, rfl⟩ := pure_some h
  obtain ⟨t1, m1, -⟩ := close_some h1
  obtain ⟨t2, m2, -⟩ := close_some h2
  obtain ⟨t3, -, -, m3, -⟩ := setBlocking_some h3
  obtain ⟨t4, -, -, m4, -⟩ := setBlocking_some h4
  obtain ⟨q1, q2, q3, t5, m5, -⟩ := openPipe_some h5
  rw [t1, t0] at t2
  have e3 : look s2.t f.1 = some ⟨.rd .fromkeyjail, true⟩ := by
    rw [t2]
    simp only [upd]
    repeat rw [if_neg (by omega)]
    rw [if_pos trivial]
  have e4 : look s2.t g.2 = some ⟨.wr .tokeyjail, true⟩ := by
    rw [t2]
    simp only [upd]
    repeat rw [if_neg (by omega)]
    rw [if_pos trivial]
  have m3 := m3 _ e3
  have m4 := m4 _ (by rw [t3]; exact e4)
  rw [t4, t3] at t5 q1 q2
  have hb : s5.blocking = mode (mode (mode (mode s0.blocking (.rd .fromkeyjail) true) (.wr .tokeyjail) true) (.rd .selfpipe) false) (.wr .selfpipe) false := by
    rw [m5, m4, m3, m2, m1]
  refine ⟨?_, ?_, ?_⟩
  · intro n x hx
    have hk := old n x hx
    have ne : ∀ a, k a = none → n ≠ a := fun a ha c => by
      subst c
      rw [ha] at hk
      cases hk
    have h2 : look s2.t n = some x := by
      rw [t2]
      simp only [upd, if_neg (ne _ n1), if_neg (ne _ n2), if_neg (ne _ n3), if_neg (ne _ n4), hk]
    have c1 : n ≠ p.1 := by
      rintro rfl
      rw [q1.1] at h2
      cases h2
    have c2 : n ≠ p.2 := by
      rintro rfl
      have := q2.1
      rw [upd_ne _ c1, h2] at this
      cases this
    rw [t5, upd_ne _ c2, upd_ne _ c1, h2]
  · intro n x hx
    rw [t5, t2] at hx
    have hk := only n x
    simp only [upd] at hx
    unfold NetMayHold
    grind
  · rw [hb]
    simp [mode, m0]

/-- C71: neither the program nor the key process can reach the connection, the
wrapper's 0 and 1, at any number. (An object that the wrapper was started with at a
further number too is one of its own here.) -/
theorem c71_connection {t : Fds} {blocking : Obj → Bool} {fault : Nat → Bool} {delayed rnd : Bool} {s s' : S} {u u' : Unit}
    (ht : Inherited t) (h : program delayed (start t blocking fault) = some (u, s))
    (h' : keyProcess delayed rnd (start t blocking fault) = some (u', s')) (n : Nat) :
    exec s n ≠ some (.inherited 0) ∧ exec s n ≠ some (.inherited 1) ∧
      ∀ x, look s'.t n = some x → x.obj ≠ .inherited 0 ∧ x.obj ≠ .inherited 1 := by
  have hp : ∀ k, k = 0 ∨ k = 1 → exec s n ≠ some (.inherited k) := by
    intro k hk c
    rw [(c71_program h n).1] at c
    unfold programSees at c
    repeat' split at c
    all_goals try (cases c; done)
    unfold survives at c
    split at c
    · rename_i o ho
      have := ht n _ ho
      cases c
      simp only at this
      cases this
      omega
    · cases c
  refine ⟨hp 0 (.inl rfl), hp 1 (.inr rfl), fun x hx => ?_⟩
  rcases (c71_key h').2.2.1 n x hx with o | o | o | o | ⟨c0, c1, y, hy, o⟩
  · rw [o]; exact ⟨nofun, nofun⟩
  · rw [o]; exact ⟨nofun, nofun⟩
  · rw [o]; exact ⟨nofun, nofun⟩
  · rw [o]; exact ⟨nofun, nofun⟩
  · rw [o, ht n y hy]
    constructor
    · intro c
      cases c
      exact c0 rfl
    · intro c
      cases c
      exact c1 rfl

example : (keyProcess false true (start sampleFds (fun _ => true) fun _ => false)).map (fun r => (List.range 12).map fun n => (look r.2.t n).map (·.obj)) =
    some [some (.rd .tokeyjail), some (.wr .fromkeyjail), some (.inherited 2), some .random, some (.inherited 4), none,
      none, some (.inherited 7), none, none, some (.wr .fromkeyjail), some (.rd .tokeyjail)] := by
  decide +kernel

example : ((netProcess false false (start sampleFds (fun _ => true) fun _ => false)).map fun r => (List.range 12).map fun n => (look r.2.t n).map (·.obj)) =
    some [some (.inherited 0), some (.inherited 1), some (.inherited 2), some (.rd .fromkeyjail), some (.inherited 4), some (.wr .tochild),
      some (.rd .fromchild), some (.inherited 7), some (.rd .selfpipe), some (.rd .fromchildcontrol), some (.wr .selfpipe), some (.wr .tokeyjail)] := by
  decide +kernel

end Main
