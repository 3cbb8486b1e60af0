import Verif.Main.Fds
/- What each step of Verif/Main/Fds.lean does to the table, seen through `look`. -/
namespace Main

theorem bind_some {α β} {x : D α} {f : α → D β} {s : S} {b : β} {s' : S} (h : (x >>= f) s = some (b, s')) :
    ∃ a s1, x s = some (a, s1) ∧ f a s1 = some (b, s') := by
  change D.bind x f s = _ at h
  unfold D.bind at h
  split at h
  · cases h
  · exact ⟨_, _, ‹_›, h⟩

theorem bind_of {α β} {x : D α} {f : α → D β} {s : S} {a : α} {s1 : S} (h : x s = some (a, s1)) :
    (x >>= f) s = f a s1 := by
  change D.bind x f s = _
  unfold D.bind
  rw [h]

theorem pure_some {α} {a b : α} {s s' : S} (h : (Pure.pure a : D α) s = some (b, s')) : a = b ∧ s = s' := by
  change some (a, s) = _ at h
  injection h with h
  injection h with h1 h2
  exact ⟨h1, h2⟩

theorem tick_some {s s' : S} {u} (h : tick s = some (u, s')) :
    s.fault s.n = false ∧ s' = { s with n := s.n + 1 } := by
  unfold tick at h
  cases hf : s.fault s.n with
  | true => rw [hf] at h; cases h
  | false =>
    rw [hf] at h
    injection h with h
    injection h with h1 h2
    exact ⟨rfl, h2.symm⟩

/-- `m` is the lowest free number. -/
def Low (f : Nat → Option Ent) (m : Nat) : Prop := f m = none ∧ ∀ k, k < m → f k ≠ none

theorem low_lowest (t : Fds) : Low (look t) (lowest t) := ⟨lowest_free t, fun k h => lowest_least t k h⟩

theorem low_unique {f : Nat → Option Ent} {m n : Nat} (h : Low f m) (h' : Low f n) : m = n := by
  rcases Nat.lt_trichotomy m n with h1 | h1 | h1
  · exact absurd h.1 (h'.2 m h1)
  · exact h1
  · exact absurd h'.1 (h.2 n h1)

/-- The table with one entry changed. -/
def upd (f : Nat → Option Ent) (n : Nat) (e : Option Ent) : Nat → Option Ent := fun m => if m = n then e else f m

theorem look_place' (t : Fds) (n : Nat) (e : Option Ent) : look (place t n e) = upd (look t) n e :=
  funext fun m => look_place t n m e

theorem close_some {n : Nat} {s s' : S} {u} (h : close n s = some (u, s')) :
    look s'.t = upd (look s.t) n none ∧ s'.blocking = s.blocking ∧ s'.fault = s.fault ∧ s'.n = s.n := by
  injection h with h
  injection h with h1 h2
  subst h2
  exact ⟨look_place' _ _ _, rfl, rfl, rfl⟩

theorem take_some {e : Ent} {s s' : S} {r} (h : take e s = some (r, s')) :
    Low (look s.t) r ∧ look s'.t = upd (look s.t) r (some e) ∧ s'.blocking = s.blocking ∧ s'.fault = s.fault ∧ s'.n = s.n := by
  injection h with h
  injection h with h1 h2
  subst h2
  subst h1
  exact ⟨low_lowest _, look_place' _ _ _, rfl, rfl, rfl⟩

/-- The modes with one changed. -/
def mode (f : Obj → Bool) (o : Obj) (b : Bool) : Obj → Bool := fun o' => if o' = o then b else f o'

theorem setBlocking_some {n : Nat} {b : Bool} {s s' : S} {u} (h : setBlocking n b s = some (u, s')) :
    look s'.t = look s.t ∧ s'.fault = s.fault ∧ s'.n = s.n ∧
      (∀ e, look s.t n = some e → s'.blocking = mode s.blocking e.obj b) ∧
      (look s.t n = none → s'.blocking = s.blocking) := by
  unfold setBlocking at h
  split at h
  · injection h with h
    injection h with h1 h2
    subst h2
    exact ⟨rfl, rfl, rfl, fun e he => by simp_all, fun _ => rfl⟩
  · rename_i e he
    injection h with h
    injection h with h1 h2
    subst h2
    refine ⟨rfl, rfl, rfl, fun e' he' => ?_, fun h => by simp_all⟩
    rw [he] at he'
    cases he'
    rfl

theorem upd_same (f : Nat → Option Ent) (n : Nat) (e : Option Ent) : upd f n e n = e := by simp [upd]

theorem upd_ne (f : Nat → Option Ent) {n m : Nat} (h : m ≠ n) (e : Option Ent) : upd f n e m = f m := by simp [upd, h]

theorem low_lt {f : Nat → Option Ent} {r w : Nat} {e : Ent} (h : Low f r) (h' : Low (upd f r (some e)) w) : r < w := by
  rcases Nat.lt_trichotomy r w with h1 | h1 | h1
  · exact h1
  · subst h1
    have := h'.1
    rw [upd_same] at this
    cases this
  · have := h'.1
    rw [upd_ne _ (by omega)] at this
    exact absurd this (h.2 w h1)

theorem openPipe_some {p : Pipes} {s s' : S} {r} (h : openPipe p s = some (r, s')) :
    Low (look s.t) r.1 ∧ Low (upd (look s.t) r.1 (some ⟨.rd p, true⟩)) r.2 ∧ r.1 < r.2 ∧
      look s'.t = upd (upd (look s.t) r.1 (some ⟨.rd p, true⟩)) r.2 (some ⟨.wr p, true⟩) ∧
      s'.blocking = mode (mode s.blocking (.rd p) false) (.wr p) false ∧ s'.fault = s.fault ∧
      s.fault s.n = false ∧ s'.n = s.n + 1 := by
  obtain ⟨_, s1, h1, h⟩ := bind_some h
  obtain ⟨a, s2, h2, h⟩ := bind_some h
  obtain ⟨b, s3, h3, h⟩ := bind_some h
  obtain ⟨_, s4, h4, h⟩ := bind_some h
  obtain ⟨_, s5, h5, h⟩ := bind_some h
  obtain ⟨rfl, rfl⟩ := pure_some h
  obtain ⟨f1, rfl⟩ := tick_some h1
  obtain ⟨l2, t2, b2, g2, n2⟩ := take_some h2
  obtain ⟨l3, t3, b3, g3, n3⟩ := take_some h3
  obtain ⟨t4, g4, n4, b4, -⟩ := setBlocking_some h4
  obtain ⟨t5, g5, n5, b5, -⟩ := setBlocking_some h5
  simp only at l2 t2 b2 g2 n2
  rw [t2] at l3 t3
  have hlt := low_lt l2 l3
  have ha : look s3.t a = some ⟨.rd p, true⟩ := by rw [t3, upd_ne _ (by omega), upd_same]
  have hb : look s4.t b = some ⟨.wr p, true⟩ := by rw [t4, t3, upd_same]
  refine ⟨l2, l3, hlt, by rw [t5, t4, t3], ?_, by rw [g5, g4, g3, g2], f1, by rw [n5, n4, n3, n2]⟩
  rw [b5 _ hb, b4 _ ha, b3, b2]

theorem dupTo_some {fd n : Nat} {s s' : S} {u} (h : dupTo fd n s = some (u, s')) :
    ∃ e, look s.t fd = some e ∧ Low (look s.t) n ∧ look s'.t = upd (look s.t) n (some ⟨e.obj, false⟩) ∧
      s'.blocking = s.blocking ∧ s'.fault = s.fault ∧ s.fault s.n = false ∧ s'.n = s.n + 1 := by
  obtain ⟨_, s1, h1, h⟩ := bind_some h
  obtain ⟨e, s2, h2, h⟩ := bind_some h
  obtain ⟨r, s3, h3, hk⟩ := bind_some h
  obtain ⟨f1, rfl⟩ := tick_some h1
  have h2 : (look s.t fd).map (·, { s with n := s.n + 1 }) = some (e, s2) := h2
  cases he : look s.t fd with
  | none => rw [he] at h2; cases h2
  | some e' =>
    rw [he] at h2
    injection h2 with h2
    injection h2 with h21 h22
    subst h21
    subst h22
    obtain ⟨l3, t3, b3, g3, n3⟩ := take_some h3
    by_cases hr : r = n
    · subst hr
      rw [if_pos rfl] at hk
      obtain ⟨-, rfl⟩ := pure_some hk
      exact ⟨e', rfl, l3, t3, b3, g3, f1, n3⟩
    · rw [if_neg hr] at hk
      cases hk

/-- The same, forwards. -/
theorem close_ok (n : Nat) (s : S) : ∃ s', close n s = some ((), s') := ⟨_, rfl⟩
theorem setBlocking_ok (n : Nat) (b : Bool) (s : S) : ∃ s', setBlocking n b s = some ((), s') := by
  unfold setBlocking
  split <;> exact ⟨_, rfl⟩

theorem openPipe_ok (p : Pipes) (s : S) (h : s.fault s.n = false) : ∃ r s', openPipe p s = some (r, s') := by
  have h1 : tick s = some ((), { s with n := s.n + 1 }) := by simp [tick, h]
  unfold openPipe
  rw [bind_of h1]
  rw [bind_of (show take _ _ = some (_, _) from rfl)]
  rw [bind_of (show take _ _ = some (_, _) from rfl)]
  obtain ⟨s', h'⟩ := setBlocking_ok (lowest s.t) false { s with n := s.n + 1, t := place (place s.t (lowest s.t) (some ⟨.rd p, true⟩)) (lowest (place s.t (lowest s.t) (some ⟨.rd p, true⟩))) (some ⟨.wr p, true⟩) }
  rw [bind_of h']
  obtain ⟨s'', h''⟩ := setBlocking_ok (lowest (place s.t (lowest s.t) (some ⟨.rd p, true⟩))) false s'
  rw [bind_of h'']
  exact ⟨_, _, rfl⟩

theorem dupTo_ok {fd n : Nat} {s : S} {e : Ent} (h : s.fault s.n = false) (he : look s.t fd = some e) (hn : Low (look s.t) n) :
    ∃ s', dupTo fd n s = some ((), s') := by
  have h1 : tick s = some ((), { s with n := s.n + 1 }) := by simp [tick, h]
  unfold dupTo
  rw [bind_of h1]
  rw [bind_of (a := e) (s1 := { s with n := s.n + 1 }) (by simp [he])]
  rw [bind_of (show take _ _ = some (_, _) from rfl)]
  rw [if_pos (low_unique (low_lowest _) hn)]
  exact ⟨_, rfl⟩

/-- What the loop at main_tlswrapper.c:1291-1295 achieves. -/
theorem guardLoop_some {s s' : S} {u} (h : guardLoop s = some (u, s')) :
    (∀ n, n ≤ 6 → look s'.t n ≠ none) ∧ (∀ n, look s'.t n ≠ look s.t n → look s.t n = none ∧ n ≤ 6 ∧ look s'.t n = some ⟨.devnull, true⟩) ∧
      s'.blocking = s.blocking ∧ s'.fault = s.fault := by
  fun_induction guardLoop s with
  | case1 => cases h
  | case2 s hf hl =>
    injection h with h
    injection h with h1 h2
    subst h2
    exact ⟨fun n hn => lowest_least s.t _ (by omega), fun n hn => absurd rfl hn, rfl, rfl⟩
  | case3 s hf hl ih =>
    obtain ⟨h1, h2, h3, h4⟩ := ih h
    refine ⟨h1, fun n hn => ?_, h3, h4⟩
    by_cases e : n = lowest s.t
    · subst e
      have h2' := h2 (lowest s.t)
      simp only [look_place, if_pos] at h2'
      refine ⟨lowest_free _, by omega, ?_⟩
      false_or_by_contra
      rename_i hc
      have := (h2' hc).1
      cases this
    · have h2' := h2 n
      simp only [look_place, if_neg e] at h2'
      exact h2' hn

theorem guardLoop_ok (s : S) (h : ∀ k, s.fault k = false) : ∃ s', guardLoop s = some ((), s') := by
  fun_induction guardLoop s with
  | case1 s hf => exact absurd hf (by simp [h])
  | case2 s hf hl => exact ⟨_, rfl⟩
  | case3 s hf hl ih => exact ih h

end Main
