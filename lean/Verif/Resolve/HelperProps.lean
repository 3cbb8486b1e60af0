import Verif.Resolve.Helper
import Verif.Resolve.Props
/-
C98: every lookup gets its own answer, and the resolver process ends with its user.
-/
namespace Resolve

/-- All lookups of a log were answered. -/
def Answered (l : List (Bytes × Option Bytes)) : Prop := ∀ e ∈ l, e.2 ≠ none

/-- The helper has exited. -/
def Helper.isDone (h : Helper) : Prop := ∃ c, h = .done c

/-- What is under way while no lookup has failed. -/
def Tidy (Rep : Bytes → Bytes → Prop) (s : Sys) : Prop :=
  match s.user with
  | .idle => s.up = [] ∧ s.down = []
  | .asked m => (s.up = [m] ∧ s.down = []) ∨ (s.up = [] ∧ ∃ r, s.down = [r] ∧ Rep m r) ∨
      (s.up = [] ∧ s.down = [] ∧ s.helper.isDone)
  | _ => True

structure Inv (Rep : Bytes → Bytes → Prop) (s : Sys) : Prop where
  tidy : Answered s.log → Tidy Rep s
  own : ∀ pre m r post, s.log = pre ++ (m, some r) :: post → Answered pre → Rep m r
  closing : s.user = .closing → s.helper.isDone ∨ ∃ us, s.up = us ++ [List.replicate 257 0]
  closed : s.user = .closed → s.helper.isDone

theorem answered_append {l : List (Bytes × Option Bytes)} {e} (h : Answered (l ++ [e])) : Answered l :=
  fun x hx => h x (by simp [hx])

theorem own_append {Rep : Bytes → Bytes → Prop} {l : List (Bytes × Option Bytes)} {e : Bytes × Option Bytes}
    (h : ∀ pre m r post, l = pre ++ (m, some r) :: post → Answered pre → Rep m r)
    (he : Answered l → ∀ r, e.2 = some r → Rep e.1 r) :
    ∀ pre m r post, l ++ [e] = pre ++ (m, some r) :: post → Answered pre → Rep m r := by
  intro pre m r post heq hp
  rcases List.eq_nil_or_concat post with rfl | ⟨post', x, rfl⟩
  · have : l = pre ∧ e = (m, some r) := by simpa using heq
    obtain ⟨rfl, rfl⟩ := this
    exact he hp r rfl
  · have : l ++ [e] = (pre ++ (m, some r) :: post') ++ [x] := by rw [heq]; simp
    have := List.append_inj_left' this rfl
    exact h pre m r post' this hp

/-- A step of the resolver process that moves no datagram. -/
theorem inv_move {Rep : Bytes → Bytes → Prop} {s t : Sys} (hi : Inv Rep s) (hd : ¬ s.helper.isDone)
    (h1 : t.user = s.user) (h2 : t.up = s.up) (h3 : t.down = s.down) (h4 : t.log = s.log) : Inv Rep t := by
  refine ⟨fun ha => ?_, by rw [h4]; exact hi.own, fun hc => ?_, fun hc => ?_⟩
  · have := hi.tidy (h4 ▸ ha)
    unfold Tidy at this ⊢
    rw [h1, h2, h3]
    cases hu : s.user with
    | idle => simp only [hu] at this ⊢; exact this
    | asked m =>
      simp only [hu] at this ⊢
      rcases this with h | h | ⟨-, -, h⟩
      · exact .inl h
      · exact .inr (.inl h)
      · exact absurd h hd
    | closing => trivial
    | unsent => trivial
    | closed => trivial
    | gone => trivial
  · rw [h1] at hc
    rw [h2]
    rcases hi.closing hc with h | h
    · exact absurd h hd
    · exact .inr h
  · rw [h1] at hc
    exact absurd (hi.closed hc) hd

theorem inv_step {Rep : Bytes → Bytes → Prop} {s t : Sys} (hi : Inv Rep s) (h : Step Rep s t) : Inv Rep t := by
  cases h with
  | fork hh => exact inv_move hi (by rintro ⟨c, h⟩; rw [hh] at h; cases h) rfl rfl rfl rfl
  | jailFails hh => exact inv_move hi (by rintro ⟨c, h⟩; rw [hh] at h; cases h) rfl rfl rfl rfl
  | checkOk hh hu => exact inv_move hi (by rintro ⟨c, h⟩; rw [hh] at h; cases h) rfl rfl rfl rfl
  | checkGone hh hk hu => exact inv_move hi (by rintro ⟨c, h⟩; rw [hh] at h; cases h) rfl rfl rfl rfl
  | nothing hh => exact inv_move hi (by rintro ⟨c, h⟩; rw [hh] at h; cases h) rfl rfl rfl rfl
  | recvFails hh => exact inv_move hi (by rintro ⟨c, h⟩; rw [hh] at h; cases h) rfl rfl rfl rfl
  | @serve m us r hh hup hs =>
    refine ⟨fun ha => ?_, hi.own, fun hc => ?_, fun hc => ?_⟩
    · have := hi.tidy ha
      unfold Tidy at this ⊢
      cases hu : s.user with
      | idle => simp only [hu] at this; rw [hup] at this; exact absurd this.1 (by simp)
      | asked q =>
        simp only [hu] at this ⊢
        rw [hup] at this
        rcases this with ⟨h1, h2⟩ | ⟨h1, -⟩ | ⟨h1, -⟩
        · cases h1
          refine .inr (.inl ⟨rfl, r, by rw [h2]; rfl, ?_⟩)
          cases hs with
          | reply _ _ _ hr => exact hr
        · simp at h1
        · simp at h1
      | closing => trivial
      | unsent => trivial
      | closed => trivial
      | gone => trivial
    · rcases hi.closing hc with ⟨c, h⟩ | ⟨ws, h⟩
      · rw [hh] at h; cases h
      · rw [hup] at h
        cases ws with
        | nil =>
          simp only [List.nil_append, List.cons.injEq] at h
          cases hs with
          | reply _ h1 h2 _ => rw [h.1, List.length_replicate] at h2; omega
        | cons w ws =>
          simp only [List.cons_append, List.cons.injEq] at h
          exact .inr ⟨ws, h.2⟩
    · obtain ⟨c, h⟩ := hi.closed hc
      rw [hh] at h; cases h
  | @stop m us c hh hup hs =>
    refine ⟨fun ha => ?_, hi.own, fun hc => .inl ⟨_, rfl⟩, fun hc => ⟨_, rfl⟩⟩
    have := hi.tidy ha
    unfold Tidy at this ⊢
    cases hu : s.user with
    | idle => simp only [hu] at this; rw [hup] at this; exact absurd this.1 (by simp)
    | asked q =>
      simp only [hu] at this ⊢
      rw [hup] at this
      rcases this with ⟨h1, h2⟩ | ⟨h1, -⟩ | ⟨h1, -⟩
      · cases h1
        exact .inr (.inr ⟨rfl, h2, c, rfl⟩)
      · simp at h1
      · simp at h1
    | closing => trivial
    | unsent => trivial
    | closed => trivial
    | gone => trivial
  | ask m hu hm =>
    refine ⟨fun ha => ?_, hi.own, (fun h => nomatch h), (fun h => nomatch h)⟩
    have := hi.tidy ha
    unfold Tidy at this ⊢
    simp only [hu] at this ⊢
    exact .inl ⟨by rw [this.1]; rfl, this.2⟩
  | askFails m hu hm =>
    refine ⟨fun ha => ?_, own_append hi.own (by simp), hi.closing, hi.closed⟩
    exact absurd rfl (ha (m, none) (by simp))
  | @answer m r ds hu hd =>
    have hr : Answered s.log → ds = [] ∧ s.up = [] ∧ Rep m r := by
      intro ha
      have := hi.tidy ha
      unfold Tidy at this
      simp only [hu] at this
      rw [hd] at this
      rcases this with ⟨-, h⟩ | ⟨h1, r', h2, h3⟩ | ⟨-, h, -⟩
      · simp at h
      · cases h2; exact ⟨rfl, h1, h3⟩
      · simp at h
    refine ⟨fun ha => ?_, own_append hi.own ?_, (fun h => nomatch h), (fun h => nomatch h)⟩
    · have := hr (answered_append ha)
      exact ⟨this.2.1, this.1⟩
    · intro ha r' e
      cases e
      exact (hr ha).2.2
  | @answerFails m hu =>
    refine ⟨fun ha => ?_, own_append hi.own (by simp), (fun h => nomatch h), (fun h => nomatch h)⟩
    exact absurd rfl (ha (m, none) (by simp))
  | close hu => exact ⟨fun _ => trivial, hi.own, fun _ => .inr ⟨s.up, rfl⟩, (fun h => nomatch h)⟩
  | closeFails hu => exact ⟨fun _ => trivial, hi.own, (fun h => nomatch h), (fun h => nomatch h)⟩
  | @reap c hu hh => exact ⟨fun _ => trivial, hi.own, (fun h => nomatch h), fun _ => ⟨c, hh⟩⟩
  | die => exact ⟨fun _ => trivial, hi.own, (fun h => nomatch h), (fun h => nomatch h)⟩

theorem inv_steps {Rep : Bytes → Bytes → Prop} {s : Sys} (h : Steps Rep .start s) : Inv Rep s := by
  generalize ha : Sys.start = a at h
  induction h with
  | refl =>
    subst ha
    exact ⟨fun _ => ⟨rfl, rfl⟩, by simp [Sys.start], (fun h => nomatch h), (fun h => nomatch h)⟩
  | tail _ h2 ih => exact inv_step ih h2

/-- **C98 (own answer).** In every interleaving of the two processes, a lookup that is answered is
answered with a reply to its own request, as long as no lookup before it has failed.
Missing for the full property: `c98_interrupted`. -/
theorem c98_own_answer_partial (Rep : Bytes → Bytes → Prop) (s : Sys) (h : Steps Rep .start s)
    (pre post : List (Bytes × Option Bytes)) (m r : Bytes) (hl : s.log = pre ++ (m, some r) :: post)
    (hp : Answered pre) : Rep m r := (inv_steps h).own pre m r post hl hp

/-- **C98 (own addresses).** Composed with the resolver process as it is (C34): the answer to the first
lookup of a name carries the addresses that the system's resolver has for that name. -/
theorem c98_addresses (gai : Bytes → Gai) (s : Sys)
    (h : Steps (fun m r => ∃ buf0 ip0 rnd, buf0.length = 257 ∧ ip0.length = 129 ∧
      helperReply buf0 ip0 m gai rnd = .ok r) .start s)
    (host tail m r : Bytes) (hn : NoNul host) (hm : request (cstr host tail) = .ok (some m))
    (post : List (Bytes × Option Bytes)) (hl : s.log = (m, some r) :: post)
    (as : List Answer) (hg : gai host = .list as) (hok : ∀ a ∈ as, a.Ok) :
    ∃ bs : List Bytes, r = UInt8.ofNat (16 * bs.length) :: bs.flatten ∧ bs.Perm (wanted as 8) := by
  obtain ⟨buf0, ip0, rnd, hb, hi, hr⟩ := c98_own_answer_partial _ s h [] post m r hl (by simp [Answered])
  rw [c34_request host tail hn] at hm
  split at hm
  · cases hm
  · next hlen =>
    cases hm
    obtain ⟨bs, e, p, -⟩ := c34_helper host buf0 ip0 hn (by omega) hb hi gai as hg hok rnd
    rw [e] at hr
    cases hr
    exact ⟨bs, rfl, p⟩

/-- **C98 (violation).** After a lookup that failed with its request already sent (a signal interrupted
the wait for the answer), the next lookup gets the answer to the previous request. (Both
programs give up at the first failed lookup.) -/
theorem c98_interrupted (Rep : Bytes → Bytes → Prop) (m1 m2 r1 : Bytes) (h1 : m1.length = 256)
    (h2 : m2.length = 256) (hr : Rep m1 r1) :
    ∃ s, Steps Rep .start s ∧ s.log = [(m1, none), (m2, some r1)] := by
  refine ⟨⟨.check, true, .idle, [m2], [], [(m1, none), (m2, some r1)]⟩, ?_, rfl⟩
  have a0 := Steps.tail (Steps.refl (Rep := Rep) (s := .start)) (.fork rfl)
  have a1 := a0.tail (.ask m1 rfl h1)
  have a2 := a1.tail (.answerFails rfl)
  have a3 := a2.tail (.checkOk rfl (by simp))
  have a4 := a3.tail (.serve rfl rfl (.reply r1 (by omega) (by omega) hr))
  have a5 := a4.tail (.ask m2 rfl h2)
  exact a5.tail (.answer rfl rfl)

/-- **C98 (closing).** resolvehost_close returns only when the resolver process has exited. Until then the
last datagram under way to it is the one that ends it: receiving that one, it exits with 0,
and it serves nothing after it. -/
theorem c98_close (Rep : Bytes → Bytes → Prop) (s : Sys) (h : Steps Rep .start s) :
    (s.user = .closed → ∃ c, s.helper = .done c) ∧
    (s.user = .closing → (∃ c, s.helper = .done c) ∨ ∃ us, s.up = us ++ [List.replicate 257 0]) ∧
    (∀ t m us, Step Rep s t → s.up = m :: us → t.up = us → m.length = 257 → t.helper = .done 0) := by
  refine ⟨(inv_steps h).closed, (inv_steps h).closing, ?_⟩
  intro t m us hst hup htu hm
  have hne : us ≠ m :: us := fun h => by have := congrArg List.length h; simp at this
  cases hst with
  | @serve m' us' r hh hu hs =>
    rw [hup] at hu; cases hu
    cases hs with
    | reply _ _ h2 _ => omega
  | @stop m' us' c hh hu hs =>
    rw [hup] at hu; cases hu
    cases hs with
    | long _ => rfl
    | empty h0 => omega
    | sendFails _ h2 => omega
  | ask m' _ _ => have := congrArg List.length htu; simp [hup] at this; omega
  | close _ =>
    have := congrArg List.length htu
    simp only [List.length_append, hup, List.length_cons] at this
    omega
  | checkOk _ _ => exact absurd (hup.symm.trans htu).symm hne
  | checkGone _ _ _ => exact absurd (hup.symm.trans htu).symm hne
  | nothing _ => exact absurd (hup.symm.trans htu).symm hne
  | recvFails _ => exact absurd (hup.symm.trans htu).symm hne
  | askFails _ _ _ => exact absurd (hup.symm.trans htu).symm hne
  | answer _ _ => exact absurd (hup.symm.trans htu).symm hne
  | answerFails _ => exact absurd (hup.symm.trans htu).symm hne
  | fork _ => exact absurd (hup.symm.trans htu).symm hne
  | jailFails _ => exact absurd (hup.symm.trans htu).symm hne
  | closeFails _ => exact absurd (hup.symm.trans htu).symm hne
  | reap _ _ => exact absurd (hup.symm.trans htu).symm hne
  | die => exact absurd (hup.symm.trans htu).symm hne

/-- Nothing of a program that has gone moves. -/
theorem gone_step {Rep : Bytes → Bytes → Prop} {s t : Sys} (h : Step Rep s t) (hg : s.user = .gone) :
    t = s ∨ (t.user = .gone ∧
      ((s.helper = .fork ∧ ((t.helper = .check ∧ t.known = false) ∨ t.helper = .done 111) ∧ t.down = s.down) ∨
       (s.helper = .check ∧ s.known = true ∧ t.helper = .done 0 ∧ t.known = true ∧ t.down = s.down) ∨
       (s.helper = .check ∧ s.known = false ∧ t.helper = .wait ∧ t.known = false ∧ t.down = s.down) ∨
       (s.helper = .wait ∧ (t.helper = .check ∨ ∃ c, t.helper = .done c) ∧ t.known = s.known ∧
          t.down.length ≤ s.down.length + 1))) := by
  cases h with
  | fork hh => exact .inr ⟨hg, .inl ⟨hh, .inl ⟨rfl, by simp [hg]⟩, rfl⟩⟩
  | jailFails hh => exact .inr ⟨hg, .inl ⟨hh, .inr rfl, rfl⟩⟩
  | checkOk hh hu =>
    have hk : s.known = false := by
      cases hk : s.known with
      | false => rfl
      | true => exact absurd hg (hu hk)
    exact .inr ⟨hg, .inr (.inr (.inl ⟨hh, hk, rfl, hk, rfl⟩))⟩
  | checkGone hh hk _ => exact .inr ⟨hg, .inr (.inl ⟨hh, hk, rfl, hk, rfl⟩)⟩
  | nothing hh => exact .inr ⟨hg, .inr (.inr (.inr ⟨hh, .inl rfl, rfl, Nat.le_succ _⟩))⟩
  | recvFails hh => exact .inr ⟨hg, .inr (.inr (.inr ⟨hh, .inr ⟨_, rfl⟩, rfl, Nat.le_succ _⟩))⟩
  | serve hh _ _ => exact .inr ⟨hg, .inr (.inr (.inr ⟨hh, .inl rfl, rfl, by simp⟩))⟩
  | stop hh _ _ => exact .inr ⟨hg, .inr (.inr (.inr ⟨hh, .inr ⟨_, rfl⟩, rfl, Nat.le_succ _⟩))⟩
  | ask m hu _ => rw [hg] at hu; cases hu
  | askFails _ hu _ => rw [hg] at hu; cases hu
  | answer hu _ => rw [hg] at hu; cases hu
  | answerFails hu => rw [hg] at hu; cases hu
  | close hu => rw [hg] at hu; cases hu
  | closeFails hu => rw [hg] at hu; cases hu
  | reap hu _ => rw [hg] at hu; rcases hu with hu | hu <;> cases hu
  | die => left; rw [← hg]

/-- **C98 (orphan).** When the program that asks has gone (even killed) while the resolver process knows
it as its parent, the resolver process does not stay: it sends at most one more answer, does
not wait again, and at its next look at its parent exits. Missing for the full property:
`c98_orphan_early`. -/
theorem c98_orphan_partial (Rep : Bytes → Bytes → Prop) (s t : Sys) (h : Steps Rep s t) (hg : s.user = .gone)
    (hk : s.known = true) (hf : s.helper ≠ .fork) :
    t.down.length ≤ s.down.length + 1 ∧ (t.helper = .wait → t = s) ∧
    (∀ u, Step Rep t u → t.helper = .check → u = t ∨ u.helper = .done 0) := by
  have key : t = s ∨ (t.user = .gone ∧ t.known = true ∧
      ((t.helper = .check ∧ t.down.length ≤ s.down.length + 1) ∨
       (∃ c, t.helper = .done c) ∧ t.down.length ≤ s.down.length + 1)) := by
    induction h with
    | refl => exact .inl rfl
    | @tail t u _ h2 ih =>
      rcases ih with rfl | ⟨g, k, ih⟩
      · rcases gone_step h2 hg with h | ⟨g, h⟩
        · exact .inl h
        · right
          rcases h with ⟨h, -⟩ | ⟨-, -, h, h', h''⟩ | ⟨-, h, -⟩ | ⟨-, h, h', h''⟩
          · exact absurd h hf
          · exact ⟨g, h', .inr ⟨⟨_, h⟩, by rw [h'']; exact Nat.le_succ _⟩⟩
          · rw [hk] at h; cases h
          · refine ⟨g, h'.trans hk, ?_⟩
            rcases h with h | h
            · exact .inl ⟨h, h''⟩
            · exact .inr ⟨h, h''⟩
      · right
        rcases gone_step h2 g with h | ⟨g', h⟩
        · rw [h]; exact ⟨g, k, ih⟩
        · rcases ih with ⟨hc, hl⟩ | ⟨⟨c, hc⟩, hl⟩
          · rcases h with ⟨h, -⟩ | ⟨-, -, h, h', h''⟩ | ⟨-, h, -⟩ | ⟨h, -⟩
            · rw [hc] at h; cases h
            · exact ⟨g', h', .inr ⟨⟨_, h⟩, by rw [h'']; exact hl⟩⟩
            · rw [k] at h; cases h
            · rw [hc] at h; cases h
          · rcases h with ⟨h, -⟩ | ⟨h, -⟩ | ⟨h, -⟩ | ⟨h, -⟩ <;> rw [hc] at h <;> cases h
  have hgk : t.user = .gone ∧ t.known = true := by
    rcases key with rfl | ⟨a, b, -⟩
    · exact ⟨hg, hk⟩
    · exact ⟨a, b⟩
  refine ⟨?_, ?_, ?_⟩
  · rcases key with rfl | ⟨-, -, h | h⟩
    · exact Nat.le_succ _
    · exact h.2
    · exact h.2
  · intro hw
    rcases key with h | ⟨-, -, ⟨h, -⟩ | ⟨⟨c, h⟩, -⟩⟩
    · exact h
    · rw [hw] at h; cases h
    · rw [hw] at h; cases h
  · intro u hu hc
    rcases gone_step hu hgk.1 with h | ⟨-, ⟨h, -⟩ | ⟨-, -, h, -⟩ | ⟨-, h, -⟩ | ⟨h, -⟩⟩
    · exact .inl h
    · rw [hc] at h; cases h
    · exact .inr h
    · rw [hgk.2] at h; cases h
    · rw [hc] at h; cases h

/-- The resolver process knows the program that asks from its first look at its parent on, unless that
program had gone by then. -/
theorem c98_known (Rep : Bytes → Bytes → Prop) (s : Sys) (h : Steps Rep .start s) (hu : s.user ≠ .gone) :
    s.helper = .fork ∨ s.helper = .done 111 ∨ s.known = true := by
  generalize ha : Sys.start = a at h
  induction h with
  | refl => subst ha; exact .inl rfl
  | @tail t u _ h2 ih =>
    subst ha
    cases h2 with
    | fork hh => right; right; simpa using hu
    | jailFails hh => exact .inr (.inl rfl)
    | recvFails hh => exact .inr (.inl rfl)
    | die => exact absurd rfl hu
    | checkOk hh _ => rcases ih hu with h | h | h <;> first | exact .inr (.inr h) | (rw [hh] at h; cases h)
    | checkGone hh hk _ => exact .inr (.inr hk)
    | nothing hh => rcases ih hu with h | h | h <;> first | exact .inr (.inr h) | (rw [hh] at h; cases h)
    | serve hh _ _ => rcases ih hu with h | h | h <;> first | exact .inr (.inr h) | (rw [hh] at h; cases h)
    | stop hh _ _ => rcases ih hu with h | h | h <;> first | exact .inr (.inr h) | (rw [hh] at h; cases h)
    | ask _ h _ => exact ih (by rw [h]; simp)
    | askFails _ h _ => exact ih (by rw [h]; simp)
    | answer h _ => exact ih (by rw [h]; simp)
    | answerFails h => exact ih (by rw [h]; simp)
    | close h => exact ih (by rw [h]; simp)
    | closeFails h => exact ih (by rw [h]; simp)
    | reap h _ => exact ih (by rcases h with h | h <;> rw [h] <;> simp)

/-- **C98 (violation).** If the program that asks goes before the resolver process has asked for its
parent's number, the resolver process takes init for it, and stays: nothing but a failure of
receiving ends it. -/
theorem c98_orphan_early (Rep : Bytes → Bytes → Prop) :
    ∃ s, Steps Rep .start s ∧ s.user = .gone ∧ ∀ t, Steps Rep s t →
      t.helper = .check ∨ t.helper = .wait ∨ t.helper = .done 111 := by
  have a1 := Steps.tail (Steps.refl (Rep := Rep) (s := .start)) .die
  have a2 := a1.tail (.fork rfl)
  refine ⟨_, a2, rfl, fun t ht => ?_⟩
  have key : t.user = .gone ∧ t.known = false ∧ t.up = [] ∧
      (t.helper = .check ∨ t.helper = .wait ∨ t.helper = .done 111) := by
    induction ht with
    | refl => exact ⟨rfl, rfl, rfl, .inl rfl⟩
    | @tail t u _ h2 ih =>
      obtain ⟨g, k, hup, ih⟩ := ih
      cases h2 with
      | fork hh => rcases ih with h | h | h <;> rw [h] at hh <;> cases hh
      | jailFails hh => exact ⟨g, k, hup, .inr (.inr rfl)⟩
      | checkOk _ _ => exact ⟨g, k, hup, .inr (.inl rfl)⟩
      | checkGone _ hk _ => rw [k] at hk; cases hk
      | nothing _ => exact ⟨g, k, hup, .inl rfl⟩
      | recvFails _ => exact ⟨g, k, hup, .inr (.inr rfl)⟩
      | serve _ h _ => rw [hup] at h; cases h
      | stop _ h _ => rw [hup] at h; cases h
      | ask m hu _ => rw [g] at hu; cases hu
      | askFails _ hu _ => rw [g] at hu; cases hu
      | answer hu _ => rw [g] at hu; cases hu
      | answerFails hu => rw [g] at hu; cases hu
      | close hu => rw [g] at hu; cases hu
      | closeFails hu => rw [g] at hu; cases hu
      | reap hu _ => rw [g] at hu; rcases hu with hu | hu <;> cases hu
      | die => exact ⟨rfl, k, hup, ih⟩
  exact key.2.2.2

/-- **C98 (violation).** resolvehost_close does not look whether its datagram was sent. If it was not, it waits for
a process that has no reason to exit: it returns only if receiving fails there. -/
theorem c98_close_unsent (Rep : Bytes → Bytes → Prop) :
    ∃ s, Steps Rep .start s ∧ s.user = .unsent ∧ ∀ t, Steps Rep s t →
      (t.user = .unsent ∧ (t.helper = .check ∨ t.helper = .wait)) ∨ t.helper = .done 111 ∨ t.user = .gone := by
  have a1 := Steps.tail (Steps.refl (Rep := Rep) (s := .start)) (.fork rfl)
  have a2 := a1.tail (.closeFails rfl)
  refine ⟨_, a2, rfl, fun t ht => ?_⟩
  have key : t.up = [] ∧ ((t.user = .unsent ∧ (t.helper = .check ∨ t.helper = .wait)) ∨
      t.helper = .done 111 ∧ (t.user = .unsent ∨ t.user = .closed) ∨ t.user = .gone) := by
    induction ht with
    | refl => exact ⟨rfl, .inl ⟨rfl, .inl rfl⟩⟩
    | @tail t u _ h2 ih =>
      obtain ⟨hup, ih⟩ := ih
      have nidle : t.user ≠ .idle ∧ ∀ m, t.user ≠ .asked m := by
        rcases ih with ⟨h, -⟩ | ⟨-, h | h⟩ | h <;> rw [h] <;> simp
      cases h2 with
      | fork hh =>
        rcases ih with ⟨-, h | h⟩ | ⟨h, -⟩ | h
        · rw [h] at hh; cases hh
        · rw [h] at hh; cases hh
        · rw [h] at hh; cases hh
        · exact ⟨hup, .inr (.inr h)⟩
      | jailFails hh =>
        rcases ih with ⟨-, h | h⟩ | ⟨h, -⟩ | h
        · rw [h] at hh; cases hh
        · rw [h] at hh; cases hh
        · rw [h] at hh; cases hh
        · exact ⟨hup, .inr (.inr h)⟩
      | checkOk hh _ =>
        rcases ih with ⟨h, -⟩ | ⟨h, -⟩ | h
        · exact ⟨hup, .inl ⟨h, .inr rfl⟩⟩
        · rw [h] at hh; cases hh
        · exact ⟨hup, .inr (.inr h)⟩
      | checkGone _ _ hg => exact ⟨hup, .inr (.inr hg)⟩
      | nothing hh =>
        rcases ih with ⟨h, -⟩ | ⟨h, -⟩ | h
        · exact ⟨hup, .inl ⟨h, .inl rfl⟩⟩
        · rw [h] at hh; cases hh
        · exact ⟨hup, .inr (.inr h)⟩
      | recvFails hh =>
        rcases ih with ⟨h, -⟩ | ⟨h, -⟩ | h
        · exact ⟨hup, .inr (.inl ⟨rfl, .inl h⟩)⟩
        · rw [h] at hh; cases hh
        · exact ⟨hup, .inr (.inr h)⟩
      | serve _ h _ => rw [hup] at h; cases h
      | stop _ h _ => rw [hup] at h; cases h
      | ask m hu _ => exact absurd hu nidle.1
      | askFails _ hu _ => exact absurd hu nidle.1
      | answer hu _ => exact absurd hu (nidle.2 _)
      | answerFails hu => exact absurd hu (nidle.2 _)
      | close hu => exact absurd hu nidle.1
      | closeFails hu => exact absurd hu nidle.1
      | reap hu hh =>
        rcases ih with ⟨-, h | h⟩ | ⟨h, -⟩ | h
        · rw [h] at hh; cases hh
        · rw [h] at hh; cases hh
        · exact ⟨hup, .inr (.inl ⟨h, .inr rfl⟩)⟩
        · rw [h] at hu; rcases hu with hu | hu <;> cases hu
      | die => exact ⟨hup, .inr (.inr rfl)⟩
  rcases key.2 with h | h | h
  · exact .inl h
  · exact .inr (.inl h.1)
  · exact .inr (.inr h)

/-- **C98 (no standstill).** Neither process gets stuck: the resolver process can receive whatever datagram is first
in its socket, goes from its check to waiting or to its exit, an answer that has arrived is
returned, and resolvehost_close returns once the process has exited. -/
theorem c98_progress (Rep : Bytes → Bytes → Prop) (htot : ∀ m, ∃ r, Rep m r) (s : Sys) :
    (∀ m us, s.helper = .wait → s.up = m :: us → ∃ t, Step Rep s t ∧ t.up = us ∧
      (m.length = 257 → t.helper = .done 0) ∧
      (m.length = 256 → ∃ r, Rep m r ∧ t.down = s.down ++ [r] ∧ t.helper = .check)) ∧
    (s.helper = .check → ∃ t, Step Rep s t ∧ (t.helper = .wait ∨ t.helper = .done 0)) ∧
    (∀ m r ds, s.user = .asked m → s.down = r :: ds →
      ∃ t, Step Rep s t ∧ t.user = .idle ∧ t.log = s.log ++ [(m, some r)]) ∧
    (∀ c, s.user = .closing ∨ s.user = .unsent → s.helper = .done c → ∃ t, Step Rep s t ∧ t.user = .closed) := by
  refine ⟨?_, ?_, ?_, ?_⟩
  · intro m us hh hup
    by_cases h0 : m.length = 0
    · exact ⟨_, .stop hh hup (.empty h0), rfl, by omega, by omega⟩
    · by_cases h1 : m.length < 257
      · obtain ⟨r, hr⟩ := htot m
        exact ⟨_, .serve hh hup (.reply r (by omega) h1 hr), rfl, by omega, fun _ => ⟨r, hr, rfl, rfl⟩⟩
      · exact ⟨_, .stop hh hup (.long (by omega)), rfl, fun _ => rfl, by omega⟩
  · intro hh
    by_cases hk : s.known = true → s.user ≠ .gone
    · exact ⟨_, .checkOk hh hk, .inl rfl⟩
    · have : s.known = true ∧ s.user = .gone := by
        refine ⟨Classical.byContradiction fun h => hk fun h' => absurd h' h, Classical.byContradiction fun h => hk fun _ => h⟩
      exact ⟨_, .checkGone hh this.1 this.2, .inr rfl⟩
  · intro m r ds hu hd
    exact ⟨_, .answer hu hd, rfl, rfl⟩
  · intro c hu hh
    exact ⟨_, .reap hu hh, rfl⟩

/-- A lookup that is answered, then resolvehost_close to its end. -/
example (Rep : Bytes → Bytes → Prop) (m r : Bytes) (hm : m.length = 256) (hr : Rep m r) :
    Steps Rep .start ⟨.done 0, true, .closed, [], [], [(m, some r)]⟩ := by
  have a0 := Steps.tail (Steps.refl (Rep := Rep) (s := .start)) (.fork rfl)
  have a1 := a0.tail (.ask m rfl hm)
  have a2 := a1.tail (.checkOk rfl (by simp))
  have a3 := a2.tail (.serve rfl rfl (.reply r (by omega) (by omega) hr))
  have a4 := a3.tail (.answer rfl rfl)
  have a5 := a4.tail (.close rfl)
  have a6 := a5.tail (.checkOk rfl (by simp))
  have a7 := a6.tail (.stop rfl rfl (.long (by rw [List.length_replicate]; exact Nat.le_refl _)))
  exact a7.tail (.reap (.inl rfl) rfl)

/-- The program that asks is killed while its request is being served: the state `c98_orphan_partial`
speaks of, and a run from it in which one more answer is sent before the exit. -/
example (Rep : Bytes → Bytes → Prop) (m r : Bytes) (hm : m.length = 256) (hr : Rep m r) :
    ∃ s, Steps Rep .start s ∧ s.user = .gone ∧ s.known = true ∧ s.helper ≠ .fork ∧
      Steps Rep s ⟨.done 0, true, .gone, [], [r], []⟩ := by
  have a0 := Steps.tail (Steps.refl (Rep := Rep) (s := .start)) (.fork rfl)
  have a1 := a0.tail (.ask m rfl hm)
  have a2 := a1.tail (.checkOk rfl (by simp))
  refine ⟨_, a2.tail .die, rfl, rfl, by simp, ?_⟩
  have b1 := Steps.tail (Steps.refl (Rep := Rep) (s := ⟨.wait, true, .gone, [m], [], []⟩))
    (.serve rfl rfl (.reply r (by omega) (by omega) hr))
  exact b1.tail (.checkGone rfl rfl rfl)

end Resolve
