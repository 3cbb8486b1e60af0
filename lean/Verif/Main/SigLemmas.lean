import Verif.Main.Sig
/-
Invariants of the signal model. Nothing here is trusted.
-/
namespace Sig

/-- This handler still has its byte to write. -/
def Unwritten (f : Frame) : Bool :=
  match f.pc with
  | .write => true
  | .test w => w = -1 ∧ f.mine = EINTR

/-- Each handler saved errno as the code below it last left it. -/
def Links : Int → List Frame → Int → Prop
  | e, [], b => e = b
  | e, f :: fs, b => e = f.mine ∧ Links f.saved fs b

structure Inv (b : Int) (t : St) : Prop where
  links : Links t.errno t.frames b
  count : ∀ x, t.sent.count x =
    t.wrote.count x + t.lost.count x + ((t.frames.filter Unwritten).map Frame.ch).count x
  fifo : match t.pipe with
    | none => t.wrote = [] ∧ t.got = []
    | some q => t.got ++ q = t.wrote
  pcs : ∀ f ∈ t.frames, ∀ w, f.pc = .test w → w = 1 ∨ w = -1

theorem inv_init : Inv 0 St.init :=
  ⟨rfl, fun _ => rfl, ⟨rfl, rfl⟩, fun _ h => nomatch h⟩

theorem run_append (p : Prog) (cap : Nat) (h1 h2 : List Ev) (t : St) :
    run p cap t (h1 ++ h2) = (run p cap t h1).bind fun t' => run p cap t' h2 := by
  induction h1 generalizing t with
  | nil => rfl
  | cons e es ih =>
    simp only [List.cons_append, run]
    cases step p cap t e with
    | none => rfl
    | some t' => exact ih t'

theorem acts_append (h1 h2 : List Ev) : acts (h1 ++ h2) = acts h1 ++ acts h2 := by
  induction h1 with
  | nil => rfl
  | cons e es ih => cases e <;> simp [acts, ih]

theorem inv_act {b : Int} {t : St} (a : Act) (hi : Inv b t) (hf : t.frames = [])
    (hp : a = .pipe → t.pipe = none) : Inv (errnoOf b [a]) (act t a) := by
  obtain ⟨h1, h2, h3, h4⟩ := hi
  cases a with
  | handle s => exact ⟨h1, h2, h3, h4⟩
  | dflt s => exact ⟨h1, h2, h3, h4⟩
  | fork pid => exact ⟨h1, h2, h3, h4⟩
  | pipe =>
    rw [hp rfl] at h3
    exact ⟨h1, h2, by simp [act, h3], h4⟩
  | read =>
    simp only [act, errnoOf]
    split
    · next c rest e =>
      rw [e] at h3
      exact ⟨h1, h2, by simpa using h3, h4⟩
    · exact ⟨h1, h2, h3, h4⟩
  | other e =>
    refine ⟨?_, h2, h3, h4⟩
    simp [act, hf, Links, errnoOf]

theorem inv_step {p : Prog} {cap : Nat} {b : Int} {t t' : St} (e : Ev) (hi : Inv b t)
    (hs : step p cap t e = some t') (hp : e = .main .pipe → t.pipe = none) :
    Inv (errnoOf b (acts [e])) t' := by
  unfold step at hs
  split at hs
  · simp at hs
  cases e with
  | raise s pid =>
    dsimp only at hs
    split at hs <;> cases hs
    · exact hi
    · exact ⟨hi.1, hi.2, hi.3, hi.4⟩
  | deliver s =>
    dsimp only at hs
    split at hs
    · cases hs
    · split at hs
      · cases hs
      · split at hs
        · cases hs
          refine ⟨⟨rfl, hi.1⟩, ?_, hi.3, ?_⟩
          · intro x
            have := hi.count x
            simp only [List.count_append, this, List.filter_cons, Unwritten, if_true, List.map_cons,
              List.count_cons, List.count_nil]
            omega
          · intro f hf w hw
            rcases List.mem_cons.mp hf with rfl | hf
            · cases hw
            · exact hi.pcs f hf w hw
        · split at hs <;> cases hs
          · exact ⟨hi.1, hi.2, hi.3, hi.4⟩
          · exact ⟨hi.1, hi.2, hi.3, hi.4⟩
  | write intr =>
    dsimp only at hs
    split at hs
    · next f fs hfs =>
      split at hs
      · next hpc =>
        obtain ⟨h1, h2, h3, h4⟩ := hi
        rw [hfs] at h1 h2 h4
        have hu : Unwritten f = true := by simp [Unwritten, hpc]
        have hout : ∀ r : Int, r = 1 ∨ r = -1 → ∀ m, ∀ g ∈ ({ f with pc := .test r, mine := m } : Frame) :: fs,
            ∀ w, g.pc = .test w → w = 1 ∨ w = -1 := by
          intro r hr m g hg w hw
          rcases List.mem_cons.mp hg with rfl | hg
          · cases hw; exact hr
          · exact h4 g (List.mem_cons_of_mem _ hg) w hw
        simp only [List.filter_cons, hu, if_true, List.map_cons, List.count_cons, beq_iff_eq] at h2
        cases hq : t.pipe with
        | none =>
          simp only [writeByte, hq] at hs
          rw [if_neg (by decide), if_neg (by decide)] at hs
          cases hs
          rw [hq] at h3
          refine ⟨⟨rfl, h1.2⟩, ?_, h3, hout _ (.inr rfl) _⟩
          intro x
          have := h2 x
          simp only [List.count_append, List.filter_cons, Unwritten, List.count_cons, List.count_nil]
          simp [EBADF, EINTR]
          omega
        | some q =>
          rw [hq] at h3
          simp only [writeByte, hq] at hs
          by_cases hintr : intr = true
          · simp only [hintr, if_true] at hs
            rw [if_neg (by decide)] at hs
            cases hs
            refine ⟨⟨rfl, h1.2⟩, ?_, h3, hout _ (.inr rfl) _⟩
            intro x
            have := h2 x
            simp only [List.filter_cons, Unwritten]
            simp [this, List.count_cons]
          · rw [if_neg hintr] at hs
            by_cases hcap : q.length < cap
            · rw [if_pos hcap] at hs
              simp only [if_true] at hs
              cases hs
              refine ⟨⟨rfl, h1.2⟩, ?_, ?_, hout _ (.inl rfl) _⟩
              · intro x
                have := h2 x
                simp only [List.count_append, List.filter_cons, Unwritten, List.count_cons, List.count_nil]
                simp
                omega
              · simp only [← List.append_assoc, h3]
            · rw [if_neg hcap] at hs
              dsimp only at hs
              rw [if_neg (by decide), if_neg (by decide)] at hs
              cases hs
              refine ⟨⟨rfl, h1.2⟩, ?_, h3, hout _ (.inr rfl) _⟩
              intro x
              have := h2 x
              simp only [List.count_append, List.filter_cons, Unwritten, List.count_cons, List.count_nil]
              simp [EAGAIN, EINTR]
              omega
      · cases hs
    · cases hs
  | test =>
    dsimp only at hs
    split at hs
    · next f fs hfs =>
      obtain ⟨h1, h2, h3, h4⟩ := hi
      rw [hfs] at h1 h2 h4
      split at hs
      · cases hs
      · next w hpc =>
        have hm : t.errno = f.mine := h1.1
        split at hs
        · next hc =>
          cases hs
          refine ⟨⟨hm, h1.2⟩, ?_, h3, ?_⟩
          · intro x
            have := h2 x
            have hu : Unwritten f = true := by simp [Unwritten, hpc, hc.1, ← hm, hc.2]
            simp only [List.filter_cons, hu, if_true, List.map_cons] at this
            simp only [List.filter_cons, Unwritten, if_true, List.map_cons]
            exact this
          · intro g hg w' hw
            rcases List.mem_cons.mp hg with rfl | hg
            · cases hw
            · exact h4 g (List.mem_cons_of_mem _ hg) w' hw
        · next hc =>
          cases hs
          refine ⟨h1.2, ?_, h3, fun g hg => h4 g (List.mem_cons_of_mem _ hg)⟩
          intro x
          have := h2 x
          have hu : Unwritten f = false := by
            simp only [Unwritten, hpc]
            rw [hm] at hc
            simpa using hc
          simpa only [List.filter_cons, hu, Bool.false_eq_true, if_false] using this
    · cases hs
  | main a =>
    dsimp only at hs
    split at hs
    · next hf => cases hs; exact inv_act a hi hf (fun h => hp (h ▸ rfl))
    · cases hs

/-- The pipe is made at most once, and not if it is there already. -/
def OncePipe (t : St) (as : List Act) : Prop :=
  as.count .pipe + (if t.pipe.isSome then 1 else 0) ≤ 1

theorem step_pipe {p : Prog} {cap : Nat} {t t' : St} (e : Ev) (hs : step p cap t e = some t')
    (he : e ≠ .main .pipe) : t'.pipe.isSome = t.pipe.isSome := by
  unfold step at hs
  split at hs
  · simp at hs
  cases e with
  | raise s pid => dsimp only at hs; split at hs <;> cases hs <;> rfl
  | deliver s =>
    dsimp only at hs
    split at hs
    · cases hs
    · split at hs
      · cases hs
      · split at hs
        · cases hs; rfl
        · split at hs <;> cases hs <;> rfl
  | write intr =>
    dsimp only at hs
    have hw : ∀ f : Frame, (writeByte cap t.pipe t.errno intr f.ch).2.2.isSome = t.pipe.isSome := by
      intro f
      unfold writeByte
      cases t.pipe with
      | none => rfl
      | some q => dsimp only; split <;> (try split) <;> rfl
    split at hs
    · split at hs
      · split at hs
        · cases hs; exact hw _
        · split at hs <;> cases hs <;> exact hw _
      · cases hs
    · cases hs
  | test =>
    dsimp only at hs
    split at hs
    · split at hs
      · cases hs
      · split at hs <;> cases hs <;> rfl
    · cases hs
  | main a =>
    dsimp only at hs
    split at hs
    · cases hs
      cases a with
      | pipe => exact absurd rfl he
      | read => simp only [act]; split <;> simp [*]
      | _ => rfl
    · cases hs

theorem acts_cons (e : Ev) (es : List Ev) : acts (e :: es) = acts [e] ++ acts es := by
  cases e <;> rfl

theorem errnoOf_append (b : Int) (as bs : List Act) :
    errnoOf b (as ++ bs) = errnoOf (errnoOf b as) bs := by
  induction as generalizing b with
  | nil => rfl
  | cons a as ih => cases a <;> exact ih _

theorem oncePipe_cons {p : Prog} {cap : Nat} {t t' : St} {e : Ev} {es : List Ev}
    (ho : OncePipe t (acts (e :: es))) (hs : step p cap t e = some t') :
    (e = .main .pipe → t.pipe = none) ∧ OncePipe t' (acts es) := by
  by_cases he : e = .main .pipe
  · subst he
    unfold OncePipe at *
    have hn : t.pipe = none := by
      cases hq : t.pipe with
      | none => rfl
      | some q => simp [acts, List.count_cons, hq] at ho
    refine ⟨fun _ => hn, ?_⟩
    rw [hn] at ho
    simp only [acts, List.count_cons] at ho
    simp at ho
    have : (acts es).count .pipe = 0 := ho
    split <;> omega
  · refine ⟨fun h => absurd h he, ?_⟩
    unfold OncePipe at *
    rw [step_pipe e hs he]
    rw [acts_cons, List.count_append] at ho
    omega

theorem inv_run {p : Prog} {cap : Nat} (h : List Ev) {b : Int} {t t' : St} (hi : Inv b t)
    (ho : OncePipe t (acts h)) (hr : run p cap t h = some t') :
    Inv (errnoOf b (acts h)) t' := by
  induction h generalizing b t with
  | nil => cases hr; exact hi
  | cons e es ih =>
    simp only [run, Option.bind_eq_some_iff] at hr
    obtain ⟨u, hu, hr⟩ := hr
    obtain ⟨hp, ho'⟩ := oncePipe_cons ho hu
    rw [acts_cons, errnoOf_append]
    exact ih (inv_step e hi hu hp) ho' hr

/-- What becomes of a signal: the process ended, the signal is still pending, its handler
still has to write, its byte is among those written since, or bytes were lost since. -/
def Track (p : Prog) (s : Signal) (b : Byte) (n l : Nat) (t : St) : Prop :=
  t.alive = false ∨
  (∃ pid, t.pend.find? (·.1 = s) = some (s, pid) ∧ code p t.child s pid = b) ∨
  (∃ f ∈ t.frames, f.sig = s ∧ f.ch = b ∧ Unwritten f = true) ∨
  b ∈ t.wrote.drop n ∨ l < t.lost.length

theorem find_filter (xs : List (Signal × Int)) (s s' : Signal) (h : s ≠ s') :
    (xs.filter (·.1 ≠ s')).find? (·.1 = s) = xs.find? (·.1 = s) := by
  induction xs with
  | nil => rfl
  | cons x xs ih =>
    by_cases h1 : x.1 = s'
    · have h2 : x.1 ≠ s := fun h2 => h (h2 ▸ h1)
      simp only [List.filter_cons, List.find?_cons, h1, ne_eq, not_true, decide_false,
        Bool.false_eq_true, if_false]
      rw [h1] at h2
      simp only [h2, decide_false]
      simpa using ih
    · simp only [List.filter_cons, List.find?_cons, ne_eq, h1, not_false_eq_true, decide_true,
        if_true]
      split
      · rfl
      · simpa using ih

theorem mem_drop_append {b : Byte} {xs ys : Bytes} {n : Nat} (hn : n ≤ xs.length)
    (h : b ∈ xs.drop n ∨ b ∈ ys) : b ∈ (xs ++ ys).drop n := by
  rw [List.drop_append_of_le_length hn, List.mem_append]
  exact h

theorem track_step {p : Prog} {cap : Nat} {b : Int} {t t' : St} {e : Ev} {s : Signal} {c : Byte}
    {n l : Nat} (hi : Inv b t) (hn : n ≤ t.wrote.length)
    (hh : s ∈ t.hand ∨ s ≠ .chld) (hf : ∀ pid, e ≠ .main (.fork pid))
    (hs : step p cap t e = some t') (hl : l ≤ t.lost.length)
    (hq : Track p s c n l t) : Track p s c n l t' ∧ n ≤ t'.wrote.length ∧ l ≤ t'.lost.length := by
  unfold step at hs
  split at hs
  · simp at hs
  next ha =>
  have hq' : (∃ pid, t.pend.find? (·.1 = s) = some (s, pid) ∧ code p t.child s pid = c) ∨
      (∃ f ∈ t.frames, f.sig = s ∧ f.ch = c ∧ Unwritten f = true) ∨
      c ∈ t.wrote.drop n ∨ l < t.lost.length := by
    rcases hq with h | h
    · simp [h] at ha
    · exact h
  cases e with
  | raise s' pid =>
    dsimp only at hs
    split at hs <;> cases hs
    · exact ⟨hq, hn, hl⟩
    · refine ⟨.inr ?_, hn, hl⟩
      rcases hq' with ⟨pid', h1, h2⟩ | h
      · exact .inl ⟨pid', by simp [List.find?_append, h1], h2⟩
      · exact .inr h
  | deliver s' =>
    dsimp only at hs
    split at hs
    · cases hs
    · next y pid' hfind =>
      split at hs
      · cases hs
      · split at hs
        · cases hs
          refine ⟨.inr ?_, hn, hl⟩
          rcases hq' with ⟨pid, h1, h2⟩ | ⟨f, hf', h⟩ | h
          · by_cases he : s = s'
            · subst he
              rw [h1] at hfind
              cases hfind
              exact .inr (.inl ⟨_, List.mem_cons_self .., rfl, h2, rfl⟩)
            · exact .inl ⟨pid, (find_filter _ _ _ he).trans h1, h2⟩
          · exact .inr (.inl ⟨f, List.mem_cons_of_mem _ hf', h⟩)
          · exact .inr (.inr h)
        · next hnh =>
          split at hs <;> cases hs
          · next hc =>
            refine ⟨.inr ?_, hn, hl⟩
            rcases hq' with ⟨pid, h1, h2⟩ | h
            · have he : s ≠ s' := by
                rintro rfl
                rcases hh with hh | hh
                · exact hnh hh
                · exact hh hc
              exact .inl ⟨pid, (find_filter _ _ _ he).trans h1, h2⟩
            · exact .inr h
          · exact ⟨.inl rfl, hn, hl⟩
  | write intr =>
    dsimp only at hs
    split at hs
    · next f fs hfs =>
      split at hs
      · next hpc =>
        rw [hfs] at hq'
        -- the outcome for the newest handler
        split at hs
        · next h1 =>
          cases hs
          refine ⟨.inr ?_, by simp; omega, hl⟩
          rcases hq' with h | ⟨g, hg, h⟩ | h | h
          · exact .inl h
          · rcases List.mem_cons.mp hg with rfl | hg
            · exact .inr (.inr (.inl (mem_drop_append hn (.inr (by simp [h.2.1])))))
            · exact .inr (.inl ⟨g, List.mem_cons_of_mem _ hg, h⟩)
          · exact .inr (.inr (.inl (mem_drop_append hn (.inl h))))
          · exact .inr (.inr (.inr h))
        · next h1 =>
          split at hs
          · next h2 =>
            cases hs
            refine ⟨.inr ?_, hn, hl⟩
            rcases hq' with h | ⟨g, hg, h⟩ | h
            · exact .inl h
            · rcases List.mem_cons.mp hg with rfl | hg
              · refine .inr (.inl ⟨_, List.mem_cons_self .., h.1, h.2.1, ?_⟩)
                have hw : (writeByte cap t.pipe t.errno intr g.ch).1 = -1 := by
                  revert h1
                  unfold writeByte
                  cases t.pipe with
                  | none => simp
                  | some q => dsimp only; split <;> (try split) <;> simp
                simp [Unwritten, hw, h2]
              · exact .inr (.inl ⟨g, List.mem_cons_of_mem _ hg, h⟩)
            · exact .inr (.inr h)
          · cases hs
            exact ⟨.inr (.inr (.inr (.inr (by simp; omega)))), hn, by simp; omega⟩
      · cases hs
    · cases hs
  | test =>
    dsimp only at hs
    split at hs
    · next f fs hfs =>
      have hm := hi.links
      rw [hfs] at hq' hm
      split at hs
      · cases hs
      · next w hpc =>
        split at hs
        · cases hs
          refine ⟨.inr ?_, hn, hl⟩
          rcases hq' with h | ⟨g, hg, h⟩ | h
          · exact .inl h
          · rcases List.mem_cons.mp hg with rfl | hg
            · exact .inr (.inl ⟨_, List.mem_cons_self .., h.1, h.2.1, rfl⟩)
            · exact .inr (.inl ⟨g, List.mem_cons_of_mem _ hg, h⟩)
          · exact .inr (.inr h)
        · next hc =>
          cases hs
          refine ⟨.inr ?_, hn, hl⟩
          rcases hq' with h | ⟨g, hg, h⟩ | h
          · exact .inl h
          · rcases List.mem_cons.mp hg with rfl | hg
            · exfalso
              have h3 := h.2.2
              simp only [Unwritten, hpc] at h3
              rw [hm.1] at hc
              exact hc (by simpa using h3)
            · exact .inr (.inl ⟨g, hg, h⟩)
          · exact .inr (.inr h)
    · cases hs
  | main a =>
    dsimp only at hs
    split at hs
    · cases hs
      cases a with
      | fork pid => exact absurd rfl (hf pid)
      | read => simp only [act]; split <;> exact ⟨.inr hq', hn, hl⟩
      | _ => exact ⟨.inr hq', hn, hl⟩
    · cases hs

theorem step_hand {p : Prog} {cap : Nat} {t t' : St} {e : Ev} {s : Signal}
    (hs : step p cap t e = some t') (he : e ≠ .main (.dflt s)) (hh : s ∈ t.hand) :
    s ∈ t'.hand := by
  unfold step at hs
  split at hs
  · simp at hs
  cases e with
  | raise s' pid => dsimp only at hs; split at hs <;> cases hs <;> exact hh
  | deliver s' =>
    dsimp only at hs
    split at hs
    · cases hs
    · split at hs
      · cases hs
      · split at hs
        · cases hs; exact hh
        · split at hs <;> cases hs <;> exact hh
  | write intr =>
    dsimp only at hs
    split at hs
    · split at hs
      · split at hs
        · cases hs; exact hh
        · split at hs <;> cases hs <;> exact hh
      · cases hs
    · cases hs
  | test =>
    dsimp only at hs
    split at hs
    · split at hs
      · cases hs
      · split at hs <;> cases hs <;> exact hh
    · cases hs
  | main a =>
    dsimp only at hs
    split at hs
    · cases hs
      cases a with
      | handle s' => exact List.mem_cons_of_mem _ hh
      | dflt s' =>
        have : s ≠ s' := fun h => he (h ▸ rfl)
        simp [act, hh, this]
      | read => simp only [act]; split <;> exact hh
      | _ => exact hh
    · cases hs

theorem acts_mem_cons {a : Act} {e : Ev} {es : List Ev} (h : a ∈ acts es) : a ∈ acts (e :: es) := by
  rw [acts_cons]; exact List.mem_append.mpr (.inr h)

theorem acts_main {a : Act} {es : List Ev} : a ∈ acts (.main a :: es) := by simp [acts]

theorem track_run {p : Prog} {cap : Nat} {b : Int} {s : Signal} {c : Byte} {n l : Nat}
    (h : List Ev) {t t' : St} (hi : Inv b t) (ho : OncePipe t (acts h)) (hn : n ≤ t.wrote.length)
    (hh : s ∈ t.hand ∧ .dflt s ∉ acts h ∨ s ≠ .chld) (hf : ∀ pid, .fork pid ∉ acts h)
    (hr : run p cap t h = some t') (hl : l ≤ t.lost.length) (hq : Track p s c n l t) :
    Track p s c n l t' := by
  induction h generalizing b t with
  | nil => cases hr; exact hq
  | cons e es ih =>
    simp only [run, Option.bind_eq_some_iff] at hr
    obtain ⟨u, hu, hr⟩ := hr
    obtain ⟨hp, ho'⟩ := oncePipe_cons ho hu
    obtain ⟨h1, h2, h3⟩ := track_step (e := e) hi hn (hh.imp And.left id)
      (fun pid he => hf pid (he ▸ acts_main)) hu hl hq
    refine ih (inv_step e hi hu hp) ho' h2 ?_ (fun pid he => hf pid (acts_mem_cons he)) hr h3 h1
    rcases hh with hh | hh
    · exact .inl ⟨step_hand hu (fun he => hh.2 (he ▸ acts_main)) hh.1,
        fun he => hh.2 (acts_mem_cons he)⟩
    · exact .inr hh

theorem inv_length {b : Int} {t : St} (hi : Inv b t) :
    t.sent.length = t.wrote.length + t.lost.length + (t.frames.filter Unwritten).length := by
  have h : t.sent.Perm (t.wrote ++ t.lost ++ (t.frames.filter Unwritten).map Frame.ch) := by
    rw [List.perm_iff_count]
    intro x
    rw [List.count_append, List.count_append]
    exact hi.count x
  have := h.length_eq
  simp only [List.length_append, List.length_map] at this
  omega

theorem step_sent {p : Prog} {cap : Nat} {t t' : St} {e : Ev} (hs : step p cap t e = some t') :
    t.sent.length ≤ t'.sent.length ∧ (∃ ys, t'.wrote = t.wrote ++ ys) := by
  have nothing : ∃ ys, t.wrote = t.wrote ++ ys := ⟨[], by simp⟩
  unfold step at hs
  split at hs
  · simp at hs
  cases e with
  | raise s' pid => dsimp only at hs; split at hs <;> cases hs <;> exact ⟨Nat.le_refl _, nothing⟩
  | deliver s' =>
    dsimp only at hs
    split at hs
    · cases hs
    · split at hs
      · cases hs
      · split at hs
        · cases hs; exact ⟨by simp, nothing⟩
        · split at hs <;> cases hs <;> exact ⟨Nat.le_refl _, nothing⟩
  | write intr =>
    dsimp only at hs
    split at hs
    · split at hs
      · split at hs
        · cases hs; exact ⟨Nat.le_refl _, _, rfl⟩
        · split at hs <;> cases hs <;> exact ⟨Nat.le_refl _, nothing⟩
      · cases hs
    · cases hs
  | test =>
    dsimp only at hs
    split at hs
    · split at hs
      · cases hs
      · split at hs <;> cases hs <;> exact ⟨Nat.le_refl _, nothing⟩
    · cases hs
  | main a =>
    dsimp only at hs
    split at hs
    · cases hs
      cases a with
      | read => simp only [act]; split <;> exact ⟨Nat.le_refl _, nothing⟩
      | _ => exact ⟨Nat.le_refl _, nothing⟩
    · cases hs

theorem run_sent {p : Prog} {cap : Nat} (h : List Ev) {t t' : St} (hr : run p cap t h = some t') :
    t.sent.length ≤ t'.sent.length := by
  induction h generalizing t with
  | nil => cases hr; exact Nat.le_refl _
  | cons e es ih =>
    simp only [run, Option.bind_eq_some_iff] at hr
    obtain ⟨u, hu, hr⟩ := hr
    exact Nat.le_trans (step_sent hu).1 (ih hr)

/-- With a pipe and room in it nothing is lost. -/
theorem lost_step {p : Prog} {cap : Nat} {b : Int} {t t' : St} {e : Ev} (hi : Inv b t)
    (hs : step p cap t e = some t') (hp : t.frames ≠ [] → t.pipe ≠ none)
    (hc : t'.sent.length ≤ cap) : t'.lost = t.lost := by
  have hlen := inv_length hi
  have hsent := (step_sent hs).1
  unfold step at hs
  split at hs
  · simp at hs
  cases e with
  | raise s' pid => dsimp only at hs; split at hs <;> cases hs <;> rfl
  | deliver s' =>
    dsimp only at hs
    split at hs
    · cases hs
    · split at hs
      · cases hs
      · split at hs
        · cases hs; rfl
        · split at hs <;> cases hs <;> rfl
  | write intr =>
    dsimp only at hs
    split at hs
    · next f fs hfs =>
      split at hs
      · next hpc =>
        have hu : Unwritten f = true := by simp [Unwritten, hpc]
        rw [hfs] at hlen
        simp only [List.filter_cons, hu, if_true, List.length_cons] at hlen
        cases hq : t.pipe with
        | none => exact absurd hq (hp (by simp [hfs]))
        | some q =>
          have hfifo := hi.fifo
          rw [hq] at hfifo
          have hql : q.length < cap := by
            have := congrArg List.length hfifo
            simp only [List.length_append] at this
            omega
          simp only [writeByte, hq, hql, if_true] at hs
          cases intr
          · simp at hs; cases hs; rfl
          · simp at hs; cases hs; rfl
      · cases hs
    · cases hs
  | test =>
    dsimp only at hs
    split at hs
    · split at hs
      · cases hs
      · split at hs <;> cases hs <;> rfl
    · cases hs
  | main a =>
    dsimp only at hs
    split at hs
    · cases hs
      cases a with
      | read => simp only [act]; split <;> rfl
      | _ => rfl
    · cases hs

theorem lost_run {p : Prog} {cap : Nat} {b : Int} (h : List Ev) {t t' : St} (hi : Inv b t)
    (ho : OncePipe t (acts h)) (hp : t.pipe ≠ none) (hr : run p cap t h = some t')
    (hc : t'.sent.length ≤ cap) : t'.lost = t.lost := by
  induction h generalizing b t with
  | nil => cases hr; rfl
  | cons e es ih =>
    simp only [run, Option.bind_eq_some_iff] at hr
    obtain ⟨u, hu, hr⟩ := hr
    obtain ⟨hpe, ho'⟩ := oncePipe_cons ho hu
    have h1 := lost_step hi hu (fun _ => hp) (Nat.le_trans (run_sent es hr) hc)
    have h2 : u.pipe ≠ none := by
      have := step_pipe e hu (fun he => hp (hpe he))
      intro hn
      rw [hn] at this
      cases hq : t.pipe with
      | none => exact hp hq
      | some q => simp [hq] at this
    exact (ih (inv_step e hi hu hpe) ho' h2 hr).trans h1

/-- No handler is installed before the pipe is made. -/
def PipeFirst : List Act → Bool
  | [] => true
  | .pipe :: _ => true
  | .handle _ :: _ => false
  | _ :: as => PipeFirst as

/-- Where a handler may run there is a pipe. -/
def Safe (t : St) : Prop := t.pipe ≠ none ∨ (t.hand = [] ∧ t.frames = [])

theorem safe_step {p : Prog} {cap : Nat} {t t' : St} {e : Ev} {es : List Ev}
    (hs : step p cap t e = some t') (hsafe : Safe t)
    (hp : t.pipe ≠ none ∨ PipeFirst (acts (e :: es)) = true) :
    Safe t' ∧ (t'.pipe ≠ none ∨ PipeFirst (acts es) = true) := by
  by_cases hn : t.pipe = none
  · rcases hsafe with h | ⟨hh, hf⟩
    · exact absurd hn h
    rcases hp with h | hp
    · exact absurd hn h
    unfold step at hs
    split at hs
    · simp at hs
    cases e with
    | raise s' pid =>
      dsimp only at hs; split at hs <;> cases hs <;> exact ⟨.inr ⟨hh, hf⟩, .inr hp⟩
    | deliver s' =>
      dsimp only at hs
      split at hs
      · cases hs
      · split at hs
        · cases hs
        · split at hs
          · next hm => rw [hh] at hm; exact absurd hm (by simp)
          · split at hs <;> cases hs <;> exact ⟨.inr ⟨hh, hf⟩, .inr hp⟩
    | write intr => rw [hf] at hs; cases hs
    | test => rw [hf] at hs; cases hs
    | main a =>
      dsimp only at hs
      try rw [if_pos hf] at hs
      cases hs
      · cases a with
        | handle s => simp [acts, PipeFirst] at hp
        | dflt s => exact ⟨.inr ⟨by simp [act, hh], hf⟩, .inr hp⟩
        | pipe => exact ⟨.inl (by simp [act]), .inl (by simp [act])⟩
        | read => simp only [act, hn]; exact ⟨.inr ⟨hh, hf⟩, .inr hp⟩
        | fork pid => exact ⟨.inr ⟨hh, hf⟩, .inr hp⟩
        | other e => exact ⟨.inr ⟨hh, hf⟩, .inr hp⟩
  · have h2 : t'.pipe ≠ none := by
      by_cases he : e = .main .pipe
      · subst he
        unfold step at hs
        split at hs
        · simp at hs
        · dsimp only at hs
          split at hs
          · cases hs; simp [act]
          · cases hs
      · have := step_pipe e hs he
        intro hn'
        rw [hn'] at this
        cases hq : t.pipe with
        | none => exact hn hq
        | some q => simp [hq] at this
    exact ⟨.inl h2, .inl h2⟩

theorem safe_run {p : Prog} {cap : Nat} {b : Int} (h : List Ev) {t t' : St} (hi : Inv b t)
    (ho : OncePipe t (acts h)) (hsafe : Safe t)
    (hp : t.pipe ≠ none ∨ PipeFirst (acts h) = true) (hr : run p cap t h = some t')
    (hc : t'.sent.length ≤ cap) : t'.lost = t.lost ∧ Safe t' := by
  induction h generalizing b t with
  | nil => cases hr; exact ⟨rfl, hsafe⟩
  | cons e es ih =>
    simp only [run, Option.bind_eq_some_iff] at hr
    obtain ⟨u, hu, hr⟩ := hr
    obtain ⟨hpe, ho'⟩ := oncePipe_cons ho hu
    have h1 := lost_step hi hu (fun hf => hsafe.elim id fun h => absurd h.2 hf)
      (Nat.le_trans (run_sent es hr) hc)
    obtain ⟨h2, h3⟩ := safe_step hu hsafe hp
    obtain ⟨h4, h5⟩ := ih (inv_step e hi hu hpe) ho' h2 h3 hr
    exact ⟨h4.trans h1, h5⟩

theorem pipeFirst_filter (as : List Act) :
    PipeFirst (as.filter fun | .other _ => false | .read => false | _ => true) = PipeFirst as := by
  induction as with
  | nil => rfl
  | cons a as ih => cases a <;> simp_all [PipeFirst]

theorem pipeFirst_prefix {as bs : List Act} (h : as <+: bs) (hb : PipeFirst bs = true) :
    PipeFirst as = true := by
  induction as generalizing bs with
  | nil => rfl
  | cons a as ih =>
    obtain ⟨cs, rfl⟩ := h
    cases a <;> simp_all [PipeFirst]
    all_goals exact ih (List.prefix_append _ _) hb

theorem mem_order {a : Act} {h : List Ev} (ha : a ∈ acts h) (h1 : ∀ e, a ≠ .other e)
    (h2 : a ≠ .read) : a ∈ order h := by
  unfold order
  rw [List.mem_filter]
  refine ⟨ha, ?_⟩
  cases a <;> simp_all

theorem count_order (h : List Ev) : (acts h).count .pipe = (order h).count .pipe := by
  unfold order
  rw [List.count_filter]
  rfl

end Sig
