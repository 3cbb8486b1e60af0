import Verif.Relay.TlsProps
import Verif.Relay.ClearProps
/-
What makes the two loops of tlswrapper end: the converse of `c46_end`, which lists the reasons.
-/
namespace Relay
open Io

/-- Something after which the relay must not go on: a failed write, or a command of the signal pipe other than SIGCHLD and
the timeout. -/
def Stops : Act Fd → Prop
  | .failed _ => True
  | .sig c => c ≠ c! 'C' ∧ c ≠ c! 'A'
  | _ => False

def NoStop (l : List (Act Fd)) : Prop := ∀ a ∈ l, ¬ Stops a

theorem noStop_nil : NoStop [] := fun _ h => by cases h

theorem noStop_act {w : W} (h : NoStop w.log) {a : Act Fd} (ha : ¬ Stops a) : NoStop (w.act a).log := by
  intro b hb
  rcases List.mem_append.mp hb with hb | hb
  · exact h b hb
  · rw [List.mem_singleton.mp hb]; exact ha

theorem noStop_close {w : W} (h : NoStop w.log) (f : Fd) : NoStop (w.close f).log := by
  unfold W.close
  split
  · exact noStop_act (a := .close f) h id
  · exact h

/-- Nothing that would have to stop the relay, and no report of the engine, changes `P`. -/
def Kept (P : List (Act Fd) → Prop) : Prop := ∀ l a, ¬ Stops a → (∀ st, a ≠ .eng (.state st)) → P l → P (l ++ [a])

theorem Kept.close {P : List (Act Fd) → Prop} (k : Kept P) {w : W} (h : P w.log) (f : Fd) : P (w.close f).log := by
  unfold W.close
  split
  · exact k _ (.close f) id nofun h
  · exact h

theorem kept_noStop : Kept NoStop := fun l a ha _ h => noStop_act (w := ⟨fun _ => true, l⟩) h ha

theorem Kept.selfpipe {P : List (Act Fd) → Prop} (k : Kept P) {w : W} (h : P w.log) (ev : SigEv) (hn : (selfpipeEvent w ev).2 = false) :
    P (selfpipeEvent w ev).1.log := by
  cases ev with
  | again => exact h
  | failed => cases hn
  | byte c =>
    simp only [selfpipeEvent] at hn ⊢
    split at hn
    · rename_i hc
      rw [if_pos hc]
      exact k _ (.alarm true) id nofun (k.close (k _ (.sig c) (fun k => k.1 hc) nofun h) _)
    · rename_i hc
      split at hn
      · rename_i hA
        rw [if_neg hc, if_pos hA]
        exact k _ (.alarm true) id nofun (k.close (k.close (k.close (k.close (k _ (.sig c) (fun k => k.2 hA.1) nofun h) _) _) _) _)
      · cases hn

namespace Tls
variable {E : Type} {g : Engine E}

theorem noStop_look {s : St E} (h : NoStop s.w.log) : NoStop (look g s).2.w.log := noStop_act (a := .eng (.state (g.state s.e))) h id

theorem noStop_closes (st : Flags) (pend : Bool) {w : W} (h : NoStop w.log) : NoStop (closes st pend w).log := by
  unfold closes
  simp only
  repeat' first | exact h | apply noStop_close | split

theorem noStop_shutdown (st : Flags) {s : St E} (h : NoStop s.w.log) : NoStop (shutdown g st s).2.w.log := by
  unfold shutdown
  split
  · exact noStop_look (noStop_act (a := .eng .flush) (noStop_act (a := .eng .close) h id) id)
  · exact h

theorem noStop_top {s : St E} (pend : Bool) (h : NoStop s.w.log) : NoStop (top g s pend).2.w.log :=
  noStop_shutdown _ (noStop_closes _ _ (noStop_look h))

theorem kept_serve {P : List (Act Fd) → Prop} (k : Kept P) {c : Ready} {s : St E} {ev : Ev} {s' : St E} (h : P s.w.log) (hs : serve g c s ev = .ok (s', none)) :
    P s'.w.log := by
  unfold serve at hs
  split at hs
  · unfold doToChild at hs
    split at hs <;> cases hs
    · exact h
    · exact k _ _ id nofun (k _ _ id nofun h)
  split at hs
  · unfold doToPeer at hs
    split at hs <;> cases hs
    · exact h
    · exact k _ _ id nofun (k _ _ id nofun h)
  split at hs
  · unfold doFromPeer at hs
    split at hs
    · cases hs; exact h
    · cases hs; exact k.close (k _ (.ended _) id nofun h) _
    · rename_i d _
      cases hc : copyN (g.recvrec s.e) 0 d d.length with
      | ub => simp [hc] at hs
      | ok mem =>
        simp only [hc, Out.ok_bind] at hs
        cases hs
        exact k _ _ id nofun (k _ _ id nofun (k _ _ id nofun h))
  split at hs
  · unfold doFromChild at hs
    split at hs
    · cases hs; exact h
    · cases hs; exact k.close (k _ (.ended _) id nofun h) _
    · rename_i d _
      cases hc : copyN (g.sendapp s.e) 0 d d.length with
      | ub => simp [hc] at hs
      | ok mem =>
        simp only [hc, Out.ok_bind] at hs
        cases hs
        exact k _ _ id nofun (k _ _ id nofun (k _ _ id nofun (k _ _ id nofun h)))
  split at hs
  · have := k.selfpipe h ev.sig
    unfold doSelfpipe at hs
    cases hp : selfpipeEvent s.w ev.sig with
    | mk w b =>
      rw [hp] at hs this
      cases b
      · cases hs; exact this rfl
      · cases hs
  · cases hs; exact h

theorem kept_report {P : List (Act Fd) → Prop} (k : Kept P) {fromcert : Bool} {st : Flags} {s s' : St E} {wevs : List WrEv} {y : Option Why} (h : P s.w.log)
    (hr : reportHandshake g fromcert st s wevs = .ok (s', y)) : P s'.w.log := by
  unfold reportHandshake at hr
  split at hr
  · cases hr; exact h
  split at hr
  · cases hr; exact h
  simp only at hr
  split at hr
  · cases hr; exact k _ _ id nofun h
  split at hr
  · cases hr; exact h
  cases hn : nameBuf fromcert (g.crt s.e).2 with
  | ub => simp [hn] at hr
  | ok buf =>
    simp only [hn, Out.ok_bind] at hr
    cases hu : reportUser { s with hs := true } buf wevs with
    | ub => simp [hu] at hr
    | ok v =>
      obtain ⟨s1, y1⟩ := v
      have h1 : P s1.w.log := by
        unfold reportUser at hu
        cases hl : Str.str_len buf with
        | ub => simp [hl] at hu
        | ok n =>
          simp only [hl, Out.ok_bind] at hu
          split at hu
          · cases hu; exact h
          split at hu
          · cases hu; exact h
          · split at hu
            · cases hu; exact k _ _ id nofun h
            · cases hu; exact k _ _ id nofun h
      simp only [hu, Out.ok_bind] at hr
      cases y1 with
      | some y => cases hr; exact h1
      | none => cases hr; exact k _ _ id nofun h1

/-- What holds while the loop goes on. -/
def Going (s : St E) : Prop := NoStop s.w.log ∧ ∀ st, lastState s.w.log = some st → st.closed = true → st.sendrec = true

theorem kept_last (o : Option Flags) : Kept (fun l => NoStop l ∧ lastState l = o) := by
  intro l a h1 h2 h
  refine ⟨kept_noStop l a h1 h2 h.1, ?_⟩
  rw [lastState, List.foldl_append]
  show lastState1 (lastState l) a = o
  rw [h.2]
  cases a with
  | eng e => cases e <;> first | rfl | exact absurd rfl (h2 _)
  | _ => rfl

theorem going_rest {fromcert : Bool} {st : Flags} {s s' : St E} {ev : Ev} (h : NoStop s.w.log) (hl : lastState s.w.log = some st)
    (hr : rest g fromcert st s ev = .ok (s', none)) : Going s' := by
  unfold rest at hr
  cases hp : reportHandshake g fromcert st s ev.usr with
  | ub => simp [hp] at hr
  | ok v =>
    obtain ⟨s1, y⟩ := v
    have h1 := kept_report (kept_last (some st)) ⟨h, hl⟩ hp
    simp only [hp, Out.ok_bind] at hr
    cases y with
    | some y => cases hr
    | none =>
      simp only at hr
      split at hr
      · cases hr
      split at hr
      · cases hr
      rename_i hc
      split at hr
      · cases hr
      have h2 := kept_serve (kept_last (some st)) (s := { s1 with w := s1.w.act (.eng (.wait (watched (can st s.w)))) })
        (kept_last _ _ _ id nofun h1) hr
      refine ⟨h2.1, fun st' e hcl => ?_⟩
      rw [h2.2] at e
      cases e
      simpa [hcl] using hc

theorem top_last (s : St E) (pend : Bool) : lastState (top g s pend).2.w.log = some (top g s pend).1 := by
  have hsn : ∀ (w : W) (st : Flags), lastState (w.act (.eng (.state st))).log = some st := by
    intro w st
    rw [W.act, lastState, List.foldl_append]
    rfl
  have hc : ∀ (st : Flags) (w : W), lastState (closes st pend w).log = lastState w.log := by
    intro st w
    unfold closes
    simp only
    repeat' first | rfl | rw [close_last] | split
  unfold top shutdown
  simp only
  split
  · exact hsn _ _
  · show lastState (closes (g.state s.e) pend (s.w.act (.eng (.state (g.state s.e))))).log = _
    rw [hc]; exact hsn _ _

theorem going_loop {fromcert : Bool} (evs : List Ev) : ∀ {s s' : St E}, Going s → loop g fromcert s evs = .ok (s', none) → Going s' := by
  induction evs with
  | nil => intro s s' h e; cases e; exact h
  | cons ev evs ih =>
    intro s s' h e
    rw [loop] at e
    cases ht : top g s ev.pend with
    | mk st s1 =>
      have k1 := noStop_top (g := g) ev.pend h.1
      have k2 := top_last (g := g) s ev.pend
      rw [ht] at k1 k2
      simp only [ht] at e
      cases hr : rest g fromcert st s1 ev with
      | ub => simp [hr] at e
      | ok v =>
        obtain ⟨s2, y⟩ := v
        simp only [hr, Out.ok_bind] at e
        cases y with
        | some y => cases e
        | none => exact ih (going_rest k1 k2 hr) e

/-- **C46 (ends).** While the loop goes on, no write has failed, no command but SIGCHLD and the timeout has come, and the engine has not
reported that it is closed with nothing left to send. -/
theorem c46_goes_on (op0 : Fd → Bool) (fromcert rep0 : Bool) (e : E) (N C : Bytes) (evs : List Ev) (s : St E)
    (h : loop g fromcert (start op0 e rep0 N C) evs = .ok (s, none)) :
    (∀ f, Act.failed f ∉ s.w.log) ∧ (∀ c, Act.sig c ∈ s.w.log → c = c! 'C' ∨ c = c! 'A') ∧
    ∀ st, lastState s.w.log = some st → st.closed = true → st.sendrec = true := by
  obtain ⟨h1, h2⟩ := going_loop (s := start op0 e rep0 N C) evs ⟨noStop_nil, fun st e => by cases e⟩ h
  refine ⟨fun f hf => h1 _ hf trivial, fun c hc => ?_, h2⟩
  refine Classical.byContradiction fun hn => h1 _ hc ?_
  exact not_or.mp hn

end Tls

namespace Clear

theorem kept_propagate {P : List (Act Fd) → Prop} (k : Kept P) {s : St} (h : P s.w.log) : P (propagate s).w.log := by
  unfold propagate
  simp only
  repeat' first | exact h | apply k.close | split

theorem kept_body {P : List (Act Fd) → Prop} (k : Kept P) {s s' : St} {ev : Ev} {y : Option Why} (h : P s.w.log)
    (hb : body s ev = .ok (s', y)) (hy : y = none ∨ y = some .starttls ∨ y = some .ackBlocked) : P s'.w.log := by
  have out : ∀ {α : Type} (x : Out α) (f : α → Out (St × Option Why)), (x >>= f) = .ok (s', y) →
      (∀ a, f a = .ok (s', y) → P s'.w.log) → P s'.w.log := by
    intro α x f h1 h2
    cases x with
    | ub => simp at h1
    | ok a => exact h2 a h1
  unfold body at hb
  simp only at hb
  split at hb
  · unfold doToPeer at hb
    refine out _ _ hb ?_
    rintro ⟨r, b⟩ he
    cases r <;> simp at he <;> obtain ⟨rfl, rfl⟩ := he
    · exact h
    · simp at hy
    · exact k _ _ id nofun h
  split at hb
  · unfold doFromChild at hb
    refine out _ _ hb ?_
    rintro ⟨r, b, c⟩ he
    cases r <;> simp at he <;> obtain ⟨rfl, rfl⟩ := he
    · exact h
    · exact k.close (k _ (.ended _) id nofun h) _
    · exact k _ _ id nofun (k _ _ id nofun h)
  split at hb
  · simp only [Out.ok.injEq] at hb
    unfold doFromCtl at hb
    split at hb
    · cases hb; exact h
    · cases hb; exact h
    · cases hb; simp at hy
    · rename_i m _
      simp only at hb
      split at hb
      · cases hb; exact k.close (k _ (.ended _) id nofun h) _
      split at hb
      · cases hb; simp at hy
      split at hb
      · cases hb; simp at hy
      unfold accept at hb
      simp only at hb
      have h1 : P ((s.w.act (.read .ctl (got s.csrc 2 m))).close .ctl).log := k.close (k _ (.read .ctl (got s.csrc 2 m)) id nofun h) .ctl
      split at hb
      · cases hb; simp at hy
      split at hb
      · cases hb
        split <;> exact h1
      · split at hb
        · cases hb; simp at hy
        · cases hb
          refine k.close ?_ _
          split <;> split <;> first | exact h1 | exact k _ _ id nofun h1
  split at hb
  · unfold doToChild at hb
    refine out _ _ hb ?_
    rintro ⟨r, b⟩ he
    cases r <;> simp at he <;> obtain ⟨rfl, rfl⟩ := he
    · exact h
    · simp at hy
    · exact k _ _ id nofun h
  split at hb
  · unfold doFromPeer at hb
    refine out _ _ hb ?_
    rintro ⟨r, b, c⟩ he
    cases r <;> simp at he <;> obtain ⟨rfl, rfl⟩ := he
    · exact h
    · exact k.close (k _ (.ended _) id nofun h) _
    · exact k _ _ id nofun (k _ _ id nofun h)
  split at hb
  · have := k.selfpipe h ev.sig
    unfold doSelfpipe at hb
    cases hp : selfpipeEvent s.w ev.sig with
    | mk w b =>
      rw [hp] at hb this
      cases b
      · cases hb; exact this rfl
      · cases hb; simp at hy
  · cases hb; exact h

theorem kept_loop {P : List (Act Fd) → Prop} (k : Kept P) (evs : List Ev) : ∀ {s s' : St} {y : Option Why}, P s.w.log →
    loop s evs = .ok (s', y) → (y = none ∨ y = some .starttls ∨ y = some .ackBlocked) → P s'.w.log ∧ (y = none → finished s' = false) := by
  induction evs with
  | nil =>
    intro s s' y h e hy
    simp only [loop] at e
    split at e
    · cases e; simp at hy
    · rename_i hf; cases e; exact ⟨kept_propagate k h, fun _ => by simpa using hf⟩
  | cons ev evs ih =>
    intro s s' y h e hy
    simp only [loop] at e
    split at e
    · cases e; simp at hy
    · cases hb : body (propagate s) ev with
      | ub => simp [hb] at e
      | ok v =>
        obtain ⟨s1, y1⟩ := v
        simp only [hb, Out.ok_bind] at e
        cases y1 with
        | some y1 => cases e; exact ⟨kept_body k (kept_propagate k h) hb hy, by simp⟩
        | none => exact ih (kept_body k (kept_propagate k h) hb (.inl rfl)) e hy

/-- **C41 (ends).** While the cleartext relay goes on, and when it hands over to TLS, no write has failed and no command but SIGCHLD and
the timeout has come; and while it goes on, one of the four descriptors it relays between is open. -/
theorem c41_goes_on (m1 m2 net chd csrc : Bytes) (h1 : m1.length = 8192) (h2 : m2.length = 8192) (evs : List Ev) (s : St) (y : Option Why)
    (e : loop (start m1 m2 net chd csrc) evs = .ok (s, y)) (hy : y = none ∨ y = some .starttls) :
    (∀ f, Act.failed f ∉ s.w.log) ∧ (∀ c, Act.sig c ∈ s.w.log → c = c! 'C' ∨ c = c! 'A') ∧
    (y = none → ∃ f, f ≠ .ctl ∧ f ≠ .ack ∧ Act.close f ∉ s.w.log) := by
  obtain ⟨k1, k2⟩ := kept_loop kept_noStop (s := start m1 m2 net chd csrc) evs noStop_nil e (by rcases hy with h | h <;> simp [h])
  refine ⟨fun f hf => k1 _ hf trivial, fun c hc => ?_, fun hn => ?_⟩
  · refine Classical.byContradiction fun hn => k1 _ hc ?_
    exact not_or.mp hn
  · obtain ⟨s', why', e', hp⟩ := loop_post evs (run_start m1 m2 net chd csrc h1 h2)
    rw [e] at e'; cases e'
    have hcl := (hp.1 hn).cl
    have := k2 hn
    simp only [finished] at this
    refine Classical.byContradiction fun hc => ?_
    have all : ∀ f, f ≠ .ctl → f ≠ .ack → s.w.op f = false := fun f a b =>
      (hcl f).mpr (Classical.byContradiction fun hx => hc ⟨f, a, b, hx⟩)
    rw [all .peerin (by simp) (by simp), all .childin (by simp) (by simp), all .childout (by simp) (by simp), all .peerout (by simp) (by simp)] at this
    simp at this

end Clear
end Relay
