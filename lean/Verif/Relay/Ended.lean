import Verif.Relay.Over
import Verif.Diag.Props
/-
What the log says about the end of the encrypted phase (main_tlswrapper.c:907-909, 993-1022, 1064-1129).
-/
namespace Relay.Tls
open Io Relay

variable {E : Type} {g : Engine E}

/-- main_tlswrapper.c:1124-1129: the line logged when the loop of `run_tls_phase` is left. `reason` and `detail` are set on lines
997-998, 1006-1007, 1019-1020, 1070, 1083 and 1119. `err`: the engine's last error. `none`: the process has died on line 563 or 542,
or is still writing the account record; lines about that are not modelled here. No detail is empty except those never set. -/
def phaseLine (done : Bool) (err : Int) : Why → Option String
  | .handshakeFailed => some ("tls phase: handshake failed, " ++ (Diag.tls_engine_close_reason done err).1)
  | .closed => some ("tls phase: finished, " ++ (Diag.tls_engine_close_reason done err).1)
  | .noProgress => some "tls phase: finished, close_notify sent, not waiting for peer"
  | .childWrite => some "tls phase: write to child failed"
  | .peerWrite => some "tls phase: write to network failed"
  | .signal => some "tls phase: signal"
  | .noName => none
  | .userFailed => none
  | .userBlocked => none

/-- The line that says that this side has closed the connection properly. -/
def closeNotifySent : String := "tls phase: finished, close_notify sent, not waiting for peer"

/-! ### The line tells the reason -/

theorem reason_ne (done : Bool) (err : Int) :
    (Diag.tls_engine_close_reason done err).1 ≠ "close_notify sent, not waiting for peer" := by
  have hf : ∀ (t : List (Int × String)) (d : String), (∀ p ∈ t, p.2 ≠ "close_notify sent, not waiting for peer") →
      d ≠ "close_notify sent, not waiting for peer" → ∀ n, Diag.first t d n ≠ "close_notify sent, not waiting for peer" := by
    intro t d ht hd n
    induction t with
    | nil => exact hd
    | cons p t ih =>
      obtain ⟨m, x⟩ := p
      rw [Diag.first]
      split
      · exact ht (m, x) List.mem_cons_self
      · exact ih (fun q hq => ht q (List.mem_cons_of_mem _ hq))
  have h1 := hf Diag.errors "unknown" (by decide +kernel) (by decide)
  have h2 := hf Diag.alerts "unknown_alert" (by decide +kernel) (by decide)
  unfold Diag.tls_engine_close_reason
  split
  · decide
  split
  · exact h2 _
  split
  · exact h2 _
  · exact h1 _

theorem line_np {done : Bool} {err : Int} {y : Why} (h : phaseLine done err y = some closeNotifySent) : y = .noProgress := by
  have e : closeNotifySent = "tls phase: finished, " ++ "close_notify sent, not waiting for peer" := by decide
  cases y with
  | noProgress => rfl
  | handshakeFailed =>
    simp only [phaseLine, Option.some.injEq] at h
    rw [e] at h
    exact absurd h (Diag.char_ne 11 (by decide) (by decide) (by decide))
  | closed =>
    simp only [phaseLine, Option.some.injEq] at h
    rw [e] at h
    exact absurd (Diag.str_inj h) (reason_ne _ _)
  | _ => exact absurd h (by simp only [phaseLine]; decide)

/-! ### The output to the network stays open while the loop goes on -/

/-- Nothing but a failed write and the third close of the loop closes the network's output. -/
def OutOpen (s : St E) : Prop := s.w.op .peerout = true

theorem close_op (w : W) {f f' : Fd} (h : f' ≠ f) : (w.close f).op f' = w.op f' := by
  unfold W.close
  split
  · simp [h]
  · rfl

theorem selfpipe_out (w : W) (ev : SigEv) : (selfpipeEvent w ev).1.op .peerout = w.op .peerout := by
  cases ev with
  | again => rfl
  | failed => rfl
  | byte c =>
    simp only [selfpipeEvent]
    split
    · exact close_op _ (by decide)
    split
    · show ((((_ : W).close _).close _).close _ |>.close _).op .peerout = _
      rw [close_op _ (by decide), close_op _ (by decide), close_op _ (by decide), close_op _ (by decide)]
      rfl
    · rfl

theorem serve_out {c : Ready} {s : St E} {ev : Ev} {s' : St E} (h : OutOpen s) (hs : serve g c s ev = .ok (s', none)) : OutOpen s' := by
  unfold serve at hs
  split at hs
  · unfold doToChild at hs
    split at hs <;> cases hs <;> exact h
  split at hs
  · unfold doToPeer at hs
    split at hs <;> cases hs <;> exact h
  split at hs
  · unfold doFromPeer at hs
    split at hs
    · cases hs; exact h
    · cases hs; exact (close_op _ (by decide)).trans h
    · rename_i d _
      cases hc : copyN (g.recvrec s.e) 0 d d.length with
      | ub => simp [hc] at hs
      | ok mem => simp only [hc, Out.ok_bind] at hs; cases hs; exact h
  split at hs
  · unfold doFromChild at hs
    split at hs
    · cases hs; exact h
    · cases hs; exact (close_op _ (by decide)).trans h
    · rename_i d _
      cases hc : copyN (g.sendapp s.e) 0 d d.length with
      | ub => simp [hc] at hs
      | ok mem => simp only [hc, Out.ok_bind] at hs; cases hs; exact h
  split at hs
  · have := selfpipe_out s.w ev.sig
    unfold doSelfpipe at hs
    cases hp : selfpipeEvent s.w ev.sig with
    | mk w b =>
      rw [hp] at hs this
      cases b <;> cases hs
      exact this.trans h
  · cases hs; exact h

theorem report_op {fromcert : Bool} {st : Flags} {s s' : St E} {wevs : List WrEv} {y : Option Why}
    (hr : reportHandshake g fromcert st s wevs = .ok (s', y)) : s'.w.op = s.w.op := by
  unfold reportHandshake at hr
  split at hr
  · cases hr; rfl
  split at hr
  · cases hr; rfl
  simp only at hr
  split at hr
  · cases hr; rfl
  split at hr
  · cases hr; rfl
  cases hn : nameBuf fromcert (g.crt s.e).2 with
  | ub => simp [hn] at hr
  | ok buf =>
    simp only [hn, Out.ok_bind] at hr
    cases hu : reportUser { s with hs := true } buf wevs with
    | ub => simp [hu] at hr
    | ok v =>
      obtain ⟨s1, y1⟩ := v
      have h1 : s1.w.op = s.w.op := by
        unfold reportUser at hu
        cases hl : Str.str_len buf with
        | ub => simp [hl] at hu
        | ok n =>
          simp only [hl, Out.ok_bind] at hu
          split at hu
          · cases hu; rfl
          split at hu
          · cases hu; rfl
          · split at hu <;> cases hu <;> rfl
      simp only [hu, Out.ok_bind] at hr
      cases y1 with
      | some y => cases hr; exact h1
      | none => cases hr; exact h1

/-- The descriptors and the trace after the closes at the top of an iteration. -/
def closed3 (g : Engine E) (s : St E) (pend : Bool) : W := closes (g.state s.e) pend (s.w.act (.eng (.state (g.state s.e))))

/-- The top part either tells the engine to close, when the child is gone, or leaves it alone. -/
theorem top_cases (s : St E) (pend : Bool) :
    ((closed3 g s pend).op .childout = false ∧ (closed3 g s pend).op .childin = false ∧ (g.state s.e).closed = false ∧
      (top g s pend).2.w = (((closed3 g s pend).act (.eng .close)).act (.eng .flush)).act (.eng (.state (top g s pend).1))) ∨
    (¬ ((closed3 g s pend).op .childout = false ∧ (closed3 g s pend).op .childin = false ∧ (g.state s.e).closed = false) ∧
      (top g s pend).1 = g.state s.e ∧ (top g s pend).2.w = closed3 g s pend) := by
  have e : top g s pend = shutdown g (g.state s.e) { s with w := closed3 g s pend } := rfl
  rw [e]
  unfold shutdown
  by_cases hs : (closed3 g s pend).op .childout = false ∧ (closed3 g s pend).op .childin = false ∧ (g.state s.e).closed = false
  · rw [if_pos hs]; exact .inl ⟨hs.1, hs.2.1, hs.2.2, rfl⟩
  · rw [if_neg hs]; exact .inr ⟨hs, rfl, rfl⟩

theorem closed3_out {s : St E} (pend : Bool) (h : OutOpen s) : (g.state s.e).closed = true ∧ (g.state s.e).sendrec = false ∨
    (closed3 g s pend).op .peerout = true := by
  have hw : (s.w.act (.eng (.state (g.state s.e)))).op .peerout = true := h
  unfold closed3
  generalize s.w.act (.eng (.state (g.state s.e))) = w at hw
  unfold closes
  simp only
  have keep : ∀ (b : Prop) (_ : Decidable b) (w : W), w.op .peerout = true → (if b then w.close .childin else w).op .peerout = true := by
    intro b _ w hw
    split
    · exact (close_op _ (by decide)).trans hw
    · exact hw
  generalize hv : (if w.op .peerin = false ∧ w.op .childin = true ∧ (g.state s.e).recvapp = false then w.close .childin else w) = v
  have h2 : v.op .peerout = true := hv ▸ keep _ _ _ hw
  generalize hu : (if v.op .childout = false ∧ v.op .childin = true ∧ (g.state s.e).recvapp = false ∧
    ¬ (v.op .peerin = true ∧ pend = true) then v.close .childin else v) = u
  have h3 : u.op .peerout = true := hu ▸ keep _ _ _ h2
  split
  · rename_i hx; exact .inl hx.2.2
  · exact .inr h3

/-- With the network's input closed, the child's input is open only while there is plaintext for it. -/
theorem closed3_in {s : St E} {pend : Bool} (h1 : (closed3 g s pend).op .peerin = false) (h2 : (closed3 g s pend).op .childin = true) :
    (g.state s.e).recvapp = true := by
  unfold closed3 at h1 h2
  generalize s.w.act (.eng (.state (g.state s.e))) = w at h1 h2
  refine Classical.byContradiction fun hr => ?_
  have hr : (g.state s.e).recvapp = false := by simpa using hr
  unfold closes at h1 h2
  simp only at h1 h2
  have off : ∀ (w : W) (f : Fd), (w.close f).op f = false := by
    intro w f
    unfold W.close
    split
    · simp
    · rename_i hx; exact Bool.eq_false_iff.mpr hx
  have keep : ∀ (b : Prop) (_ : Decidable b) (w : W) (f f' : Fd), f' ≠ f → (if b then w.close f else w).op f' = w.op f' := by
    intro b _ w f f' hf
    split
    · exact close_op _ hf
    · rfl
  rw [keep _ _ _ _ _ (by decide), keep _ _ _ _ _ (by decide), keep _ _ _ _ _ (by decide)] at h1
  rw [keep _ _ _ _ _ (by decide)] at h2
  by_cases hc : w.op .childin = true
  · simp only [h1, hc, hr, and_self, if_true] at h2
    rw [off] at h2
    simp only [Bool.false_eq_true, false_and, and_false, if_false] at h2
    exact absurd (h2.symm.trans (off w .childin)) (by decide)
  · simp only [hc, and_false, false_and, if_false, Bool.false_eq_true] at h2

/-- The top part leaves the network's output open unless it reports an engine that is closed with nothing left to send. -/
theorem top_out {s : St E} (pend : Bool) (h : OutOpen s) (hn : (top g s pend).1.closed = true → (top g s pend).1.sendrec = true) :
    OutOpen (top g s pend).2 := by
  rcases top_cases (g := g) s pend with ⟨-, -, h3, h4⟩ | ⟨-, h3, h4⟩
  · unfold OutOpen
    rw [h4]
    rcases closed3_out (g := g) pend h with hc | hc
    · rw [hc.1] at h3; cases h3
    · exact hc
  · unfold OutOpen
    rw [h4]
    rcases closed3_out (g := g) pend h with hc | hc
    · rw [h3] at hn; rw [hn hc.1] at hc; exact absurd hc.2 (by decide)
    · exact hc

/-- No report of the engine's state. -/
def Quiet (l : List (Act Fd)) : Prop := ∀ st, Act.eng (.state st) ∉ l

/-- The last iteration of a loop that was left because nothing could be done any more. -/
theorem last_np {fromcert : Bool} (evs : List Ev) : ∀ {s s' : St E}, OutOpen s → loop g fromcert s evs = .ok (s', some .noProgress) →
    ∃ s0 pend, OutOpen s0 ∧ (∃ post, s'.w.log = (top g s0 pend).2.w.log ++ post ∧ Quiet post) ∧
      s'.w.op = (top g s0 pend).2.w.op ∧ ((top g s0 pend).1.closed = true → (top g s0 pend).1.sendrec = true) ∧
      (can (top g s0 pend).1 (top g s0 pend).2.w).frompeer = false ∧ (can (top g s0 pend).1 (top g s0 pend).2.w).topeer = false ∧
      (can (top g s0 pend).1 (top g s0 pend).2.w).fromchild = false ∧ (can (top g s0 pend).1 (top g s0 pend).2.w).tochild = false := by
  induction evs with
  | nil => intro s s' _ e; cases e
  | cons ev evs ih =>
    intro s s' h e
    rw [loop] at e
    cases ht : top g s ev.pend with
    | mk st s1 =>
      have ho := top_out (g := g) ev.pend h
      rw [ht] at ho
      simp only [ht] at e
      cases hr : rest g fromcert st s1 ev with
      | ub => simp [hr] at e
      | ok v =>
        obtain ⟨s2, y⟩ := v
        simp only [hr, Out.ok_bind] at e
        unfold rest at hr
        cases hp : reportHandshake g fromcert st s1 ev.usr with
        | ub => simp [hp] at hr
        | ok v =>
          obtain ⟨s3, y3⟩ := v
          have k1 := report_op hp
          have k2 := kept_report (P := fun l => ∃ post, l = s1.w.log ++ post ∧ Quiet post) (by
            rintro l a - ha ⟨post, rfl, hq⟩
            refine ⟨post ++ [a], by simp, fun st hm => ?_⟩
            rcases List.mem_append.mp hm with hm | hm
            · exact hq st hm
            · exact ha st (List.mem_singleton.mp hm).symm) ⟨[], by simp, fun st => by simp⟩ hp
          have k3 : ∀ y, y3 = some y → y ≠ .noProgress := by
            rintro y rfl rfl
            unfold reportHandshake at hp
            split at hp
            · cases hp
            split at hp
            · cases hp
            simp only at hp
            split at hp
            · cases hp
            split at hp
            · cases hp
            cases hn : nameBuf fromcert (g.crt s1.e).2 with
            | ub => simp [hn] at hp
            | ok buf =>
              simp only [hn, Out.ok_bind] at hp
              cases hu : reportUser { s1 with hs := true } buf ev.usr with
              | ub => simp [hu] at hp
              | ok v =>
                obtain ⟨s4, y4⟩ := v
                simp only [hu, Out.ok_bind] at hp
                cases y4 with
                | none => cases hp
                | some y4 =>
                  cases hp
                  unfold reportUser at hu
                  cases hl : Str.str_len buf with
                  | ub => simp [hl] at hu
                  | ok n =>
                    simp only [hl, Out.ok_bind] at hu
                    split at hu
                    · cases hu
                    split at hu
                    · cases hu
                    · split at hu <;> cases hu
          simp only [hp, Out.ok_bind] at hr
          cases y3 with
          | some y => cases hr; cases e; exact absurd rfl (k3 _ rfl)
          | none =>
            simp only at hr
            split at hr
            · cases hr; cases e
            split at hr
            · cases hr; cases e
            rename_i hc
            have hc : st.closed = true → st.sendrec = true := by intro h; simpa [h] using hc
            split at hr
            · rename_i hcan
              cases hr; cases e
              refine ⟨s, ev.pend, h, ?_⟩
              rw [ht]
              simp only [Bool.and_eq_true, Bool.not_eq_true'] at hcan
              exact ⟨k2, k1, hc, hcan.1.1.1, hcan.1.1.2, hcan.1.2, hcan.2⟩
            · cases y with
              | none =>
                refine ih (serve_out ?_ hr) e
                show s3.w.op .peerout = true
                rw [k1]; exact ho hc
              | some y =>
                simp only at e
                cases e
                unfold serve at hr
                split at hr
                · unfold doToChild at hr; split at hr <;> cases hr
                split at hr
                · unfold doToPeer at hr; split at hr <;> cases hr
                split at hr
                · unfold doFromPeer at hr
                  split at hr
                  · cases hr
                  · cases hr
                  · rename_i d _
                    revert hr
                    cases copyN (g.recvrec _) 0 d d.length <;> intro hr <;> cases hr
                split at hr
                · unfold doFromChild at hr
                  split at hr
                  · cases hr
                  · cases hr
                  · rename_i d _
                    revert hr
                    cases copyN (g.sendapp _) 0 d d.length <;> intro hr <;> cases hr
                split at hr
                · unfold doSelfpipe at hr
                  revert hr
                  cases selfpipeEvent _ ev.sig with
                  | mk w b => cases b <;> intro hr <;> cases hr
                · cases hr

theorem last_quiet {l post : List (Act Fd)} (h : Quiet post) : lastState (l ++ post) = lastState l := by
  induction post generalizing l with
  | nil => simp
  | cons a post ih =>
    have e : l ++ a :: post = (l ++ [a]) ++ post := by simp
    rw [e, ih (fun st hm => h st (List.mem_cons_of_mem _ hm)), lastState, List.foldl_append]
    show lastState1 (lastState l) a = _
    cases a with
    | eng x => cases x <;> first | rfl | exact absurd List.mem_cons_self (h _)
    | _ => rfl

/-! ### C112 -/

/-- The engine was told to close the connection, and what it had to send after that was sent: the last state it reported came after that,
without anything to send. -/
def Sent (log : List (Act Fd)) : Prop :=
  ∃ pre post st, log = pre ++ .eng .close :: post ∧ lastState post = some st ∧ st.sendrec = false

/-- The engine's last report is one of an established connection: it takes plaintext or has records to send, and it wants records or has
records to send; or it is closed. -/
def Established (log : List (Act Fd)) : Prop :=
  ∃ st, lastState log = some st ∧ (st.sendapp = true ∨ st.sendrec = true ∨ st.closed = true) ∧
    (st.recvrec = true ∨ st.sendrec = true ∨ st.closed = true)

/-- C112 (part): when the log says that close_notify was sent, then it was, and the child was gone in both directions. This needs that the
connection was established when the engine was last asked before it was ever told to close. (An engine of BearSSL that has completed its
handshake takes plaintext until it is closed, unless its record buffer is full and to be sent, or it renegotiates, which is turned off.) -/
theorem c112_close_notify_partial (hg : g.Sized) (op0 : Fd → Bool) (h0 : op0 .peerout = true) (fromcert rep0 : Bool) (e : E) (N C : Bytes)
    (evs : List Ev) (s : St E) (y : Why) (h : loop g fromcert (start op0 e rep0 N C) evs = .ok (s, some y)) (done : Bool) (err : Int)
    (hl : phaseLine done err y = some closeNotifySent) (he : Act.eng .close ∉ s.w.log → Established s.w.log) :
    Sent s.w.log ∧ Closed op0 s.w.log .childin ∧ Closed op0 s.w.log .childout := by
  cases line_np hl
  have hw := ((run_fin hg h).r0 (by simp)).wi
  obtain ⟨s0, pend, k1, ⟨post, k2, k3⟩, k4, k5, f1, f2, f3, f4⟩ := last_np evs (s := start op0 e rep0 N C) h0 h
  have ho := top_out (g := g) pend k1 k5
  have hls := top_last (g := g) s0 pend
  generalize hst : (top g s0 pend).1 = st at k5 f1 f2 f3 f4 hls
  have hlast : lastState s.w.log = some st := by rw [k2, last_quiet k3, hls]
  simp only [can] at f1 f2 f3 f4
  rw [show (top g s0 pend).2.w.op .peerout = true from ho] at f2 f3
  simp only [Bool.and_true] at f2 f3
  have hcl : st.closed = false := by
    cases hc : st.closed with
    | false => rfl
    | true => rw [k5 hc] at f2; cases f2
  have gone : s.w.op .childin = false ∧ s.w.op .childout = false := by
    by_cases hm : Act.eng .close ∈ s.w.log
    · obtain ⟨pre, post', e⟩ := List.append_of_mem hm
      have := (hw.al pre _ post' e).2
      have up : ∀ f, Closed op0 pre f → s.w.op f = false := by
        rintro f (k | k)
        · exact (hw.cl f).mpr (.inl k)
        · exact (hw.cl f).mpr (.inr (e ▸ List.mem_append_left _ k))
      exact ⟨up _ this.1, up _ this.2.1⟩
    · obtain ⟨st', e, hs, hr⟩ := he hm
      rw [hlast] at e
      cases e
      simp only [f2, hcl, Bool.false_eq_true, or_false] at hs hr
      rw [hs, Bool.true_and] at f3
      rw [hr, f2, f3] at f1
      simp only [Bool.true_and, Bool.or_false] at f1
      refine ⟨?_, by rw [k4]; exact f3⟩
      rw [k4]
      refine Classical.byContradiction fun hc => ?_
      have hc : (top g s0 pend).2.w.op .childin = true := by simpa using hc
      rw [hc] at f1 f4
      simp only [Bool.and_true] at f1 f4
      rcases top_cases (g := g) s0 pend with ⟨-, h2, -, h4⟩ | ⟨-, h3, h4⟩
      · rw [h4] at hc
        exact absurd (hc.symm.trans h2) (by decide)
      · rw [h4] at f1 hc
        have := closed3_in f1 hc
        rw [← h3, hst, f4] at this
        cases this
  refine ⟨?_, (hw.cl _).mp gone.1, (hw.cl _).mp gone.2⟩
  rw [k4] at gone
  rcases top_cases (g := g) s0 pend with ⟨-, -, -, h4⟩ | ⟨hn, h3, h4⟩
  · refine ⟨(closed3 g s0 pend).log, [.eng .flush, .eng (.state st)] ++ post, st, ?_, ?_, f2⟩
    · rw [k2, h4, hst]; simp [W.act]
    · rw [last_quiet k3]; rfl
  · rw [h4] at gone
    refine absurd ⟨gone.2, gone.1, ?_⟩ hn
    rw [← h3, hst]; exact hcl

/-- A small engine like BearSSL's: 0: established; 1: told to close, with an alert record to send; 2: waits for the answer to it. -/
def small : Engine Nat where
  state e := ⟨false, e == 1, e == 0 || e == 2, e == 0, false⟩
  recvapp _ := []
  recvappAck e _ := e
  sendrec _ := [21, 3, 3]
  sendrecAck e n := if n = 3 then 2 else e
  sendapp _ := [0, 0, 0, 0]
  sendappAck e _ _ := e
  recvrec _ := [0, 0, 0, 0]
  recvrecAck e _ _ := e
  flush e := e
  close e := if e = 0 then 1 else e
  crt _ := (1, b!"joe" ++ List.replicate 253 0)

/-- The child ends; the alert is sent; the log says so, and rightly. The hypotheses of `c112_close_notify_partial` hold. -/
example : small.Sized ∧ (match loop small false (start (fun _ => true) 0 true b!"" b!"")
      [demoEv ⟨false, false, false, true, false⟩ 9, demoEv ⟨true, false, false, false, false⟩ 9, demoEv ⟨true, true, true, true, true⟩ 9] with
    | .ok (s, some y) => phaseLine true 0 y == some closeNotifySent && s.w.log.contains (.eng .close) &&
        wroteOf .peerout s.w.log == [21, 3, 3]
    | _ => false) = true := by
  refine ⟨fun _ => ?_, by decide +kernel⟩
  show (b!"joe" ++ List.replicate 253 0 : Bytes).length = 256
  rw [List.length_append, List.length_replicate]; rfl

/-- An engine that waits for the client's next handshake record, and for nothing else. -/
def inHandshake : Flags := ⟨false, false, true, false, false⟩

/-- C112, what the code does not do: the client closes its TCP connection before the handshake is complete. The log says that close_notify
was sent, but the engine was never told to close, nothing was written to the network, and the child has not finished. -/
theorem c112_vanished (fromcert rep0 : Bool) (e : E) (he : g.state e = inHandshake) (C : Bytes) (done : Bool) (err : Int) (ev ev' : Ev)
    (hp : ev.poll = some ⟨false, true, false, false, false⟩) (hr : (∃ m, ev.rd = .data m) ∨ ∃ k, ev.rd = .err k) :
    ∃ s y, loop g fromcert (start (fun _ => true) e rep0 [] C) [ev, ev'] = .ok (s, some y) ∧
      phaseLine done err y = some closeNotifySent ∧ ¬ Sent s.w.log ∧ (∀ d, Act.write .peerout d ∉ s.w.log) ∧
      ¬ Closed (fun _ => true) s.w.log .childout := by
  have hb : tryRead (g.recvrec e).length [] ev.rd = .ended := by
    rcases hr with ⟨k, hr⟩ | ⟨k, hr⟩ <;> rw [hr] <;> simp [tryRead, Io.got]
  have hl : loop g fromcert (start (fun _ => true) e rep0 [] C) [ev, ev'] =
      .ok (⟨⟨fun f => !decide (f = Fd.childin) && !decide (f = Fd.peerin),
        [.eng (.state inHandshake), .eng (.wait [.peerin]), .ended .peerin, .close .peerin, .eng (.state inHandshake), .close .childin]⟩,
        e, false, rep0, [], C⟩, some .noProgress) := by
    simp [loop, top, look, start, he, inHandshake, closes, shutdown, rest, reportHandshake, can, after, hp, serve, doFromPeer, hb, W.act,
      W.close, watched]
  refine ⟨_, _, hl, rfl, ?_, by simp, by simp [Closed]⟩
  rintro ⟨pre, post, st, hx, -⟩
  have : Act.eng EngAct.close ∈ pre ++ Act.eng EngAct.close :: post := by simp
  rw [← hx] at this
  simp at this

example : (toy true).state ⟨[], 0, [], false⟩ = inHandshake := by decide

/-- No write has failed. -/
def NoFail (l : List (Act Fd)) : Prop := ∀ f, Act.failed f ∉ l

theorem noFail_kept {l : List (Act Fd)} {a : Act Fd} (h : NoFail l) (ha : ∀ f, a ≠ .failed f) : NoFail (l ++ [a]) := by
  intro f hm
  rcases List.mem_append.mp hm with hm | hm
  · exact h f hm
  · exact ha f (List.mem_singleton.mp hm).symm

theorem noFail_of_noStop {l : List (Act Fd)} (h : NoStop l) : NoFail l := fun _ hf => h _ hf trivial

/-- A run that ends otherwise than by a failed write has none. -/
theorem noFail_loop {fromcert : Bool} (evs : List Ev) : ∀ {s s' : St E} {y : Why}, NoStop s.w.log →
    loop g fromcert s evs = .ok (s', some y) → y ≠ .childWrite → y ≠ .peerWrite → NoFail s'.w.log := by
  induction evs with
  | nil => intro s s' y _ e; cases e
  | cons ev evs ih =>
    intro s s' y h e h1 h2
    rw [loop] at e
    cases ht : top g s ev.pend with
    | mk st s1 =>
      have k1 := noStop_top (g := g) ev.pend h
      have k2 := top_last (g := g) s ev.pend
      rw [ht] at k1 k2
      simp only [ht] at e
      cases hr : rest g fromcert st s1 ev with
      | ub => simp [hr] at e
      | ok v =>
        obtain ⟨s2, y2⟩ := v
        simp only [hr, Out.ok_bind] at e
        cases y2 with
        | none => exact ih (going_rest k1 k2 hr).1 e h1 h2
        | some y2 =>
          simp only at e
          cases e
          unfold rest at hr
          cases hp : reportHandshake g fromcert st s1 ev.usr with
          | ub => simp [hp] at hr
          | ok v =>
            obtain ⟨s3, y3⟩ := v
            have k3 := kept_report kept_noStop k1 hp
            simp only [hp, Out.ok_bind] at hr
            cases y3 with
            | some y3 => cases hr; exact noFail_of_noStop k3
            | none =>
              simp only at hr
              split at hr
              · cases hr; exact noFail_of_noStop k3
              split at hr
              · cases hr; exact noFail_of_noStop k3
              split at hr
              · cases hr; exact noFail_of_noStop k3
              have k4 : NoFail (s3.w.act (.eng (.wait (watched (can st s1.w))))).log := noFail_kept (noFail_of_noStop k3) nofun
              generalize s3.w.act (.eng (.wait (watched (can st s1.w)))) = w at hr k4
              unfold serve at hr
              split at hr
              · unfold doToChild at hr; split at hr <;> cases hr; exact absurd rfl h1
              split at hr
              · unfold doToPeer at hr; split at hr <;> cases hr; exact absurd rfl h2
              split at hr
              · unfold doFromPeer at hr
                split at hr
                · cases hr
                · cases hr
                · rename_i d _
                  revert hr
                  cases copyN (g.recvrec _) 0 d d.length <;> intro hr <;> cases hr
              split at hr
              · unfold doFromChild at hr
                split at hr
                · cases hr
                · cases hr
                · rename_i d _
                  revert hr
                  cases copyN (g.sendapp _) 0 d d.length <;> intro hr <;> cases hr
              split at hr
              · unfold doSelfpipe at hr
                cases hsg : ev.sig with
                | again => rw [hsg] at hr; cases hr
                | failed => rw [hsg] at hr; cases hr; exact k4
                | byte c =>
                  rw [hsg] at hr
                  simp only [selfpipeEvent] at hr
                  split at hr
                  · cases hr
                  split at hr
                  · cases hr
                  · cases hr; exact noFail_kept k4 nofun
              · cases hr

/-- C112: what the other lines say is so. A failed write is named by its descriptor. "handshake failed" and "finished" with a
reason of the engine come from an engine that is closed, before and after an account record could be sent, the latter with nothing left
to send. "signal" comes with a command of the signal pipe that ends the relay, or with an error on that pipe. -/
theorem c112_lines (hg : g.Sized) (op0 : Fd → Bool) (fromcert rep0 : Bool) (e : E) (N C : Bytes) (evs : List Ev)
    (s : St E) (y : Why) (h : loop g fromcert (start op0 e rep0 N C) evs = .ok (s, some y)) (done : Bool) (err : Int) (l : String)
    (hl : phaseLine done err y = some l) :
    (l = "tls phase: write to child failed" ↔ ∃ q, s.w.log = q ++ [.failed .childin, .close .childin]) ∧
    (l = "tls phase: write to network failed" ↔ ∃ q, s.w.log = q ++ [.failed .peerout, .close .peerout]) ∧
    (l = "tls phase: signal" → (∃ ev ∈ evs, ev.sig = .failed) ∨ ∃ q c, s.w.log = q ++ [.sig c] ∧ c ≠ c! 'C') ∧
    (l = "tls phase: handshake failed, " ++ (Diag.tls_engine_close_reason done err).1 →
      ∃ st, lastState s.w.log = some st ∧ st.closed = true ∧ users s.w.log = []) ∧
    (l = "tls phase: finished, " ++ (Diag.tls_engine_close_reason done err).1 →
      ∃ st, lastState s.w.log = some st ∧ st.closed = true ∧ st.sendrec = false) := by
  have hf := run_fin hg h
  have nf := noFail_loop (s := start op0 e rep0 N C) evs noStop_nil h
  have n1 : ∀ x, "tls phase: handshake failed, " ++ x ≠ "tls phase: write to child failed" ∧
      "tls phase: handshake failed, " ++ x ≠ "tls phase: write to network failed" ∧ "tls phase: handshake failed, " ++ x ≠ "tls phase: signal" := by
    intro x
    exact ⟨Diag.char_ne (q := "tls phase: write to child failed") (t := "") 11 (by decide) (by decide) (by decide),
      Diag.char_ne (q := "tls phase: write to network failed") (t := "") 11 (by decide) (by decide) (by decide),
      Diag.char_ne (q := "tls phase: signal") (t := "") 11 (by decide) (by decide) (by decide)⟩
  have n2 : ∀ x, "tls phase: finished, " ++ x ≠ "tls phase: write to child failed" ∧
      "tls phase: finished, " ++ x ≠ "tls phase: write to network failed" ∧ "tls phase: finished, " ++ x ≠ "tls phase: signal" := by
    intro x
    exact ⟨Diag.char_ne (q := "tls phase: write to child failed") (t := "") 11 (by decide) (by decide) (by decide),
      Diag.char_ne (q := "tls phase: write to network failed") (t := "") 11 (by decide) (by decide) (by decide),
      Diag.char_ne (q := "tls phase: signal") (t := "") 11 (by decide) (by decide) (by decide)⟩
  have n3 : ∀ x z, "tls phase: handshake failed, " ++ x ≠ "tls phase: finished, " ++ z := fun x z =>
    Diag.char_ne 11 (by decide) (by decide) (by decide)
  have np := line_np (done := done) (err := err) (y := .closed)
  have nh : y ≠ .childWrite → y ≠ .peerWrite → ∀ f, ¬ ∃ q, s.w.log = q ++ [.failed f, .close f] := by
    rintro h1 h2 f ⟨q, e⟩
    exact nf h1 h2 f (e ▸ by simp)
  cases y with
  | handshakeFailed =>
    cases hl
    refine ⟨⟨fun k => absurd k (n1 _).1, fun k => absurd k (nh nofun nofun _)⟩, ⟨fun k => absurd k (n1 _).2.1, fun k => absurd k (nh nofun nofun _)⟩,
      fun k => absurd k (n1 _).2.2, fun _ => hf.r1 rfl, fun k => absurd k (n3 _ _)⟩
  | closed =>
    cases hl
    refine ⟨⟨fun k => absurd k (n2 _).1, fun k => absurd k (nh nofun nofun _)⟩, ⟨fun k => absurd k (n2 _).2.1, fun k => absurd k (nh nofun nofun _)⟩,
      fun k => absurd k (n2 _).2.2, fun k => absurd k.symm (n3 _ _), fun _ => hf.r2 rfl⟩
  | noProgress =>
    cases hl
    refine ⟨⟨fun k => absurd k (by decide), fun k => absurd k (nh nofun nofun _)⟩, ⟨fun k => absurd k (by decide), fun k => absurd k (nh nofun nofun _)⟩,
      fun k => absurd k (by decide), fun k => ?_, fun k => ?_⟩
    · exact absurd k.symm (n3 _ "close_notify sent, not waiting for peer")
    · exact absurd (np (congrArg some k.symm)) (by decide)
  | childWrite =>
    cases hl
    obtain ⟨q, e⟩ := hf.r4 rfl
    refine ⟨⟨fun _ => ⟨q, e⟩, fun _ => rfl⟩, ⟨fun k => absurd k (by decide), ?_⟩, fun k => absurd k (by decide),
      fun k => absurd k.symm (n1 _).1, fun k => absurd k.symm (n2 _).1⟩
    rintro ⟨q', e'⟩
    have := congrArg List.getLast? (e.symm.trans e')
    simp at this
  | peerWrite =>
    cases hl
    obtain ⟨q, e⟩ := hf.r5 rfl
    refine ⟨⟨fun k => absurd k (by decide), ?_⟩, ⟨fun _ => ⟨q, e⟩, fun _ => rfl⟩, fun k => absurd k (by decide),
      fun k => absurd k.symm (n1 _).2.1, fun k => absurd k.symm (n2 _).2.1⟩
    rintro ⟨q', e'⟩
    have := congrArg List.getLast? (e.symm.trans e')
    simp at this
  | signal =>
    cases hl
    refine ⟨⟨fun k => absurd k (by decide), fun k => absurd k (nh nofun nofun _)⟩, ⟨fun k => absurd k (by decide), fun k => absurd k (nh nofun nofun _)⟩,
      fun _ => ?_, fun k => absurd k.symm (n1 _).2.2, fun k => absurd k.symm (n2 _).2.2⟩
    rcases hf.r6 rfl with k | ⟨q, c, k1, k2, -⟩
    · exact .inl k
    · exact .inr ⟨q, c, k1, k2⟩
  | noName => cases hl
  | userFailed => cases hl
  | userBlocked => cases hl

/-- The child no longer takes its input: hypotheses of `c112_lines`. -/
example : (match loop (toy false) false (start (fun _ => true) ⟨[], 0, [], false⟩ true b!"hi!" b!"")
      [demoEv ⟨false, true, false, false, false⟩ 9, { demoEv ⟨false, false, true, false, false⟩ 9 with wr := .zero }] with
    | .ok (s, some y) => phaseLine s.hs 0 y == some "tls phase: write to child failed" &&
        s.w.log.getLast? == some (.close .childin)
    | _ => false) = true := by decide +kernel

end Relay.Tls
