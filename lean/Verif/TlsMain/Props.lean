import Verif.TlsMain.Course
import Verif.Relay.Over
/-
tlswrapper as a whole: C106 and C107.
-/
namespace TlsMain
open Conf.Spec (Opt values last switch certs)
open Main (Outcome)
open Relay Session

variable {E : Type}

/-! ### Traces -/

@[simp] theorem acts_append (x y : List Obs) : acts (x ++ y) = acts x ++ acts y := List.filterMap_append
@[simp] theorem given_append (x y : List Obs) : given (x ++ y) = given x ++ given y := List.flatMap_append
@[simp] theorem acts_relay (as : List (Act Fd)) : acts (as.map Obs.relay) = as := by
  induction as with
  | nil => rfl
  | cons b bs ih => exact congrArg (b :: ·) ih
@[simp] theorem given_relay (as : List (Act Fd)) : given (as.map Obs.relay) = as.flatMap input1 := by
  unfold given
  rw [List.flatMap_map]
  congr 1
  funext a
  cases a with
  | write f d => cases f <;> rfl
  | eng x => cases x <;> rfl
  | _ => rfl
@[simp] theorem acts_lead (w : World E) (opts : List Opt) (rest : Bytes) : acts (lead w opts rest) = [] := by unfold lead; split <;> rfl
@[simp] theorem given_lead (w : World E) (opts : List Opt) (rest : Bytes) : given (lead w opts rest) = [] := by unfold lead; split <;> rfl
@[simp] theorem acts_plan (w : World E) (d : Bytes) (opts : List Opt) (prog : List Bytes) : acts (plan w d opts prog) = [] := by
  unfold plan
  cases (values (c! 'a') opts).head? <;> split <;> rfl
@[simp] theorem given_plan (w : World E) (d : Bytes) (opts : List Opt) (prog : List Bytes) : given (plan w d opts prog) = [] := by
  unfold plan
  cases (values (c! 'a') opts).head? <;> split <;> rfl
@[simp] theorem acts_seen (r : Run E) : acts (seen r) = r.log := by
  cases r with
  | boot => rfl
  | clear pre s why => exact acts_relay _
  | tls pre cl s why => exact acts_relay _
@[simp] theorem given_seen (r : Run E) : given (seen r) = r.input := by
  cases r with
  | boot => rfl
  | clear pre s why => exact congrArg (pre ++ ·) (given_relay _)
  | tls pre cl s why => exact congrArg (pre ++ ·) (given_relay _)
@[simp] theorem acts_header (u : Bytes) : acts [.header u] = [] := rfl
@[simp] theorem given_header (u : Bytes) : given [.header u] = [] := rfl

theorem acts_prefix {x y : List Obs} (h : x <+: y) (hy : acts y = []) : acts x = [] := by
  obtain ⟨z, rfl⟩ := h
  simp at hy
  exact hy.1
theorem given_prefix {x y : List Obs} (h : x <+: y) (hy : given y = []) : given x = [] := by
  obtain ⟨z, rfl⟩ := h
  simp at hy
  exact hy.1

theorem plan_client (w : World E) (d : Bytes) (opts : List Opt) (prog : List Bytes) : ∀ o ∈ plan w d opts prog, ¬ o.Client := by
  intro o ho
  unfold plan at ho
  simp only [List.mem_append, List.mem_cons, List.not_mem_nil, or_false] at ho
  rcases ho with ((rfl | rfl) | ho) | ho
  · exact fun h => h
  · exact fun h => h
  · split at ho
    · cases ho
    · simp at ho; exact ho ▸ fun h => h
  · split at ho
    · cases ho
    · simp at ho; exact ho ▸ fun h => h

theorem lead_client (w : World E) (opts : List Opt) (rest : Bytes) : ∀ o ∈ lead w opts rest, o.Client := by
  intro o ho
  unfold lead at ho
  split at ho
  · simp at ho; subst ho; trivial
  · cases ho

theorem seen_client (r : Run E) : ∀ o ∈ seen r, o.Client := by
  intro o ho
  cases r <;> simp [seen] at ho
  · rcases ho with rfl | ⟨a, -, rfl⟩ <;> trivial
  · rcases ho with rfl | ⟨a, -, rfl⟩ | ⟨a, -, rfl⟩ <;> trivial

/-- A run whose relay did something, or whose program was told something, is a session with a client. -/
theorem course_session {w : World E} {d : Bytes} {opts : List Opt} {prog : List Bytes} {res : Res}
    (h : Course w d opts prog res) (hne : acts res.trace ≠ [] ∨ given res.trace ≠ []) :
    ∃ e rest r, Ready w opts ∧ Client w opts e rest ∧ ConnInfo.Sized e ∧ Sess w opts e rest r ∧ r ≠ .boot ∧
      acts res.trace = r.log ∧ given res.trace = r.input ∧ res.fate = over w r := by
  cases h with
  | early tr h1 h2 =>
    simp only [acts_prefix h2 (acts_plan _ _ _ _), given_prefix h2 (given_plan _ _ _ _)] at hne
    simp at hne
  | asking => simp at hne
  | silent => simp at hne
  | refused => simp at hne
  | meeting => simp at hne
  | session e rest r h1 h2 h3 h4 h5 => exact ⟨e, rest, r, h1, h2, h3, h4, h5, by simp, by simp, rfl⟩

/-! ### C106 -/

/-- **C106 (defined).** Whatever the arguments, the client, the program, the key process and the TLS engine do, a run of
tlswrapper never leaves its buffers or overflows a number. -/
theorem c106_defined {w : World E} (hw : Sound w) (emptydir : Bytes) (argv : List Bytes) (ha : ∀ x ∈ argv, NoNul x) :
    ∃ res, program w emptydir argv = .ok res := by
  by_cases h : ∃ a args opts prog, argv = a :: args ∧ Conf.Good w.fs args opts prog
  · obtain ⟨a, args, opts, prog, rfl, hg⟩ := h
    obtain ⟨res, h, -⟩ := runs hw emptydir a (fun x hx => ha x (by simp [hx])) hg
    exact ⟨res, h⟩
  · exact ⟨⟨[], some (.exit 100)⟩, by simp [program, Conf.c60_refuses w.fs emptydir argv ha h]⟩

/-- **C106 (refused).** With any other command line nothing happens at all, and the exit code is 100. -/
theorem c106_refuses (w : World E) (emptydir : Bytes) (argv : List Bytes) (ha : ∀ x ∈ argv, NoNul x)
    (h : ¬ ∃ a args opts prog, argv = a :: args ∧ Conf.Good w.fs args opts prog) :
    program w emptydir argv = .ok ⟨[], some (.exit 100)⟩ := by
  simp [program, Conf.c60_refuses w.fs emptydir argv ha h]

/-- **C106 (order).** If everything that has to succeed does, the plan is carried out, whole and in its order, before
anything of the client is touched, and is not resumed later. If something fails, the run stops within the plan: the client's bytes are
not touched, the program's process is told nothing, and the exit code is 111, unless the key process does not
answer. -/
theorem c106_order {w : World E} (hw : Sound w) (emptydir a : Bytes) (args : List Bytes) (ha : ∀ x ∈ args, NoNul x)
    (opts : List Opt) (prog : List Bytes) (hg : Conf.Good w.fs args opts prog) (res : Res)
    (h : program w emptydir (a :: args) = .ok res) :
    (Ready w opts → ∃ tl, res.trace = plan w emptydir opts prog ++ tl ∧ ∀ o ∈ tl, o.Client) ∧
    (¬ Ready w opts → res.trace <+: plan w emptydir opts prog ∧ (res.fate = some (.exit 111) ∨
      res.fate = none ∧ res.trace = plan w emptydir opts prog ∧
        ∃ fn, (values (c! 'a') opts).head? = some fn ∧ w.anchor (Path.Spec.undot (Path.Spec.collapse fn)) = .waits)) := by
  cases run_course hw ha hg h with
  | early tr h1 h2 => exact ⟨fun hr => absurd hr h1, fun _ => ⟨h2, .inl rfl⟩⟩
  | asking fn h1 h2 => exact ⟨fun _ => ⟨[], by simp⟩, fun _ => ⟨List.prefix_refl _, .inr ⟨rfl, rfl, fn, h1, h2⟩⟩⟩
  | silent h1 h2 => exact ⟨fun _ => ⟨[], by simp⟩, fun hn => absurd h1 hn⟩
  | refused u h1 => exact ⟨fun _ => ⟨_, rfl, by simp [Obs.Client]⟩, fun hn => absurd h1 hn⟩
  | meeting e rest f h1 => exact ⟨fun _ => ⟨_, rfl, lead_client _ _ _⟩, fun hn => absurd h1 hn⟩
  | session e rest r h1 =>
    refine ⟨fun _ => ⟨lead w opts rest ++ seen r, by simp, ?_⟩, fun hn => absurd h1 hn⟩
    intro o ho
    rcases List.mem_append.mp ho with ho | ho
    · exact lead_client _ _ _ o ho
    · exact seen_client r o ho

/-- **C106 (confined).** Before the first byte of the client is taken or the program is told anything, the program's
process and the key process have been started, the jail has been entered with the account and directory of the options (unless it is
switched off), and the anchors have been fetched and understood if -a is given. -/
theorem c106_confined {w : World E} (hw : Sound w) (emptydir a : Bytes) (args : List Bytes) (ha : ∀ x ∈ args, NoNul x)
    (opts : List Opt) (prog : List Bytes) (hg : Conf.Good w.fs args opts prog) (res : Res)
    (h : program w emptydir (a :: args) = .ok res) (pre post : List Obs) (o : Obs) (hs : res.trace = pre ++ o :: post)
    (ho : o.Client) :
    plan w emptydir opts prog <+: pre ∧ Ready w opts ∧
    (w.nojail = false → Obs.jailed (last (c! 'j') opts) ((last (c! 'J') opts).getD emptydir) ∈ pre ∧ w.jail = true) := by
  obtain ⟨h1, h2⟩ := c106_order hw emptydir a args ha opts prog hg res h
  have hr : Ready w opts := by
    refine Classical.byContradiction fun hn => ?_
    obtain ⟨⟨z, hz⟩, -⟩ := h2 hn
    refine plan_client w emptydir opts prog o ?_ ho
    rw [← hz, hs]
    simp
  obtain ⟨tl, htl, -⟩ := h1 hr
  have hp : plan w emptydir opts prog <+: pre := by
    rw [hs] at htl
    rcases List.append_eq_append_iff.mp htl with ⟨z, e1, e2⟩ | ⟨z, e1, e2⟩
    · cases z with
      | nil => rw [List.append_nil] at e1; rw [e1]; exact List.prefix_refl _
      | cons x z =>
        simp only [List.cons_append, List.cons.injEq] at e2
        refine absurd ho (plan_client w emptydir opts prog o ?_)
        rw [e1, e2.1]
        simp
    · exact ⟨z, e1.symm⟩
  refine ⟨hp, hr, fun hj => ⟨?_, hr.jail hj⟩⟩
  obtain ⟨z, rfl⟩ := hp
  refine List.mem_append_left _ ?_
  simp [plan, hj]

/-- **C106 (header).** With PROXY protocol the client's bytes begin with the header: either it has not arrived yet and nothing
was told or relayed; or it is not one and the exit code is 100, again with nothing told or relayed; or
everything after it, and nothing of it, is the client's. Without, no byte is taken as header. -/
theorem c106_header {w : World E} (hw : Sound w) (emptydir a : Bytes) (args : List Bytes) (ha : ∀ x ∈ args, NoNul x)
    (opts : List Opt) (prog : List Bytes) (hg : Conf.Good w.fs args opts prog) (res : Res)
    (h : program w emptydir (a :: args) = .ok res) (hr : Ready w opts) :
    (b!"1" ∈ values (c! 'p') opts →
      (res = ⟨plan w emptydir opts prog, none⟩) ∨
      (∃ used, res = ⟨plan w emptydir opts prog ++ [.header used], some (.exit 100)⟩ ∧ used <+: w.client.src ∧
        (∀ L e rest, w.client.src = L ++ c! '\n' :: rest → c! '\n' ∉ L → L.length < 127 → Proxy.Loose w.codec L e →
          ∃ ev ∈ w.client.evs, Proxy.Bad ev)) ∨
      (∃ L e rest tl, w.client.src = L ++ c! '\n' :: rest ∧ c! '\n' ∉ L ∧ Proxy.Loose w.codec L e ∧
        res.trace = plan w emptydir opts prog ++ .header (L ++ [c! '\n']) :: tl)) ∧
    (b!"1" ∉ values (c! 'p') opts → ∀ u, Obs.header u ∉ res.trace) := by
  have hlead : ∀ {e rest}, Client w opts e rest → b!"1" ∈ values (c! 'p') opts →
      ∃ L, w.client.src = L ++ c! '\n' :: rest ∧ c! '\n' ∉ L ∧ Proxy.Loose w.codec L e ∧ lead w opts rest = [.header (L ++ [c! '\n'])] := by
    intro e rest hc hp
    cases hc with
    | announced L h1 h2 h3 h4 =>
      refine ⟨L, h2, h3, h4, ?_⟩
      rw [lead, if_pos hp, h2]
      have : (L ++ c! '\n' :: rest).length - rest.length = L.length + 1 := by simp; omega
      rw [this, List.take_append]
      simp [List.take_of_length_le]
    | direct h1 => exact absurd hp h1
  have hnone : b!"1" ∉ values (c! 'p') opts → ∀ u rest, Obs.header u ∉ lead w opts rest := by
    intro hp u rest hm
    rw [lead, if_neg hp] at hm
    cases hm
  have hplan : ∀ u, Obs.header u ∉ plan w emptydir opts prog := fun u hm => plan_client _ _ _ _ _ hm trivial
  have hseen : ∀ u (r : Run E), Obs.header u ∉ seen r := by
    intro u r hm
    cases r <;> simp [seen] at hm
  cases run_course hw ha hg h with
  | early tr h1 => exact absurd hr h1
  | asking fn h1 h2 =>
    obtain ⟨d, h3, -⟩ := hr.anchor fn h1
    rw [h2] at h3
    cases h3
  | silent h1 h2 => exact ⟨fun _ => .inl rfl, fun hn => absurd h2 hn⟩
  | refused u h1 h2 h3 h4 => exact ⟨fun _ => .inr (.inl ⟨u, rfl, h3, h4⟩), fun hn => absurd h2 hn⟩
  | meeting e rest f h1 h2 =>
    refine ⟨fun hp => .inr (.inr ?_), fun hp u hm => ?_⟩
    · obtain ⟨L, k1, k2, k3, k4⟩ := hlead h2 hp
      exact ⟨L, e, rest, [], k1, k2, k3, by rw [k4]⟩
    · rcases List.mem_append.mp hm with hm | hm
      · exact hplan u hm
      · exact hnone hp u rest hm
  | session e rest r h1 h2 =>
    refine ⟨fun hp => .inr (.inr ?_), fun hp u hm => ?_⟩
    · obtain ⟨L, k1, k2, k3, k4⟩ := hlead h2 hp
      exact ⟨L, e, rest, seen r, k1, k2, k3, by rw [k4]; simp⟩
    · rcases List.mem_append.mp hm with hm | hm
      · rcases List.mem_append.mp hm with hm | hm
        · exact hplan u hm
        · exact hnone hp u rest hm
      · exact hseen u r hm

/-! ### C107 -/

/-- **C107 (encrypted).** Without delayed encryption, the TLS engine gets exactly the client's own bytes, from the first on
and in order; the program gets nothing but what the engine decrypted; the client gets nothing but records of the engine, which has been given the
program's output from its first byte on. Nothing passes in clear. -/
theorem c107_encrypted {w : World E} (hw : Sound w) (emptydir a : Bytes) (args : List Bytes) (ha : ∀ x ∈ args, NoNul x)
    (opts : List Opt) (prog : List Bytes) (hg : Conf.Good w.fs args opts prog) (res : Res)
    (h : program w emptydir (a :: args) = .ok res) (hd : switch (c! 'n') (c! 'N') false opts = false) (hne : acts res.trace ≠ []) :
    ∃ e rest, Client w opts e rest ∧
      Tls.gaveRec (acts res.trace) <+: rest ∧ wroteOf .childin (acts res.trace) = Tls.tookApp (acts res.trace) ∧
      Tls.gaveApp (acts res.trace) <+: w.output ∧ wroteOf .peerout (acts res.trace) = Tls.tookRec (acts res.trace) := by
  obtain ⟨e, rest, r, h1, h2, h3, ⟨e0, h4⟩, h5, h6, -⟩ := course_session (run_course hw ha hg h) (.inl hne)
  refine ⟨e, rest, h2, ?_⟩
  rw [hd] at h4
  rw [h6]
  obtain ⟨r', h7, h8⟩ := c89_defined hw.engine e0 (last (c! 'U') opts).isSome false e w.m1 w.m2 rest w.output w.control hw.m1 hw.m2
    w.wevs w.evs1 w.evs2
  rw [h4] at h7
  cases h7
  rcases h8 rfl with rfl | ⟨pre, t, y, rfl⟩
  · exact absurd rfl h5
  obtain ⟨b1, b2, b3, b4, -⟩ := c89_direct hw.engine e0 _ e w.m1 w.m2 rest w.output w.control hw.m1 hw.m2 w.wevs w.evs1 w.evs2 _ _ _ _ h4
  have k : ∀ (l : List (Act Fd)), Run.log (.tls pre [.close .ctl, .close .ack] t y) = [.close .ctl, .close .ack] ++ t.w.log := fun _ => rfl
  rw [k []]
  refine ⟨?_, ?_, ?_, ?_⟩
  · rw [Tls.gaveRec_append]; exact b1
  · rw [Tls.tookApp_append, wroteOf_append]; exact b2
  · rw [Tls.gaveApp_append]; exact b3
  · rw [Tls.tookRec_append, wroteOf_append]; exact b4

/-- **C107 (delayed).** With delayed encryption the relay has a first part without the TLS engine. If the program never asked for TLS,
or was not acknowledged, there is no second part, and both sides get a first part of what the other sent. Otherwise the program asked with
one zero byte and was acknowledged with one; of the client's bytes a first part reached the program in clear, a second part is
dropped and the rest is the engine's; and the client gets, after what the program wrote before, nothing but records. -/
theorem c107_delayed {w : World E} (hw : Sound w) (emptydir a : Bytes) (args : List Bytes) (ha : ∀ x ∈ args, NoNul x)
    (opts : List Opt) (prog : List Bytes) (hg : Conf.Good w.fs args opts prog) (res : Res)
    (h : program w emptydir (a :: args) = .ok res) (hd : switch (c! 'n') (c! 'N') false opts = true) (hne : acts res.trace ≠ []) :
    ∃ e rest cl tl, Client w opts e rest ∧ acts res.trace = cl ++ tl ∧ NoEng cl ∧
      ((tl = [] ∧ wroteOf .childin cl <+: rest ∧ wroteOf .peerout cl <+: w.output) ∨
       (readOf .ctl cl = [0] ∧ wroteOf .ack cl = [0] ∧ Tls.users tl = [] ∧
        (∃ dropped unread, rest = wroteOf .childin cl ++ (dropped ++ (Tls.gaveRec tl ++ unread))) ∧
        wroteOf .childin tl = Tls.tookApp tl ∧
        (∃ unread, w.output = wroteOf .peerout cl ++ (Tls.gaveApp tl ++ unread)) ∧
        wroteOf .peerout tl = Tls.tookRec tl)) := by
  obtain ⟨e, rest, r, h1, h2, h3, ⟨e0, h4⟩, h5, h6, -⟩ := course_session (run_course hw ha hg h) (.inl hne)
  rw [hd] at h4
  rw [h6]
  cases r with
  | boot => exact absurd rfl h5
  | clear pre s why =>
    obtain ⟨-, -, b1, b2, b3⟩ := c89_clear hw.engine e0 _ true e w.m1 w.m2 rest w.output w.control hw.m1 hw.m2 w.wevs w.evs1 w.evs2 _ _ _ h4
    exact ⟨e, rest, s.w.log, [], h2, by simp [Run.log], b1, .inl ⟨rfl, b2, b3⟩⟩
  | tls pre cl t y =>
    obtain ⟨b1, b2, b3, b4, b5, b6, b7, b8⟩ := c89_switch hw.engine e0 _ e w.m1 w.m2 rest w.output w.control hw.m1 hw.m2 w.wevs w.evs1 w.evs2 _ _ _ _ h4
    exact ⟨e, rest, cl, t.w.log, h2, rfl, b6, .inr ⟨b7, b8, b3, b1, b2, b4, b5⟩⟩

/-- **C107 (program, encrypted).** If the process of the program, reading what it was given, becomes the program, then the
handshake is complete, the four variables of its environment are the client's endpoints, its input is exactly what was decrypted, and
it runs under the account of -u, or else, with -U, under the one of the record, which is whole. -/
theorem c107_program {w : World E} (hw : Sound w) (emptydir a : Bytes) (args : List Bytes) (ha : ∀ x ∈ args, NoNul x)
    (opts : List Opt) (prog : List Bytes) (hg : Conf.Good w.fs args opts prog) (res : Res)
    (h : program w emptydir (a :: args) = .ok res) (hd : switch (c! 'n') (c! 'N') false opts = false)
    (hord : Tls.Ordered (acts res.trace))
    (cd : Proxy.IpCodec) (w1 w2 : Jail.World) (hw1 : Main.Honest w1) (hw2 : Main.Honest w2) (execs : Bool)
    (env : ConnInfo.Env) (p q : Jail.Proc) (revs : List Io.RdEv) (rr : Io.RFd)
    (hc : Main.childMain cd w1 w2 execs ⟨(last (c! 'U') opts).isSome, last (c! 'u') opts⟩ env p ⟨given res.trace, revs⟩ =
      some (.ok (.exec q rr))) :
    ∃ e rest, Client w opts e rest ∧ ConnInfo.Sized e ∧ Tls.CanSend (acts res.trace) ∧ rr.src = Tls.tookApp (acts res.trace) ∧
      (∀ n ∈ ConnInfo.names, q.env n = some (ConnInfo.textOf cd e n)) ∧
      ∃ d account, Tls.users (acts res.trace) = [d] ∧ Pipe.Spec.Frame d (account ++ [0]) ∧ NoNul account ∧
        (∀ u, last (c! 'u') opts = some u → Main.RunsAs w2 u q) ∧
        (last (c! 'u') opts = none → (last (c! 'U') opts).isSome = true → c! '@' ∉ account ∧ (account ≠ [] → Main.RunsAs w1 account q)) := by
  have hne : given res.trace ≠ [] := by
    intro h0
    rw [h0] at hc
    obtain ⟨e, rec, hpre, -⟩ := Main.c70_program cd w1 w2 hw1 hw2 execs _ env p q _ rr hc
    obtain ⟨f1, f2, f3, f4, f5, a1, a2, a3, a4, a5, x⟩ := hpre.frames
    exact frame_nil a1 x
  obtain ⟨e, rest, r, h1, h2, h3, ⟨e0, h4⟩, h5, h6, h7, -⟩ := course_session (run_course hw ha hg h) (.inr hne)
  rw [hd] at h4
  rw [h7] at hc
  rw [h6] at hord ⊢
  obtain ⟨k1, k2, k3, d, ac, k4, k5, k6, k7, k8, k9⟩ := c89_program hw.engine e0 _ e h3.1 h3.2 w.m1 w.m2 rest w.output w.control hw.m1 hw.m2 w.wevs
    w.evs1 w.evs2 r h4 hord cd w1 w2 hw1 hw2 execs _ env p q revs rr hc
  exact ⟨e, rest, h2, h3, k1, k2, k3, d, ac, k4, k5, k6, k8, fun hu hU => ⟨k7 hU, fun hne => k9 hu hU hne⟩⟩

/-- **C107 (program, delayed).** With delayed encryption: the endpoints again, the account of -u, and an input that is exactly what the
relay wrote. -/
theorem c107_program_delayed {w : World E} (hw : Sound w) (emptydir a : Bytes) (args : List Bytes) (ha : ∀ x ∈ args, NoNul x)
    (opts : List Opt) (prog : List Bytes) (hg : Conf.Good w.fs args opts prog) (res : Res)
    (h : program w emptydir (a :: args) = .ok res) (hd : switch (c! 'n') (c! 'N') false opts = true)
    (cd : Proxy.IpCodec) (w1 w2 : Jail.World) (hw1 : Main.Honest w1) (hw2 : Main.Honest w2) (execs : Bool)
    (env : ConnInfo.Env) (p q : Jail.Proc) (revs : List Io.RdEv) (rr : Io.RFd)
    (hc : Main.childMain cd w1 w2 execs ⟨(last (c! 'U') opts).isSome, last (c! 'u') opts⟩ env p ⟨given res.trace, revs⟩ =
      some (.ok (.exec q rr))) :
    ∃ e rest, Client w opts e rest ∧ ConnInfo.Sized e ∧ rr.src = wroteOf .childin (acts res.trace) ∧
      (∀ n ∈ ConnInfo.names, q.env n = some (ConnInfo.textOf cd e n)) ∧
      (∀ u, last (c! 'u') opts = some u → Main.RunsAs w2 u q) := by
  have hne : given res.trace ≠ [] := by
    intro h0
    rw [h0] at hc
    obtain ⟨e, rec, hpre, -⟩ := Main.c70_program cd w1 w2 hw1 hw2 execs _ env p q _ rr hc
    obtain ⟨f1, f2, f3, f4, f5, a1, a2, a3, a4, a5, x⟩ := hpre.frames
    exact frame_nil a1 x
  obtain ⟨e, rest, r, h1, h2, h3, ⟨e0, h4⟩, h5, h6, h7, -⟩ := course_session (run_course hw ha hg h) (.inr hne)
  rw [hd] at h4
  rw [h7] at hc
  rw [h6]
  obtain ⟨k1, k2, k3⟩ := c89_program_delayed hw.engine e0 _ e h3.1 h3.2 w.m1 w.m2 rest w.output w.control hw.m1 hw.m2 w.wevs
    w.evs1 w.evs2 r h4 cd w1 w2 hw1 hw2 execs _ env p q revs rr hc
  exact ⟨e, rest, h2, h3, k1, k2, k3⟩

/-- **C107 (exit).** A run that has relayed nothing waits or exits with 100 or 111. One that has relayed something, and whose program ends as
`d` before the last alarm comes, still relays, or exits with what it owes for `d`, or exits with 111 because the account could not be
told to the program's process, which then never got a whole record. -/
theorem c107_exit {w : World E} (hw : Sound w) (emptydir a : Bytes) (args : List Bytes) (ha : ∀ x ∈ args, NoNul x)
    (opts : List Opt) (prog : List Bytes) (hg : Conf.Good w.fs args opts prog) (res : Res)
    (h : program w emptydir (a :: args) = .ok res) (pre post : List Main.Wait) (h1 : Main.answers pre = 1)
    (ht : ∀ k, w.left = some k → Main.secs pre < k) (d : Main.Death) (hdr : d.real)
    (hwt : w.waits = pre ++ .ans (.reaped d.status) :: post) :
    (acts res.trace = [] → given res.trace = [] → res.fate = none ∨ res.fate = some (.exit 100) ∨ res.fate = some (.exit 111)) ∧
    (acts res.trace ≠ [] ∨ given res.trace ≠ [] → res.fate = none ∨ res.fate = some (.exit d.owed) ∨
      res.fate = some (.exit 111) ∧ switch (c! 'n') (c! 'N') false opts = false ∧ Tls.Unsent (acts res.trace)) := by
  have hend : Main.endUnder w.left w.waits = some (.exit d.owed) := by
    rw [hwt]; exact Main.c63_in_time w.left pre post h1 ht d hdr
  refine ⟨fun hn hn2 => ?_, fun hne => ?_⟩
  · cases run_course hw ha hg h with
    | early tr => exact .inr (.inr rfl)
    | asking => exact .inl rfl
    | silent => exact .inl rfl
    | refused => exact .inr (.inl rfl)
    | meeting e rest f _ _ hf => rcases hf with rfl | rfl <;> simp
    | session e rest r k1 k2 k3 k4 k5 =>
      exfalso
      obtain ⟨e0, k4⟩ := k4
      have hs := shape_of hw.engine hw.m1 hw.m2 k4
      simp at hn2
      have hfr : ∀ {fd : Io.WFd} {dl : Bool}, sendAll ⟨[], w.wevs⟩ (preamble dl e) = some (some fd) → fd.out ≠ [] := by
        intro fd dl hp h0
        obtain ⟨f1, f2, f3, f4, a1, a2, a3, a4, hx⟩ := sendAll_preamble k3.1 k3.2 hp
        split at hx
        · obtain ⟨f5, a5, hx⟩ := hx
          rw [h0] at hx
          exact frame_nil a1 hx
        · rw [h0] at hx
          exact frame_nil a1 hx
      cases hs with
      | boot => exact k5 rfl
      | clear fd s why hd hp =>
        have : fd.out ++ s.w.log.flatMap input1 = [] := hn2
        simp only [List.append_eq_nil_iff] at this
        exact hfr hp this.1
      | switched fd s t y hd hp =>
        have : fd.out ++ (s.w.log ++ t.w.log).flatMap input1 = [] := hn2
        simp only [List.append_eq_nil_iff] at this
        exact hfr hp this.1
      | direct fd t y hd hp =>
        have : fd.out ++ (noCtl.log ++ t.w.log).flatMap input1 = [] := hn2
        simp only [List.append_eq_nil_iff] at this
        exact hfr hp this.1
  · obtain ⟨e, rest, r, k1, k2, k3, ⟨e0, k4⟩, k5, k6, -, k7⟩ := course_session (run_course hw ha hg h) hne
    rw [k7, k6]
    have hs := shape_of hw.engine hw.m1 hw.m2 k4
    cases hs with
    | boot => exact .inl rfl
    | clear fd s why hd hp hc hy =>
      cases why with
      | none => exact .inl rfl
      | some y => cases y <;> first | exact .inl rfl | exact .inr (.inl hend)
    | switched fd s t y hd hp hc ht =>
      have hf := Tls.run_fin hw.engine ht
      cases y with
      | none => exact .inl rfl
      | some y =>
        cases y <;> first | exact .inl rfl | exact .inr (.inl hend) | skip
        · have := (hf.r8 (.inl rfl)).1; cases this
        · have := (hf.r8 (.inr (.inl rfl))).1; cases this
    | direct fd t y hd hp ht =>
      have hf := Tls.run_fin hw.engine ht
      have lift : Tls.Unsent t.w.log → Tls.Unsent (noCtl.log ++ t.w.log) := by
        rintro (hu | ⟨l, d, z, m, hl, hu, hx⟩)
        · exact .inl (by rw [Tls.users_append, hu]; rfl)
        · exact .inr ⟨noCtl.log ++ l, d, z, m, by rw [hl]; simp, by rw [Tls.users_append, hu]; rfl, hx⟩
      cases y with
      | none => exact .inl rfl
      | some y =>
        cases y <;> first | exact .inl rfl | exact .inr (.inl hend) | skip
        · exact .inr (.inr ⟨rfl, hd, lift (hf.r8 (.inl rfl)).2⟩)
        · exact .inr (.inr ⟨rfl, hd, lift (hf.r8 (.inr (.inl rfl))).2⟩)

theorem noEng_last {l : List (Act Fd)} (h : NoEng l) (m : List (Act Fd)) : Tls.lastState (l ++ m) = Tls.lastState m := by
  have : Tls.lastState l = none := by
    unfold Tls.lastState
    induction l with
    | nil => rfl
    | cons a l ih =>
      cases a with
      | eng e => exact absurd (by simp) (h e)
      | _ => exact ih (fun b hb => h b (by simp [hb]))
  unfold Tls.lastState at this ⊢
  rw [List.foldl_append, this]

theorem noStop_append {l m : List (Act Fd)} (h1 : NoStop l) (h2 : NoStop m) : NoStop (l ++ m) := by
  intro a ha
  rcases List.mem_append.mp ha with ha | ha
  · exact h1 a ha
  · exact h2 a ha

/-- **C107 (ends).** If the program has ended in time and the run has not, then nothing has happened after which the
relay has to end: no write has failed, no command but SIGCHLD and the timeout has come, and the TLS engine has not reported that it is
closed with nothing to send; unless the account is still being told to the program's process. -/
theorem c107_ends {w : World E} (hw : Sound w) (emptydir a : Bytes) (args : List Bytes) (ha : ∀ x ∈ args, NoNul x)
    (opts : List Opt) (prog : List Bytes) (hg : Conf.Good w.fs args opts prog) (res : Res)
    (h : program w emptydir (a :: args) = .ok res) (pre post : List Main.Wait) (h1 : Main.answers pre = 1)
    (ht : ∀ k, w.left = some k → Main.secs pre < k) (d : Main.Death) (hdr : d.real)
    (hwt : w.waits = pre ++ .ans (.reaped d.status) :: post) (hne : acts res.trace ≠ []) (hn : res.fate = none) :
    ((∀ f, Act.failed f ∉ acts res.trace) ∧ (∀ c, Act.sig c ∈ acts res.trace → c = c! 'C' ∨ c = c! 'A') ∧
      ∀ st, Tls.lastState (acts res.trace) = some st → st.closed = true → st.sendrec = true) ∨
    switch (c! 'n') (c! 'N') false opts = false ∧ Tls.Unsent (acts res.trace) := by
  have hend : Main.endUnder w.left w.waits = some (.exit d.owed) := by
    rw [hwt]; exact Main.c63_in_time w.left pre post h1 ht d hdr
  have conc : ∀ {l : List (Act Fd)}, NoStop l → (∀ f, Act.failed f ∉ l) ∧ ∀ c, Act.sig c ∈ l → c = c! 'C' ∨ c = c! 'A' := by
    intro l k
    refine ⟨fun f hf => k _ hf trivial, fun c hc => ?_⟩
    exact Classical.byContradiction fun hx => k _ hc (not_or.mp hx)
  obtain ⟨e, rest, r, k1, k2, k3, ⟨e0, k4⟩, k5, k6, -, k7⟩ := course_session (run_course hw ha hg h) (.inl hne)
  rw [k7] at hn
  rw [k6]
  have hs := shape_of hw.engine hw.m1 hw.m2 k4
  cases hs with
  | boot => exact absurd rfl k5
  | clear fd s why hd hp hc hy =>
    have hb : NoEng s.w.log := by
      have := c89_clear hw.engine e0 _ _ e w.m1 w.m2 rest w.output w.control hw.m1 hw.m2 w.wevs w.evs1 w.evs2 _ _ _ k4
      exact this.2.2.1
    have hy2 : why = none ∨ why = some .starttls ∨ why = some .ackBlocked := by
      cases why with
      | none => exact .inl rfl
      | some y => cases y <;> first | exact .inr (.inr rfl) | (exfalso; simp [over, hend] at hn; done) | exact absurd rfl hy
    have k := (Clear.kept_loop kept_noStop (s := Clear.start w.m1 w.m2 rest w.output w.control) w.evs1 noStop_nil hc hy2).1
    refine .inl ⟨(conc k).1, (conc k).2, fun st hl => ?_⟩
    have := noEng_last hb []
    rw [List.append_nil] at this
    change Tls.lastState s.w.log = some st at hl
    rw [this] at hl
    cases hl
  | switched fd s t y hd hp hc htl =>
    have hf := Tls.run_fin hw.engine htl
    have hy : y = none := by
      cases y with
      | none => rfl
      | some y =>
        cases y <;> first | (exfalso; simp [over, hend] at hn; done) | (have := (hf.r8 (by simp)).1; cases this)
    subst hy
    have hb : NoEng s.w.log := by
      rw [hd] at k4
      have := c89_switch hw.engine e0 _ e w.m1 w.m2 rest w.output w.control hw.m1 hw.m2 w.wevs w.evs1 w.evs2 _ _ _ _ k4
      exact this.2.2.2.2.2.1
    have g1 := (Clear.kept_loop kept_noStop (s := Clear.start w.m1 w.m2 rest w.output w.control) w.evs1 noStop_nil hc (.inr (.inl rfl))).1
    obtain ⟨g2, g3⟩ := Tls.going_loop w.evs2 (s := Tls.start s.w.op e0 true s.net s.chd) ⟨noStop_nil, fun st e => by cases e⟩ htl
    refine .inl ⟨(conc (noStop_append g1 g2)).1, (conc (noStop_append g1 g2)).2, fun st hl => ?_⟩
    change Tls.lastState (s.w.log ++ t.w.log) = some st at hl
    rw [noEng_last hb] at hl
    exact g3 st hl
  | direct fd t y hd hp htl =>
    have hf := Tls.run_fin hw.engine htl
    have lift : Tls.Unsent t.w.log → Tls.Unsent (noCtl.log ++ t.w.log) := by
      rintro (hu | ⟨l, d, z, m, hl, hu, hx⟩)
      · exact .inl (by rw [Tls.users_append, hu]; rfl)
      · exact .inr ⟨noCtl.log ++ l, d, z, m, by rw [hl]; simp, by rw [Tls.users_append, hu]; rfl, hx⟩
    cases y with
    | none =>
      obtain ⟨g2, g3⟩ := Tls.going_loop w.evs2 (s := Tls.start noCtl.op e0 false rest w.output) ⟨noStop_nil, fun st e => by cases e⟩ htl
      have g1 : NoStop noCtl.log := by
        intro b hb
        have : noCtl.log = [.close .ctl, .close .ack] := rfl
        rw [this] at hb
        simp at hb
        rcases hb with rfl | rfl <;> exact id
      exact .inl ⟨(conc (noStop_append g1 g2)).1, (conc (noStop_append g1 g2)).2, g3⟩
    | some y =>
      cases y <;> first | (exfalso; simp [over, hend] at hn; done) | exact .inr ⟨hd, lift (hf.r8 (by simp)).2⟩

/-- **C106 (jail refused).** If the jail is not switched off and cannot be entered, or the pipe for signals cannot be had, the key
process is not asked for anything and the run ends with 111. -/
theorem c106_no_jail {w : World E} (emptydir a : Bytes) (args : List Bytes) (ha : ∀ x ∈ args, NoNul x)
    (opts : List Opt) (prog : List Bytes) (hg : Conf.Good w.fs args opts prog) (res : Res)
    (h : program w emptydir (a :: args) = .ok res) (hj : w.nojail = false ∧ w.jail = false ∨ w.selfpipe = false) :
    res.fate = some (.exit 111) ∧ ∀ o ∈ res.trace,
      o = .program prog (last (c! 'u') opts) (last (c! 'U') opts).isSome ∨ o = .keys (certs opts) := by
  obtain ⟨st, hst, hs⟩ := Conf.c60_starts w.fs emptydir a args ha opts prog hg
  simp only [program, hst, boot] at h
  split at h
  · cases h; simp
  split at h
  · cases h; simp
  split at h
  · cases h
    simp [hs.prog, hs.user, hs.certuser]
  · rw [confine] at h
    split at h
    · cases h
      simp [hs.prog, hs.user, hs.certuser, hs.certs]
    · rcases hj with ⟨h1, h2⟩ | h1
      · simp [h1, h2] at h
        cases h
        simp [hs.prog, hs.user, hs.certuser, hs.certs]
      · simp_all

/-! ### A concrete run -/

/-- The client announces itself with a PROXY header and sends three bytes, encrypted by the toy engine; the program answers with two
and exits with 3. -/
def sample : World Tls.Toy where
  nojail := false
  fs := Conf.sampleEnv
  busy := false
  devnull := true
  pipes := true
  fork := true
  keypipes := true
  keyfork := true
  selfpipe := true
  jail := true
  anchor fn := if fn = b!"/ca.pem" then .pem b!"anchors" else .refused
  parse d := d == b!"anchors"
  codec := Proxy.cCodec
  env := []
  loc := .other
  peer := .other
  client := ⟨b!"PROXY TCP4 1.2.3.4 5.6.7.8 80 443\r\nhi!", List.replicate 40 (.data 9)⟩
  output := b!"ok"
  control := []
  wevs := List.replicate 40 (.data 6)
  evs1 := demoClear
  evs2 := Tls.demoEvs
  m1 := List.replicate 8192 0
  m2 := List.replicate 8192 0
  engine := Tls.toy false
  profile _ := ⟨[], 0, [], false⟩
  left := some 10
  waits := [.ans (.reaped 0), .ans (.reaped (Main.Death.status (.exited 3)))]

theorem sample_sound : Sound sample :=
  ⟨Proxy.cCodec_lawful, ConnInfo.cCodec_apart, (by intro x hx; cases hx), trivial, trivial, List.length_replicate, List.length_replicate,
    Tls.toy_sized _⟩

def sampleArgs : List Bytes := [b!"-p1", b!"-j", b!"nobody", b!"-f", b!"/c.pem", b!"-a", b!"/ca.pem", b!"-U", b!"commonName", b!"prog"]
def sampleOpts : List Opt := [.arg (c! 'p') b!"1", .arg (c! 'j') b!"nobody", .arg (c! 'f') b!"/c.pem", .arg (c! 'a') b!"/ca.pem",
  .arg (c! 'U') b!"commonName"]

/-- The hypothesis on the command line is met. -/
theorem sample_good : Conf.Good sample.fs sampleArgs sampleOpts [b!"prog"] := by
  refine ⟨?_, by simp, ?_, ?_⟩
  · exact .word (w := b!"p1") (by decide) (by decide) (.attached (by decide) (by decide))
      (.word (w := b!"j") (by decide) (by decide) (.separate (by decide))
      (.word (w := b!"f") (by decide) (by decide) (.separate (by decide))
      (.word (w := b!"a") (by decide) (by decide) (.separate (by decide))
      (.word (w := b!"U") (by decide) (by decide) (.separate (by decide)) (.prog (by decide))))))
  · refine ⟨?_, ?_, ?_, ?_, ?_, ?_, ?_, ?_, ?_, ?_, ?_⟩ <;> simp [values, sampleOpts] <;> first | rfl | decide
  · refine ⟨?_, ?_, ?_, ?_, ?_⟩
    · simp [values, sampleOpts]
    · simp [values, sampleOpts]
    · simp [values, sampleOpts]; rfl
    · exact ⟨60, .plain (ds := b!"60") ⟨by decide, by decide, by decide⟩, by decide, by decide⟩
    · exact ⟨30, .plain (ds := b!"30") ⟨by decide, by decide, by decide⟩, by decide, by decide⟩

theorem sample_args : ∀ x ∈ sampleArgs, NoNul x := by decide

/-- Everything that has to succeed does. -/
theorem sample_ready : Ready sample sampleOpts :=
  ⟨⟨rfl, rfl, rfl, rfl, rfl⟩, fun _ => ⟨rfl, rfl⟩, fun _ => rfl, fun fn h => by
    obtain rfl : b!"/ca.pem" = fn := by simpa [values, sampleOpts] using h
    exact ⟨b!"anchors", by decide, by decide⟩⟩

theorem out_check {x : Out Res} {P : Res → Prop} [DecidablePred P]
    (h : (match x with | .ok r => decide (P r) | .ub => false) = true) : ∃ r, x = .ok r ∧ P r := by
  cases x with
  | ok r => exact ⟨r, rfl, by simpa using h⟩
  | ub => cases h

/-- The run: the plan, the header, the record of the account, then the two streams, and the exit code of the program. -/
theorem sample_run : ∃ res, program sample b!"/e" (b!"t" :: sampleArgs) = .ok res ∧
    res.trace.take 5 = [.program [b!"prog"] none true, .keys [(b!"/c.pem", false)], .jailed (some b!"nobody") b!"/e", .anchor b!"/ca.pem",
      .header b!"PROXY TCP4 1.2.3.4 5.6.7.8 80 443\r\n"] ∧
    Tls.users (acts res.trace) = [[4, 0, 0, 0, 0, 0, 0, 0] ++ b!"joe\x00"] ∧
    wroteOf .childin (acts res.trace) = b!"hi!" ∧ wroteOf .peerout (acts res.trace) = b!"ok" ∧ res.fate = some (.exit 3) :=
  out_check (by decide +kernel)

/-- A system with the account of the certificate. -/
def sampleHost : Jail.World :=
  { Jail.sampleWorld (fun _ => .none) with passwd := fun a => if a = b!"joe" then some ⟨b!"joe", 1000, 1000, b!"/", b!"/bin/sh"⟩ else none }

/-- The process of the program becomes the program in that run: the hypothesis of `c107_program` is met. -/
theorem sample_program : ∃ res, program sample b!"/e" (b!"t" :: sampleArgs) = .ok res ∧
    (match Main.childMain Proxy.cCodec sampleHost sampleHost true ⟨true, none⟩ [] Jail.rootProc
        ⟨given res.trace, List.replicate 40 (.data 3)⟩ with
      | some (.ok (.exec q rr)) => some (rr.src, q.ruid)
      | _ => none) = some (b!"hi!", 1000) :=
  out_check (by decide +kernel)

/-- With delayed encryption, and with a program that asks for TLS. -/
theorem sample_delayed : ∃ res, program { sample with client := ⟨b!"abcdxhi!", []⟩, output := b!"go!ok", control := [0] } b!"/e"
      [b!"t", b!"-n", b!"-f", b!"/c.pem", b!"prog"] = .ok res ∧
    wroteOf .childin (acts res.trace) = b!"abcdhi!" ∧ wroteOf .peerout (acts res.trace) = b!"go!ok" ∧ res.fate = some (.exit 3) :=
  out_check (by decide +kernel)

/-- Runs that end early: no PROXY header; the jail refused; anchors the key process does not have; anchors it does not answer for; a
descriptor in use that delayed encryption needs. -/
theorem sample_early :
    program { sample with client := ⟨b!"EHLO\r\n", List.replicate 9 (.data 9)⟩ } b!"/e" (b!"t" :: sampleArgs) =
      .ok ⟨plan sample b!"/e" sampleOpts [b!"prog"] ++ [.header b!"EHLO\r\n"], some (.exit 100)⟩ ∧
    program { sample with jail := false } b!"/e" (b!"t" :: sampleArgs) =
      .ok ⟨[.program [b!"prog"] none true, .keys [(b!"/c.pem", false)]], some (.exit 111)⟩ ∧
    program { sample with anchor := fun _ => .refused } b!"/e" (b!"t" :: sampleArgs) =
      .ok ⟨plan sample b!"/e" sampleOpts [b!"prog"], some (.exit 111)⟩ ∧
    program { sample with anchor := fun _ => .waits } b!"/e" (b!"t" :: sampleArgs) =
      .ok ⟨plan sample b!"/e" sampleOpts [b!"prog"], none⟩ ∧
    program { sample with busy := true } b!"/e" [b!"t", b!"-n", b!"-f", b!"/c.pem", b!"prog"] = .ok ⟨[], some (.exit 111)⟩ := by
  refine ⟨?_, ?_, ?_, ?_, ?_⟩ <;> decide +kernel

end TlsMain
