import Verif.SmtpMain.Course
import Verif.Smtp.GreyProps
/-
tlswrapper-smtp as a whole: C104 and C105.
-/
namespace SmtpMain
open Conf.Spec (Opt last switch)
open Cmd.Spec (SmtpGood)
open HostPort.Spec (Parts)

/-! ### Runs and their courses -/

theorem good_noNul {w : World} {args : List Bytes} (ha : ∀ x ∈ args, NoNul x) {opts : List Opt} {prog : List Bytes}
    (h : SmtpGood w.ip6 args opts prog) (c : Byte) (x : Bytes) (hx : last c opts = some x) : NoNul x :=
  Cmd.value_noNul (Cmd.reads_known h.reads ha).1 (Conf.last_mem hx)

theorem runs {w : World} (hw : Sound w) (emptydir a : Bytes) {args : List Bytes} (ha : ∀ x ∈ args, NoNul x) {opts : List Opt} {prog : List Bytes}
    (h : SmtpGood w.ip6 args opts prog) :
    ∃ st res, Cmd.SmtpServes w.ip6 emptydir opts prog st ∧ program w emptydir (a :: args) = .ok res ∧ Course w st res := by
  obtain ⟨st, e, hst⟩ := Cmd.c77_smtp w.ip6 emptydir w.port0 a hw.port0 args ha opts prog h
  obtain ⟨res, er, hc⟩ := boot_ok hw opts emptydir prog st (good_noNul ha h _) hst
  exact ⟨st, res, hst, by simp [program, e, er], hc⟩

theorem run_course {w : World} (hw : Sound w) {emptydir a : Bytes} {args : List Bytes} (ha : ∀ x ∈ args, NoNul x) {opts : List Opt} {prog : List Bytes}
    (h : SmtpGood w.ip6 args opts prog) {res : Res} (hr : program w emptydir (a :: args) = .ok res) :
    ∃ st, Cmd.SmtpServes w.ip6 emptydir opts prog st ∧ Course w st res := by
  obtain ⟨st, res', h1, h2, h3⟩ := runs hw emptydir a ha h
  rw [hr] at h2
  cases h2
  exact ⟨st, h1, h3⟩

@[simp] theorem acts_append (x y : List Obs) : acts (x ++ y) = acts x ++ acts y := List.filterMap_append
@[simp] theorem acts_nil : acts [] = [] := rfl
@[simp] theorem acts_started (p : List Bytes) (u : Option Bytes) : acts [.started p u] = [] := rfl
@[simp] theorem acts_conf (w : World) (st : Cmd.SmtpStarted) : acts (conf w st) = [] := by unfold conf; split <;> rfl
@[simp] theorem acts_connect (b : Bytes) (p : Byte × Byte) : acts [.connect b p] = [] := rfl
@[simp] theorem acts_connect_cons (b : Bytes) (p : Byte × Byte) (l : List Obs) : acts (.connect b p :: l) = acts l := rfl
@[simp] theorem tried_connect_cons (b : Bytes) (p : Byte × Byte) (l : List Obs) : tried (.connect b p :: l) = (b, p) :: tried l := rfl
@[simp] theorem acts_session (as : List Smtp.Act) : acts (as.map Obs.session) = as := by
  induction as with
  | nil => rfl
  | cons b bs ih => exact congrArg (b :: ·) ih
@[simp] theorem tried_append (x y : List Obs) : tried (x ++ y) = tried x ++ tried y := List.filterMap_append
@[simp] theorem tried_nil : tried [] = [] := rfl
@[simp] theorem tried_started (p : List Bytes) (u : Option Bytes) : tried [.started p u] = [] := rfl
@[simp] theorem tried_conf (w : World) (st : Cmd.SmtpStarted) : tried (conf w st) = [] := by unfold conf; split <;> rfl
@[simp] theorem tried_connect (b : Bytes) (p : Byte × Byte) : tried [.connect b p] = [(b, p)] := rfl
@[simp] theorem tried_session (as : List Smtp.Act) : tried (as.map Obs.session) = [] := by
  induction as with
  | nil => rfl
  | cons b bs ih => exact ih

/-! ### A world to run in -/

/-- A greylist server with two addresses; the client greets, names one recipient and leaves. -/
def sample : World where
  nojail := false
  ip6 _ := false
  port0 := List.replicate 6 7
  ctl := false
  pipes := true
  fork := true
  resolver := true
  lost := false
  gai _ := .list [.v4 [10, 0, 0, 1], .v4 [10, 0, 0, 2]]
  rnd n := List.replicate n 0
  buf0 := List.replicate 257 7
  ip0 := List.replicate 129 7
  fds := [0, 1, 2]
  kern := [.socket (some 3), .dup (some 4), .time 1000, .connect .inProgress, .time 1001, .poll 14999 (.ready [true]), .isConnected true]
  jail := true
  codec := Proxy.cCodec
  env := [(b!"TCPREMOTEIP", b!"192.0.2.1"), (b!"TCPREMOTEPORT", b!"1025"), (b!"TCPLOCALIP", b!"192.0.2.2"), (b!"TCPLOCALPORT", b!"25")]
  loc := .other
  peer := .other
  id := none
  net := [.data b!"MAIL FROM:<a>\r\nRCPT TO:<b>\r\nQUIT\r\n"]
  cin := b!"220 hi\r\n250 a\r\n250 b\r\n221 bye\r\n"
  acks := []
  gin := [b!"action=dunno\n\n"]
  wr := []
  gwr := []
  wait := [.eintr, .reaped 1024]

theorem sample_sound : Sound sample := by
  refine ⟨ConnInfo.cCodec_apart, ?_, List.length_replicate, List.length_replicate, List.length_replicate, ?_, ?_⟩
  · intro x hx
    simp only [sample, List.mem_cons, List.not_mem_nil, or_false] at hx
    rcases hx with rfl | rfl | rfl | rfl <;> decide
  · intro h as e a ha
    cases e
    simp only [List.mem_cons, List.not_mem_nil, or_false] at ha
    rcases ha with rfl | rfl <;> rfl
  · intro s hs
    simp only [sample, List.mem_cons, List.not_mem_nil, or_false, reduceCtorEq, Main.Ans.reaped.injEq, false_or] at hs
    subst hs
    exact ⟨.exited 4, .exited 4 (by decide)⟩

def sampleArgs : List Bytes := [b!"-c", b!"-g", b!"mx:1234", b!"-j", b!"nobody", b!"qmail-smtpd"]
def sampleOpts : List Opt := [.flag (c! 'c'), .arg (c! 'g') b!"mx:1234", .arg (c! 'j') b!"nobody"]

theorem sample_good : SmtpGood sample.ip6 sampleArgs sampleOpts [b!"qmail-smtpd"] :=
  ⟨.word (w := b!"c") (by decide) (by decide) (.flag (by decide) .done)
      (.word (w := b!"g") (by decide) (by decide) (.separate (by decide))
      (.word (w := b!"j") (by decide) (by decide) (.separate (by decide)) (.rest (by decide)))), by decide,
    Cmd.limit_num b!"600" 600 (by decide) (by decide +kernel),
    Cmd.limit_num b!"15" 15 (by decide) (by decide +kernel),
    fun x hx => by
      obtain rfl : b!"mx:1234" = x := Option.some.inj hx
      exact ⟨b!"mx", b!"1234", .hostPort (h := b!"mx") (p := b!"1234") (by decide) (by decide) (by decide)
        ⟨⟨by decide, by decide, by decide⟩, by decide⟩, by decide, by decide⟩⟩

theorem sample_args : ∀ x ∈ sampleArgs, NoNul x := by
  intro x hx
  simp only [sampleArgs, List.mem_cons, List.not_mem_nil, or_false] at hx
  rcases hx with rfl | rfl | rfl | rfl | rfl | rfl <;> decide

/-- The run in that world: the program is started, the front end confined, the greylist server asked about the client
of the environment, and the exit code is that of the program. -/
theorem sample_run : program sample b!"/e" (b!"s" :: sampleArgs) = .ok
    ⟨[.started [b!"qmail-smtpd"] none, .jailed (some b!"nobody") b!"/e",
      .connect [0, 0, 0, 0, 0, 0, 0, 0, 0, 0, 255, 255, 10, 0, 0, 2] (4, 210),
      .session (.reply b!"220 hi\r\n"), .session (.client b!"220 hi\r\n"),
      .session (.line b!"MAIL FROM:<a>\r"), .session (.child b!"MAIL FROM:<a>\r\n"), .session (.reply b!"250 a\r\n"),
      .session (.client b!"250 a\r\n"), .session (.line b!"RCPT TO:<b>\r"),
      .session (.ask b!"request=smtpd_access_policy\nclient_address=192.0.2.1\nsender=<a>\nrecipient=<b>\n\n"),
      .session (.answer b!"action=dunno\n"),
      .session (.child b!"RCPT TO:<b>\r\n"), .session (.reply b!"250 b\r\n"), .session (.client b!"250 b\r\n"),
      .session (.line b!"QUIT\r"), .session (.child b!"QUIT\r\n"), .session (.reply b!"221 bye\r\n"),
      .session (.client b!"221 bye\r\n")], some 4⟩ := by
  decide +kernel

/-! ### C104 -/

/-- **C104.** Whatever the arguments and the surroundings are, the program stays within its memory. -/
theorem c104_defined {w : World} (hw : Sound w) (emptydir : Bytes) (argv : List Bytes) (ha : ∀ x ∈ argv, NoNul x) :
    ∃ res, program w emptydir argv = .ok res := by
  by_cases h : ∃ a args opts prog, argv = a :: args ∧ SmtpGood w.ip6 args opts prog
  · obtain ⟨a, args, opts, prog, rfl, hg⟩ := h
    obtain ⟨-, res, -, e, -⟩ := runs hw emptydir a (fun x hx => ha x (by simp [hx])) hg
    exact ⟨res, e⟩
  · exact ⟨⟨[], some 100⟩, by simp [program, Cmd.c77_smtp_refuses w.ip6 emptydir w.port0 hw.port0 argv ha h]⟩

/-- **C104.** A bad command line is refused with code 100 and nothing is done; a good one never ends so. -/
theorem c104_refuses {w : World} (hw : Sound w) (emptydir : Bytes) (argv : List Bytes) (ha : ∀ x ∈ argv, NoNul x)
    (h : ¬ ∃ a args opts prog, argv = a :: args ∧ SmtpGood w.ip6 args opts prog) :
    program w emptydir argv = .ok ⟨[], some 100⟩ := by
  simp [program, Cmd.c77_smtp_refuses w.ip6 emptydir w.port0 hw.port0 argv ha h]

section
variable {w : World} (hw : Sound w) {emptydir a : Bytes} {args : List Bytes} (ha : ∀ x ∈ args, NoNul x) {opts : List Opt}
  {prog : List Bytes} (hg : SmtpGood w.ip6 args opts prog) {res : Res} (hr : program w emptydir (a :: args) = .ok res)
include hw ha hg hr

/-- **C104.** Unless a pipe or a process is refused, the first thing that happens is that the program of the command line is
started, with the account asked for; it happens once. -/
theorem c104_starts : (res = ⟨[], some 111⟩ ∧ (w.pipes = false ∨ w.fork = false)) ∨
    w.pipes = true ∧ w.fork = true ∧
      ∃ rest, res.trace = .started prog (last (c! 'u') opts) :: rest ∧ ∀ p u, Obs.started p u ∉ rest := by
  by_cases hp : w.pipes = true ∧ w.fork = true
  · refine .inr ⟨hp.1, hp.2, ?_⟩
    obtain ⟨st, hst, hc⟩ := run_course hw ha hg hr
    rw [← hst.prog, ← hst.user]
    have hj : ∀ p u, Obs.started p u ∉ (if w.nojail then [] else [Obs.jailed st.opts.jailaccount st.opts.jaildir]) := by
      intro p u; split <;> simp
    cases hc with
    | poor h => exact absurd h (by simp [hp])
    | early => exact ⟨_, rfl, by simp⟩
    | unresolved => exact ⟨_, rfl, hj⟩
    | unreachable => exact ⟨_, rfl, by simp [hj]⟩
    | plain => exact ⟨_, rfl, by simp [hj]⟩
    | grey => exact ⟨_, rfl, by simp [hj]⟩
  · obtain ⟨st, e, -⟩ := Cmd.c77_smtp w.ip6 emptydir w.port0 a hw.port0 args ha opts prog hg
    have hq : w.pipes = false ∨ w.fork = false := by
      cases h1 : w.pipes <;> cases h2 : w.fork <;> simp_all
    refine .inl ⟨?_, hq⟩
    have hb : boot w st = .ok ⟨[], some 111⟩ := by
      unfold boot
      cases h1 : w.pipes
      · rfl
      · simp [hq.resolve_left (by simp [h1])]
    simp only [program, e, hb, Out.ok.injEq] at hr
    exact hr.symm

/-- **C104.** Unless it is run without a jail, nothing of the client, of the program or of the greylist server is touched
before the front end is confined with the account and the directory asked for. -/
theorem c104_confined (hj : w.nojail = false) (pre post : List Obs) (o : Obs) (ht : res.trace = pre ++ o :: post)
    (ho : (∃ x, o = .session x) ∨ ∃ x p, o = .connect x p) :
    .jailed (last (c! 'j') opts) ((last (c! 'J') opts).getD emptydir) ∈ pre := by
  obtain ⟨st, hst, hc⟩ := run_course hw ha hg hr
  rw [← hst.account, ← hst.jaildir]
  have key : ∀ rest, conf w st ++ rest = pre ++ o :: post → .jailed st.opts.jailaccount st.opts.jaildir ∈ pre := by
    intro rest h
    simp only [conf, hj, Bool.false_eq_true, if_false] at h
    match pre, h with
    | [], h =>
      simp only [List.cons_append, List.nil_append, List.cons.injEq] at h
      rcases ho with ⟨x, rfl⟩ | ⟨x, p, rfl⟩ <;> cases h.1
    | [_], h =>
      simp only [List.cons_append, List.nil_append, List.cons.injEq] at h
      rcases ho with ⟨x, rfl⟩ | ⟨x, p, rfl⟩ <;> cases h.2.1
    | _ :: y :: _, h =>
      simp only [List.cons_append, List.nil_append, List.cons.injEq] at h
      simp [h.2.1]
  cases hc with
  | poor => simp at ht
  | early =>
    simp only at ht
    match pre, ht with
    | [], ht =>
      simp only [List.nil_append, List.cons.injEq] at ht
      rcases ho with ⟨x, rfl⟩ | ⟨x, p, rfl⟩ <;> cases ht.1
    | _ :: _, ht => simp at ht
  | unresolved => exact key [] (by simpa using ht)
  | unreachable => exact key _ ht
  | plain => exact key _ ht
  | grey => exact key _ (by simpa using ht)

/-- **C104.** At most one connection is tried: to an address the resolver gave for the host of -g, and to its port; without -g
none at all. -/
theorem c104_server : tried res.trace = [] ∨ ∃ x host port b hi lo, last (c! 'g') opts = some x ∧ Parts w.ip6 x host port ∧
    Address w host b ∧ Num.Spec.value port = Num.portNum hi lo ∧ tried res.trace = [(b, hi, lo)] := by
  obtain ⟨st, hst, hc⟩ := run_course hw ha hg hr
  have key : ∀ buf host port b, st.greylist = some (buf, port) → buf = host ++ List.replicate (256 - host.length) 0 → NoNul host →
      Address w host b → ∃ x host port' b' hi lo, last (c! 'g') opts = some x ∧ Parts w.ip6 x host port' ∧
        Address w host b' ∧ Num.Spec.value port' = Num.portNum hi lo ∧ [(b, port)] = [(b', hi, lo)] := by
    intro buf host port b e1 e2 hn hA
    cases hl : last (c! 'g') opts with
    | none => rw [hst.noGreylist hl] at e1; cases e1
    | some x =>
      obtain ⟨host', port', hi, lo, hp, -, hv, e3⟩ := hst.greylist x hl
      rw [e3] at e1
      simp only [Option.some.injEq, Prod.mk.injEq] at e1
      obtain ⟨e1, rfl⟩ := e1
      have hn' := parts_host_noNul (good_noNul ha hg _ x hl) hp
      have : host' = host := by
        rw [e2] at e1
        have tw : ∀ h : Bytes, NoNul h → ∀ n, (h ++ List.replicate n 0).takeWhile (· ≠ 0) = h := by
          intro h hh n
          rw [List.takeWhile_append_of_pos (by simpa [NoNul] using hh)]
          cases n <;> simp [List.replicate_succ]
        have h1 := tw host' hn' (256 - host'.length)
        rw [e1, tw host hn] at h1
        exact h1.symm
      subst this
      exact ⟨x, host', port', b, hi, lo, rfl, hp, hA, hv.symm, rfl⟩
  cases hc with
  | poor => exact .inl rfl
  | early => exact .inl rfl
  | unresolved => exact .inl (by simp)
  | unreachable buf host port b e1 e2 hn hA => exact .inr (by simpa using key buf host port b e1 e2 hn hA)
  | plain => exact .inl (by simp)
  | grey buf host port b _ _ _ e1 e2 hn hA => exact .inr (by simpa using key buf host port b e1 e2 hn hA)

/-- **C104.** What is done for the client and the program is a session of the front end with the client of the environment or of
the socket, fail-closed if -c says so, and with a greylist server only if one was connected; if -c and -g are given there is no
session without the server. The exit code is 111 unless the session ended with an answered QUIT, and then it is what
the program is owed. -/
theorem c104_session : (acts res.trace = [] ∧ (res.code = some 111 ∨ res.code = none)) ∨
    ∃ grey, Served w grey (switch (c! 'c') (c! 'C') false opts) (acts res.trace) res.code ∧
      (grey = true → tried res.trace ≠ []) ∧
      (grey = false → last (c! 'g') opts = none ∨ switch (c! 'c') (c! 'C') false opts = false) := by
  obtain ⟨st, hst, hc⟩ := run_course hw ha hg hr
  rw [← hst.failClosed]
  cases hc with
  | poor => exact .inl ⟨rfl, .inl rfl⟩
  | early code h => exact .inl ⟨rfl, by rcases h with ⟨rfl, -⟩ | ⟨rfl, -⟩ <;> simp⟩
  | unresolved code _ h => exact .inl ⟨by simp, h⟩
  | unreachable => exact .inl ⟨by simp, .inl rfl⟩
  | plain as code h1 h2 =>
    refine .inr ⟨false, by simpa using h2, nofun, fun _ => .inl ?_⟩
    cases hl : last (c! 'g') opts with
    | none => rfl
    | some x =>
      obtain ⟨_, _, _, _, _, _, _, e⟩ := hst.greylist x hl
      rw [h1] at e
      cases e
  | grey buf host port b g as code h1 h2 h3 h4 h5 h6 =>
    exact .inr ⟨g, by simpa using h6, by simp, fun h => .inr (h5 h)⟩

/-- **C104.** A greylist server is asked only if it was connected, and about this client. -/
theorem c104_questions (q : Bytes) (hq : .ask q ∈ acts res.trace) : tried res.trace ≠ [] ∧
    ∃ e u v, Client w e ∧ q = b!"request=smtpd_access_policy\n" ++ b!"client_address=" ++ Smtp.Spec.beforeNul (text w.codec e.remoteip) ++
      b!"\nsender=" ++ u ++ b!"\nrecipient=" ++ v ++ b!"\n\n" := by
  rcases c104_session hw ha hg hr with ⟨h, -⟩ | ⟨grey, ⟨⟨e, x, s, hc, hran, hl⟩, -, -⟩, h2, -⟩
  · rw [h] at hq; cases hq
  · rw [← hl] at hq
    obtain ⟨pre, post, e'⟩ := List.append_of_mem hq
    obtain ⟨p, ht, -⟩ := Smtp.c47_trace hran
    rw [e'] at ht
    obtain ⟨_, _, -, hs, -⟩ := Smtp.Trace.split ht
    cases hs with
    | ask c raw u v hg =>
      exact ⟨h2 hg.1, e, _, _, hc, rfl⟩

/-- **C104.** The exit code: 111 for every failure; anything else is the program's, after an answered QUIT. -/
theorem c104_exit (c : Nat) (hc : res.code = some c) : c = 111 ∨ (Quit (acts res.trace) ∧
    ((∃ d : Death, Waited w (some (some d)) ∧ c = d.owed) ∨ (Waited w (some none) ∧ c = 0))) := by
  rcases c104_session hw ha hg hr with ⟨-, h | h⟩ | ⟨_, ⟨-, h1, h2⟩, -⟩
  · rw [h] at hc; cases hc; exact .inl rfl
  · rw [h] at hc; cases hc
  · by_cases hq : Quit (acts res.trace)
    · obtain ⟨x, hx, e⟩ := h2 hq
      rw [hc] at e
      match x, hx, e with
      | some none, hx, e => simp only [Option.some.injEq] at e; exact .inr ⟨hq, .inr ⟨hx, e⟩⟩
      | some (some d), hx, e => simp only [Option.some.injEq] at e; exact .inr ⟨hq, .inl ⟨d, hx, e⟩⟩
    · rw [h1 hq] at hc; cases hc; exact .inl rfl

/-! ### C105 -/

/-- **C105.** In fail-open mode a greylist server that has an address is no obstacle: once a connection is tried the session takes
place, whether it succeeds or not. -/
theorem c105_tried_partial (hf : switch (c! 'c') (c! 'C') false opts = false) (ht : tried res.trace ≠ []) :
    ∃ grey, Served w grey false (acts res.trace) res.code := by
  obtain ⟨st, hst, hc⟩ := run_course hw ha hg hr
  rw [← hst.failClosed] at hf
  cases hc with
  | poor => exact absurd rfl ht
  | early => exact absurd rfl ht
  | unresolved => exact absurd (by simp) ht
  | unreachable _ _ _ _ _ _ _ _ h => rw [hf] at h; cases h
  | plain => exact absurd (by simp) ht
  | grey buf host port b g as code h1 h2 h3 h4 h5 h6 => exact ⟨g, by rw [hf] at h6; simpa using h6⟩

/-- **C105.** Without a greylist server nothing is in the way either. -/
theorem c105_plain_partial (hl : last (c! 'g') opts = none) (hp : w.pipes = true) (hfk : w.fork = true) (hj : w.nojail = true ∨ w.jail = true) :
    Served w false (switch (c! 'c') (c! 'C') false opts) (acts res.trace) res.code := by
  obtain ⟨st, hst, hc⟩ := run_course hw ha hg hr
  rw [← hst.failClosed]
  have hn := hst.noGreylist hl
  cases hc with
  | poor h => rw [hp, hfk] at h; simp at h
  | early code h =>
    rw [hn] at h
    rcases h with ⟨-, ⟨h1, h2⟩ | h⟩ | ⟨-, h⟩
    · rw [h1, h2] at hj; simp at hj
    · exact absurd rfl h
    · exact absurd rfl h
  | unresolved _ h => exact absurd hn h
  | unreachable _ _ _ _ h => rw [hn] at h; cases h
  | plain as code _ h => simpa using h
  | grey _ _ _ _ _ _ _ h => rw [hn] at h; cases h

/-- C105 does not hold: if the name of the greylist server has no address (the resolver fails, say), there is no session and mail is
not served, in fail-open mode too. -/
theorem c105_unresolved (x : Bytes) (hl : last (c! 'g') opts = some x)
    (hx : ∀ host port, Parts w.ip6 x host port → ∀ b, ¬ Address w host b) :
    acts res.trace = [] ∧ (res.code = some 111 ∨ res.code = none) := by
  rcases c104_session hw ha hg hr with h | ⟨grey, -, h1, h2⟩
  · exact h
  · rcases c104_server hw ha hg hr with h3 | ⟨x', host, port, b, hi, lo, e, hp, hA, -⟩
    · obtain ⟨st, hst, hc⟩ := run_course hw ha hg hr
      obtain ⟨_, _, _, _, _, _, _, e⟩ := hst.greylist x hl
      cases hc with
      | poor => exact ⟨rfl, .inl rfl⟩
      | early code h => exact ⟨rfl, by rcases h with ⟨rfl, -⟩ | ⟨rfl, -⟩ <;> simp⟩
      | unresolved code _ h => exact ⟨by simp, h⟩
      | unreachable => exact ⟨by simp, .inl rfl⟩
      | plain as code h => rw [h] at e; cases e
      | grey => simp at h3
    · rw [hl] at e
      cases e
      exact absurd hA (hx host port hp b)

end

/-- A resolver that fails for a moment: -C (fail-open) is given, and the client is turned away with code 111 all the same. -/
theorem c105_turned_away : program { sample with gai := fun _ => .fail false } b!"/e"
      [b!"s", b!"-C", b!"-g", b!"mx:1234", b!"-j", b!"nobody", b!"qmail-smtpd"] =
    .ok ⟨[.started [b!"qmail-smtpd"] none, .jailed (some b!"nobody") b!"/e"], some 111⟩ := by
  decide +kernel

theorem out_check {x : Out Res} {P : Res → Prop} [DecidablePred P]
    (h : (match x with | .ok r => decide (P r) | .ub => false) = true) : ∃ r, x = .ok r ∧ P r := by
  cases x with
  | ok r => exact ⟨r, rfl, by simpa using h⟩
  | ub => cases h

/-- A server that refuses the connection: with -C the recipient is not asked about, with -c the client is turned away. -/
theorem c105_refused_connection :
    (∃ res, program { sample with kern := [.socket (some 3), .dup (some 4), .time 1000, .connect .failed, .time 1001] } b!"/e"
      [b!"s", b!"-C", b!"-g", b!"mx:1234", b!"-j", b!"nobody", b!"qmail-smtpd"] = .ok res ∧ res.code = some 4 ∧
      .session (.child b!"RCPT TO:<b>\r\n") ∈ res.trace) ∧
    program { sample with kern := [.socket (some 3), .dup (some 4), .time 1000, .connect .failed, .time 1001] } b!"/e" (b!"s" :: sampleArgs) =
      .ok ⟨[.started [b!"qmail-smtpd"] none, .jailed (some b!"nobody") b!"/e",
        .connect [0, 0, 0, 0, 0, 0, 0, 0, 0, 0, 255, 255, 10, 0, 0, 2] (4, 210)], some 111⟩ := by
  exact ⟨out_check (by decide +kernel), by decide +kernel⟩

end SmtpMain
