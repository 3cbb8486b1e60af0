import Verif.Tcp.Course
/-
tlswrapper-tcp as a whole: C100 and C101.
-/
namespace TcpMain
open Conf.Spec (Opt values last)
open Cmd.Spec (TcpGood)
open Relay Relay.Tcp

/-! ### Runs and their courses -/

theorem good_noNul {args : List Bytes} (ha : ∀ x ∈ args, NoNul x) {opts : List Opt} {host port : Bytes} (h : TcpGood args opts host port) :
    NoNul host := by
  obtain ⟨more, hr⟩ := h.reads
  exact (Cmd.reads_known hr ha).2 _ (by simp)

theorem runs {w : World} (hw : Sound w) (emptydir a : Bytes) {args : List Bytes} (ha : ∀ x ∈ args, NoNul x) {opts : List Opt} {host port : Bytes}
    (h : TcpGood args opts host port) :
    ∃ st res, Cmd.TcpServes emptydir opts host port st ∧ program w emptydir (a :: args) = .ok res ∧ Course w opts st res := by
  obtain ⟨st, e, hst⟩ := Cmd.c77_tcp emptydir a args ha opts host port h
  obtain ⟨res, er, hc⟩ := boot_ok hw opts emptydir host port (good_noNul ha h) st hst
  exact ⟨st, res, hst, by simp [program, e, er], hc⟩

theorem run_course {w : World} (hw : Sound w) {emptydir a : Bytes} {args : List Bytes} (ha : ∀ x ∈ args, NoNul x) {opts : List Opt} {host port : Bytes}
    (h : TcpGood args opts host port) {res : Res} (hr : program w emptydir (a :: args) = .ok res) :
    ∃ st, Cmd.TcpServes emptydir opts host port st ∧ Course w opts st res := by
  obtain ⟨st, res', h1, h2, h3⟩ := runs hw emptydir a ha h
  rw [hr] at h2
  cases h2
  exact ⟨st, h1, h3⟩

@[simp] theorem acts_nil : acts [] = [] := rfl
@[simp] theorem acts_append (x y : List Obs) : acts (x ++ y) = acts x ++ acts y := List.filterMap_append
@[simp] theorem acts_conf (w : World) (st : Cmd.TcpStarted) : acts (conf w st) = [] := by unfold conf; split <;> rfl
@[simp] theorem acts_lead (w : World) (st : Cmd.TcpStarted) (rest : Bytes) : acts (lead w st rest) = [] := by unfold lead; split <;> rfl
@[simp] theorem acts_header (u : Bytes) : acts [.header u] = [] := rfl
@[simp] theorem acts_connect (bs : List Bytes) (p : Byte × Byte) : acts (bs.map (Obs.connect · p)) = [] := by
  induction bs with
  | nil => rfl
  | cons b bs ih => exact ih
@[simp] theorem acts_relay (as : List (Act Relay.Tcp.Fd)) : acts (as.map Obs.relay) = as := by
  induction as with
  | nil => rfl
  | cons b bs ih => exact congrArg (b :: ·) ih
@[simp] theorem tried_append (x y : List Obs) : tried (x ++ y) = tried x ++ tried y := List.filterMap_append
@[simp] theorem tried_nil : tried [] = [] := rfl
@[simp] theorem tried_conf (w : World) (st : Cmd.TcpStarted) : tried (conf w st) = [] := by unfold conf; split <;> rfl
@[simp] theorem tried_lead (w : World) (st : Cmd.TcpStarted) (rest : Bytes) : tried (lead w st rest) = [] := by unfold lead; split <;> rfl
@[simp] theorem tried_header (u : Bytes) : tried [.header u] = [] := rfl
@[simp] theorem tried_connect (bs : List Bytes) (p : Byte × Byte) : tried (bs.map (Obs.connect · p)) = bs.map (·, p) := by
  induction bs with
  | nil => rfl
  | cons b bs ih => exact congrArg ((b, p) :: ·) ih
@[simp] theorem tried_relay (as : List (Act Relay.Tcp.Fd)) : tried (as.map Obs.relay) = [] := by
  induction as with
  | nil => rfl
  | cons b bs ih => exact ih

/-- A run has no relay, or one with a client and the header its options ask for. -/
theorem course_acts {w : World} {opts : List Opt} {st : Cmd.TcpStarted} {res : Res} (h : Course w opts st res) :
    acts res.trace = [] ∧ (res.code = none ∨ res.code = some 100 ∨ res.code = some 111) ∨
    ∃ e rest, Client w opts e rest ∧ Relayed w (headerOf w.codec e st.opts.ppout) rest (acts res.trace) res.code := by
  cases h with
  | early c h => exact .inl ⟨by simp, by rcases h with rfl | rfl <;> simp⟩
  | silent => exact .inl (by simp)
  | refused => exact .inl (by simp)
  | connecting => exact .inl (by simp)
  | unreachable => exact .inl (by simp)
  | headless => exact .inl (by simp [-List.map_take])
  | relayed e rest bs m as code h1 h2 h3 h4 _ h5 =>
    refine .inr ⟨e, rest, h1, ?_⟩
    simpa [-List.map_take] using h5

/-! ### A world to run in -/

/-- The kernel offers everything, one byte at most per call. -/
def allReady : Option Ready := some ⟨true, true, true, true, false⟩

/-- Two addresses, the first does not answer; the client sends a header and four bytes, the server three. -/
def sample : World where
  nojail := false
  fork := true
  lost := false
  gai _ := .list [.v4 [10, 0, 0, 1], .v4 [10, 0, 0, 2]]
  rnd n := List.replicate n 0
  buf0 := List.replicate 257 7
  ip0 := List.replicate 129 7
  pipe := true
  fds := [0, 1, 2]
  kern := Conn.sampleEv
  jail := true
  codec := Proxy.cCodec
  env := []
  loc := .other
  peer := .other
  client := ⟨b!"PROXY TCP4 1.2.3.4 5.6.7.8 80 443\r\nEHLO", List.replicate 40 (.data 9)⟩
  alloc := true
  static := List.replicate 6 0
  imem := List.replicate 8192 0
  omem := List.replicate 8192 0
  server := b!"220"
  evs := List.replicate 100 ⟨allReady, .data 9, .data 9⟩

theorem sample_sound : Sound sample := by
  refine ⟨Proxy.cCodec_lawful, ConnInfo.cCodec_apart, (by intro x hx; cases hx), List.length_replicate, List.length_replicate, (by decide), ?_, ?_, ?_⟩
  · exact List.length_replicate
  · exact List.length_replicate
  · intro h as e a ha
    cases e
    simp only [List.mem_cons, List.not_mem_nil, or_false] at ha
    rcases ha with rfl | rfl <;> rfl

def sampleArgs : List Bytes := [b!"-j", b!"nobody", b!"-p", b!"1", b!"-P", b!"1", b!"mx.example", b!"25"]
def sampleOpts : List Opt := [.arg (c! 'j') b!"nobody", .arg (c! 'p') b!"1", .arg (c! 'P') b!"1"]

theorem sample_good : TcpGood sampleArgs sampleOpts b!"mx.example" b!"25" :=
  ⟨⟨[], .word (w := b!"j") (by decide) (by decide) (.separate (by decide))
    (.word (w := b!"p") (by decide) (by decide) (.separate (by decide))
    (.word (w := b!"P") (by decide) (by decide) (.separate (by decide)) (.rest (by decide))))⟩,
    ⟨⟨by decide, by decide, by decide⟩, by decide⟩, by decide, by decide,
    Cmd.limit_num b!"3600" 3600 (by decide) (by decide +kernel),
    Cmd.limit_num b!"10" 10 (by decide) (by decide +kernel)⟩

def sampleRun (w : World) : Res := match program w b!"/var/empty" (b!"tlswrapper-tcp" :: sampleArgs) with
  | .ok r => r
  | .ub => ⟨[], none⟩

/-- The whole of a run: jail, header, both addresses, then the streams and exit code 0. -/
example : program sample b!"/var/empty" (b!"tlswrapper-tcp" :: sampleArgs) = .ok (sampleRun sample) ∧
    (sampleRun sample).trace.take 4 = [.jailed (some b!"nobody") b!"/var/empty",
      .header b!"PROXY TCP4 1.2.3.4 5.6.7.8 80 443\r\n",
      .connect (Proxy.v4prefix ++ [10, 0, 0, 2]) (0, 25), .connect (Proxy.v4prefix ++ [10, 0, 0, 1]) (0, 25)] ∧
    sent (sampleRun sample).trace = b!"PROXY TCP4 1.2.3.4 5.6.7.8 80 443\r\nEHLO" ∧
    returned (sampleRun sample).trace = b!"220" ∧ (sampleRun sample).code = some 0 := by decide +kernel

/-- No address answers, the jail fails, the header is not one: nothing is relayed. -/
example : sampleRun { sample with kern := [.socket (some 3), .dup (some 4), .socket (some 5), .dup (some 6), .time 1000,
      .connect .failed, .connect .failed] } = ⟨(sampleRun sample).trace.take 4, some 111⟩ ∧
    sampleRun { sample with jail := false } = ⟨[], some 111⟩ ∧
    sampleRun { sample with client := ⟨b!"EHLO\r\n", List.replicate 40 (.data 9)⟩ } =
      ⟨[.jailed (some b!"nobody") b!"/var/empty", .header b!"EHLO\r\n"], some 100⟩ := by decide +kernel

/-! ### C100 -/

/-- **C100 (defined).** Whatever the arguments, the resolver, the network, the client and the server do, a run of
tlswrapper-tcp never leaves its buffers or overflows a number. -/
theorem c100_defined {w : World} (hw : Sound w) (emptydir : Bytes) (argv : List Bytes) (ha : ∀ x ∈ argv, NoNul x) :
    ∃ res, program w emptydir argv = .ok res := by
  by_cases h : ∃ a args opts host port, argv = a :: args ∧ TcpGood args opts host port
  · obtain ⟨a, args, opts, host, port, rfl, hg⟩ := h
    obtain ⟨_, res, _, e, _⟩ := runs hw emptydir a (fun x hx => ha x (by simp [hx])) hg
    exact ⟨res, e⟩
  · exact ⟨_, by rw [program, Cmd.c77_tcp_refuses emptydir argv ha h]⟩

/-- **C100 (refused).** On a bad command line nothing is done and the exit code is 100. -/
theorem c100_refuses (w : World) (emptydir : Bytes) (argv : List Bytes) (ha : ∀ x ∈ argv, NoNul x)
    (h : ¬ ∃ a args opts host port, argv = a :: args ∧ TcpGood args opts host port) :
    program w emptydir argv = .ok ⟨[], some 100⟩ := by
  rw [program, Cmd.c77_tcp_refuses emptydir argv ha h]

/-- **C100 (confined).** Before it reads a byte of the client or opens a connection the program is in the jail
its options name. -/
theorem c100_confined {w : World} (hw : Sound w) (hj : w.nojail = false) {emptydir a : Bytes} {args : List Bytes} (ha : ∀ x ∈ args, NoNul x)
    {opts : List Opt} {host port : Bytes} (hg : TcpGood args opts host port) {res : Res} (hr : program w emptydir (a :: args) = .ok res) :
    res.trace = [] ∨ res.trace.head? = some (.jailed (last (c! 'j') opts) ((last (c! 'J') opts).getD emptydir)) := by
  obtain ⟨st, hst, hc⟩ := run_course hw ha hg hr
  have hf : conf w st = [.jailed (last (c! 'j') opts) ((last (c! 'J') opts).getD emptydir)] := by
    simp [conf, hj, hst.account, hst.jaildir]
  cases hc <;> simp [hf]

/-- **C100 (addresses).** Connections are opened only to addresses the resolver gave for the host of the command line
(the first eight), on its port, each in turn, and the program gives up with them only when all have been tried. -/
theorem c100_addresses {w : World} (hw : Sound w) {emptydir a : Bytes} {args : List Bytes} (ha : ∀ x ∈ args, NoNul x)
    {opts : List Opt} {host port : Bytes} (hg : TcpGood args opts host port) {res : Res} (hr : program w emptydir (a :: args) = .ok res)
    (hne : tried res.trace ≠ []) :
    ∃ (as : List Resolve.Answer) (bs : List Bytes) (m : Nat), w.gai host = .list as ∧ bs.Perm (Resolve.wanted as 8) ∧ m ≤ bs.length ∧ bs.length ≤ 8 ∧
      (tried res.trace).map Prod.fst = bs.take m ∧ (∀ x ∈ tried res.trace, Num.portNum x.2.1 x.2.2 = Num.Spec.value port) ∧
      (res.code = some 111 → m = bs.length) := by
  obtain ⟨st, hst, hc⟩ := run_course hw ha hg hr
  have hp : ∀ (l : List Bytes), ∀ x ∈ l.map (·, st.port), Num.portNum x.2.1 x.2.2 = Num.Spec.value port := by
    intro l x hx
    obtain ⟨b, _, rfl⟩ := List.mem_map.mp hx
    exact hst.port
  have hm : ∀ l : List Bytes, (l.map (·, st.port)).map Prod.fst = l := by
    intro l
    rw [List.map_map]
    exact List.map_id l
  cases hc with
  | early => simp at hne
  | silent => simp at hne
  | refused => simp at hne
  | connecting => simp at hne
  | unreachable e rest bs h1 h2 =>
    obtain ⟨as, g1, g2, g3, g4⟩ := h2
    rw [hst.host] at g1
    refine ⟨as, bs, bs.length, g1, g2, Nat.le_refl _, g4, ?_, ?_, fun _ => rfl⟩
    · simp only [tried_append, tried_conf, tried_lead, tried_connect, List.nil_append, hm, List.take_length]
    · simp only [tried_append, tried_conf, tried_lead, tried_connect, List.nil_append]
      exact hp bs
  | headless e rest bs m h1 h2 h3 h4 h5 =>
    obtain ⟨as, g1, g2, g3, g4⟩ := h2
    rw [hst.host] at g1
    refine ⟨as, bs, m, g1, g2, h4, g4, ?_, ?_, fun h => by simp at h⟩
    · simp only [tried_append, tried_conf, tried_lead, tried_connect, List.nil_append, hm]
    · simp only [tried_append, tried_conf, tried_lead, tried_connect, List.nil_append]
      exact hp _
  | relayed e rest bs m as' code h1 h2 h3 h4 _ h5 =>
    obtain ⟨as, g1, g2, g3, g4⟩ := h2
    rw [hst.host] at g1
    refine ⟨as, bs, m, g1, g2, h4, g4, ?_, ?_, fun h => ?_⟩
    · simp only [tried_append, tried_conf, tried_lead, tried_connect, tried_relay, List.nil_append, List.append_nil, hm]
    · simp only [tried_append, tried_conf, tried_lead, tried_connect, tried_relay, List.nil_append, List.append_nil]
      exact hp _
    · rcases h5.ends with e | e <;> simp_all

/-- The header the options ask for. -/
def announce (C : Proxy.IpCodec) (opts : List Opt) (e : Proxy.Ends) : Bytes :=
  if b!"1" ∈ values (c! 'P') opts then Proxy.headerText C e else []

theorem headerOf_announce {emptydir host port : Bytes} {opts : List Opt} {st : Cmd.TcpStarted} (h : Cmd.TcpServes emptydir opts host port st)
    (C : Proxy.IpCodec) (e : Proxy.Ends) : headerOf C e st.opts.ppout = announce C opts e := by
  unfold headerOf announce
  by_cases hp : st.opts.ppout = true
  · rw [if_pos hp, if_pos (h.outgoing.mp hp)]
  · rw [if_neg hp, if_neg (fun x => hp (h.outgoing.mpr x))]

/-- **C100 (streams).** At every moment of every run what the server has been sent is an initial part of the PROXY header
(when asked for; about this client) followed by what the client has been read to send after its own header, and what the client
has been sent is an initial part of what has been read of the server. -/
theorem c100_stream {w : World} (hw : Sound w) {emptydir a : Bytes} {args : List Bytes} (ha : ∀ x ∈ args, NoNul x)
    {opts : List Opt} {host port : Bytes} (hg : TcpGood args opts host port) {res : Res} (hr : program w emptydir (a :: args) = .ok res)
    (hne : acts res.trace ≠ []) :
    ∃ e rest, Client w opts e rest ∧ taken res.trace <+: rest ∧ answered res.trace <+: w.server ∧
      ∀ pre post, res.trace = pre ++ post →
        sent pre <+: announce w.codec opts e ++ taken pre ∧ returned pre <+: answered pre := by
  obtain ⟨st, hst, hc⟩ := run_course hw ha hg hr
  rcases course_acts hc with ⟨h, -⟩ | ⟨e, rest, h1, h2⟩
  · exact absurd h hne
  · refine ⟨e, rest, h1, h2.client, h2.server, fun pre post hp => ?_⟩
    have hp : acts res.trace = acts pre ++ acts post := by rw [hp, acts_append]
    rw [← headerOf_announce hst]
    exact ⟨h2.up _ _ hp, h2.down _ _ hp⟩

/-- **C100 (header first).** With incoming PROXY protocol no connection is opened and nothing is forwarded before a valid
header of the client has been read, and it is taken off the stream up to its LF. -/
theorem c100_header_first {w : World} (hw : Sound w) {emptydir a : Bytes} {args : List Bytes} (ha : ∀ x ∈ args, NoNul x)
    {opts : List Opt} {host port : Bytes} (hg : TcpGood args opts host port) {res : Res} (hr : program w emptydir (a :: args) = .ok res)
    (hin : b!"1" ∈ values (c! 'p') opts) (pre post : List Obs) (o : Obs) (ht : res.trace = pre ++ o :: post)
    (ho : (∃ b p, o = .connect b p) ∨ ∃ x, o = .relay x) :
    ∃ L e rest, Obs.header (L ++ [c! '\n']) ∈ pre ∧ w.client.src = L ++ c! '\n' :: rest ∧ c! '\n' ∉ L ∧ Proxy.Loose w.codec L e := by
  obtain ⟨st, hst, hc⟩ := run_course hw ha hg hr
  have hp : st.opts.ppin = true := hst.incoming.mpr hin
  have hno : ∀ {x : Obs}, x ∈ conf w st → x ≠ o := by
    intro x hx
    unfold conf at hx
    split at hx
    · cases hx
    · rw [List.mem_singleton] at hx
      subst hx
      rcases ho with ⟨b, p, rfl⟩ | ⟨y, rfl⟩ <;> simp
  have hh : ∀ u, o ≠ .header u := by
    intro u
    rcases ho with ⟨b, p, rfl⟩ | ⟨y, rfl⟩ <;> simp
  -- the header precedes whatever is not in the beginning
  have key : ∀ (u : Bytes) (tail : List Obs), pre ++ o :: post = conf w st ++ .header u :: tail → Obs.header u ∈ pre := by
    intro u tail h
    rcases List.append_eq_append_iff.mp h with ⟨x, h1, h2⟩ | ⟨x, h1, h2⟩
    · cases x with
      | nil => simp only [List.nil_append, List.cons.injEq] at h2; exact absurd h2.1 (hh u)
      | cons y ys =>
        simp only [List.cons_append, List.cons.injEq] at h2
        exact absurd (by rw [h1, ← h2.1]; simp : o ∈ conf w st) (fun hm => hno hm rfl)
    · cases x with
      | nil => simp only [List.nil_append, List.cons.injEq] at h2; exact absurd h2.1.symm (hh u)
      | cons y ys =>
        simp only [List.cons_append, List.cons.injEq] at h2
        rw [h1, h2.1]; simp
  have fin : ∀ e rest (tail : List Obs), Client w opts e rest → pre ++ o :: post = conf w st ++ lead w st rest ++ tail →
      ∃ L e rest, Obs.header (L ++ [c! '\n']) ∈ pre ∧ w.client.src = L ++ c! '\n' :: rest ∧ c! '\n' ∉ L ∧ Proxy.Loose w.codec L e := by
    intro e rest tail hcl h
    cases hcl with
    | direct h1 => exact absurd hin h1
    | announced L h1 h2 h3 h4 =>
      refine ⟨L, e, rest, ?_, h2, h3, h4⟩
      have : lead w st rest = [.header (L ++ [c! '\n'])] := by
        rw [lead, if_pos hp, h2]
        rw [show (L ++ c! '\n' :: rest).length - rest.length = (L ++ [c! '\n']).length by simp; omega,
          show L ++ c! '\n' :: rest = (L ++ [c! '\n']) ++ rest by simp, List.take_left]
      rw [this] at h
      exact key _ tail (by simpa using h)
  cases hc with
  | early => simp at ht
  | silent =>
    simp only at ht
    exact absurd rfl (hno (x := o) (by rw [ht]; simp))
  | refused u =>
    simp only at ht
    have : o ∈ conf w st ++ [.header u] := by rw [ht]; simp
    rcases List.mem_append.mp this with h | h
    · exact absurd rfl (hno h)
    · exact absurd (List.mem_singleton.mp h) (hh u)
  | connecting e rest h1 => exact fin e rest [] h1 (by rw [← ht]; simp)
  | unreachable e rest bs h1 => exact fin e rest _ h1 ht.symm
  | headless e rest bs m h1 => exact fin e rest _ h1 ht.symm
  | relayed e rest bs m as code h1 => exact fin e rest _ h1 (by rw [← ht, List.append_assoc])

/-- **C100 (complete).** With a kernel that answers every call, a run that comes to relaying delivers everything in
both directions and exits with 0. -/
theorem c100_complete {w : World} (hw : Sound w) {emptydir a : Bytes} {args : List Bytes} (ha : ∀ x ∈ args, NoNul x)
    {opts : List Opt} {host port : Bytes} (hg : TcpGood args opts host port) {res : Res} (hr : program w emptydir (a :: args) = .ok res)
    (hne : acts res.trace ≠ []) (hev : ∀ ev ∈ w.evs, Productive ev)
    (hlen : 2 * w.client.src.length + 2 * w.server.length + 8194 ≤ w.evs.length) :
    ∃ e rest, Client w opts e rest ∧ res.code = some 0 ∧ sent res.trace = announce w.codec opts e ++ rest ∧
      returned res.trace = w.server := by
  obtain ⟨st, hst, hc⟩ := run_course hw ha hg hr
  rcases course_acts hc with ⟨h, -⟩ | ⟨e, rest, h1, h2⟩
  · exact absurd h hne
  · have : rest.length ≤ w.client.src.length := by
      cases h1 with
      | announced L _ h => rw [h]; simp; omega
      | direct _ h => rw [h]; exact Nat.le_refl _
    refine ⟨e, rest, h1, ?_⟩
    rw [← headerOf_announce hst]
    exact h2.complete hev (by omega)

/-! ### C109 -/

theorem line_unique : ∀ (A B X Y : Bytes), c! '\n' ∉ A → c! '\n' ∉ B → A ++ c! '\n' :: X = B ++ c! '\n' :: Y → A = B ∧ X = Y := by
  intro A
  induction A with
  | nil =>
    intro B X Y _ hB h
    cases B with
    | nil => simpa using h
    | cons b B => simp at h; simp [h.1] at hB
  | cons a A ih =>
    intro B X Y hA hB h
    cases B with
    | nil => simp at h; simp [h.1] at hA
    | cons b B =>
      simp at h hA hB
      obtain ⟨h1, h2⟩ := ih B X Y hA.2 hB.2 h.2
      exact ⟨by rw [h.1, h1], h2⟩

theorem loose_unknown {C : Proxy.IpCodec} {t : Bytes} {e : Proxy.Ends} (h : Proxy.Loose C (b!"PROXY UNKNOWN" ++ t) e) :
    e = ⟨List.replicate 16 0, (0, 0), List.replicate 16 0, (0, 0)⟩ := by
  generalize hs : b!"PROXY UNKNOWN" ++ t = s at h
  cases h with
  | unknown => rfl
  | tcp =>
    rename_i six _ _ _ _ _ _ _ _ _ _ _ _ _ _ _ _
    cases six <;> simp [Proxy.word] at hs

/-- **C109 (named).** With `-P 1` the server is sent nothing about a client whose endpoints are unknown (all zero): whatever is relayed is
relayed for a client with endpoints. -/
theorem c109_named {w : World} (hw : Sound w) {emptydir a : Bytes} {args : List Bytes} (ha : ∀ x ∈ args, NoNul x)
    {opts : List Opt} {host port : Bytes} (hg : TcpGood args opts host port) {res : Res} (hr : program w emptydir (a :: args) = .ok res)
    (hout : b!"1" ∈ values (c! 'P') opts) (hne : acts res.trace ≠ []) :
    ∃ e rest, Client w opts e rest ∧ e ≠ ⟨List.replicate 16 0, (0, 0), List.replicate 16 0, (0, 0)⟩ ∧
      ∀ pre post, res.trace = pre ++ post → sent pre <+: Proxy.headerText w.codec e ++ taken pre := by
  obtain ⟨st, hst, hc⟩ := run_course hw ha hg hr
  cases hc with
  | relayed e rest bs m as code h1 h2 h3 h4 hz h5 =>
    refine ⟨e, rest, h1, hz (hst.outgoing.mpr hout), fun pre post hp => ?_⟩
    have := h5.up (acts pre) (acts post) (by simpa [-List.map_take] using congrArg acts hp)
    rwa [headerOf_announce hst, announce, if_pos hout] at this
  | _ => exact absurd (by simp [-List.map_take]) hne

/-- **C109 (unknown).** A client announced as `PROXY UNKNOWN` is not served with `-P 1`: nothing is relayed, and the program waits or exits
with 100 or 111. -/
theorem c109_unknown {w : World} (hw : Sound w) {emptydir a : Bytes} {args : List Bytes} (ha : ∀ x ∈ args, NoNul x)
    {opts : List Opt} {host port : Bytes} (hg : TcpGood args opts host port) {res : Res} (hr : program w emptydir (a :: args) = .ok res)
    (hout : b!"1" ∈ values (c! 'P') opts) (hin : b!"1" ∈ values (c! 'p') opts) (t rest : Bytes)
    (hsrc : w.client.src = b!"PROXY UNKNOWN" ++ t ++ c! '\n' :: rest) (ht : c! '\n' ∉ t) :
    acts res.trace = [] ∧ (res.code = none ∨ res.code = some 100 ∨ res.code = some 111) := by
  obtain ⟨st, hst, hc⟩ := run_course hw ha hg hr
  cases hc with
  | relayed e rest' bs m as code h1 _ _ _ hz _ =>
    refine absurd ?_ (hz (hst.outgoing.mpr hout))
    cases h1 with
    | direct h => exact absurd hin h
    | announced L _ hL hn hl =>
      have hn' : c! '\n' ∉ b!"PROXY UNKNOWN" ++ t := by
        rw [List.mem_append]
        exact fun h => h.elim (by decide) ht
      obtain ⟨rfl, -⟩ := line_unique _ _ _ _ hn hn' (by rw [← hL, hsrc])
      exact loose_unknown hl
  | early c h => exact ⟨rfl, by rcases h with rfl | rfl <;> simp⟩
  | _ => simp [-List.map_take]

/-- **C109 (reason).** On a good command line the exit code 100 means that a connection was opened and the header to be sent could not be made
(`-P 1`; the endpoints are unknown or there is no memory), or that none was opened and the incoming header was refused (`-p 1`). -/
theorem c109_reason {w : World} (hw : Sound w) {emptydir a : Bytes} {args : List Bytes} (ha : ∀ x ∈ args, NoNul x)
    {opts : List Opt} {host port : Bytes} (hg : TcpGood args opts host port) {res : Res} (hr : program w emptydir (a :: args) = .ok res)
    (h100 : res.code = some 100) :
    (b!"1" ∈ values (c! 'p') opts ∧ tried res.trace = [] ∧ acts res.trace = []) ∨
    b!"1" ∈ values (c! 'P') opts ∧ tried res.trace ≠ [] ∧ acts res.trace = [] ∧
      ∃ e rest, Client w opts e rest ∧ (Proxy.EndsOk e → e = ⟨List.replicate 16 0, (0, 0), List.replicate 16 0, (0, 0)⟩ ∨ w.alloc = false) := by
  obtain ⟨st, hst, hc⟩ := run_course hw ha hg hr
  cases hc with
  | refused u hp => exact .inl ⟨hst.incoming.mp hp, by simp, by simp⟩
  | headless e rest bs m h1 h2 h3 h4 hp h5 =>
    refine .inr ⟨hst.outgoing.mp hp, ?_, by simp [-List.map_take], e, rest, h1, fun he => ?_⟩
    · obtain ⟨_, _, _, hb, _⟩ := h2
      simp only [tried_append, tried_conf, tried_lead, tried_connect, List.nil_append]
      intro h0
      have := congrArg List.length h0
      rw [List.length_map, List.length_take, List.length_nil] at this
      omega
    · rcases h5 with h | h | h
      · exact .inl h
      · exact .inr h
      · have := Proxy.c07_header_length w.codec hw.codec e he
        omega
  | early c h => rcases h with rfl | rfl <;> simp at h100
  | silent => simp at h100
  | connecting => simp at h100
  | unreachable => simp at h100
  | relayed e rest bs m as code h1 h2 h3 h4 hz h5 => rcases h5.ends with h | h <;> simp_all

/-- The refusal takes place, after the connection; without `-P` the same client is served. -/
theorem sample_unknown :
    sampleRun { sample with client := ⟨b!"PROXY UNKNOWN\r\nEHLO", List.replicate 40 (.data 9)⟩ } =
      ⟨[.jailed (some b!"nobody") b!"/var/empty", .header b!"PROXY UNKNOWN\r\n",
        .connect (Proxy.v4prefix ++ [10, 0, 0, 2]) (0, 25), .connect (Proxy.v4prefix ++ [10, 0, 0, 1]) (0, 25)], some 100⟩ ∧
    (match program { sample with client := ⟨b!"PROXY UNKNOWN\r\nEHLO", List.replicate 40 (.data 9)⟩ } b!"/var/empty"
        [b!"tlswrapper-tcp", b!"-j", b!"nobody", b!"-p", b!"1", b!"mx.example", b!"25"] with
      | .ok r => some (sent r.trace, r.code)
      | .ub => none) = some (b!"EHLO", some 0) := by decide +kernel

/-! ### Two in a row -/

theorem headerText_line (C : Proxy.IpCodec) (hC : C.Lawful) (e : Proxy.Ends) (he : Proxy.EndsOk e) (hf : Proxy.SameFamily e) :
    ∀ (L rest payload : Bytes) (e' : Proxy.Ends), Proxy.headerText C e ++ payload = L ++ c! '\n' :: rest → c! '\n' ∉ L → Proxy.Loose C L e' →
      e' = e ∧ rest = payload := by
  intro L rest payload e' h hL hl
  obtain ⟨evs', hg⟩ := Proxy.c07_roundtrip C hC e he hf payload (List.replicate 116 (.data 1))
    (by intro ev h; rw [List.eq_of_mem_replicate h]; simp) (by decide)
  obtain ⟨K, k1, k2, k3⟩ := Proxy.c08_payload_kept C hC _ _ _ hg
  rw [h] at hg
  obtain ⟨rfl, rfl⟩ := line_unique L K rest payload hL k2 (by rw [← h]; exact k1)
  have := (Proxy.c10_exact C hC L rest _ hL k3 (some e) _ (by intro ev h; rw [List.eq_of_mem_replicate h]; simp) hg e').mpr hl
  exact ⟨(Option.some.inj this).symm, rfl⟩

/-- **C100 (chain).** Two programs in a row, the first with `-P 1`, the second with `-p 1`: when the second reads what the first
has sent, it finds the endpoints of the client of the first, and its server is sent that client's bytes and nothing else of the first
program, at every moment. -/
theorem c100_chain {w1 w2 : World} (hw1 : Sound w1) (hw2 : Sound w2) (hC : w1.codec = w2.codec)
    {emptydir a1 a2 : Bytes} {args1 args2 : List Bytes} (ha1 : ∀ x ∈ args1, NoNul x) (ha2 : ∀ x ∈ args2, NoNul x)
    {opts1 opts2 : List Opt} {host1 port1 host2 port2 : Bytes} (hg1 : TcpGood args1 opts1 host1 port1) (hg2 : TcpGood args2 opts2 host2 port2)
    (hout : b!"1" ∈ values (c! 'P') opts1) (hin : b!"1" ∈ values (c! 'p') opts2) {r1 r2 : Res}
    (h1 : program w1 emptydir (a1 :: args1) = .ok r1) (h2 : program w2 emptydir (a2 :: args2) = .ok r2)
    (hlink : w2.client.src = sent r1.trace) (hne : acts r2.trace ≠ []) :
    ∃ e rest, Client w1 opts1 e rest ∧ (Proxy.EndsOk e → Proxy.SameFamily e →
      ∃ got, got <+: taken r1.trace ∧ taken r1.trace <+: rest ∧ Client w2 opts2 e got ∧
        ∀ pre post, r2.trace = pre ++ post → sent pre <+: announce w2.codec opts2 e ++ got) := by
  obtain ⟨e2, rest2, c2, t2, -, s2⟩ := c100_stream hw2 ha2 hg2 h2 hne
  have hsrc : sent r1.trace ≠ [] := by
    rw [← hlink]
    cases c2 with
    | announced L _ h => rw [h]; simp
    | direct h => exact absurd hin h
  have hne1 : acts r1.trace ≠ [] := by
    intro h
    apply hsrc
    simp [sent, h, wroteOf]
  obtain ⟨e, rest, c1, t1, -, s1⟩ := c100_stream hw1 ha1 hg1 h1 hne1
  refine ⟨e, rest, c1, fun he hf => ?_⟩
  have hs := (s1 r1.trace [] (by simp)).1
  rw [announce, if_pos hout] at hs
  cases c2 with
  | direct h => exact absurd hin h
  | announced L hp hL hn hl =>
    rw [hlink] at hL
    obtain ⟨more, hmore⟩ := hs
    rw [hL] at hmore
    have hline := headerText_line w1.codec hw1.codec e he hf L (rest2 ++ more) (taken r1.trace) e2
      (by rw [← hmore]; simp) hn (by rw [hC]; exact hl)
    obtain ⟨rfl, hgot⟩ := hline
    refine ⟨rest2, ⟨more, hgot⟩, t1, .announced L hp (by rw [hlink]; exact hL) hn hl, fun pre post h => ?_⟩
    have htk : taken pre <+: taken r2.trace := by
      unfold taken readOf
      rw [h, acts_append, List.flatMap_append]
      exact List.prefix_append _ _
    obtain ⟨k, hk⟩ := htk.trans t2
    refine (s2 pre post h).1.trans ?_
    rw [← hk, ← List.append_assoc]
    exact List.prefix_append _ _

/-- The second program of a chain: the header of the first is taken off and made again, its server gets the same bytes. -/
example : (sampleRun { sample with client := ⟨sent (sampleRun sample).trace, List.replicate 40 (.data 9)⟩ }) = sampleRun sample := by
  decide +kernel

/-! ### C101 -/

/-- **C101 (nothing on failure).** With an exit code other than 0 nothing has been relayed. -/
theorem c101_failure {w : World} (hw : Sound w) {emptydir : Bytes} {argv : List Bytes} (ha : ∀ x ∈ argv, NoNul x)
    {res : Res} (hr : program w emptydir argv = .ok res) (code : Nat) (hc : res.code = some code) (h0 : code ≠ 0) :
    (code = 100 ∨ code = 111) ∧ acts res.trace = [] := by
  by_cases h : ∃ a args opts host port, argv = a :: args ∧ TcpGood args opts host port
  · obtain ⟨a, args, opts, host, port, rfl, hg⟩ := h
    obtain ⟨st, hst, hcs⟩ := run_course hw (fun x hx => ha x (by simp [hx])) hg hr
    rcases course_acts hcs with ⟨h, h'⟩ | ⟨e, rest, h1, h2⟩
    · refine ⟨?_, h⟩
      rw [hc] at h'
      simpa using h'
    · rcases h2.ends with h | h
      · rw [h] at hc; cases hc
      · rw [h] at hc; cases hc; exact absurd rfl h0
  · rw [c100_refuses w emptydir argv ha h] at hr
    cases hr
    cases hc
    exact ⟨.inl rfl, rfl⟩

/-- **C101 (success, partial).** Exit code 0 means that the transfer is complete in both directions: both sides have ended and
everything read has been delivered. Missing: this only holds when no write has failed and no signal (the timer) has come. -/
theorem c101_success_partial {w : World} (hw : Sound w) {emptydir a : Bytes} {args : List Bytes} (ha : ∀ x ∈ args, NoNul x)
    {opts : List Opt} {host port : Bytes} (hg : TcpGood args opts host port) {res : Res} (hr : program w emptydir (a :: args) = .ok res)
    (hc : res.code = some 0) (hf1 : Act.failed .remoteout ∉ acts res.trace) (hf2 : Act.failed .localout ∉ acts res.trace) (hs : NoSignal w.evs) :
    ∃ e rest, Client w opts e rest ∧ Act.ended .localin ∈ acts res.trace ∧ Act.ended .remotein ∈ acts res.trace ∧
      sent res.trace = announce w.codec opts e ++ taken res.trace ∧ returned res.trace = answered res.trace := by
  obtain ⟨st, hst, hcs⟩ := run_course hw ha hg hr
  rcases course_acts hcs with ⟨-, h'⟩ | ⟨e, rest, h1, h2⟩
  · rw [hc] at h'; simp at h'
  · refine ⟨e, rest, h1, ?_⟩
    rw [← headerOf_announce hst]
    exact h2.honest hc hf1 hf2 hs

/-- The streams are cut by the timer in the middle of the header and the exit code is 0 all the same (main_tlswrapper_tcp.c:509-512, 518). -/
theorem c101_cut_is_success : ∃ w, Sound w ∧ (sampleRun w).code = some 0 ∧
    program w b!"/var/empty" (b!"tlswrapper-tcp" :: sampleArgs) = .ok (sampleRun w) ∧
    sent (sampleRun w).trace = b!"PROX" ∧ returned (sampleRun w).trace = [] ∧ w.server = b!"220" := by
  refine ⟨{ sample with evs := [⟨allReady, .data 1, .data 1⟩, ⟨allReady, .data 1, .data 1⟩, ⟨some ⟨false, false, false, false, true⟩, .data 1, .data 1⟩] }, ?_, ?_⟩
  · have h := sample_sound
    exact ⟨h.codec, h.apart, h.strings, h.buf0, h.ip0, h.static, h.imem, h.omem, h.gai⟩
  · decide +kernel

/-- The server has closed its side for reading: what the client sends is lost and the exit code is 0. -/
theorem c101_lost_is_success : ∃ w, Sound w ∧ (sampleRun w).code = some 0 ∧ NoSignal w.evs ∧
    program w b!"/var/empty" (b!"tlswrapper-tcp" :: sampleArgs) = .ok (sampleRun w) ∧ sent (sampleRun w).trace = [] := by
  refine ⟨{ sample with evs := List.replicate 20 ⟨allReady, .data 9, .err 32⟩ }, ?_, ?_, ?_, ?_⟩
  · have h := sample_sound
    exact ⟨h.codec, h.apart, h.strings, h.buf0, h.ip0, h.static, h.imem, h.omem, h.gai⟩
  · decide +kernel
  · intro ev hev r hr
    rw [List.eq_of_mem_replicate hev] at hr
    cases hr
    rfl
  · decide +kernel

end TcpMain
