import Verif.Chain.Spec
/-
The client is the same one for every program of the row: C108.
-/
namespace Chain
open Conf.Spec (Opt values last switch)
open Relay

variable {E : Type}

/-- The four texts of an environment denote the endpoints they were made of. -/
theorem env_ends {C : Proxy.IpCodec} (hC : C.Lawful) {e : Proxy.Ends} (hz : ConnInfo.Sized e) {q : Jail.Proc} {env : ConnInfo.Env}
    (hi : Inherits q env) (h : ∀ n ∈ ConnInfo.names, q.env n = some (ConnInfo.textOf C e n)) : ConnInfo.FromEnv C env e := by
  have hp : ∀ p, Proxy.PortOf (Num.Spec.decimal (Proxy.portVal p)) p := fun p => ⟨Num.numeral_decimal _, Num.value_decimal _⟩
  obtain ⟨s1, w1⟩ := ConnInfo.addr_of_text C hC e.localip hz.1
  obtain ⟨s2, w2⟩ := ConnInfo.addr_of_text C hC e.remoteip hz.2
  exact ⟨⟨_, s1, hi _ (by decide) _ (h b!"TCPLOCALIP" (by decide)), w1⟩,
    ⟨_, hi _ (by decide) _ (h b!"TCPLOCALPORT" (by decide)), hp _⟩,
    ⟨_, s2, hi _ (by decide) _ (h b!"TCPREMOTEIP" (by decide)), w2⟩,
    ⟨_, hi _ (by decide) _ (h b!"TCPREMOTEPORT" (by decide)), hp _⟩⟩

/-- The text of an address holds no NUL, so none of it is lost. -/
theorem beforeNul_text {C : Proxy.IpCodec} (hC : C.Lawful) {ip : Bytes} (h : ip.length = 16) :
    Smtp.Spec.beforeNul (SmtpMain.text C ip) = SmtpMain.text C ip := by
  obtain ⟨six, ha⟩ := ConnInfo.addr_of_text C hC ip h
  have hn := ConnInfo.text_noNul C hC ha
  have ht : SmtpMain.text C ip = Proxy.iptostr C ip := by
    unfold SmtpMain.text Proxy.iptostr
    have : ([0, 0, 0, 0, 0, 0, 0, 0, 0, 0, 0xff, 0xff] <+: ip) ↔ ip.take 12 = Proxy.v4prefix := by
      rw [List.prefix_iff_eq_take]
      exact ⟨fun h => h.symm, fun h => h.symm⟩
    simp only [this]
  rw [ht]
  unfold Smtp.Spec.beforeNul
  generalize Proxy.iptostr C ip = t at hn
  induction t with
  | nil => rfl
  | cons b t ih =>
    rw [List.takeWhile_cons_of_pos (by simpa using hn b (by simp)), ih (fun x hx => hn x (by simp [hx]))]

/-- What both modes have in common. -/
theorem became_ends {w : TlsMain.World E} {emptydir a : Bytes} {args : List Bytes} {opts : List Opt} {prog : List Bytes} {res : TlsMain.Res}
    {q : Jail.Proc} {input : Bytes} (h : Became w emptydir a args opts prog res q input)
    (hm : switch (c! 'n') (c! 'N') false opts = true ∨ Tls.Ordered (TlsMain.acts res.trace)) :
    ∃ e rest, TlsMain.Client w opts e rest ∧ ConnInfo.Sized e ∧ (∀ n ∈ ConnInfo.names, q.env n = some (ConnInfo.textOf w.codec e n)) ∧
      (switch (c! 'n') (c! 'N') false opts = false → Tls.CanSend (TlsMain.acts res.trace) ∧ input = Tls.tookApp (TlsMain.acts res.trace)) := by
  obtain ⟨w1, w2, execs, env, p, revs, rr, hw1, hw2, hi, hc⟩ := h.becomes
  cases hd : switch (c! 'n') (c! 'N') false opts with
  | true =>
    obtain ⟨e, rest, k1, k2, k3, k4, -⟩ := TlsMain.c107_program_delayed h.sound emptydir a args h.strings opts prog h.good res h.run hd w.codec w1 w2
      hw1 hw2 execs env p q revs rr hc
    exact ⟨e, rest, k1, k2, k4, by simp⟩
  | false =>
    rw [hd] at hm
    obtain ⟨e, rest, k1, k2, k3, k4, k5, -⟩ := TlsMain.c107_program h.sound emptydir a args h.strings opts prog h.good res h.run hd (by simpa using hm) w.codec w1 w2
      hw1 hw2 execs env p q revs rr hc
    exact ⟨e, rest, k1, k2, k5, fun _ => ⟨k3, by rw [← hi]; exact k4⟩⟩

/-- **C108 (relay, then wrapper).** tlswrapper-tcp with `-P 1` in front of tlswrapper with `-p 1`: whom tlswrapper takes for its client is the
client of tlswrapper-tcp, and the bytes it takes for the client's are those the client sent to tlswrapper-tcp, none of
tlswrapper-tcp's own. -/
theorem c108_announced {w1 : TcpMain.World} {w2 : TlsMain.World E} {emptydir a1 : Bytes} {args1 : List Bytes} {opts1 opts2 : List Opt}
    {r1 : TcpMain.Res} (h1 : TcpRun w1 emptydir a1 args1 opts1 r1) (hC : w1.codec = w2.codec)
    (hout : b!"1" ∈ values (c! 'P') opts1) (hin : b!"1" ∈ values (c! 'p') opts2) (hlink : w2.client.src = TcpMain.sent r1.trace)
    {e2 : Proxy.Ends} {got : Bytes} (hc : TlsMain.Client w2 opts2 e2 got) :
    ∃ e rest, TcpMain.Client w1 opts1 e rest ∧ (Proxy.EndsOk e → Proxy.SameFamily e →
      e2 = e ∧ got <+: TcpMain.taken r1.trace ∧ TcpMain.taken r1.trace <+: rest) := by
  obtain ⟨host, port, hg⟩ := h1.good
  cases hc with
  | direct h => exact absurd hin h
  | announced L _ hL hn hl =>
    have hne1 : TcpMain.acts r1.trace ≠ [] := by
      intro h
      rw [hlink] at hL
      simp [TcpMain.sent, h, wroteOf] at hL
    obtain ⟨e, rest, c1, t1, -, s1⟩ := TcpMain.c100_stream h1.sound h1.strings hg h1.run hne1
    refine ⟨e, rest, c1, fun he hf => ?_⟩
    have hs := (s1 r1.trace [] (by simp)).1
    rw [TcpMain.announce, if_pos hout] at hs
    rw [hlink] at hL
    obtain ⟨more, hmore⟩ := hs
    rw [hL] at hmore
    obtain ⟨rfl, hgot⟩ := TcpMain.headerText_line w1.codec h1.sound.codec e he hf L (got ++ more) (TcpMain.taken r1.trace) e2
      (by rw [← hmore]; simp) hn (by rw [hC]; exact hl)
    exact ⟨rfl, ⟨more, hgot⟩, t1⟩

/-- **C108 (wrapper, then relay).** tlswrapper whose program is tlswrapper-tcp: the server is told, in the header if `-P 1` is given, the endpoints of
tlswrapper's client, whatever sockets there are in between, and is sent nothing else but, with encryption from the start, an
initial part of what was decrypted for this client after the handshake. -/
theorem c108_terminator {w : TlsMain.World E} {emptydir a a3 : Bytes} {args args3 : List Bytes} {opts opts3 : List Opt} {res : TlsMain.Res}
    {q : Jail.Proc} {w3 : TcpMain.World} {r3 : TcpMain.Res} (h : Became w emptydir a args opts (a3 :: args3) res q w3.client.src)
    (hm : switch (c! 'n') (c! 'N') false opts = true ∨ Tls.Ordered (TlsMain.acts res.trace))
    (h3 : TcpRun w3 emptydir a3 args3 opts3 r3) (hC : w3.codec = w.codec) (hi : Inherits q w3.env) (hin : b!"1" ∉ values (c! 'p') opts3)
    (hne : TcpMain.acts r3.trace ≠ []) :
    ∃ e rest, TlsMain.Client w opts e rest ∧ ConnInfo.Sized e ∧
      (∀ pre post, r3.trace = pre ++ post → TcpMain.sent pre <+: TcpMain.announce w.codec opts3 e ++ w3.client.src) ∧
      (switch (c! 'n') (c! 'N') false opts = false → Tls.CanSend (TlsMain.acts res.trace) ∧ w3.client.src = Tls.tookApp (TlsMain.acts res.trace)) := by
  obtain ⟨e, rest, k1, k2, k3, k4⟩ := became_ends h hm
  obtain ⟨host, port, hg⟩ := h3.good
  obtain ⟨e', rest', c1, c2, -, c3⟩ := TcpMain.c100_stream h3.sound h3.strings hg h3.run hne
  refine ⟨e, rest, k1, k2, fun pre post hp => ?_, k4⟩
  cases c1 with
  | announced L h => exact absurd h hin
  | direct _ hr he _ =>
    have := he e (by rw [hC]; exact env_ends h.sound.codec k2 hi k3)
    subst this
    subst hr
    have htk : TcpMain.taken pre <+: TcpMain.taken r3.trace := by
      unfold TcpMain.taken readOf
      rw [hp, TcpMain.acts_append, List.flatMap_append]
      exact List.prefix_append _ _
    obtain ⟨z, hz⟩ := htk.trans c2
    have := (c3 pre post hp).1
    rw [hC] at this
    refine this.trans ?_
    rw [← hz, ← List.append_assoc]
    exact List.prefix_append _ _

/-- **C108 (wrapper, then SMTP).** tlswrapper whose program is tlswrapper-smtp: whatever is asked of the greylist server is asked about
tlswrapper's client. -/
theorem c108_greylist {w : TlsMain.World E} {emptydir a a3 : Bytes} {args args3 : List Bytes} {opts opts3 : List Opt} {res : TlsMain.Res}
    {q : Jail.Proc} {input : Bytes} {w3 : SmtpMain.World} {r3 : SmtpMain.Res} (h : Became w emptydir a args opts (a3 :: args3) res q input)
    (hm : switch (c! 'n') (c! 'N') false opts = true ∨ Tls.Ordered (TlsMain.acts res.trace))
    (h3 : SmtpRun w3 emptydir a3 args3 opts3 r3) (hC : w3.codec = w.codec) (hi : Inherits q w3.env) :
    ∃ e rest, TlsMain.Client w opts e rest ∧ ∀ x, Smtp.Act.ask x ∈ SmtpMain.acts r3.trace →
      ∃ u v, x = b!"request=smtpd_access_policy\n" ++ b!"client_address=" ++ SmtpMain.text w.codec e.remoteip ++
        b!"\nsender=" ++ u ++ b!"\nrecipient=" ++ v ++ b!"\n\n" := by
  obtain ⟨e, rest, k1, k2, k3, k4⟩ := became_ends h hm
  obtain ⟨prog, hg⟩ := h3.good
  refine ⟨e, rest, k1, fun x hx => ?_⟩
  obtain ⟨-, e', u, v, c1, c2⟩ := SmtpMain.c104_questions h3.sound h3.strings hg h3.run x hx
  have := c1.env e (by rw [hC]; exact env_ends h.sound.codec k2 hi k3)
  subst this
  refine ⟨u, v, ?_⟩
  rw [c2, hC, beforeNul_text h.sound.codec k2.2]

/-- **C108 (three in a row).** tlswrapper-tcp with `-P 1`, tlswrapper with `-p 1`, and tlswrapper-smtp as its program: the greylist server is asked
about the client of tlswrapper-tcp. -/
theorem c108_row {w1 : TcpMain.World} {a1 : Bytes} {args1 : List Bytes} {opts1 : List Opt} {r1 : TcpMain.Res}
    {w : TlsMain.World E} {emptydir a a3 : Bytes} {args args3 : List Bytes} {opts opts3 : List Opt} {res : TlsMain.Res}
    {q : Jail.Proc} {input : Bytes} {w3 : SmtpMain.World} {r3 : SmtpMain.Res}
    (h1 : TcpRun w1 emptydir a1 args1 opts1 r1) (hC1 : w1.codec = w.codec)
    (hout : b!"1" ∈ values (c! 'P') opts1) (hin : b!"1" ∈ values (c! 'p') opts) (hlink : w.client.src = TcpMain.sent r1.trace)
    (h : Became w emptydir a args opts (a3 :: args3) res q input)
    (hm : switch (c! 'n') (c! 'N') false opts = true ∨ Tls.Ordered (TlsMain.acts res.trace))
    (h3 : SmtpRun w3 emptydir a3 args3 opts3 r3) (hC : w3.codec = w.codec) (hi : Inherits q w3.env) :
    ∃ e rest, TcpMain.Client w1 opts1 e rest ∧ (Proxy.EndsOk e → Proxy.SameFamily e → ∀ x, Smtp.Act.ask x ∈ SmtpMain.acts r3.trace →
      ∃ u v, x = b!"request=smtpd_access_policy\n" ++ b!"client_address=" ++ SmtpMain.text w.codec e.remoteip ++
        b!"\nsender=" ++ u ++ b!"\nrecipient=" ++ v ++ b!"\n\n") := by
  obtain ⟨e2, got, k1, k2⟩ := c108_greylist h hm h3 hC hi
  obtain ⟨e, rest, c1, c2⟩ := c108_announced h1 hC1 hout hin hlink k1
  exact ⟨e, rest, c1, fun he hf => by obtain ⟨rfl, -⟩ := c2 he hf; exact k2⟩

/-! ### A row to run -/

/-- tlswrapper-tcp, whose client says three bytes. -/
def tcp : TcpMain.World :=
  { TcpMain.sample with client := ⟨b!"PROXY TCP4 1.2.3.4 5.6.7.8 80 443\r\nhi!", List.replicate 40 (.data 9)⟩ }

/-- tlswrapper behind it, with tlswrapper-smtp as its program. -/
def wrapArgs : List Bytes :=
  [b!"-p1", b!"-j", b!"nobody", b!"-f", b!"/c.pem", b!"-a", b!"/ca.pem", b!"-U", b!"commonName", b!"s"] ++ SmtpMain.sampleArgs
def wrap (src : Bytes) : TlsMain.World Tls.Toy := { TlsMain.sample with client := ⟨src, List.replicate 40 (.data 9)⟩ }

/-- The environment of a process as a list. -/
def listed (q : Jail.Proc) : ConnInfo.Env := ConnInfo.names.filterMap (fun n => (q.env n).map (fun t => (n, t)))

/-- The three runs, each with what the one before it has made: what was decrypted, and what the greylist server is asked. -/
def row : Option (Bytes × List Smtp.Act) :=
  match TcpMain.program tcp b!"/e" (b!"r" :: TcpMain.sampleArgs) with
  | .ub => none
  | .ok r1 =>
    match TlsMain.program (wrap (TcpMain.sent r1.trace)) b!"/e" (b!"t" :: wrapArgs) with
    | .ub => none
    | .ok r2 =>
      match Main.childMain Proxy.cCodec TlsMain.sampleHost TlsMain.sampleHost true ⟨true, none⟩ [] Jail.rootProc
        ⟨TlsMain.given r2.trace, List.replicate 40 (.data 3)⟩ with
      | some (.ok (.exec q rr)) =>
        match SmtpMain.program { SmtpMain.sample with env := listed q } b!"/e" (b!"s" :: SmtpMain.sampleArgs) with
        | .ub => none
        | .ok r3 => some (rr.src, (SmtpMain.acts r3.trace).filter (fun a => match a with | .ask _ => true | _ => false))
      | _ => none

/-- The greylist server is asked about the client of the first program of the row. -/
theorem sample_row : row = some (b!"hi!",
    [.ask b!"request=smtpd_access_policy\nclient_address=1.2.3.4\nsender=<a>\nrecipient=<b>\n\n"]) := by decide +kernel

/-- The hypothesis on the command line of the second is met; those of the others are `TcpMain.sample_good` and `SmtpMain.sample_good`. -/
theorem wrap_good (src : Bytes) : Conf.Good (wrap src).fs wrapArgs TlsMain.sampleOpts (b!"s" :: SmtpMain.sampleArgs) := by
  obtain ⟨h1, h2, h3, h4⟩ := TlsMain.sample_good
  refine ⟨?_, by simp, h3, h4⟩
  exact .word (w := b!"p1") (by decide) (by decide) (.attached (by decide) (by decide))
      (.word (w := b!"j") (by decide) (by decide) (.separate (by decide))
      (.word (w := b!"f") (by decide) (by decide) (.separate (by decide))
      (.word (w := b!"a") (by decide) (by decide) (.separate (by decide))
      (.word (w := b!"U") (by decide) (by decide) (.separate (by decide)) (.prog (by decide))))))

/-- What the first of the row sends. -/
def tcpSends : Bytes := b!"PROXY TCP4 1.2.3.4 5.6.7.8 80 443\r\nhi!"

/-- An engine that never reports plaintext without also being able to send is `Ordered`. -/
theorem ordered_of {log : List (Act Fd)}
    (h : (log.filterMap (fun a => match a with | .eng (.state st) => some (!st.recvapp || st.sendapp) | _ => none)).all id = true) :
    Tls.Ordered log := by
  intro pre a post e st hs hr
  subst hs
  left
  rw [List.all_eq_true] at h
  have := h (!st.recvapp || st.sendapp) (List.mem_filterMap.mpr ⟨.eng (.state st), by rw [e]; simp, rfl⟩)
  simpa [hr] using this

theorem wrap_args : ∀ x ∈ wrapArgs, NoNul x := by decide

/-- All the hypotheses are met by that row. -/
theorem sample_became : ∃ res q, Became (wrap tcpSends) b!"/e" b!"t" wrapArgs TlsMain.sampleOpts (b!"s" :: SmtpMain.sampleArgs) res q b!"hi!" ∧
    Tls.Ordered (TlsMain.acts res.trace) ∧ Inherits q (listed q) := by
  obtain ⟨res, hr, h1, h2⟩ := TlsMain.out_check (x := TlsMain.program (wrap tcpSends) b!"/e" (b!"t" :: wrapArgs)) (P := fun res =>
    ((TlsMain.acts res.trace).filterMap (fun a => match a with | .eng (.state st) => some (!st.recvapp || st.sendapp) | _ => none)).all id = true ∧
    (match Main.childMain Proxy.cCodec TlsMain.sampleHost TlsMain.sampleHost true ⟨true, none⟩ [] Jail.rootProc
        ⟨TlsMain.given res.trace, List.replicate 40 (.data 3)⟩ with
      | some (.ok (.exec _ rr)) => some rr.src
      | _ => none) = some b!"hi!") (by decide +kernel)
  split at h2
  · rename_i q rr hq
    refine ⟨res, q, ⟨?_, wrap_args, wrap_good _, hr, TlsMain.sampleHost, TlsMain.sampleHost, true, [], Jail.rootProc, _, rr, ?_, ?_, ?_, hq⟩,
      ordered_of h1, ?_⟩
    · obtain ⟨a1, a2, a3, a4, a5, a6, a7, a8⟩ := TlsMain.sample_sound
      exact ⟨a1, a2, a3, a4, a5, a6, a7, a8⟩
    · intro n; simp [TlsMain.sampleHost, Jail.sampleWorld]
    · intro n; simp [TlsMain.sampleHost, Jail.sampleWorld]
    · exact Option.some.inj h2
    · intro n hn t ht
      rw [ConnInfo.var_iff]
      simp only [ConnInfo.names, List.mem_cons, List.not_mem_nil, or_false] at hn
      unfold listed
      have key : ∀ l : List Bytes, n ∈ l → ConnInfo.getenv (l.filterMap (fun n => (q.env n).map (fun t => (n, t)))) n = some (cstr t []) := by
        intro l hl
        induction l with
        | nil => cases hl
        | cons x l ih =>
          by_cases hx : x = n
          · subst hx
            simp [ht, ConnInfo.getenv]
          · have := ih (by simpa [Ne.symm hx] using hl)
            cases hq : q.env x with
            | none => simpa [hq] using this
            | some y => simpa [hq, ConnInfo.getenv, hx] using this
      exact key _ (by simpa [ConnInfo.names] using hn)
  · cases h2

/-- The first of the row does send that. -/
theorem tcp_sends : ∃ r, TcpMain.program tcp b!"/e" (b!"r" :: TcpMain.sampleArgs) = .ok r ∧ TcpMain.sent r.trace = tcpSends := by
  cases h : TcpMain.program tcp b!"/e" (b!"r" :: TcpMain.sampleArgs) with
  | ok r =>
    refine ⟨r, rfl, ?_⟩
    have : (match TcpMain.program tcp b!"/e" (b!"r" :: TcpMain.sampleArgs) with | .ok r => some (TcpMain.sent r.trace) | .ub => none) = some tcpSends := by
      decide +kernel
    rw [h] at this
    exact Option.some.inj this
  | ub =>
    have : (match TcpMain.program tcp b!"/e" (b!"r" :: TcpMain.sampleArgs) with | .ok _ => true | .ub => false) = true := by
      decide +kernel
    rw [h] at this
    cases this

end Chain
